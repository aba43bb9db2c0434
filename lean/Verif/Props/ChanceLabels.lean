import Verif.Props.Chance
/-! # C176: which of several label linkbases is followed is left to chance -/
namespace Telefacts
open Telefacts.Server Telefacts.Hydrate Telefacts.Schema Telefacts.Instance Telefacts.Render Telefacts.Spec Telefacts.Linkbase
  Telefacts.Document Telefacts.Json Telefacts.Catalog

/-- The linkbase is taken last. -/
def lastKey (k : String) (m : GoMap String (List LabelLink)) : GoMap String (List LabelLink) :=
  m.filter (fun e => !decide (e.1 = k)) ++ m.filter (fun e => decide (e.1 = k))

theorem lastKey_perm (k : String) (m : GoMap String (List LabelLink)) : (lastKey k m).Perm m :=
  List.perm_append_comm.trans (List.filter_append_perm _ m)

theorem lastKey_values {k : String} {m : GoMap String (List LabelLink)} {ls : List LabelLink} (hwf : MapWF m) (h : mapGet m k = some ls) :
    ∃ pre, values (lastKey k m) = pre ++ [ls] := by
  have hf : m.filter (fun e => decide (e.1 = k)) = [(k, ls)] := by
    induction m with
    | nil => simp [mapGet] at h
    | cons e m ih =>
      have hwf' : MapWF m := (List.nodup_cons.1 hwf).2
      have hnot : e.1 ∉ mapKeys m := (List.nodup_cons.1 hwf).1
      by_cases he : e.1 = k
      · have : e = (k, ls) := by
          have := (mapGet_iff_mem hwf).1 h
          rcases List.mem_cons.1 this with e' | e'
          · exact e'.symm
          · exact absurd (List.mem_map.2 ⟨_, e', he.symm⟩) hnot
        rw [List.filter_cons_of_pos (by simpa using he), this]
        congr 1
        rw [List.filter_eq_nil_iff]
        intro y hy
        have : y.1 ≠ k := fun e' => hnot (List.mem_map.2 ⟨y, hy, e'.trans he.symm⟩)
        simpa using this
      · rw [List.filter_cons_of_neg (by simpa using he)]
        refine ih hwf' ?_
        rw [mapGet_iff_mem hwf] at h
        rw [mapGet_iff_mem hwf']
        rcases List.mem_cons.1 h with e' | e'
        · exact absurd (by rw [← e']) he
        · exact e'
  exact ⟨(m.filter (fun e => !decide (e.1 = k))).map Prod.snd, by simp [values, lastKey, hf]⟩

theorem labelsOf_snoc (pre : List (List LabelLink)) (ls : List LabelLink) (href : String) :
    labelsOf (pre ++ [ls]) href = labelsOf pre href ++ labelsOf [ls] href := by
  simp [labelsOf]

/-- Of a concept that has one text in the linkbase that is taken last, that text is shown. -/
theorem last_shown {pre : List (List LabelLink)} {ls : List LabelLink} {href role lang t : String}
    (h : ∃ l ∈ labelsOf [ls] href, HasLabelRole l role ∧ InLang l lang ∧ t = l.chars)
    (ho : ∀ l ∈ labelsOf [ls] href, HasLabelRole l role → InLang l lang → l.chars = t) :
    Shown (getLabel (pre ++ [ls]) href) role lang t := by
  obtain ⟨l, h1, h2, h3, _⟩ := h
  obtain ⟨l', p, q, e, h4, h5⟩ := lastWith_exists (fun l => HasLabelRole l role ∧ InLang l lang) ⟨l, h1, h2, h3⟩
  refine ((C49_labels _ href).1 role lang t).2 (.inr ⟨l', ⟨labelsOf pre href ++ p, q, by rw [labelsOf_snoc, e, List.append_assoc], h4, h5⟩, ?_⟩)
  exact (ho l' (by rw [e]; simp) h4.1 h4.2).symm

theorem express_relabel (site : Site) (c : Choice) (l : Loaded) (ord : String → GoMap String (List LabelLink) → GoMap String (List LabelLink))
    (ht : TreesNamed (Server.folderOf site c l)) (name ref : String) (e : Expressable)
    (he : express (expressEnv site c l) name ref = .done (.expr e)) :
    ∃ e', express (expressEnv site { c with labelOrder := ord } l) name ref = .done (.expr e') ∧ e'.href = e.href := by
  unfold express at he ⊢
  cases hd : l.hyd.document with
  | none =>
    change (expressEnv site c l).doc = none at hd
    rw [hd] at he; cases he
  | some doc =>
    have hd' : (expressEnv site { c with labelOrder := ord } l).doc = some doc := hd
    change (expressEnv site c l).doc = some doc at hd
    rw [hd] at he
    rw [hd']
    simp only at he ⊢
    cases hx : mapGet doc.names name with
    | none => rw [hx] at he; simp at he
    | some x =>
      rw [hx] at he
      simp only at he ⊢
      cases hb : mapGet doc.ctxs ref with
      | none => rw [hb] at he; simp at he
      | some b =>
        rw [hb] at he
        simp only at he ⊢
        have eq : (expressEnv site { c with labelOrder := ord } l).nameQuery = (expressEnv site c l).nameQuery := rfl
        rw [eq]
        cases hq : (expressEnv site c l).nameQuery x.space x.loc with
        | err m => rw [hq] at he; simp at he
        | panic => rw [hq] at he; simp at he
        | ok href =>
          rw [hq] at he
          simp only at he ⊢
          have eq : (expressEnv site { c with labelOrder := ord } l).folder.insts = (expressEnv site c l).folder.insts := rfl
          rw [eq]
          cases hf : Query.findFact (expressEnv site c l).folder.insts href ref with
          | none => rw [hf] at he; simp at he
          | some fact =>
            rw [hf] at he
            simp only at he ⊢
            obtain ⟨p1, _⟩ := expressFact_panic (expressEnv site c l) href ref fact ht
            obtain ⟨q1, q2⟩ := expressFact_panic (expressEnv site { c with labelOrder := ord } l) href ref fact ht
            cases hfx : expressFact (expressEnv site { c with labelOrder := ord } l) href ref fact with
            | loop => exact absurd hfx q2
            | panic =>
              have := p1.2 (q1.1 hfx)
              rw [this] at he; cases he
            | done a =>
              obtain ⟨_, _, _, _, _, _, _, _, _, _, _, rfl⟩ := expressFact_done hfx
              obtain ⟨_, _, _, _, _, _, _, _, _, _, _, ha⟩ := expressFact_done he
              cases ha
              exact ⟨_, rfl, rfl⟩

/-- The linkbase gives the concept this text in the role and language, and no other. -/
def GivesOnly (x : Xml) (href role lang t : String) : Prop :=
  (∃ link ∈ x.kids, GivesLabel link href role lang t) ∧ ∀ t', (∃ link ∈ x.kids, GivesLabel link href role lang t') → t' = t

theorem lab_shown {site : Site} {l : Loaded} (hl : Loads site l.folder l.world l.files l.hyd) {n : String} {x : Xml}
    (hx : LinkedFile (site.disk l.folder) .lab n x) {href role lang t : String} (hg : GivesOnly x href role lang t) :
    Shown (getLabel (values (lastKey n l.hyd.label)) href) role lang t := by
  obtain ⟨_, hfw, fuel, sched, hp, hload, _⟩ := hl
  have hfair : Fair l.world := ⟨hfw.p, hfw.d, hfw.c, hfw.n, hfw.l⟩
  obtain ⟨_, _, _, _, _, _, l1, _⟩ := C101_disk _ _ hfair fuel sched hp _ _ hload
  have hwf : MapWF l.hyd.label := by
    obtain ⟨fo0, h1, _, h2⟩ := load_some hload
    rw [‹l.files = _›] at h2
    obtain ⟨_, _, _, _, e5, _, _⟩ := C101_entries _ hfair _ (filesOf_wf h1) _ h2
    exact e5.1
  obtain ⟨file, hf⟩ := isLinkbase_exists .lab hx.2.2
  obtain ⟨ls, hb, hc⟩ := l1 n x file hx hf
  obtain ⟨pre, e⟩ := lastKey_values hwf hb
  rw [e]
  refine last_shown ((labels_iff _ hf hc href role lang t).2 hg.1) fun y hy h1 h2 => ?_
  exact hg.2 _ ((labels_iff _ hf hc href role lang _).1 ⟨y, hy, h1, h2, rfl⟩)

/-- **C176.** Each label linkbase that gives the concept of an expressed fact one text in a role and language is followed in some answer to the
request: a client finds the text there. -/
theorem C176_label (site : Site) (l : Loaded) (hl : Loads site l.folder l.world l.files l.hyd) (c : Choice) (hc : c.Fair l.hyd)
    (ht : TreesNamed (Server.folderOf site c l)) (name ref : String) (b : Store.Bytes) (h : expression site c name ref l = .done (some b, none))
    (v : Json) (hv : IsText (decodeUtf8 b) v) (href : String) (hh : At v [.key "Href"] (.str href))
    (n : String) (x : Xml) (hx : LinkedFile (site.disk l.folder) .lab n x) (role lang t : String) (hg : GivesOnly x href role lang t) :
    ∃ c' b' v', c'.Fair l.hyd ∧ expression site c' name ref l = .done (some b', none) ∧ (∀ u, IsText (decodeUtf8 b') u ↔ u = v') ∧
      At v' [.key "Labels", .key role, .key lang] (.str t) := by
  unfold expression at h
  cases hex : express (expressEnv site c l) name ref with
  | panic => rw [hex] at h; simp [Run.andThen] at h
  | loop => rw [hex] at h; simp [Run.andThen] at h
  | done a =>
    rw [hex] at h
    cases a with
    | error m => simp [Run.andThen] at h
    | nothing => simp [Run.andThen] at h
    | expr e =>
      simp only [Run.andThen, Run.done.injEq, Prod.mk.injEq, Option.some.injEq, and_true] at h
      subst h
      obtain ⟨w, hw, hw1, _⟩ := C117_expression (expressEnv site c l) (fun x => getLabel_wf _ _) hc.member name ref e hex
      rw [decode_encoded] at hv
      cases (hw v).1 hv
      have hhref : e.href = href := by
        obtain ⟨y, hy, rfl⟩ := hh
        exact (Json.str.inj (member_only hw1 hy))
      obtain ⟨e', he', hr⟩ := express_relabel site c l (fun _ => lastKey n) ht name ref e hex
      have hc' : ({ c with labelOrder := fun _ => lastKey n } : Choice).Fair l.hyd :=
        { hc with label := fun _ m => lastKey_perm n m }
      obtain ⟨w', hw', _, ⟨y, hy, hy1, _⟩, _⟩ :=
        C117_expression (expressEnv site { c with labelOrder := fun _ => lastKey n } l) (fun x => getLabel_wf _ _) hc'.member name ref e' he'
      refine ⟨_, encodeUtf8 (marshalExpressable e'), w', hc', ?_, by rw [decode_encoded]; exact hw', ?_⟩
      · unfold expression
        rw [he']
        rfl
      · obtain ⟨_, _, _, _, _, _, _, _, _, _, _, _, _, h7⟩ := express_parts he'
        have hlab : e'.labels = getLabel (values (lastKey n l.hyd.label)) href := by
          rw [h7]
          show getLabel (values (lastKey n l.hyd.label)) e'.href = _
          rw [hr, hhref]
        obtain ⟨q, s1, s2⟩ := lab_shown hl hx hg
        rw [← hlab] at s1
        obtain ⟨z, hz, hz1⟩ := hy1 role q (mem_of_mapGet s1)
        exact ⟨y, hy, z, hz, _, (hz1 lang _).2 ⟨t, rfl, mem_of_mapGet s2⟩, rfl⟩

/-- **C176 (refuted).** Whenever two label linkbases give the concept of an expressed fact different texts in the same role and language, the
same request may be answered in two ways. -/
theorem C176_label_fails (site : Site) (l : Loaded) (hl : Loads site l.folder l.world l.files l.hyd) (c : Choice) (hc : c.Fair l.hyd)
    (ht : TreesNamed (Server.folderOf site c l)) (name ref : String) (b : Store.Bytes) (h : expression site c name ref l = .done (some b, none))
    (v : Json) (hv : IsText (decodeUtf8 b) v) (href : String) (hh : At v [.key "Href"] (.str href))
    (n n' : String) (x x' : Xml) (hx : LinkedFile (site.disk l.folder) .lab n x) (hx' : LinkedFile (site.disk l.folder) .lab n' x')
    (role lang t t' : String) (hg : GivesOnly x href role lang t) (hg' : GivesOnly x' href role lang t') (hne : t ≠ t') :
    ∃ c₁ b₁ c₂ b₂, c₁.Fair l.hyd ∧ c₂.Fair l.hyd ∧ expression site c₁ name ref l = .done (some b₁, none) ∧
      expression site c₂ name ref l = .done (some b₂, none) ∧ b₁ ≠ b₂ := by
  obtain ⟨c₁, b₁, v₁, h1, h2, h3, y1, hy1, z1, hz1, _, hw1, rfl⟩ := C176_label site l hl c hc ht name ref b h v hv href hh n x hx role lang t hg
  obtain ⟨c₂, b₂, v₂, k1, k2, k3, y2, hy2, z2, hz2, _, hw2, rfl⟩ := C176_label site l hl c hc ht name ref b h v hv href hh n' x' hx' role lang t' hg'
  refine ⟨c₁, b₁, c₂, b₂, h1, k1, h2, k2, fun e => hne ?_⟩
  subst e
  cases (k3 v₁).1 ((h3 v₁).2 rfl)
  cases member_only hy1 hy2
  cases member_only hz1 hz2
  exact Json.str.inj (member_only hw1 hw2)

/-! A folder with an inline document and two label linkbases, which do not agree on the label of the concept. -/

def twiceSchema : Xml :=
  .mk ⟨Disc.XSD, "schema"⟩ [⟨⟨"", "targetNamespace"⟩, "http://x"⟩] "" "" [
    .mk ⟨Disc.XSD, "annotation"⟩ [] "" "" [.mk ⟨Disc.XSD, "appinfo"⟩ [] "" "" [
      .mk ⟨LINK, "linkbaseRef"⟩ [⟨⟨XLINK, "arcrole"⟩, Disc.LINKARCROLE⟩, ⟨⟨XLINK, "type"⟩, "simple"⟩,
        ⟨⟨XLINK, "role"⟩, Disc.LKind.lab.role⟩, ⟨⟨XLINK, "href"⟩, "l.xml"⟩] "" "" [],
      .mk ⟨LINK, "linkbaseRef"⟩ [⟨⟨XLINK, "arcrole"⟩, Disc.LINKARCROLE⟩, ⟨⟨XLINK, "type"⟩, "simple"⟩,
        ⟨⟨XLINK, "role"⟩, Disc.LKind.lab.role⟩, ⟨⟨XLINK, "href"⟩, "m.xml"⟩] "" "" []]],
    .mk ⟨Disc.XSD, "element"⟩ [⟨⟨"", "id"⟩, "x_Cash"⟩, ⟨⟨"", "name"⟩, "Cash"⟩, ⟨⟨"", "type"⟩, "t"⟩] "" "" []]

def twiceText : Xml :=
  .mk ⟨LINK, "label"⟩ [⟨⟨XLINK, "type"⟩, "resource"⟩, ⟨⟨XLINK, "label"⟩, "lab"⟩, ⟨⟨XLINK, "role"⟩, "http://www.xbrl.org/2003/role/label"⟩,
    ⟨⟨"xml", "lang"⟩, "en-US"⟩] "Money" "Money" []
def twiceLinks : Xml := .mk ⟨LINK, "linkbase"⟩ [] "" "" [
  .mk ⟨LINK, "labelLink"⟩ [⟨⟨XLINK, "type"⟩, "extended"⟩, ⟨⟨XLINK, "role"⟩, "r"⟩] "" "" [labelledLoc, labelledArc, twiceText]]

def twiceDisk : Disk where
  entryName := some "r.htm"
  images := []
  read := fun n => if n = "r.htm.xml" then some reportXml else if n = "x.xsd" then some twiceSchema
    else if n = "l.xml" then some labelledLinks else if n = "m.xml" then some twiceLinks else none
  fileExists := fun _ => true
  doc := fun _ => some (some ⟨docHtml, [], [docFact "x:Cash" "c"]⟩)
  isUrl := fun _ => false

def twiceSite : Site := { demoSite with disk := fun _ => twiceDisk }

theorem twice_loads {fo : Files} {h : Hydratable} (hl : load twiceDisk inkWorld 3 id = some (.done (some (fo, h)))) :
    Loads twiceSite "a-1" inkWorld fo h := by
  refine ⟨⟨_, _, _, _, _, _, _, rfl⟩, ⟨fun _ _ => .refl _, fun _ _ => .refl _, fun _ _ => .refl _, fun _ _ => .refl _, fun _ _ => .refl _⟩, 3, id,
    fun _ => .refl _, hl, fun fo x hf hx => ?_, Disc.realised_id _ _⟩
  have : (match Disc.discover twiceDisk.env 3 id with
    | some (.ok fo) => fo.document.map fun x => (x.nonNumerics.length, x.nonFractions.length)
    | _ => none) = some (0, 1) := by decide +kernel
  change Disc.discover twiceDisk.env 3 id = _ at hf
  rw [hf] at this
  simp only [hx, Option.map_some, Option.some.injEq, Prod.mk.injEq] at this
  refine ⟨fun i hi => by omega, fun i hi => ?_⟩
  obtain rfl : i = 0 := by omega
  decide

/-- The file of a label linkbase that was loaded, which has one label of the concept. -/
theorem gives_only {site : Site} {l : Loaded} (hl : Loads site l.folder l.world l.files l.hyd) {n href role lang : String} {ls : List LabelLink}
    (hn : mapGet l.hyd.label n = some ls) {y : Label} (hy : labelsOf [ls] href = [y]) (hr : HasLabelRole y role) (hi : InLang y lang) :
    ∃ x, LinkedFile (site.disk l.folder) .lab n x ∧ GivesOnly x href role lang y.chars := by
  obtain ⟨_, hfw, fuel, sched, hp, hload, _⟩ := hl
  obtain ⟨_, _, _, _, _, _, _, l2⟩ := C101_disk _ _ ⟨hfw.p, hfw.d, hfw.c, hfw.n, hfw.l⟩ fuel sched hp _ _ hload
  obtain ⟨x, file, hx, hf, hc⟩ := l2 n ls hn
  refine ⟨x, hx, (labels_iff _ hf hc href role lang _).1 ⟨y, by rw [hy]; simp, hr, hi, rfl⟩, fun t' ht' => ?_⟩
  obtain ⟨z, hz, _, _, rfl⟩ := (labels_iff _ hf hc href role lang t').2 ht'
  rw [hy, List.mem_singleton] at hz
  rw [hz]

/-- The hypotheses of C176 about labels are met, with the texts "Cash at bank" and "Money". -/
example : ∃ fo h b v x x', Loads twiceSite "a-1" inkWorld fo h ∧ (demoChoice h).Fair h ∧
    TreesNamed (Server.folderOf twiceSite (demoChoice h) ⟨"a-1", inkWorld, fo, h⟩) ∧
    expression twiceSite (demoChoice h) "x:Cash" "c" ⟨"a-1", inkWorld, fo, h⟩ = .done (some b, none) ∧ IsText (decodeUtf8 b) v ∧
    At v [.key "Href"] (.str "x.xsd#x_Cash") ∧ LinkedFile (twiceSite.disk "a-1") .lab "l.xml" x ∧ LinkedFile (twiceSite.disk "a-1") .lab "m.xml" x' ∧
    GivesOnly x "x.xsd#x_Cash" "Default" "en - english" "Cash at bank" ∧ GivesOnly x' "x.xsd#x_Cash" "Default" "en - english" "Money" := by
  have he : (match load twiceDisk inkWorld 3 id with
    | some (.done (some (fo, h))) =>
      decide ((mapGet h.label "l.xml").map (fun ls => labelsOf [ls] "x.xsd#x_Cash") = some [labelledCash]) &&
      decide ((mapGet h.label "m.xml").map (fun ls => labelsOf [ls] "x.xsd#x_Cash") =
        some [⟨"lab", "http://www.xbrl.org/2003/role/label", "en-US", "Money"⟩]) &&
      ((values h.instances).all fun i => i.contexts.all fun c => c.segment.typed.isEmpty && c.scenario.typed.isEmpty) &&
      (match express (expressEnv twiceSite (demoChoice h) ⟨"a-1", inkWorld, fo, h⟩) "x:Cash" "c" with
        | .done (.expr e) => decide (e.href = "x.xsd#x_Cash")
        | _ => false)
    | _ => false) = true := by decide +kernel
  split at he
  · rename_i fo h hl
    simp only [Bool.and_eq_true, decide_eq_true_eq] at he
    obtain ⟨⟨⟨h1, h2⟩, h3⟩, h4⟩ := he
    split at h4
    · rename_i e hex
      have h4 := of_decide_eq_true h4
      obtain ⟨ls, k1, k2⟩ := Option.map_eq_some_iff.1 h1
      obtain ⟨ls', k1', k2'⟩ := Option.map_eq_some_iff.1 h2
      have hld := twice_loads hl
      obtain ⟨x, hx, hg⟩ := gives_only (l := ⟨"a-1", inkWorld, fo, h⟩) hld k1 (role := "Default") (lang := "en - english") k2 (.inl ⟨rfl, rfl⟩) (.inl ⟨rfl, rfl⟩)
      obtain ⟨x', hx', hg'⟩ := gives_only (l := ⟨"a-1", inkWorld, fo, h⟩) hld k1' (role := "Default") (lang := "en - english") k2' (.inl ⟨rfl, rfl⟩) (.inl ⟨rfl, rfl⟩)
      obtain ⟨w, hw, hw1, _⟩ := C117_expression _ (fun x => getLabel_wf _ _) (demoChoice_fair h).member _ _ e hex
      refine ⟨fo, h, encodeUtf8 (marshalExpressable e), w, x, x', hld, demoChoice_fair h, ?_, by unfold expression; rw [hex]; rfl,
        by rw [decode_encoded]; exact (hw w).2 rfl, ⟨_, h4 ▸ hw1, rfl⟩, hx, hx', hg, hg'⟩
      intro i hi c hc t ht
      rw [List.all_eq_true] at h3
      have := h3 i hi
      rw [List.all_eq_true] at this
      have := this c hc
      simp only [Bool.and_eq_true, List.isEmpty_iff] at this
      simp only [typedTrees, this.1, this.2, List.map_nil, List.not_mem_nil, or_self] at ht
    · cases h4
  · cases he

end Telefacts
