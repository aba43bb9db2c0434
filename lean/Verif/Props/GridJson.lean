import Verif.Proof.GridWF
import Verif.Props.EndToEnd
/-! # C116 - C118: the JSON of renderables and expressions -/
namespace Telefacts
open Telefacts.Render Telefacts.Instance Telefacts.Spec Telefacts.Json Telefacts.Catalog Telefacts.Linkbase Telefacts.Hydrate
  Telefacts.Decode Telefacts.Schema

/-- **C116.** What a client that reads the answer to a renderable request finds: the relationship set and the subject, the languages
and label roles, and the three grids with every row, header, member, fact, footnote number and footnote in its place. -/
theorem C116_renderable (f : Folder) (hl : ∀ h, PackWF (f.label h)) (fe : FactEnv)
    (notes : Option Fact → List Footnote) (co : Nat → Nat → GoMap String Footnote → GoMap String Footnote)
    (lo : GoMap String Footnote → GoMap String Footnote) (env : GridEnv (Option MultilingualFact))
    (hord : ∀ m, (env.memberOrder m).Perm m) (hs : env.source = folderSource f.insts fe notes co lo)
    (spanish : Date → Option String) (sched : Schedule) (b : Books) (entity role : String) (g : Grids (Option MultilingualFact))
    (h : renderGrids f env spanish sched b entity role = .done g) (subject : Subject) (rset : RSet) :
    ∃ w, (∀ v, IsText (marshalRenderable (calcFound role [] b.calculation) ⟨subject, rset, g⟩) v ↔ v = w) ∧
      RenderableText w ⟨subject, rset, g⟩ := by
  obtain ⟨h1, h2⟩ := gridsWF (f := f) (fun x => labelWF_of (hl x)) hord
    (by intro langs fact; rw [hs]; exact renderCell_wf fe langs fact) h
  exact ⟨_, C109_reads_back _ (written_ofRenderable _ _), renderableText _ _ h1 h2⟩

/-- The hypotheses of `C116_renderable` hold of the folder of `fullGrids`. -/
example : (∀ h, PackWF (fullFolder.label h)) ∧ (∀ m, (fullEnv.memberOrder m).Perm m) ∧
    fullEnv.source = folderSource fullFolder.insts fullFacts (fun _ => []) (fun _ _ m => m) (fun m => m) ∧ (∃ g, fullGrids = .done g) ∧
    calcFound "r" [] fullBooks.calculation = true := by
  refine ⟨fun h => getLabel_wf _ _, fun m => .refl _, rfl, ?_, by decide +kernel⟩
  have h : fullGet (fun g => g.p.rows.length) = some 2 := by decide +kernel
  unfold fullGet at h
  split at h
  · exact ⟨_, ‹_›⟩
  · cases h

/-- The bytes of a row and of a cell. -/
example : String.ofList (text (ofLabelled "x#A" [("Default", [("en", "<A>")])])) =
      "{\"Href\":\"x#A\",\"Label\":{\"Default\":{\"en\":\"\\u003cA\\u003e\"}}}" ∧
    String.ofList (text (ofFact [("Unlabelled", ⟨"", "nil", "", ""⟩)])) =
      "{\"Unlabelled\":{\"Head\":\"\",\"Core\":\"nil\",\"Tail\":\"\",\"InnerHtml\":\"\"}}" ∧
    String.ofList (text (ofCGrid false [])) = "{\"SummationItems\":null}" := by decide +kernel

theorem periodTexts_wf (spanish : Date → Option String) (labels : LabelPack) (c : Context) : MapWF (periodTexts spanish labels c) := by
  have key : ∀ (pack : LanguagePack) (start stop : String), MapWF pack → MapWF (addPeriodTexts spanish pack labels start stop) := by
    intro pack start stop
    unfold addPeriodTexts
    generalize (labels.flatMap fun item => item.2.map Prod.fst) = ls
    induction ls generalizing pack with
    | nil => intro h; exact h
    | cons l ls ih =>
      intro h
      rw [List.foldl_cons]
      apply ih
      split_ifs
      · exact h.mapSet _ _
      · exact h.mapSet _ _
      · exact h
  unfold periodTexts
  split_ifs
  · exact key _ _ _ (by simp [MapWF, mapKeys, PureLabel, BriefLabel])
  · exact key _ _ _ (by simp [MapWF, mapKeys, PureLabel, BriefLabel])
  · simp [MapWF, mapKeys]

/-- **C117.** What a client that reads the answer to an expression request finds. -/
theorem C117_expression (env : ExpressEnv) (hl : ∀ h, PackWF (env.folder.label h))
    (hord : ∀ m, (env.memberOrder m).Perm m) (name ref : String) (e : Expressable) (h : express env name ref = .done (.expr e)) :
    ∃ w, (∀ v, IsText (marshalExpressable e) v ↔ v = w) ∧ ExpressableText w e := by
  have hlab : ∀ x, LabelWF (env.folder.label x) := fun x => labelWF_of (hl x)
  refine ⟨_, C109_reads_back _ (written_ofExpressable _), ?_⟩
  unfold express at h
  split at h
  · simp at h
  · split at h
    · simp at h
    · split at h
      · simp at h
      · split at h
        · simp at h
        · simp at h
        · split at h
          · simp at h
          · obtain ⟨i, rest, c, rel, grid, m, _, _, hr, hg, hm, ha⟩ := expressFact_done h
            cases ha
            have hgood := relevant_good hlab hr
            obtain ⟨h1, h2⟩ := memberGrid_good (fun x => LabelWF x.label) hord
              (fun c hc => (hgood c (by
                rw [Option.mem_toList] at hc
                exact List.mem_of_find?_eq_some hc)).2) hg
            obtain ⟨m', hm', hw⟩ := renderCell_wf env.facts [PureLabel] (some _)
            rw [hm] at hm'; cases hm'
            exact expressableText _ (hlab _) (periodTexts_wf _ _ _) h1 h2 hw

/-- The hypotheses of `C117_expression` hold of the fact in `c1`. -/
example : (∀ h, PackWF ((exprEnv [exprInst] (some exprDoc)).folder.label h)) ∧
    (∀ m, ((exprEnv [exprInst] (some exprDoc)).memberOrder m).Perm m) ∧
    ∃ e, express (exprEnv [exprInst] (some exprDoc)) "x:Cash" "c1" = .done (.expr e) := by
  refine ⟨fun h => ⟨?_, ?_⟩, fun m => .refl _, ⟨"x#Cash", [("Default", [("Unlabelled", "x#Cash"), (English, "Cash")])],
    [("Unlabelled", "2020-12-31"), ("Truncated", "2020-12-31"), (English, "as of December 31, 2020")], [], [],
    [("Unlabelled", ⟨"", "12", "", ""⟩)], ["a footnote"]⟩, by decide +kernel⟩
  · simp [exprEnv, MapWF, mapKeys]
  · intro e he
    simp only [exprEnv, List.mem_singleton] at he
    subst he
    simp [MapWF, mapKeys, English]

/-! ## From the file to the client -/

theorem elems_get {α : Type} {R : Json → α → Prop} {v : Json} {l : List α} (h : Elems R v l) {i : Nat} {a : α} (hi : l[i]? = some a) :
    ∃ js y, v = .arr js ∧ js[i]? = some y ∧ R y a := by
  obtain ⟨js, rfl, h⟩ := h
  refine ⟨js, ?_⟩
  induction h generalizing i with
  | nil => simp at hi
  | cons hr _ ih =>
    cases i with
    | zero => simp only [List.getElem?_cons_zero, Option.some.injEq] at hi; subst hi; exact ⟨_, rfl, rfl, hr⟩
    | succ i =>
      obtain ⟨y, _, h1, h2⟩ := ih hi
      exact ⟨y, rfl, h1, h2⟩

theorem elems_got {α : Type} {R : Json → α → Prop} {v : Json} {l : List α} (h : Elems R v l) {js : List Json} {i : Nat} {y : Json}
    (hv : v = .arr js) (hi : js[i]? = some y) : ∃ a, l[i]? = some a ∧ R y a := by
  obtain ⟨js', rfl, h⟩ := h
  cases hv
  induction h generalizing i with
  | nil => simp at hi
  | cons hr _ ih =>
    cases i with
    | zero => simp only [List.getElem?_cons_zero, Option.some.injEq] at hi; subst hi; exact ⟨_, rfl, hr⟩
    | succ i => exact ih hi

theorem member_only {v : Json} {k : String} {x y : Json} (h : Member v k x) (h' : Member v k y) : x = y := member_inj _ _ _ _ h h'

/-- The texts of a fact without accuracy. -/
theorem cell_core {fe : FactEnv} {f : Fact} {c : Concept} (hc : fe.concept f.href = some c) (ht : c.type.loc ≠ "textBlockItemType")
    (hp : f.precision = -2147483647) {langs : List Lang} (hl : "Unlabelled" ∈ langs) :
    ∃ m, renderCell fe (some f) langs = some m ∧ ("Unlabelled", ⟨"", if f.isNil then "nil" else f.inner, "", ""⟩) ∈ m := by
  cases hn : f.isNil with
  | true => exact ⟨_, (C56_missing_nil fe langs f).2 hn, List.mem_singleton.2 rfl⟩
  | false =>
    obtain ⟨m, h1, _, h3⟩ := C56_entries fe langs f hn
    obtain ⟨q, hq, hq1⟩ := List.mem_map.1 ((h3 "Unlabelled").2 ⟨hl, .inr (.inr rfl)⟩)
    obtain ⟨k, e⟩ := q
    cases hq1
    refine ⟨m, h1, ?_⟩
    rw [C56_verbatim fe langs f c hn hc ht hp m h1 _ _ hq] at hq
    simpa using hq

/-- The members of a column, as the client finds them. -/
theorem members_shown {v : Json} {f : Render.Folder} {members : List (List MemberCell)} {voids : List VoidCell} {c : Context}
    {col : RelevantContext} {j : Nat} (hc : (∃ x, Member v "ContextualMemberGrid" x ∧ Elems (Elems MemberText) x members) ∧
      ∃ x, Member v "VoidQuadrant" x ∧ Elems VoidText x voids) (h4 : ColumnOf f c col) (h5 : MemberColumn members voids j col) :
    MembersShown v j c := by
  constructor
  · rintro i dim mem ⟨x, hx, l, y, rfl, hy, z, hz, _, hdim, e1⟩ ⟨x', hx', l', y', rfl, hy', l2, y2, rfl, hy2, z2, hz2, _, hmem, e2⟩
    obtain ⟨⟨xm, hxm, hm⟩, ⟨xv, hxv, hv⟩⟩ := hc
    cases member_only hx hxv
    cases member_only hx' hxm
    obtain ⟨vc, hvc, _, _, ⟨d, hd, hdl⟩, _⟩ := elems_got hv rfl hy
    cases member_only hz hd
    have hdim' : vc.dimension.href = dim := by
      have := member_only hdim hdl.1
      subst e1
      simpa using this.symm
    obtain ⟨mrow, hmrow, hcells⟩ := elems_got hm rfl hy'
    obtain ⟨cell, hcell, hcx, _⟩ := elems_got hcells rfl hy2
    obtain ⟨vc', hvc', hcase⟩ := (h5 i cell).1 ⟨mrow, hmrow, hcell⟩
    rw [hvc] at hvc'; cases hvc'
    cases hce : cell.explicit with
    | none =>
      rw [hce] at hcx
      obtain ⟨l3, rfl, hno⟩ := hcx
      obtain ⟨a, b, hab, _⟩ := hz2
      cases hab
      exact absurd rfl (hno _ (List.mem_append_right _ List.mem_cons_self))
    | some em =>
      rw [hce] at hcx
      obtain ⟨xe, hxe, hlt⟩ := hcx
      cases member_only hz2 hxe
      have hmem' : em.href = mem := by
        have := member_only hmem hlt.1
        subst e2
        simpa using this.symm
      rcases hcase with ⟨rm, hfw, hsh⟩ | ⟨_, hc2⟩
      · rcases hsh with ⟨_, hex, _⟩ | ⟨_, hex, _⟩
        · rw [hce] at hex
          obtain ⟨hrm, hmt⟩ := firstWith_mem hfw
          rcases (h4.2.2 rm).1 hrm with ⟨e, he, _, h8, h9, _⟩ | ⟨e, he, _, h8, h9, _⟩ | ⟨t, _, d, v, _, _, _, h9, _⟩
          · refine ⟨e, .inl he, ?_, ?_⟩
            · rw [← hdim', ← hmt.1, h8]
            · rw [← hex] at h9; simp only [Option.some.injEq] at h9; rw [← hmem', h9]
          · refine ⟨e, .inr he, ?_, ?_⟩
            · rw [← hdim', ← hmt.1, h8]
            · rw [← hex] at h9; simp only [Option.some.injEq] at h9; rw [← hmem', h9]
          · rw [← hex] at h9; cases h9
        · rw [hce] at hex; cases hex
      · rw [hc2] at hce; cases hce
  · rintro i dim mem x0 ⟨x, hx, l, y, rfl, hy, z, hz, _, hdim, e1⟩ ⟨x', hx', l', y', hl', hy', e2⟩ habs ⟨em, hem, rfl, rfl⟩
    cases member_only hx hx'
    cases hl'
    rw [hy] at hy'; cases hy'
    subst e2
    obtain ⟨⟨xm, hxm, hm⟩, ⟨xv, hxv, hv⟩⟩ := hc
    cases member_only hx hxv
    obtain ⟨vc, hvc, _, _, ⟨d, hd, hdl⟩, hty⟩ := elems_got hv rfl hy
    cases member_only hz hd
    have hdim' : vc.dimension.href = em.dimHref := by
      have := member_only hdim hdl.1
      subst e1
      simpa using this.symm
    have hvt : vc.typedDomain = none := by
      cases ht : vc.typedDomain with
      | none => rfl
      | some t =>
        rw [ht] at hty
        obtain ⟨xt, ⟨a, b, hab, _⟩, _⟩ := hty
        obtain ⟨l3, hl3, hno⟩ := habs
        rw [hab] at hl3
        cases hl3
        exact absurd rfl (hno _ (List.mem_append_right _ List.mem_cons_self))
    obtain ⟨rm, hrm, hmt⟩ : ∃ rm ∈ col.members, Matches vc rm := by
      rcases hem with hem | hem
      · exact ⟨_, (h4.2.2 ⟨_, _, _, _, _⟩).2 (.inl ⟨em, hem, rfl, rfl, rfl, rfl, rfl⟩), hdim'.symm, .inl ⟨rfl, hvt⟩⟩
      · exact ⟨_, (h4.2.2 ⟨_, _, _, _, _⟩).2 (.inr (.inl ⟨em, hem, rfl, rfl, rfl, rfl, rfl⟩)), hdim'.symm, .inl ⟨rfl, hvt⟩⟩
    obtain ⟨rm', hfw⟩ : ∃ rm', FirstWith (Matches vc) col.members rm' := by
      exact firstWith_exists ⟨rm, hrm, hmt⟩
    obtain ⟨hrm', hmt'⟩ := firstWith_mem hfw
    have hrt : rm'.typedDomain = none := by
      rcases hmt'.2 with ⟨a, _⟩ | ⟨_, b, _, hb, _⟩
      · exact a
      · rw [hvt] at hb; cases hb
    obtain ⟨ex, hex⟩ : ∃ ex, rm'.explicit = some ex := by
      rcases (h4.2.2 rm').1 hrm' with ⟨e, _, _, _, h9, _⟩ | ⟨e, _, _, _, h9, _⟩ | ⟨t, _, d, v, _, _, _, _, h9, _⟩
      · exact ⟨_, h9⟩
      · exact ⟨_, h9⟩
      · rw [hrt] at h9; cases h9
    obtain ⟨mrow, hmrow, hcell⟩ := (h5 i ⟨some ex, ""⟩).2 ⟨vc, hvc, .inl ⟨rm', hfw, .inl ⟨hrt, hex.symm, rfl⟩⟩⟩
    obtain ⟨js, y2, rfl, hy2, hr⟩ := elems_get hm hmrow
    obtain ⟨js', z2, rfl, hz2, ⟨xe, hxe, hlt⟩, _⟩ := elems_get hr hcell
    exact ⟨ex.href, _, hxm, _, _, rfl, hy2, _, z2, rfl, hz2, xe, hxe, _, hlt.1, rfl⟩

/-- A value that is shown, as the client finds it. -/
theorem text_shown {v : Json} {f : Render.Folder} {hrefs : List String} {periods : List LanguagePack} {members : List (List MemberCell)}
    {voids : List VoidCell} {q : Quadrant (Option MultilingualFact)} {href : String} {c : Context} {m : MultilingualFact} {e : FactExpression}
    {row : Nat → String → Prop} {s : FactSource (Option MultilingualFact)} {fact : Fact} {good : Prop} (hgood : good → GoodOrders s)
    (hc : ColumnsText v periods members voids) (hq : QuadrantText v q)
    (hrow : ∀ n, row n href → hrefs[n]? = some href)
    (h : ShownAt f hrefs periods members voids s q href c fact) (hm : s.render (some fact) = some m) (he : ("Unlabelled", e) ∈ m) :
    FactShown v row href c e s.notes (s.notes (some fact)) good := by
  obtain ⟨j, hd, raw, col, h1, h2, h3, h4, h5, h6, h9⟩ := h
  rw [hm] at h6
  refine ⟨j, ⟨raw, h3, ?_, members_shown hc.2 h4 h5⟩, ?_, ?_⟩
  · obtain ⟨⟨x, hx, hp⟩, _⟩ := hc
    obtain ⟨js, y, rfl, hy, hpt⟩ := elems_get hp h1
    exact ⟨_, hx, _, y, rfl, hy, _, (hpt _ _).2 ⟨raw, rfl, mem_of_mapGet h2⟩, rfl⟩
  · intro n hn
    obtain ⟨rw', h7, h8⟩ := h6 n (hrow n hn)
    obtain ⟨⟨x, hx, hf⟩, _⟩ := hq
    obtain ⟨js, y, rfl, hy, hr⟩ := elems_get hf h7
    obtain ⟨js', z, rfl, hz, m', hm', hft⟩ := elems_get hr h8
    cases hm'
    obtain ⟨u, hu, hex⟩ := hft.1 _ _ he
    exact ⟨u, ⟨_, hx, _, _, rfl, hy, _, z, rfl, hz, u, hu, rfl⟩, hex⟩
  · intro hg n hn
    obtain ⟨rw', h7, _⟩ := h6 n (hrow n hn)
    obtain ⟨ks, ⟨krow, hk1, hk2⟩, hkey, hlist⟩ := h9 n (hrow n hn) (hgood hg)
    have hne : q.facts ≠ [] := by intro e; rw [e] at h7; simp at h7
    obtain ⟨_, ⟨x, hx, hxn⟩, y, hy, hyn⟩ := hq
    rcases hxn with ⟨e, _⟩ | ⟨_, hxn⟩
    · exact absurd e hne
    rcases hyn with ⟨e, _⟩ | ⟨_, hyn⟩
    · exact absurd e hne
    obtain ⟨js, z, rfl, hz, hr⟩ := elems_get hxn hk1
    obtain ⟨js', u, rfl, hu, hnum⟩ := elems_get hr hk2
    exact ⟨u, ks, y, q.footnotes, ⟨_, hx, _, _, rfl, hz, _, _, rfl, hu, rfl⟩, hnum, ⟨_, hy, rfl⟩, hyn, hkey, hlist⟩

theorem text_of_fact {v : Json} {row : Nat → String → Prop} {href : String} {c : Context} {e : FactExpression}
    {all : Option Fact → List Footnote} {notes : List Footnote} {good : Prop} (h : FactShown v row href c e all notes good) : TextShown v row href c e := by
  obtain ⟨j, h1, h2, _⟩ := h
  exact ⟨j, h1, h2⟩

theorem core_of_text {v : Json} {row : Nat → String → Prop} {href : String} {c : Context} {e : FactExpression}
    (h : TextShown v row href c e) : CoreShown v row href c e.core := by
  obtain ⟨j, ⟨raw, h1, h2, h3⟩, h4⟩ := h
  refine ⟨j, raw, h1, h2, fun n hn => ?_, h3⟩
  obtain ⟨y, ⟨_, hx, _, _, hl, hy, _, z, hl', hz, u, hu, rfl⟩, he⟩ := h4 n hn
  exact ⟨_, hx, _, _, hl, hy, _, z, hl', hz, _, hu, _, he.2.1, rfl⟩

theorem elems_href {α : Type} {R : Json → α → Prop} {href : α → String} {v : Json} {l : List α} (h : Elems R v l)
    (hR : ∀ x a, R x a → Member x "Href" (.str (href a))) {n : Nat} {s : String} :
    At v [.idx n, .key "Href"] (.str s) ↔ (l.map href)[n]? = some s := by
  constructor
  · rintro ⟨js, y, hv, hy, z, hz, e⟩
    obtain ⟨a, ha, hr⟩ := elems_got h hv hy
    have := member_only hz (hR _ _ hr)
    subst e
    rw [List.getElem?_map, ha]
    simpa using this.symm
  · intro hn
    rw [List.getElem?_map] at hn
    obtain ⟨a, ha, rfl⟩ := Option.map_eq_some_iff.1 hn
    obtain ⟨js, y, hv, hy, hr⟩ := elems_get h ha
    exact ⟨js, y, hv, hy, _, hR _ _ hr, rfl⟩

theorem at_key {v : Json} {k : String} {x y : Json} {ss : List Step} (h : Member v k x) : At v (.key k :: ss) y ↔ At x ss y :=
  ⟨fun ⟨_, h1, h2⟩ => by cases member_only h h1; exact h2, fun h2 => ⟨x, h, h2⟩⟩

/-- From the files to the answer: all texts of the cells of a fact. -/
theorem served_text (d : Disk) (w : Hydrate.World) (hw : Fair w) (hurl : w.validUrl = d.isUrl) (fuel : Nat)
    (sched : List (Disc.Write LinkbaseFile) → List (Disc.Write LinkbaseFile)) (hperm : ∀ ws, (sched ws).Perm ws)
    (fo : Files) (h : Hydratable) (hl : load d w fuel sched = some (.done (some (fo, h))))
    (root : Xml) (inst : Disc.InstanceFile) (hroot : EntryRoot d root inst) (file : InstFile) (hfile : instanceFile root = some file)
    (x : Xml) (c : Concept) (r : String) (hx : Reports root x c r)
    (l : String) (sx : Xml) (hsx : SchemaAt d w.discover inst x.name.space l sx) (hc : DeclaredIn sx l c) (hdist : Distinct sx l c)
    (habs : c.abstract = false) (hids : ∀ l' c', Declares (queryEnv w fo) l' c' → '#' ∉ c'.id.toList)
    (cc : Context) (hcc : HasContext (instanceWorld w fo file) root r cc) (entity : String) (hent : OfEntity entity cc)
    (tree : List Arc → String → Node) (env : GridEnv (Option MultilingualFact)) (hord : ∀ m, (env.memberOrder m).Perm m)
    (fe : FactEnv) (hfe : fe.concept = (renderFolder w fo h tree).concept)
    (notes : Option Fact → List Footnote) (co : Nat → Nat → GoMap String Footnote → GoMap String Footnote)
    (lo : GoMap String Footnote → GoMap String Footnote) (hs : env.source = folderSource (values h.instances) fe notes co lo)
    (spanish : Date → Option String) (gs : Schedule) (b : Books) (role : String) (g : Grids (Option MultilingualFact))
    (hg : renderGrids (renderFolder w fo h tree) env spanish gs b entity role = .done g) (subject : Subject) (rset : RSet) :
    ∃ v f, (∀ v', IsText (marshalRenderable (calcFound role [] b.calculation) ⟨subject, rset, g⟩) v' ↔ v' = v) ∧
      FactOf (instanceWorld w fo file) (fact x) f ∧ fe.concept f.href = some c ∧
      ∀ e, (∀ langs, "Unlabelled" ∈ langs → ∃ m, renderCell fe (some f) langs = some m ∧ ("Unlabelled", e) ∈ m) →
        ShownEverywhere v (l ++ "#" ++ c.id) fun p row => FactShown p row (l ++ "#" ++ c.id) cc e notes (notes (some f))
          ((∀ i j m, (co i j m).Perm m) ∧ ∀ m, (lo m).Perm m) := by
  obtain ⟨f, hf, hhref, hP, hD, hC⟩ := C102_shown d w hw hurl fuel sched hperm fo h hl root inst hroot file hfile x c r hx l sx hsx hc hdist
    habs hids cc hcc entity hent tree env (by intro langs; rw [hs]; rfl) spanish gs b role g hg
  obtain ⟨v, hv, hrs, hsub, hla, hro, ⟨pv, hpv, hpt⟩, ⟨dv, hdv, hdt⟩, cv, iv, hcv, hiv, hct⟩ :=
    C116_renderable (renderFolder w fo h tree) (fun x => getLabel_wf _ _) fe notes co lo env hord hs spanish gs b entity role g hg subject rset
  obtain ⟨key, hE, _⟩ := hroot
  have hcon : fe.concept f.href = some c := by
    rw [hfe, hhref]
    exact (loaded_concept hw hurl hperm hl hE hx.name hsx hc hdist).2 tree
  have hsrc : ∀ langs, (env.source langs).render (some f) = renderCell fe (some f) langs := by intro langs; rw [hs]; rfl
  have hnotes : ∀ langs, (env.source langs).notes = notes := by intro langs; rw [hs]; rfl
  have hgood : ∀ langs, ((∀ i j m, (co i j m).Perm m) ∧ ∀ m, (lo m).Perm m) → GoodOrders (env.source langs) := by
    intro langs; rw [hs]; exact fun h => h
  refine ⟨v, f, hv, hf, hcon, fun e hcell => ⟨?_, ?_, ?_⟩⟩
  · rintro p hp ⟨n, hn⟩
    rw [at_key hpv] at hp
    cases hp
    obtain ⟨⟨rv, hrv, hrt⟩, hcols, hquad⟩ := hpt
    have hrow : ∀ n, PRow pv n (l ++ "#" ++ c.id) ↔ (g.p.rows.map IndentedLabel.href)[n]? = some (l ++ "#" ++ c.id) := by
      intro n
      unfold PRow
      rw [at_key hrv]
      exact elems_href hrt (fun _ _ h => h.1.1)
    obtain ⟨langs, hlang, hsh⟩ := hP (List.mem_of_getElem? ((hrow n).1 hn))
    obtain ⟨m, hm, he⟩ := hcell langs hlang
    rw [← hnotes langs]
    exact text_shown (hgood langs) hcols hquad (fun n => (hrow n).1) hsh ((hsrc langs).trans hm) he
  · rintro k p hp ⟨n, hn⟩
    obtain ⟨⟨rv, hrv, hrt⟩, _⟩ := hdt
    rw [at_key hdv, at_key hrv] at hp
    obtain ⟨js, y, hjs, hy, rfl⟩ := hp
    obtain ⟨rd, hrd, hlt, ⟨iv', hiv', hit⟩, hcols, hquad, _⟩ := elems_got hrt hjs hy
    have hrow : ∀ n, DRow p n (l ++ "#" ++ c.id) → (rd.href :: rd.primaryItems.map PrimaryItem.href)[n]? = some (l ++ "#" ++ c.id) := by
      rintro n (⟨rfl, hn⟩ | ⟨k, rfl, hn⟩)
      · rw [at_key hlt.1] at hn
        simp only [At, Json.str.injEq] at hn
        simp [hn]
      · rw [at_key hiv', elems_href hit (fun _ _ h => h.1.1)] at hn
        exact hn
    obtain ⟨langs, hlang, hsh⟩ := hD rd (List.mem_of_getElem? hrd) (List.mem_of_getElem? (hrow n hn))
    obtain ⟨m, hm, he⟩ := hcell langs hlang
    rw [← hnotes langs]
    exact text_shown (hgood langs) hcols hquad hrow hsh ((hsrc langs).trans hm) he
  · rintro k p hp ⟨n, hn⟩
    rw [at_key hcv, at_key hiv] at hp
    obtain ⟨js, y, hjs, hy, rfl⟩ := hp
    rcases hct with hct | ⟨hnull, _⟩
    · obtain ⟨it, hit, hlt, _, hcols, ⟨cvv, hcvv, hcon'⟩, hquad⟩ := elems_got hct hjs hy
      have hrow : ∀ n, CRow p n (l ++ "#" ++ c.id) →
          (it.contributing.map Contributing.href ++ [it.href])[n]? = some (l ++ "#" ++ c.id) := by
        rintro n (hn | ⟨js', hl', rfl, hn⟩)
        · rw [at_key hcvv, elems_href hcon' (fun _ _ h => h.1.1)] at hn
          rw [List.getElem?_append_left (List.getElem?_eq_some_iff.1 hn).1]
          exact hn
        · rw [at_key hlt.1] at hn
          rw [at_key hcvv] at hl'
          obtain ⟨js2, rfl, hall⟩ := hcon'
          cases hl'
          simp only [At, Json.str.injEq] at hn
          rw [hall.length_eq, List.getElem?_append_right (by simp)]
          simp [hn]
      obtain ⟨langs, hlang, hsh⟩ := hC it (List.mem_of_getElem? hit) (List.mem_of_getElem? (hrow n hn))
      obtain ⟨m, hm, he⟩ := hcell langs hlang
      rw [← hnotes langs]
      exact text_shown (hgood langs) hcols hquad hrow hsh ((hsrc langs).trans hm) he
    · rw [hnull] at hjs; cases hjs

/-- **C118.** From the files to the answer: a fact reported without accuracy in the instance of a folder on disk — for a concept
declared, not abstract and no text block, in a schema file of the folder, in a context of the entity — is found by the client, with
the text that the instance has, in every grid with a row for its concept. -/
theorem C118_served (d : Disk) (w : Hydrate.World) (hw : Fair w) (hurl : w.validUrl = d.isUrl) (fuel : Nat)
    (sched : List (Disc.Write LinkbaseFile) → List (Disc.Write LinkbaseFile)) (hperm : ∀ ws, (sched ws).Perm ws)
    (fo : Files) (h : Hydratable) (hl : load d w fuel sched = some (.done (some (fo, h))))
    (root : Xml) (inst : Disc.InstanceFile) (hroot : EntryRoot d root inst) (file : InstFile) (hfile : instanceFile root = some file)
    (x : Xml) (c : Concept) (r : String) (hx : Reports root x c r)
    (l : String) (sx : Xml) (hsx : SchemaAt d w.discover inst x.name.space l sx) (hc : DeclaredIn sx l c) (hdist : Distinct sx l c)
    (habs : c.abstract = false) (hids : ∀ l' c', Declares (queryEnv w fo) l' c' → '#' ∉ c'.id.toList)
    (cc : Context) (hcc : HasContext (instanceWorld w fo file) root r cc) (entity : String) (hent : OfEntity entity cc)
    (tree : List Arc → String → Node) (env : GridEnv (Option MultilingualFact)) (hord : ∀ m, (env.memberOrder m).Perm m)
    (fe : FactEnv) (hfe : fe.concept = (renderFolder w fo h tree).concept)
    (notes : Option Fact → List Footnote) (co : Nat → Nat → GoMap String Footnote → GoMap String Footnote)
    (lo : GoMap String Footnote → GoMap String Footnote) (hs : env.source = folderSource (values h.instances) fe notes co lo)
    (hdec : ∀ s, ¬ AttrVal x.attrs "decimals" s) (htype : c.type.loc ≠ "textBlockItemType")
    (spanish : Date → Option String) (gs : Schedule) (b : Books) (role : String) (g : Grids (Option MultilingualFact))
    (hg : renderGrids (renderFolder w fo h tree) env spanish gs b entity role = .done g) (subject : Subject) (rset : RSet) :
    ∃ v core, (∀ v', IsText (marshalRenderable (calcFound role [] b.calculation) ⟨subject, rset, g⟩) v' ↔ v' = v) ∧
      ((IsSet x.attrs "nil" ∧ core = "nil") ∨ (¬ IsSet x.attrs "nil" ∧ core = x.inner)) ∧
      (∀ p, At v [.key "PGrid"] p → (∃ n, PRow p n (l ++ "#" ++ c.id)) → CoreShown p (PRow p) (l ++ "#" ++ c.id) cc core) ∧
      (∀ k p, At v [.key "DGrid", .key "RootDomains", .idx k] p → (∃ n, DRow p n (l ++ "#" ++ c.id)) →
        CoreShown p (DRow p) (l ++ "#" ++ c.id) cc core) ∧
      (∀ k p, At v [.key "CGrid", .key "SummationItems", .idx k] p → (∃ n, CRow p n (l ++ "#" ++ c.id)) →
        CoreShown p (CRow p) (l ++ "#" ++ c.id) cc core) := by
  obtain ⟨v, f, hv, hf, hcon, hshown⟩ := served_text d w hw hurl fuel sched hperm fo h hl root inst hroot file hfile x c r hx l sx hsx hc hdist
    habs hids cc hcc entity hent tree env hord fe hfe notes co lo hs spanish gs b role g hg subject rset
  have hprec : f.precision = -2147483647 := by
    obtain ⟨a, ha, hp⟩ := hf.precision
    cases a with
    | exact => exact absurd ha (hdec _)
    | none => exact hp
    | decimals z => obtain ⟨s, hs, _⟩ := ha; exact absurd hs (hdec _)
  obtain ⟨h1, h2, h3⟩ := hshown ⟨"", if f.isNil then "nil" else f.inner, "", ""⟩ fun langs hlang => cell_core hcon htype hprec hlang
  refine ⟨v, if f.isNil then "nil" else f.inner, hv, ?_, fun p hp hr => core_of_text (text_of_fact (h1 p hp hr)),
    fun k p hp hr => core_of_text (text_of_fact (h2 k p hp hr)), fun k p hp hr => core_of_text (text_of_fact (h3 k p hp hr))⟩
  cases hn : f.isNil with
  | true => exact .inl ⟨hf.isNil.1 hn, rfl⟩
  | false =>
    refine .inr ⟨fun e => ?_, by rw [if_neg (by simp), hf.inner]; rfl⟩
    have := hf.isNil.2 e
    rw [hn] at this
    exact absurd this (by simp)

def diskFacts (fo : Files) (h : Hydratable) : FactEnv :=
  ⟨(renderFolder diskWorld fo h diskTree).concept, fun _ => (none, none), fun _ => [], id, fun _ => none, fun _ _ _ => none⟩

def diskServed (fo : Files) (h : Hydratable) : Run (Grids (Option MultilingualFact)) :=
  renderGrids (renderFolder diskWorld fo h diskTree)
    ⟨id, id, folderSource (values h.instances) (diskFacts fo h) (fun _ => []) (fun _ _ m => m) (fun m => m)⟩ (fun _ => none)
    { langs := [0, 0, 0, 1, 1, 1, 2, 2, 2], roles := [0, 0, 0, 1, 1, 1, 2, 2, 2], grow := fun _ => 0 } (books h (fun _ => "") id) "s/1" "r"

/-- The hypotheses of `C118_served` beyond those of `C102_shown` hold of the folder on disk, the grid is rendered and has the row. -/
example : ∃ fo h g, load diskDemo diskWorld 3 id = some (.done (some (fo, h))) ∧ diskServed fo h = .done g ∧
    "x.xsd" ++ "#" ++ diskConcept.id ∈ g.p.rows.map IndentedLabel.href ∧
    cellTexts g.p.quadrant.facts = [[[("Unlabelled", "100")]]] ∧
    (∀ s, ¬ AttrVal diskFact.attrs "decimals" s) ∧ diskConcept.type.loc ≠ "textBlockItemType" := by
  have he : (match load diskDemo diskWorld 3 id with
    | some (.done (some (fo, h))) =>
      match diskServed fo h with
      | .done g => some (g.p.rows.map IndentedLabel.href, cellTexts g.p.quadrant.facts)
      | _ => none
    | _ => none) = some (["x.xsd#x_Cash"], [[[("Unlabelled", "100")]]]) := by decide +kernel
  split at he
  · rename_i fo h hl
    split at he
    · rename_i g hg
      simp only [Option.some.injEq, Prod.mk.injEq] at he
      refine ⟨fo, h, g, hl, hg, by rw [he.1]; decide, he.2, fun s hs => ?_, by decide⟩
      rw [← plainAttr_iff] at hs
      have : plainAttr diskFact.attrs "decimals" = none := by decide
      rw [this] at hs
      cases hs
    · cases he
  · cases he

end Telefacts
