import Verif.Model.Listing
import Verif.Spec.Listing
import Verif.Props.EndToEnd
import Verif.Props.Catalog
/-! # C108: the catalog of a folder on disk -/
namespace Telefacts
open Telefacts.Hydrate Telefacts.Decode Telefacts.Instance Telefacts.Linkbase Telefacts.Schema Telefacts.Spec Telefacts.Catalog

theorem firstKid_iff (n : String) (x k : Xml) :
    FirstWith (fun k : Xml => k.name.loc = n) x.kids k ↔ ∃ rest, x.named n = k :: rest := by
  rw [show (fun k : Xml => k.name.loc = n) = (fun k => (decide (k.name.loc = n)) = true) by funext k; simp]
  rw [firstWith_iff_find, ← List.head?_filter]
  unfold Xml.named
  rw [List.head?_eq_some_iff]

theorem noKid_iff (n : String) (x : Xml) : (∀ k ∈ x.kids, k.name.loc ≠ n) ↔ x.named n = [] := by
  unfold Xml.named
  simp [List.filter_eq_nil_iff]

theorem context_iff_about {x : Xml} (hx : x.name.loc = "context") (e : Entity) :
    (e.scheme ≠ "" ∧ ∃ ent id, Identified (context x) ent id e.scheme e.chars) ↔ About x e := by
  unfold Identified About HasId
  simp only [firstKid_iff, hx, true_and]
  constructor
  · rintro ⟨h0, ent, id, ⟨h1, h2, h3⟩, ⟨rest, h4⟩, ⟨at_, r2, h5, h6⟩, h7⟩
    simp only [context, List.map_eq_cons_iff] at h4
    obtain ⟨ex, er, h4, rfl, _⟩ := h4
    simp only [entity, List.map_eq_cons_iff, Prod.mk.injEq] at h5
    obtain ⟨ix, ir, h5, ⟨rfl, h8⟩, _⟩ := h5
    exact ⟨h1, ⟨id, h2, h3⟩, ex, ix, ⟨er, h4⟩, ⟨ir, h5⟩, h6, h0, h8.symm, h7⟩
  · rintro ⟨h1, ⟨id, h2, h3⟩, ex, ix, ⟨er, h4⟩, ⟨ir, h5⟩, h6, h0, h8, h7⟩
    refine ⟨h0, entity ex, id, ⟨h1, h2, h3⟩, ⟨er.map entity, by simp [context, h4]⟩, ⟨ix.attrs, ir.map fun i => (i.attrs, i.chars), ?_, h6⟩, h7⟩
    simp [entity, h5, h8]

/-- A usable context element yields a context. -/
theorem contextOf_exists {w : Instance.World} {e : CtxElem} {ent : EntityElem} {id scheme ident : String}
    (h : Identified e ent id scheme ident) (hs : ¬ Stuck w e) : ∃ c, Instance.ContextOf w e c ∧ c.scheme = scheme ∧ c.ident = ident := by
  have hn : ¬ NoEntity e := by
    rintro ⟨_, h2⟩
    obtain ⟨_, ⟨r, hr⟩, _⟩ := h
    rw [h2] at hr; cases hr
  rcases hydrateContext_cases w e with ⟨h1, _⟩ | ⟨_, h1, _⟩ | ⟨_, ent', id', s', i', hi, heq⟩
  · exact absurd h1 hn
  · exact absurd h (h1 _ _ _ _)
  · obtain ⟨r, hr⟩ := (hydrateContext_done w e).2 ⟨hn, hs⟩
    cases r with
    | none =>
      rw [heq] at hr
      cases h1 : hydrateDims w false ent'.segments <;> rw [h1] at hr <;> simp [Run.andThen] at hr
      cases h2 : hydrateDims w true e.scenarios <;> rw [h2] at hr <;> simp at hr
    | some c =>
      obtain ⟨_, hc⟩ := (hydrateContext_some w e c).1 hr
      have hc' := hc
      obtain ⟨ent2, hid2, _⟩ := hc'
      obtain ⟨_, _, e3, e4⟩ := h.unique hid2
      exact ⟨c, hc, e3.symm, e4.symm⟩

variable {d : Disk} {w : Hydrate.World} {fuel : Nat} {sched : List (Disc.Write LinkbaseFile) → List (Disc.Write LinkbaseFile)}
  {fo : Files} {h : Hydratable}

theorem occurs_iff (hl : load d w fuel sched = some (.done (some (fo, h)))) (e : Entity) :
    Occurs (values h.instances) e ↔ ReportsOn d e := by
  rcases load_instances hl with ⟨hv, hno⟩ | ⟨key, inst, root, file, i, hE, hr, hf, _, hv, hio, hrd⟩
  · rw [hv]
    constructor
    · rintro ⟨_, _, i, hi, _⟩; cases hi
    · rintro ⟨root, inst, ⟨key, hE, _⟩, _⟩; exact absurd hE (hno _ _)
  · have hctx : ∀ ce, ce ∈ file.contexts ↔ ∃ x ∈ root.kids, x.name.loc = "context" ∧ ce = context x := by
      obtain ⟨_, _, _, hctxs, _⟩ := ((C99_instance root).2 file).1 hf
      rw [(kids_iff isContext_iff _ _ _).1 hctxs]
      intro ce
      simp only [List.mem_map, Xml.named, List.mem_filter, decide_eq_true_eq]
      constructor
      · rintro ⟨k, ⟨h1, h2⟩, rfl⟩; exact ⟨k, h1, h2, rfl⟩
      · rintro ⟨k, h1, h2, rfl⟩; exact ⟨k, ⟨h1, h2⟩, rfl⟩
    obtain ⟨lc, hlc, hsc⟩ := hio.contexts
    rw [hv]
    constructor
    · rintro ⟨h1, h2, i', hi', c, hc, h3, h4⟩
      rw [List.mem_singleton.1 hi', hsc.1.mem_iff] at hc
      obtain ⟨ce, hce, ent, hid, _⟩ := collected_mem hlc c hc
      obtain ⟨x, hx, hn, rfl⟩ := (hctx ce).1 hce
      exact ⟨root, inst, ⟨key, hE, hr⟩, x, hx, (context_iff_about hn e).1 ⟨h1, ent, _, h3 ▸ h4 ▸ hid⟩⟩
    · rintro ⟨root', inst', ⟨key', hE', hr'⟩, x, hx, ha⟩
      obtain ⟨rfl, rfl⟩ := entryInstance_unique hE hE'
      rw [hr] at hr'; cases hr'
      obtain ⟨h0, ent, id, hid⟩ := (context_iff_about ha.2.1 e).2 ha
      have hm := (hctx (context x)).2 ⟨x, hx, ha.2.1, rfl⟩
      obtain ⟨c, hc, h3, h4⟩ := contextOf_exists hid (hrd _ hm).2
      refine ⟨h0, hid.2.2.2, i, List.mem_singleton.2 rfl, c, ?_, h3, h4⟩
      rw [hsc.1.mem_iff]
      exact collected_of hlc _ hm c hc fun c₁ c₂ => contextOf_unique (hrd _ hm).2

theorem mem_hydrateAnnotation {sx : Xml} {file : SchemaFile} (hf : schemaFile sx = some file) (r : RSet) :
    (r.roleURI ≠ "" ∧ ∃ t ∈ hydrateAnnotation file, t.definition = r.title ∧ t.roleURI = r.roleURI) ↔ RoleIn sx r := by
  have hsx : sx.name.loc = "schema" := by
    unfold schemaFile at hf; split at hf
    · assumption
    · cases hf
  have role : ∀ x : Xml, x.name.loc = "roleType" →
      ((∃ t, hydrateRoleType (roleType x) = some t ∧ t.definition = r.title ∧ t.roleURI = r.roleURI) ↔ DeclaresRole x r) := by
    intro x hx
    unfold DeclaresRole
    simp only [firstKid_iff, noKid_iff, hx, true_and, hydrateRoleType_iff]
    constructor
    · rintro ⟨t, ⟨h1, h2, h3, h4, h5, h6, h7, _⟩, h8, h9⟩
      refine ⟨h1, ⟨_, h2, h3⟩, h9 ▸ h4, h9 ▸ h5, ?_⟩
      cases hd : x.named "definition" with
      | nil => exact .inr ⟨rfl, by rw [← h8]; exact h7 (by simp [roleType, hd])⟩
      | cons k rest => exact .inl ⟨k, ⟨rest, rfl⟩, by rw [← h8]; exact h6 k.chars (rest.map Xml.chars) (by simp [roleType, hd])⟩
    · rintro ⟨h1, ⟨id, h2, h3⟩, h4, h5, h6⟩
      refine ⟨⟨r.roleURI, id, r.title, (roleType x).usedOn.filterMap hydrateUsedOn⟩, ⟨h1, h2, h3, h4, h5, ?_, ?_, ?_⟩, rfl, rfl⟩
      · intro d ds hd
        simp only [roleType, List.map_eq_cons_iff] at hd
        obtain ⟨k, ks, hd, rfl, _⟩ := hd
        rcases h6 with ⟨t, ⟨rest, ht⟩, h6⟩ | ⟨hn, _⟩
        · rw [hd] at ht; cases ht; exact h6
        · rw [hd] at hn; cases hn
      · intro hd
        simp only [roleType, List.map_eq_nil_iff] at hd
        rcases h6 with ⟨t, ⟨rest, ht⟩, h6⟩ | ⟨_, h6⟩
        · rw [hd] at ht; cases ht
        · exact h6
      · rw [collected_iff (f := hydrateUsedOn)]
        intro u s
        unfold hydrateUsedOn
        have : LINK = "http://www.xbrl.org/2003/linkbase" := rfl
        rw [← this]
        by_cases hu : u.1 = LINK <;> simp [hu, eq_comm]
  simp only [schemaFile, if_pos hsx, Option.some.injEq] at hf
  subst hf
  unfold RoleIn
  simp only [firstKid_iff, hydrateAnnotation]
  have hX : XSD = "http://www.w3.org/2001/XMLSchema" := rfl
  cases ha : sx.named "annotation" with
  | nil => simp
  | cons a as =>
    simp only [List.map_cons]
    by_cases has : a.name.space = XSD
    · rw [if_neg (by simpa using has)]
      cases hi : a.named "appinfo" with
      | nil =>
        simp only [List.map_nil, List.not_mem_nil, false_and, exists_false, and_false, false_iff]
        rintro ⟨a', i', ⟨_, e1⟩, _, ⟨_, e2⟩, _⟩
        cases e1; rw [hi] at e2; cases e2
      | cons i is =>
        simp only [List.map_cons]
        by_cases his : i.name.space = XSD
        · rw [if_neg (by simpa using his)]
          simp only [List.mem_filterMap, List.mem_map, Xml.named, List.mem_filter, decide_eq_true_eq]
          constructor
          · rintro ⟨h0, t, ⟨_, ⟨x, ⟨hx, hxn⟩, rfl⟩, ht⟩, h1, h2⟩
            exact ⟨a, i, ⟨as, rfl⟩, has, ⟨is, hi⟩, his, x, hx, (role x hxn).1 ⟨t, ht, h1, h2⟩⟩
          · rintro ⟨a', i', ⟨_, e1⟩, _, ⟨_, e2⟩, _, x, hx, hd⟩
            cases e1
            change a.named "appinfo" = _ at e2
            rw [hi] at e2; cases e2
            obtain ⟨t, ht, h1, h2⟩ := (role x hd.2.1).2 hd
            exact ⟨hd.2.2.2.2.1, t, ⟨_, ⟨x, ⟨hx, hd.2.1⟩, rfl⟩, ht⟩, h1, h2⟩
        · rw [if_pos (by simpa using his)]
          simp only [List.not_mem_nil, false_and, exists_false, and_false, false_iff]
          rintro ⟨a', i', ⟨_, e1⟩, _, ⟨_, e2⟩, e3, _⟩
          cases e1; rw [hi] at e2; cases e2
          exact his e3
    · rw [if_pos (by simpa using has)]
      simp only [List.not_mem_nil, false_and, exists_false, and_false, false_iff]
      rintro ⟨a', i', ⟨_, e1⟩, e3, _⟩
      cases e1
      exact has e3

theorem mem_values {V : Type} {m : GoMap String V} (hm : MapWF m) (v : V) : v ∈ values m ↔ ∃ k, mapGet m k = some v := by
  simp only [values, List.mem_map, mapGet_iff_mem hm, Prod.exists, exists_eq_right]

theorem declaredSet_iff (hperm : ∀ ws, (sched ws).Perm ws) (hl : load d w fuel sched = some (.done (some (fo, h)))) (r : RSet) :
    DeclaredSet (values h.schemas) r ↔ RoleOfFolder d r := by
  obtain ⟨fo0, h1, rfl, h2⟩ := load_some hl
  obtain ⟨hs, _⟩ := hydrate_some h2
  obtain ⟨e1, e2, e3⟩ := hydrateMap_entries (filesOf_wf h1).1 hs
  obtain ⟨c1, _⟩ := C12_collects_reachable d.env fuel sched hperm fo0 h1
  have hh : ∀ l (file : SchemaFile) s, ofRes (hydrateSchema file l) = .done (some s) → s.roleTypes = hydrateAnnotation file := by
    intro l file s hs
    rw [ofRes_some] at hs
    unfold hydrateSchema at hs
    split at hs
    · cases hs
    · cases hs; rfl
  unfold DeclaredSet RoleOfFolder
  simp only [mem_values e1]
  constructor
  · rintro ⟨h0, s, ⟨l, hm⟩, t, ht, h3, h4⟩
    obtain ⟨file, hfile, hsf⟩ := e3 l s hm
    obtain ⟨ds, hds, hf⟩ := (mapGet_filterMap _ _ (discover_wf h1).2.1 _ _).1 hfile
    obtain ⟨sx, hsx, hf⟩ := Option.bind_eq_some_iff.1 hf
    obtain ⟨key, inst, hE, hre⟩ := (c1 l ds).1 hds
    obtain ⟨_, _, hread, _⟩ := id hE
    obtain ⟨root, hroot, _⟩ := Option.bind_eq_some_iff.1 (show (d.read key).bind _ = some inst from hread)
    exact ⟨root, inst, l, ds, sx, ⟨key, hE, hroot⟩, hre, hsx,
      (mem_hydrateAnnotation hf r).1 ⟨h0, t, hh l file s hsf ▸ ht, h3, h4⟩⟩
  · rintro ⟨root, inst, l, ds, sx, ⟨key, hE, _⟩, hre, hsx, hr⟩
    have hm := (c1 l ds).2 ⟨key, inst, hE, hre⟩
    have hd : discoveredSchema sx = some ds := by
      have := Disc.reach_read hre
      change (d.read l).bind discoveredSchema = some ds at this
      rwa [hsx] at this
    obtain ⟨file, hfile⟩ : ∃ file, schemaFile sx = some file := by
      have := ((C99_schema sx).2 ds |>.1 hd).1
      unfold schemaFile; simp [this]
    obtain ⟨s, hs1, hs2⟩ := e2 l file ((mapGet_filterMap _ _ (discover_wf h1).2.1 _ _).2 ⟨ds, hm, by simp [hsx, hfile]⟩)
    obtain ⟨h0, t, ht, h3, h4⟩ := (mem_hydrateAnnotation hfile r).2 hr
    exact ⟨h0, s, ⟨l, hs1⟩, t, hh l file s hs2 ▸ ht, h3, h4⟩

/-- **C108.** The subjects of the catalog of a folder are exactly the entities that the contexts of its instance are about,
each once, by scheme and identifier. -/
theorem C108_subjects (hl : load d w fuel sched = some (.done (some (fo, h)))) (query : String → String → Res String) :
    (∀ e, e ∈ (listing d query h).subjects.map Subject.entity ↔ ReportsOn d e) ∧
    EntitiesSorted ((listing d query h).subjects.map Subject.entity) := by
  obtain ⟨h1, h2, _⟩ := C32_subjects _ _ (List.Perm.refl (values h.instances)) query (values h.schemas)
    (if h.document.isSome then some (d.entryName.getD "") else none)
  exact ⟨fun e => (h1 e).trans (occurs_iff hl e), h2⟩

/-- **C108.** Its relationship sets are exactly the roles declared — in the first appinfo of the first annotation — by the
schema files reachable from its instance, each once, by title and URI. -/
theorem C108_relationship_sets (hperm : ∀ ws, (sched ws).Perm ws) (hl : load d w fuel sched = some (.done (some (fo, h))))
    (query : String → String → Res String) :
    (∀ r, r ∈ (listing d query h).rsets ↔ RoleOfFolder d r) ∧ RSetsSorted (listing d query h).rsets := by
  obtain ⟨h1, h2, _⟩ := C33_relationship_sets _ _ (List.Perm.refl (values h.schemas)) query (values h.instances)
    (if h.document.isSome then some (d.entryName.getD "") else none)
  exact ⟨fun r => (h1 r).trans (declaredSet_iff hperm hl r), h2⟩

/-- **C108.** Its networks have an entry for every such entity and role URI, and no other; the slug is the hash of the entity,
the URI and the last title declared for the URI. -/
theorem C108_networks (hperm : ∀ ws, (sched ws).Perm ws) (hl : load d w fuel sched = some (.done (some (fo, h))))
    (query : String → String → Res String) (e uri s : String) :
    (∃ m, mapGet (listing d query h).networks e = some m ∧ mapGet m uri = some s) ↔
      (∃ x, ReportsOn d x ∧ x.scheme ++ "/" ++ x.chars = e) ∧
      ∃ r, RoleOfFolder d r ∧ r.roleURI = uri ∧ s = fnvHex (e ++ uri ++ r.title) ∧
        ∀ r', RoleOfFolder d r' → r'.roleURI = uri → ¬ r.title < r'.title := by
  simp only [← occurs_iff hl, ← declaredSet_iff hperm hl]
  exact C79_networks query (values h.instances) (values h.schemas) _ e uri s

/-- **C108.** It names a document iff the entry file is an inline document, and then its name is that of the entry file. -/
theorem C108_document (hl : load d w fuel sched = some (.done (some (fo, h)))) (query : String → String → Res String) :
    ∃ entry, d.entryName = some entry ∧
      ((Disc.Inline entry ∧ (listing d query h).documentName = entry) ∨
        (¬ Disc.Inline entry ∧ (listing d query h).documentName = "")) := by
  obtain ⟨fo0, h1, rfl, h2⟩ := load_some hl
  obtain ⟨_, _, _, _, _, _, _, h8⟩ := hydrate_some h2
  have hdoc : h.document.isSome = fo0.document.isSome := by
    change hydrateDoc w fo0.document = _ at h8
    rcases hydrateDoc_some.1 h8 with ⟨a, b⟩ | ⟨d', doc, a, b, _⟩
    · rw [a, b]; rfl
    · rw [a, b]; rfl
  have hrest : ∀ (ws : List (Disc.Write LinkbaseFile)) (f0 : Disc.Folder LinkbaseFile DocFile),
      (ws.foldl Disc.applyWrite f0).document = f0.document := by
    intro ws
    induction ws with
    | nil => intro f0; rfl
    | cons x xs ih => intro f0; rw [List.foldl_cons, ih]; cases x <;> rfl
  have hwith : ∀ f0 key f1, Disc.withInstance d.env fuel sched f0 key = some (.ok f1) → f1.document = f0.document := by
    intro f0 key f1 hw
    unfold Disc.withInstance at hw
    split at hw
    · cases hw
    · split at hw
      · cases hw
      · simp only [Option.some.injEq, Res.ok.injEq] at hw
        subst hw
        exact hrest _ _
  unfold Disc.discover at h1
  change (match d.entryName with | none => _ | some entry => _) = _ at h1
  cases he : d.entryName with
  | none => rw [he] at h1; simp at h1
  | some entry =>
    refine ⟨entry, rfl, ?_⟩
    rw [he] at h1
    change (if fileExt entry = ".xhtml" ∨ fileExt entry = ".htm" then _ else _) = _ at h1
    simp only [listing, catalog, hdoc, he, Option.getD_some]
    rw [Disc.inline_iff]
    by_cases hx : fileExt entry = ".xhtml" ∨ fileExt entry = ".htm"
    · left
      rw [if_pos hx] at h1
      refine ⟨hx, ?_⟩
      split at h1
      · cases h1
      · split at h1 <;> cases h1
      · simp only at h1
        by_cases hfe : d.env.fileExists (entry ++ ".xml") = false
        · rw [if_pos hfe] at h1; cases h1
        · rw [if_neg hfe] at h1
          rw [hwith _ _ _ h1]; rfl
    · right
      rw [if_neg hx] at h1
      refine ⟨hx, ?_⟩
      split at h1
      · rw [hwith _ _ _ h1]; rfl
      · cases h1; rfl

/-! A folder with an inline document and a role type. -/

def roleSchema : Xml :=
  .mk ⟨Disc.XSD, "schema"⟩ [⟨⟨"", "targetNamespace"⟩, "http://x"⟩] "" "" [
    .mk ⟨Disc.XSD, "annotation"⟩ [] "" "" [.mk ⟨Disc.XSD, "appinfo"⟩ [] "" "" [
      .mk ⟨LINK, "roleType"⟩ [⟨⟨"", "roleURI"⟩, "http://x/role/A"⟩, ⟨⟨"", "id"⟩, "A"⟩] "" "" [
        .mk ⟨LINK, "definition"⟩ [] "001 - A" "001 - A" []]]]]

def inlineDisk : Disk :=
  { diskDemo with
    entryName := some "r.htm"
    read := fun n => if n = "r.htm.xml" then some reportXml else if n = "x.xsd" then some roleSchema else none
    doc := fun _ => some (some ⟨[], [], []⟩) }

def inlineListing : Option Catalog.Catalog :=
  match load inlineDisk diskWorld 3 id with
  | some (.done (some (_, h))) => some (listing inlineDisk (fun _ _ => .err "unknown") h)
  | _ => none

/-- The folder is loaded; its catalog has a subject, a relationship set, a network and the document. -/
theorem inlineListing_eq : inlineListing = some ⟨[⟨"s/1", ⟨"s", "1"⟩⟩], [⟨"001 - A", "http://x/role/A"⟩],
    [("s/1", [("http://x/role/A", fnvHex "s/1http://x/role/A001 - A")])], "r.htm"⟩ := by decide +kernel

/-- The hypotheses of C108 hold of it, and the entity and the role are what the specification says. -/
example : ∃ fo h, load inlineDisk diskWorld 3 id = some (.done (some (fo, h))) ∧ (∀ ws : List (Disc.Write LinkbaseFile), (id ws).Perm ws) ∧
    ReportsOn inlineDisk ⟨"s", "1"⟩ ∧ RoleOfFolder inlineDisk ⟨"001 - A", "http://x/role/A"⟩ ∧ Disc.Inline "r.htm" := by
  have he := inlineListing_eq
  unfold inlineListing at he
  split at he
  · rename_i fo h hl
    rw [Option.some.injEq] at he
    refine ⟨fo, h, hl, fun _ => .refl _, ((C108_subjects hl (fun _ _ => .err "unknown")).1 _).1 ?_,
      ((C108_relationship_sets (fun _ => .refl _) hl (fun _ _ => .err "unknown")).1 _).1 ?_, ?_⟩
    · rw [he]; decide
    · rw [he]; decide
    · rw [Disc.inline_iff]; decide +kernel
  · cases he

end Telefacts
