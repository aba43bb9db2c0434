import Verif.Spec.EndToEnd
import Verif.Props.Hydrate
import Verif.Props.Discover
import Verif.Props.Grid
/-! # C95, C102: from the files to the cells -/
namespace Telefacts
open Telefacts.Hydrate Telefacts.Decode Telefacts.Instance Telefacts.Linkbase Telefacts.Schema Telefacts.Spec Telefacts.Render

theorem load_some {d : Disk} {w : Hydrate.World} {fuel : Nat} {sched : List (Disc.Write LinkbaseFile) → List (Disc.Write LinkbaseFile)}
    {fo : Files} {h : Hydratable} (hl : load d w fuel sched = some (.done (some (fo, h)))) :
    ∃ fo0, Disc.discover d.env fuel sched = some (.ok fo0) ∧ fo = filesOf d fo0 ∧ hydrate w fo = .done (some h) := by
  unfold load at hl
  cases hd : Disc.discover d.env fuel sched with
  | none => rw [hd] at hl; simp at hl
  | some r =>
    rw [hd] at hl
    cases r with
    | err => simp at hl
    | panic => simp at hl
    | ok fo0 =>
      simp only [Option.some.injEq, bindRun_some, Run.done.injEq, Prod.mk.injEq] at hl
      obtain ⟨h', h1, rfl, rfl⟩ := hl
      exact ⟨fo0, rfl, rfl, h1⟩

theorem mapWF_filterMap {A B : Type} (f : String × A → Option B) (m : GoMap String A) (h : MapWF m) :
    MapWF (m.filterMap fun e => (f e).map fun x => (e.1, x)) := by
  unfold MapWF at h ⊢
  induction m with
  | nil => exact List.nodup_nil
  | cons e m ih =>
    rw [mapKeys, List.map_cons, List.nodup_cons] at h
    have ih := ih h.2
    rw [List.filterMap_cons]
    cases he : f e with
    | none => simpa using ih
    | some x =>
      simp only [Option.map_some, mapKeys, List.map_cons, List.nodup_cons]
      refine ⟨?_, ih⟩
      intro hm
      apply h.1
      simp only [List.mem_map, List.mem_filterMap, Option.map_eq_some_iff] at hm ⊢
      obtain ⟨_, ⟨e', he', x', _, rfl⟩, h2⟩ := hm
      exact ⟨e', he', h2⟩

theorem mapGet_filterMap {A B : Type} (f : String × A → Option B) (m : GoMap String A) (h : MapWF m) (k : String) (b : B) :
    mapGet (m.filterMap fun e => (f e).map fun x => (e.1, x)) k = some b ↔ ∃ a, mapGet m k = some a ∧ f (k, a) = some b := by
  rw [mapGet_iff_mem (mapWF_filterMap f m h)]
  simp only [mapGet_iff_mem h, List.mem_filterMap, Option.map_eq_some_iff, Prod.mk.injEq, Prod.exists]
  constructor
  · rintro ⟨k', a, ha, x, hx, rfl, rfl⟩; exact ⟨a, ha, hx⟩
  · rintro ⟨a, ha, hx⟩; exact ⟨k, a, ha, b, hx, rfl, rfl⟩

theorem discover_wf {L D : Type} {env : Disc.FolderEnv L D} {fuel : Nat} {sched : List (Disc.Write L) → List (Disc.Write L)}
    {fo : Disc.Folder L D} (h : Disc.discover env fuel sched = some (.ok fo)) :
    MapWF fo.namespaces ∧ MapWF fo.schemas ∧ MapWF fo.instances ∧ ∀ k, MapWF (fo.links k) := by
  rcases discover_ok h with ⟨key, inst, ws, fo0, _, _, _, a, e1, e2, e3, n1, n2, n3⟩ | ⟨_, _, _, _, he⟩
  · rw [n1, n2, n3, a, Disc.applyWrites_ns, Disc.applyWrites_schemas, e1, e2]
    refine ⟨Render.foldl_set_wf Prod.fst Prod.snd _ _ MapWF.nil, Render.foldl_set_wf Prod.fst Prod.snd _ _ MapWF.nil,
      by simp [MapWF, mapKeys], fun k => ?_⟩
    rw [Disc.applyWrites_links, e3]
    exact Render.foldl_set_wf Prod.fst Prod.snd _ _ MapWF.nil
  · rw [he]
    exact ⟨MapWF.nil, MapWF.nil, MapWF.nil, fun _ => MapWF.nil⟩

theorem filesOf_wf {d : Disk} {fuel : Nat} {sched : List (Disc.Write LinkbaseFile) → List (Disc.Write LinkbaseFile)}
    {fo : Disc.Folder LinkbaseFile DocFile} (h : Disc.discover d.env fuel sched = some (.ok fo)) : FilesWF (filesOf d fo) := by
  obtain ⟨_, h2, h3, h4⟩ := discover_wf h
  exact ⟨mapWF_filterMap _ _ h2, h4 _, h4 _, h4 _, h4 _, mapWF_filterMap _ _ h3⟩

/-- A loaded folder has at most one instance, that of its entry file. -/
theorem load_instances {d : Disk} {w : Hydrate.World} {fuel : Nat} {sched : List (Disc.Write LinkbaseFile) → List (Disc.Write LinkbaseFile)}
    {fo : Files} {h : Hydratable} (hl : load d w fuel sched = some (.done (some (fo, h)))) :
    (values h.instances = [] ∧ ∀ key inst, ¬ Disc.EntryInstance d.env key inst) ∨
    ∃ key inst root file i, Disc.EntryInstance d.env key inst ∧ d.read key = some root ∧ instanceFile root = some file ∧
      inst = ⟨file.schemaRef, 0⟩ ∧ values h.instances = [i] ∧ InstanceOf w fo key file i ∧ Readable w fo file := by
  obtain ⟨fo0, h1, rfl, h2⟩ := load_some hl
  obtain ⟨_, _, _, _, _, h6, _, _⟩ := hydrate_some h2
  rcases discover_ok h1 with ⟨key, inst, ws, _, hE, _, _, ha, _⟩ | ⟨hE, _, _, _, he⟩
  · right
    obtain ⟨e, he, hr, _⟩ := id hE
    change (d.read key).bind _ = some inst at hr
    obtain ⟨root, hroot, hr⟩ := Option.bind_eq_some_iff.1 hr
    obtain ⟨file, hfile, rfl⟩ := Option.map_eq_some_iff.1 hr
    have hi : (filesOf d fo0).instances = [(key, file)] := by
      simp [filesOf, ha, hroot, hfile]
    rw [hi, hydrateMap] at h6
    cases hf : hydrateInstance w (filesOf d fo0) key file with
    | panic => simp [hf, Run.andThen] at h6
    | loop => simp [hf, Run.andThen] at h6
    | done o =>
      cases o with
      | none => simp [hf, Run.andThen] at h6
      | some i =>
        simp only [hf, Run.andThen, hydrateMap, mapSet, Run.done.injEq, Option.some.injEq] at h6
        exact ⟨key, _, root, file, i, hE, hroot, hfile, rfl, by simp [values, ← h6], hydrateInstance_some hf,
          (hydrateInstance_total.1 ⟨i, hf⟩).2⟩
  · left
    have hi : (filesOf d fo0).instances = [] := by rw [he]; rfl
    rw [hi] at h6
    simp only [hydrateMap, Run.done.injEq, Option.some.injEq] at h6
    exact ⟨by simp [values, ← h6], hE⟩

theorem load_own {d : Disk} {w : Hydrate.World} {fuel : Nat} {sched : List (Disc.Write LinkbaseFile) → List (Disc.Write LinkbaseFile)}
    {fo : Files} {h : Hydratable} (hl : load d w fuel sched = some (.done (some (fo, h)))) (tree : List Arc → String → Node) :
    OwnContexts (renderFolder w fo h tree) := by
  intro i hi c _ i' hi' y _ _
  change i ∈ values h.instances at hi
  change i' ∈ values h.instances at hi'
  rcases load_instances hl with ⟨e, _⟩ | ⟨_, _, _, _, _, _, _, _, _, e, _⟩
  · rw [e] at hi; cases hi
  · rw [e] at hi hi'
    rw [List.mem_singleton.1 hi, List.mem_singleton.1 hi']

/-- **C95.** In the grids of a loaded folder every cell that shows a fact shows a fact of its row's concept and of its column's
context, which is one of the entity. -/
theorem C95_discovered {Φ : Type} (d : Disk) (w : Hydrate.World) (fuel : Nat)
    (sched : List (Disc.Write LinkbaseFile) → List (Disc.Write LinkbaseFile)) (fo : Files) (h : Hydratable)
    (hl : load d w fuel sched = some (.done (some (fo, h)))) (tree : List Arc → String → Node) (env : GridEnv Φ)
    (hs : ∀ langs, (env.source langs).find = Query.findFact (values h.instances)) (b : Books) (entity role : String) :
    let f := renderFolder w fo h tree
    let Right := fun (langs : List Lang) (hrefs : List String) (periods : List LanguagePack) (facts : List (List Φ)) =>
      ∀ n j y, CellAt facts n j y → y = (env.source langs).render none ∨
        ∃ i ∈ f.insts, ∃ x ∈ i.facts, ∃ c col, y = (env.source langs).render (some x) ∧ hrefs[n]? = some x.href ∧
          periods[j]? = some col.period ∧ ColumnOf f c col ∧ Render.ContextOf i x.contextRef c ∧ OfEntity entity c
    (∀ g roles langs, pGrid f env entity role b.presentation = .done (g, roles, langs) →
      Right langs (g.rows.map IndentedLabel.href) g.periods g.quadrant.facts) ∧
    (∀ g roles langs, dGrid f env entity role b = .done (g, roles, langs) → ∀ r ∈ g.domains, ∃ langs',
      Right langs' (r.href :: r.primaryItems.map PrimaryItem.href) r.periods r.quadrant.facts) ∧
    (∀ items roles langs, cGrid f env entity role b = .done (items, roles, langs) → ∀ i ∈ items, ∃ langs',
      Right langs' (i.contributing.map Contributing.href ++ [i.href]) i.periods i.quadrant.facts) := by
  intro f Right
  have key : ∀ langs hrefs periods members voids q, Aligned f entity (env.source langs) hrefs periods members voids q →
      Right langs hrefs periods q.facts := by
    intro langs hrefs periods members voids q ha n j y hy
    exact C95_right f entity (env.source langs) hrefs periods members voids q (hs langs) ha (load_own hl tree) n j y hy
  refine ⟨?_, ?_, ?_⟩
  · intro g roles langs hg
    obtain ⟨_, ha, _⟩ := C92_presentation f env entity role _ g roles langs hg
    exact key _ _ _ _ _ _ ha
  · intro g roles langs hg r hr
    obtain ⟨langs', ha, hoff⟩ := C93_definition f env entity role b g roles langs hg r hr
    exact ⟨langs', key _ _ _ _ _ _ ha⟩
  · intro items roles langs hg i hi
    obtain ⟨langs', ha, hoff⟩ := C93_calculation f env entity role b items roles langs hg i hi
    exact ⟨langs', key _ _ _ _ _ _ ha⟩

/-- The queries of a loaded folder find the declarations of its schema files. -/
theorem loaded_schema {d : Disk} {w : Hydrate.World} {fuel : Nat} {sched : List (Disc.Write LinkbaseFile) → List (Disc.Write LinkbaseFile)}
    {fo : Files} {h : Hydratable} (hperm : ∀ ws, (sched ws).Perm ws) (hurl : w.validUrl = d.isUrl)
    (hl : load d w fuel sched = some (.done (some (fo, h)))) {key : String} {inst : Disc.InstanceFile}
    (hE : Disc.EntryInstance d.env key inst) {ns l : String} {sx : Xml} (hs : SchemaAt d w.discover inst ns l sx) :
    mapGet fo.namespaces ns = some l ∧ ∀ c, Declares (queryEnv w fo) l c ↔ DeclaredIn sx l c := by
  obtain ⟨fo0, h1, rfl, h2⟩ := load_some hl
  obtain ⟨c1, _, c3, c4⟩ := C12_collects_reachable d.env fuel sched hperm fo0 h1
  constructor
  · obtain ⟨l', hl'⟩ := c4 key inst ns l hE hs.located
    obtain ⟨key', inst', hE', hloc⟩ := c3 ns l' hl'
    obtain ⟨rfl, rfl⟩ := entryInstance_unique hE hE'
    rw [hs.only l' hloc] at hl'
    exact hl'
  · obtain ⟨ds, hds⟩ : ∃ ds, discoveredSchema sx = some ds := by unfold discoveredSchema; simp [hs.root]
    obtain ⟨file, hfile⟩ : ∃ file, schemaFile sx = some file := by unfold schemaFile; simp [hs.root]
    have hfileAt : ∀ file', FileAt (queryEnv w (filesOf d fo0)) l file' ↔ file' = file := by
      rcases hs.source with ⟨hno, hrd⟩ | ⟨hyes, hweb⟩
      · have hread : d.env.readSchema l = some ds := by
          change (d.read l).bind discoveredSchema = some ds
          rw [hrd]; exact hds
        have hloc : Disc.Local d.env l ds := ⟨hs.nonempty, hno, hread⟩
        have hreach : Disc.Reach d.env inst l ds := by
          rcases hs.located with ⟨i, hi, f, hr⟩ | ⟨l', f, hr, hc⟩
          · have : f = ds := by
              have := hr.2.2.1.2.2
              rw [hread] at this; exact (Option.some.inj this).symm
            subst this
            exact .root _ _ ⟨i, hi, ns, hr⟩
          · refine .child l' f l ds hr ?_
            rcases hc with ⟨i, hi, hn⟩ | ⟨i, hi, g, hg⟩
            · exact .inl ⟨i, hi, ns, hn, hloc⟩
            · have : g = ds := by
                have := hg.2.2.1.2.2
                rw [hread] at this; exact (Option.some.inj this).symm
              subst this
              exact .inr ⟨i, hi, ns, hg⟩
        have hm : mapGet (filesOf d fo0).schemas l = some file := by
          refine (mapGet_filterMap _ _ (discover_wf h1).2.1 _ _).2 ⟨ds, (c1 l ds).2 ⟨key, inst, hE, hreach⟩, ?_⟩
          simp [hrd, hfile]
        have hv : (queryEnv w (filesOf d fo0)).validUrl l = false := by
          change w.validUrl l = false
          rw [hurl]; exact hno
        intro file'
        constructor
        · rintro ⟨_, ⟨hv', _⟩ | ⟨_, hm' | ⟨hm', _⟩⟩⟩
          · rw [hv] at hv'; cases hv'
          · change mapGet (filesOf d fo0).schemas l = _ at hm'
            rw [hm] at hm'; exact (Option.some.inj hm').symm
          · change mapGet (filesOf d fo0).schemas l = _ at hm'
            rw [hm] at hm'; cases hm'
        · rintro rfl
          exact ⟨hs.nonempty, .inr ⟨hv, .inl hm⟩⟩
      · have hv : (queryEnv w (filesOf d fo0)).validUrl l = true := by
          change w.validUrl l = true
          rw [hurl]; exact hyes
        have hd : (queryEnv w (filesOf d fo0)).discover l = some file := by
          change w.discover l = some file
          rw [hweb, hfile]
        intro file'
        constructor
        · rintro ⟨_, ⟨_, hd'⟩ | ⟨hv', _⟩⟩
          · rw [hd] at hd'; exact (Option.some.inj hd').symm
          · rw [hv] at hv'; cases hv'
        · rintro rfl
          exact ⟨hs.nonempty, .inl ⟨hv, hd⟩⟩
    obtain ⟨_, hat, hel, _⟩ := ((C99_schema sx).1 file).1 hfile
    have hels : ∀ e : Elem, e ∈ file.elements ↔ ∃ k ∈ sx.kids, k.name.loc = "element" ∧ e = ⟨k.name.space, k.attrs⟩ := by
      rw [(kids_iff (f := fun k => (⟨k.name.space, k.attrs⟩ : Elem)) (fun k y => by cases y; simp) _ _ _).1 hel]
      intro e
      simp only [List.mem_map, Xml.named, List.mem_filter, decide_eq_true_eq]
      constructor
      · rintro ⟨k, ⟨h1, h2⟩, rfl⟩; exact ⟨k, h1, h2, rfl⟩
      · rintro ⟨k, h1, h2, rfl⟩; exact ⟨k, ⟨h1, h2⟩, rfl⟩
    intro c
    constructor
    · rintro ⟨file', hf, e, he, hc⟩
      cases (hfileAt file').1 hf
      obtain ⟨k, h1, h2, rfl⟩ := (hels e).1 he
      exact ⟨k, h1, h2, hat ▸ hc⟩
    · rintro ⟨k, h1, h2, hc⟩
      exact ⟨file, (hfileAt file).2 rfl, _, (hels _).2 ⟨k, h1, h2, rfl⟩, hat ▸ hc⟩

theorem append_hash_inj {a b c d : String} (hb : '#' ∉ b.toList) (hd : '#' ∉ d.toList) (h : a ++ "#" ++ b = c ++ "#" ++ d) :
    a = c ∧ b = d := by
  have h' : a.toList ++ '#' :: b.toList = c.toList ++ '#' :: d.toList := by
    have := congrArg String.toList h
    simpa using this
  have key : ∀ (a c b d : List Char), '#' ∉ b → '#' ∉ d → a ++ '#' :: b = c ++ '#' :: d → a = c ∧ b = d := by
    intro a
    induction a with
    | nil =>
      intro c b d hb hd h
      cases c with
      | nil => simpa using h
      | cons x c =>
        simp only [List.nil_append, List.cons_append, List.cons.injEq] at h
        exact absurd (by rw [h.2]; simp) hb
    | cons x a ih =>
      intro c b d hb hd h
      cases c with
      | nil =>
        simp only [List.nil_append, List.cons_append, List.cons.injEq] at h
        exact absurd (by rw [← h.2]; simp) hd
      | cons y c =>
        simp only [List.cons_append, List.cons.injEq] at h
        obtain ⟨rfl, h⟩ := h
        obtain ⟨rfl, rfl⟩ := ih c b d hb hd h
        exact ⟨rfl, rfl⟩
  obtain ⟨h1, h2⟩ := key _ _ _ _ hb hd h'
  exact ⟨String.toList_injective h1, String.toList_injective h2⟩

theorem factOf_exists {w : Instance.World} {e : FactElem} {href r : String} {c : Concept} (h0 : e.name.space ≠ "") (h1 : e.name.loc ≠ "")
    (hq : nameQuery w.env e.name.space e.name.loc = .ok (some (href, c))) (hh : href ≠ "") (hr : AttrVal e.attrs "contextRef" r) (hr' : r ≠ "") :
    ∃ f, FactOf w e f ∧ f.href = href ∧ f.contextRef = r := by
  rw [← plainAttr_iff] at hr
  refine ⟨⟨href, optAttr e.attrs "id", r, optAttr e.attrs "unitRef", precisionOf e.attrs, boolAttr e.attrs "nil", e.inner⟩, ?_, rfl, rfl⟩
  rw [← hydrateFact_iff]
  simp [hydrateFact, h0, h1, hq, hh, hr, hr']

theorem collected_of {α β : Type} {R : α → β → Prop} {l : List α} {out : List β} (h : Collected R l out) (x : α) (hx : x ∈ l)
    (y : β) (hr : R x y) (hu : ∀ y₁ y₂, R x y₁ → R x y₂ → y₁ = y₂) : y ∈ out := by
  induction h with
  | nil => cases hx
  | keep x' y' xs ys hr' _ ih =>
    rcases List.mem_cons.1 hx with rfl | hx
    · rw [hu y y' hr hr']; exact List.mem_cons_self
    · exact List.mem_cons_of_mem _ (ih hx)
  | skip x' xs ys hn _ ih =>
    rcases List.mem_cons.1 hx with rfl | hx
    · exact absurd hr (hn y)
    · exact ih hx

theorem contextOf_unique {w : Instance.World} {e : CtxElem} (hs : ¬ Stuck w e) {c c' : Context} (h : Instance.ContextOf w e c)
    (h' : Instance.ContextOf w e c') : c = c' := by
  have h := (hydrateContext_some w e c).2 ⟨hs, h⟩
  rw [(hydrateContext_some w e c').2 ⟨hs, h'⟩] at h
  cases h; rfl

/-- Facts of a grid with a row and a column for them. -/
theorem shownAt_of {Φ : Type} {f : Render.Folder} {entity : String} {s : FactSource Φ} {hrefs : List String}
    {periods : List LanguagePack} {members : List (List MemberCell)} {voids : List VoidCell} {q : Quadrant Φ}
    (hs : s.find = Query.findFact f.insts) (ha : Aligned f entity s hrefs periods members voids q)
    {i : HInstance} (hi : i ∈ f.insts) {x : Fact} (hx : x ∈ i.facts) (hd : Unrivalled f x) (hrow : ConcreteRow f hrefs x.href)
    {c : Context} (hc : Render.ContextOf i x.contextRef c) (he : OfEntity entity c) (spanish : Date → Option String) (langs : List Lang) :
    ShownAt f hrefs (formatRelevantPeriod spanish periods langs) members voids s q x.href c x := by
  obtain ⟨j, col, h2, hco', hmc, h4, h8⟩ := C94_shown_partial f entity s hrefs periods members voids q hs ha i hi x hx hd hrow c hc he
  obtain ⟨_, ⟨t, ht, hcp⟩, _⟩ := id hco'
  obtain ⟨cols, hcols, hper, _⟩ := ha
  have hh := headed_of hcols spanish langs
  rw [← hper] at hh
  rw [hper, List.getElem?_map] at h2
  obtain ⟨col', hcol', he'⟩ := Option.map_eq_some_iff.1 h2
  have : ∃ hd, (formatRelevantPeriod spanish periods langs)[j]? = some hd ∧ ∃ raw, col'.period = [("Unlabelled", raw)] ∧
      mapGet hd "Unlabelled" = some raw := by
    unfold Headed at hh
    generalize formatRelevantPeriod spanish periods langs = hs at hh
    clear h2 hper hcols h4 h8 hmc ‹HasShape _ _ _ ∧ _›
    induction hh generalizing j with
    | nil => simp at hcol'
    | cons p _ ih =>
      cases j with
      | zero =>
        simp only [List.getElem?_cons_zero, Option.some.injEq] at hcol' ⊢
        subst hcol'
        obtain ⟨raw, a, b, _⟩ := p
        exact ⟨_, rfl, raw, a, b⟩
      | succ j => exact ih j hcol'
  obtain ⟨hd, h5, raw, h6, h7⟩ := this
  rw [h6, hcp] at he'
  simp only [List.cons.injEq, Prod.mk.injEq, and_true, true_and] at he'
  subst he'
  exact ⟨j, hd, raw, col, h5, h7, ht, hco', hmc, h4, h8⟩

/-- The concept of a schema file of the folder is found by its name and by its reference. -/
theorem loaded_concept {d : Disk} {w : Hydrate.World} (hw : Fair w) (hurl : w.validUrl = d.isUrl) {fuel : Nat}
    {sched : List (Disc.Write LinkbaseFile) → List (Disc.Write LinkbaseFile)} (hperm : ∀ ws, (sched ws).Perm ws)
    {fo : Files} {h : Hydratable} (hl : load d w fuel sched = some (.done (some (fo, h))))
    {key : String} {inst : Disc.InstanceFile} (hE : Disc.EntryInstance d.env key inst) {n : XName} {c : Concept} (hx : n = c.name)
    {l : String} {sx : Xml} (hsx : SchemaAt d w.discover inst n.space l sx) (hc : DeclaredIn sx l c) (hdist : Distinct sx l c) :
    nameQuery (queryEnv w fo) n.space n.loc = .ok (some (l ++ "#" ++ c.id, c)) ∧
      ∀ tree, (renderFolder w fo h tree).concept (l ++ "#" ++ c.id) = some c := by
  obtain ⟨hns, hdecl⟩ := loaded_schema hperm hurl hl hE hsx
  have hq : nameQuery (queryEnv w fo) n.space n.loc = .ok (some (l ++ "#" ++ c.id, c)) := by
    obtain ⟨q1, q2⟩ := C75_name_query (queryEnv w fo) n.space n.loc
    obtain ⟨href, c', hq⟩ := q1.2 ⟨l, c, hns, (hdecl c).2 hc, by rw [← hx]⟩
    obtain ⟨l', hl', rfl, hd', hn'⟩ := q2 _ _ hq
    change mapGet fo.namespaces _ = _ at hl'
    rw [hns] at hl'; cases hl'
    have : c' = c := hdist c' ((hdecl c').1 hd') (.inl (by rw [hn', ← hx]))
    subst this
    exact hq
  refine ⟨hq, fun tree => ?_⟩
  obtain ⟨fo0, hd0, rfl, _⟩ := load_some hl
  obtain ⟨l', hl', hrt⟩ := C28_round_trip (queryEnv w (filesOf d fo0)) (discover_wf hd0).1
    (w.nsOrder (l ++ "#" ++ c.id) (filesOf d fo0).namespaces) (hw.n _ _) _ _ _ _ hq
  change mapGet (filesOf d fo0).namespaces _ = _ at hl'
  rw [hns] at hl'; cases hl'
  obtain ⟨ns', c', hh, hid, hd', _⟩ := hrt hsx.noHash
  have : c' = c := hdist c' ((hdecl c').1 hd') (.inr hid)
  subst this
  simp only [renderFolder, hh]

/-- The fact of a reported element, in the only instance of the folder. -/
theorem loaded_fact {d : Disk} {w : Hydrate.World} (hw : Fair w) (hurl : w.validUrl = d.isUrl) {fuel : Nat}
    {sched : List (Disc.Write LinkbaseFile) → List (Disc.Write LinkbaseFile)} (hperm : ∀ ws, (sched ws).Perm ws)
    {fo : Files} {h : Hydratable} (hl : load d w fuel sched = some (.done (some (fo, h))))
    {root : Xml} {inst : Disc.InstanceFile} (hroot : EntryRoot d root inst) {file : InstFile} (hfile : instanceFile root = some file)
    {x : Xml} {c : Concept} {r : String} (hx : Reports root x c r)
    {l : String} {sx : Xml} (hsx : SchemaAt d w.discover inst x.name.space l sx) (hc : DeclaredIn sx l c) (hdist : Distinct sx l c)
    (hids : ∀ l' c', Declares (queryEnv w fo) l' c' → '#' ∉ c'.id.toList)
    {cc : Context} (hcc : HasContext (instanceWorld w fo file) root r cc) (tree : List Arc → String → Node) :
    ∃ f i, FactOf (instanceWorld w fo file) (fact x) f ∧ f.href = l ++ "#" ++ c.id ∧ f.contextRef = r ∧ values h.instances = [i] ∧
      f ∈ i.facts ∧ Unrivalled (renderFolder w fo h tree) f ∧ Render.ContextOf i r cc := by
  obtain ⟨key, hE, hread⟩ := hroot
  obtain ⟨hns, hdecl⟩ := loaded_schema hperm hurl hl hE hsx
  have hloc : c.name.loc ≠ "" := by obtain ⟨e, _, _, hco⟩ := hc; exact hco.name.2
  obtain ⟨hq, _⟩ := loaded_concept hw hurl hperm hl hE hx.name hsx hc hdist
  -- the fact
  obtain ⟨f, hf, hhref, hctx⟩ := factOf_exists (w := instanceWorld w fo file) (e := fact x) (r := r) hx.nspace
    (by change x.name.loc ≠ ""; rw [hx.name]; exact hloc) hq (by
      intro e
      have := congrArg String.length e
      simp only [String.length_append] at this
      have h1 : ("#" : String).length = 1 := rfl
      have h2 : ("" : String).length = 0 := rfl
      omega) hx.ctx hx.nonempty
  -- the instance
  obtain ⟨i, hi, hio, hrd⟩ : ∃ i, values h.instances = [i] ∧ InstanceOf w fo key file i ∧ Readable w fo file := by
    rcases load_instances hl with ⟨_, hno⟩ | ⟨key', inst', root', file', i, hE', hr', hf', _, hv, hio, hrd⟩
    · exact absurd hE (hno _ _)
    · obtain ⟨rfl, rfl⟩ := entryInstance_unique hE hE'
      rw [hread] at hr'; cases hr'
      rw [hfile] at hf'; cases hf'
      exact ⟨i, hv, hio, hrd⟩
  obtain ⟨_, _, _, hctxs, _, _, hfacts⟩ := ((C99_instance root).2 file).1 hfile
  obtain ⟨lf, hlf, hsf⟩ := hio.facts
  have hfm : f ∈ i.facts := by
    rw [hsf.1.mem_iff, (collected_iff (hydrateFact_iff _) _ _).1 hlf]
    refine List.mem_filterMap.2 ⟨fact x, ?_, (hydrateFact_iff _ _ _).2 hf⟩
    rw [(factKids_iff _ _).1 hfacts]
    refine List.mem_map_of_mem ?_
    simpa [Xml.others, hx.kid, Reserved] using hx.fact
  have hunr : Unrivalled (renderFolder w fo h tree) f := by
    intro i' hi' y hy hyh hyc
    change i' ∈ values h.instances at hi'
    rw [hi] at hi'
    have := List.mem_singleton.1 hi'
    subst this
    rw [hsf.1.mem_iff] at hy
    obtain ⟨e, he, hfo⟩ := collected_mem hlf y hy
    obtain ⟨k, hk, hr, hke⟩ := collected_mem hfacts e he
    obtain ⟨c', hq'⟩ := hfo.concept
    obtain ⟨l', hl', hh', hd', hn'⟩ := (C75_name_query (queryEnv w fo) e.name.space e.name.loc).2 _ _ ((nameQuery_iff _ _ _ _).2 hq')
    rw [hyh, hhref] at hh'
    obtain ⟨rfl, hid⟩ := append_hash_inj (hids l c ((hdecl c).2 hc)) (hids _ _ hd') hh'
    have : c' = c := hdist c' ((hdecl c').1 hd') (.inr hid.symm)
    subst this
    have hkx : k = x := hx.only k hk (by rw [hn', ← hke.1]) (by
      have := hfo.ctx.1
      rw [hyc, hctx, hke.2.1] at this
      exact this)
    subst hkx
    rw [(isFact_iff _ _).1 hke, ← hydrateFact_iff] at hfo
    rw [← hydrateFact_iff, hfo] at hf
    exact Option.some.inj hf
  -- the context
  have hcon : Render.ContextOf i r cc := by
    obtain ⟨hccid, cx, hcx, hcn, ⟨e, hie, hce⟩, honly⟩ := hcc
    obtain ⟨lc, hlc, hsc⟩ := hio.contexts
    have hce' : e = context cx := (isContext_iff _ _).1 hie
    have hem : e ∈ file.contexts := by
      rw [(kids_iff isContext_iff _ _ _).1 hctxs, hce']
      refine List.mem_map_of_mem ?_
      simp [Xml.named, hcx, hcn]
    have hmem : cc ∈ i.contexts := by
      rw [hsc.1.mem_iff]
      exact collected_of hlc e hem cc hce fun c₁ c₂ => contextOf_unique (hrd e hem).2
    have huniq : ∀ c' ∈ i.contexts, c'.id = r → c' = cc := by
      intro c' hc' hid
      rw [hsc.1.mem_iff] at hc'
      obtain ⟨e', he', hce2⟩ := collected_mem hlc c' hc'
      obtain ⟨k, hk, hkn, hke⟩ := collected_mem hctxs e' he'
      have hkx : k = cx := honly k hk hkn e' hke (by obtain ⟨ent, hid', _⟩ := hce2; rw [← hid]; exact hid'.1)
      subst hkx
      rw [(isContext_iff _ _).1 hke, ← hce'] at hce2
      exact contextOf_unique (hrd e hem).2 hce2 hce
    obtain ⟨c', hc'⟩ : ∃ c', Render.ContextOf i r c' := by
      unfold Render.ContextOf
      cases hfd : i.contexts.find? (fun c => decide (c.id = r)) with
      | none =>
        rw [List.find?_eq_none] at hfd
        exact absurd (by simpa using hccid) (hfd cc hmem)
      | some c' => exact ⟨c', (getContext_iff _ _ _).1 hfd⟩
    obtain ⟨h1, h2⟩ := firstWith_mem hc'
    rw [← huniq c' h1 h2]; exact hc'
  exact ⟨f, i, hf, hhref, hctx, hi, hfm, hunr, hcon⟩

/-- **C102.** A fact reported in the instance of a folder on disk — for a concept declared, not abstract, in a schema file of the
folder or in a published schema, in a context of the entity — is shown, in every grid that has a row for its concept, in every such row and in a column with
the period and the members of its context, with as many numbers as it has footnotes, whose texts are in the grid. -/
theorem C102_shown {Φ : Type} (d : Disk) (w : Hydrate.World) (hw : Fair w) (hurl : w.validUrl = d.isUrl) (fuel : Nat)
    (sched : List (Disc.Write LinkbaseFile) → List (Disc.Write LinkbaseFile)) (hperm : ∀ ws, (sched ws).Perm ws)
    (fo : Files) (h : Hydratable) (hl : load d w fuel sched = some (.done (some (fo, h))))
    (root : Xml) (inst : Disc.InstanceFile) (hroot : EntryRoot d root inst) (file : InstFile) (hfile : instanceFile root = some file)
    (x : Xml) (c : Concept) (r : String) (hx : Reports root x c r)
    (l : String) (sx : Xml) (hsx : SchemaAt d w.discover inst x.name.space l sx) (hc : DeclaredIn sx l c) (hdist : Distinct sx l c)
    (habs : c.abstract = false) (hids : ∀ l' c', Declares (queryEnv w fo) l' c' → '#' ∉ c'.id.toList)
    (cc : Context) (hcc : HasContext (instanceWorld w fo file) root r cc) (entity : String) (hent : OfEntity entity cc)
    (tree : List Arc → String → Node) (env : GridEnv Φ) (hs : ∀ langs, (env.source langs).find = Query.findFact (values h.instances))
    (spanish : Date → Option String) (gs : Schedule) (b : Books) (role : String) (g : Grids Φ)
    (hg : renderGrids (renderFolder w fo h tree) env spanish gs b entity role = .done g) :
    ∃ f, FactOf (instanceWorld w fo file) (fact x) f ∧ f.href = l ++ "#" ++ c.id ∧
      (l ++ "#" ++ c.id ∈ g.p.rows.map IndentedLabel.href → ∃ langs, "Unlabelled" ∈ langs ∧
        ShownAt (renderFolder w fo h tree) (g.p.rows.map IndentedLabel.href) g.p.periods g.p.members g.p.voids (env.source langs) g.p.quadrant
          (l ++ "#" ++ c.id) cc f) ∧
      (∀ rd ∈ g.d.domains, l ++ "#" ++ c.id ∈ rd.href :: rd.primaryItems.map PrimaryItem.href → ∃ langs, "Unlabelled" ∈ langs ∧
        ShownAt (renderFolder w fo h tree) (rd.href :: rd.primaryItems.map PrimaryItem.href) rd.periods rd.members rd.voids
          (env.source langs) rd.quadrant (l ++ "#" ++ c.id) cc f) ∧
      (∀ it ∈ g.c, l ++ "#" ++ c.id ∈ it.contributing.map Contributing.href ++ [it.href] → ∃ langs, "Unlabelled" ∈ langs ∧
        ShownAt (renderFolder w fo h tree) (it.contributing.map Contributing.href ++ [it.href]) it.periods it.members it.voids
          (env.source langs) it.quadrant (l ++ "#" ++ c.id) cc f) := by
  obtain ⟨f, i, hf, hhref, hctx, hi, hfm, hunr, hcon⟩ := loaded_fact hw hurl hperm hl hroot hfile hx hsx hc hdist hids hcc tree
  rw [← hctx] at hcon
  obtain ⟨key, hE, _⟩ := hroot
  have hfound := (loaded_concept hw hurl hperm hl hE hx.name hsx hc hdist).2
  have himem : i ∈ (renderFolder w fo h tree).insts := by
    change i ∈ values h.instances
    rw [hi]; exact List.mem_singleton.2 rfl
  -- the row
  have hrow : ∀ hrefs, l ++ "#" ++ c.id ∈ hrefs → ConcreteRow (renderFolder w fo h tree) hrefs f.href := by
    intro hrefs hm
    rw [hhref]
    exact ⟨hm, c, hfound tree, habs⟩
  obtain ⟨p, dd, ct, hp, hd, hct, rfl⟩ := renderGrids_done hg
  obtain ⟨p, pr, pl⟩ := p
  obtain ⟨dd, dr, dl⟩ := dd
  obtain ⟨ct, cr, cl⟩ := ct
  refine ⟨f, hf, hhref, ?_, ?_, ?_⟩
  · intro hm
    obtain ⟨_, ha, hoff⟩ := C92_presentation _ env entity role _ p pr pl hp
    have hsh := shownAt_of (hs pl) ha himem hfm hunr (hrow _ hm) hcon hent spanish
      (langsAfter (gs.lists pl dl cl) gs.grow 8 gs.langs)
    rw [hhref] at hsh
    exact ⟨pl, label_unlabelled (fun _ => ⟨_, rfl⟩) (hoff (by intro e; simp [formatPeriod, e] at hm)), hsh⟩
  · intro rd hrd hm
    simp only [formatPeriod] at hrd
    obtain ⟨rd', hrd', rfl⟩ := List.mem_map.1 hrd
    obtain ⟨langs', ha, hoff⟩ := C93_definition _ env entity role b dd dr dl hd rd' hrd'
    have hsh := shownAt_of (hs langs') ha himem hfm hunr (hrow _ hm) hcon hent spanish
      (langsAfter (gs.lists pl dl cl) gs.grow 8 gs.langs)
    rw [hhref] at hsh
    exact ⟨langs', label_unlabelled (fun _ => ⟨_, rfl⟩) hoff, hsh⟩
  · intro it hit hm
    simp only [formatPeriod] at hit
    obtain ⟨it', hit', rfl⟩ := List.mem_map.1 hit
    obtain ⟨langs', ha, hoff⟩ := C93_calculation _ env entity role b ct cr cl hct it' hit'
    have hsh := shownAt_of (hs langs') ha himem hfm hunr (hrow _ hm) hcon hent spanish
      (langsAfter (gs.lists pl dl cl) gs.grow 8 gs.langs)
    rw [hhref] at hsh
    exact ⟨langs', label_unlabelled (fun _ => ⟨_, rfl⟩) hoff, hsh⟩

/-! A folder on disk that meets the hypotheses of `C102_shown`. -/

def diskSchema : Xml :=
  .mk ⟨Disc.XSD, "schema"⟩ [⟨⟨"", "targetNamespace"⟩, "http://x"⟩] "" "" [
    .mk ⟨Disc.XSD, "annotation"⟩ [] "" "" [.mk ⟨Disc.XSD, "appinfo"⟩ [] "" "" [
      .mk ⟨LINK, "linkbaseRef"⟩ [⟨⟨XLINK, "arcrole"⟩, Disc.LINKARCROLE⟩, ⟨⟨XLINK, "type"⟩, "simple"⟩,
        ⟨⟨XLINK, "role"⟩, Disc.LKind.pre.role⟩, ⟨⟨XLINK, "href"⟩, "p.xml"⟩] "" "" [],
      .mk ⟨LINK, "roleType"⟩ [⟨⟨"", "roleURI"⟩, "r"⟩, ⟨⟨"", "id"⟩, "R"⟩] "" "" [.mk ⟨LINK, "definition"⟩ [] "001 - A" "001 - A" []]]],
    .mk ⟨Disc.XSD, "element"⟩ [⟨⟨"", "id"⟩, "x_Cash"⟩, ⟨⟨"", "name"⟩, "Cash"⟩, ⟨⟨"", "type"⟩, "t"⟩] "" "" []]

def diskLinks : Xml :=
  .mk ⟨LINK, "linkbase"⟩ [] "" "" [
    .mk ⟨LINK, "roleRef"⟩ [⟨⟨"", "roleURI"⟩, "r"⟩, ⟨⟨XLINK, "href"⟩, "x.xsd#r"⟩] "" "" [],
    .mk ⟨LINK, "presentationLink"⟩ [⟨⟨XLINK, "type"⟩, "extended"⟩, ⟨⟨XLINK, "role"⟩, "r"⟩] "" "" [
      .mk ⟨LINK, "loc"⟩ [⟨⟨XLINK, "type"⟩, "locator"⟩, ⟨⟨XLINK, "href"⟩, "x.xsd#x_Cash"⟩, ⟨⟨XLINK, "label"⟩, "cash"⟩] "" "" [],
      .mk ⟨LINK, "presentationArc"⟩ [⟨⟨XLINK, "type"⟩, "arc"⟩, ⟨⟨XLINK, "arcrole"⟩, PresentationArcrole⟩, ⟨⟨XLINK, "from"⟩, "root"⟩,
        ⟨⟨XLINK, "to"⟩, "cash"⟩, ⟨⟨"", "order"⟩, "1"⟩] "" "" []]]

def diskDemo : Disk where
  entryName := some "r.xml"
  images := []
  read := fun n => if n = "r.xml" then some reportXml else if n = "x.xsd" then some diskSchema else if n = "p.xml" then some diskLinks else none
  fileExists := fun _ => true
  doc := fun _ => none
  isUrl := fun _ => false

def diskWorld : Hydrate.World where
  parse := exParse
  validUrl := fun _ => false
  discover := fun _ => none
  tokens := fun _ => ⟨[], true⟩
  trim := id
  pOrder := fun _ m => m
  dOrder := fun _ m => m
  cOrder := fun _ m => m
  nsOrder := fun _ m => m
  registry := some []
  sched₁ := []
  sched₂ := []

def diskTree : List Arc → String → Node := fun _ _ => .mk "" .zero [.mk "cash" F64.zero []]

def diskGrids (fo : Files) (h : Hydratable) : Run (Grids (Option Fact)) :=
  renderGrids (renderFolder diskWorld fo h diskTree) ⟨id, id, plainSource (values h.instances)⟩ (fun _ => none)
    { langs := [0, 0, 0, 1, 1, 1, 2, 2, 2], roles := [0, 0, 0, 1, 1, 1, 2, 2, 2], grow := fun _ => 0 } (books h (fun _ => "") id) "s/1" "r"

def diskShown : Option (List String × List String × List (List (Option Fact))) :=
  match load diskDemo diskWorld 3 id with
  | some (.done (some (fo, h))) =>
    match diskGrids fo h with
    | .done g => some (g.p.rows.map IndentedLabel.href, g.p.periods.map pureText, g.p.quadrant.facts)
    | _ => none
  | _ => none

/-- From the files to the cell. -/
theorem diskShown_eq : diskShown = some (["x.xsd#x_Cash"], ["2020-12-31"],
    [[some ⟨"x.xsd#x_Cash", "f1", "c", "usd", -2147483647, false, "100"⟩]]) := by decide +kernel

def diskFact : Xml :=
  .mk ⟨"http://x", "Cash"⟩ [⟨⟨"", "contextRef"⟩, "c"⟩, ⟨⟨"", "unitRef"⟩, "usd"⟩, ⟨⟨"", "id"⟩, "f1"⟩] "100" "100" []
def diskConcept : Concept := ⟨⟨"http://x", "Cash"⟩, "x_Cash", ⟨"", "t"⟩, ⟨"", ""⟩, false, "", "", false, ""⟩
def diskContext : Context := ⟨"c", "s", "1", ⟨[], []⟩, "2020-12-31", "", "", ⟨[], []⟩⟩
def diskInst : Disc.InstanceFile := ⟨[⟨LINK, [⟨⟨XLINK, "href"⟩, "x.xsd"⟩]⟩], 0⟩

theorem diskEntry : Disc.EntryInstance diskDemo.env "r.xml" diskInst :=
  ⟨"r.xml", rfl, rfl, .inr ⟨(Disc.plain_iff _).2 (by decide +kernel), rfl⟩⟩

/-- A folder with the demonstration schema and no other. -/
structure DiskLike (d : Disk) : Prop where
  only : ∀ l x, d.read l = some x → x.name.loc = "schema" → l = "x.xsd" ∧ x = diskSchema
  schema : d.read "x.xsd" = some diskSchema
  noUrl : d.isUrl = fun _ => false

theorem diskLike : DiskLike diskDemo where
  only := by
    intro l x h hx
    simp only [diskDemo] at h
    split at h
    · cases h; exact absurd hx (by decide)
    · split at h
      · cases h; exact ⟨‹_›, rfl⟩
      · split at h
        · cases h; exact absurd hx (by decide)
        · cases h
  schema := rfl
  noUrl := rfl

theorem diskDeclared {c : Concept} : DeclaredIn diskSchema "x.xsd" c ↔ c = diskConcept := by
  have key : ∀ c, ConceptOf diskSchema.attrs "x.xsd" ⟨Disc.XSD, [⟨⟨"", "id"⟩, "x_Cash"⟩, ⟨⟨"", "name"⟩, "Cash"⟩, ⟨⟨"", "type"⟩, "t"⟩]⟩ c ↔
      c = diskConcept := by
    intro c
    rw [← hydrateConcept_iff]
    rw [show hydrateConcept diskSchema.attrs "x.xsd" ⟨Disc.XSD, [⟨⟨"", "id"⟩, "x_Cash"⟩, ⟨⟨"", "name"⟩, "Cash"⟩, ⟨⟨"", "type"⟩, "t"⟩]⟩ =
      some diskConcept by decide +kernel]
    simp [eq_comm]
  constructor
  · rintro ⟨e, he, hn, hc⟩
    simp only [diskSchema, Xml.kids, List.mem_cons, List.not_mem_nil, or_false] at he
    rcases he with rfl | rfl
    · exact absurd hn (by decide)
    · exact (key c).1 hc
  · rintro rfl
    exact ⟨_, List.mem_of_getElem? (i := 1) rfl, rfl, (key _).2 rfl⟩

theorem diskSchemaAt {d : Disk} (hd : DiskLike d) (web : String → Option SchemaFile) : SchemaAt d web diskInst "http://x" "x.xsd" diskSchema where
  located := by
    refine .inl ⟨_, List.mem_singleton.2 rfl, ⟨[⟨⟨"", "targetNamespace"⟩, "http://x"⟩], [], [], _, 0⟩, rfl, ?_, ⟨by decide, by change d.isUrl _ = _; rw [hd.noUrl],
      by change (d.read "x.xsd").bind discoveredSchema = _; rw [hd.schema]; rfl⟩, ?_, by decide⟩
    · rw [← plainAttr_iff]; decide
    · rw [← plainAttr_iff]; decide
  only := by
    have hr : ∀ l f, d.env.readSchema l = some f → l = "x.xsd" := by
      intro l f h
      obtain ⟨x, hx, hs⟩ := Option.bind_eq_some_iff.1 (show (d.read l).bind discoveredSchema = some f from h)
      exact (hd.only _ _ hx ((C99_schema x).2 f |>.1 hs).1).1
    have hr' : ∀ l f, d.env.readSchema l = some f → f.imp = [] ∧ f.incl = [] := by
      intro l f h
      obtain ⟨x, hx, hs⟩ := Option.bind_eq_some_iff.1 (show (d.read l).bind discoveredSchema = some f from h)
      obtain ⟨_, rfl⟩ := hd.only _ _ hx ((C99_schema x).2 f |>.1 hs).1
      cases hs
      exact ⟨rfl, rfl⟩
    rintro l' (⟨i, _, f, _, _, hl, _⟩ | ⟨loc, f, hre, h⟩)
    · exact hr _ _ hl.2.2
    · obtain ⟨e1, e2⟩ := hr' _ _ (Disc.reach_read hre)
      rw [e1, e2] at h
      rcases h with ⟨_, h, _⟩ | ⟨_, h, _⟩ <;> cases h
  nonempty := by decide
  source := .inl ⟨by rw [hd.noUrl], hd.schema⟩
  root := rfl
  noHash := by decide

theorem diskReports : Reports reportXml diskFact diskConcept "c" where
  kid := List.mem_of_getElem? (i := 2) rfl
  fact := by simp [Reserved, diskFact, Xml.name]
  name := rfl
  nspace := by decide
  ctx := by rw [← plainAttr_iff]; decide
  nonempty := by decide
  only := by
    intro y hy hn _
    simp only [reportXml, Xml.kids, List.mem_cons, List.not_mem_nil, or_false] at hy
    rcases hy with rfl | rfl | rfl | rfl | rfl | rfl <;> first | rfl | exact absurd hn (by decide)

theorem diskHasContext (w : Instance.World) : HasContext w reportXml "c" diskContext := by
  refine ⟨rfl, _, List.mem_of_getElem? (i := 1) rfl, rfl, ⟨_, (isContext_iff _ _).2 rfl, ?_⟩, ?_⟩
  · refine ⟨_, ⟨⟨rfl, ?_, by decide⟩, ⟨_, rfl⟩, ⟨_, _, rfl, ?_⟩, by decide⟩, .inl ⟨rfl, rfl⟩, .inl ⟨rfl, rfl⟩,
      .inr ⟨_, _, rfl, .inr ⟨_, rfl⟩, .inl ⟨.inl rfl, rfl, rfl⟩⟩⟩
    · rw [← plainAttr_iff]; decide
    · rw [← plainAttr_iff]; decide
  · intro y hy hn _ _ _
    simp only [reportXml, Xml.kids, List.mem_cons, List.not_mem_nil, or_false] at hy
    rcases hy with rfl | rfl | rfl | rfl | rfl | rfl <;> first | rfl | exact absurd hn (by decide)

/-- No concept that can be found has an id with a hash. -/
theorem diskIds {d : Disk} (hd : DiskLike d) {w : Hydrate.World} {fuel : Nat} {sched : List (Disc.Write LinkbaseFile) → List (Disc.Write LinkbaseFile)} {fo : Files}
    {h : Hydratable} (hw : w.validUrl = fun _ => false) (hl : load d w fuel sched = some (.done (some (fo, h)))) :
    ∀ l' c', Declares (queryEnv w fo) l' c' → '#' ∉ c'.id.toList := by
  rintro l c ⟨file, ⟨_, ⟨hv, _⟩ | ⟨_, hm | ⟨_, rfl⟩⟩⟩, e, hem, hc⟩
  · simp [queryEnv, hw] at hv
  · obtain ⟨fo0, h1, rfl, _⟩ := load_some hl
    obtain ⟨_, _, hf⟩ := (mapGet_filterMap _ _ (discover_wf h1).2.1 _ _).1 hm
    obtain ⟨x, hx, hs⟩ := Option.bind_eq_some_iff.1 hf
    obtain ⟨rfl, rfl⟩ := hd.only _ _ hx (((C99_schema x).1 file).1 hs).1
    obtain ⟨_, hat, hel, _⟩ := ((C99_schema diskSchema).1 file).1 hs
    have : DeclaredIn diskSchema "x.xsd" c := by
      obtain ⟨k, hk, hkn, h1, h2⟩ := collected_mem hel e hem
      refine ⟨k, hk, hkn, ?_⟩
      rw [← hat, ← h1, ← h2]; exact hc
    rw [diskDeclared.1 this]; decide
  · cases hem

/-- The hypotheses of `C102_shown` hold of the folder on disk and the grid has the row. -/
example : ∃ fo h file g, load diskDemo diskWorld 3 id = some (.done (some (fo, h))) ∧ Fair diskWorld ∧
    diskWorld.validUrl = diskDemo.isUrl ∧ EntryRoot diskDemo reportXml diskInst ∧
    instanceFile reportXml = some file ∧ Reports reportXml diskFact diskConcept "c" ∧
    SchemaAt diskDemo diskWorld.discover diskInst diskFact.name.space "x.xsd" diskSchema ∧ DeclaredIn diskSchema "x.xsd" diskConcept ∧
    Distinct diskSchema "x.xsd" diskConcept ∧ diskConcept.abstract = false ∧
    (∀ l' c', Declares (queryEnv diskWorld fo) l' c' → '#' ∉ c'.id.toList) ∧
    HasContext (instanceWorld diskWorld fo file) reportXml "c" diskContext ∧ OfEntity "s/1" diskContext ∧
    diskGrids fo h = .done g ∧ "x.xsd" ++ "#" ++ diskConcept.id ∈ g.p.rows.map IndentedLabel.href := by
  have he := diskShown_eq
  unfold diskShown at he
  split at he
  · rename_i fo h hl
    split at he
    · rename_i g hg
      simp only [Option.some.injEq, Prod.mk.injEq] at he
      refine ⟨fo, h, _, g, hl, ⟨fun _ _ => .refl _, fun _ _ => .refl _, fun _ _ => .refl _, fun _ _ => .refl _, fun _ _ => .refl _⟩, rfl, ⟨_, diskEntry, rfl⟩, rfl,
        diskReports, diskSchemaAt diskLike _, diskDeclared.2 rfl, fun c' hc _ => diskDeclared.1 hc, rfl, ?_, diskHasContext _,
        by unfold OfEntity; decide, hg, by rw [he.1]; decide⟩
      exact diskIds diskLike rfl hl
    · cases he
  · cases he

/-- The hypotheses of `C101_succeeds` and `C101_entries` hold of the same folder. -/
example : ∃ fo h, FilesWF fo ∧ Fair diskWorld ∧ hydrate diskWorld fo = .done (some h) ∧ (mapGet fo.instances "r.xml").isSome ∧
    (mapGet fo.schemas "x.xsd").isSome := by
  have he : (match load diskDemo diskWorld 3 id with
    | some (.done (some (fo, _))) => (mapGet fo.instances "r.xml").isSome && (mapGet fo.schemas "x.xsd").isSome
    | _ => false) = true := by decide +kernel
  split at he
  · rename_i fo h hl
    obtain ⟨fo0, h1, rfl, h2⟩ := load_some hl
    rw [Bool.and_eq_true] at he
    exact ⟨_, _, filesOf_wf h1, ⟨fun _ _ => .refl _, fun _ _ => .refl _, fun _ _ => .refl _, fun _ _ => .refl _, fun _ _ => .refl _⟩, h2, he⟩
  · cases he

end Telefacts
