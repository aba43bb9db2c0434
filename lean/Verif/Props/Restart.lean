import Verif.Proof.Reloaded
import Verif.Proof.SameLb
import Verif.Spec.Restart
import Verif.Props.ChanceLabels
import Verif.Props.Located
/-! # C177: a restart changes no answer -/
namespace Telefacts
open Telefacts.Server Telefacts.Hydrate Telefacts.Schema Telefacts.Instance Telefacts.Render Telefacts.Spec Telefacts.Linkbase
  Telefacts.Document Telefacts.Json Telefacts.Catalog Telefacts.Decode

theorem values_related {B B' : Type} {R : B → B' → Prop} {r : GoMap String B} {r' : GoMap String B'} (wf : MapWF r) (wf' : MapWF r')
    (h : ∀ k, (mapGet r k = none ∧ mapGet r' k = none) ∨ ∃ b b', mapGet r k = some b ∧ mapGet r' k = some b' ∧ R b b') :
    ∃ l, List.Forall₂ R (values r) l ∧ l.Perm (values r') := by
  have hm : ∀ e ∈ r, ∃ b', mapGet r' e.1 = some b' ∧ R e.2 b' := by
    intro e he
    rcases h e.1 with ⟨h1, _⟩ | ⟨b, b', h1, h2, h3⟩
    · rw [(mapGet_iff_mem wf).2 (show (e.1, e.2) ∈ r from he)] at h1; cases h1
    · rw [(mapGet_iff_mem wf).2 (show (e.1, e.2) ∈ r from he)] at h1
      cases h1
      exact ⟨b', h2, h3⟩
  let l := r.filterMap fun e => (mapGet r' e.1).map fun b => (e.1, b)
  refine ⟨values l, ?_, ?_⟩
  · have : ∀ m : GoMap String B, (∀ e ∈ m, ∃ b', mapGet r' e.1 = some b' ∧ R e.2 b') →
        List.Forall₂ R (values m) (values (m.filterMap fun e => (mapGet r' e.1).map fun b => (e.1, b))) := by
      intro m
      induction m with
      | nil => intro _; exact .nil
      | cons e m ih =>
        intro hm
        obtain ⟨b', hb, hr⟩ := hm e (by simp)
        rw [List.filterMap_cons_some (b := (e.1, b')) (by simp [hb])]
        exact .cons hr (ih fun e he => hm e (by simp [he]))
    exact this r hm
  · refine List.Perm.map _ ((List.perm_ext_iff_of_nodup ?_ ?_).2 fun e => ?_)
    · exact List.Nodup.of_map _ (mapWF_filterMap (fun e => mapGet r' e.1) r wf)
    · exact List.Nodup.of_map _ wf'
    · obtain ⟨k, v⟩ := e
      rw [← mapGet_iff_mem wf', ← mapGet_iff_mem (mapWF_filterMap (fun e => mapGet r' e.1) r wf), mapGet_filterMap (fun e => mapGet r' e.1) r wf]
      constructor
      · rintro ⟨_, _, h⟩; exact h
      · intro hv
        rcases h k with ⟨_, h2⟩ | ⟨b, b', h1, h2, _⟩
        · rw [h2] at hv; cases hv
        · exact ⟨b, h1, hv⟩

/-- Two loads of a folder hold the same. -/
structure SameLoad (l l' : Loaded) : Prop where
  env : SameEnv (queryEnv l.world l.files) (queryEnv l'.world l'.files)
  instances : l.hyd.instances = l'.hyd.instances
  entities : sortedEntities (values l.hyd.instances) = sortedEntities (values l'.hyd.instances)
  rsets : sortedRSets (values l.hyd.schemas) = sortedRSets (values l'.hyd.schemas)
  label : l.hyd.label.Perm l'.hyd.label
  presentation : ∃ ls, List.Forall₂ SameLb (values l.hyd.presentation) ls ∧ ls.Perm (values l'.hyd.presentation)
  definition : ∃ ls, List.Forall₂ SameLb (values l.hyd.definition) ls ∧ ls.Perm (values l'.hyd.definition)
  calculation : ∃ ls, List.Forall₂ SameLb (values l.hyd.calculation) ls ∧ ls.Perm (values l'.hyd.calculation)
  document : (l.hyd.document = none ∧ l'.hyd.document = none) ∨ ∃ d d', l.hyd.document = some d ∧ l'.hyd.document = some d' ∧
    (∀ k, mapGet d.names k = mapGet d'.names k) ∧ ∀ k, mapGet d.ctxs k = mapGet d'.ctxs k

theorem lbs_related {A : Type} {f f' : String → LinkbaseFile → Lb A} (hf : ∀ k x, SameLb (f k x) (f' k x)) {m m' : GoMap String LinkbaseFile}
    (wf : MapWF m) (wf' : MapWF m') (hm : Disc.SameMap m m') {r r' : GoMap String (Lb A)} (h : hydrateMap (keyed f) m [] = .done (some r))
    (h' : hydrateMap (keyed f') m' [] = .done (some r')) : ∃ ls, List.Forall₂ SameLb (values r) ls ∧ ls.Perm (values r') := by
  refine values_related (hydrateMap_entries wf h).1 (hydrateMap_entries wf' h').1 fun k => ?_
  rcases sameMap_of wf wf' hm h h' k with h | ⟨a, b, b', _, h1, h2, h3, h4⟩
  · exact .inl h
  · refine .inr ⟨b, b', h1, h2, ?_⟩
    rw [(keyed_some.1 h3).2, (keyed_some.1 h4).2]
    exact hf k a

theorem document_same {x : DocFile} {w w' : Hydrate.World} (hw : Waited w x) (hw' : Waited w' x) {d d' : Doc}
    (h : Document.hydrateDocument x.html x.nonNumerics x.nonFractions w.sched₁ w.sched₂ = .ok d)
    (h' : Document.hydrateDocument x.html x.nonNumerics x.nonFractions w'.sched₁ w'.sched₂ = .ok d') :
    (∀ k, mapGet d.names k = mapGet d'.names k) ∧ ∀ k, mapGet d.ctxs k = mapGet d'.ctxs k := by
  obtain ⟨⟨np, hnp⟩, hu⟩ := (C31_succeeds _ _ _ _ _ hw.1 hw.2).1 ⟨d, h⟩
  have hm : ∀ f, f ∈ x.nonNumerics ∨ f ∈ x.nonFractions → ¬ Malformed x.html f := by
    intro f hf
    obtain ⟨_, _, _, hu⟩ := hu f hf
    exact (uses_wellformed hu).1
  have hd : ∀ f, f ∈ x.nonNumerics ∨ f ∈ x.nonFractions → ¬ Undeclared x.html f := by
    intro f hf
    obtain ⟨_, _, _, hu⟩ := hu f hf
    exact (uses_wellformed hu).2
  obtain ⟨_, a⟩ := C31_document_partial x.html np hnp x.nonNumerics x.nonFractions hm w.sched₁ w.sched₂ hw.1 hw.2
  obtain ⟨_, a'⟩ := C31_document_partial x.html np hnp x.nonNumerics x.nonFractions hm w'.sched₁ w'.sched₂ hw'.1 hw'.2
  obtain ⟨e, he, h1, h2⟩ := a hd
  obtain ⟨e', he', h1', h2'⟩ := a' hd
  rw [h] at he; cases he
  rw [h'] at he'; cases he'
  refine ⟨fun k => Option.ext fun v => ?_, fun k => Option.ext fun v => ?_⟩
  · rw [h1, h1']
  · rw [h2, h2']

theorem hydrateMap_sole {A B : Type} {f f' : String → A → Run (Option B)} (m : GoMap String A) (hf : ∀ k a, f k a = f' k a)
    (acc : GoMap String B) : hydrateMap f m acc = hydrateMap f' m acc := by
  rw [show f = f' from funext fun k => funext fun a => hf k a]

theorem sameLoad_of {site : Site} {l l' : Loaded} (hf : l'.folder = l.folder) (hl : Loads site l.folder l.world l.files l.hyd)
    (hl' : Loads site l'.folder l'.world l'.files l'.hyd) (hone : OneHome (site.disk l.folder)) : SameLoad l l' := by
  rw [hf] at hl'
  obtain ⟨⟨p, d, c, n, lo, s₁, s₂, hw⟩, hfw, fuel, sched, hp, hload, hwait, hrun⟩ := hl
  obtain ⟨⟨p', d', c', n', lo', s₁', s₂', hw'⟩, hfw', fuel', sched', hp', hload', hwait', hrun'⟩ := hl'
  have hents : sortedEntities (values l.hyd.instances) = sortedEntities (values l'.hyd.instances) :=
    entitiesSorted_unique (sortedEntities_sorted _) (sortedEntities_sorted _)
      (fun e => by rw [mem_sortedEntities, mem_sortedEntities, occurs_iff hload, occurs_iff hload'])
  have hrsets : sortedRSets (values l.hyd.schemas) = sortedRSets (values l'.hyd.schemas) :=
    rsetsSorted_unique (sortedRSets_sorted _) (sortedRSets_sorted _)
      (fun r => by rw [mem_sortedRSets, mem_sortedRSets, declaredSet_iff hp hload, declaredSet_iff hp' hload'])
  obtain ⟨fo0, h1, hfo, h2⟩ := load_some hload
  obtain ⟨fo1, h1', hfo', h2'⟩ := load_some hload'
  obtain ⟨_, edoc, einst, esch, elinks, edom, _⟩ := C13_schedule_independent _ _ _ _ _ hp hp' _ _ h1 h1'
  have same : ∀ {k v v'}, mapGet fo0.namespaces k = some v → mapGet fo1.namespaces k = some v' → v = v' := by
    intro k v v' hv hv'
    obtain ⟨key, inst, hE, hv⟩ := realised_last hrun h1 hv
    obtain ⟨key', inst', hE', hv'⟩ := realised_last hrun' h1' hv'
    obtain ⟨rfl, rfl⟩ := entryInstance_unique hE hE'
    exact hone _ _ _ _ _ hE hv hv'
  have ens : Disc.SameMap fo0.namespaces fo1.namespaces := by
    intro k
    refine Option.ext fun v => ⟨fun hv => ?_, fun hv => ?_⟩
    · obtain ⟨v', hv'⟩ := (edom k).1 ⟨v, hv⟩
      rw [same hv hv']; exact hv'
    · obtain ⟨v', hv'⟩ := (edom k).2 ⟨v, hv⟩
      rw [← same hv' hv]; exact hv'
  have wf := filesOf_wf h1
  have wf' := filesOf_wf h1'
  rw [← hfo] at wf
  rw [← hfo'] at wf'
  obtain ⟨w1, w2, w3, w4, w5, w6⟩ := wf
  obtain ⟨w1', w2', w3', w4', w5', w6'⟩ := wf'
  obtain ⟨a1, a2, a3, a4, a5, a6, _, a8⟩ := hydrate_some h2
  obtain ⟨b1, b2, b3, b4, b5, b6, _, b8⟩ := hydrate_some h2'
  have hinst : l.files.instances = l'.files.instances := by rw [hfo, hfo']; simp only [filesOf, einst]
  have hsch : Disc.SameMap l.files.schemas l'.files.schemas := by
    intro k
    rw [hfo, hfo']
    refine Option.ext fun v => ?_
    have e1 := mapGet_filterMap (fun e => ((site.disk l.folder).read e.1).bind schemaFile) fo0.schemas (discover_wf h1).2.1 k v
    have e2 := mapGet_filterMap (fun e => ((site.disk l.folder).read e.1).bind schemaFile) fo1.schemas (discover_wf h1').2.1 k v
    exact (e1.trans (by rw [esch k])).trans e2.symm
  have henv : SameEnv (queryEnv l.world l.files) (queryEnv l'.world l'.files) := by
    refine ⟨?_, hsch, ?_, ?_⟩
    · show Disc.SameMap l.files.namespaces l'.files.namespaces
      rw [hfo, hfo']; exact ens
    · show l.world.validUrl = l'.world.validUrl
      rw [hw, hw']
    · show l.world.discover = l'.world.discover
      rw [hw, hw']
  have hlk : ∀ kind, Disc.SameMap (fo0.links kind) (fo1.links kind) := elinks
  have hparse : l.world.parse = l'.world.parse := by rw [hw, hw']
  refine ⟨henv, ?_, hents, hrsets, ?_, ?_, ?_, ?_, ?_⟩
  · rw [← hinst] at b6
    rw [hydrateMap_sole (f' := hydrateInstance l.world l.files)] at b6
    · rw [a6] at b6
      exact Option.some.inj (Run.done.inj b6)
    · intro k x
      have hi : SameInst (instanceWorld l'.world l'.files x) (instanceWorld l.world l.files x) :=
        ⟨⟨fun k => (henv.ns k).symm, fun k => (henv.schemas k).symm, henv.url.symm, henv.disc.symm⟩, rfl, by
          show l'.world.tokens = l.world.tokens
          rw [hw, hw'], by
          show l'.world.trim = l.world.trim
          rw [hw, hw']⟩
      unfold hydrateInstance
      rw [hi.contexts, hi.facts]
  · refine sameMap_perm (hydrateMap_entries w5 a5).1 (hydrateMap_entries w5' b5).1 ?_
    rw [show labelLb l'.world = labelLb l.world by unfold labelLb; rw [hparse]] at b5
    exact sameMap_fun w5 w5' (by rw [hfo, hfo']; exact hlk .lab) a5 b5
  · refine lbs_related (f := presentationLb l.world) (f' := presentationLb l'.world) (fun k x => ⟨rfl, fun r => ?_⟩) w2 w2' (by rw [hfo, hfo']; exact hlk .pre) a2 b2
    show (dedupLinks _ _).filter _ = (dedupLinks _ (hydrateLinks (presentationArc l'.world.parse) _)).filter _
    rw [← hparse]
    exact dedup_same _ _ (hfw.p k) (hfw'.p k) _ _ r
  · refine lbs_related (f := definitionLb l.world) (f' := definitionLb l'.world) (fun k x => ⟨rfl, fun r => ?_⟩) w3 w3' (by rw [hfo, hfo']; exact hlk .defn) a3 b3
    show (dedupLinks _ _).filter _ = (dedupLinks _ (hydrateLinks (definitionArc l'.world.parse) _)).filter _
    rw [← hparse]
    exact dedup_same _ _ (hfw.d k) (hfw'.d k) _ _ r
  · refine lbs_related (f := calculationLb l.world) (f' := calculationLb l'.world) (fun k x => ⟨rfl, fun r => ?_⟩) w4 w4' (by rw [hfo, hfo']; exact hlk .calc) a4 b4
    show (dedupLinks _ _).filter _ = (dedupLinks _ (hydrateLinks (calculationArc l'.world.parse) _)).filter _
    rw [← hparse]
    exact dedup_same _ _ (hfw.c k) (hfw'.c k) _ _ r
  · have hd : l.files.document = l'.files.document := by rw [hfo, hfo']; exact edoc
    rcases hydrateDoc_some.1 a8 with ⟨x1, x2⟩ | ⟨x, doc, x1, x2, x3⟩
    · rcases hydrateDoc_some.1 b8 with ⟨y1, y2⟩ | ⟨y, doc', y1, y2, y3⟩
      · exact .inl ⟨x2, y2⟩
      · rw [hd, y1] at x1; cases x1
    · rcases hydrateDoc_some.1 b8 with ⟨y1, y2⟩ | ⟨y, doc', y1, y2, y3⟩
      · rw [hd, y1] at x1; cases x1
      · rw [hd, y1] at x1
        have := Option.some.inj x1
        subst this
        have z1 : fo0.document = some y := by rw [hfo] at hd; exact hd.trans y1
        have z2 : fo1.document = some y := by rw [hfo'] at y1; exact y1
        exact .inr ⟨doc, doc', x2, y2, document_same (hwait _ _ h1 z1) (hwait' _ _ h1' z2) x3 y3⟩

/-- The choices of a request to the restarted server. -/
noncomputable def moved (l l' : Loaded) (c : Choice) : Choice :=
  { c with
    labelOrder := fun href m => open Classical in if m = l'.hyd.label then c.labelOrder href l.hyd.label else m
    order := values l'.hyd.instances }

theorem moved_folder (site : Site) {l l' : Loaded} (h : SameLoad l l') (c : Choice) : folderOf site (moved l l' c) l' = folderOf site c l := by
  unfold folderOf renderFolder
  congr 1
  · rw [h.instances]
  · funext href
    refine (SameEnv.hash (h := queryEnv l.world l.files) (h' := queryEnv l'.world l'.files) h.env _ _ href).symm
  · funext href
    simp only [moved, if_true]

theorem moved_facts (site : Site) {l l' : Loaded} (h : SameLoad l l') (c c' : Choice) (hc : folderOf site c' l' = folderOf site c l) :
    factEnv site c' l' = factEnv site c l ∧ notesOf site l' = notesOf site l := by
  unfold factEnv notesOf
  rw [hc, h.instances]
  exact ⟨rfl, rfl⟩

theorem moved_label {l l' : Loaded} (h : SameLoad l l') {c : Choice} (hc : c.Fair l.hyd) (x : String) (m : GoMap String (List LabelLink)) :
    ((moved l l' c).labelOrder x m).Perm m := by
  simp only [moved]
  split
  · rename_i e
    rw [e]
    exact (hc.label _ _).trans h.label
  · exact .refl _

/-- Linkbases ranged over in an order, after the restart. -/
theorem order_moved {A : Type} {xs ys zs : List (Lb A)} (h : xs.Perm ys) (hs : ∃ ls, List.Forall₂ SameLb ys ls ∧ ls.Perm zs) :
    ∃ ls, List.Forall₂ SameLb xs ls ∧ ls.Perm zs := by
  obtain ⟨ls, h1, h2⟩ := hs
  obtain ⟨ks, h3, h4⟩ := List.perm_comp_forall₂ h h1
  exact ⟨ks, h3, h4.trans h2⟩

/-- Whatever is answered about a fact may be answered after another load. -/
theorem restart_expression {site : Site} {l l' : Loaded} (h : SameLoad l l') (c : Choice) (hc : c.Fair l.hyd) (hone : (values l.hyd.instances).length ≤ 1) (name ref : String) :
    ∃ c' : Choice, c'.Fair l'.hyd ∧ expression site c' name ref l' = expression site c name ref l := by
  refine ⟨{ moved l l' c with
      presentation := values l'.hyd.presentation
      definition := values l'.hyd.definition
      definitionAgain := values l'.hyd.definition
      dimensionOrder := fun _ => values l'.hyd.definition
      calculation := values l'.hyd.calculation },
    ⟨hc.ns, moved_label h hc, hc.map, hc.member, hc.cell, hc.last, hc.drs, .refl _, .refl _, .refl _, fun _ => .refl _, .refl _, .refl _⟩, ?_⟩
  have hf : folderOf site { moved l l' c with
      presentation := values l'.hyd.presentation
      definition := values l'.hyd.definition
      definitionAgain := values l'.hyd.definition
      dimensionOrder := fun _ => values l'.hyd.definition
      calculation := values l'.hyd.calculation } l' = folderOf site c l := moved_folder site h c
  obtain ⟨e1, e2⟩ := moved_facts site h c _ hf
  have ho : c.order = values l'.hyd.instances := by rw [← h.instances]; exact perm_short hc.order hone
  unfold expression
  congr 1
  unfold expressEnv
  rw [hf, e1, e2]
  simp only [moved, ← ho, h.env.nameQuery]
  unfold express
  simp only
  rcases h.document with ⟨d1, d2⟩ | ⟨d, d', d1, d2, d3, d4⟩
  · rw [d1, d2]
  · rw [d1, d2]
    simp only [d3, d4]
    rfl

theorem restart_renderable {site : Site} {l l' : Loaded} (h : SameLoad l l') (c : Choice) (hc : c.Fair l.hyd) (hash : String) :
    ∃ c' : Choice, c'.Fair l'.hyd ∧ render site c' hash l' = render site c hash l := by
  obtain ⟨ps, p1, p2⟩ := order_moved hc.presentation h.presentation
  obtain ⟨ds, d1, d2⟩ := order_moved hc.definition h.definition
  obtain ⟨es, e1, e2⟩ := order_moved hc.definitionAgain h.definition
  obtain ⟨ks, k1, k2⟩ := order_moved hc.calculation h.calculation
  choose ag a1 a2 using fun i => order_moved (hc.dimensionOrder i) h.definition
  let c' : Choice := { moved l l' c with
    presentation := ps
    definition := ds
    definitionAgain := es
    dimensionOrder := ag
    calculation := ks }
  refine ⟨c', ⟨hc.ns, moved_label h hc, hc.map, hc.member, hc.cell, hc.last, hc.drs, p2, d2, e2, a2, k2, .refl _⟩, ?_⟩
  have hf : folderOf site c' l' = folderOf site c l := moved_folder site h c
  obtain ⟨f1, f2⟩ := moved_facts site h c c' hf
  have hg : gridEnv site c' l' = gridEnv site c l := by
    unfold gridEnv
    rw [f1, f2, h.instances]
    rfl
  have hb : SameBooks (booksOf site c) (booksOf site c') := ⟨p1, d1, a1, e1, k1, rfl, rfl⟩
  unfold render
  rw [h.entities, h.rsets]
  split
  · rfl
  · rename_i en r _
    rw [hf, hg, renderGrids_same (folderOf site c l) (gridEnv site c l) site.spanish c.schedule hb,
      (calc_same (folderOf site c l) (gridEnv site c l) "" r.roleURI k1 [] [] rfl).2]
    rfl

theorem SameLoad.symm_of {site : Site} {folder : String} {l l' : Loaded} (h : (backend site).hydrate folder (some (some l, none)))
    (h' : (backend site).hydrate folder (some (some l', none))) (hone : OneHome (site.disk folder)) : SameLoad l l' ∧ SameLoad l' l := by
  obtain ⟨rfl, h⟩ := h
  obtain ⟨hf, h'⟩ := h'
  rw [← hf] at h'
  exact ⟨sameLoad_of hf h h' hone, sameLoad_of hf.symm h' h (hf ▸ hone)⟩

/-- **C177.** Two loads of a folder, before and after a restart, in whatever orders: the catalog, the name of the entry file and the bytes
of the document are the same. -/
theorem C177_catalog (site : Site) (folder : String) (l l' : Loaded) (h : (backend site).hydrate folder (some (some l, none)))
    (h' : (backend site).hydrate folder (some (some l', none))) (x : Option (Option Store.Bytes × Option String)) :
    ((backend site).catalog l x ↔ (backend site).catalog l' x) ∧ (backend site).entryName l = (backend site).entryName l' ∧
      (backend site).docBytes l = (backend site).docBytes l' := by
  obtain ⟨rfl, _, _, fuel, sched, hp, hl, _⟩ := h
  obtain ⟨hf, _, _, fuel', sched', hp', hl', _⟩ := h'
  refine ⟨?_, ?_, ?_⟩
  · show x = some (some (catalogBytes site l), none) ↔ x = some (some (catalogBytes site l'), none)
    unfold catalogBytes
    rw [hf, C110_reload hp hp' hl hl']
  · show ((site.disk l.folder).entryName.getD "") = ((site.disk l'.folder).entryName.getD "")
    rw [hf]
  · show (if l.hyd.document.isSome then some (documentBytes site l.folder) else none) = if l'.hyd.document.isSome then some (documentBytes site l'.folder) else none
    obtain ⟨fo0, h1, hfo, h2⟩ := load_some hl
    obtain ⟨fo1, h1', hfo', h2'⟩ := load_some hl'
    obtain ⟨_, edoc, _⟩ := C13_schedule_independent _ _ _ _ _ hp hp' _ _ h1 h1'
    have hd : l.files.document = l'.files.document := by rw [hfo, hfo']; exact edoc
    obtain ⟨_, _, _, _, _, _, _, a8⟩ := hydrate_some h2
    obtain ⟨_, _, _, _, _, _, _, b8⟩ := hydrate_some h2'
    have : l.hyd.document.isSome = l'.hyd.document.isSome := by
      rcases hydrateDoc_some.1 a8 with ⟨x1, x2⟩ | ⟨x, doc, x1, x2, x3⟩ <;>
        rcases hydrateDoc_some.1 b8 with ⟨y1, y2⟩ | ⟨y, doc', y1, y2, y3⟩ <;> rw [x2, y2]
      · rw [hd, y1] at x1; cases x1
      · rw [hd, y1] at x1; cases x1
      · rfl
    rw [this, hf]

/-- **C177 (partial).** If no namespace has two locations that it may be given last, a restart does not change what may be answered about a fact. Missing:
folders in which one is (`C177_fails`). -/
theorem C177_expression_partial (site : Site) (folder : String) (l l' : Loaded) (h : (backend site).hydrate folder (some (some l, none)))
    (h' : (backend site).hydrate folder (some (some l', none))) (hone : OneHome (site.disk folder)) (name ref : String)
    (x : Option (Option Store.Bytes × Option String)) : (backend site).express name ref l x ↔ (backend site).express name ref l' x := by
  obtain ⟨s, s'⟩ := SameLoad.symm_of h h' hone
  have one : ∀ l, (backend site).hydrate folder (some (some l, none)) → (values l.hyd.instances).length ≤ 1 := by
    rintro l ⟨rfl, h⟩
    exact loads_one h
  constructor
  · rintro ⟨c, hc, hr⟩
    obtain ⟨c', hc', e⟩ := restart_expression (site := site) s c hc (one l h) name ref
    exact ⟨c', hc', e ▸ hr⟩
  · rintro ⟨c, hc, hr⟩
    obtain ⟨c', hc', e⟩ := restart_expression (site := site) s' c hc (one l' h') name ref
    exact ⟨c', hc', e ▸ hr⟩

/-- **C177 (partial).** Nor does it change which renderables may be answered. Missing: folders in which a namespace
has two. -/
theorem C177_renderable_partial (site : Site) (folder : String) (l l' : Loaded) (h : (backend site).hydrate folder (some (some l, none)))
    (h' : (backend site).hydrate folder (some (some l', none))) (hone : OneHome (site.disk folder)) (hash : String) (x : Option (Option Store.Bytes × Option String)) :
    (backend site).renderable hash l x ↔ (backend site).renderable hash l' x := by
  obtain ⟨s, s'⟩ := SameLoad.symm_of h h' hone
  constructor
  · rintro ⟨c, hc, hr⟩
    obtain ⟨c', hc', e⟩ := restart_renderable (site := site) s c hc hash
    exact ⟨c', hc', e ▸ hr⟩
  · rintro ⟨c, hc, hr⟩
    obtain ⟨c', hc', e⟩ := restart_renderable (site := site) s' c hc hash
    exact ⟨c', hc', e ▸ hr⟩

/-- **C177 (partial).** With at most one linkbase of each kind, what is answered about a fact is determined by the files. -/
theorem C177_determined_partial (site : Site) (folder : String) (l l' : Loaded) (h : (backend site).hydrate folder (some (some l, none)))
    (h' : (backend site).hydrate folder (some (some l', none))) (hone : OneHome (site.disk folder)) (hlb : l.hyd.label.length ≤ 1)
    (name ref : String) (x x' : Option (Option Store.Bytes × Option String)) (hx : (backend site).express name ref l x)
    (hx' : (backend site).express name ref l' x') : x = x' := by
  obtain ⟨c, hc, hr⟩ := hx
  obtain ⟨c', hc', hr'⟩ := (C177_expression_partial site folder l l' h h' hone name ref x').2 hx'
  obtain ⟨rfl, hl⟩ := h
  rw [C176_expression_partial site l hl c c' hc hc' (.inr hlb)] at hr
  cases he : expression site c' name ref l with
  | done p => rw [he] at hr hr'; exact Eq.trans hr hr'.symm
  | panic => rw [he] at hr hr'; exact Eq.trans hr hr'.symm
  | loop => rw [he] at hr; exact hr.elim

/-! ## A namespace of two files -/

def pairReport : Xml :=
  .mk ⟨XBRLI, "xbrl"⟩ [⟨⟨"xmlns", "x"⟩, "http://x"⟩] "" "" [
    .mk ⟨LINK, "schemaRef"⟩ [⟨⟨XLINK, "href"⟩, "x.xsd"⟩] "" "" [],
    .mk ⟨LINK, "schemaRef"⟩ [⟨⟨XLINK, "href"⟩, "y.xsd"⟩] "" "" [],
    .mk ⟨XBRLI, "context"⟩ [⟨⟨"", "id"⟩, "c"⟩] "" "" [
      .mk ⟨XBRLI, "entity"⟩ [] "" "" [.mk ⟨XBRLI, "identifier"⟩ [⟨⟨"", "scheme"⟩, "s"⟩] "1" "1" []],
      .mk ⟨XBRLI, "period"⟩ [] "" "" [.mk ⟨XBRLI, "instant"⟩ [] "2020-12-31" "2020-12-31" []]],
    .mk ⟨"http://x", "Cash"⟩ [⟨⟨"", "contextRef"⟩, "c"⟩, ⟨⟨"", "id"⟩, "f1"⟩] "100" "100" []]

def pairX : Xml :=
  .mk ⟨Disc.XSD, "schema"⟩ [⟨⟨"", "targetNamespace"⟩, "http://x"⟩] "" "" [
    .mk ⟨Disc.XSD, "element"⟩ [⟨⟨"", "id"⟩, "x_Cash"⟩, ⟨⟨"", "name"⟩, "Cash"⟩, ⟨⟨"", "type"⟩, "t"⟩] "" "" []]

def pairDisk : Disk :=
  { twiceDisk with
    read := fun n => if n = "r.htm.xml" then some pairReport else if n = "x.xsd" then some pairX else if n = "y.xsd" then some splitY else none }

def pairSite : Site := { demoSite with disk := fun _ => pairDisk }

def pairInst : Disc.InstanceFile := ⟨[⟨LINK, [⟨⟨XLINK, "href"⟩, "x.xsd"⟩]⟩, ⟨LINK, [⟨⟨XLINK, "href"⟩, "y.xsd"⟩]⟩], 0⟩

/-- The goroutine of the second reference comes first. -/
def secondFirst (ws : List (Disc.Write LinkbaseFile)) : List (Disc.Write LinkbaseFile) := ws.drop 2 ++ ws.take 2

theorem secondFirst_perm (ws : List (Disc.Write LinkbaseFile)) : (secondFirst ws).Perm ws := by
  have := List.perm_append_comm (l₁ := ws.drop 2) (l₂ := ws.take 2)
  rwa [List.take_append_drop] at this

/-- It may come first. -/
theorem pair_realised : Disc.Realised pairDisk.env 3 secondFirst := by
  intro fo key inst ws hd hi hw
  have hE : Disc.EntryInstance pairDisk.env "r.htm.xml" pairInst :=
    ⟨"r.htm", rfl, by decide +kernel, .inl ⟨(Disc.inline_iff _).2 (by decide +kernel), rfl, ⟨_, rfl⟩, rfl⟩⟩
  have : inst = pairInst := by
    rcases discover_ok hd with ⟨k', i', _, _, hE', _, _, hi', _⟩ | ⟨hno, _⟩
    · obtain ⟨rfl, rfl⟩ := entryInstance_unique hE hE'
      rw [hi', mapGet_cons] at hi
      split at hi
      · exact (Option.some.inj hi).symm
      · cases hi
    · exact (hno _ _ hE).elim
  subst this
  have hr := Disc.runs_id hw
  have hlen : (Disc.finishVisit pairDisk.env (Disc.visitRef pairDisk.env ⟨LINK, [⟨⟨XLINK, "href"⟩, "x.xsd"⟩]⟩) (Disc.searchSchema pairDisk.env 3)).map
      List.length = some 2 := by decide +kernel
  simp only [Disc.schemaRef, pairInst, Disc.collect] at hw
  split at hw
  · rename_i a b ha hb
    cases hw
    rw [ha] at hlen
    have hlen : a.length = 2 := by simpa using hlen
    split at hb
    · rename_i a' b' ha' hb'
      cases hb
      cases hb'
      refine ⟨a, a', Disc.visit_id (sub := Disc.RunsSearch pairDisk.env 3) (fun f u h => Disc.search_id h) ha, ⟨a', [], Disc.visit_id (sub := Disc.RunsSearch pairDisk.env 3) (fun f u h => Disc.search_id h) ha', rfl, ?_⟩, ?_⟩
      · simpa using Disc.merge_append a' []
      · unfold secondFirst
        rw [List.drop_left' hlen, List.take_left' hlen, List.append_nil]
        exact Disc.merge_comm (Disc.merge_append a' a)
    · cases hb
  · cases hw

theorem pair_loads {sched : List (Disc.Write LinkbaseFile) → List (Disc.Write LinkbaseFile)} (hs : ∀ ws, (sched ws).Perm ws)
    (hr : Disc.Realised pairDisk.env 3 sched) (hd : (match Disc.discover pairDisk.env 3 sched with
      | some (.ok fo) => fo.document.map fun x => (x.nonNumerics.length, x.nonFractions.length)
      | _ => none) = some (0, 1)) {fo : Files} {h : Hydratable} (hl : load pairDisk inkWorld 3 sched = some (.done (some (fo, h)))) :
    (backend pairSite).hydrate "a-1" (some (some ⟨"a-1", inkWorld, fo, h⟩, none)) := by
  refine ⟨rfl, ⟨_, _, _, _, _, _, _, rfl⟩, ⟨fun _ _ => .refl _, fun _ _ => .refl _, fun _ _ => .refl _, fun _ _ => .refl _, fun _ _ => .refl _⟩, 3, sched,
    hs, hl, fun fo x hf hx => ?_, hr⟩
  change Disc.discover pairDisk.env 3 sched = _ at hf
  rw [hf] at hd
  simp only [hx, Option.map_some, Option.some.injEq, Prod.mk.injEq] at hd
  refine ⟨fun i hi => by omega, fun i hi => ?_⟩
  obtain rfl : i = 0 := by omega
  show 2 ≤ List.count 0 [0, 0]
  decide

/-- **C177 (refuted).** There are folders for which a restart changes the answers: before it the server answers with a fact, after it
never again. -/
theorem C177_fails : ∃ site folder l l' name ref b, (backend site).hydrate folder (some (some l, none)) ∧
    (backend site).hydrate folder (some (some l', none)) ∧ (backend site).express name ref l (some (some b, none)) ∧
    ∀ x, (backend site).express name ref l' x → x = some (none, none) := by
  have he : (match load pairDisk inkWorld 3 secondFirst with
    | some (.done (some (fo, h))) => (match express (expressEnv pairSite (demoChoice h) ⟨"a-1", inkWorld, fo, h⟩) "x:Cash" "c" with
        | .done (.expr _) => true
        | _ => false)
    | _ => false) = true := by decide +kernel
  have he' : (match load pairDisk inkWorld 3 id with
    | some (.done (some (fo, h))) => decide (h.label.length ≤ 1) && (match express (expressEnv pairSite (demoChoice h) ⟨"a-1", inkWorld, fo, h⟩) "x:Cash" "c" with
        | .done .nothing => true
        | _ => false)
    | _ => false) = true := by decide +kernel
  split at he
  · rename_i fo h hl
    split at he
    · rename_i e hex
      split at he'
      · rename_i fo' h' hl'
        rw [Bool.and_eq_true, decide_eq_true_eq] at he'
        obtain ⟨hlb, he'⟩ := he'
        split at he'
        · rename_i hex'
          have k := pair_loads secondFirst_perm pair_realised (by decide +kernel) hl
          have k' := pair_loads (fun ws => .refl ws) (Disc.realised_id _ _) (by decide +kernel) hl'
          refine ⟨pairSite, "a-1", _, _, "x:Cash", "c", encodeUtf8 (marshalExpressable e), k, k', ⟨demoChoice h, demoChoice_fair h, ?_⟩, ?_⟩
          · unfold expression
            rw [hex]
            rfl
          · rintro x ⟨c, hc, hr⟩
            rw [C176_expression_partial pairSite _ k'.2 c (demoChoice h') hc (demoChoice_fair h') (.inr hlb)] at hr
            unfold expression at hr
            rw [hex'] at hr
            exact hr
        · cases he'
      · cases he'
    · cases he
  · cases he

/-- A folder whose schemas refer to no others, with an instance that refers to one. -/
theorem oneHome_of {d : Disk} (hs : ∀ n f, d.env.readSchema n = some f → f.imp = [] ∧ f.incl = [])
    (hi : ∀ key inst, Disc.EntryInstance d.env key inst → inst.schemaRef.length ≤ 1) : OneHome d := by
  intro key inst ns l l' hE hl hl'
  have first : ∀ l, Disc.Finally d.env inst ns l → ∃ i ∈ inst.schemaRef, ∃ f, Disc.RefTo d.env i ns l f := by
    intro l h
    rcases h with ⟨i, hi, f, h, _⟩ | ⟨loc, f, hr, h⟩
    · exact ⟨i, hi, f, h⟩
    · obtain ⟨e1, e2⟩ := hs loc f (Disc.reach_read hr)
      unfold Disc.LastAt at h
      rw [e1, e2] at h
      simp at h
  obtain ⟨i, hi1, f, hf⟩ := first l hl
  obtain ⟨i', hi1', f', hf'⟩ := first l' hl'
  have : i = i' := by
    match hsr : inst.schemaRef, hi key inst hE with
    | [], _ => rw [hsr] at hi1; simp at hi1
    | [x], _ => rw [hsr] at hi1 hi1'; rw [List.mem_singleton.1 hi1, List.mem_singleton.1 hi1']
  subst this
  have h1 := hf.2.1
  have h2 := hf'.2.1
  rw [← plainAttr_iff] at h1 h2
  exact Option.some.inj (h1.symm.trans h2)

theorem arc_home : OneHome arcDisk := by
  refine oneHome_of (fun n f h => ?_) fun key inst h => ?_
  · have key : ∀ x : Xml, (match discoveredSchema x with | some f => decide (f.imp = [] ∧ f.incl = []) | none => true) = true →
        discoveredSchema x = some f → f.imp = [] ∧ f.incl = [] := by
      intro x h1 h2
      rw [h2] at h1
      simpa using h1
    change (arcDisk.read n).bind discoveredSchema = some f at h
    simp only [arcDisk] at h
    split at h
    · exact key _ (by decide +kernel) h
    split at h
    · exact key _ (by decide +kernel) h
    split at h
    · exact key _ (by decide +kernel) h
    split at h
    · exact key _ (by decide +kernel) h
    split at h
    · exact key _ (by decide +kernel) h
    · cases h
  · obtain ⟨e, he, hr, hk⟩ := h
    cases he
    have : key = "r.xml" := by
      rcases hk with ⟨_, _, ⟨d, hd⟩, _⟩ | ⟨_, rfl⟩
      · cases hd
      · rfl
    subst this
    have h1 : (arcDisk.env.readInstance "r.xml").map (fun i => i.schemaRef.length) = some 1 := by decide +kernel
    rw [hr] at h1
    simp only [Option.map_some, Option.some.injEq] at h1
    omega

/-- The hypotheses of C177 are met by two loads, in different orders, of a folder with linkbases and facts. -/
example : ∃ l l' b, (backend arcSite).hydrate "a-1" (some (some l, none)) ∧ (backend arcSite).hydrate "a-1" (some (some l', none)) ∧
    OneHome (arcSite.disk "a-1") ∧ (values l.hyd.definition).length = 1 ∧ l.hyd.label.length ≤ 1 ∧ (backend arcSite).renderable demoSlug l (some (some b, none)) := by
  obtain ⟨fo, h, hl, ⟨b, hb⟩, _⟩ := arc_load
  have h1 : (match load arcDisk arcWorld 3 id with
    | some (.done (some (_, h))) => decide ((values h.definition).length = 1) && decide (h.label.length ≤ 1)
    | _ => false) = true := by decide +kernel
  have h2 : (match load arcDisk { arcWorld with pOrder := fun _ => List.reverse, dOrder := fun _ => List.reverse, cOrder := fun _ => List.reverse } 4 id with
    | some (.done (some _)) => true
    | _ => false) = true := by decide +kernel
  rw [hl] at h1
  rw [Bool.and_eq_true, decide_eq_true_eq, decide_eq_true_eq] at h1
  split at h2
  · rename_i p hl'
    obtain ⟨fo', h'⟩ := p
    refine ⟨⟨"a-1", arcWorld, fo, h⟩, ⟨"a-1", _, fo', h'⟩, b, ⟨rfl, arc_loads hl⟩, ⟨rfl, ⟨_, _, _, _, _, _, _, rfl⟩,
      ⟨fun _ _ => List.reverse_perm _, fun _ _ => List.reverse_perm _, fun _ _ => List.reverse_perm _, fun _ _ => .refl _, fun _ _ => .refl _⟩, 4, id,
      fun _ => .refl _, hl', fun fo x hf hx => ?_, Disc.realised_id _ _⟩, arc_home, h1.1, h1.2, demoChoice h, demoChoice_fair h, by rw [hb]; rfl⟩
    have : (match Disc.discover arcDisk.env 4 id with
      | some (.ok fo) => fo.document.isSome
      | _ => false) = false := by decide +kernel
    change Disc.discover arcDisk.env 4 id = _ at hf
    rw [hf] at this
    simp [hx] at this
  · cases h2

end Telefacts
