import Verif.Spec.Process
import Verif.Props.Money
import Verif.Props.Published
import Verif.Props.ServerExpress
import Verif.Props.Express
import Verif.Props.Document
/-! # What brings the server down (C154) -/
namespace Telefacts
open Telefacts.Linkbase Telefacts.Schema Telefacts.Instance Telefacts.Render Telefacts.Hydrate Telefacts.Catalog Telefacts.Document
  Telefacts.Server Telefacts.Spec Telefacts.Cache Telefacts.Decode

/-- Only a malformed fact makes a group crash. -/
theorem foldl_crashed_malformed {html : List XpathAttr} {np : NameProvider} (h : newNameProvider html = .ok np) (sched : List Nat) :
    ∀ st : St, st.crashed = false → (sched.foldl (Document.step np) st).crashed = true → ∃ t ∈ st.threads, Malformed html t.1 := by
  induction sched with
  | nil => intro st h0 h1; rw [List.foldl_nil] at h1; rw [h0] at h1; cases h1
  | cons i l ih =>
    intro st h0 h1
    rw [List.foldl_cons] at h1
    have hthreads : (Document.step np st i).crashed = false →
        ∀ t ∈ (Document.step np st i).threads, ∃ t' ∈ st.threads, t'.1 = t.1 := by
      intro _ t ht
      unfold Document.step at ht
      rw [if_neg (by simp [h0])] at ht
      split at ht
      · exact ⟨t, ht, rfl⟩
      · exact ⟨t, ht, rfl⟩
      · rename_i f he
        rcases List.mem_or_eq_of_mem_set ht with ht | rfl
        · exact ⟨t, ht, rfl⟩
        · exact ⟨_, List.mem_of_getElem? he, rfl⟩
      · rename_i f he
        split at ht
        · exact ⟨t, ht, rfl⟩
        · rcases List.mem_or_eq_of_mem_set ht with ht | rfl
          · exact ⟨t, ht, rfl⟩
          · exact ⟨_, List.mem_of_getElem? he, rfl⟩
        · rcases List.mem_or_eq_of_mem_set ht with ht | rfl
          · exact ⟨t, ht, rfl⟩
          · exact ⟨_, List.mem_of_getElem? he, rfl⟩
    cases hc : (Document.step np st i).crashed with
    | false =>
      obtain ⟨t, ht, hm⟩ := ih _ hc h1
      obtain ⟨t', ht', he⟩ := hthreads hc t ht
      exact ⟨t', ht', he ▸ hm⟩
    | true =>
      unfold Document.step at hc
      rw [if_neg (by simp [h0])] at hc
      split at hc
      · rw [h0] at hc; cases hc
      · rw [h0] at hc; cases hc
      · simp [h0] at hc
      · rename_i f he
        rcases work_cases h f with ⟨hm, _⟩ | ⟨m, _, hw⟩ | ⟨s, x, c, _, hw⟩
        · exact ⟨_, List.mem_of_getElem? he, hm⟩
        · simp [hw, h0] at hc
        · simp [hw, h0] at hc

theorem not_malformed_undeclared {html : List XpathAttr} {f : InlineFact} (h : Undeclared html f) : ¬ Malformed html f := by
  obtain ⟨p, l, hp, hv, hb⟩ := h
  rintro (hm | ⟨s, hs, hc⟩ | ⟨_, p', l', n, hp', hv', hb'⟩)
  · exact hm _ hv
  · rw [hasVal_unique hs hv] at hc
    simp [String.toList_append] at hc
  · obtain ⟨rfl, _⟩ := prefix_unique hp hp' (hasVal_unique hv hv')
    exact hb n hb'

theorem not_malformed_uses {html : List XpathAttr} {f : InlineFact} {s : String} {x : XName} {c : String}
    (h : Uses html f s x c) : ¬ Malformed html f := by
  obtain ⟨hv, hc, p, hp, rfl, hb⟩ := h
  rintro (hm | ⟨s, hs, hc⟩ | ⟨hn, _⟩)
  · exact hm _ hv
  · rw [hasVal_unique hs hv] at hc
    simp [String.toList_append] at hc
  · exact hn _ hc

/-- A schedule that begins with the two turns of a malformed fact. -/
theorem crashes_first {html : List XpathAttr} {np : NameProvider} (h : newNameProvider html = .ok np) {facts : List InlineFact} {f : InlineFact}
    {i : Nat} (hi : facts[i]? = some f) (hf : Malformed html f) (doc : Doc) (rest : List Nat) :
    (runGroup np facts doc (i :: i :: rest)).crashed = true := by
  have hlt : i < facts.length := (List.getElem?_eq_some_iff.1 hi).1
  have hw : work np f = .panic := by
    rcases work_cases h f with ⟨_, hw⟩ | ⟨m, hu, _⟩ | ⟨s, x, c, hu, _⟩
    · exact hw
    · exact absurd hf (not_malformed_undeclared hu)
    · exact absurd hf (not_malformed_uses hu)
  unfold runGroup
  simp only [List.foldl_cons]
  refine foldl_crashed _ ?_
  have h1 : Document.step np ⟨facts.map fun f => (f, Document.Pc.start), none, false, doc⟩ i =
      ⟨(facts.map fun f => (f, Document.Pc.start)).set i (f, Document.Pc.checked), none, false, doc⟩ := by
    simp [Document.step, hi]
  rw [h1]
  simp [Document.step, hlt, hw]

/-- Everyone gets two turns. -/
def twoTurns (n : Nat) : List Nat := List.range n ++ List.range n

theorem twoTurns_count {n i : Nat} (h : i < n) : 2 ≤ (twoTurns n).count i := by
  have : 1 ≤ (List.range n).count i := List.count_pos_iff.2 (List.mem_range.2 h)
  simp only [twoTurns, List.count_append]
  omega

/-- Which documents make the program panic under some schedule. -/
theorem documentCrashes_iff (w : Hydrate.World) (x : DocFile) :
    (∃ s₁ s₂, Waited { w with sched₁ := s₁, sched₂ := s₂ } x ∧ documentCrashes { w with sched₁ := s₁, sched₂ := s₂ } x = true) ↔
      UnsafeDocument x := by
  constructor
  · rintro ⟨s₁, s₂, ⟨h1, h2⟩, hc⟩
    unfold documentCrashes at hc
    split at hc
    · rename_i np hnp
      refine ⟨⟨np, hnp⟩, ?_⟩
      simp only [Bool.or_eq_true, Bool.and_eq_true, Option.isNone_iff_eq_none] at hc
      cases hst : (runGroup np x.nonNumerics ⟨[], []⟩ s₁).crashed with
      | true =>
        obtain ⟨t, ht, hm⟩ := foldl_crashed_malformed hnp s₁ _ rfl hst
        obtain ⟨f, hf, rfl⟩ := List.mem_map.1 ht
        exact .inl ⟨f, hf, hm⟩
      | false =>
        rw [hst] at hc
        obtain ⟨he, hc⟩ : _ ∧ _ := by simpa using hc
        obtain ⟨t, ht, hm⟩ := foldl_crashed_malformed hnp s₂ _ rfl hc
        obtain ⟨f, hf, rfl⟩ := List.mem_map.1 ht
        refine .inr ⟨⟨f, hf, hm⟩, ?_⟩
        have hk : ∃ doc, hydrateDocument x.html x.nonNumerics [] s₁ [] = .ok doc := by
          refine ⟨(runGroup np x.nonNumerics ⟨[], []⟩ s₁).doc, ?_⟩
          have ha : afterGroup (runGroup np x.nonNumerics ⟨[], []⟩ s₁) = .ok (runGroup np x.nonNumerics ⟨[], []⟩ s₁).doc := by
            simp [afterGroup, hst, he]
          simp only [hydrateDocument, hnp, ha]
          simp [afterGroup, runGroup]
        exact fun f hf => ((C31_succeeds x.html x.nonNumerics [] s₁ [] h1 (by intro i hi; simp at hi)).1 hk).2 f (.inl hf)
    · cases hc
  · rintro ⟨⟨np, hnp⟩, ⟨f, hf, hm⟩ | ⟨⟨f, hf, hm⟩, hu⟩⟩
    · obtain ⟨i, hi⟩ := List.mem_iff_getElem?.1 hf
      refine ⟨i :: i :: twoTurns x.nonNumerics.length, twoTurns x.nonFractions.length, ⟨fun j hj => ?_, fun j hj => twoTurns_count hj⟩, ?_⟩
      · have := twoTurns_count hj
        simp only [List.count_cons]
        omega
      · simp [documentCrashes, hnp, crashes_first hnp hi hm]
    · obtain ⟨i, hi⟩ := List.mem_iff_getElem?.1 hf
      refine ⟨twoTurns x.nonNumerics.length, i :: i :: twoTurns x.nonFractions.length, ⟨fun j hj => twoTurns_count hj, fun j hj => ?_⟩, ?_⟩
      · have := twoTurns_count hj
        simp only [List.count_cons]
        omega
      · have hk := (C31_succeeds x.html x.nonNumerics [] (twoTurns x.nonNumerics.length) [] (fun j hj => twoTurns_count hj)
          (by intro i hi; simp at hi)).2 ⟨⟨np, hnp⟩, fun f hf => hf.elim (hu f) (by simp)⟩
        obtain ⟨doc, hd⟩ := hk
        simp only [hydrateDocument, hnp] at hd
        cases hst : (runGroup np x.nonNumerics ⟨[], []⟩ (twoTurns x.nonNumerics.length)).crashed with
        | true => simp [documentCrashes, hnp, hst]
        | false =>
          cases he : (runGroup np x.nonNumerics ⟨[], []⟩ (twoTurns x.nonNumerics.length)).goErr with
          | some m => simp [afterGroup, hst, he] at hd
          | none => simp [documentCrashes, hnp, he, crashes_first hnp hi hm]

theorem reaches_sched (w : Hydrate.World) (fo : Files) (s₁ s₂ : List Nat) :
    ReachesDocument { w with sched₁ := s₁, sched₂ := s₂ } fo ↔ ReachesDocument w fo := Iff.rfl

/-- **C154 (partial).** Loading a folder ends the program exactly if the rest of the folder can be hydrated and an inline fact is
malformed: a text fact, or a number when the text facts are all in order. -/
theorem C154_loading_partial (site : Site) (folder : String) :
    LoadingKills site folder ↔ ∃ w fuel sched fo x, Varies site.outside w ∧ FairWorld w ∧
      (∀ ws : List (Disc.Write LinkbaseFile), (sched ws).Perm ws) ∧ Disc.discover (site.disk folder).env fuel sched = some (.ok fo) ∧
      fo.document = some x ∧ ReachesDocument w (filesOf (site.disk folder) fo) ∧ UnsafeDocument x := by
  constructor
  · rintro ⟨w, fuel, sched, fo, x, hv, hf, hp, hd, hx, hw, hr, hc⟩
    exact ⟨w, fuel, sched, fo, x, hv, hf, hp, hd, hx, hr, (documentCrashes_iff w x).1 ⟨w.sched₁, w.sched₂, hw, hc⟩⟩
  · rintro ⟨w, fuel, sched, fo, x, hv, hf, hp, hd, hx, hr, hu⟩
    obtain ⟨s₁, s₂, hw, hc⟩ := (documentCrashes_iff w x).2 hu
    refine ⟨{ w with sched₁ := s₁, sched₂ := s₂ }, fuel, sched, fo, x, ?_, ⟨hf.p, hf.d, hf.c, hf.n, hf.l⟩, hp, hd, hx, hw,
      (reaches_sched w _ s₁ s₂).2 hr, hc⟩
    obtain ⟨p, d, c, n, l, t₁, t₂, rfl⟩ := hv
    exact ⟨p, d, c, n, l, s₁, s₂, rfl⟩

/-- Without a fact gone astray the contexts and the members of any rows can be found. -/
theorem memberGrid_ends {f : Folder} (ht : TreesNamed f) (hs : ∀ i ∈ f.insts, ∀ fact, ¬ Astray f i fact) (entity : String)
    (hrefs : List String) (ord : GoMap String RelevantMember → GoMap String RelevantMember) :
    ∃ rel g, getRelevantContexts f entity hrefs = .done rel ∧
      getMemberGrid ord rel.contexts rel.segmentTrees rel.scenarioTrees = .done g := by
  obtain ⟨p1, p2⟩ := C38_no_panic_partial f entity hrefs
  cases hr : getRelevantContexts f entity hrefs with
  | panic =>
    obtain ⟨i, hi, fact, hf, ⟨_, hc⟩, hn⟩ := p1.1 hr
    exact absurd ⟨hf, hc, hn⟩ (hs i hi fact)
  | loop => exact absurd hr p2
  | done rel =>
    obtain ⟨g, hg⟩ := getMemberGrid_total ord rel.contexts rel.segmentTrees rel.scenarioTrees (by
      rintro x ⟨t, htm, hn⟩
      obtain ⟨i, hi, c, hc, h⟩ := relevant_trees hr t htm
      exact ht i hi c hc t h x hn)
    exact ⟨rel, g, rfl, hg⟩

theorem pGrid_ends {Φ : Type} {f : Folder} (ht : TreesNamed f) (hs : ∀ i ∈ f.insts, ∀ fact, ¬ Astray f i fact) (env : GridEnv Φ)
    (entity role : String) (lbs : List (Lb PArc)) : ∃ r, pGrid f env entity role lbs = .done r := by
  obtain ⟨rel, g, h1, h2⟩ := memberGrid_ends ht hs entity ((getIndentedLabels f lbs role).map IndentedLabel.href) env.memberOrder
  exact ⟨_, by unfold pGrid; simp only [h1, h2, Run.andThen]; rfl⟩

theorem rootLoop_ends {Φ : Type} {step : RootState Φ → Node → Run (RootState Φ)} (h : ∀ st n, ∃ r, step st n = .done r)
    (ns : List Node) : ∀ st, ∃ r, rootLoop step st ns = .done r := by
  induction ns with
  | nil => exact fun st => ⟨st, rfl⟩
  | cons n ns ih =>
    intro st
    obtain ⟨r, hr⟩ := h st n
    obtain ⟨r', hr'⟩ := ih r
    exact ⟨r', by simp only [rootLoop, hr, Run.andThen, hr']⟩

theorem linkLoop_ends {Φ : Type} {step : RootState Φ → (Lb DArc × Link DArc) × Nat → Run (RootState Φ)} (h : ∀ st n, ∃ r, step st n = .done r)
    (ns : List ((Lb DArc × Link DArc) × Nat)) : ∀ st, ∃ r, linkLoop step st ns = .done r := by
  induction ns with
  | nil => exact fun st => ⟨st, rfl⟩
  | cons n ns ih =>
    intro st
    obtain ⟨r, hr⟩ := h st n
    obtain ⟨r', hr'⟩ := ih r
    exact ⟨r', by simp only [linkLoop, hr, Run.andThen, hr']⟩

theorem dGrid_ends {Φ : Type} {f : Folder} (ht : TreesNamed f) (hs : ∀ i ∈ f.insts, ∀ fact, ¬ Astray f i fact) (env : GridEnv Φ)
    (entity role : String) (b : Books) : ∃ r, dGrid f env entity role b = .done r := by
  have h : ∀ st n, ∃ r, linkStep f env.memberOrder env.source entity role b.dimensionOrder st n = .done r := by
    intro st n
    unfold linkStep
    refine rootLoop_ends (fun st n => ?_) _ _
    unfold rootStep
    simp only
    generalize (_ :: _ : List String) = hrefs
    obtain ⟨rel, g, h1, h2⟩ := memberGrid_ends ht hs entity hrefs env.memberOrder
    exact ⟨_, by simp only [h1, h2, Run.andThen]; rfl⟩
  obtain ⟨st, hst⟩ := linkLoop_ends h (roleLinks role b.definition).zipIdx ⟨[], [], [], []⟩
  exact ⟨_, by unfold dGrid getRootDomains; simp only [hst, Run.andThen]; rfl⟩

theorem cGrid_ends {Φ : Type} {f : Folder} (ht : TreesNamed f) (hs : ∀ i ∈ f.insts, ∀ fact, ¬ Astray f i fact) (env : GridEnv Φ)
    (entity role : String) (b : Books) : ∃ r, cGrid f env entity role b = .done r := by
  have hstep : ∀ m st e, ∃ r, summationStep f env entity m st e = .done r := by
    intro m st e
    unfold summationStep
    obtain ⟨rel, g, h1, h2⟩ := memberGrid_ends ht hs entity ((e.2.filterMap (contributing f m)).map Contributing.href ++ [e.1]) env.memberOrder
    simp only [h1, Run.andThen]
    cases f.concept e.1 with
    | none => exact ⟨_, rfl⟩
    | some c => exact ⟨_, by simp only [h2]; rfl⟩
  have hloop : ∀ m es st, ∃ r, summationLoop f env entity m st es = .done r := by
    intro m es
    induction es with
    | nil => exact fun st => ⟨st, rfl⟩
    | cons e es ih =>
      intro st
      obtain ⟨r, hr⟩ := hstep m st e
      obtain ⟨r', hr'⟩ := ih r
      exact ⟨r', by simp only [summationLoop, hr, Run.andThen, hr']⟩
  have hitems : ∀ lbs links, ∃ r, getSummationItems f env entity role links lbs = .done r := by
    intro lbs
    induction lbs with
    | nil => exact fun _ => ⟨_, rfl⟩
    | cons lb lbs ih =>
      intro links
      simp only [getSummationItems]
      split
      · unfold summationItems
        rename_i k _
        obtain ⟨r, hr⟩ := hloop (calcMap role lb k.arcs) (env.mapOrder (calcMap role lb k.arcs)) ⟨[], [], [], []⟩
        exact ⟨_, by simp only [hr, Run.andThen]; rfl⟩
      · exact ih _
  exact hitems _ _

/-- **C154 (partial).** Rendering ends the program only if a fact of a concrete concept refers to a context that its instance does
not have, given that no typed domain tree has a dimension without a name. -/
theorem C154_rendering_partial (site : Site) (c : Choice) (hash : String) (l : Loaded) (ht : TreesNamed (Server.folderOf site c l))
    (hs : ∀ i ∈ values l.hyd.instances, ∀ fact, ¬ Astray (Server.folderOf site c l) i fact) : ¬ gridsCrash site c hash l := by
  unfold gridsCrash
  split
  · exact fun h => h
  · rename_i e r _
    rintro (h | h | h)
    · obtain ⟨x, hx⟩ := pGrid_ends ht hs (gridEnv site c l) (stringify e) r.roleURI (booksOf site c).presentation
      rw [hx] at h; cases h
    · obtain ⟨x, hx⟩ := dGrid_ends ht hs (gridEnv site c l) (stringify e) r.roleURI (booksOf site c)
      rw [hx] at h; cases h
    · obtain ⟨x, hx⟩ := cGrid_ends ht hs (gridEnv site c l) (stringify e) r.roleURI (booksOf site c)
      rw [hx] at h; cases h

/-- **C154 fails.** Whatever else is in the folder: if a fact for a row of the presentation refers to a context that its instance
does not have, then every request for that renderable ends the program, under every schedule. -/
theorem C154_astray_fails (site : Site) (c : Choice) (hash : String) (l : Loaded) (e : Entity) (r : RSet)
    (hsel : select hash (sortedEntities (values l.hyd.instances)) (sortedRSets (values l.hyd.schemas)) = some (e, r))
    (i : HInstance) (hi : i ∈ values l.hyd.instances) (fact : Fact) (ha : Astray (Server.folderOf site c l) i fact)
    (row : IndentedLabel) (hrow : row ∈ getIndentedLabels (Server.folderOf site c l) c.presentation r.roleURI) (hr : row.href = fact.href) :
    gridsCrash site c hash l := by
  unfold gridsCrash
  rw [hsel]
  left
  have hp : getRelevantContexts (Server.folderOf site c l) (stringify e)
      ((getIndentedLabels (Server.folderOf site c l) c.presentation r.roleURI).map IndentedLabel.href) = .panic :=
    (C38_no_panic_partial _ _ _).1.2 ⟨i, hi, fact, ha.1, ⟨List.mem_map.2 ⟨row, hrow, hr⟩, ha.2.1⟩, ha.2.2⟩
  unfold pGrid
  simp only [booksOf, hp, Run.andThen]

/-- **C154 (partial).** A request does not end the program if no inline fact of the folder is malformed and no fact of a concrete
concept has gone astray. Missing: the other folders (`C154_fails`, `C154_document_fails`). -/
theorem C154_isolated_partial (site : Site) (folder : String)
    (hd : ∀ fuel sched fo x, (∀ ws : List (Disc.Write LinkbaseFile), (sched ws).Perm ws) →
      Disc.discover (site.disk folder).env fuel sched = some (.ok fo) → fo.document = some x → ¬ UnsafeDocument x)
    (hl : ∀ l c, hydrates site folder (some (some l, none)) → c.Fair l.hyd → TreesNamed (Server.folderOf site c l) ∧
      ∀ i ∈ values l.hyd.instances, ∀ fact, ¬ Astray (Server.folderOf site c l) i fact) (name ref hash : String) :
    ¬ MayEnd site (.catalog folder) ∧ ¬ MayEnd site (.express folder name ref) ∧ ¬ MayEnd site (.renderable folder hash) := by
  have h0 : ¬ LoadingKills site folder := by
    rw [C154_loading_partial]
    rintro ⟨w, fuel, sched, fo, x, _, _, hp, hdi, hx, _, hu⟩
    exact hd fuel sched fo x hp hdi hx hu
  refine ⟨h0, h0, ?_⟩
  rintro (h | ⟨l, hh, _, c, hc, hg⟩)
  · exact h0 h
  · exact C154_rendering_partial site c hash l (hl l c hh hc).1 (hl l c hh hc).2 hg

/-- A discovered document is that of the entry file. -/
theorem discover_inline {d : Disk} {fuel : Nat} {sched : List (Disc.Write LinkbaseFile) → List (Disc.Write LinkbaseFile)}
    {fo : Disc.Folder LinkbaseFile DocFile} (hf : Disc.discover d.env fuel sched = some (.ok fo)) {x : DocFile} (hx : fo.document = some x) :
    ∃ name, d.entryName = some name ∧ Disc.Inline name ∧ d.doc name = some (some x) := by
  have hw : ∀ fo0 key, Disc.withInstance d.env fuel sched fo0 key = some (.ok fo) → fo0.document = some x := by
    intro fo0 key h
    unfold Disc.withInstance at h
    split at h
    · cases h
    · split at h
      · cases h
      · simp only [Option.some.injEq, Res.ok.injEq] at h
        rw [← h] at hx
        rw [← hx]
        exact (Disc.applyWrites_rest _ _).2.1.symm
  unfold Disc.discover at hf
  split at hf
  · cases hf
  · rename_i name hn
    split at hf
    · rename_i hi
      split at hf
      · cases hf
      · split at hf <;> cases hf
      · rename_i y hy
        dsimp only at hf
        split at hf
        · simp at hf
        · have := hw _ _ hf
          simp only [show ∀ x i, d.env.transform x i = x from fun _ _ => rfl, ite_self, Option.some.injEq] at this
          subst this
          exact ⟨name, hn, (Disc.inline_iff name).2 hi, hy⟩
    · split at hf
      · exact absurd (hw _ _ hf) (by simp [Disc.emptyFolder])
      · simp only [Option.some.injEq, Res.ok.injEq] at hf
        rw [← hf] at hx
        simp [Disc.emptyFolder] at hx

/-- The contexts of a loaded instance, and that those with an identifier are there. -/
theorem loaded_contexts {d : Disk} {w : Hydrate.World} {fuel : Nat} {sched : List (Disc.Write LinkbaseFile) → List (Disc.Write LinkbaseFile)}
    {fo : Files} {h : Hydratable} (hl : load d w fuel sched = some (.done (some (fo, h)))) {root : Xml} {inst : Disc.InstanceFile}
    (hroot : EntryRoot d root inst) {file : InstFile} (hfile : instanceFile root = some file) :
    ∃ i, values h.instances = [i] ∧
      (∀ c ∈ i.contexts, ∃ y ∈ root.kids, y.name.loc = "context" ∧ ∃ e, IsContext y e ∧ Instance.ContextOf (instanceWorld w fo file) e c) ∧
      (∀ y ∈ root.kids, y.name.loc = "context" → ∀ e ent r s t, IsContext y e → Identified e ent r s t → ∃ c ∈ i.contexts, c.id = r) := by
  obtain ⟨key, hE, hread⟩ := hroot
  rcases load_instances hl with ⟨_, hno⟩ | ⟨key', inst', root', file', i, hE', hr', hf', _, hv, hio, hrd⟩
  · exact absurd hE (hno _ _)
  obtain ⟨rfl, rfl⟩ := entryInstance_unique hE hE'
  rw [hread] at hr'; cases hr'
  rw [hfile] at hf'; cases hf'
  obtain ⟨_, _, _, hctx, _⟩ := ((C99_instance root).2 file).1 hfile
  rw [kids_iff isContext_iff] at hctx
  have hmem : ∀ e, e ∈ file.contexts ↔ ∃ y ∈ root.kids, y.name.loc = "context" ∧ IsContext y e := by
    intro e
    rw [hctx]
    simp only [Xml.named, List.mem_map, List.mem_filter, decide_eq_true_eq, isContext_iff]
    constructor
    · rintro ⟨y, ⟨h1, h2⟩, h3⟩; exact ⟨y, h1, h2, h3.symm⟩
    · rintro ⟨y, h1, h2, h3⟩; exact ⟨y, ⟨h1, h2⟩, h3.symm⟩
  obtain ⟨lc, hlc, hsc⟩ := hio.contexts
  refine ⟨i, hv, fun c hc => ?_, fun y hy hn e ent r s t he hid => ?_⟩
  · obtain ⟨e, he, hec⟩ := collected_mem hlc c (hsc.1.mem_iff.1 hc)
    obtain ⟨y, h1, h2, h3⟩ := (hmem e).1 he
    exact ⟨y, h1, h2, e, h3, hec⟩
  · have hme := (hmem e).2 ⟨y, hy, hn, he⟩
    obtain ⟨r', hr'⟩ := (hydrateContext_done (instanceWorld w fo file) e).2 (hrd e hme)
    cases r' with
    | none =>
      rcases hydrateContext_cases (instanceWorld w fo file) e with ⟨_, h⟩ | ⟨_, h, _⟩ | ⟨_, ent', id', s', i', _, h⟩
      · rw [h] at hr'; cases hr'
      · exact absurd hid (h _ _ _ _)
      · rw [h] at hr'
        cases h1 : hydrateDims (instanceWorld w fo file) false ent'.segments <;> rw [h1] at hr' <;> simp only [Run.andThen] at hr' <;>
          try cases hr'
        cases h2 : hydrateDims (instanceWorld w fo file) true e.scenarios <;> rw [h2] at hr' <;> simp at hr'
    | some c =>
      obtain ⟨_, ent', hid', hrest⟩ := (hydrateContext_some _ _ _).1 hr'
      refine ⟨c, hsc.1.mem_iff.2 (collected_of hlc e hme c ⟨ent', hid', hrest⟩ fun y₁ y₂ h₁ h₂ => ?_), (hid'.unique hid).2.1⟩
      have k1 := (hydrateContext_some _ _ _).2 ⟨(hrd e hme).2, h₁⟩
      have k2 := (hydrateContext_some _ _ _).2 ⟨(hrd e hme).2, h₂⟩
      rw [k1] at k2
      exact Option.some.inj (Run.done.inj k2)

/-- **C154 (partial).** A request about a folder does not end the program if, on disk, the facts of the instance refer to contexts
that are there, no context has typed members and no fact of the inline document is malformed. -/
theorem C154_disk_partial (site : Site) (folder : String) (root : Xml) (inst : Disc.InstanceFile) (hroot : EntryRoot (site.disk folder) root inst)
    (file : InstFile) (hfile : instanceFile root = some file) (hc : ContextsThere root) (ht : NoTyped root)
    (hd : InlineSound (site.disk folder)) (name ref hash : String) :
    ¬ MayEnd site (.catalog folder) ∧ ¬ MayEnd site (.express folder name ref) ∧ ¬ MayEnd site (.renderable folder hash) := by
  refine C154_isolated_partial site folder ?_ ?_ name ref hash
  · intro fuel sched fo x _ hdi hx
    obtain ⟨n, h1, h2, h3⟩ := discover_inline hdi hx
    exact hd n h1 h2 x h3
  · rintro l c ⟨rfl, _, _, fuel, sched, _, hl, _⟩ _
    obtain ⟨i, hv, hfacts⟩ := loaded_facts hl hroot hfile
    obtain ⟨i', hv', hctx, hid⟩ := loaded_contexts hl hroot hfile
    rw [hv] at hv'
    cases hv'
    constructor
    · intro j hj cc hcc t htt
      have hj : j = i := by
        have : j ∈ values l.hyd.instances := hj
        rw [hv] at this
        simpa using this
      subst hj
      obtain ⟨y, hy, hn, e, he, ent, hi, hs1, hs2, _⟩ := hctx cc hcc
      obtain ⟨_, ⟨rest, hrest⟩, _⟩ := hi
      have hnt := ht y hy hn e he ent (by simp [hrest])
      have key : ∀ es dd, (∀ x, x ∈ es → x ∈ ent.segments ∨ x ∈ e.scenarios) →
          DimsOf (instanceWorld l.world l.files file) es dd → typedTrees (Server.folderOf site c l) dd = [] := by
        rintro es dd hin (⟨_, rfl⟩ | ⟨e', r', rfl, _, h2⟩)
        · rfl
        · rw [hnt e' (hin e' (by simp))] at h2
          cases hdt : dd.typed with
          | nil => simp [typedTrees, hdt]
          | cons a b =>
            rw [hdt] at h2
            cases h2
      rw [key _ _ (fun x hx => .inl hx) hs1, key _ _ (fun x hx => .inr hx) hs2] at htt
      simp at htt
    · intro j hj fact hs
      rw [hv] at hj
      simp only [List.mem_singleton] at hj
      subst hj
      obtain ⟨hf, _, hn⟩ := hs
      obtain ⟨x, hx, hr, hfo⟩ := (hfacts fact).1 hf
      obtain ⟨y, hy, hyn, e, ent, s, t, he, hi⟩ := hc x hx hr fact.contextRef hfo.ctx.1 hfo.ctx.2
      obtain ⟨cc, hcc, h⟩ := hid y hy hyn e ent _ s t he hi
      exact hn cc hcc h

/-- The hypotheses of `C154_disk_partial` hold of a folder with three facts. -/
example : ∃ inst file, EntryRoot (moneySite.disk "a-1") moneyXml inst ∧ instanceFile moneyXml = some file ∧ ContextsThere moneyXml ∧
    NoTyped moneyXml ∧ InlineSound (moneySite.disk "a-1") := by
  refine ⟨diskInst, _, ⟨_, moneyEntry, rfl⟩, rfl, ?_, ?_, ?_⟩
  · intro x hx hr r ha _
    have hrows : ∃ u i day, (r, u, i, day) ∈ moneyRows := by
      have key : ∀ r' u' i', AttrVal (moneyFact r' u' i').attrs "contextRef" r → r' = r := by
        intro r' u' i' h
        rw [← plainAttr_iff] at h
        exact Option.some.inj h
      simp only [moneyXml, Xml.kids, List.mem_cons, List.not_mem_nil, or_false] at hx
      rcases hx with rfl | rfl | rfl | rfl | rfl | rfl | rfl | rfl | rfl | rfl
      all_goals first
        | exact absurd (show Reserved _ by unfold Reserved; decide) hr
        | (rw [← key _ _ _ ha]; simp [moneyRows])
    obtain ⟨u, i, day, hrow⟩ := hrows
    obtain ⟨_, y, hy, hn, ⟨e, he, ent, hi, _⟩, _⟩ := moneyHasContext ⟨⟨[], [], fun _ => false, fun _ => none⟩, [], fun _ => ⟨[], true⟩, _root_.id⟩ r u i day hrow
    exact ⟨y, hy, hn, e, ent, _, _, he, hi⟩
  · intro y hy hn e he ent hent dd hdd
    rw [isContext_iff] at he
    subst he
    simp only [moneyXml, Xml.kids, List.mem_cons, List.not_mem_nil, or_false] at hy
    rcases hy with rfl | rfl | rfl | rfl | rfl | rfl | rfl | rfl | rfl | rfl
    all_goals first
      | exact absurd hn (by decide)
      | (have h1 : ∀ r day, (∀ ent ∈ (Decode.context (moneyContext r day)).entities, ent.segments = []) ∧
             (Decode.context (moneyContext r day)).scenarios = [] := by
           intro r day
           refine ⟨fun ent h => ?_, rfl⟩
           rw [List.mem_singleton.1 h]
           rfl
         rcases hdd with h | h
         · rw [(h1 _ _).1 ent hent] at h; cases h
         · rw [(h1 _ _).2] at h; cases h)
  · intro n hn hi
    cases hn
    exact absurd ((Disc.inline_iff _).1 hi) (by decide +kernel)

/-- A computation of a renderable that panics does so in a goroutine of its own. -/
theorem crash_of_panic {site : Site} {c : Choice} {hash : String} {l : Loaded} (hq : ∀ a b, entityQuery site.names a b ≠ .panic)
    (hp : render site c hash l = .panic) : gridsCrash site c hash l := by
  unfold render at hp
  unfold gridsCrash
  cases hsel : select hash (sortedEntities (values l.hyd.instances)) (sortedRSets (values l.hyd.schemas)) with
  | none => rw [hsel] at hp; cases hp
  | some er =>
    obtain ⟨e, r⟩ := er
    rw [hsel] at hp
    simp only [renderGrids] at hp ⊢
    cases hpg : pGrid (Server.folderOf site c l) (gridEnv site c l) (stringify e) r.roleURI (booksOf site c).presentation with
    | panic => exact .inl rfl
    | loop => rw [hpg] at hp; cases hp
    | done p =>
      cases hdg : dGrid (Server.folderOf site c l) (gridEnv site c l) (stringify e) r.roleURI (booksOf site c) with
      | panic => exact .inr (.inl rfl)
      | loop => rw [hpg, hdg] at hp; cases hp
      | done d =>
        cases hcg : cGrid (Server.folderOf site c l) (gridEnv site c l) (stringify e) r.roleURI (booksOf site c) with
        | panic => exact .inr (.inr rfl)
        | loop => rw [hpg, hdg, hcg] at hp; cases hp
        | done x =>
          rw [hpg, hdg, hcg] at hp
          simp only [Run.andThen] at hp
          split at hp
          · cases hp
          · cases hp
          · exact absurd ‹_› (hq _ _)

/-! ## A folder with a fact that has gone astray -/

def strayXml : Xml :=
  .mk ⟨XBRLI, "xbrl"⟩ [⟨⟨"xmlns", "x"⟩, "http://x"⟩] "" "" [
    .mk ⟨LINK, "schemaRef"⟩ [⟨⟨XLINK, "href"⟩, "x.xsd"⟩] "" "" [],
    moneyContext "c" "2020-12-31", moneyFact "c" "usd" "f1", moneyFact "d" "usd" "f2"]

def strayDisk : Disk :=
  { diskDemo with
    read := fun n => if n = "r.xml" then some strayXml else if n = "x.xsd" then some diskSchema else if n = "p.xml" then some diskLinks else none }

/-- A site with that folder; all other folders are in order. -/
def straySite : Site := { demoSite with disk := fun folder => if folder = "b-1" then strayDisk else diskDemo }

theorem stray_load : ∃ fo h, load strayDisk diskWorld 3 id = some (.done (some (fo, h))) ∧
    gridsCrash straySite (demoChoice h) demoSlug ⟨"b-1", diskWorld, fo, h⟩ := by
  have he : (match load strayDisk diskWorld 3 id with
    | some (.done (some (fo, h))) =>
      (match render straySite (demoChoice h) demoSlug ⟨"b-1", diskWorld, fo, h⟩ with
        | .panic => true
        | _ => false)
    | _ => false) = true := by decide +kernel
  split at he
  · rename_i fo h hl
    refine ⟨fo, h, hl, ?_⟩
    split at he
    · exact crash_of_panic (fun a b h => by simp [straySite, demoSite, entityQuery, mapGet] at h) ‹_›
    · cases he
  · cases he

/-- **C154 fails.** A request for a renderable of a folder in which one fact refers to a context that is not there ends the program,
and with it the service for all other folders. -/
theorem C154_fails : ∃ site folder hash, MayEnd site (.renderable folder hash) ∧ (∀ other ≠ folder, site.disk other = diskDemo) := by
  refine ⟨straySite, "b-1", demoSlug, .inr ?_, fun other h => if_neg h⟩
  obtain ⟨fo, h, hl, hg⟩ := stray_load
  refine ⟨⟨"b-1", diskWorld, fo, h⟩, ⟨rfl, ⟨_, _, _, _, _, _, _, rfl⟩, ⟨fun _ _ => .refl _, fun _ _ => .refl _, fun _ _ => .refl _,
    fun _ _ => .refl _, fun _ _ => .refl _⟩, 3, id, fun _ => .refl _, hl, fun fo x hf hx => ?_, Disc.realised_id _ _⟩, ?_, demoChoice h, demoChoice_fair h, hg⟩
  · have : (match Disc.discover strayDisk.env 3 id with
      | some (.ok fo) => fo.document.isSome
      | _ => false) = false := by decide +kernel
    change Disc.discover strayDisk.env 3 id = _ at hf
    rw [hf] at this
    simp [hx] at this
  · rintro ⟨h, _⟩
    exact absurd h (by decide +kernel)

/-! ## An inline document with a fact without a context -/

def looseFact : InlineFact := [⟨⟨"", "name"⟩, "x:Cash", ""⟩]

def looseDisk : Disk := { inkDisk with doc := fun _ => some (some ⟨docHtml, [], [looseFact]⟩) }

def looseSite : Site := { demoSite with disk := fun folder => if folder = "b-1" then looseDisk else diskDemo }

/-- **C154 fails.** Any request about a folder whose inline document has a fact without a context may end the program. -/
theorem C154_document_fails : ∃ site folder, (∀ other ≠ folder, site.disk other = diskDemo) ∧ MayEnd site (.catalog folder) ∧
    (∀ hash, MayEnd site (.renderable folder hash)) ∧ ∀ name ref, MayEnd site (.express folder name ref) := by
  have h : LoadingKills looseSite "b-1" := by
    rw [C154_loading_partial]
    have he : (match Disc.discover looseDisk.env 3 id with
      | some (.ok fo) =>
        (match fo.document with
          | some x => decide (x.html = docHtml) && decide (x.nonNumerics = []) && decide (x.nonFractions = [looseFact])
          | none => false) &&
        (match hydrate diskWorld { filesOf looseDisk fo with document := none } with
          | .done (some _) => true
          | _ => false)
      | _ => false) = true := by decide +kernel
    split at he
    · rename_i fo hfo
      simp only [Bool.and_eq_true] at he
      obtain ⟨h1, h2⟩ := he
      split at h1
      · rename_i x hx
        simp only [Bool.and_eq_true, decide_eq_true_eq] at h1
        refine ⟨diskWorld, 3, id, fo, x, ⟨_, _, _, _, _, _, _, rfl⟩, ⟨fun _ _ => .refl _, fun _ _ => .refl _, fun _ _ => .refl _,
          fun _ _ => .refl _, fun _ _ => .refl _⟩, fun _ => .refl _, hfo, hx, ?_, ?_⟩
        · split at h2
          · exact ⟨_, ‹_›⟩
          · cases h2
        · refine ⟨?_, .inr ⟨⟨looseFact, by simp [h1.2], ?_⟩, by simp [h1.1.2]⟩⟩
          · rw [h1.1.1]
            exact ⟨_, rfl⟩
          · rw [h1.1.1]
            refine .inr (.inr ⟨?_, "x", "Cash", "http://x", by decide, ?_, ?_⟩)
            · intro c hc
              obtain ⟨a, ha, _⟩ := (hasVal_iff _ _ _).1 hc
              exact absurd ha (by simp [findXpathAttr, looseFact])
            · exact (hasVal_iff _ _ _).2 ⟨⟨⟨"", "name"⟩, "x:Cash", ""⟩, by simp [findXpathAttr, looseFact], by decide⟩
            · exact ⟨[], [], by decide, rfl, by simp⟩
      · cases h1
    · cases he
  exact ⟨looseSite, "b-1", fun other h => if_neg h, h, fun _ => .inl h, fun _ _ => h⟩

end Telefacts
