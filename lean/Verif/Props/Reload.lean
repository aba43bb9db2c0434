import Verif.Props.Listing
import Verif.Props.Json
/-! # C110: loading a folder again -/
namespace Telefacts
open Telefacts.Hydrate Telefacts.Decode Telefacts.Catalog Telefacts.Schema Telefacts.Instance Telefacts.Linkbase

variable {d : Disk} {w w' : Hydrate.World} {fuel fuel' : Nat}
  {sched sched' : List (Disc.Write LinkbaseFile) → List (Disc.Write LinkbaseFile)} {fo fo' : Files} {h h' : Hydratable}

/-- **C110d.** The catalog of a folder is a function of the files: two loads of the same folder, however their goroutines were
scheduled and whatever the order of the maps, give the same bytes. -/
theorem C110_reload (hp : ∀ ws, (sched ws).Perm ws) (hp' : ∀ ws, (sched' ws).Perm ws)
    (hl : load d w fuel sched = some (.done (some (fo, h)))) (hl' : load d w' fuel' sched' = some (.done (some (fo', h'))))
    (query : String → String → Res String) :
    Json.marshalCatalog (listing d query h) = Json.marshalCatalog (listing d query h') := by
  have h1 : sortedEntities (values h.instances) = sortedEntities (values h'.instances) :=
    entitiesSorted_unique (sortedEntities_sorted _) (sortedEntities_sorted _)
      (fun e => by rw [mem_sortedEntities, mem_sortedEntities, occurs_iff hl, occurs_iff hl'])
  have h2 : sortedRSets (values h.schemas) = sortedRSets (values h'.schemas) :=
    rsetsSorted_unique (sortedRSets_sorted _) (sortedRSets_sorted _)
      (fun r => by rw [mem_sortedRSets, mem_sortedRSets, declaredSet_iff hp hl, declaredSet_iff hp' hl'])
  have h3 : (listing d query h).documentName = (listing d query h').documentName := by
    obtain ⟨e, he, ha⟩ := C108_document hl query
    obtain ⟨e', he', hb⟩ := C108_document hl' query
    rw [he, Option.some.injEq] at he'
    subst he'
    rcases ha with ⟨x, y⟩ | ⟨x, y⟩ <;> rcases hb with ⟨x', y'⟩ | ⟨x', y'⟩
    · rw [y, y']
    · exact absurd x x'
    · exact absurd x' x
    · rw [y, y']
  have : listing d query h = listing d query h' := by
    unfold listing catalog at h3 ⊢
    simp only [h1, h2] at h3 ⊢
    rw [Catalog.mk.injEq]
    exact ⟨rfl, rfl, rfl, h3⟩
  rw [this]

theorem bindRun_none {α β : Type} {r : Run (Option α)} {f : α → Run (Option β)} (h : bindRun r f = .done none) :
    r = .done none ∨ ∃ a, r = .done (some a) ∧ f a = .done none := by
  unfold bindRun Run.andThen at h
  cases r with
  | panic => cases h
  | loop => cases h
  | done o =>
    cases o with
    | none => exact .inl rfl
    | some a => exact .inr ⟨a, rfl, h⟩

theorem hydrateMap_none {A B : Type} {f : String → A → Run (Option B)} (m : GoMap String A) (acc : GoMap String B)
    (h : hydrateMap f m acc = .done none) : ∃ k a, (k, a) ∈ m ∧ f k a = .done none := by
  induction m generalizing acc with
  | nil => cases h
  | cons e m ih =>
    obtain ⟨k, a⟩ := e
    rw [hydrateMap] at h
    cases hf : f k a with
    | panic => simp [hf, Run.andThen] at h
    | loop => simp [hf, Run.andThen] at h
    | done o =>
      cases o with
      | none => exact ⟨k, a, List.mem_cons_self, hf⟩
      | some b =>
        simp only [hf, Run.andThen] at h
        obtain ⟨k', a', hm, hf'⟩ := ih _ h
        exact ⟨k', a', List.mem_cons_of_mem _ hm, hf'⟩

/-- Why hydration returns an error. -/
theorem hydrate_none {w : Hydrate.World} {fo : Files} (wf : FilesWF fo) (h : hydrate w fo = .done none) :
    ¬ Named fo ∨ w.registry = none ∨ ∃ x, fo.document = some x ∧
      ∃ m, Document.hydrateDocument x.html x.nonNumerics x.nonFractions w.sched₁ w.sched₂ = .err m := by
  obtain ⟨w1, w2, w3, w4, w5, w6⟩ := wf
  have key : ∀ {A B : Type} {f : String → A → Run (Option B)} {m : GoMap String A}, MapWF m → (∀ k a, f k a = .done none → k = "") →
      hydrateMap f m [] = .done none → mapGet m "" ≠ none := by
    intro A B f m wf hf hm
    obtain ⟨k, a, hmem, h⟩ := hydrateMap_none m [] hm
    have := hf k a h
    subst this
    rw [(mapGet_iff_mem wf).2 hmem]
    simp
  have kk : ∀ {A B : Type} (f : String → A → B) (k : String) (a : A), keyed f k a = .done none → k = "" := by
    intro A B f k a h
    unfold keyed at h
    split at h
    · assumption
    · cases h
  unfold hydrate at h
  rcases bindRun_none h with h | ⟨_, _, h⟩
  · refine .inl fun hn => key w1 (fun k a h => ?_) h hn.1
    unfold hydrateSchema at h
    split at h
    · assumption
    · cases h
  rcases bindRun_none h with h | ⟨_, _, h⟩
  · exact .inl fun hn => key w2 (kk _) h hn.2.1
  rcases bindRun_none h with h | ⟨_, _, h⟩
  · exact .inl fun hn => key w3 (kk _) h hn.2.2.1
  rcases bindRun_none h with h | ⟨_, _, h⟩
  · exact .inl fun hn => key w4 (kk _) h hn.2.2.2.1
  rcases bindRun_none h with h | ⟨_, _, h⟩
  · exact .inl fun hn => key w5 (kk _) h hn.2.2.2.2.1
  rcases bindRun_none h with h | ⟨_, _, h⟩
  · refine .inl fun hn => key w6 (fun k a h => ?_) h hn.2.2.2.2.2
    unfold hydrateInstance at h
    split at h
    · assumption
    · cases hc : hydrateContexts (instanceWorld w fo a) a.contexts <;> simp [hc, Run.andThen] at h
  cases hr : w.registry with
  | none => exact .inr (.inl rfl)
  | some r =>
    rw [hr] at h
    right; right
    rcases bindRun_none h with h | ⟨_, _, h⟩
    · cases hd : fo.document with
      | none => rw [hd] at h; simp [hydrateDoc] at h
      | some x =>
        rw [hd] at h
        refine ⟨x, rfl, ?_⟩
        cases hx : Document.hydrateDocument x.html x.nonNumerics x.nonFractions w.sched₁ w.sched₂ with
        | err m => exact ⟨m, rfl⟩
        | panic => simp [hydrateDoc, hx, ofRes, bindRun, Run.andThen] at h
        | ok doc => simp [hydrateDoc, hx, ofRes, bindRun, Run.andThen] at h
    · cases h

/-- Two discoveries of a folder that end find the same names of files and the same document. -/
theorem discover_same {fo0 : Disc.Folder LinkbaseFile DocFile} (hp : ∀ ws, (sched ws).Perm ws) (hp' : ∀ ws, (sched' ws).Perm ws)
    (h1 : Disc.discover d.env fuel sched = some (.ok fo0)) :
    (∀ m, Disc.discover d.env fuel' sched' ≠ some (.err m)) ∧ Disc.discover d.env fuel' sched' ≠ some .panic ∧
    ∀ fo1, Disc.discover d.env fuel' sched' = some (.ok fo1) →
      fo1.document = fo0.document ∧ (Named (filesOf d fo0) → Named (filesOf d fo1)) := by
  rcases discover_cases d.env with ⟨key, inst, f0, hE, h1', h2, h3, h4, h5, h6, h7⟩ | ⟨hE, r, hr, ho⟩
  · obtain ⟨_, _, hread, _⟩ := id hE
    have hw : ∀ fuel sched, Disc.discover d.env fuel sched = none ∨ ∃ ws, Disc.discover d.env fuel sched =
        some (.ok { (sched ws).foldl Disc.applyWrite f0 with instances := mapSet ((sched ws).foldl Disc.applyWrite f0).instances key inst }) := by
      intro fuel sched
      rw [h7, Disc.withInstance, hread]
      simp only
      cases Disc.schemaRef d.env fuel inst with
      | none => exact .inl rfl
      | some ws => exact .inr ⟨ws, rfl⟩
    refine ⟨fun m hm => ?_, fun hm => ?_, fun fo1 hf => ?_⟩
    · rcases hw fuel' sched' with h | ⟨_, h⟩ <;> rw [h] at hm <;> simp at hm
    · rcases hw fuel' sched' with h | ⟨_, h⟩ <;> rw [h] at hm <;> simp at hm
    · refine ⟨?_, ?_⟩
      · rcases hw fuel sched with h | ⟨ws, h⟩
        · rw [h] at h1; cases h1
        rcases hw fuel' sched' with h' | ⟨ws', h'⟩
        · rw [h'] at hf; cases hf
        rw [h] at h1; rw [h'] at hf
        cases h1; cases hf
        exact ((Disc.applyWrites_rest _ f0).2.1).trans ((Disc.applyWrites_rest _ f0).2.1).symm
      · rintro ⟨n1, n2, n3, n4, n5, n6⟩
        obtain ⟨s1, l1, _⟩ := C12_collects_reachable d.env fuel sched hp fo0 h1
        obtain ⟨s2, l2, _⟩ := C12_collects_reachable d.env fuel' sched' hp' fo1 hf
        have lk : ∀ kind, mapGet (fo0.links kind) "" = none → mapGet (fo1.links kind) "" = none := by
          intro kind hk
          cases hc : mapGet (fo1.links kind) "" with
          | none => rfl
          | some l => rw [(l1 kind "" l).2 ((l2 kind "" l).1 hc)] at hk; cases hk
        refine ⟨?_, lk _ n2, lk _ n3, lk _ n4, lk _ n5, ?_⟩
        · cases hc : mapGet (filesOf d fo1).schemas "" with
          | none => rfl
          | some x =>
            obtain ⟨a, ha, hx⟩ := (mapGet_filterMap _ _ (discover_wf hf).2.1 _ _).1 hc
            have := (mapGet_filterMap (fun e => (d.read e.1).bind schemaFile) _ (discover_wf h1).2.1 "" x).2
              ⟨a, (s1 "" a).2 ((s2 "" a).1 ha), hx⟩
            exact absurd n1 (by rw [show mapGet (filesOf d fo0).schemas "" = some x from this]; simp)
        · have hi : fo1.instances = fo0.instances := by
            rcases hw fuel sched with h | ⟨ws, h⟩
            · rw [h] at h1; cases h1
            rcases hw fuel' sched' with h' | ⟨ws', h'⟩
            · rw [h'] at hf; cases hf
            rw [h] at h1; rw [h'] at hf
            cases h1; cases hf
            simp only [(Disc.applyWrites_rest _ f0).2.2]
          unfold filesOf at n6 ⊢
          simp only at n6 ⊢
          rw [hi]
          exact n6
  · rw [hr] at h1
    refine ⟨fun m hm => ?_, fun hm => ?_, fun fo1 hf => ?_⟩
    · rw [hr] at hm; cases h1; cases hm
    · rw [hr] at hm; cases h1; cases hm
    · rw [hr] at hf; cases h1; cases hf; exact ⟨rfl, id⟩

/-- **C110e.** Whether a folder can be loaded is a function of the files: if one load succeeds, no other load returns an error,
however its goroutines are scheduled and whatever the order of the maps. -/
theorem C110_loadable (hp : ∀ ws, (sched ws).Perm ws) (hp' : ∀ ws, (sched' ws).Perm ws)
    (hl : load d w fuel sched = some (.done (some (fo, h)))) (hr : w'.registry = w.registry)
    (hw : ∀ fo x, Disc.discover d.env fuel sched = some (.ok fo) → fo.document = some x →
      Document.Complete x.nonNumerics w.sched₁ ∧ Document.Complete x.nonFractions w.sched₂)
    (hw' : ∀ fo x, Disc.discover d.env fuel' sched' = some (.ok fo) → fo.document = some x →
      Document.Complete x.nonNumerics w'.sched₁ ∧ Document.Complete x.nonFractions w'.sched₂) :
    load d w' fuel' sched' ≠ some (.done none) := by
  intro hl'
  obtain ⟨fo0, h1, rfl, h2⟩ := load_some hl
  obtain ⟨a, b, c⟩ := discover_same (fuel' := fuel') hp hp' h1
  obtain ⟨hn, _, hreg, hdoc⟩ := (C101_succeeds w _ (filesOf_wf h1)).1 ⟨_, h2⟩
  unfold load at hl'
  cases hd : Disc.discover d.env fuel' sched' with
  | none => rw [hd] at hl'; cases hl'
  | some r =>
    cases r with
    | err m => exact a m hd
    | panic => exact b hd
    | ok fo1 =>
      rw [hd] at hl'
      obtain ⟨c1, c2⟩ := c fo1 hd
      simp only [Option.some.injEq] at hl'
      rcases bindRun_none hl' with h | ⟨_, _, h⟩
      · rcases hydrate_none (filesOf_wf hd) h with h | h | ⟨x, hx, m, hm⟩
        · exact h (c2 hn)
        · rw [hr] at h; exact hreg h
        · have hx0 : fo0.document = some x := c1 ▸ hx
          obtain ⟨k1, k2⟩ := hw fo0 x h1 hx0
          obtain ⟨k3, k4⟩ := hw' fo1 x hd hx
          have := (C31_succeeds x.html x.nonNumerics x.nonFractions _ _ k1 k2).1 (hdoc x hx0)
          obtain ⟨doc, hdoc'⟩ := (C31_succeeds x.html x.nonNumerics x.nonFractions _ _ k3 k4).2 this
          rw [hdoc'] at hm
          cases hm
      · cases h

/-- The hypotheses hold of two loads of a folder, one of them with its writes in reverse order. -/
example : ∃ fo h fo' h', load inlineDisk diskWorld 3 id = some (.done (some (fo, h))) ∧
    load inlineDisk diskWorld 4 List.reverse = some (.done (some (fo', h'))) ∧
    (∀ ws : List (Disc.Write LinkbaseFile), (id ws).Perm ws) ∧ ∀ ws : List (Disc.Write LinkbaseFile), ws.reverse.Perm ws := by
  have h1 : (match load inlineDisk diskWorld 3 id with | some (.done (some _)) => true | _ => false) = true := by decide +kernel
  have h2 : (match load inlineDisk diskWorld 4 List.reverse with | some (.done (some _)) => true | _ => false) = true := by
    decide +kernel
  split at h1
  · rename_i x hx
    split at h2
    · rename_i y hy
      exact ⟨x.1, x.2, y.1, y.2, hx, hy, fun _ => .refl _, fun _ => List.reverse_perm _⟩
    · cases h2
  · cases h1

/-- A folder with an inline document of two facts, and two ways to schedule its goroutines. -/
def factDisk : Disk := { inlineDisk with doc := fun _ => some (some ⟨docHtml, [docFact "x:A" "c", docFact "x:B" "c"], []⟩) }

/-- The hypotheses of `C110_loadable` hold of it, and the second load ends as well. -/
example : ∃ fo h fo' h', load factDisk { diskWorld with sched₁ := [0, 0, 1, 1] } 3 id = some (.done (some (fo, h))) ∧
    load factDisk { diskWorld with sched₁ := [1, 0, 1, 0] } 4 List.reverse = some (.done (some (fo', h'))) ∧
    (∀ fo x, Disc.discover factDisk.env 3 id = some (.ok fo) → fo.document = some x →
      Document.Complete x.nonNumerics [0, 0, 1, 1] ∧ Document.Complete x.nonFractions []) ∧
    (∀ fo x, Disc.discover factDisk.env 4 List.reverse = some (.ok fo) → fo.document = some x →
      Document.Complete x.nonNumerics [1, 0, 1, 0] ∧ Document.Complete x.nonFractions []) := by
  have h1 : (match load factDisk { diskWorld with sched₁ := [0, 0, 1, 1] } 3 id with
    | some (.done (some _)) => true | _ => false) = true := by decide +kernel
  have h2 : (match load factDisk { diskWorld with sched₁ := [1, 0, 1, 0] } 4 List.reverse with
    | some (.done (some _)) => true | _ => false) = true := by decide +kernel
  have hd : ∀ (fuel : Nat) (sched : List (Disc.Write LinkbaseFile) → List (Disc.Write LinkbaseFile)) (n : Nat × Nat),
      (match Disc.discover factDisk.env fuel sched with
        | some (.ok fo) => fo.document.map fun x => (x.nonNumerics.length, x.nonFractions.length)
        | _ => none) = some n → ∀ fo x, Disc.discover factDisk.env fuel sched = some (.ok fo) → fo.document = some x →
      (x.nonNumerics.length, x.nonFractions.length) = n := by
    intro fuel sched n h fo x hf hx
    rw [hf] at h
    simp only [hx, Option.map_some, Option.some.injEq] at h
    exact h
  split at h1
  · rename_i x hx
    split at h2
    · rename_i y hy
      refine ⟨x.1, x.2, y.1, y.2, hx, hy, fun fo z hf hz => ?_, fun fo z hf hz => ?_⟩
      · have := hd 3 id (2, 0) (by decide +kernel) fo z hf hz
        rw [Prod.mk.injEq] at this
        unfold Document.Complete
        rw [this.1, this.2]
        decide
      · have := hd 4 List.reverse (2, 0) (by decide +kernel) fo z hf hz
        rw [Prod.mk.injEq] at this
        unfold Document.Complete
        rw [this.1, this.2]
        decide
    · cases h2
  · cases h1

end Telefacts
