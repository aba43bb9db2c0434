import Verif.Props.Network
import Verif.Props.Catalog
import Verif.Props.Query
import Verif.Proof.FnvEndless
/-! # Exactly when units, slugs and calculations are right: C26, C35, C82 -/
namespace Telefacts
open Telefacts.Render Telefacts.Instance Telefacts.Linkbase Telefacts.Query Telefacts.Catalog Telefacts.Spec

/-! ## C26 -/

/-- **C26**, exactly: the denominator of a unit that divides is found as the registry has it if and only if it is called like the numerator,
or the registry has neither the denominator nor, in the namespace of the denominator, the numerator. -/
theorem C26_exact (us : List UtrUnit) (rest : List (List UtrUnit)) (insts : List HInstance) (unitRef : String) (u : HUnit)
    (hu : FirstWith (fun u : HUnit => u.id = unitRef) (insts.flatMap HInstance.units) u) (h1 : u.measure.chars = "")
    (h2 : u.numerator.chars ≠ "") (h3 : u.denominator.chars ≠ "") :
    (∀ m, (findMeasurement (some (mapMeasurements (us :: rest))) insts unitRef).2 = some m ↔ EntryOf us u.denominator.name m) ↔
      u.denominator.name.loc = u.numerator.name.loc ∨
      ((∀ m, ¬ EntryOf us u.denominator.name m) ∧ ∀ m, ¬ EntryOf us ⟨u.denominator.name.space, u.numerator.name.loc⟩ m) := by
  have hp := (((C26_measurement_partial us rest insts unitRef).2 u hu _ _ rfl).2 h1 h2 h3).2.1
  constructor
  · intro h
    by_cases hl : u.denominator.name.loc = u.numerator.name.loc
    · exact Or.inl hl
    refine Or.inr ⟨?_, ?_⟩
    · intro m hm
      have h' := (hp m).1 ((h m).2 hm)
      obtain ⟨_, _, hw⟩ := hm
      obtain ⟨_, _, hw'⟩ := h'
      exact hl ((lastWith_mem hw).2.2.symm.trans (lastWith_mem hw').2.2)
    · intro m hm
      have h' := (h m).1 ((hp m).2 hm)
      obtain ⟨_, _, hw⟩ := hm
      obtain ⟨_, _, hw'⟩ := h'
      exact hl ((lastWith_mem hw').2.2.symm.trans (lastWith_mem hw).2.2)
  · rintro (hl | ⟨h1, h2⟩) m
    · have h := hp m
      rw [← hl] at h
      exact h
    · refine (hp m).trans ?_
      exact ⟨fun h => absurd h (h2 m), fun h => absurd h (h1 m)⟩

/-- **C26 fails** for every unit that divides two things with different names of which the registry has the second: its denominator is not
found, or another one is. -/
theorem C26_all_fails (us : List UtrUnit) (rest : List (List UtrUnit)) (insts : List HInstance) (unitRef : String) (u : HUnit)
    (hu : FirstWith (fun u : HUnit => u.id = unitRef) (insts.flatMap HInstance.units) u) (h1 : u.measure.chars = "")
    (h2 : u.numerator.chars ≠ "") (h3 : u.denominator.chars ≠ "") (hl : u.denominator.name.loc ≠ u.numerator.name.loc) (m : Measurement)
    (hm : EntryOf us u.denominator.name m) : (findMeasurement (some (mapMeasurements (us :: rest))) insts unitRef).2 ≠ some m := by
  have hp := (((C26_measurement_partial us rest insts unitRef).2 u hu _ _ rfl).2 h1 h2 h3).2.1
  intro h
  have h' := (hp m).1 h
  obtain ⟨_, _, hw⟩ := hm
  obtain ⟨_, _, hw'⟩ := h'
  exact hl ((lastWith_mem hw).2.2.symm.trans (lastWith_mem hw').2.2)

/-! ## C35 -/

/-- **C35 fails** for every relationship set with a title: another one, whose role has the first character of the title at its end, has the
same slug. -/
theorem C35_all_fails (e : String) (r : RSet) (h : r.title ≠ "") :
    ∃ r' : RSet, r'.roleURI ≠ r.roleURI ∧ slug e r'.roleURI r'.title = slug e r.roleURI r.title := by
  cases ht : r.title.toList with
  | nil =>
    exact absurd (String.toList_injective (by rw [ht]; rfl)) h
  | cons c cs =>
    refine ⟨⟨String.ofList cs, r.roleURI ++ String.singleton c⟩, ?_, ?_⟩
    · intro he
      have := congrArg (fun s : String => s.toList.length) he
      simp at this
    · unfold slug
      congr 1
      apply String.toList_injective
      simp [String.toList_append, ht]

/-- **C35 fails** whatever is put between the parts: among endlessly many role URIs there are two that have the same slug, because there are
no more than 2^128 slugs. -/
theorem C35_endless_fails (e t : String) (u : Nat → String) : ∃ m n, m ≠ n ∧ slug e (u m) t = slug e (u n) t :=
  fnvHex_endless (fun n => e ++ u n ++ t)

/-! ## C82 -/

/-- The label packs that are collected while items are ranged over: those of the contributions, of the item and of its contexts. -/
inductive PacksOf (f : Folder) (entity : String) (m : GoMap String (List CStruct)) : GoMap String (List CStruct) → List LabelPack → Prop
  | nil : PacksOf f entity m [] []
  | snoc (es packs e cs rel) : PacksOf f entity m es packs → cs = e.2.filterMap (contributing f m) →
      getRelevantContexts f entity (cs.map Contributing.href ++ [e.1]) = .done rel →
      PacksOf f entity m (es ++ [e]) (packs ++ cs.map Contributing.label ++ [f.label e.1] ++ rel.labels)

theorem reoffer_offered {packs : List LabelPack} (h : packs ≠ []) (roles : List LabelRole) (langs : List Lang) :
    reoffer packs roles langs = offered packs := by
  unfold reoffer offered
  cases hr : reduce packs with
  | some p => rfl
  | none =>
    unfold reduce at hr
    split at hr
    · exact absurd rfl h
    · simp at hr
    · simp at hr

/-- The loop over the entries, with what it has collected. -/
structure Collects {Φ : Type} (f : Folder) (env : GridEnv Φ) (entity : String) (m es : GoMap String (List CStruct)) (st : CalcState Φ) :
    Prop where
  packs : PacksOf f entity m es st.packs
  langs : st.langs = (offered st.packs).2
  items : ∀ es1 e es2, es = es1 ++ e :: es2 → (f.concept e.1).isSome →
    ∃ i ∈ st.items, i.href = e.1 ∧ ∃ rel packs, PacksOf f entity m (es1 ++ [e]) packs ∧
      getRelevantContexts f entity (i.contributing.map Contributing.href ++ [i.href]) = .done rel ∧
      i.quadrant = getFactualQuadrant (env.source (offered packs).2) (i.contributing.map Contributing.href ++ [i.href]) rel.contexts

theorem collects_loop {Φ : Type} (f : Folder) (env : GridEnv Φ) (entity : String) (m : GoMap String (List CStruct)) :
    ∀ (todo done : GoMap String (List CStruct)) (st st' : CalcState Φ), Collects f env entity m done st →
      summationLoop f env entity m st todo = .done st' → Collects f env entity m (done ++ todo) st' := by
  intro todo
  induction todo with
  | nil =>
    intro done st st' hc h
    rw [summationLoop] at h
    cases h
    simpa using hc
  | cons e es ih =>
    intro done st st' hc h
    rw [summationLoop] at h
    cases hs : summationStep f env entity m st e with
    | panic => rw [hs] at h; simp [Run.andThen] at h
    | loop => rw [hs] at h; simp [Run.andThen] at h
    | done st1 =>
      rw [hs] at h
      simp only [Run.andThen] at h
      have := ih (done ++ [e]) st1 st' ?_ h
      · simpa using this
      unfold summationStep at hs
      simp only at hs
      cases hr : getRelevantContexts f entity ((e.2.filterMap (contributing f m)).map Contributing.href ++ [e.1]) with
      | panic => rw [hr] at hs; simp [Run.andThen] at hs
      | loop => rw [hr] at hs; simp [Run.andThen] at hs
      | done rel =>
        rw [hr] at hs
        simp only [Run.andThen] at hs
        have hp := PacksOf.snoc done st.packs e _ rel hc.packs rfl hr
        have hne : st.packs ++ (e.2.filterMap (contributing f m)).map Contributing.label ++ [f.label e.1] ++ rel.labels ≠ [] := by simp
        rw [reoffer_offered hne] at hs
        have split : ∀ es1 e' es2, done ++ [e] = es1 ++ e' :: es2 → (es1 = done ∧ e' = e ∧ es2 = []) ∨ ∃ t, es2 = t ++ [e] ∧ done = es1 ++ e' :: t := by
          intro es1 e' es2 heq
          rcases List.eq_nil_or_concat es2 with rfl | ⟨t, x, rfl⟩
          · obtain ⟨h1, h2⟩ := List.append_inj' heq rfl
            exact Or.inl ⟨h1.symm, by simpa using h2.symm, rfl⟩
          · rw [List.concat_eq_append, ← List.cons_append, ← List.append_assoc] at heq
            obtain ⟨h1, h2⟩ := List.append_inj' heq rfl
            simp only [List.cons.injEq, and_true] at h2
            exact Or.inr ⟨t, by rw [List.concat_eq_append, h2], h1⟩
        cases hk : f.concept e.1 with
        | none =>
          rw [hk] at hs
          cases hs
          refine ⟨hp, rfl, ?_⟩
          intro es1 e' es2 heq hsome
          rcases split es1 e' es2 heq with ⟨rfl, rfl, rfl⟩ | ⟨t, rfl, h1⟩
          · rw [hk] at hsome
            simp at hsome
          · exact hc.items es1 e' t h1 hsome
        | some concept =>
          rw [hk] at hs
          simp only at hs
          cases hg : getMemberGrid env.memberOrder rel.contexts rel.segmentTrees rel.scenarioTrees with
          | panic => rw [hg] at hs; simp at hs
          | loop => rw [hg] at hs; simp at hs
          | done g =>
            rw [hg] at hs
            cases hs
            refine ⟨hp, rfl, ?_⟩
            intro es1 e' es2 heq hsome
            rcases split es1 e' es2 heq with ⟨rfl, rfl, rfl⟩ | ⟨t, rfl, h1⟩
            · exact ⟨_, List.mem_append_right _ (List.mem_singleton.2 rfl), rfl, rel, _, hp, hr, rfl⟩
            · obtain ⟨i, hi, rest⟩ := hc.items es1 e' t h1 hsome
              exact ⟨i, List.mem_append_left _ hi, rest⟩

/-- **C82**, exactly: the facts of a summation item are rendered in the languages that the labels of the items ranged over so far offer,
itself included; what is offered in the end are the languages of all. -/
theorem C82_exact {Φ : Type} (f : Folder) (env : GridEnv Φ) (entity role : String) (lb : Lb CArc) (k : Link CArc)
    (items : List (SummationItem Φ)) (roles : List LabelRole) (langs : List Lang)
    (h : summationItems f env entity role lb k = .done (items, roles, langs)) :
    (∃ packs, PacksOf f entity (calcMap role lb k.arcs) (env.mapOrder (calcMap role lb k.arcs)) packs ∧ langs = (offered packs).2) ∧
    ∀ es1 e es2, env.mapOrder (calcMap role lb k.arcs) = es1 ++ e :: es2 → (f.concept e.1).isSome →
      ∃ i ∈ items, i.href = e.1 ∧ ∃ rel packs, PacksOf f entity (calcMap role lb k.arcs) (es1 ++ [e]) packs ∧
        getRelevantContexts f entity (i.contributing.map Contributing.href ++ [i.href]) = .done rel ∧
        i.quadrant = getFactualQuadrant (env.source (offered packs).2) (i.contributing.map Contributing.href ++ [i.href]) rel.contexts := by
  unfold summationItems at h
  simp only at h
  cases hs : summationLoop f env entity (calcMap role lb k.arcs) ⟨[], [], [], []⟩ (env.mapOrder (calcMap role lb k.arcs)) with
  | panic => rw [hs] at h; simp [Run.andThen] at h
  | loop => rw [hs] at h; simp [Run.andThen] at h
  | done st =>
    rw [hs] at h
    simp only [Run.andThen] at h
    cases h
    have hc := collects_loop f env entity _ _ [] _ _ ⟨.nil, rfl, by intro es1 e es2 h; simp at h⟩ hs
    rw [List.nil_append] at hc
    refine ⟨⟨st.packs, hc.packs, hc.langs⟩, ?_⟩
    intro es1 e es2 heq hsome
    obtain ⟨i, hi, rest⟩ := hc.items es1 e es2 heq hsome
    exact ⟨i, (mem_stableSort _).2 hi, rest⟩

/-- The packs of a prefix are among the packs. -/
theorem PacksOf.ne {f : Folder} {entity : String} {m es : GoMap String (List CStruct)} {packs : List LabelPack} (h : PacksOf f entity m es packs)
    (he : es ≠ []) : packs ≠ [] := by
  cases h with
  | nil => exact absurd rfl he
  | snoc => simp

/-- **C82**, partially: if all labels of folder and contexts have texts in the same roles and languages, then the facts of every item are
rendered in the languages offered. Missing: other labels (`C82_fails`). -/
theorem C82_uniform_partial {Φ : Type} (f : Folder) (env : GridEnv Φ) (entity role : String) (lb : Lb CArc) (k : Link CArc)
    (items : List (SummationItem Φ)) (roles : List LabelRole) (langs : List Lang)
    (h : summationItems f env entity role lb k = .done (items, roles, langs))
    (U : String → String → Prop) (hwf : ∀ es packs, PacksOf f entity (calcMap role lb k.arcs) es packs → ∀ p ∈ packs,
      PackWF p ∧ ∀ r l, HasText p r l ↔ U r l) (es1 es2 : GoMap String (List CStruct)) (e : String × List CStruct)
    (he : env.mapOrder (calcMap role lb k.arcs) = es1 ++ e :: es2) (hc : (f.concept e.1).isSome) :
    ∃ i ∈ items, i.href = e.1 ∧ ∃ rel own, (∀ l, l ∈ own ↔ l ∈ langs) ∧
      getRelevantContexts f entity (i.contributing.map Contributing.href ++ [i.href]) = .done rel ∧
      i.quadrant = getFactualQuadrant (env.source own) (i.contributing.map Contributing.href ++ [i.href]) rel.contexts := by
  obtain ⟨⟨all, ha, rfl⟩, hi⟩ := C82_exact f env entity role lb k items roles langs h
  obtain ⟨i, h1, h2, rel, packs, h3, h4, h5⟩ := hi es1 e es2 he hc
  have key : ∀ es ps, PacksOf f entity (calcMap role lb k.arcs) es ps → es ≠ [] → ∀ l, l ∈ (offered ps).2 ↔ ∃ r, U r l := by
    intro es ps hps hne l
    rw [offered_langs ps (fun p hp => (hwf es ps hps p hp).1)]
    constructor
    · rintro ⟨r, p, hl, ht⟩
      exact ⟨r, ((hwf es ps hps p (lastWith_mem hl).1).2 r l).1 ht⟩
    · rintro ⟨r, hr⟩
      obtain ⟨p, hp⟩ := List.exists_mem_of_ne_nil _ (hps.ne hne)
      have ht := ((hwf es ps hps p hp).2 r l).2 hr
      obtain ⟨q, hq⟩ := lastWith_exists (fun p => Render.HasRole p r) ⟨p, hp, by obtain ⟨x, hx, _⟩ := ht; exact ⟨x, hx⟩⟩
      exact ⟨r, q, hq, ((hwf es ps hps q (lastWith_mem hq).1).2 r l).2 hr⟩
  refine ⟨i, h1, h2, rel, (offered packs).2, ?_, h4, h5⟩
  intro l
  rw [key _ _ h3 (by simp), key _ _ ha (by rw [he]; simp)]

/-- A folder without facts, whose labels are all alike. -/
def evenFolder : Folder := { calcFolder with insts := [], label := fun h => [(Default, [(PureLabel, h)])] }

/-- Non-vacuity of `C82_exact` and `C82_uniform_partial`: a run that ends, with two entries, and labels that are alike. -/
example : (match summationItems evenFolder calcEnv "s/1" "r" calcLb (calcLb.links.headD ⟨"", [], []⟩) with
      | .done (items, _) => items.map SummationItem.href | _ => []) = ["x#T1", "x#T2"] ∧
    (calcMap "r" calcLb (calcLb.links.headD ⟨"", [], []⟩).arcs).map Prod.fst = ["x#T1", "x#T2"] ∧
    ∀ m es packs, PacksOf evenFolder "s/1" m es packs → ∀ p ∈ packs,
      PackWF p ∧ ∀ r l, HasText p r l ↔ (r = "Default" ∧ l = "Unlabelled") := by
  refine ⟨by decide +kernel, by decide +kernel, ?_⟩
  have one : ∀ h, PackWF (evenFolder.label h) ∧ ∀ r l, HasText (evenFolder.label h) r l ↔ (r = "Default" ∧ l = "Unlabelled") := by
    intro h
    refine ⟨⟨?_, ?_⟩, ?_⟩
    · simp [evenFolder, MapWF, mapKeys]
    · intro e he
      simp only [evenFolder, List.mem_singleton] at he
      subst he
      simp [MapWF, mapKeys]
    · intro r l
      simp only [evenFolder, HasText, List.mem_singleton, Prod.mk.injEq]
      constructor
      · rintro ⟨_, ⟨rfl, rfl⟩, t, ht⟩
        simp only [List.mem_singleton, Prod.mk.injEq] at ht
        exact ⟨rfl, ht.1⟩
      · rintro ⟨rfl, rfl⟩
        exact ⟨_, ⟨rfl, rfl⟩, h, by simp [PureLabel]⟩
  intro m es packs hp
  induction hp with
  | nil => simp
  | snoc es packs e cs rel _ hcs hrel ih =>
    have : rel.labels = [] := by
      unfold getRelevantContexts at hrel
      have hall : ∀ hrefs, allContexts "s/1" hrefs evenFolder.insts = .done [] := fun _ => rfl
      simp only [hall, Run.andThen] at hrel
      split at hrel <;> cases hrel <;> rfl
    intro p hpm
    simp only [this, List.append_nil, List.mem_append, List.mem_singleton] at hpm
    rcases hpm with (h | h) | h
    · exact ih p h
    · obtain ⟨c, hc, rfl⟩ := List.mem_map.1 h
      rw [hcs] at hc
      obtain ⟨x, _, hx⟩ := List.mem_filterMap.1 hc
      unfold contributing at hx
      split at hx
      · simp at hx
      · cases hx
        exact one _
    · rw [h]
      exact one _

/-- Non-vacuity of `C26_exact` and `C26_all_fails`. -/
example : ∃ (us : List UtrUnit) (insts : List HInstance) (u : HUnit) (m : Measurement),
    FirstWith (fun u : HUnit => u.id = "usdPerShare") (insts.flatMap HInstance.units) u ∧ u.measure.chars = "" ∧
    u.numerator.chars ≠ "" ∧ u.denominator.chars ≠ "" ∧ u.denominator.name.loc ≠ u.numerator.name.loc ∧ EntryOf us u.denominator.name m := by
  refine ⟨[utrUnit "iso" "USD" "Dollar", utrUnit "xbrli" "shares" "Share"], [perShare],
    ⟨"usdPerShare", .zero, ⟨⟨"iso", "USD"⟩, "iso4217:USD"⟩, ⟨⟨"xbrli", "shares"⟩, "xbrli:shares"⟩⟩,
    measurement "xbrli" "shares" "Share", ⟨[], _, rfl, rfl, by simp⟩, rfl, by decide, by decide, by decide, ?_⟩
  rw [← queryUTR_iff _ []]
  decide +kernel

end Telefacts
