import Verif.Props.Document
/-!
# Exactly what the hydration of an inline document can come to (C31)
-/
namespace Telefacts
open Telefacts.Document Telefacts.Spec

/-- What a group of goroutines can leave behind. -/
structure Blame (html : List XpathAttr) (facts : List InlineFact) (st : St) : Prop where
  own : ∀ t ∈ st.threads, t.1 ∈ facts
  crash : st.crashed = true → ∃ f ∈ facts, Malformed html f
  error : st.goErr.isSome → ∃ f ∈ facts, Undeclared html f

theorem work_panic {html : List XpathAttr} {np : NameProvider} (h : newNameProvider html = .ok np) {f : InlineFact}
    (hw : work np f = .panic) : Malformed html f := by
  rcases work_cases h f with ⟨hm, _⟩ | ⟨m, _, h2⟩ | ⟨s, x, c, _, h2⟩
  · exact hm
  · rw [h2] at hw; cases hw
  · rw [h2] at hw; cases hw

theorem work_err {html : List XpathAttr} {np : NameProvider} (h : newNameProvider html = .ok np) {f : InlineFact} {m : String}
    (hw : work np f = .err m) : Undeclared html f := by
  rcases work_cases h f with ⟨_, h2⟩ | ⟨m, hu, _⟩ | ⟨s, x, c, _, h2⟩
  · rw [h2] at hw; cases hw
  · exact hu
  · rw [h2] at hw; cases hw

theorem malformed_panics {html : List XpathAttr} {np : NameProvider} (h : newNameProvider html = .ok np) {f : InlineFact}
    (hm : Malformed html f) : work np f = .panic := by
  rcases work_cases h f with ⟨_, h2⟩ | ⟨m, hu, _⟩ | ⟨s, x, c, hu, _⟩
  · exact h2
  · exfalso
    obtain ⟨p, l, hp, hv, hb⟩ := hu
    rcases hm with hm | ⟨s, hs, hn⟩ | ⟨_, p', l', n, hp', hv', hb'⟩
    · exact hm _ hv
    · have := hasVal_unique hs hv
      subst this
      exact hn (by simp)
    · obtain ⟨rfl, rfl⟩ := prefix_unique hp hp' (hasVal_unique hv hv')
      exact hb _ hb'
  · exfalso
    obtain ⟨h1, h2, p, hp, he, hb⟩ := hu
    rcases hm with hm | ⟨s', hs, hn⟩ | ⟨hc, _⟩
    · exact hm _ h1
    · have := hasVal_unique hs h1
      subst this
      rw [he] at hn
      exact hn (by simp)
    · exact hc _ h2

theorem undeclared_errs {html : List XpathAttr} {np : NameProvider} (h : newNameProvider html = .ok np) {f : InlineFact}
    (hu : Undeclared html f) : ∃ m, work np f = .err m := by
  rcases work_cases h f with ⟨hm, _⟩ | ⟨m, _, h2⟩ | ⟨s, x, c, hs, _⟩
  · exfalso
    obtain ⟨p, l, hp, hv, hb⟩ := hu
    rcases hm with hm | ⟨s, hs, hn⟩ | ⟨_, p', l', n, hp', hv', hb'⟩
    · exact hm _ hv
    · have := hasVal_unique hs hv
      subst this
      exact hn (by simp)
    · obtain ⟨rfl, rfl⟩ := prefix_unique hp hp' (hasVal_unique hv hv')
      exact hb _ hb'
  · exact ⟨m, h2⟩
  · exact absurd hu (not_uses_undeclared hs)

theorem blame_step {html : List XpathAttr} {np : NameProvider} (h : newNameProvider html = .ok np) {facts : List InlineFact} {st : St} (i : Nat)
    (hb : Blame html facts st) : Blame html facts (step np st i) := by
  unfold step
  split
  · exact hb
  · have own : ∀ t pc, t ∈ st.threads → ∀ u ∈ st.threads.set i (t.1, pc), u.1 ∈ facts := by
      intro t pc ht u hu
      rcases List.mem_or_eq_of_mem_set hu with hu | rfl
      · exact hb.own u hu
      · exact hb.own t ht
    split
    · exact hb
    · exact hb
    · rename_i f hf
      exact ⟨own (f, .start) _ (List.mem_of_getElem? hf), hb.crash, hb.error⟩
    · rename_i f hf
      have hmem := List.mem_of_getElem? hf
      split
      · rename_i hw
        exact ⟨hb.own, fun _ => ⟨f, hb.own _ hmem, work_panic h hw⟩, hb.error⟩
      · rename_i hw
        exact ⟨own (f, .checked) _ hmem, hb.crash, fun _ => ⟨f, hb.own _ hmem, work_err h hw⟩⟩
      · exact ⟨own (f, .checked) _ hmem, hb.crash, hb.error⟩

theorem blame_run {html : List XpathAttr} {np : NameProvider} (h : newNameProvider html = .ok np) {facts : List InlineFact} (doc : Doc)
    (sched : List Nat) : Blame html facts (runGroup np facts doc sched) := by
  unfold runGroup
  have h0 : Blame html facts ⟨facts.map fun f => (f, .start), none, false, doc⟩ :=
    ⟨by simp, by simp, by simp⟩
  revert h0
  generalize (⟨facts.map fun f => (f, .start), none, false, doc⟩ : St) = st
  induction sched generalizing st with
  | nil => exact fun h0 => h0
  | cons i l ih => exact fun h0 => ih _ (blame_step h i h0)

/-- Fact `i` takes its two turns first, then all take theirs. -/
def firstThenAll (n i : Nat) : List Nat := i :: i :: (List.range n ++ List.range n)

theorem firstThenAll_complete (facts : List InlineFact) (i : Nat) : Complete facts (firstThenAll facts.length i) := by
  intro j hj
  have h1 : 1 ≤ (List.range facts.length).count j := List.one_le_count_iff.2 (List.mem_range.2 hj)
  have h2 := List.sublist_append_right [i, i] (List.range facts.length ++ List.range facts.length)
  have h3 := h2.count_le j
  rw [List.count_append] at h3
  exact Nat.le_trans (by omega) h3

theorem group_panics {html : List XpathAttr} {np : NameProvider} (h : newNameProvider html = .ok np) (facts : List InlineFact) (doc : Doc) :
    (∃ sched, Complete facts sched ∧ afterGroup (runGroup np facts doc sched) = .panic) ↔ ∃ f ∈ facts, Malformed html f := by
  constructor
  · rintro ⟨sched, _, hp⟩
    refine (blame_run h doc sched).crash ?_
    unfold afterGroup at hp
    split at hp
    · assumption
    · split at hp <;> cases hp
  · rintro ⟨f, hf, hm⟩
    obtain ⟨i, hi, rfl⟩ := List.getElem_of_mem hf
    refine ⟨_, firstThenAll_complete facts i, ?_⟩
    have hc : (runGroup np facts doc (firstThenAll facts.length i)).crashed = true := by
      unfold runGroup firstThenAll
      rw [List.foldl_cons, List.foldl_cons]
      apply foldl_crashed
      simp [step, hi, malformed_panics h hm]
    simp [afterGroup, hc]

/-- After an error goroutines that have not begun do nothing. -/
theorem quiet_step (np : NameProvider) (st : St) (i : Nat) (hc : st.crashed = false) (m : String) (he : st.goErr = some m)
    (hq : ∀ t ∈ st.threads, t.2 ≠ .checked) :
    (step np st i).crashed = false ∧ (step np st i).goErr = some m ∧ ∀ t ∈ (step np st i).threads, t.2 ≠ .checked := by
  unfold step
  rw [if_neg (by simp [hc])]
  split
  · exact ⟨hc, he, hq⟩
  · exact ⟨hc, he, hq⟩
  · refine ⟨hc, he, ?_⟩
    intro t ht
    rcases List.mem_or_eq_of_mem_set ht with ht | rfl
    · exact hq t ht
    · simp [he]
  · rename_i f hf
    exact absurd rfl (hq _ (List.mem_of_getElem? hf))

theorem quiet_run (np : NameProvider) (sched : List Nat) (st : St) (hc : st.crashed = false) (m : String) (he : st.goErr = some m)
    (hq : ∀ t ∈ st.threads, t.2 ≠ .checked) :
    (sched.foldl (step np) st).crashed = false ∧ (sched.foldl (step np) st).goErr = some m := by
  induction sched generalizing st with
  | nil => exact ⟨hc, he⟩
  | cons i l ih =>
    obtain ⟨h1, h2, h3⟩ := quiet_step np st i hc m he hq
    exact ih _ h1 h2 h3

theorem group_errs {html : List XpathAttr} {np : NameProvider} (h : newNameProvider html = .ok np) (facts : List InlineFact) (doc : Doc) :
    (∃ sched, Complete facts sched ∧ ∃ m, afterGroup (runGroup np facts doc sched) = .err m) ↔ ∃ f ∈ facts, Undeclared html f := by
  constructor
  · rintro ⟨sched, _, m, hp⟩
    refine (blame_run h doc sched).error ?_
    unfold afterGroup at hp
    split at hp
    · cases hp
    · split at hp
      · rename_i hs; rw [hs]; rfl
      · cases hp
  · rintro ⟨f, hf, hu⟩
    obtain ⟨i, hi, rfl⟩ := List.getElem_of_mem hf
    obtain ⟨m, hw⟩ := undeclared_errs h hu
    refine ⟨_, firstThenAll_complete facts i, m, ?_⟩
    have hst : ∃ st : St, runGroup np facts doc (firstThenAll facts.length i) =
        (List.range facts.length ++ List.range facts.length).foldl (step np) st ∧ st.crashed = false ∧ st.goErr = some m ∧
        ∀ t ∈ st.threads, t.2 ≠ .checked := by
      refine ⟨⟨((facts.map fun f => (f, Pc.start)).set i (facts[i], .checked)).set i (facts[i], .finished), some m, false, doc⟩, ?_, rfl, rfl, ?_⟩
      · unfold runGroup firstThenAll
        rw [List.foldl_cons, List.foldl_cons]
        congr 1
        simp [step, hi, hw]
      · intro t ht
        simp only [List.set_set] at ht
        rcases List.mem_or_eq_of_mem_set ht with ht | rfl
        · obtain ⟨g, _, rfl⟩ := List.mem_map.1 ht
          simp
        · simp
    obtain ⟨st, h1, h2, h3, h4⟩ := hst
    obtain ⟨h5, h6⟩ := quiet_run np (List.range facts.length ++ List.range facts.length) st h2 m h3 h4
    rw [h1]
    simp only [afterGroup, h5, h6, Bool.false_eq_true, if_false]

theorem group_fine {html : List XpathAttr} {np : NameProvider} (h : newNameProvider html = .ok np) (facts : List InlineFact) {sched : List Nat}
    (hs : Complete facts sched) :
    (∃ doc, afterGroup (runGroup np facts ⟨[], []⟩ sched) = .ok doc) ↔ ∀ f ∈ facts, ∃ s x c, Uses html f s x c := by
  have h1 := C31_succeeds html facts [] sched [] hs (by intro i hi; simp at hi)
  have h2 : (∃ doc, hydrateDocument html facts [] sched [] = .ok doc) ↔ ∃ doc, afterGroup (runGroup np facts ⟨[], []⟩ sched) = .ok doc := by
    unfold hydrateDocument
    simp only [h]
    have he : ∀ doc, afterGroup (runGroup np [] doc []) = .ok doc := fun _ => rfl
    generalize afterGroup (runGroup np facts ⟨[], []⟩ sched) = r
    cases r <;> simp [he]
  rw [← h2, h1]
  simp [h]

/-- **C31**, exactly: what the hydration of a document can come to. It panics on some schedule if and only if an inline fact of the first
kind is malformed, or all facts of the first kind are fine and one of the second kind is malformed; likewise it fails on some schedule if and
only if such a fact has an undeclared prefix. So with facts of both sorts among those of one kind the schedule decides. -/
theorem C31_exact (html : List XpathAttr) (np : NameProvider) (h : newNameProvider html = .ok np) (nn nf : List InlineFact) :
    ((∃ s₁ s₂, Complete nn s₁ ∧ Complete nf s₂ ∧ hydrateDocument html nn nf s₁ s₂ = .panic) ↔
      (∃ f ∈ nn, Malformed html f) ∨ ((∀ f ∈ nn, ∃ s x c, Uses html f s x c) ∧ ∃ f ∈ nf, Malformed html f)) ∧
    ((∃ s₁ s₂, Complete nn s₁ ∧ Complete nf s₂ ∧ ∃ m, hydrateDocument html nn nf s₁ s₂ = .err m) ↔
      (∃ f ∈ nn, Undeclared html f) ∨ ((∀ f ∈ nn, ∃ s x c, Uses html f s x c) ∧ ∃ f ∈ nf, Undeclared html f)) := by
  have all : ∀ facts : List InlineFact, Complete facts (firstThenAll facts.length 0) := fun facts => firstThenAll_complete facts 0
  unfold hydrateDocument
  simp only [h]
  constructor
  · constructor
    · rintro ⟨s₁, s₂, h1, h2, hp⟩
      split at hp
      · rename_i hg
        exact .inl ((group_panics h nn ⟨[], []⟩).1 ⟨s₁, h1, hg⟩)
      · cases hp
      · rename_i doc hg
        exact .inr ⟨(group_fine h nn h1).1 ⟨doc, hg⟩, (group_panics h nf doc).1 ⟨s₂, h2, hp⟩⟩
    · rintro (hm | ⟨hu, hm⟩)
      · obtain ⟨s₁, h1, hg⟩ := (group_panics h nn ⟨[], []⟩).2 hm
        exact ⟨s₁, _, h1, all nf, by rw [hg]⟩
      · obtain ⟨doc, hd⟩ := (group_fine h nn (all nn)).2 hu
        obtain ⟨s₂, h2, hg⟩ := (group_panics h nf doc).2 hm
        exact ⟨_, s₂, all nn, h2, by rw [hd]; exact hg⟩
  · constructor
    · rintro ⟨s₁, s₂, h1, h2, m, hp⟩
      split at hp
      · cases hp
      · rename_i m' hg
        exact .inl ((group_errs h nn ⟨[], []⟩).1 ⟨s₁, h1, m', hg⟩)
      · rename_i doc hg
        exact .inr ⟨(group_fine h nn h1).1 ⟨doc, hg⟩, (group_errs h nf doc).1 ⟨s₂, h2, m, hp⟩⟩
    · rintro (hm | ⟨hu, hm⟩)
      · obtain ⟨s₁, h1, m, hg⟩ := (group_errs h nn ⟨[], []⟩).2 hm
        exact ⟨s₁, _, h1, all nf, m, by rw [hg]⟩
      · obtain ⟨doc, hd⟩ := (group_fine h nn (all nn)).2 hu
        obtain ⟨s₂, h2, m, hg⟩ := (group_errs h nf doc).2 hm
        exact ⟨_, s₂, all nn, h2, m, by rw [hd]; exact hg⟩

/-- Non-vacuity: facts of both sorts. -/
example : newNameProvider docHtml = .ok ⟨[("x", "http://x")], [("x", "x")]⟩ ∧ Malformed docHtml [⟨⟨"", "name"⟩, "A", ""⟩] ∧
    Malformed docHtml [] := by
  refine ⟨by decide +kernel, .inr (.inl ⟨"A", ?_, by decide⟩), .inl fun s hs => ?_⟩
  · rw [hasVal_iff]; exact ⟨_, rfl, rfl⟩
  · rw [hasVal_iff] at hs; simp [findXpathAttr] at hs

end Telefacts
