import Verif.Proof.Document
/-! # C31: inline documents -/
namespace Telefacts
open Telefacts.Document Telefacts.Spec

/-- **C31 (partial).** For every document none of whose inline facts is malformed, and every schedule of the
goroutines: hydration fails iff the prefix of some inline fact is undeclared, and otherwise the maps hold
exactly the names and contexts used by the inline facts, so they do not depend on the schedule.
Missing: documents with a malformed inline fact (`C31_fails`). -/
theorem C31_document_partial (html : List XpathAttr) (np : NameProvider) (h : newNameProvider html = .ok np)
    (nn nf : List InlineFact) (hm : ∀ f, f ∈ nn ∨ f ∈ nf → ¬ Malformed html f) (sched₁ sched₂ : List Nat)
    (hs₁ : Complete nn sched₁) (hs₂ : Complete nf sched₂) :
    ((∃ m, hydrateDocument html nn nf sched₁ sched₂ = .err m) ↔ ∃ f, (f ∈ nn ∨ f ∈ nf) ∧ Undeclared html f) ∧
    ((∀ f, f ∈ nn ∨ f ∈ nf → ¬ Undeclared html f) → ∃ doc, hydrateDocument html nn nf sched₁ sched₂ = .ok doc ∧
      (∀ s x, mapGet doc.names s = some x ↔ ∃ f c, (f ∈ nn ∨ f ∈ nf) ∧ Uses html f s x c) ∧
      (∀ c b, mapGet doc.ctxs c = some b ↔ b = true ∧ ∃ f s x, (f ∈ nn ∨ f ∈ nf) ∧ Uses html f s x c)) := by
  have he₁ : Ended (runGroup np nn ⟨[], []⟩ sched₁) := ended_of_complete _ _ _ _ hs₁
  have he₂ := fun doc (_ : afterGroup (runGroup np nn ⟨[], []⟩ sched₁) = .ok doc) => ended_of_complete np nf doc sched₂ hs₂
  have h0 : Holds html (fun _ => False) ⟨[], []⟩ := by constructor <;> simp [mapGet]
  unfold hydrateDocument
  simp only [h]
  rcases group_outcome h (fun f hf => hm f (.inl hf)) h0 he₁ with ⟨⟨f, hf, hu⟩, m, h1⟩ | ⟨hnu, doc, h1, hd⟩
  · simp only [h1]
    exact ⟨⟨fun _ => ⟨f, .inl hf, hu⟩, fun _ => ⟨m, rfl⟩⟩, fun hn => absurd hu (hn f (.inl hf))⟩
  · simp only [h1]
    rcases group_outcome h (fun f hf => hm f (.inr hf)) hd (he₂ doc h1) with ⟨⟨f, hf, hu⟩, m, h2⟩ | ⟨hnu2, doc2, h2, hd2⟩
    · rw [h2]
      exact ⟨⟨fun _ => ⟨f, .inr hf, hu⟩, fun _ => ⟨m, rfl⟩⟩, fun hn => absurd hu (hn f (.inr hf))⟩
    · rw [h2]
      refine ⟨⟨fun ⟨m, hm⟩ => by simp at hm, ?_⟩, fun _ => ⟨doc2, rfl, ?_⟩⟩
      · rintro ⟨f, hf | hf, hu⟩
        · exact absurd hu (hnu f hf)
        · exact absurd hu (hnu2 f hf)
      · have := holds_congr hd2 (Q := fun f => f ∈ nn ∨ f ∈ nf) (by simp)
        exact ⟨this.1, this.2⟩

/-- As long as there was neither a panic nor an error, every goroutine that came to its end has done its work. -/
def Clean (np : NameProvider) (facts : List InlineFact) (st : St) : Prop :=
  st.threads.map Prod.fst = facts ∧
    (st.crashed = true ∨ st.goErr ≠ none ∨ ∀ t ∈ st.threads, t.2 = .finished → ∃ r, work np t.1 = .ok r)

theorem clean_step {np : NameProvider} {facts : List InlineFact} {st : St} (i : Nat) (h : Clean np facts st) :
    Clean np facts (step np st i) := by
  unfold step
  split
  · exact h
  · rename_i hc
    cases ht : st.threads[i]? with
    | none => exact h
    | some t =>
      obtain ⟨f, pc⟩ := t
      obtain ⟨hl, hge⟩ := List.getElem?_eq_some_iff.1 ht
      have hmap : ∀ pc', (st.threads.set i (f, pc')).map Prod.fst = facts := by
        intro pc'
        rw [← h.1, List.map_set]
        apply List.ext_getElem?
        intro j
        rw [List.getElem?_set]
        split
        · subst_vars
          simp [hl, hge]
        · rfl
      have hmem : ∀ pc', (pc' = .finished → ∃ r, work np f = .ok r) →
          (∀ t ∈ st.threads, t.2 = .finished → ∃ r, work np t.1 = .ok r) →
          ∀ t ∈ st.threads.set i (f, pc'), t.2 = .finished → ∃ r, work np t.1 = .ok r := by
        intro pc' hw ho t htm hf
        rcases List.mem_or_eq_of_mem_set htm with hm | rfl
        · exact ho t hm hf
        · exact hw hf
      cases pc with
      | finished => exact h
      | start =>
        refine ⟨hmap _, ?_⟩
        rcases h.2 with h2 | h2 | h2
        · exact .inl h2
        · exact .inr (.inl h2)
        · cases he : st.goErr with
          | some m => exact .inr (.inl (by simp))
          | none => exact .inr (.inr (hmem _ (by simp) h2))
      | checked =>
        simp only
        cases hw : work np f with
        | panic => exact ⟨h.1, .inl rfl⟩
        | err m => exact ⟨hmap _, .inr (.inl (by simp))⟩
        | ok r =>
          refine ⟨hmap _, ?_⟩
          rcases h.2 with h2 | h2 | h2
          · exact .inl h2
          · exact .inr (.inl h2)
          · exact .inr (.inr (hmem _ (fun _ => ⟨r, hw⟩) h2))

theorem clean_run {np : NameProvider} {facts : List InlineFact} (sched : List Nat) {st : St} (h : Clean np facts st) :
    Clean np facts (sched.foldl (step np) st) := by
  induction sched generalizing st with
  | nil => exact h
  | cons i sched ih => exact ih (clean_step i h)

/-- A group that succeeded has done the work of all its facts. -/
theorem group_ok {np : NameProvider} {facts : List InlineFact} {doc doc' : Doc} {sched : List Nat} (hs : Complete facts sched)
    (h : afterGroup (runGroup np facts doc sched) = .ok doc') : ∀ f ∈ facts, ∃ r, work np f = .ok r := by
  have hc : Clean np facts (runGroup np facts doc sched) :=
    clean_run sched ⟨by simp [Function.comp_def], .inr (.inr (by simp))⟩
  have he := ended_of_complete np facts doc sched hs
  unfold afterGroup at h
  split at h
  · cases h
  · rename_i hcr
    split at h
    · cases h
    · rename_i hne
      rcases he with he | he
      · exact absurd he hcr
      · rcases hc.2 with h2 | h2 | h2
        · exact absurd h2 hcr
        · exact absurd hne h2
        · intro f hf
          rw [← hc.1] at hf
          obtain ⟨t, ht, rfl⟩ := List.mem_map.1 hf
          exact h2 t ht (he t ht)

/-- **C31.** Whether a document is hydrated does not depend on the schedule: it is iff the names of the html element can be read and
each inline fact has a name with declared prefix and a context. -/
theorem C31_succeeds (html : List XpathAttr) (nn nf : List InlineFact) (sched₁ sched₂ : List Nat)
    (hs₁ : Complete nn sched₁) (hs₂ : Complete nf sched₂) :
    (∃ doc, hydrateDocument html nn nf sched₁ sched₂ = .ok doc) ↔
      (∃ np, newNameProvider html = .ok np) ∧ ∀ f, f ∈ nn ∨ f ∈ nf → ∃ s x c, Uses html f s x c := by
  constructor
  · rintro ⟨doc, hd⟩
    unfold hydrateDocument at hd
    split at hd
    · cases hd
    · cases hd
    · rename_i np hnp
      have hw : ∀ f r, work np f = .ok r → ∃ s x c, Uses html f s x c := by
        intro f r hr
        rcases work_cases hnp f with ⟨_, h⟩ | ⟨_, _, h⟩ | ⟨s, x, c, hu, _⟩
        · rw [h] at hr; cases hr
        · rw [h] at hr; cases hr
        · exact ⟨s, x, c, hu⟩
      split at hd
      · cases hd
      · cases hd
      · rename_i doc1 h1
        refine ⟨⟨np, hnp⟩, ?_⟩
        rintro f (hf | hf)
        · obtain ⟨r, hr⟩ := group_ok hs₁ h1 f hf; exact hw f r hr
        · obtain ⟨r, hr⟩ := group_ok hs₂ hd f hf; exact hw f r hr
  · rintro ⟨⟨np, hnp⟩, hu⟩
    have hm : ∀ f, f ∈ nn ∨ f ∈ nf → ¬ Malformed html f := by
      intro f hf hmal
      obtain ⟨s, x, c, h⟩ := hu f hf
      obtain ⟨h1, h2, p, hp, he, hb⟩ := h
      rcases hmal with h | ⟨s', h, hc⟩ | ⟨h, _⟩
      · exact h s h1
      · have := hasVal_unique h h1
        subst this
        rw [he] at hc
        simp at hc
      · exact h c h2
    obtain ⟨doc, hd, _⟩ := (C31_document_partial html np hnp nn nf hm sched₁ sched₂ hs₁ hs₂).2 (by
      intro f hf
      obtain ⟨s, x, c, h⟩ := hu f hf
      exact not_uses_undeclared h)
    exact ⟨doc, hd⟩

def docHtml : List XpathAttr := [⟨⟨"xmlns", "x"⟩, "http://x", "xmlns"⟩]
def docFact (name ctx : String) : InlineFact := [⟨⟨"", "name"⟩, name, ""⟩, ⟨⟨"", "contextRef"⟩, ctx, ""⟩]

example : Complete [docFact "x:A" "c1", docFact "x:B" "c2"] [1, 0, 0, 1] := by unfold Complete; decide

example : hydrateDocument docHtml [docFact "x:A" "c1", docFact "x:B" "c2"] [docFact "x:A" "c2"] [1, 0, 0, 1] [0, 0] =
    .ok ⟨[("x:A", ⟨"http://x", "A"⟩), ("x:B", ⟨"http://x", "B"⟩)], [("c1", true), ("c2", true)]⟩ ∧
    hydrateDocument docHtml [docFact "x:A" "c1", docFact "y:B" "c2"] [] [1, 0, 0, 1] [] =
    .err "prefix does not match a namespace" := by decide +kernel

/-- An inline fact without a context (or prefix) panics in a goroutine, which ends the process; next to a fact
with an undeclared prefix the schedule decides between error and panic. -/
theorem C31_fails : ∃ (html : List XpathAttr) (np : NameProvider) (nn : List InlineFact) (s s' : List Nat) (m : String),
    newNameProvider html = .ok np ∧ (∃ f ∈ nn, Undeclared html f) ∧
    Complete nn s ∧ Complete nn s' ∧
    hydrateDocument html nn [] s [] = .err m ∧ hydrateDocument html nn [] s' [] = .panic := by
  refine ⟨docHtml, ⟨[("x", "http://x")], [("x", "x")]⟩, [docFact "y:B" "c2", [⟨⟨"", "name"⟩, "x:A", ""⟩]],
    [0, 0, 1, 1], [1, 1, 0, 0], "prefix does not match a namespace", by decide +kernel,
    ⟨docFact "y:B" "c2", by simp, "y", "B", by decide, ?_, ?_⟩, ?_, ?_, by decide +kernel, by decide +kernel⟩
  · rw [hasVal_iff]; exact ⟨_, rfl, by decide⟩
  · intro n hb
    have := (lastWith_mem hb).1
    simp [declarations, docHtml] at this
  · unfold Complete; decide
  · unfold Complete; decide

end Telefacts
