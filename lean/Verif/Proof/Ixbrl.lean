import Verif.Spec.Ixbrl
import Verif.Props.Document
/-! # Lemmas on inline documents as element trees -/
namespace Telefacts.Ixbrl
open Telefacts.Document Telefacts.Hydrate

theorem elem_cons {d : Dom} {ds : List Dom} {x : Dom} : Elem (d :: ds) x ↔ x = d ∨ Elem d.kids x ∨ Elem ds x := by
  constructor
  · intro h
    induction h with
    | root h =>
      rcases List.mem_cons.1 h with rfl | h
      · exact .inl rfl
      · exact .inr (.inr (.root h))
    | child _ hy ih =>
      rcases ih with rfl | h | h
      · exact .inr (.inl (.root hy))
      · exact .inr (.inl (.child h hy))
      · exact .inr (.inr (.child h hy))
  · rintro (rfl | h | h)
    · exact .root (by simp)
    · induction h with
      | root h => exact .child (.root (by simp)) h
      | child _ hy ih => exact .child ih hy
    · induction h with
      | root h => exact .root (by simp [h])
      | child _ hy ih => exact .child ih hy

theorem elem_nil {x : Dom} : ¬ Elem [] x := by
  intro h
  induction h with
  | root h => simp at h
  | child _ _ ih => exact ih

mutual
theorem mem_nodes : ∀ (d x : Dom), x ∈ nodes d ↔ x = d ∨ Elem d.kids x
  | .mk n a ks, x => by rw [nodes, List.mem_cons, mem_forest ks x]; rfl
theorem mem_forest : ∀ (ds : List Dom) (x : Dom), x ∈ forest ds ↔ Elem ds x
  | [], x => by rw [forest]; simp [elem_nil]
  | d :: ds, x => by rw [forest, List.mem_append, mem_nodes d x, mem_forest ds x, elem_cons, or_assoc]
end

theorem first_sound {ds : List Dom} {x : Dom} (h : First ds x) : html ds = some x := by
  unfold html
  induction h with
  | @here x ds hx =>
    obtain ⟨n, a, ks⟩ := x
    rw [forest, nodes, List.cons_append, List.find?_cons_of_pos (by simpa using hx)]
  | @inner y ds x hy _ ih =>
    obtain ⟨n, a, ks⟩ := y
    rw [forest, nodes, List.cons_append, List.find?_cons_of_neg (by simpa using hy), List.find?_append]
    simp only [Dom.kids] at ih
    rw [ih]; rfl
  | @after y ds x hy _ ih =>
    rw [forest, List.find?_append]
    have : (nodes y).find? (fun d => decide (d.name.loc = "html")) = none := by
      rw [List.find?_eq_none]
      intro e he
      have : e.name.loc ≠ "html" := hy e (by rw [elem_cons]; rcases (mem_nodes y e).1 he with h | h <;> simp [h])
      simpa using this
    rw [this, ih]; rfl

mutual
theorem first_tree : ∀ (d : Dom) (ds : List Dom), (∃ e, Elem [d] e ∧ e.name.loc = "html") → ∃ x, First (d :: ds) x
  | .mk n a ks, ds => by
    intro ⟨e, he, hl⟩
    by_cases hn : n.loc = "html"
    · exact ⟨_, .here hn⟩
    · rw [elem_cons] at he
      rcases he with rfl | he | he
      · exact absurd hl hn
      · obtain ⟨x, hx⟩ := first_forest ks ⟨e, he, hl⟩
        exact ⟨x, .inner hn hx⟩
      · exact (elem_nil he).elim
theorem first_forest : ∀ ds : List Dom, (∃ e, Elem ds e ∧ e.name.loc = "html") → ∃ x, First ds x
  | [] => fun ⟨e, he, _⟩ => (elem_nil he).elim
  | d :: ds => by
    intro ⟨e, he, hl⟩
    by_cases hd : ∃ e, Elem [d] e ∧ e.name.loc = "html"
    · exact first_tree d ds hd
    · rw [elem_cons] at he
      have he' : Elem ds e := by
        rcases he with rfl | he | he
        · exact absurd ⟨_, .root (by simp), hl⟩ hd
        · exact absurd ⟨e, by rw [elem_cons]; exact .inr (.inl he), hl⟩ hd
        · exact he
      obtain ⟨x, hx⟩ := first_forest ds ⟨e, he', hl⟩
      exact ⟨x, .after (fun e he hl => hd ⟨e, he, hl⟩) hx⟩
end

theorem html_iff (ds : List Dom) (x : Dom) : html ds = some x ↔ First ds x := by
  refine ⟨fun h => ?_, first_sound⟩
  have hm := List.mem_of_find?_eq_some h
  have hp := List.find?_some h
  obtain ⟨y, hy⟩ := first_forest ds ⟨x, (mem_forest ds x).1 hm, by simpa using hp⟩
  have := first_sound hy
  rw [h] at this
  cases this
  exact hy

theorem html_none (ds : List Dom) : html ds = none ↔ ∀ e, Elem ds e → e.name.loc ≠ "html" := by
  unfold html
  rw [List.find?_eq_none]
  simp only [mem_forest, decide_eq_true_eq, ne_eq]

theorem mem_inline (n : String) (ds : List Dom) (f : InlineFact) :
    f ∈ inlines n ds ↔ ∃ x, Elem ds x ∧ x.name.loc = n ∧ x.name.space = ix ∧ x.attrs = f := by
  unfold inlines
  simp only [List.mem_map, List.mem_filter, mem_forest, decide_eq_true_eq]
  constructor
  · rintro ⟨x, ⟨h, h1, h2⟩, h3⟩; exact ⟨x, h, h1, h2, h3⟩
  · rintro ⟨x, h, h1, h2, h3⟩; exact ⟨x, ⟨h, h1, h2⟩, h3⟩

theorem mem_facts (ds : List Dom) (f : InlineFact) :
    (f ∈ inlines "nonNumeric" ds ∨ f ∈ inlines "nonFraction" ds) ↔ ∃ x, Elem ds x ∧ Simple x ∧ x.attrs = f := by
  simp only [mem_inline, Simple]
  constructor
  · rintro (⟨x, h, h1, h2, h3⟩ | ⟨x, h, h1, h2, h3⟩)
    · exact ⟨x, h, ⟨.inl h1, h2⟩, h3⟩
    · exact ⟨x, h, ⟨.inr h1, h2⟩, h3⟩
  · rintro ⟨x, h, ⟨h1 | h1, h2⟩, h3⟩
    · exact .inl ⟨x, h, h1, h2, h3⟩
    · exact .inr ⟨x, h, h1, h2, h3⟩

end Telefacts.Ixbrl
