import Verif.Spec.Basic
import Verif.Proof.Prelude
/-!
# Lemmas about the specification vocabulary
-/
namespace Telefacts
open Spec

/-! ## FirstWith -/

/-- Induction from the end of a list. -/
@[elab_as_elim]
theorem snocInd {α : Type} {P : List α → Prop} (l : List α) (nil : P [])
    (snoc : ∀ l x, P l → P (l ++ [x])) : P l := by
  have key : ∀ r : List α, P r.reverse := by
    intro r
    induction r with
    | nil => exact nil
    | cons x r ih => rw [List.reverse_cons]; exact snoc _ _ ih
  have := key l.reverse
  rwa [List.reverse_reverse] at this

theorem firstWith_cons_pos {α : Type} (P : α → Prop) {x : α} {l : List α} (h : P x) (a : α) :
    FirstWith P (x :: l) a ↔ a = x := by
  constructor
  · rintro ⟨pre, post, he, ha, hp⟩
    cases pre with
    | nil => simp at he; exact he.1.symm
    | cons y ys => simp at he; exact absurd (he.1 ▸ h) (hp y (by simp))
  · rintro rfl; exact ⟨[], l, rfl, h, by simp⟩

theorem firstWith_cons_neg {α : Type} (P : α → Prop) {x : α} {l : List α} (h : ¬ P x) (a : α) :
    FirstWith P (x :: l) a ↔ FirstWith P l a := by
  constructor
  · rintro ⟨pre, post, he, ha, hp⟩
    cases pre with
    | nil => simp at he; exact absurd (he.1 ▸ ha) h
    | cons y ys => simp at he; exact ⟨ys, post, he.2, ha, fun z hz => hp z (by simp [hz])⟩
  · rintro ⟨pre, post, he, ha, hp⟩
    refine ⟨x :: pre, post, by simp [he], ha, ?_⟩
    intro z hz
    rcases List.mem_cons.1 hz with rfl | hz
    · exact h
    · exact hp z hz

theorem not_firstWith_nil {α : Type} {P : α → Prop} (a : α) : ¬ FirstWith P [] a := by
  rintro ⟨pre, post, he, _, _⟩; simp at he

/-- Functional view of `FirstWith`. -/
theorem firstWith_iff_find {α : Type} (p : α → Bool) (l : List α) (a : α) :
    FirstWith (fun x => p x = true) l a ↔ l.find? p = some a := by
  induction l with
  | nil => simp [not_firstWith_nil]
  | cons x xs ih =>
    by_cases h : p x = true
    · rw [firstWith_cons_pos (fun x => p x = true) h]; simp [h, eq_comm]
    · rw [firstWith_cons_neg (fun x => p x = true) h, ih]; simp [h]

theorem lastWith_append_singleton {α : Type} {P : α → Prop} {l : List α} {x a : α} :
    LastWith P (l ++ [x]) a ↔ (P x ∧ a = x) ∨ (¬ P x ∧ LastWith P l a) := by
  constructor
  · rintro ⟨pre, post, he, ha, hp⟩
    rcases List.eq_nil_or_concat post with rfl | ⟨post', y, rfl⟩
    · have := List.append_inj' he rfl
      simp at this
      exact .inl ⟨this.2 ▸ ha, this.2.symm⟩
    · have h2 : l ++ [x] = (pre ++ a :: post') ++ [y] := by simpa using he
      have := List.append_inj' h2 rfl
      simp at this
      right
      refine ⟨this.2 ▸ hp y (by simp), pre, post', this.1, ha, fun z hz => hp z (by simp [hz])⟩
  · rintro (⟨h, rfl⟩ | ⟨h, pre, post, he, ha, hp⟩)
    · exact ⟨l, [], rfl, h, by simp⟩
    · refine ⟨pre, post ++ [x], by simp [he], ha, ?_⟩
      intro z hz
      simp at hz
      rcases hz with hz | rfl
      · exact hp z hz
      · exact h

theorem not_lastWith_nil {α : Type} {P : α → Prop} (a : α) : ¬ LastWith P [] a := by
  rintro ⟨pre, post, he, _, _⟩; simp at he

theorem firstWith_unique {α : Type} {P : α → Prop} {l : List α} {a b : α}
    (ha : FirstWith P l a) (hb : FirstWith P l b) : a = b := by
  induction l with
  | nil => exact absurd ha (not_firstWith_nil a)
  | cons x xs ih =>
    by_cases h : P x
    · rw [(firstWith_cons_pos _ h a).1 ha, (firstWith_cons_pos _ h b).1 hb]
    · exact ih ((firstWith_cons_neg _ h a).1 ha) ((firstWith_cons_neg _ h b).1 hb)

theorem firstWith_mem {α : Type} {P : α → Prop} {l : List α} {a : α} (h : FirstWith P l a) :
    a ∈ l ∧ P a := by
  obtain ⟨pre, post, rfl, ha, _⟩ := h; exact ⟨by simp, ha⟩

theorem lastWith_unique {α : Type} {P : α → Prop} {l : List α} {a b : α}
    (ha : LastWith P l a) (hb : LastWith P l b) : a = b := by
  have rev : ∀ c, LastWith P l c → FirstWith P l.reverse c := by
    rintro c ⟨pre, post, he, hc, hp⟩
    exact ⟨post.reverse, pre.reverse, by simp [he], hc, by simpa using hp⟩
  exact firstWith_unique (rev a ha) (rev b hb)

theorem lastWith_mem {α : Type} {P : α → Prop} {l : List α} {a : α} (h : LastWith P l a) :
    a ∈ l ∧ P a := by
  obtain ⟨pre, post, rfl, ha, _⟩ := h; exact ⟨by simp, ha⟩

theorem lastWith_exists {α : Type} (P : α → Prop) {l : List α} (h : ∃ x ∈ l, P x) :
    ∃ a, LastWith P l a := by
  induction l with
  | nil => simp at h
  | cons y ys ih =>
    by_cases h2 : ∃ x ∈ ys, P x
    · obtain ⟨a, pre, post, he, ha, hp⟩ := ih h2
      exact ⟨a, y :: pre, post, by simp [he], ha, hp⟩
    · obtain ⟨x, hx, hPx⟩ := h
      rcases List.mem_cons.1 hx with rfl | hx
      · exact ⟨x, [], ys, rfl, hPx, fun z hz hz' => h2 ⟨z, hz, hz'⟩⟩
      · exact absurd ⟨x, hx, hPx⟩ h2

/-- Loop invariant with split: the whole list is `p ++ x :: rest`. -/
theorem foldRes_inv_split {α β : Type} {f : β → α → Res β} (P : List α → β → Prop) {acc : β}
    {l : List α} (h0 : P [] acc)
    (hs : ∀ b p x rest b', l = p ++ x :: rest → P p b → f b x = .ok b' → P (p ++ [x]) b') {r : β}
    (hr : foldRes f acc l = .ok r) : P l r := by
  have key : ∀ (post pre : List α) (a : β), l = pre ++ post → P pre a → foldRes f a post = .ok r → P l r := by
    intro post
    induction post with
    | nil =>
      intro pre a hl hp h
      simp [foldRes] at h; subst h; simp at hl; exact hl ▸ hp
    | cons x xs ih =>
      intro pre a hl hp h
      simp only [foldRes] at h
      cases hx : f a x with
      | ok a' =>
        rw [hx] at h
        exact ih (pre ++ [x]) a' (by simp [hl]) (hs a pre x xs a' hl hp hx) h
      | err m => rw [hx] at h; simp at h
      | panic => rw [hx] at h; simp at h
  exact key l [] acc rfl h0 hr

end Telefacts
