import Verif.Proof.Instance
/-! # Strict total orders and stable sorting by a key -/
namespace Telefacts
open Telefacts.Spec

/-- A strict total order. -/
structure StrictTotal {α : Type} (r : α → α → Prop) : Prop where
  irrefl : ∀ a, ¬ r a a
  trans : ∀ a b c, r a b → r b c → r a c
  tri : ∀ a b, r a b ∨ a = b ∨ r b a

theorem strictTotal_string : StrictTotal (fun a b : String => a < b) where
  irrefl := String.lt_irrefl
  trans _ _ _ := String.lt_trans
  tri := str_trichotomy

theorem strictTotal_nat : StrictTotal (fun a b : Nat => a < b) where
  irrefl := Nat.lt_irrefl
  trans _ _ _ := Nat.lt_trans
  tri := Nat.lt_trichotomy

theorem StrictTotal.lexi {α β : Type} {r : α → α → Prop} {s : β → β → Prop} (hr : StrictTotal r) (hs : StrictTotal s) :
    StrictTotal (Lexi r s) where
  irrefl a h := by
    rcases h with h | ⟨_, h⟩
    · exact hr.irrefl _ h
    · exact hs.irrefl _ h
  trans a b c h1 h2 := by
    rcases h1 with h1 | ⟨e1, h1⟩ <;> rcases h2 with h2 | ⟨e2, h2⟩
    · exact .inl (hr.trans _ _ _ h1 h2)
    · exact .inl (e2 ▸ h1)
    · exact .inl (e1 ▸ h2)
    · exact .inr ⟨e1.trans e2, hs.trans _ _ _ h1 h2⟩
  tri a b := by
    rcases hr.tri a.1 b.1 with h | h | h
    · exact .inl (.inl h)
    · rcases hs.tri a.2 b.2 with h' | h' | h'
      · exact .inl (.inr ⟨h, h'⟩)
      · exact .inr (.inl (Prod.ext h h'))
      · exact .inr (.inr (.inr ⟨h.symm, h'⟩))
    · exact .inr (.inr (.inl h))

variable {α K : Type} [DecidableEq K] {before : K → K → Prop} {key : α → K} {less : α → α → Bool}

omit [DecidableEq K] in
theorem strictWeak_of_key (hb : StrictTotal before) (hl : ∀ a b, less a b = true ↔ before (key a) (key b)) :
    StrictWeak less where
  asymm a b h := by
    rw [Bool.eq_false_iff]
    intro h'
    rw [hl] at h h'
    exact hb.irrefl _ (hb.trans _ _ _ h h')
  negTrans a b c h1 h2 := by
    rw [Bool.eq_false_iff] at *
    simp only [ne_eq, hl] at *
    intro h
    rcases hb.tri (key a) (key b) with h3 | h3 | h3
    · exact h1 h3
    · exact h2 (h3 ▸ h)
    · exact h2 (hb.trans _ _ _ h3 h)

theorem stableSortedOn_stableSort (hb : StrictTotal before) (hl : ∀ a b, less a b = true ↔ before (key a) (key b))
    (l : List α) : StableSortedOn before key l (stableSort less l) := by
  have hw := strictWeak_of_key hb hl
  refine ⟨stableSort_perm _ l, (stableSort_sorted hw l).imp ?_, ?_⟩
  · intro a b h h'
    rw [← hl, h] at h'
    simp at h'
  intro k
  by_cases hk : ∃ a ∈ l, key a = k
  · obtain ⟨a, ha, rfl⟩ := hk
    have hs := stableSort_stable hw a l
    have he : ∀ x, equivBy less a x = decide (key x = key a) := by
      intro x
      unfold equivBy
      rcases hb.tri (key a) (key x) with h | h | h
      · have h1 := (hl a x).2 h
        have : key x ≠ key a := fun h2 => hb.irrefl _ (h2 ▸ h)
        simp [h1, this]
      · have h1 : less a x = false := by
          rw [Bool.eq_false_iff]; intro h1; rw [hl, h] at h1; exact hb.irrefl _ h1
        have h2 : less x a = false := by
          rw [Bool.eq_false_iff]; intro h1; rw [hl, h] at h1; exact hb.irrefl _ h1
        simp [h, h1, h2]
      · have h1 := (hl x a).2 h
        have : key x ≠ key a := fun h2 => hb.irrefl _ (h2 ▸ h)
        simp [h1, this]
    rw [funext he] at hs
    exact hs
  · rw [List.filter_eq_nil_iff.2, List.filter_eq_nil_iff.2]
    · intro x hx hx'; exact hk ⟨x, hx, by simpa using hx'⟩
    · intro x hx hx'
      exact hk ⟨x, (stableSort_perm _ l).mem_iff.1 hx, by simpa using hx'⟩

end Telefacts
