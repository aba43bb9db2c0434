/-!
# Specification vocabulary shared by several properties
-/
namespace Telefacts.Spec

/-- `a` is the first element of `l` that satisfies `P`. -/
def FirstWith {α : Type} (P : α → Prop) (l : List α) (a : α) : Prop :=
  ∃ pre post, l = pre ++ a :: post ∧ P a ∧ ∀ x ∈ pre, ¬ P x

/-- `a` is the last element of `l` that satisfies `P`. -/
def LastWith {α : Type} (P : α → Prop) (l : List α) (a : α) : Prop :=
  ∃ pre post, l = pre ++ a :: post ∧ P a ∧ ∀ x ∈ post, ¬ P x

/-- `out` is `l` stably sorted by the string `key`: a permutation in non-decreasing key order in which
elements with equal keys keep their order. -/
def StableSortedBy {α : Type} (key : α → String) (l out : List α) : Prop :=
  out.Perm l ∧ out.Pairwise (fun a b => ¬ key b < key a) ∧
    ∀ k, out.filter (fun a => key a = k) = l.filter (fun a => key a = k)

/-- `out` is `l` stably sorted by `key`, whose values are ordered by `before`. -/
def StableSortedOn {α K : Type} [DecidableEq K] (before : K → K → Prop) (key : α → K) (l out : List α) : Prop :=
  out.Perm l ∧ out.Pairwise (fun a b => ¬ before (key b) (key a)) ∧
    ∀ k, out.filter (fun a => key a = k) = l.filter (fun a => key a = k)

/-- Lexicographic order: first by `r`, then by `s`. -/
def Lexi {α β : Type} (r : α → α → Prop) (s : β → β → Prop) (x y : α × β) : Prop :=
  r x.1 y.1 ∨ (x.1 = y.1 ∧ s x.2 y.2)

end Telefacts.Spec
