import Verif.Model.Prelude
/-! # Specification of file names -/
namespace Telefacts

/-- The text ends with a suffix. -/
def EndsIn (s suffix : String) : Prop := ∃ p, s = p ++ suffix

/-- `b` is the last part of the path `s` (unix): trailing slashes do not count, an empty path is `.`. -/
def BaseName (s b : String) : Prop :=
  (s = "" ∧ b = ".") ∨
  (s ≠ "" ∧ (∀ c ∈ s.toList, c = '/') ∧ b = "/") ∨
  (b ≠ "" ∧ '/' ∉ b.toList ∧ ∃ p q, s.toList = p ++ b.toList ++ q ∧ (∀ c ∈ q, c = '/') ∧ (p = [] ∨ ∃ p', p = p' ++ ['/']))

end Telefacts
