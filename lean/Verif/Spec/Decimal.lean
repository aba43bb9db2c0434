import Verif.Model.Prelude
/-! # Decimal numbers (`xs:decimal`) and doubles -/
namespace Telefacts.Number

/-- A digit and its value. -/
def IsDigit (c : Char) (d : Nat) : Prop := d < 10 ∧ c = Char.ofNat (48 + d)

/-- Digits and the number they denote. -/
inductive DigitsOf : List Char → Nat → Prop
  | nil : DigitsOf [] 0
  | snoc (cs c n d) : DigitsOf cs n → IsDigit c d → DigitsOf (cs ++ [c]) (10 * n + d)

/-- The text is a decimal number with the digits of `m` (a number with the sign of the text), `k` of them after the point. Its value is
`m / 10 ^ k`. -/
def DecimalText (s : String) (m : Int) (k : Nat) : Prop :=
  ∃ sign i f n, (sign = [] ∨ sign = ['+'] ∨ sign = ['-']) ∧ i ++ f ≠ [] ∧ DigitsOf (i ++ f) n ∧ f.length = k ∧
    m = (if sign = ['-'] then -(n : Int) else n) ∧
    (s.toList = sign ++ i ++ '.' :: f ∨ f = [] ∧ s.toList = sign ++ i)

/-- `z * 2 ^ -1074` is a double. -/
def Double (z : Int) : Prop := ∃ (a : Int) (e : Nat), z = a * 2 ^ e ∧ a.natAbs < 2 ^ 53 ∧ e ≤ 2045

/-- No double is nearer to `m / 10 ^ k` than `z * 2 ^ -1074`. -/
def Nearest (m : Int) (k : Nat) (z : Int) : Prop :=
  Double z ∧ ∀ z', Double z' → (m * 2 ^ 1074 - z * 10 ^ k).natAbs ≤ (m * 2 ^ 1074 - z' * 10 ^ k).natAbs

end Telefacts.Number
