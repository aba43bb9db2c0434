import Verif.Spec.Decimal
import Verif.Model.FactText
import Mathlib.Data.Rat.Cast.Order
/-! # Specification of percentages -/
namespace Telefacts.Big
open Telefacts.Number Telefacts.Instance Telefacts.Render

/-- The text denotes the number `q`. -/
def Denotes (s : String) (q : ℚ) : Prop := ∃ m k, DecimalText s m k ∧ q = m / 10 ^ k

/-- Numbers with a mantissa of `p` bits. -/
def HasBits (p : ℕ) (x : ℚ) : Prop := ∃ a e : ℤ, x = a * 2 ^ e ∧ |a| < 2 ^ p

/-- `u` is the unit of the last of `p` bits of the mantissa of `x`. -/
def LastBit (p : ℕ) (x u : ℚ) : Prop := (∃ e : ℤ, u = 2 ^ e) ∧ 2 ^ p * u ≤ 2 * |x| ∧ |x| < 2 ^ p * u

/-- What the documentation of math/big says of `Text('f', -1)`: a decimal number that no other number with `p` bits is nearer to,
with no more digits after the point than the number has. -/
def Prints (p : ℕ) (text : ℚ → String) : Prop :=
  ∀ x, HasBits p x → ∃ m k, DecimalText (text x) m k ∧ (x = 0 → m = 0) ∧
    (∀ u, LastBit p x u → |(m / 10 ^ k : ℚ) - x| ≤ u / 2) ∧ ∀ (m' : ℤ) (k' : ℕ), x = m' / 10 ^ k' → k ≤ k'

/-- A fact with an accuracy whose concept is a percentage. -/
structure Percentage (env : FactEnv) (f : Fact) : Prop where
  present : f.isNil = false
  accuracy : f.precision ≠ -2147483647
  kind : ∃ c, env.concept f.href = some c ∧ c.type = ⟨"http://www.xbrl.org/dtr/type/numeric", "percentItemType"⟩

/-- The digits of the text are those that the formatter has for the number `amount`, to `d` decimals. -/
def ShownAs (env : FactEnv) (d : Int) (amount : String) (lang : Lang) (e : FactExpression) : Prop :=
  ∀ head core tail, env.digits d amount (if lang = "es - español" then ' ' else ',') = some (head, core, tail) →
    e.core = core ∧ (∃ symbol, e.head = symbol ++ head) ∧ ∃ units, e.tail = tail ++ "%" ++ units

end Telefacts.Big
