import Verif.Model.ParseFloat
import Mathlib.Data.Rat.Floor
import Mathlib.Data.Int.Log
/-!
# The hundredfold of a percentage: pkg/renderables/fact.go:63-70 with math/big

`renderPercent` reads the value with `big.ParseFloat(value, 10, digits.PREC_BITS, big.ToZero)`, multiplies it by 100 and writes
it with `Text('f', -1)`. Modelled are texts with an optional sign, digits, and an optional point; the further forms that `ParseFloat`
accepts (exponents, infinities) and the rejection of everything else are the parameter `other`. Floats are rational numbers here;
the number of bits of the mantissa is `p`, which is `digits.PREC_BITS` (the package digits is not part of the repository). Exponents do
not overflow, which would take texts of a hundred million digits. `Text` is the parameter `text`.
-/
namespace Telefacts.Big

/-- The unit of the last of the `p` bits of the mantissa. -/
def ulp (p : ℕ) (x : ℚ) : ℚ := 2 ^ (Int.log 2 |x| + 1 - p)

/-- math/big float.go `round`, mode `ToZero`. -/
def toZero (p : ℕ) (x : ℚ) : ℚ := (if x < 0 then -1 else 1) * (⌊|x| / ulp p x⌋ * ulp p x)

/-- math/big float.go `round`, mode `ToNearestEven`, of a number that is not negative. -/
def toEven (p : ℕ) (x : ℚ) : ℚ :=
  let a := ⌊x / ulp p x⌋
  let r := x / ulp p x - a
  (if r < 1 / 2 then a else if 1 / 2 < r then a + 1 else if a % 2 = 0 then a else a + 1 : ℤ) * ulp p x

/-- math/big floatconv.go `pow5`, the loop. -/
def pow5Loop (p : ℕ) (z f : ℚ) (n : ℕ) : ℚ :=
  if n = 0 then z
  else pow5Loop p (if n % 2 = 1 then toEven p (z * f) else z) (toEven (p + 64) (f * f)) (n / 2)

/-- math/big floatconv.go `pow5`: the powers up to the 27th are in a table. -/
def pow5 (p n : ℕ) : ℚ := if n ≤ 27 then 5 ^ n else pow5Loop p (5 ^ 27) 5 (n - 27)

/-- math/big floatconv.go `scan`: the mantissa with its binary exponent, divided by a power of five. -/
def scan (p m k : ℕ) : ℚ := if k = 0 then toZero p m else toZero p (m / 2 ^ k / pow5 (p + 64) k)

/-- `big.ParseFloat(s, 10, p, big.ToZero)` -/
def parse (p : ℕ) (s : String) : Option ℚ :=
  match Number.readDecimal s with
  | none => none
  | some (neg, m, k) => some (if neg then -scan p m k else scan p m k)

/-- fact.go:64-68: the product has the precision and the mode of the value. -/
def hundred (text : ℚ → String) (other : String → Option String) (p : ℕ) (s : String) : Option String :=
  match parse p s with
  | none => other s
  | some x => some (text (toZero p (x * 100)))

end Telefacts.Big
