import Verif.Model.Prelude
/-!
# `strconv.ParseFloat(s, 64)` on decimal numbers

Used for the orders and weights of arcs (pkg/hydratables/presentationLinkbase.go:128, labelLinkbase.go:120, definitionLinkbase.go:131,
calculationLinkbase.go:131-135). Modelled are texts with an optional sign, digits, and an optional point: the nearest double is
returned, the even one of two that are equally near. The further forms that Go accepts (exponents, hexadecimal numbers, underscores, infinities and
NaN) are the parameter `other`, as is the rejection of everything else.
-/
namespace Telefacts.Number

/-- A decimal digit. -/
def digit (c : Char) : Option Nat := if 48 ≤ c.toNat ∧ c.toNat ≤ 57 then some (c.toNat - 48) else none

/-- The digits at the start, their number, what they add up to after `acc`, and the rest: `readFloat`. -/
def digits (acc n : Nat) : List Char → Nat × Nat × List Char
  | [] => (acc, n, [])
  | c :: cs =>
    match digit c with
    | some d => digits (acc * 10 + d) (n + 1) cs
    | none => (acc, n, c :: cs)

/-- `readFloat` after the sign: mantissa and number of digits after the point. -/
def readUnsigned (s : List Char) : Option (Nat × Nat) :=
  match digits 0 0 s with
  | (_, 0, '.' :: rest) =>
    match digits 0 0 rest with
    | (_, 0, _) => none
    | (m, k, []) => some (m, k)
    | _ => none
  | (_, 0, _) => none
  | (m, _, []) => some (m, 0)
  | (m, _, '.' :: rest) =>
    match digits m 0 rest with
    | (m, k, []) => some (m, k)
    | _ => none
  | _ => none

/-- `readFloat`: whether negative, mantissa and number of digits after the point. -/
def readDecimal (s : String) : Option (Bool × Nat × Nat) :=
  match s.toList with
  | '+' :: rest => (readUnsigned rest).map fun p => (false, p)
  | '-' :: rest => (readUnsigned rest).map fun p => (true, p)
  | rest => (readUnsigned rest).map fun p => (false, p)

/-- The double nearest to `n / d`, the even one of two, without regard to overflow. Units are arbitrary. -/
def nearest (n d : Nat) : Nat :=
  let q := n / d
  let u := if q < 2 ^ 53 then 1 else 2 ^ (q.log2 - 52)
  let a := n / (d * u)
  let r := n % (d * u)
  (if 2 * r < d * u then a else if d * u < 2 * r then a + 1 else if a % 2 = 0 then a else a + 1) * u

/-- `strconv.ParseFloat(s, 64)`: the value and whether there was no error. A value that is too large is an error. -/
def parseFloat (other : String → F64 × Bool) (s : String) : F64 × Bool :=
  match readDecimal s with
  | none => other s
  | some (neg, m, k) =>
    let z := nearest (m * 2 ^ 1074) (10 ^ k)
    if z < 2 ^ 2098 then (.fin (if neg then -z else z), true)
    else (if neg then .ninf else .pinf, false)

end Telefacts.Number
