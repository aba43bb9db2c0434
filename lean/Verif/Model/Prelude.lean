/-!
# Go runtime pieces used by the model

Nothing here models a function of `/repo`; these are the Go built-ins and standard library calls
that the modelled functions use.
-/
namespace Telefacts

/-- Result of a Go call that returns `(value, error)` and may panic.
Simplified: error values carry only their text. -/
inductive Res (α : Type) where
  | ok (a : α)
  | err (msg : String)
  | panic
deriving DecidableEq, Repr

namespace Res
/-- Sequencing: an error or a panic stops the computation (`if err != nil { return err }`). -/
def bind {α β : Type} : Res α → (α → Res β) → Res β
  | .ok a, f => f a
  | .err m, _ => .err m
  | .panic, _ => .panic

instance : Monad Res where
  pure := .ok
  bind := bind

/-- The call returned without error. -/
def isOk {α : Type} : Res α → Bool
  | .ok _ => true
  | _ => false
end Res

/-- `for _, x := range l { acc = f(acc, x) }` where the body may return an error or panic. -/
def foldRes {α β : Type} (f : β → α → Res β) : β → List α → Res β
  | acc, [] => .ok acc
  | acc, x :: xs =>
    match f acc x with
    | .ok acc' => foldRes f acc' xs
    | .err m => .err m
    | .panic => .panic

/-- A Go map: association list with the iteration order explicit.
Well-formed maps have distinct keys; `mapSet` preserves that. -/
abbrev GoMap (K V : Type) := List (K × V)

/-- `v, found := m[k]` -/
def mapGet {K V : Type} [DecidableEq K] (m : GoMap K V) (k : K) : Option V :=
  match m with
  | [] => none
  | (k', v) :: rest => if k' = k then some v else mapGet rest k

/-- `m[k] = v` -/
def mapSet {K V : Type} [DecidableEq K] (m : GoMap K V) (k : K) (v : V) : GoMap K V :=
  match m with
  | [] => [(k, v)]
  | (k', v') :: rest => if k' = k then (k, v) :: rest else (k', v') :: mapSet rest k v

/-- Keys of a map in iteration order. -/
def mapKeys {K V : Type} (m : GoMap K V) : List K := m.map Prod.fst

/-- Distinct keys. -/
def MapWF {K V : Type} (m : GoMap K V) : Prop := (mapKeys m).Nodup

/-- `strings.IndexRune(s, c)` followed by `s[:i]` and `s[i+1:]`, on character lists. -/
def cutL (c : Char) : List Char → Option (List Char × List Char)
  | [] => none
  | x :: xs =>
    if x = c then some ([], xs)
    else match cutL c xs with
      | none => none
      | some (a, b) => some (x :: a, b)

/-- `i := strings.IndexRune(s, c)`: `none` for `i < 0`, otherwise `(s[:i], s[i+1:])`. -/
def cut (c : Char) (s : String) : Option (String × String) :=
  match cutL c s.toList with
  | none => none
  | some (a, b) => some (String.ofList a, String.ofList b)

/-- Insert `x` before the first element that is not smaller. -/
def insertStable {α : Type} (less : α → α → Bool) (x : α) : List α → List α
  | [] => [x]
  | y :: ys => if less y x then y :: insertStable less x ys else x :: y :: ys

/-- `sort.SliceStable(l, less)`. -/
def stableSort {α : Type} (less : α → α → Bool) : List α → List α
  | [] => []
  | x :: xs => insertStable less x (stableSort less xs)

/-- `sort.Strings`. -/
def sortStrings (l : List String) : List String := stableSort (fun a b => decide (a < b)) l

/-- The `encountered := make(map[...]bool)` deduplication idiom: keep first occurrences. -/
def dedupAux {α : Type} [DecidableEq α] (seen : List α) : List α → List α
  | [] => []
  | x :: xs => if x ∈ seen then dedupAux seen xs else x :: dedupAux (x :: seen) xs

/-- Keep the first occurrence of every element. -/
def dedup {α : Type} [DecidableEq α] (l : List α) : List α := dedupAux [] l

/-- `float64`. A finite value is `z * 2^-1074`, which represents every finite double exactly.
Simplified: `-0` and `0` are identified. -/
inductive F64 where
  | nan
  | ninf
  | fin (z : Int)
  | pinf
deriving DecidableEq, Repr

namespace F64
/-- The Go operator `<` on `float64`. -/
def lt : F64 → F64 → Bool
  | .nan, _ => false
  | _, .nan => false
  | .ninf, .ninf => false
  | .ninf, _ => true
  | .fin _, .ninf => false
  | .fin a, .fin b => decide (a < b)
  | .fin _, .pinf => true
  | .pinf, _ => false

/-- `0.0` -/
def zero : F64 := .fin 0

/-- The double `n` for an integer constant. -/
def ofInt (n : Int) : F64 := .fin (n * 2 ^ 1074)

/-- `math.MaxFloat64` = (2^53 - 1) * 2^971. -/
def maxFinite : F64 := .fin ((2 ^ 53 - 1) * 2 ^ 2045)

/-- `math.Abs` -/
def abs : F64 → F64
  | .nan => .nan
  | .ninf => .pinf
  | .fin z => .fin z.natAbs
  | .pinf => .pinf
end F64

end Telefacts
