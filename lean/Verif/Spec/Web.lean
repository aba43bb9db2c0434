import Verif.Model.Web
import Mathlib.Data.List.Forall2
/-!
# Specification for the web layer

The form encoding of URLs, written as relations that do not use the decoder of the model.
-/
namespace Telefacts.Web

/-- A text that percent-decoding leaves alone: no `+`, no `%`. -/
def Plain (s : Bytes) : Prop := (43 : Byte) ∉ s ∧ (37 : Byte) ∉ s

/-- A GET request for a folder. -/
def Get (r : Request) : Prop := r.method = "GET" ∧ r.id ≠ []

/-- `b` is a hexadecimal digit, of either case, with value `v`. -/
def HexDigit (b : Byte) (v : Nat) : Prop :=
  (48 ≤ b.val ∧ b.val ≤ 57 ∧ b.val = 48 + v) ∨ (65 ≤ b.val ∧ b.val ≤ 70 ∧ b.val = 55 + v) ∨
  (97 ≤ b.val ∧ b.val ≤ 102 ∧ b.val = 87 + v)

/-- `t` is the decoding of `s`: `+` (43) stands for a space (32), `%XX` (37) for the byte with that
hexadecimal value, any other byte for itself. -/
inductive Dec : Bytes → Bytes → Prop
  | nil : Dec [] []
  | plus {s t} : Dec s t → Dec (43 :: s) (32 :: t)
  | hex {x y hi lo} {b : Byte} {s t} : HexDigit x hi → HexDigit y lo → b.val = 16 * hi + lo → Dec s t →
      Dec (37 :: x :: y :: s) (b :: t)
  | other {b : Byte} {s t} : b ≠ 37 → b ≠ 43 → Dec s t → Dec (b :: s) (b :: t)

/-- A byte that may stand for itself in an encoded text: letters, digits, `-`, `.`, `_`, `~`. -/
def Safe (b : Byte) : Prop :=
  (65 ≤ b.val ∧ b.val ≤ 90) ∨ (97 ≤ b.val ∧ b.val ≤ 122) ∨ (48 ≤ b.val ∧ b.val ≤ 57) ∨
  b.val = 45 ∨ b.val = 46 ∨ b.val = 95 ∨ b.val = 126

/-- `e` is an encoding of `s`: safe bytes as themselves, a space as `+`, and any byte as `%XX` with digits
of either case. A client may choose for every byte. -/
inductive Enc : Bytes → Bytes → Prop
  | nil : Enc [] []
  | same {b : Byte} {s e} : Safe b → Enc s e → Enc (b :: s) (b :: e)
  | space {s e} : Enc s e → Enc (32 :: s) (43 :: e)
  | hex {x y hi lo} {b : Byte} {s e} : HexDigit x hi → HexDigit y lo → b.val = 16 * hi + lo → Enc s e →
      Enc (b :: s) (37 :: x :: y :: e)

/-- `ps` are the parts of `q` between the separators `c`. -/
def Parts (c : Byte) (q : Bytes) (ps : List Bytes) : Prop :=
  ps ≠ [] ∧ q = [c].intercalate ps ∧ ∀ p ∈ ps, c ∉ p

/-- `p` is `k=v` where `k` has no `=` (61), or just `k`. -/
def KeyVal (p k v : Bytes) : Prop := (61 : Byte) ∉ k ∧ (p = k ++ 61 :: v ∨ (p = k ∧ v = []))

/-- The parameters of one part of a query: none for an empty part, otherwise the decoded key and value.
A part with a `;` (59) or a bad `%` has no meaning. -/
def PartOf (p : Bytes) (l : List (Bytes × Bytes)) : Prop :=
  (59 : Byte) ∉ p ∧ ((p = [] ∧ l = []) ∨
    (p ≠ [] ∧ ∃ k v k' v', KeyVal p k v ∧ Dec k k' ∧ Dec v v' ∧ l = [(k', v')]))

/-- The parameters of a query, in order: those of the parts between the `&` (38). -/
def Query (q : Bytes) (vs : List (Bytes × Bytes)) : Prop :=
  ∃ ps ls, Parts 38 q ps ∧ List.Forall₂ PartOf ps ls ∧ vs = ls.flatten

/-- The value of a parameter: the first one given, the empty text when there is none. -/
def ParamOf (vs : List (Bytes × Bytes)) (k v : Bytes) : Prop :=
  (∃ pre post, vs = pre ++ (k, v) :: post ∧ ∀ p ∈ pre, p.1 ≠ k) ∨ (v = [] ∧ ∀ p ∈ vs, p.1 ≠ k)

/-- The raw name and contextref of a query: still encoded once more if the client encoded twice. -/
def FactParams (q n c : Bytes) : Prop :=
  ∃ vs, Query q vs ∧ ParamOf vs (lit "name") n ∧ ParamOf vs (lit "contextref") c

end Telefacts.Web
