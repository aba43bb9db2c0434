import Verif.Spec.Json
import Verif.Model.Codec
/-! # Specification of the JSON files and responses -/
namespace Telefacts.Json

/-- No control character and none that is special in HTML or in JavaScript. -/
def Tame (c : Char) : Prop := 32 ≤ c.toNat ∧ c ≠ '<' ∧ c ≠ '>' ∧ c ≠ '&' ∧ c.toNat ≠ 0x2028 ∧ c.toNat ≠ 0x2029

mutual
/-- The numbers in the value are written as numbers. -/
def Written : Json → Prop
  | .num lit => Number lit
  | .arr l => WrittenItems l
  | .obj l => WrittenMembers l
  | _ => True

def WrittenItems : List Json → Prop
  | [] => True
  | v :: l => Written v ∧ WrittenItems l

def WrittenMembers : List (String × Json) → Prop
  | [] => True
  | p :: l => Written p.2 ∧ WrittenMembers l
end

/-- Arrays and objects are nested at most `n` deep. -/
inductive Within : Nat → Json → Prop
  | null (n : Nat) : Within n .null
  | bool (n : Nat) (b : Bool) : Within n (.bool b)
  | num (n : Nat) (lit : List Char) : Within n (.num lit)
  | str (n : Nat) (s : String) : Within n (.str s)
  | arr (n : Nat) (l : List Json) : (∀ v ∈ l, Within n v) → Within (n + 1) (.arr l)
  | obj (n : Nat) (l : List (String × Json)) : (∀ k v, (k, v) ∈ l → Within n v) → Within (n + 1) (.obj l)

/-- `v` is the value of the last member whose name satisfies `p`. -/
def Last (p : String → Prop) (l : List (String × Json)) (v : Json) : Prop :=
  ∃ a k b, l = a ++ (k, v) :: b ∧ p k ∧ ∀ q ∈ b, ¬ p q.1

/-- A JSON object whose member `k` has the value `v` and no other member of that name. -/
def Member (w : Json) (k : String) (v : Json) : Prop :=
  ∃ a b, w = .obj (a ++ (k, v) :: b) ∧ (∀ q ∈ a, q.1 ≠ k) ∧ ∀ q ∈ b, q.1 ≠ k

/-- "entry" in any mixture of upper and lower case. -/
def IsEntry (k : String) : Prop :=
  ∃ a b c d e, k.toList = [a, b, c, d, e] ∧ (a = 'E' ∨ a = 'e') ∧ (b = 'N' ∨ b = 'n') ∧ (c = 'T' ∨ c = 't') ∧
    (d = 'R' ∨ d = 'r') ∧ (e = 'Y' ∨ e = 'y')

/-- "note" in any mixture of upper and lower case. -/
def IsNote (k : String) : Prop :=
  ∃ a b c d, k.toList = [a, b, c, d] ∧ (a = 'N' ∨ a = 'n') ∧ (b = 'O' ∨ b = 'o') ∧ (c = 'T' ∨ c = 't') ∧ (d = 'E' ∨ d = 'e')

/-- The members that are strings. -/
def strings (l : List (String × Json)) : List (String × String) :=
  l.filterMap fun q => match q.2 with
    | .str s => some (q.1, s)
    | _ => none

/-- The metadata `v` has the entry file `e`: it is `null`, or an object whose members for the entry and the note are strings or
`null`; the last string given for the entry counts. -/
def HasEntry (v : Json) (e : String) : Prop :=
  (v = .null ∧ e = "") ∨
  ∃ l, v = .obj l ∧ (∀ k x, (k, x) ∈ l → IsEntry k ∨ IsNote k → x = .null ∨ ∃ s, x = .str s) ∧
    ((∃ a k b, strings l = a ++ (k, e) :: b ∧ IsEntry k ∧ ∀ q ∈ b, ¬ IsEntry q.1) ∨
     (e = "" ∧ ∀ q ∈ strings l, ¬ IsEntry q.1))

/-- A register of names: an object of objects of strings, `null` allowed everywhere. -/
def Register (v : Json) : Prop :=
  v = .null ∨ ∃ l, v = .obj l ∧ ∀ k x, (k, x) ∈ l → x = .null ∨
    ∃ m, x = .obj m ∧ ∀ k y, (k, y) ∈ m → y = .null ∨ ∃ s, y = .str s

/-- The register gives the entity with that scheme and identifier the name (`null` stands for the empty name). -/
def Registers (v : Json) (scheme ident name : String) : Prop :=
  ∃ l m, v = .obj l ∧ Last (· = scheme) l (.obj m) ∧
    (Last (· = ident) m (.str name) ∨ (Last (· = ident) m .null ∧ name = ""))

open Telefacts.Catalog in
/-- A subject as an object. -/
def SubjectText (v : Json) (s : Subject) : Prop :=
  Member v "Name" (.str s.name) ∧ ∃ x, Member v "Entity" x ∧ Member x "Scheme" (.str s.entity.scheme) ∧
    Member x "CharData" (.str s.entity.chars)

open Telefacts.Catalog in
/-- A relationship set as an object. -/
def RSetText (v : Json) (r : RSet) : Prop := Member v "Title" (.str r.title) ∧ Member v "RoleURI" (.str r.roleURI)

/-- Two maps of maps with the same keys and values. -/
def SameNetworks (n n' : GoMap String (GoMap String String)) : Prop :=
  (∀ e, (∃ m, (e, m) ∈ n) ↔ ∃ m, (e, m) ∈ n') ∧
  ∀ e m m', (e, m) ∈ n → (e, m') ∈ n' → ∀ k v, (k, v) ∈ m ↔ (k, v) ∈ m'

end Telefacts.Json
