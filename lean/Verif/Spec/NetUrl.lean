import Verif.Model.Url
import Verif.Spec.Json
import Mathlib.Data.List.Forall2
/-! # Which texts are URLs, and what their parts are -/
namespace Telefacts.Url
open Telefacts.Json (Hex)

/-- No control character. -/
def Printable (s : Str) : Prop := ∀ c ∈ s, 32 ≤ c.toNat ∧ c.toNat ≠ 127

/-- An ASCII letter. -/
def Letter (c : Char) : Prop := (97 ≤ c.toNat ∧ c.toNat ≤ 122) ∨ (65 ≤ c.toNat ∧ c.toNat ≤ 90)

/-- An ASCII digit. -/
def Digit (c : Char) : Prop := 48 ≤ c.toNat ∧ c.toNat ≤ 57

/-- RFC 3986, 3.1: a letter, followed by letters, digits, plus, minus and dot. -/
def Scheme (s : Str) : Prop :=
  ∃ c r, s = c :: r ∧ Letter c ∧ ∀ x ∈ r, Letter x ∨ Digit x ∨ x = '+' ∨ x = '-' ∨ x = '.'

/-- The text with upper-case letters made lower-case. -/
def Lowered (s d : Str) : Prop :=
  List.Forall₂ (fun c e => if 65 ≤ c.toNat ∧ c.toNat ≤ 90 then e = Char.ofNat (c.toNat + 32) else e = c) s d

/-- Percent-decoding: characters that may stand for themselves and numbers that may be written with `%`. -/
inductive Decodes (plain : Char → Prop) (esc : Nat → Prop) : Str → Str → Prop where
  | nil : Decodes plain esc [] []
  | char (c : Char) (s d : Str) (hc : c ≠ '%') (hp : plain c) (h : Decodes plain esc s d) : Decodes plain esc (c :: s) (c :: d)
  | esc (x y : Char) (a b : Nat) (s d : Str) (hx : Hex x a) (hy : Hex y b) (he : esc (a * 16 + b)) (h : Decodes plain esc s d) :
      Decodes plain esc ('%' :: x :: y :: s) (Char.ofNat (a * 16 + b) :: d)

/-- In paths, fragments and user information every escape is allowed. -/
def DecodesPath (s d : Str) : Prop := Decodes (fun _ => True) (fun _ => True) s d

/-- ASCII characters that may stand in a host. -/
def HostChar (c : Char) : Prop := Letter c ∨ Digit c ∨ c ∈ "-_.~!$&'()*+,;=:[]<>\"".toList

/-- In hosts only the percent sign and bytes that are not ASCII may be escaped. -/
def DecodesHost (s d : Str) : Prop := Decodes (fun c => 128 ≤ c.toNat ∨ HostChar c) (fun n => n = 37 ∨ 128 ≤ n) s d

/-- In zones of IPv6 addresses: the percent sign, spaces and the characters of hosts. -/
def DecodesZone (s d : Str) : Prop :=
  Decodes (fun c => 128 ≤ c.toNat ∨ HostChar c) (fun n => n = 37 ∨ n = 32 ∨ HostChar (Char.ofNat n)) s d

/-- Nothing, or a colon and digits. -/
def Port (s : Str) : Prop := s = [] ∨ ∃ ds, s = ':' :: ds ∧ ∀ c ∈ ds, Digit c

/-- The text occurs. -/
def Contains (w s : Str) : Prop := ∃ a b, s = a ++ w ++ b

/-- A host with an optional port, and its decoded text. -/
inductive Host : Str → Str → Prop where
  | name (h d : Str) (hb : h.head? ≠ some '[') (hp : ':' ∈ h → ∃ a p, h = a ++ p ∧ p ≠ [] ∧ Port p) (hd : DecodesHost h d) : Host h d
  | literal (a p d : Str) (hp : Port p) (hz : ¬ Contains "%25".toList ('[' :: a)) (hd : DecodesHost ('[' :: a ++ ']' :: p) d) :
      Host ('[' :: a ++ ']' :: p) d
  | zoned (a z p d e f : Str) (hp : Port p) (hz : ¬ Contains "%25".toList ('[' :: a))
      (hd : DecodesHost ('[' :: a) d) (he : DecodesZone ("%25".toList ++ z) e) (hf : DecodesHost (']' :: p) f) :
      Host ('[' :: a ++ ("%25".toList ++ z ++ ']' :: p)) (d ++ e ++ f)

/-- Characters of user information. -/
def UserChar (c : Char) : Prop := Letter c ∨ Digit c ∨ c ∈ "-._:~!$&'()*+,;=%@".toList

/-- A host, perhaps with user information before it. -/
inductive Authority : Str → Str → Prop where
  | host (h d : Str) (ha : '@' ∉ h) (hh : Host h d) : Authority h d
  | user (u u' h d : Str) (hu : ∀ c ∈ u, UserChar c) (he : DecodesPath u u') (ha : '@' ∉ h) (hh : Host h d) :
      Authority (u ++ '@' :: h) d

/-- An absolute URL with a host: its scheme in lower case, decoded host with port, and decoded path. -/
structure UrlText (s scheme host path : Str) : Prop where
  printable : Printable s
  parts : ∃ sch auth p q f f', s = sch ++ "://".toList ++ auth ++ p ++ q ++ f ∧ Scheme sch ∧ Lowered sch scheme ∧
    Authority auth host ∧ host ≠ [] ∧ (p = [] ∨ p.head? = some '/') ∧ '?' ∉ p ∧ '#' ∉ p ∧ DecodesPath p path ∧
    (q = [] ∨ q.head? = some '?') ∧ '#' ∉ q ∧ (f = [] ∨ (f.head? = some '#' ∧ p ++ q ≠ [])) ∧ DecodesPath f f'

/-- The host without its port and without brackets. -/
def Hostname (h n : Str) : Prop :=
  ∃ a p, h = a ++ p ∧ Port p ∧ (p = [] → ¬ ∃ b q, a = b ++ q ∧ q ≠ [] ∧ Port q) ∧
    (a = '[' :: n ++ [']'] ∨ ((¬ ∃ m, a = '[' :: m ++ [']']) ∧ n = a))

end Telefacts.Url
