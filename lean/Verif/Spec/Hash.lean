import Verif.Model.Prelude
/-!
# The slug of a network, as a client would compute it

FNV as published by Fowler, Noll and Vo (draft-eastlake-fnv): 128-bit words, the prime `2^88 + 2^8 + 0x3b`, and the offset basis as the FNV-0 hash
of the signature of one of the authors. Independent of `Model/Fnv.lean`, which has the constants and the loops of `hash/fnv` and `encoding/hex`.
-/
namespace Telefacts.Spec

/-- The octets of the UTF-8 form of a text. -/
def octets (s : String) : List UInt8 := s.toUTF8.data.toList

/-- The 128-bit FNV prime. -/
def prime128 : BitVec 128 := BitVec.ofNat 128 (2 ^ 88 + 2 ^ 8 + 0x3b)

/-- FNV-0: multiply, then combine with the octet; starting with zero. -/
inductive Fnv0 : List UInt8 → BitVec 128 → Prop
  | nil : Fnv0 [] 0
  | snoc (bs : List UInt8) (b : UInt8) (h : BitVec 128) : Fnv0 bs h → Fnv0 (bs ++ [b]) ((h * prime128) ^^^ b.toBitVec.setWidth 128)

/-- FNV-1a: combine with the octet, then multiply; starting with the FNV-0 hash of the signature. -/
inductive Fnv1a : List UInt8 → BitVec 128 → Prop
  | nil (h : BitVec 128) : Fnv0 (octets "chongo <Landon Curt Noll> /\\../\\") h → Fnv1a [] h
  | snoc (bs : List UInt8) (b : UInt8) (h : BitVec 128) : Fnv1a bs h → Fnv1a (bs ++ [b]) ((h ^^^ b.toBitVec.setWidth 128) * prime128)

/-- The value of a hexadecimal digit, with small letters. -/
def SmallHex (c : Char) (n : Nat) : Prop := (c.toNat = 48 + n ∧ n < 10) ∨ (c.toNat = 87 + n ∧ 10 ≤ n ∧ n < 16)

/-- The value of a hexadecimal numeral. -/
inductive HexNumeral : List Char → Nat → Prop
  | nil : HexNumeral [] 0
  | snoc (cs : List Char) (c : Char) (n d : Nat) : HexNumeral cs n → SmallHex c d → HexNumeral (cs ++ [c]) (16 * n + d)

/-- The slug of a network: the hash of entity, role URI and definition, one after the other, as 32 hexadecimal digits. -/
def SlugOf (entity role definition slug : String) : Prop :=
  ∃ h, Fnv1a (octets entity ++ octets role ++ octets definition) h ∧ slug.toList.length = 32 ∧ HexNumeral slug.toList h.toNat

end Telefacts.Spec
