import Verif.Model.Media
/-! # Specification of data URLs (RFC 2397, RFC 4648), by decoding -/
namespace Telefacts.Media

/-- The value of a letter of the alphabet (RFC 4648, table 1). -/
def Value (c : Char) (v : Nat) : Prop :=
  (c.toNat = 65 + v ∧ v < 26) ∨ (c.toNat + 26 = 97 + v ∧ 26 ≤ v ∧ v < 52) ∨
    (c.toNat + 52 = 48 + v ∧ 52 ≤ v ∧ v < 62) ∨ (c = '+' ∧ v = 62) ∨ (c = '/' ∧ v = 63)

/-- `Base64 s b`: the text `s` stands for the bytes `b`. -/
inductive Base64 : List Char → Bytes → Prop
  | done : Base64 [] []
  | four {c₁ c₂ c₃ c₄ v₁ v₂ v₃ v₄ s} {x y z : Byte} {b} : Value c₁ v₁ → Value c₂ v₂ → Value c₃ v₃ → Value c₄ v₄ →
      ((v₁ * 64 + v₂) * 64 + v₃) * 64 + v₄ = (x.val * 256 + y.val) * 256 + z.val → Base64 s b →
      Base64 (c₁ :: c₂ :: c₃ :: c₄ :: s) (x :: y :: z :: b)
  | three {c₁ c₂ c₃ v₁ v₂ v₃} {x y : Byte} : Value c₁ v₁ → Value c₂ v₂ → Value c₃ v₃ →
      (v₁ * 64 + v₂) * 64 + v₃ = (x.val * 256 + y.val) * 4 → Base64 [c₁, c₂, c₃, '='] [x, y]
  | two {c₁ c₂ v₁ v₂} {x : Byte} : Value c₁ v₁ → Value c₂ v₂ → v₁ * 64 + v₂ = x.val * 16 → Base64 [c₁, c₂, '=', '='] [x]

/-- The bytes start as files of that type do. -/
def HasType (b : Bytes) (mime : String) : Prop :=
  (mime = "image/jpeg" ∧ ∃ r, b = 0xFF :: 0xD8 :: 0xFF :: r) ∨
  (mime = "image/png" ∧ ∃ r, b = 0x89 :: 0x50 :: 0x4E :: 0x47 :: 0x0D :: 0x0A :: 0x1A :: 0x0A :: r)

/-- `url` is a data URL for the bytes `b` with a type they have. -/
def DataUrl (url : String) (b : Bytes) : Prop :=
  ∃ mime s, HasType b mime ∧ url = "data:" ++ mime ++ ";base64," ++ String.ofList s ∧ Base64 s b

/-- The entry is a readable image file, shown by that URL. -/
def Shows (e : Entry) (url : String) : Prop := e.isDir = false ∧ ∃ b, e.content = some b ∧ DataUrl url b

end Telefacts.Media
