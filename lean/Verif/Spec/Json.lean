import Verif.Model.Json
/-! # Specification of JSON texts (RFC 8259; a number is kept as written) -/
namespace Telefacts.Json

/-- Whitespace (RFC 8259, section 2). -/
def Blank (cs : List Char) : Prop := ∀ c ∈ cs, c = ' ' ∨ c = '\t' ∨ c = '\n' ∨ c = '\r'

/-- The value of a hexadecimal digit. -/
def Hex (c : Char) (v : Nat) : Prop :=
  (48 ≤ c.toNat ∧ c.toNat ≤ 57 ∧ v = c.toNat - 48) ∨ (97 ≤ c.toNat ∧ c.toNat ≤ 102 ∧ v = c.toNat - 87) ∨
    (65 ≤ c.toNat ∧ c.toNat ≤ 70 ∧ v = c.toNat - 55)

/-- `cs` is the escape `\uXXXX` of the code unit `n`. -/
def Unit16 (cs : List Char) (n : Nat) : Prop :=
  ∃ a b c d va vb vc vd, cs = ['\\', 'u', a, b, c, d] ∧ Hex a va ∧ Hex b vb ∧ Hex c vc ∧ Hex d vd ∧
    n = ((va * 16 + vb) * 16 + vc) * 16 + vd

/-- `cs` is a way to write the character `c` in a string (RFC 8259, section 7). -/
inductive Piece : List Char → Char → Prop
  | plain (c : Char) : c ≠ '"' → c ≠ '\\' → 32 ≤ c.toNat → Piece [c] c
  | quote : Piece ['\\', '"'] '"'
  | backslash : Piece ['\\', '\\'] '\\'
  | slash : Piece ['\\', '/'] '/'
  | b : Piece ['\\', 'b'] (Char.ofNat 8)
  | f : Piece ['\\', 'f'] (Char.ofNat 12)
  | n : Piece ['\\', 'n'] '\n'
  | r : Piece ['\\', 'r'] '\r'
  | t : Piece ['\\', 't'] '\t'
  | unit (cs : List Char) (n : Nat) : Unit16 cs n → n < 0xD800 ∨ 0xE000 ≤ n → Piece cs (Char.ofNat n)
  | pair (cs ds : List Char) (h l : Nat) : Unit16 cs h → Unit16 ds l → 0xD800 ≤ h → h < 0xDC00 → 0xDC00 ≤ l → l < 0xE000 →
      Piece (cs ++ ds) (Char.ofNat (0x10000 + (h - 0xD800) * 0x400 + (l - 0xDC00)))

/-- `cs` are the pieces of the characters `s`. -/
inductive Pieces : List Char → List Char → Prop
  | nil : Pieces [] []
  | cons (p cs : List Char) (c : Char) (s : List Char) : Piece p c → Pieces cs s → Pieces (p ++ cs) (c :: s)

/-- A string. -/
def Quoted (cs : List Char) (s : String) : Prop := ∃ ps, Pieces ps s.toList ∧ cs = '"' :: ps ++ ['"']

/-- Decimal digits, at least one. -/
def Ds (cs : List Char) : Prop := cs ≠ [] ∧ ∀ c ∈ cs, 48 ≤ c.toNat ∧ c.toNat ≤ 57

/-- A number (section 6): no superfluous zeros. -/
def Number (cs : List Char) : Prop :=
  ∃ sign int frac exp, cs = sign ++ (int ++ (frac ++ exp)) ∧ (sign = [] ∨ sign = ['-']) ∧
    Ds int ∧ (int.head? = some '0' → int = ['0']) ∧
    (frac = [] ∨ ∃ ds, Ds ds ∧ frac = '.' :: ds) ∧
    (exp = [] ∨ ∃ e s ds, (e = 'e' ∨ e = 'E') ∧ (s = [] ∨ s = ['+'] ∨ s = ['-']) ∧ Ds ds ∧ exp = e :: (s ++ ds))

mutual
/-- `cs`, without whitespace around it, is a text for the value. -/
inductive Reads : List Char → Json → Prop
  | null : Reads "null".toList .null
  | true : Reads "true".toList (.bool true)
  | false : Reads "false".toList (.bool false)
  | num (cs : List Char) : Number cs → Reads cs (.num cs)
  | str (cs : List Char) (s : String) : Quoted cs s → Reads cs (.str s)
  | arr0 (ws : List Char) : Blank ws → Reads ('[' :: ws ++ [']']) (.arr [])
  | arr (cs : List Char) (v : Json) (l : List Json) : Elements cs v l → Reads ('[' :: cs ++ [']']) (.arr (v :: l))
  | obj0 (ws : List Char) : Blank ws → Reads ('{' :: ws ++ ['}']) (.obj [])
  | obj (cs : List Char) (k : String) (v : Json) (l : List (String × Json)) : Pairs cs k v l →
      Reads ('{' :: cs ++ ['}']) (.obj ((k, v) :: l))

/-- One or more values with commas in between. -/
inductive Elements : List Char → Json → List Json → Prop
  | one (a cs b : List Char) (v : Json) : Blank a → Reads cs v → Blank b → Elements (a ++ (cs ++ b)) v []
  | more (a cs b r : List Char) (v w : Json) (l : List Json) : Blank a → Reads cs v → Blank b → Elements r w l →
      Elements (a ++ (cs ++ (b ++ ',' :: r))) v (w :: l)

/-- One or more members with commas in between. -/
inductive Pairs : List Char → String → Json → List (String × Json) → Prop
  | one (a k b c cs d : List Char) (s : String) (v : Json) : Blank a → Quoted k s → Blank b → Blank c → Reads cs v → Blank d →
      Pairs (a ++ (k ++ (b ++ ':' :: (c ++ (cs ++ d))))) s v []
  | more (a k b c cs d r : List Char) (s t : String) (v w : Json) (l : List (String × Json)) : Blank a → Quoted k s → Blank b →
      Blank c → Reads cs v → Blank d → Pairs r t w l → Pairs (a ++ (k ++ (b ++ ':' :: (c ++ (cs ++ (d ++ ',' :: r)))))) s v ((t, w) :: l)
end

/-- A JSON text (section 2). -/
def IsText (cs : List Char) (v : Json) : Prop := ∃ a b t, Blank a ∧ Blank b ∧ Reads t v ∧ cs = a ++ (t ++ b)

end Telefacts.Json
