import Verif.Model.XmlText
import Mathlib.Data.List.Forall2
/-!
# Specification of XML texts

A grammar after XML 1.0 and Namespaces in XML 1.0, with the liberties that are noted. `Env` is only used for its tables.
-/
namespace Telefacts.XmlText

/-- White space (production 3). -/
def White (s : Str) : Prop := ∀ c ∈ s, c = ' ' ∨ c = '\t' ∨ c = '\n' ∨ c = '\r'

/-- A character a name can begin with. -/
def StartChar (e : Env) (c : Char) : Prop :=
  ('A' ≤ c ∧ c ≤ 'Z') ∨ ('a' ≤ c ∧ c ≤ 'z') ∨ c = '_' ∨ c = ':' ∨ (128 ≤ c.toNat ∧ e.first c = true)

/-- A character a name can contain. -/
def NameChar (e : Env) (c : Char) : Prop :=
  StartChar e c ∨ ('0' ≤ c ∧ c ≤ '9') ∨ c = '.' ∨ c = '-' ∨ (128 ≤ c.toNat ∧ e.second c = true)

/-- A name (production 5). -/
def IsName (e : Env) (n : Str) : Prop := ∃ c t, n = c :: t ∧ StartChar e c ∧ ∀ d ∈ t, NameChar e d

/-- A name with at most one colon; the colon separates when there is something on both sides. -/
def QName (e : Env) (n : Str) (x : XName) : Prop :=
  IsName e n ∧
    ((∃ p l, p ≠ [] ∧ l ≠ [] ∧ ':' ∉ p ∧ ':' ∉ l ∧ n = p ++ ':' :: l ∧ x = ⟨String.ofList p, String.ofList l⟩) ∨
      (x = ⟨"", String.ofList n⟩ ∧ (':' ∉ n ∨ ∃ m, ':' ∉ m ∧ (n = ':' :: m ∨ n = m ++ [':']))))

/-- A character of a document (production 2). -/
def XmlChar (c : Char) : Prop :=
  c.toNat = 9 ∨ c.toNat = 10 ∨ c.toNat = 13 ∨ (32 ≤ c.toNat ∧ c.toNat ≤ 0xD7FF) ∨ (0xE000 ≤ c.toNat ∧ c.toNat ≤ 0xFFFD) ∨
    (0x10000 ≤ c.toNat ∧ c.toNat ≤ 0x10FFFF)

/-- The value of a digit. -/
def DigitOf (c : Char) (v : Nat) : Prop :=
  ('0' ≤ c ∧ c ≤ '9' ∧ v = c.toNat - 48) ∨ ('a' ≤ c ∧ c ≤ 'f' ∧ v = c.toNat - 97 + 10) ∨
    ('A' ≤ c ∧ c ≤ 'F' ∧ v = c.toNat - 65 + 10)

/-- The digits of a number. -/
inductive Numeral (base : Nat) : Str → Nat → Prop
  | one (c : Char) (v : Nat) : DigitOf c v → v < base → Numeral base [c] v
  | more (s : Str) (n : Nat) (c : Char) (v : Nat) : Numeral base s n → DigitOf c v → v < base →
      Numeral base (s ++ [c]) (base * n + v)

/-- References to characters (productions 66 and 68). The number of a surrogate stands for U+FFFD. -/
inductive Reference : Str → Char → Prop
  | lt : Reference "&lt;".toList '<'
  | gt : Reference "&gt;".toList '>'
  | amp : Reference "&amp;".toList '&'
  | apos : Reference "&apos;".toList '\''
  | quot : Reference "&quot;".toList '"'
  | dec (ds : Str) (n : Nat) (c : Char) : Numeral 10 ds n → c.toNat = n → Reference ('&' :: '#' :: ds ++ [';']) c
  | hex (ds : Str) (n : Nat) (c : Char) : Numeral 16 ds n → c.toNat = n → Reference ('&' :: '#' :: 'x' :: ds ++ [';']) c
  | decSurrogate (ds : Str) (n : Nat) (c : Char) : Numeral 10 ds n → 0xD800 ≤ n → n < 0xE000 → c.toNat = 0xFFFD →
      Reference ('&' :: '#' :: ds ++ [';']) c
  | hexSurrogate (ds : Str) (n : Nat) (c : Char) : Numeral 16 ds n → 0xD800 ≤ n → n < 0xE000 → c.toNat = 0xFFFD →
      Reference ('&' :: '#' :: 'x' :: ds ++ [';']) c

/-- Character data and attribute values without the quotes `q`: what is written and what it means. Ends of lines are
normalized (2.11). -/
inductive Pieces (q : Option Char) : Str → Str → Prop
  | nil : Pieces q [] []
  | char (c : Char) (s v : Str) : c ≠ '<' → c ≠ '&' → c ≠ '\r' → q ≠ some c → XmlChar c → Pieces q s v → Pieces q (c :: s) (c :: v)
  | crlf (s v : Str) : Pieces q s v → Pieces q ('\r' :: '\n' :: s) ('\n' :: v)
  | cr (s v : Str) : s.head? ≠ some '\n' → Pieces q s v → Pieces q ('\r' :: s) ('\n' :: v)
  | ref (a : Str) (c : Char) (s v : Str) : Reference a c → XmlChar c → Pieces q s v → Pieces q (a ++ s) (c :: v)

/-- A CDATA section: only ends of lines are normalized. -/
inductive Lines : Str → Str → Prop
  | nil : Lines [] []
  | char (c : Char) (s v : Str) : c ≠ '\r' → XmlChar c → Lines s v → Lines (c :: s) (c :: v)
  | crlf (s v : Str) : Lines s v → Lines ('\r' :: '\n' :: s) ('\n' :: v)
  | cr (s v : Str) : s.head? ≠ some '\n' → Lines s v → Lines ('\r' :: s) ('\n' :: v)

/-- The rest of a declaration `<!...>`, inside `d` further `<`. -/
inductive Declaration : Nat → Str → Prop
  | done : Declaration 0 ['>']
  | up (d : Nat) (s : Str) : Declaration d s → Declaration (d + 1) ('>' :: s)
  | quoted (d : Nat) (q : Char) (t s : Str) : q = '"' ∨ q = '\'' → q ∉ t → Declaration d s → Declaration d (q :: t ++ q :: s)
  | comment (d : Nat) (t s : Str) : ¬ "-->".toList <:+: t ++ "--".toList → Declaration d s →
      Declaration d ("<!--".toList ++ t ++ "-->".toList ++ s)
  | down (d : Nat) (s : Str) : ¬ "!--".toList <+: s → Declaration (d + 1) s → Declaration d ('<' :: s)
  | other (d : Nat) (c : Char) (s : Str) : c ≠ '<' → c ≠ '>' → c ≠ '"' → c ≠ '\'' → Declaration d s → Declaration d (c :: s)

/-- Markup other than tags, and the character data that it stands for. -/
inductive Markup (e : Env) : Str → Str → Prop
  /-- production 18 -/
  | cdata (s v : Str) : ¬ "]]>".toList <:+: s ++ "]]".toList → Lines s v →
      Markup e ("<![CDATA[".toList ++ s ++ "]]>".toList) v
  /-- production 15 -/
  | comment (s : Str) : ¬ "--".toList <:+: s ++ ['-'] → Markup e ("<!--".toList ++ s ++ "-->".toList) []
  /-- production 16; white space is only needed where the name would go on. XML declarations are allowed everywhere. -/
  | inst (n w d : Str) : IsName e n → White w → (∀ c, d.head? = some c → ¬ White [c]) →
      (w = [] → ∀ c, d.head? = some c → c.toNat < 128 ∧ ¬ NameChar e c) → ¬ "?>".toList <:+: d ++ ['?'] →
      (n = "xml".toList → e.declOk d = true) → Markup e ("<?".toList ++ n ++ w ++ d ++ "?>".toList) []
  /-- A document type declaration, or something like that, anywhere. -/
  | decl (c : Char) (s : Str) : c ≠ '-' → c ≠ '[' → Declaration 0 s → Markup e ('<' :: '!' :: c :: s) []

/-- The attributes in a start tag. White space is not needed after a value. -/
inductive Atts (e : Env) : Str → List (XName × Str) → Prop
  | nil (w : Str) : White w → Atts e w []
  | cons (w n w1 w2 : Str) (q : Char) (t r : Str) (x : XName) (v : Str) (l : List (XName × Str)) : White w → QName e n x →
      White w1 → White w2 → q = '"' ∨ q = '\'' → Pieces (some q) t v → Atts e r l →
      Atts e (w ++ n ++ w1 ++ '=' :: w2 ++ q :: t ++ q :: r) ((x, v) :: l)

/-- `<`, the name and the attributes. -/
def Tag (e : Env) (s : Str) (n : Str) (x : XName) (l : List (XName × Str)) : Prop :=
  ∃ a, QName e n x ∧ Atts e a l ∧ (∀ c, a.head? = some c → White [c]) ∧ s = '<' :: n ++ a

/-- The attribute declares the prefix; the empty prefix stands for names without prefix. -/
def Declares (x : XName) (p : String) : Prop := (x.space = "xmlns" ∧ x.loc = p) ∨ (x.space = "" ∧ x.loc = "xmlns" ∧ p = "")

/-- The innermost declaration of the prefix, `scope` being the attributes of the open elements, the innermost first. (Of two
declarations in one tag the last one counts.) -/
def Bound (scope : List (List (XName × Str))) (p : String) (u : String) : Prop :=
  ∃ inner l outer a v b x, scope = inner ++ l :: outer ∧ l = a ++ (x, v) :: b ∧ Declares x p ∧ u = String.ofList v ∧
    (∀ y ∈ b, ¬ Declares y.1 p) ∧ ∀ l' ∈ inner, ∀ y ∈ l', ¬ Declares y.1 p

/-- The name that a written name stands for. A prefix that is not declared is taken for a namespace. -/
inductive Resolved (scope : List (List (XName × Str))) (elem : Bool) : XName → XName → Prop
  | declaration (x : XName) : x.space = "xmlns" ∨ (x.space = "" ∧ x.loc = "xmlns") → Resolved scope elem x x
  | unprefixed (x : XName) : x.space = "" → elem = false → Resolved scope elem x x
  | xml (x : XName) : x.space = "xml" → Resolved scope elem x ⟨"http://www.w3.org/XML/1998/namespace", x.loc⟩
  | bound (x : XName) (u : String) : x.space ≠ "xmlns" → x.space ≠ "xml" → (x.space = "" → elem = true ∧ x.loc ≠ "xmlns") →
      Bound scope x.space u → Resolved scope elem x ⟨u, x.loc⟩
  | unbound (x : XName) : x.space ≠ "xmlns" → x.space ≠ "xml" → (x.space = "" → elem = true ∧ x.loc ≠ "xmlns") →
      (∀ u, ¬ Bound scope x.space u) → Resolved scope elem x x

/-- The attributes with their names resolved. -/
def ResolvedAtts (scope : List (List (XName × Str))) (l : List (XName × Str)) (as : List Attr) : Prop :=
  List.Forall₂ (fun p a => Resolved scope false p.1 a.name ∧ a.value = String.ofList p.2) l as

mutual
/-- An element (productions 39 to 44): the same name in both tags. -/
inductive Element (e : Env) : List (List (XName × Str)) → Str → Xml → Prop
  | empty (sc : List (List (XName × Str))) (s n : Str) (x y : XName) (l : List (XName × Str)) (as : List Attr) : Tag e s n x l →
      Resolved (l :: sc) true x y → ResolvedAtts (l :: sc) l as →
      Element e sc (s ++ "/>".toList) (Xml.mk y as "" "" [])
  | full (sc : List (List (XName × Str))) (s n b w cs : Str) (x y : XName) (l : List (XName × Str)) (as : List Attr) (ks : List Xml) :
      Tag e s n x l → Resolved (l :: sc) true x y → ResolvedAtts (l :: sc) l as → Content e (l :: sc) b cs ks → White w →
      Element e sc (s ++ '>' :: (b ++ ("</".toList ++ (n ++ (w ++ ['>']))))) (Xml.mk y as (String.ofList cs) (String.ofList b) ks)

/-- The content of an element: its text and its elements (production 43). Text reaches up to the next markup. -/
inductive Content (e : Env) : List (List (XName × Str)) → Str → Str → List Xml → Prop
  | nil (sc : List (List (XName × Str))) : Content e sc [] [] []
  | text (sc : List (List (XName × Str))) (t v s cs : Str) (ks : List Xml) : t ≠ [] → Pieces none t v → ¬ "]]>".toList <:+: t →
      (∀ c, s.head? = some c → c = '<') → Content e sc s cs ks → Content e sc (t ++ s) (v ++ cs) ks
  | markup (sc : List (List (XName × Str))) (m v s cs : Str) (ks : List Xml) : Markup e m v → Content e sc s cs ks →
      Content e sc (m ++ s) (v ++ cs) ks
  | elem (sc : List (List (XName × Str))) (a s cs : Str) (x : Xml) (ks : List Xml) : Element e sc a x → Content e sc s cs ks →
      Content e sc (a ++ s) cs (x :: ks)
end

/-- The tokens of content, in document order. An empty element tag counts as a start and an end tag. -/
inductive Tokens (e : Env) : List (List (XName × Str)) → Str → List Instance.Tok → Prop
  | nil (sc : List (List (XName × Str))) : Tokens e sc [] []
  | text (sc : List (List (XName × Str))) (t v s : Str) (ts : List Instance.Tok) : t ≠ [] → Pieces none t v → ¬ "]]>".toList <:+: t →
      (∀ c, s.head? = some c → c = '<') → Tokens e sc s ts → Tokens e sc (t ++ s) (.text (String.ofList v) :: ts)
  | cdata (sc : List (List (XName × Str))) (t v s : Str) (ts : List Instance.Tok) : ¬ "]]>".toList <:+: t ++ "]]".toList → Lines t v →
      Tokens e sc s ts → Tokens e sc ("<![CDATA[".toList ++ t ++ "]]>".toList ++ s) (.text (String.ofList v) :: ts)
  | markup (sc : List (List (XName × Str))) (m s : Str) (ts : List Instance.Tok) : Markup e m [] → ¬ "<![".toList <+: m → Tokens e sc s ts →
      Tokens e sc (m ++ s) (.other :: ts)
  | empty (sc : List (List (XName × Str))) (t n s : Str) (x y : XName) (l : List (XName × Str)) (ts : List Instance.Tok) : Tag e t n x l →
      Resolved (l :: sc) true x y → Tokens e sc s ts → Tokens e sc (t ++ "/>".toList ++ s) (.start y :: .stop y :: ts)
  | full (sc : List (List (XName × Str))) (t n b w s : Str) (x y : XName) (l : List (XName × Str)) (ts ts' : List Instance.Tok) : Tag e t n x l →
      Resolved (l :: sc) true x y → Tokens e (l :: sc) b ts → White w → Tokens e sc s ts' →
      Tokens e sc (t ++ '>' :: (b ++ ("</".toList ++ (n ++ (w ++ ['>'])))) ++ s) (.start y :: (ts ++ .stop y :: ts'))

/-- What can precede the root element: text is not forbidden there. -/
inductive Prolog (e : Env) : Str → Prop
  | nil : Prolog e []
  | text (t v s : Str) : t ≠ [] → Pieces none t v → ¬ "]]>".toList <:+: t → (∀ c, s.head? = some c → c = '<') → Prolog e s →
      Prolog e (t ++ s)
  | markup (m v s : Str) : Markup e m v → Prolog e s → Prolog e (m ++ s)

/-- A document with that root element. Anything can follow it. -/
def IsDocument (e : Env) (s : Str) (x : Xml) : Prop := ∃ a b c, s = a ++ (b ++ c) ∧ Prolog e a ∧ Element e [] b x

/-- The element itself or an element inside it. -/
inductive Within : Xml → Xml → Prop
  | self (x : Xml) : Within x x
  | kid (x k y : Xml) : k ∈ x.kids → Within k y → Within x y

/-- White space, comments, processing instructions and declarations (production 27). -/
inductive Misc (e : Env) : Str → Prop
  | nil : Misc e []
  | white (c : Char) (s : Str) : White [c] → Misc e s → Misc e (c :: s)
  | markup (m s : Str) : Markup e m [] → ¬ "<![".toList <+: m → Misc e s → Misc e (m ++ s)

/-- There is nothing else around the root element (production 1). -/
def Rooted (e : Env) (s : Str) : Prop := ∃ a b c x, s = a ++ (b ++ c) ∧ Misc e a ∧ Element e [] b x ∧ Misc e c

/-- No attribute is given twice (3.1). -/
def UniqueAtts (x : Xml) : Prop := ∀ y, Within x y → (y.attrs.map Attr.name).Nodup

end Telefacts.XmlText
