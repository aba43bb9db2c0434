import Verif.Model.Instance
import Verif.Spec.Schema
/-! # Specification of instances -/
namespace Telefacts.Instance
open Telefacts.Spec Telefacts.Linkbase Telefacts.Schema

/-! ## Facts -/

/-- `n` is the value of the decimal digits `cs`. -/
inductive Digits : List Char → Nat → Prop
  | one (d : Nat) : d < 10 → Digits [Char.ofNat (48 + d)] d
  | more (cs : List Char) (n d : Nat) : d < 10 → Digits cs n → Digits (cs ++ [Char.ofNat (48 + d)]) (10 * n + d)

/-- `s` is a decimal integer literal with value `z`. -/
def IntLit (s : String) (z : Int) : Prop :=
  ∃ cs n, Digits cs n ∧ ((s = String.ofList cs ∧ z = n) ∨ (s = "+" ++ String.ofList cs ∧ z = n) ∨
    (s = "-" ++ String.ofList cs ∧ z = -(n : Int)))

/-- What a fact says about its accuracy. -/
inductive Accuracy where
  | exact
  | none
  | decimals (z : Int)

/-- The accuracy declared by the attributes of a fact (64-bit integers). -/
def Declared (attrs : List Attr) : Accuracy → Prop
  | .exact => AttrVal attrs "decimals" "INF"
  | .none => ∀ s, AttrVal attrs "decimals" s → s ≠ "INF" ∧ ∀ z, IntLit s z → z < -(2 ^ 63) ∨ 2 ^ 63 ≤ z
  | .decimals z => ∃ s, AttrVal attrs "decimals" s ∧ IntLit s z ∧ -(2 ^ 63) ≤ z ∧ z < 2 ^ 63

/-- The number stored for an accuracy. -/
def stored : Accuracy → Int
  | .exact => -2147483648
  | .none => -2147483647
  | .decimals z => z

/-- The fact of a fact element. -/
structure FactOf (w : World) (e : FactElem) (f : Fact) : Prop where
  concept : ∃ c, NameOf w.env e.name f.href c
  nspace : e.name.space ≠ ""
  ctx : AttrVal e.attrs "contextRef" f.contextRef ∧ f.contextRef ≠ ""
  id : OptVal e.attrs "id" f.id
  unit : OptVal e.attrs "unitRef" f.unitRef
  isNil : f.isNil = true ↔ IsSet e.attrs "nil"
  inner : f.inner = e.inner
  precision : ∃ a, Declared e.attrs a ∧ f.precision = stored a

/-! ## Contexts -/

/-- The prefixed name `q` names a concept. -/
def Resolves (w : World) (q href : String) (c : Concept) : Prop :=
  ∃ n, QName w.tl q n ∧ n.space ≠ "" ∧ NameOf w.env n href c

def ExplicitOf (w : World) (m : MemberElem) (x : ExplicitMember) : Prop :=
  AttrVal m.attrs "dimension" x.dimValue ∧ (∃ c, Resolves w x.dimValue x.dimHref c) ∧
    x.memValue = m.chars ∧ ∃ c, Resolves w m.chars x.memHref c

/-- The content of the typed member is described by C25. -/
def TypedOf (w : World) (m : MemberElem) (x : TypedMember) : Prop :=
  AttrVal m.attrs "dimension" x.dimValue ∧
    (∃ c, Resolves w x.dimValue x.dimHref c ∧ x.typedDomainHref = c.typedDomainHref) ∧
    hydrateTypedMembers w x.dimHref m.chars = .done (x.members, x.arcs)

/-- The members of the first segment (scenario) element, if any. -/
def DimsOf (w : World) (es : List DimElem) (d : DimCtx) : Prop :=
  (es = [] ∧ d = ⟨[], []⟩) ∨
    ∃ e rest, es = e :: rest ∧ Collected (ExplicitOf w) e.explicit d.explicit ∧ Collected (TypedOf w) e.typed d.typed

/-- The period of a context. -/
def PeriodOf (ps : List PeriodElem) (instant start stop : String) : Prop :=
  (ps = [] ∧ instant = "" ∧ start = "" ∧ stop = "") ∨
    ∃ p rest, ps = p :: rest ∧
      ((p.instants = [] ∧ instant = "") ∨ ∃ r, p.instants = instant :: r) ∧
      (((p.starts = [] ∨ p.ends = []) ∧ start = "" ∧ stop = "") ∨
        ∃ r r', p.starts = start :: r ∧ p.ends = stop :: r')

/-- A context element with an id. -/
def HasId (e : CtxElem) (id : String) : Prop :=
  e.space = "http://www.xbrl.org/2003/instance" ∧ AttrVal e.attrs "id" id ∧ id ≠ ""

/-- A context element with an id and an entity with a usable identifier. -/
def Identified (e : CtxElem) (ent : EntityElem) (id scheme ident : String) : Prop :=
  HasId e id ∧ (∃ rest, e.entities = ent :: rest) ∧
    (∃ attrs rest, ent.identifiers = (attrs, ident) :: rest ∧ AttrVal attrs "scheme" scheme) ∧ ident ≠ ""

/-- A context element with an id but no entity. -/
def NoEntity (e : CtxElem) : Prop := (∃ id, HasId e id) ∧ e.entities = []

/-- The context of a context element. -/
def ContextOf (w : World) (e : CtxElem) (c : Context) : Prop :=
  ∃ ent, Identified e ent c.id c.scheme c.ident ∧ DimsOf w ent.segments c.segment ∧ DimsOf w e.scenarios c.scenario ∧
    PeriodOf e.periods c.instant c.startDate c.endDate

/-- The walk over the content of one of the typed members does not come to an end. -/
def StuckDims (w : World) (es : List DimElem) : Prop :=
  ∃ e rest, es = e :: rest ∧ ∃ m ∈ e.typed, ∃ dim href c, AttrVal m.attrs "dimension" dim ∧ Resolves w dim href c ∧
    ∀ r, hydrateTypedMembers w href m.chars ≠ .done r

/-- A usable context with such a typed member. -/
def Stuck (w : World) (e : CtxElem) : Prop :=
  ∃ ent id scheme ident, Identified e ent id scheme ident ∧ (StuckDims w ent.segments ∨ StuckDims w e.scenarios)

/-! ## Units and footnote links -/

/-- The measure of a measure element: what its text names, and the text. -/
def MeasureOf (tl : List Attr) (s : String) (m : UnitMeasure) : Prop := QName tl s m.name ∧ m.chars = s

/-- The unit of a unit element: its first measure, or the first measures of the first numerator and
denominator of its first divide element. -/
def UnitOf (tl : List Attr) (e : UnitElem) (u : HUnit) : Prop :=
  e.space = "http://www.xbrl.org/2003/instance" ∧ AttrVal e.attrs "id" u.id ∧ u.id ≠ "" ∧
  ((∃ m rest, e.measures = m :: rest ∧ MeasureOf tl m u.measure ∧
      u.numerator = ⟨⟨"", ""⟩, ""⟩ ∧ u.denominator = ⟨⟨"", ""⟩, ""⟩) ∨
   (e.measures = [] ∧ u.measure = ⟨⟨"", ""⟩, ""⟩ ∧
    ∃ a b d, (∃ rest, e.divides = d :: rest) ∧ (∃ as rest, d.numerators = (a :: as) :: rest) ∧
      (∃ bs rest, d.denominators = (b :: bs) :: rest) ∧ MeasureOf tl a u.numerator ∧ MeasureOf tl b u.denominator))

def FootnoteLocOf (attrs : List Attr) (l : FootnoteLoc) : Prop :=
  AttrVal attrs "type" "locator" ∧ AttrVal attrs "href" l.href ∧ l.href ≠ "" ∧ AttrVal attrs "label" l.label ∧ l.label ≠ ""

def FootnoteOf (e : List Attr × String) (f : Footnote) : Prop :=
  AttrVal e.1 "type" "resource" ∧ AttrVal e.1 "id" f.id ∧ f.id ≠ "" ∧ AttrVal e.1 "label" f.label ∧ f.label ≠ "" ∧
    AttrVal e.1 "lang" f.lang ∧ f.lang ≠ "" ∧ f.inner = e.2

def FootnoteArcOf (attrs : List Attr) (a : FootnoteArc) : Prop :=
  AttrVal attrs "arcrole" a.arcrole ∧ a.arcrole = "http://www.xbrl.org/2003/arcrole/fact-footnote" ∧
    AttrVal attrs "type" "arc" ∧ AttrVal attrs "from" a.frm ∧ a.frm ≠ "" ∧ AttrVal attrs "to" a.to ∧ a.to ≠ ""

def FootnoteLinkOf (e : FootnoteLinkElem) (l : FootnoteLink) : Prop :=
  AttrVal e.attrs "type" "extended" ∧ AttrVal e.attrs "role" "http://www.xbrl.org/2003/role/link" ∧
    OptVal e.attrs "title" l.title ∧ Collected FootnoteOf e.footnotes l.footnotes ∧
    Collected FootnoteLocOf e.locs l.locs ∧ Collected FootnoteArcOf e.arcs l.arcs

/-! ## Typed members -/

/-- XML content. -/
inductive Forest where
  | nil
  | elem (n : XName) (kids rest : Forest)
  | text (s : String) (rest : Forest)
deriving DecidableEq, Repr

namespace Forest
/-- Its tokens. -/
def toks : Forest → List Tok
  | nil => []
  | elem n k r => .start n :: (toks k ++ .stop n :: toks r)
  | text s r => .text s :: toks r

/-- The references of its elements in document order. -/
def hrefs (ref : XName → String) : Forest → List String
  | nil => []
  | elem n k r => ref n :: (hrefs ref k ++ hrefs ref r)
  | text _ r => hrefs ref r

/-- Every element with its parent, in document order. -/
def parents (ref : XName → String) (parent : String) : Forest → List (String × String)
  | nil => []
  | elem n k r => (parent, ref n) :: (parents ref (ref n) k ++ parents ref parent r)
  | text _ r => parents ref parent r

/-- Every non-blank text with its parent, in document order. -/
def texts (ref : XName → String) (trim : String → String) (parent : String) : Forest → List (String × String)
  | nil => []
  | elem n k r => texts ref trim (ref n) k ++ texts ref trim parent r
  | text s r => if trim s = "" then texts ref trim parent r else (parent, trim s) :: texts ref trim parent r

/-- The names of all elements. -/
def names : Forest → List XName
  | nil => []
  | elem n k r => n :: (names k ++ names r)
  | text _ r => names r

/-- No element at this level. -/
def NoElem : Forest → Prop
  | nil => True
  | elem _ _ _ => False
  | text _ r => NoElem r

/-- No element has a sibling element. -/
def Path : Forest → Prop
  | nil => True
  | elem _ k r => Path k ∧ NoElem r
  | text _ r => Path r
end Forest

/-- Consecutive pairs of a list. -/
def steps : String → List String → List (String × String)
  | _, [] => []
  | a, b :: l => (a, b) :: steps b l

end Telefacts.Instance
