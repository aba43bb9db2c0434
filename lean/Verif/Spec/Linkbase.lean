import Verif.Model.Linkbase
import Verif.Spec.AttrVal
/-! # Specification of linkbases -/
namespace Telefacts.Linkbase
open Telefacts.Spec

/-- `out` lists, in order, the images under `R` of those elements that have one. -/
inductive Collected {α β : Type} (R : α → β → Prop) : List α → List β → Prop
  | nil : Collected R [] []
  | keep (x y xs ys) : R x y → Collected R xs ys → Collected R (x :: xs) (y :: ys)
  | skip (x xs ys) : (∀ y, ¬ R x y) → Collected R xs ys → Collected R (x :: xs) ys

/-- The value of an optional attribute, empty when there is none. -/
def OptVal (attrs : List Attr) (n v : String) : Prop :=
  AttrVal attrs n v ∨ ((∀ a ∈ attrs, a.name.loc ≠ n) ∧ v = "")

/-- A locator element. -/
def LocOf (attrs : List Attr) (l : Loc) : Prop :=
  XlinkVal attrs "type" "locator" ∧ XlinkVal attrs "label" l.label ∧ l.label ≠ "" ∧
    AttrVal attrs "href" l.href ∧ l.href ≠ ""

/-- An extended link element with a role. -/
def HasRole (e : LinkElem) (r : String) : Prop :=
  XlinkVal e.attrs "type" "extended" ∧ AttrVal e.attrs "role" r ∧ r ≠ ""

/-- An arc element. -/
def ArcEnds (attrs : List Attr) (arcrole frm to : String) : Prop :=
  XlinkVal attrs "type" "arc" ∧ XlinkVal attrs "arcrole" arcrole ∧ arcrole ≠ "" ∧
    XlinkVal attrs "from" frm ∧ frm ≠ "" ∧ XlinkVal attrs "to" to ∧ to ≠ ""

/-- A non-empty numeric attribute: its value, or `dflt` when it is not a number. -/
def NumVal (parse : String → F64 × Bool) (attrs : List Attr) (n : String) (dflt v : F64) : Prop :=
  ∃ s, AttrVal attrs n s ∧ s ≠ "" ∧
    (((parse s).2 = true ∧ v = (parse s).1) ∨ ((parse s).2 = false ∧ v = dflt))

/-- (2^53 - 1) * 2^971, the largest float. -/
def largest : F64 := .fin ((2 ^ 53 - 1) * 2 ^ 971 * 2 ^ 1074)

def PArcOf (parse : String → F64 × Bool) (attrs : List Attr) (a : PArc) : Prop :=
  ArcEnds attrs a.arcrole a.frm a.to ∧ NumVal parse attrs "order" largest a.order ∧
    OptVal attrs "preferredLabel" a.preferredLabel

def CArcOf (parse : String → F64 × Bool) (attrs : List Attr) (a : CArc) : Prop :=
  ArcEnds attrs a.arcrole a.frm a.to ∧ NumVal parse attrs "order" largest a.order ∧
    NumVal parse attrs "weight" (.fin 0) a.weight

/-- Definition arcs up to their flags. -/
def DArcOf (parse : String → F64 × Bool) (attrs : List Attr) (a : DArc) : Prop :=
  ArcEnds attrs a.arcrole a.frm a.to ∧ NumVal parse attrs "order" largest a.order ∧
    OptVal attrs "contextElement" a.contextElement ∧ OptVal attrs "targetRole" a.targetRole

/-- `ls` has each role of the file once, with the locators and arcs of all its links in document order. -/
def Merged {A : Type} (arcOf : List Attr → A → Prop) (es : List LinkElem) (ls : List (Link A)) : Prop :=
  (ls.map Link.role).Nodup ∧
  (∀ r, (∃ l ∈ ls, l.role = r) ↔ ∃ e ∈ es, HasRole e r) ∧
  ∀ l ∈ ls,
    (∃ parts, Collected (fun e p => HasRole e l.role ∧ Collected LocOf e.locs p) es parts ∧
      l.locs = parts.flatten) ∧
    (∃ parts, Collected (fun e p => HasRole e l.role ∧ Collected arcOf e.arcs p) es parts ∧
      l.arcs = parts.flatten)

/-- A true boolean of XML Schema, a false one. -/
def XsTrue (s : String) : Prop := s = "true" ∨ s = "1"
def XsFalse (s : String) : Prop := s = "false" ∨ s = "0"

/-- Arc element number `i` of `n` in a label link. -/
def LArcOf (parse : String → F64 × Bool) (n i : Nat) (attrs : List Attr) (a : LArc) : Prop :=
  ArcEnds attrs a.arcrole a.frm a.to ∧
    ((∃ s, AttrVal attrs "order" s ∧ s ≠ "" ∧ a.order = (parse s).1) ∨
     (OptVal attrs "order" "" ∧ a.order = F64.ofInt (n + i)))

/-- A label resource. -/
def LabelOf (r : List Attr × String) (l : Label) : Prop :=
  XlinkVal r.1 "label" l.label ∧ l.label ≠ "" ∧ XlinkVal r.1 "role" l.role ∧ l.role ≠ "" ∧
    AttrVal r.1 "lang" l.lang ∧ l.lang ≠ "" ∧ l.chars = r.2

/-- A label link. -/
def LabelLinkOf (parse : String → F64 × Bool) (e : LinkElem) (l : LabelLink) : Prop :=
  HasRole e l.role ∧ Collected LocOf e.locs l.locs ∧ Collected LabelOf e.labels l.labels ∧
    Collected (fun p a => LArcOf parse e.arcs.length p.2 p.1 a) e.arcs.zipIdx l.arcs

/-- A role reference. -/
def RoleRefOf (e : RoleRefElem) (r : RoleRef) : Prop :=
  e.space = "http://www.xbrl.org/2003/linkbase" ∧ AttrVal e.attrs "roleURI" r.roleURI ∧ r.roleURI ≠ "" ∧
    XlinkVal e.attrs "href" r.href ∧ r.href ≠ ""

/-- The texts that `strconv.ParseBool` accepts. -/
def BoolText (s : String) : Prop := s ∈ ["1", "t", "T", "true", "TRUE", "True", "0", "f", "F", "false", "FALSE", "False"]

end Telefacts.Linkbase
