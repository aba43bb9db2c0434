import Verif.Model.Schema
import Verif.Spec.Linkbase
import Verif.Spec.Attr
/-! # Specification of schemas and concept queries -/
namespace Telefacts.Schema
open Telefacts.Spec Telefacts.Linkbase

/-- A boolean attribute is set: the first attribute of that name has one of the true literals. -/
def IsSet (attrs : List Attr) (n : String) : Prop :=
  ∃ s, AttrVal attrs n s ∧ (s = "1" ∨ s = "t" ∨ s = "T" ∨ s = "true" ∨ s = "TRUE" ∨ s = "True")

/-- The value of an attribute that counts only in namespace `space`; empty otherwise. -/
def SpacedVal (space : String) (attrs : List Attr) (n v : String) : Prop :=
  (∃ a, FirstWith (fun a : Attr => a.name.loc = n) attrs a ∧ a.name.space = space ∧ a.value = v) ∨
  ((∀ a, FirstWith (fun a : Attr => a.name.loc = n) attrs a → a.name.space ≠ space) ∧ v = "")

/-- The concept declared by an element of a schema file at `fileName`. -/
structure ConceptOf (tl : List Attr) (fileName : String) (e : Elem) (c : Concept) : Prop where
  space : e.space = "http://www.w3.org/2001/XMLSchema"
  id : AttrVal e.attrs "id" c.id ∧ c.id ≠ ""
  name : AttrVal e.attrs "name" c.name.loc ∧ c.name.loc ≠ ""
  target : OptVal tl "targetNamespace" c.name.space
  type : ∃ t, AttrVal e.attrs "type" t ∧ t ≠ "" ∧ QName tl t c.type
  subst : ∃ g, OptVal e.attrs "substitutionGroup" g ∧ ((g = "" ∧ c.substitutionGroup = ⟨"", ""⟩) ∨ (g ≠ "" ∧ QName tl g c.substitutionGroup))
  nillable : c.nillable = true ↔ IsSet e.attrs "nillable"
  abstract : c.abstract = true ↔ IsSet e.attrs "abstract"
  period : SpacedVal "http://www.xbrl.org/2003/instance" e.attrs "periodType" c.periodType
  balance : SpacedVal "http://www.xbrl.org/2003/instance" e.attrs "balance" c.balance
  typed : ∃ r, SpacedVal "http://xbrl.org/2005/xbrldt" e.attrs "typedDomainRef" r ∧
    c.typedDomainHref = if r.toList.head? = some '#' then fileName ++ r else r

/-- A role type declared by an element. -/
def RoleTypeOf (e : RoleTypeElem) (r : RoleType) : Prop :=
  e.space = "http://www.xbrl.org/2003/linkbase" ∧ AttrVal e.attrs "id" r.id ∧ r.id ≠ "" ∧
  AttrVal e.attrs "roleURI" r.roleURI ∧ r.roleURI ≠ "" ∧
  (∀ d ds, e.definitions = d :: ds → r.definition = d) ∧ (e.definitions = [] → r.definition = "") ∧
  Collected (fun u s => u.1 = "http://www.xbrl.org/2003/linkbase" ∧ s = u.2) e.usedOn r.usedOn

/-- `file` is what the folder reads at location `l`. -/
def FileAt (h : Env) (l : String) (file : SchemaFile) : Prop :=
  l ≠ "" ∧ ((h.validUrl l = true ∧ h.discover l = some file) ∨
    (h.validUrl l = false ∧ (mapGet h.schemas l = some file ∨ (mapGet h.schemas l = none ∧ file = ⟨[], [], []⟩))))

/-- The schema at location `l` declares `c`. -/
def Declares (h : Env) (l : String) (c : Concept) : Prop :=
  ∃ file, FileAt h l file ∧ ∃ e ∈ file.elements, ConceptOf file.attrs l e c

/-- The concept of a name and the reference to it: the first concept of that name in the schema of the namespace. -/
def NameOf (h : Env) (n : XName) (href : String) (c : Concept) : Prop :=
  ∃ l file cs, mapGet h.namespaces n.space = some l ∧ FileAt h l file ∧ Collected (ConceptOf file.attrs l) file.elements cs ∧
    FirstWith (fun c : Concept => c.name = n) cs c ∧ href = l ++ "#" ++ c.id

end Telefacts.Schema
