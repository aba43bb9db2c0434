import Verif.Model.Xml
import Verif.Spec.Linkbase
/-! # Specification of decoding: which child elements end up where -/
namespace Telefacts.Decode
open Telefacts.Instance Telefacts.Linkbase Telefacts.Schema

/-- `l` lists, in document order, the images of the child elements with local name `n`. -/
def Kids {α : Type} (n : String) (R : Xml → α → Prop) (x : Xml) (l : List α) : Prop :=
  Collected (fun k y => k.name.loc = n ∧ R k y) x.kids l

def HasAttrs (x : Xml) (a : List Attr) : Prop := a = x.attrs
def HasText (x : Xml) (s : String) : Prop := s = x.chars
def HasSource (x : Xml) (s : String) : Prop := s = x.inner
def HasAttrsText (x : Xml) (p : List Attr × String) : Prop := p.1 = x.attrs ∧ p.2 = x.chars
def HasAttrsSource (x : Xml) (p : List Attr × String) : Prop := p.1 = x.attrs ∧ p.2 = x.inner
def IsItem (x : Xml) (i : Disc.Item) : Prop := i.space = x.name.space ∧ i.attrs = x.attrs

def IsDims (x : Xml) (d : DimElem) : Prop :=
  Kids "explicitMember" (fun k m => m.attrs = k.attrs ∧ m.chars = k.chars) x d.explicit ∧
  Kids "typedMember" (fun k m => m.attrs = k.attrs ∧ m.chars = k.inner) x d.typed

def IsEntity (x : Xml) (e : EntityElem) : Prop :=
  Kids "identifier" HasAttrsText x e.identifiers ∧ Kids "segment" IsDims x e.segments

def IsPeriod (x : Xml) (p : PeriodElem) : Prop :=
  Kids "instant" HasText x p.instants ∧ Kids "startDate" HasText x p.starts ∧ Kids "endDate" HasText x p.ends

def IsContext (x : Xml) (c : CtxElem) : Prop :=
  c.space = x.name.space ∧ c.attrs = x.attrs ∧ Kids "entity" IsEntity x c.entities ∧ Kids "period" IsPeriod x c.periods ∧
    Kids "scenario" IsDims x c.scenarios

def IsDivide (x : Xml) (d : DivideElem) : Prop :=
  Kids "unitNumerator" (Kids "measure" HasText) x d.numerators ∧ Kids "unitDenominator" (Kids "measure" HasText) x d.denominators

def IsUnit (x : Xml) (u : UnitElem) : Prop :=
  u.space = x.name.space ∧ u.attrs = x.attrs ∧ Kids "measure" HasText x u.measures ∧ Kids "divide" IsDivide x u.divides

def IsFootnoteLink (x : Xml) (l : FootnoteLinkElem) : Prop :=
  l.attrs = x.attrs ∧ Kids "loc" HasAttrs x l.locs ∧ Kids "footnote" HasAttrsSource x l.footnotes ∧ Kids "footnoteArc" HasAttrs x l.arcs

def IsFact (x : Xml) (f : FactElem) : Prop := f.name = x.name ∧ f.attrs = x.attrs ∧ f.inner = x.inner

/-- Local names that are not taken for facts. -/
def Reserved (n : String) : Prop := n = "schemaRef" ∨ n = "context" ∨ n = "unit" ∨ n = "footnoteLink"

/-- The decoded instance of a tree. -/
def IsInstance (x : Xml) (f : InstFile) : Prop :=
  f.attrs = x.attrs ∧ Kids "schemaRef" IsItem x f.schemaRef ∧ Kids "context" IsContext x f.contexts ∧ Kids "unit" IsUnit x f.units ∧
    Kids "footnoteLink" IsFootnoteLink x f.footnoteLinks ∧ Collected (fun k y => ¬ Reserved k.name.loc ∧ IsFact k y) x.kids f.facts

def IsRoleType (x : Xml) (r : RoleTypeElem) : Prop :=
  r.space = x.name.space ∧ r.attrs = x.attrs ∧ Kids "definition" HasText x r.definitions ∧
    Kids "usedOn" (fun k u => u.1 = k.name.space ∧ u.2 = k.chars) x r.usedOn

/-- The decoded schema of a tree, as read by hydration. -/
def IsSchema (x : Xml) (f : SchemaFile) : Prop :=
  f.attrs = x.attrs ∧ Kids "element" (fun k e => e.space = k.name.space ∧ e.attrs = k.attrs) x f.elements ∧
    Kids "annotation" (fun k a => a.space = k.name.space ∧ Kids "appinfo" (fun k i => i.space = k.name.space ∧
      Kids "roleType" IsRoleType k i.roleTypes) k a.appinfos) x f.annotations

/-- The decoded schema of a tree, as read by discovery. -/
def IsDiscovered (x : Xml) (f : Disc.SchemaFile) : Prop :=
  f.attrs = x.attrs ∧ Kids "include" IsItem x f.incl ∧ Kids "import" IsItem x f.imp ∧
    Kids "annotation" (fun k a => a.space = k.name.space ∧ Kids "appinfo" (fun k i => i.space = k.name.space ∧
      Kids "linkbaseRef" IsItem k i.linkbaseRef) k a.appinfo) x f.annotation

/-- The names of the links and arcs of a kind of linkbase. -/
def LinkNames (kind : Disc.LKind) (link arc : String) : Prop :=
  (kind = .pre ∧ link = "presentationLink" ∧ arc = "presentationArc") ∨
  (kind = .defn ∧ link = "definitionLink" ∧ arc = "definitionArc") ∨
  (kind = .calc ∧ link = "calculationLink" ∧ arc = "calculationArc") ∨
  (kind = .lab ∧ link = "labelLink" ∧ arc = "labelArc")

/-- A link of a linkbase; only label links have labels. -/
def IsLink (kind : Disc.LKind) (arc : String) (x : Xml) (l : LinkElem) : Prop :=
  l.attrs = x.attrs ∧ Kids "loc" HasAttrs x l.locs ∧ Kids arc HasAttrs x l.arcs ∧
    (kind = .lab → Kids "label" HasAttrsText x l.labels) ∧ (kind ≠ .lab → l.labels = [])

/-- The decoded linkbase of a tree. -/
def IsLinkbase (kind : Disc.LKind) (x : Xml) (f : LinkbaseFile) : Prop :=
  Kids "roleRef" (fun k r => r.space = k.name.space ∧ r.attrs = k.attrs) x f.roleRefs ∧
    ∃ link arc, LinkNames kind link arc ∧ Kids link (IsLink kind arc) x f.links

/-- A unit of the unit registry. -/
structure IsRegistryUnit (x : Xml) (u : Query.UtrUnit) : Prop where
  unitID : Kids "unitId" HasText x u.unitID
  unitName : Kids "unitName" HasText x u.unitName
  nsUnit : Kids "nsUnit" HasText x u.nsUnit
  itemType : Kids "itemType" HasText x u.itemType
  nsItemType : Kids "nsItemType" HasText x u.nsItemType
  itemTypeDate : Kids "itemTypeDate" HasText x u.itemTypeDate
  symbol : Kids "symbol" HasText x u.symbol
  definition : Kids "definition" HasText x u.definition
  baseStandard : Kids "baseStandard" HasText x u.baseStandard
  conversionPresentation : Kids "conversionPresentation" HasSource x u.conversionPresentation
  conversionContent : Kids "conversionContent" HasSource x u.conversionContent
  status : Kids "status" HasText x u.status
  versionDate : Kids "versionDate" HasText x u.versionDate
  numeratorItemType : Kids "numeratorItemType" HasText x u.numeratorItemType
  nsNumeratorItemType : Kids "nsNumeratorItemType" HasText x u.nsNumeratorItemType
  denominatorItemType : Kids "denominatorItemType" HasText x u.denominatorItemType
  nsDenominatorItemType : Kids "nsDenominatorItemType" HasText x u.nsDenominatorItemType

/-- The decoded unit registry of a tree. -/
def IsRegistry (x : Xml) (l : List (List Query.UtrUnit)) : Prop := Kids "units" (Kids "unit" IsRegistryUnit) x l

end Telefacts.Decode
