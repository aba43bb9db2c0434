import Verif.Model.Domain
import Verif.Spec.Network
/-! # Specification of effective domains and root domains -/
namespace Telefacts.Render
open Telefacts.Spec Telefacts.Linkbase

/-- A hypercube of a primary item (`net`: arcs from primary items to hypercubes) with a dimension. -/
def HasCube (w : Networks) (net : List Node) (primary dim cube : String) : Prop :=
  ∃ n ∈ net, w.href n = primary ∧ ∃ c ∈ n.children, w.href c = cube ∧
    ∃ d ∈ w.hypercubeDimension, w.href d = cube ∧ ∃ x ∈ d.children, w.href x = dim

/-- A default member of a dimension. -/
def DefaultOf (w : Networks) (dim m : String) : Prop :=
  ∃ n ∈ w.dimensionDefault, w.href n = dim ∧ ∃ c ∈ n.children, w.href c = m

/-- A node of an explicit domain. -/
def DomainMember (w : Networks) (m : String) : Prop :=
  ∃ t ∈ w.explicitDomain, w.href t = m ∨ ∃ x, Below t x ∧ w.href x = m

/-- The dimension has a domain. -/
def HasDomain (w : Networks) (dim : String) : Prop := ∃ r ∈ w.dimensionDomain, w.href r = dim

/-- By href; then default members first; then struck-through members last. -/
def EffectiveBefore (a b : EffectiveMember) : Prop :=
  a.href < b.href ∨ a.href = b.href ∧
    (a.isDefault = true ∧ b.isDefault = false ∨
      a.isDefault = b.isDefault ∧ a.isStrikethrough = false ∧ b.isStrikethrough = true)

/-- Why a member is listed in the effective domain of a primary item and a dimension. -/
structure Listed (w : Networks) (primary dim : String) (m : EffectiveMember) : Prop where
  label : m.label = w.label m.href
  cube : if m.isStrikethrough = true then ∃ cube, HasCube w w.exclusive primary dim cube
    else ∃ cube, HasCube w w.inclusive primary dim cube
  default : m.isDefault = true → if m.isStrikethrough = true then ∃ dim', DefaultOf w dim' m.href else DefaultOf w dim m.href
  member : m.isDefault = false → HasDomain w dim ∧ DomainMember w m.href

/-- The hrefs of all nodes of some trees, in pre-order. -/
inductive HrefsOf (w : Networks) : List Node → List String → Prop
  | nil : HrefsOf w [] []
  | cons (l o cs rest below after) : HrefsOf w cs below → HrefsOf w rest after →
      HrefsOf w (.mk l o cs :: rest) (w.loc l :: (below ++ after))

/-- A network in which no two arcs say the same thing. -/
structure Distinct (w : Networks) (net : List Node) : Prop where
  roots : (net.map w.href).Nodup
  kids : ∀ n ∈ net, (n.children.map w.href).Nodup

/-- No member is listed twice for the primary item and the dimension. -/
structure Tidy (w : Networks) (primary dim : String) : Prop where
  inclusive : Distinct w w.inclusive
  exclusive : Distinct w w.exclusive
  dimensions : Distinct w w.hypercubeDimension
  defaults : Distinct w w.dimensionDefault
  domains : (w.dimensionDomain.map w.href).Nodup
  members : ∀ l, HrefsOf w w.explicitDomain l → l.Nodup
  /-- A member is the default of one dimension only. -/
  oneDimension : (w.dimensionDefault.flatMap fun n => n.children.map w.href).Nodup
  /-- No dimension is a default member. -/
  apart : ∀ n ∈ w.dimensionDefault, ∀ dim', ¬ DefaultOf w dim' (w.href n)
  /-- One hypercube only includes (excludes) the dimension for the primary item. -/
  oneInclusive : ∀ c c', HasCube w w.inclusive primary dim c → HasCube w w.inclusive primary dim c' → c = c'
  oneExclusive : ∀ c c', HasCube w w.exclusive primary dim c → HasCube w w.exclusive primary dim c' → c = c'
  /-- No hypercube is both included and excluded. -/
  noConflict : ∀ c, ¬ (HasCube w w.inclusive primary dim c ∧ HasCube w w.exclusive primary dim c)

/-- A member of a dimension: a default, or a node of a domain that the dimension has or that is headed by a default. -/
def MemberOfDimension (w : Networks) (dim m : String) : Prop :=
  DefaultOf w dim m ∨ ∃ r ∈ w.dimensionDomain ++ w.dimensionDefault, w.href r = dim ∧ ∃ c ∈ r.children,
    ∃ t ∈ w.explicitDomain, t.locator = c.locator ∧ (w.href t = m ∨ ∃ x, Below t x ∧ w.href x = m)

/-- The networks of a definition link: for every arc role the tree of its arcs; the roots of the domain-member network
split into primary items and explicit domains. -/
structure NetworksOf (f : Folder) (role : String) (lb : Lb DArc) (k : Link DArc) (primary : List Node) (w : Networks) : Prop where
  all : w.inclusive = (f.tree (k.arcs.map fun a => ⟨a.arcrole, a.order, a.frm, a.to⟩) "http://xbrl.org/int/dim/arcrole/all").children
  notAll : w.exclusive = (f.tree (k.arcs.map fun a => ⟨a.arcrole, a.order, a.frm, a.to⟩) "http://xbrl.org/int/dim/arcrole/notAll").children
  dimension : w.hypercubeDimension =
    (f.tree (k.arcs.map fun a => ⟨a.arcrole, a.order, a.frm, a.to⟩) "http://xbrl.org/int/dim/arcrole/hypercube-dimension").children
  domain : w.dimensionDomain =
    (f.tree (k.arcs.map fun a => ⟨a.arcrole, a.order, a.frm, a.to⟩) "http://xbrl.org/int/dim/arcrole/dimension-domain").children
  default : w.dimensionDefault =
    (f.tree (k.arcs.map fun a => ⟨a.arcrole, a.order, a.frm, a.to⟩) "http://xbrl.org/int/dim/arcrole/dimension-default").children
  members : ∃ dm, dm = (f.tree (k.arcs.map fun a => ⟨a.arcrole, a.order, a.frm, a.to⟩) "http://xbrl.org/int/dim/arcrole/domain-member").children ∧
    primary.Sublist dm ∧ w.explicitDomain.Sublist dm ∧ (primary ++ w.explicitDomain).Perm dm
  explicit : ∀ n ∈ w.explicitDomain, ∃ r ∈ w.dimensionDomain ++ w.dimensionDefault, ∃ c ∈ r.children, c.locator = n.locator
  primary : ∀ n ∈ primary, ¬ ∃ r ∈ w.dimensionDomain ++ w.dimensionDefault, ∃ c ∈ r.children, c.locator = n.locator
  loc : w.loc = mapLocator role lb
  label : w.label = f.label

/-- A root domain shown for a root of the primary items. -/
structure ShowsRoot {Φ : Type} (f : Folder) (source : List Lang → FactSource Φ) (entity : String) (w : Networks)
    (dims : List String) (root : Node) (r : RootDomain Φ) : Prop where
  href : r.href = w.href root
  label : r.label = f.label r.href
  items : NoNaN root → ∃ tops out, ByOrder root.children tops ∧ Outline 0 tops out ∧
    r.primaryItems = out.map fun p => ⟨w.loc p.2, f.label (w.loc p.2), p.1⟩
  dimensions : r.dimensions = dims.map fun d => ⟨d, f.label d⟩
  domains : ∀ i j x, CellAt r.domains i j x ↔
    ∃ h d, (r.href :: r.primaryItems.map PrimaryItem.href)[i]? = some h ∧ dims[j]? = some d ∧ x = (getEffectiveDomain w h d).1
  shape : HasShape r.domains (r.primaryItems.length + 1) r.dimensions.length
  facts : ∃ rel langs, getRelevantContexts f entity (r.href :: r.primaryItems.map PrimaryItem.href) = .done rel ∧
    r.periods = rel.contexts.map RelevantContext.period ∧
    r.quadrant = getFactualQuadrant (source langs) (r.href :: r.primaryItems.map PrimaryItem.href) rel.contexts

end Telefacts.Render
