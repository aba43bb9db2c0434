import Verif.Model.Network
import Verif.Spec.Member
/-! # Specification of the rows of presentation, calculation and definition grids -/
namespace Telefacts.Render
open Telefacts.Spec Telefacts.Linkbase

/-- The locators of the links of a role. -/
def roleLocs {A : Type} (role : String) (lb : Lb A) : List Loc :=
  (lb.links.filter fun k => decide (k.role = role)).flatMap Link.locs

/-- The href that a locator label stands for in a role of a linkbase. -/
def LocatorHref {A : Type} (role : String) (lb : Lb A) (locator href : String) : Prop :=
  (∃ r ∈ lb.roleRefs, r.roleURI = role) ∧
    ∃ l, FirstWith (fun l : Loc => l.label = locator ∧ '#' ∈ l.href.toList) (roleLocs role lb) l ∧ l.href = href

/-- The order of numbers; "not a number" is not comparable. -/
def Less (a b : F64) : Prop :=
  (∃ x y : Int, a = .fin x ∧ b = .fin y ∧ x < y) ∨ (a = .ninf ∧ (b = .pinf ∨ ∃ y, b = .fin y)) ∨ ((∃ x, a = .fin x) ∧ b = .pinf)

/-- Siblings in stable order of the order attribute. -/
def ByOrder (l out : List Node) : Prop := StableSortedOn Less Node.order l out

/-- The outline of some siblings (in their order) at a depth: a node, then what is below it, then the next sibling. -/
inductive Outline : Nat → List Node → List (Nat × String) → Prop
  | nil (k) : Outline k [] []
  | cons (k l o cs cs' rest below after) : ByOrder cs cs' → Outline (k + 1) cs' below → Outline k rest after →
      Outline k (.mk l o cs :: rest) ((k, l) :: (below ++ after))

/-- A node below another. -/
inductive Below : Node → Node → Prop
  | child (l o cs c) : c ∈ cs → Below (.mk l o cs) c
  | deeper (l o cs c x) : c ∈ cs → Below c x → Below (.mk l o cs) x

/-- No order is "not a number". -/
def NoNaN (t : Node) : Prop := ∀ x, Below t x → x.order ≠ .nan

/-- A link of the role in a linkbase that has a roleRef for it. -/
def HoldsLink {A : Type} (role : String) (lb : Lb A) (k : Link A) : Prop :=
  (∃ r ∈ lb.roleRefs, r.roleURI = role) ∧ FirstWith (fun k : Link A => k.role = role) lb.links k

/-- A negative number. -/
def Negative (w : F64) : Prop := w = .ninf ∨ ∃ z : Int, z < 0 ∧ w = .fin z

/-- The summation-item arcs of a concept. -/
def IsCalcArc (role : String) (lb : Lb CArc) (href : String) (a : CArc) : Prop :=
  a.arcrole = "http://www.xbrl.org/2003/arcrole/summation-item" ∧ mapLocator role lb a.frm = href

/-- `q` tenths, with one digit after the point. -/
def tenthsText (q : Nat) : String := toString (q / 10) ++ "." ++ toString (q % 10)

/-- A text with one digit after the point nearest to the absolute value of a finite number. -/
def NearestTenths (w : F64) (text : String) : Prop :=
  ∀ z : Int, w = .fin z → ∃ q : Nat, text = tenthsText q ∧
    2 * (10 * z.natAbs) ≤ (2 * q + 1) * 2 ^ 1074 ∧ 2 * q * 2 ^ 1074 ≤ 2 * (10 * z.natAbs) + 2 ^ 1074

/-- The contribution shown for an arc. -/
structure Contributes (f : Folder) (role : String) (lb : Lb CArc) (arcs : List CArc) (a : CArc) (c : Contributing) : Prop where
  href : c.href = mapLocator role lb a.to
  label : c.label = f.label c.href
  negative : c.sign = "-" ↔ Negative a.weight
  positive : c.sign = "+" ↔ ¬ Negative a.weight
  scale : NearestTenths a.weight c.scale
  whole : ∀ n : Int, a.weight = .fin (n * 2 ^ 1074) → c.scale = toString n.natAbs ++ ".0"
  balance : ∃ concept, f.concept c.href = some concept ∧ c.balance = concept.balance
  summation : c.isSummationItem = true ↔ ∃ a' ∈ arcs, IsCalcArc role lb c.href a'

/-- The number of kinds of connection of a DRS link. -/
def kinds (l : DRSLink) : Nat :=
  (if l.hypercube.isSome then 1 else 0) + (if l.hypercubeDimension.isSome then 1 else 0) +
    (if l.dimensionDomain.isSome then 1 else 0) + (if l.domainMember.isSome then 1 else 0)

/-- A definition arc of the role. -/
def DefinitionArcOf (role : String) (lbs : List (Lb DArc)) (lb : Lb DArc) (a : DArc) : Prop :=
  lb ∈ lbs ∧ (∃ r ∈ lb.roleRefs, r.roleURI = role) ∧ ∃ k ∈ lb.links, k.role = role ∧ a ∈ k.arcs

/-- The definition links of the role, in order: those of the role in linkbases that refer to the role. -/
def definitionLinks (role : String) (lbs : List (Lb DArc)) : List (Lb DArc × Link DArc) :=
  (lbs.flatMap fun lb => lb.links.map fun k => (lb, k)).filter fun e =>
    decide (e.2.role = role ∧ ∃ r ∈ e.1.roleRefs, r.roleURI = role)

/-- The definition arcs of the role, in order. -/
def definitionArcs (role : String) (lbs : List (Lb DArc)) : List (Lb DArc × DArc) :=
  (definitionLinks role lbs).flatMap fun e => e.2.arcs.map fun a => (e.1, a)

/-- A link of the relationship set says what the arc says. -/
structure Connects (fmt : F64 → String) (a : DArc) (l : DRSLink) : Prop where
  member : ∀ c, l.domainMember = some c ↔
    a.arcrole = "http://xbrl.org/int/dim/arcrole/domain-member" ∧ c = ⟨fmt a.order, a.usable, a.targetRole⟩
  dimension : ∀ c, l.hypercubeDimension = some c ↔
    a.arcrole = "http://xbrl.org/int/dim/arcrole/hypercube-dimension" ∧ c = ⟨fmt a.order, a.targetRole⟩
  domain : ∀ c, l.dimensionDomain = some c →
    (a.arcrole = "http://xbrl.org/int/dim/arcrole/dimension-domain" ∧ c.usable = a.usable ∨
      a.arcrole = "http://xbrl.org/int/dim/arcrole/dimension-default" ∧ c.usable = true) ∧
    c.order = fmt a.order ∧ c.external = a.targetRole
  isDomain : a.arcrole = "http://xbrl.org/int/dim/arcrole/dimension-domain" ∨
    a.arcrole = "http://xbrl.org/int/dim/arcrole/dimension-default" → ∃ c, l.dimensionDomain = some c
  cube : ∀ c, l.hypercube = some c ↔
    (a.arcrole = "http://xbrl.org/int/dim/arcrole/all" ∧ c.isInclusive = true ∨
      a.arcrole = "http://xbrl.org/int/dim/arcrole/notAll" ∧ c.isInclusive = false) ∧
    c.isClosed = a.closed ∧ c.contextElement = a.contextElement ∧ c.external = a.targetRole

end Telefacts.Render
