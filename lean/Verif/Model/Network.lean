import Verif.Model.Member
import Verif.Model.Quadrant
/-!
# pkg/renderables/concepts.go, presentationGrid.go, calculationGrid.go, dimensionRelationshipSet.go

`h.PresentationLinkbases` etc. are passed as the lists of their values in iteration order.
-/
namespace Telefacts.Render
open Telefacts.Linkbase Telefacts.Instance

/-- What the grids read of a `PresentationLinkbase`, `DefinitionLinkbase` or `CalculationLinkbase`. -/
structure Lb (A : Type) where
  roleRefs : List RoleRef
  links : List (Link A)
deriving DecidableEq, Repr

/-- pkg/attr/literals.go:27-34 -/
def PresentationArcrole := "http://www.xbrl.org/2003/arcrole/parent-child"
def DomainMemberArcrole := "http://xbrl.org/int/dim/arcrole/domain-member"
def DimensionDomainArcrole := "http://xbrl.org/int/dim/arcrole/dimension-domain"
def DimensionDefaultArcrole := "http://xbrl.org/int/dim/arcrole/dimension-default"
def HypercubeDimensionArcrole := "http://xbrl.org/int/dim/arcrole/hypercube-dimension"
def HasInclusiveHypercubeArcrole := "http://xbrl.org/int/dim/arcrole/all"
def HasExclusiveHypercubeArcrole := "http://xbrl.org/int/dim/arcrole/notAll"
def CalculationArcrole := "http://www.xbrl.org/2003/arcrole/summation-item"

/-- concepts.go:22-29, 44-51, 66-73: one locator of the link. -/
def locHref (locator : String) (l : Loc) : Option String :=
  if l.label = locator then (if '#' ∈ l.href.toList then some l.href else none) else none

/-- concepts.go:19-32, 41-54, 63-76: all links of a linkbase. -/
def linksHref {A : Type} (role locator : String) (links : List (Link A)) : Option String :=
  links.findSome? fun k => if k.role = role then k.locs.findSome? (locHref locator) else none

/-- concepts.go:14-35 `mapPLocatorToHref`, 36-57 `mapCLocatorToHref`, 58-79 `mapDLocatorToHref` (same text). -/
def mapLocator {A : Type} (role : String) (lb : Lb A) (locator : String) : String :=
  match lb.roleRefs.findSome? (fun r => if role = r.roleURI then linksHref role locator lb.links else none) with
  | some h => h
  | none => "#" ++ locator

/-- presentationGrid.go:74-80, effectiveDomainGrid.go:67-73, dimensionRelationshipSet.go:57-63: the links of a linkbase
with a roleRef for the role; nil otherwise. -/
def refLinks {A : Type} (role : String) (lb : Lb A) : List (Link A) :=
  if lb.roleRefs.any (fun r => decide (role = r.roleURI)) then lb.links else []

/-! ## presentationGrid.go -/

/-- presentationGrid.go:12-16 -/
structure IndentedLabel where
  href : String
  label : LabelPack
  indentation : Nat
deriving DecidableEq, Repr

/-- presentationGrid.go:58-69 -/
def pArcs (l : List PArc) : List Arc := l.map fun a => ⟨a.arcrole, a.order, a.frm, a.to⟩

mutual
/-- presentationGrid.go:95-105: one child. -/
def walkNode {α : Type} (row : String → Nat → α) (level : Nat) : Node → List α
  | .mk loc _ cs => row loc level :: walkNodes row (level + 1) cs
/-- presentationGrid.go:87-106 `makeIndents` on sorted children (also effectiveDomainGrid.go:78-99). -/
def walkNodes {α : Type} (row : String → Nat → α) (level : Nat) : List Node → List α
  | [] => []
  | c :: cs => walkNode row level c ++ walkNodes row level cs
end

/-- `makeIndents(root, 0)` -/
def walkTree {α : Type} (row : String → Nat → α) (root : Node) : List α := walkNodes row 0 root.sorted.children

/-- The first link with the role: presentationGrid.go:73-82. -/
def firstLink {A : Type} (role : String) : List (Lb A) → Option (Lb A × Link A)
  | [] => none
  | lb :: lbs =>
    match (refLinks role lb).find? (fun k => decide (k.role = role)) with
    | some k => some (lb, k)
    | none => firstLink role lbs

/-- presentationGrid.go:71-113 `getIndentedLabels`; the label packs are the labels of the rows. -/
def getIndentedLabels (f : Folder) (lbs : List (Lb PArc)) (role : String) : List IndentedLabel :=
  match firstLink role lbs with
  | none => []
  | some (lb, k) =>
    walkTree (fun loc level => ⟨mapLocator role lb loc, f.label (mapLocator role lb loc), level⟩)
      (f.tree (pArcs k.arcs) PresentationArcrole)

/-! ## calculationGrid.go -/

/-- `fmt.Sprintf("%.1f", x)` for `x` that is not negative: the exact value `z * 2^-1074` is rounded to tenths, half to
even (strconv/ftoa.go, decimal.go `shouldRoundUp`). -/
def tenths (z : Nat) : Nat :=
  let q := 10 * z / 2 ^ 1074
  let r := 10 * z % 2 ^ 1074
  if 2 * r < 2 ^ 1074 then q else if 2 * r > 2 ^ 1074 then q + 1 else if q % 2 = 0 then q else q + 1

/-- `fmt.Sprintf("%.1f", x)` for the result `x` of `math.Abs`. -/
def fixed1 : F64 → String
  | .nan => "NaN"
  | .ninf => "-Inf"
  | .pinf => "+Inf"
  | .fin z => toString (tenths z.natAbs / 10) ++ "." ++ toString (tenths z.natAbs % 10)

/-- calculationGrid.go:60-65 -/
structure CStruct where
  href : String
  order : F64
  sign : Char
  scale : F64
deriving DecidableEq, Repr

/-- calculationGrid.go:69-84: the map entry of an arc. -/
def cStruct (role : String) (lb : Lb CArc) (a : CArc) : CStruct :=
  ⟨mapLocator role lb a.to, a.order, if F64.lt a.weight F64.zero then '-' else '+', F64.abs a.weight⟩

/-- calculationGrid.go:67-86 -/
def addCalc (role : String) (lb : Lb CArc) (m : GoMap String (List CStruct)) (a : CArc) : GoMap String (List CStruct) :=
  if a.arcrole = CalculationArcrole then
    let from_ := mapLocator role lb a.frm
    mapSet m from_ ((mapGet m from_).getD [] ++ [cStruct role lb a])
  else m

/-- calculationGrid.go:66-91: the map with its values sorted. (Sorting at 87-91 is in place.) -/
def calcMap (role : String) (lb : Lb CArc) (arcs : List CArc) : GoMap String (List CStruct) :=
  (arcs.foldl (addCalc role lb) []).map fun e => (e.1, stableSort (fun a b => F64.lt a.order b.order) e.2)

/-- calculationGrid.go:25-32 -/
structure Contributing where
  sign : String
  scale : String
  balance : String
  href : String
  label : LabelPack
  isSummationItem : Bool
deriving DecidableEq, Repr

/-- calculationGrid.go:12-23 -/
structure SummationItem (Φ : Type) where
  href : String
  label : LabelPack
  balance : String
  periods : List LanguagePack
  members : List (List MemberCell)
  voids : List VoidCell
  contributing : List Contributing
  quadrant : Quadrant Φ

/-- calculationGrid.go:101-121: one contribution; `none` is `continue`. -/
def contributing (f : Folder) (m : GoMap String (List CStruct)) (c : CStruct) : Option Contributing :=
  match f.concept c.href with
  | none => none
  | some concept => some ⟨String.singleton c.sign, fixed1 c.scale, concept.balance, c.href, f.label c.href,
      (mapGet m c.href).isSome⟩

/-- The variables of the loop at calculationGrid.go:98-149. -/
structure CalcState (Φ : Type) where
  packs : List LabelPack
  roles : List LabelRole
  langs : List Lang
  items : List (SummationItem Φ)

/-- What varies from run to run or is not modelled here: the order of the outer map `cMap`, the order of the maps in
`getVoidQuadrant`, and `getFactualQuadrant` for languages. -/
structure GridEnv (Φ : Type) where
  mapOrder : GoMap String (List CStruct) → GoMap String (List CStruct)
  memberOrder : GoMap String RelevantMember → GoMap String RelevantMember
  source : List Lang → FactSource Φ

/-- calculationGrid.go:129-132: roles and languages keep their values when there are no packs. -/
def reoffer (packs : List LabelPack) (roles : List LabelRole) (langs : List Lang) : List LabelRole × List Lang :=
  match reduce packs with
  | none => (roles, langs)
  | some p => destruct p

/-- calculationGrid.go:98-149: one summation item. -/
def summationStep {Φ : Type} (f : Folder) (env : GridEnv Φ) (entity : String) (m : GoMap String (List CStruct))
    (st : CalcState Φ) (e : String × List CStruct) : Run (CalcState Φ) :=
  let cs := e.2.filterMap (contributing f m)
  let hrefs := cs.map Contributing.href ++ [e.1]
  (getRelevantContexts f entity hrefs).andThen fun rel =>
    let packs := st.packs ++ cs.map Contributing.label ++ [f.label e.1] ++ rel.labels
    let offer := reoffer packs st.roles st.langs
    let quadrant := getFactualQuadrant (env.source offer.2) hrefs rel.contexts
    match f.concept e.1 with
    | none => .done { st with packs := packs, roles := offer.1, langs := offer.2 }
    | some concept =>
      (getMemberGrid env.memberOrder rel.contexts rel.segmentTrees rel.scenarioTrees).andThen fun g =>
        .done ⟨packs, offer.1, offer.2, st.items ++ [⟨e.1, f.label e.1, concept.balance,
          rel.contexts.map RelevantContext.period, g.1, g.2, cs, quadrant⟩]⟩

/-- The loop at calculationGrid.go:98. -/
def summationLoop {Φ : Type} (f : Folder) (env : GridEnv Φ) (entity : String) (m : GoMap String (List CStruct)) :
    CalcState Φ → GoMap String (List CStruct) → Run (CalcState Φ)
  | st, [] => .done st
  | st, e :: es => (summationStep f env entity m st e).andThen fun st => summationLoop f env entity m st es

/-- labelPack.go:22-24 `getPureLabel` -/
def getPureLabel (p : LabelPack) : String := (getText p Default PureLabel).getD ""

/-- calculationGrid.go:58-154: one link. -/
def summationItems {Φ : Type} (f : Folder) (env : GridEnv Φ) (entity role : String) (lb : Lb CArc) (k : Link CArc) :
    Run (List (SummationItem Φ) × List LabelRole × List Lang) :=
  let m := calcMap role lb k.arcs
  (summationLoop f env entity m ⟨[], [], [], []⟩ (env.mapOrder m)).andThen fun st =>
    .done (stableSort (fun a b => decide (getPureLabel a.label < getPureLabel b.label)) st.items, st.roles, st.langs)

/-- calculationGrid.go:47-156 `getSummationItems`; `links` is the variable `calculationLinks`, which keeps its value when
a linkbase has no roleRef for the role. -/
def getSummationItems {Φ : Type} (f : Folder) (env : GridEnv Φ) (entity role : String) :
    List (Link CArc) → List (Lb CArc) → Run (List (SummationItem Φ) × List LabelRole × List Lang)
  | _, [] => .done ([], [], [])
  | links, lb :: lbs =>
    let links := if lb.roleRefs.any (fun r => decide (role = r.roleURI)) then lb.links else links
    match links.find? (fun k => decide (k.role = role)) with
    | some k => summationItems f env entity role lb k
    | none => getSummationItems f env entity role links lbs

/-! ## dimensionRelationshipSet.go -/

/-- dimensionRelationshipSet.go:11-16 -/
structure HypercubeConnection where
  isClosed : Bool
  contextElement : String
  isInclusive : Bool
  external : String
deriving DecidableEq, Repr

/-- dimensionRelationshipSet.go:17-20 -/
structure HypercubeDimensionConnection where
  order : String
  external : String
deriving DecidableEq, Repr

/-- dimensionRelationshipSet.go:21-26 -/
structure DimensionDomainConnection where
  order : String
  default : Bool
  usable : Bool
  external : String
deriving DecidableEq, Repr

/-- dimensionRelationshipSet.go:27-31 -/
structure DomainMemberConnection where
  order : String
  usable : Bool
  external : String
deriving DecidableEq, Repr

/-- dimensionRelationshipSet.go:38-45 -/
structure DRSLink where
  source : String
  target : String
  hypercube : Option HypercubeConnection
  hypercubeDimension : Option HypercubeDimensionConnection
  dimensionDomain : Option DimensionDomainConnection
  domainMember : Option DomainMemberConnection
deriving DecidableEq, Repr

/-- dimensionRelationshipSet.go:33-36 -/
structure DRSNode where
  href : String
  label : LabelPack
deriving DecidableEq, Repr

/-- dimensionRelationshipSet.go:69-75 -/
def targetHref (role : String) (lb : Lb DArc) (a : DArc) : String :=
  if a.targetRole ≠ "" then mapLocator a.targetRole lb a.to else mapLocator role lb a.to

/-- dimensionRelationshipSet.go:67-136: one arc. `fmt` is `strconv.FormatFloat(_, 'f', -1, 64)`. -/
def drsLink (fmt : F64 → String) (role : String) (lb : Lb DArc) (a : DArc) : DRSLink :=
  let to := targetHref role lb a
  let from_ := mapLocator role lb a.frm
  let order := fmt a.order
  if a.arcrole = DomainMemberArcrole then
    ⟨from_, to, none, none, none, some ⟨order, a.usable, a.targetRole⟩⟩
  else if a.arcrole = HypercubeDimensionArcrole then
    ⟨from_, to, none, some ⟨order, a.targetRole⟩, none, none⟩
  else if a.arcrole = DimensionDefaultArcrole then
    ⟨from_, to, none, none, some ⟨order, true, true, a.targetRole⟩, none⟩
  else if a.arcrole = DimensionDomainArcrole then
    ⟨from_, to, none, none, some ⟨order, true, a.usable, a.targetRole⟩, none⟩
  else if a.arcrole = HasInclusiveHypercubeArcrole then
    ⟨from_, to, some ⟨a.closed, a.contextElement, true, a.targetRole⟩, none, none, none⟩
  else if a.arcrole = HasExclusiveHypercubeArcrole then
    ⟨from_, to, some ⟨a.closed, a.contextElement, false, a.targetRole⟩, none, none, none⟩
  else ⟨from_, to, none, none, none, none⟩

/-- dimensionRelationshipSet.go:56-67: the arcs of the role, with their linkbases. -/
def roleArcs (role : String) (lbs : List (Lb DArc)) : List (Lb DArc × DArc) :=
  lbs.flatMap fun lb => ((refLinks role lb).filter fun k => decide (k.role = role)).flatMap fun k => k.arcs.map fun a => (lb, a)

/-- `hrefs[x]++` -/
def incr (m : GoMap String Nat) (x : String) : GoMap String Nat := mapSet m x ((mapGet m x).getD 0 + 1)

/-- dimensionRelationshipSet.go:75, 77 -/
def countHrefs (role : String) (arcs : List (Lb DArc × DArc)) : GoMap String Nat :=
  arcs.foldl (fun m e => incr (incr m (targetHref role e.1 e.2)) (mapLocator role e.1 e.2.frm)) []

/-- dimensionRelationshipSet.go:52-150 `getDRS`; `ord` is the order in which `hrefs` is ranged over. -/
def getDRS (f : Folder) (fmt : F64 → String) (ord : GoMap String Nat → GoMap String Nat) (lbs : List (Lb DArc))
    (role : String) : List DRSNode × List DRSLink :=
  let arcs := roleArcs role lbs
  (stableSort (fun a b => decide (a.href < b.href))
      ((ord (countHrefs role arcs)).map fun e => ⟨e.1, f.label e.1⟩),
    arcs.map fun e => drsLink fmt role e.1 e.2)

end Telefacts.Render
