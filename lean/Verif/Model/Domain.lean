import Verif.Model.Network
/-!
# pkg/renderables/effectiveDomainGrid.go

A network is the list of children of the root that `graph.Tree` returns.
-/
namespace Telefacts.Render
open Telefacts.Linkbase Telefacts.Instance

/-- effectiveDomainGrid.go:27-31 -/
structure PrimaryItem where
  href : String
  label : LabelPack
  level : Nat
deriving DecidableEq, Repr

/-- effectiveDomainGrid.go:33-36 -/
structure EffectiveDimension where
  href : String
  label : LabelPack
deriving DecidableEq, Repr

/-- effectiveDomainGrid.go:40-45 -/
structure EffectiveMember where
  href : String
  label : LabelPack
  isDefault : Bool
  isStrikethrough : Bool
deriving DecidableEq, Repr

/-- effectiveDomainGrid.go:47-58 -/
def dArcs (l : List DArc) : List Arc := l.map fun a => ⟨a.arcrole, a.order, a.frm, a.to⟩

/-- effectiveDomainGrid.go:192-216 `getPrimaryItemNetworkAndExplicitDomainNetwork` -/
def splitDomains (domainMember dimensionDomain dimensionDefault : List Node) : List Node × List Node :=
  let hypercubeDomains := dimensionDomain.flatMap (fun n => n.children.map Node.locator) ++
    dimensionDefault.flatMap (fun n => n.children.map Node.locator)
  domainMember.foldl (fun acc n =>
    if hypercubeDomains.contains n.locator then (acc.1, acc.2 ++ [n]) else (acc.1 ++ [n], acc.2)) ([], [])

/-- The arguments that `getEffectiveDomain` shares for all cells; `loc` is `mapDLocatorToHref`, `label` is `GetLabel`. -/
structure Networks where
  dimensionDomain : List Node
  explicitDomain : List Node
  exclusive : List Node
  inclusive : List Node
  hypercubeDimension : List Node
  dimensionDefault : List Node
  loc : String → String
  label : String → LabelPack

/-- `mapDLocatorToHref(node.Locator)` -/
def Networks.href (w : Networks) (n : Node) : String := w.loc n.locator

/-- effectiveDomainGrid.go:261-276 and 277-292: hypercubes of a primary item that have the dimension. -/
def cubes (w : Networks) (net : List Node) (primary dim : String) : List String :=
  net.flatMap fun n =>
    if primary = w.href n then
      n.children.flatMap fun c =>
        w.hypercubeDimension.flatMap fun d =>
          if w.href c = w.href d then
            d.children.flatMap fun x => if dim = w.href x then [w.href c] else []
          else []
    else []

/-- The loops at effectiveDomainGrid.go:303-305, 331-333, 400-402 and 420-422: a hypercube-dimension root for every
hypercube with its href. -/
def cubeNodes (w : Networks) (hrefs : List String) : List Node :=
  w.hypercubeDimension.flatMap fun d => hrefs.flatMap fun i => if i = w.href d then [d] else []

/-- The result so far, the label packs, and the set of hrefs seen. -/
structure DomainState where
  ret : List EffectiveMember
  packs : List LabelPack
  seen : List String

/-- effectiveDomainGrid.go:311-324 and 339-352: the members below a dimension-default root; `none` is a return of the empty
domain. -/
def addDefaults (w : Networks) (struck : Bool) : List Node → DomainState → Option DomainState
  | [], st => some st
  | n :: ns, st =>
    if st.seen.contains (w.href n) then none
    else addDefaults w struck ns ⟨st.ret ++ [⟨w.href n, w.label (w.href n), true, struck⟩], st.packs ++ [w.label (w.href n)],
      w.href n :: st.seen⟩

/-- effectiveDomainGrid.go:306-325: the dimension-default roots, for an inclusive hypercube. -/
def includeDefaults (w : Networks) (dim : String) : List Node → DomainState → Option DomainState
  | [], st => some st
  | n :: ns, st =>
    if w.href n ≠ dim then includeDefaults w dim ns st
    else (addDefaults w false n.children st).bind (includeDefaults w dim ns)

/-- effectiveDomainGrid.go:303-329: all inclusive hypercubes. -/
def includeCubes (w : Networks) (dim : String) : List Node → DomainState → Option DomainState
  | [], st => some st
  | _ :: ds, st => (includeDefaults w dim w.dimensionDefault st).bind (includeCubes w dim ds)

/-- effectiveDomainGrid.go:334-353: the dimension-default roots, for an exclusive hypercube. The test is on the map of
members. -/
def excludeDefaults (w : Networks) : List Node → DomainState → Option DomainState
  | [], st => some st
  | n :: ns, st =>
    if st.seen.contains (w.href n) then excludeDefaults w ns st
    else (addDefaults w true n.children st).bind (excludeDefaults w ns)

/-- effectiveDomainGrid.go:331-357: all exclusive hypercubes. -/
def excludeCubes (w : Networks) : List Node → DomainState → Option DomainState
  | [], st => some st
  | _ :: ds, st => (excludeDefaults w w.dimensionDefault st).bind (excludeCubes w ds)

mutual
/-- effectiveDomainGrid.go:361-399 `traverseExplicitDomainNetwork` -/
def traverse (w : Networks) (struck : Bool) : Node → DomainState → DomainState
  | .mk l _ cs, st =>
    if st.seen.contains (w.loc l) then ⟨[], [], st.seen⟩
    else traverseAll w struck cs ⟨st.ret ++ [⟨w.loc l, w.label (w.loc l), false, struck⟩], st.packs, w.loc l :: st.seen⟩
def traverseAll (w : Networks) (struck : Bool) : List Node → DomainState → DomainState
  | [], st => st
  | n :: ns, st => traverseAll w struck ns (traverse w struck n st)
end

/-- The loops at effectiveDomainGrid.go:400-419 and 420-439 around the traversal of all explicit domains: one `()` for
each time it is run. -/
def traversals (w : Networks) (hrefs : List String) (dim : String) : List Unit :=
  (cubeNodes w hrefs).flatMap fun d => d.children.flatMap fun x =>
    if dim ≠ w.href x then [] else
      w.dimensionDomain.flatMap fun r => if w.href x ≠ w.href r then [] else [()]

/-- effectiveDomainGrid.go:440-453 -/
def effectiveLess (a b : EffectiveMember) : Bool :=
  if a.href ≠ b.href then decide (a.href < b.href)
  else if a.isDefault ≠ b.isDefault then a.isDefault
  else if a.isStrikethrough ≠ b.isStrikethrough then b.isStrikethrough
  else false

/-- effectiveDomainGrid.go:254-455 `getEffectiveDomain` -/
def getEffectiveDomain (w : Networks) (primary dim : String) : List EffectiveMember × List LabelPack :=
  let inc := cubes w w.inclusive primary dim
  let exc := cubes w w.exclusive primary dim
  if inc.any (fun i => exc.any fun e => decide (i = e)) then ([], [])
  else
    match includeCubes w dim (cubeNodes w inc) ⟨[], [], []⟩ with
    | none => ([], [])
    | some st =>
      match excludeCubes w (cubeNodes w exc) { st with seen := [] } with
      | none => ([], [])
      | some st =>
        let st := (traversals w inc dim).foldl (fun st _ => traverseAll w false w.explicitDomain st) { st with seen := [] }
        let st := (traversals w exc dim).foldl (fun st _ => traverseAll w true w.explicitDomain st) { st with seen := [] }
        (stableSort effectiveLess st.ret, st.packs)

/-- effectiveDomainGrid.go:233-252 `getEffectiveDomainGrid` -/
def getEffectiveDomainGrid (w : Networks) (hrefs dims : List String) : List (List (List EffectiveMember)) × List LabelPack :=
  (hrefs.map fun h => dims.map fun d => (getEffectiveDomain w h d).1,
    hrefs.flatMap fun h => dims.flatMap fun d => (getEffectiveDomain w h d).2)

/-- effectiveDomainGrid.go:159-190 `getEffectiveDimensions`; every linkbase of the folder is asked for the locators. -/
def effectiveDimensionHrefs (lbs : List (Lb DArc)) (role : String) (arcs : List DArc) : List String :=
  (lbs.flatMap fun lb => (arcs.filter fun a => decide (a.arcrole = HypercubeDimensionArcrole)).map fun a =>
    mapLocator role lb a.to).foldl (fun acc d => if acc.contains d then acc else acc ++ [d]) []

/-- effectiveDomainGrid.go:12-25; `periods` is filled by contextualQuadrant.go:27-33 `getPeriodHeaders`, `quadrant` by
effectiveDomainGrid.go:217-231 `injectFactualQuadrant`. -/
structure RootDomain (Φ : Type) where
  href : String
  label : LabelPack
  primaryItems : List PrimaryItem
  periods : List LanguagePack
  members : List (List MemberCell)
  voids : List VoidCell
  quadrant : Quadrant Φ
  domains : List (List (List EffectiveMember))
  dimensions : List EffectiveDimension

/-- The variables of `getRootDomains`. -/
structure RootState (Φ : Type) where
  packs : List LabelPack
  roles : List LabelRole
  langs : List Lang
  domains : List (RootDomain Φ)

/-- effectiveDomainGrid.go:111-150: one primary item root. -/
def rootStep {Φ : Type} (f : Folder) (memberOrder : GoMap String RelevantMember → GoMap String RelevantMember)
    (source : List Lang → FactSource Φ) (entity : String) (w : Networks) (dims : List String) (st : RootState Φ) (root : Node) :
    Run (RootState Φ) :=
  let items : List PrimaryItem := walkTree (fun l level => ⟨w.loc l, f.label (w.loc l), level⟩) root
  let rootHref := w.href root
  let hrefs := rootHref :: items.map PrimaryItem.href
  let grid := getEffectiveDomainGrid w hrefs dims
  (getRelevantContexts f entity hrefs).andThen fun rel =>
    let packs := st.packs ++ items.map PrimaryItem.label ++ grid.2 ++ rel.labels ++ [f.label rootHref]
    (getMemberGrid memberOrder rel.contexts rel.segmentTrees rel.scenarioTrees).andThen fun g =>
      let offer := match reduce packs with
        | none => (st.roles, st.langs)
        | some p => (st.roles ++ (destruct p).1, st.langs ++ (destruct p).2)
      .done ⟨packs, offer.1, offer.2, st.domains ++ [⟨rootHref, f.label rootHref, items,
        rel.contexts.map RelevantContext.period, g.1, g.2,
        getFactualQuadrant (source offer.2) hrefs rel.contexts, grid.1, dims.map fun d => ⟨d, f.label d⟩⟩]⟩

/-- The loop at effectiveDomainGrid.go:111. -/
def rootLoop {Φ : Type} (step : RootState Φ → Node → Run (RootState Φ)) : RootState Φ → List Node → Run (RootState Φ)
  | st, [] => .done st
  | st, n :: ns => (step st n).andThen fun st => rootLoop step st ns

/-- effectiveDomainGrid.go:98-110: the networks of a link. -/
def linkNetworks (f : Folder) (role : String) (lb : Lb DArc) (k : Link DArc) : List Node × Networks :=
  let net := fun arcrole => (f.tree (dArcs k.arcs) arcrole).children
  let split := splitDomains (net DomainMemberArcrole) (net DimensionDomainArcrole) (net DimensionDefaultArcrole)
  (split.1, ⟨net DimensionDomainArcrole, split.2, net HasExclusiveHypercubeArcrole, net HasInclusiveHypercubeArcrole,
    net HypercubeDimensionArcrole, net DimensionDefaultArcrole, mapLocator role lb, f.label⟩)

/-- effectiveDomainGrid.go:74-152: one link of the role; `again` is as below. -/
def linkStep {Φ : Type} (f : Folder) (memberOrder : GoMap String RelevantMember → GoMap String RelevantMember)
    (source : List Lang → FactSource Φ) (entity role : String) (again : Nat → List (Lb DArc)) (st : RootState Φ)
    (e : (Lb DArc × Link DArc) × Nat) : Run (RootState Φ) :=
  let dims := effectiveDimensionHrefs (again e.2) role e.1.2.arcs
  let offer := match reduce (dims.map f.label) with
    | none => ([], [])
    | some p => destruct p
  let nets := linkNetworks f role e.1.1 e.1.2
  rootLoop (rootStep f memberOrder source entity nets.2 dims) { st with roles := st.roles ++ offer.1, langs := st.langs ++ offer.2 } nets.1

/-- The links of the role, with their linkbases: effectiveDomainGrid.go:66-75. -/
def roleLinks (role : String) (lbs : List (Lb DArc)) : List (Lb DArc × Link DArc) :=
  lbs.flatMap fun lb => ((refLinks role lb).filter fun k => decide (k.role = role)).map fun k => (lb, k)

/-- The loops at effectiveDomainGrid.go:66 and 74. -/
def linkLoop {Φ : Type} (step : RootState Φ → (Lb DArc × Link DArc) × Nat → Run (RootState Φ)) :
    RootState Φ → List ((Lb DArc × Link DArc) × Nat) → Run (RootState Φ)
  | st, [] => .done st
  | st, n :: ns => (step st n).andThen fun st => linkLoop step st ns

/-- effectiveDomainGrid.go:60-157 `getRootDomains`; `again i` is the order in which `getEffectiveDimensions` ranges over the
definition linkbases when it is called for the `i`th link of the role. -/
def getRootDomains {Φ : Type} (f : Folder) (memberOrder : GoMap String RelevantMember → GoMap String RelevantMember)
    (source : List Lang → FactSource Φ) (entity role : String) (again : Nat → List (Lb DArc))
    (lbs : List (Lb DArc)) : Run (List (RootDomain Φ) × List LabelRole × List Lang) :=
  (linkLoop (linkStep f memberOrder source entity role again) ⟨[], [], [], []⟩ (roleLinks role lbs).zipIdx).andThen fun st =>
    .done (st.domains, st.roles, st.langs)

end Telefacts.Render
