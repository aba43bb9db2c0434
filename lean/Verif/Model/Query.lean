import Verif.Model.Instance
/-!
# pkg/hydratables/measurement.go and fact.go: units, facts and footnotes of a folder

`h.Instances` is passed as the list of its values in iteration order. `graph.Tree` (internal/graph/graph.go:7-9,
a call of the `arcs` library) is a parameter.
-/
namespace Telefacts.Query
open Telefacts.Instance

/-- A `unit` element of the registry file: for every kind of child element the texts of the children. -/
structure UtrUnit where
  unitID : List String
  unitName : List String
  nsUnit : List String
  itemType : List String
  nsItemType : List String
  itemTypeDate : List String
  symbol : List String
  definition : List String
  baseStandard : List String
  conversionPresentation : List String
  conversionContent : List String
  status : List String
  versionDate : List String
  numeratorItemType : List String
  nsNumeratorItemType : List String
  denominatorItemType : List String
  nsDenominatorItemType : List String
deriving DecidableEq, Repr

/-- measurement.go:32-50 -/
structure Measurement where
  unitID : String
  unitName : String
  nsUnit : String
  itemType : String
  nsItemType : String
  itemTypeDate : String
  symbol : String
  definition : String
  baseStandard : String
  conversionPresentation : String
  conversionContent : String
  status : String
  versionDate : String
  numeratorItemType : String
  nsNumeratorItemType : String
  denominatorItemType : String
  nsDenominatorItemType : String
deriving DecidableEq, Repr

/-- measurement.go:52 `UnitTypeRegistry` -/
abbrev Registry := GoMap String (GoMap String Measurement)

/-- `if len(l) > 0 { x = l[0] }` -/
def firstOr (l : List String) : String :=
  match l with
  | [] => ""
  | s :: _ => s

/-- measurement.go:84-139: the item of one unit element. -/
def newItem (u : UtrUnit) : Option Measurement :=
  match u.unitID, u.unitName, u.nsUnit with
  | id :: _, name :: _, ns :: _ =>
    if id = "" ∨ name = "" ∨ ns = "" then none
    else some {
      unitID := id
      unitName := name
      nsUnit := ns
      itemType := firstOr u.itemType
      nsItemType := firstOr u.nsItemType
      itemTypeDate := firstOr u.itemTypeDate
      symbol := firstOr u.symbol
      definition := firstOr u.definition
      baseStandard := firstOr u.baseStandard
      conversionPresentation := firstOr u.conversionPresentation
      conversionContent := firstOr u.conversionContent
      status := firstOr u.status
      versionDate := firstOr u.versionDate
      numeratorItemType := firstOr u.numeratorItemType
      nsNumeratorItemType := firstOr u.nsNumeratorItemType
      denominatorItemType := firstOr u.denominatorItemType
      nsDenominatorItemType := firstOr u.nsDenominatorItemType }
  | _, _, _ => none

/-- measurement.go:140-143 -/
def register (m : Registry) (x : Measurement) : Registry :=
  mapSet m x.nsUnit (mapSet ((mapGet m x.nsUnit).getD []) x.unitID x)

/-- measurement.go:83-144: one round of the loop. -/
def measureStep (m : Registry) (u : UtrUnit) : Registry :=
  match newItem u with
  | none => m
  | some x => register m x

/-- measurement.go:79-147 `mapMeasurements`; the file is the list of its `units` elements. -/
def mapMeasurements : List (List UtrUnit) → Registry
  | [] => []
  | us :: _ => us.foldl measureStep []

/-- measurement.go:149-160 `queryUTR`; `none` for the registry is an error of `HydrateUnitTypeRegistry`. -/
def queryUTR (utr : Option Registry) (ns id : String) : Option Measurement :=
  match utr with
  | none => none
  | some r =>
    match mapGet r ns with
    | none => none
    | some units => mapGet units id

/-- measurement.go:166-176: the measurements of the unit found. -/
def measurementsOf (utr : Option Registry) (u : HUnit) : Option Measurement × Option Measurement :=
  if u.measure.chars = "" then
    if u.numerator.chars = "" ∨ u.denominator.chars = "" then (none, none)
    else (queryUTR utr u.numerator.name.space u.numerator.name.loc,
          queryUTR utr u.denominator.name.space u.numerator.name.loc)
  else (queryUTR utr u.measure.name.space u.measure.name.loc, none)

/-- measurement.go:162-181 `FindMeasurement`. -/
def findMeasurement (utr : Option Registry) (insts : List HInstance) (unitRef : String) :
    Option Measurement × Option Measurement :=
  match (insts.flatMap HInstance.units).find? (fun u => decide (u.id = unitRef)) with
  | none => (none, none)
  | some u => measurementsOf utr u

/-- fact.go:21-30 `FindFact`. -/
def findFact (insts : List HInstance) (href ctx : String) : Option Fact :=
  (insts.flatMap HInstance.facts).find? (fun f => decide (f.href = href ∧ f.contextRef = ctx))

/-- The tree returned by the `arcs` library (fields used: `Locator`, `Children`). -/
inductive RTree where
  | node (locator : String) (children : List RTree)

namespace RTree
def locator : RTree → String
  | node l _ => l
def children : RTree → List RTree
  | node _ c => c
end RTree

/-- fact.go:92-105 `mapFnoteLocatorToHref`. -/
def locatorToHref (i : HInstance) (locator : String) : String :=
  match (i.footnoteLinks.flatMap FootnoteLink.locs).find?
      (fun l => decide (l.label = locator ∧ '#' ∈ l.href.toList)) with
  | some l => l.href
  | none => "#" ++ locator

/-- The part after the last `#`, everything if there is none or nothing follows: fact.go:60-67, 72-78. -/
def lastFragment : List Char → Option (List Char)
  | [] => none
  | c :: cs =>
    match lastFragment cs with
    | some r => some r
    | none => if c = '#' then some cs else none

/-- fact.go:60-67 and 71-78 -/
def locatedID (href : String) : String :=
  match lastFragment href.toList with
  | none => href
  | some [] => href
  | some r => String.ofList r

/-- fact.go:107-118 `FindFootnote`. -/
def findFootnote (insts : List HInstance) (id : String) : Option Footnote :=
  ((insts.flatMap HInstance.footnoteLinks).flatMap FootnoteLink.footnotes).find? (fun f => decide (f.id = id))

/-- fact.go:69-84: the footnotes of the children of a node. -/
def footnotesBelow (insts : List HInstance) (i : HInstance) (child : RTree) : List Footnote :=
  child.children.filterMap fun g => findFootnote insts (locatedID (locatorToHref i g.locator))

/-- fact.go:50-87: one link. The outer `none` means "go on with the next link". -/
def footnotesIn (tree : List FootnoteArc → RTree) (insts : List HInstance) (id : String) (i : HInstance)
    (link : FootnoteLink) : Option (List Footnote) :=
  let children := (tree link.arcs).children
  if children.isEmpty then some []
  else match children.find? (fun c => decide (locatedID (locatorToHref i c.locator) = id)) with
    | none => none
    | some child => some (footnotesBelow insts i child)

/-- fact.go:50-89: the loop over all links. -/
def footnotesLoop (tree : List FootnoteArc → RTree) (insts : List HInstance) (id : String) :
    List (HInstance × FootnoteLink) → List Footnote
  | [] => []
  | (i, link) :: rest =>
    match footnotesIn tree insts id i link with
    | some r => r
    | none => footnotesLoop tree insts id rest

/-- fact.go:45-90 `GetFootnotes`; `none` is a nil fact. A nil result is an empty one. -/
def getFootnotes (tree : List FootnoteArc → RTree) (insts : List HInstance) : Option Fact → List Footnote
  | none => []
  | some f => footnotesLoop tree insts f.id (insts.flatMap fun i => i.footnoteLinks.map fun l => (i, l))

end Telefacts.Query
