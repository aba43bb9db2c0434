import Verif.Model.Domain
import Verif.Model.FactText
/-!
# pkg/renderables/presentationGrid.go:28-56, definitionGrid.go, formatPeriod.go:8-18 and the grids of renderable.go

The three goroutines of `MarshalRenderable` only read the folder and write a grid each, and append to two slices
(Model/Label.lean); a panic in one of them ends the program.
-/
namespace Telefacts.Render
open Telefacts.Linkbase Telefacts.Instance

/-- presentationGrid.go:18-26 -/
structure PGrid (Φ : Type) where
  rows : List IndentedLabel
  periods : List LanguagePack
  members : List (List MemberCell)
  voids : List VoidCell
  quadrant : Quadrant Φ

/-- presentationGrid.go:28-56 `pGrid`, with 115-137 `getPresentationContexts` and `getPFactualQuadrant`. -/
def pGrid {Φ : Type} (f : Folder) (env : GridEnv Φ) (entity role : String) (lbs : List (Lb PArc)) :
    Run (PGrid Φ × List LabelRole × List Lang) :=
  let rows := getIndentedLabels f lbs role
  let hrefs := rows.map IndentedLabel.href
  (getRelevantContexts f entity hrefs).andThen fun rel =>
    let offer := offered (rows.map IndentedLabel.label ++ rel.labels)
    let quadrant := getFactualQuadrant (env.source offer.2) hrefs rel.contexts
    (getMemberGrid env.memberOrder rel.contexts rel.segmentTrees rel.scenarioTrees).andThen fun g =>
      .done (⟨rows, rel.contexts.map RelevantContext.period, g.1, g.2, quadrant⟩, offer.1, offer.2)

/-- definitionGrid.go:7-10 -/
structure DGrid (Φ : Type) where
  domains : List (RootDomain Φ)
  nodes : List DRSNode
  links : List DRSLink

/-- The linkbases of a folder in the orders in which they are ranged over; the definition linkbases once more for the
relationship set. -/
structure Books where
  presentation : List (Lb PArc)
  definition : List (Lb DArc)
  definitionAgain : List (Lb DArc)
  /-- for every link, effectiveDomainGrid.go:165 -/
  dimensionOrder : Nat → List (Lb DArc)
  calculation : List (Lb CArc)
  /-- `strconv.FormatFloat` -/
  fmt : F64 → String
  drsOrder : GoMap String Nat → GoMap String Nat

/-- definitionGrid.go:12-19 `dGrid` -/
def dGrid {Φ : Type} (f : Folder) (env : GridEnv Φ) (entity role : String) (b : Books) :
    Run (DGrid Φ × List LabelRole × List Lang) :=
  (getRootDomains f env.memberOrder env.source entity role b.dimensionOrder b.definition).andThen fun r =>
    let drs := getDRS f b.fmt b.drsOrder b.definitionAgain role
    .done (⟨r.1, drs.1, drs.2⟩, r.2.1, r.2.2)

/-- calculationGrid.go:38-45 `cGrid` -/
def cGrid {Φ : Type} (f : Folder) (env : GridEnv Φ) (entity role : String) (b : Books) :
    Run (List (SummationItem Φ) × List LabelRole × List Lang) :=
  getSummationItems f env entity role [] b.calculation

/-- The grids, languages and label roles of a renderable. -/
structure Grids (Φ : Type) where
  p : PGrid Φ
  d : DGrid Φ
  c : List (SummationItem Φ)
  langs : List Lang
  roles : List LabelRole

/-- How the goroutines interleave when they append languages (`langs`) and roles (`roles`), how slices grow, and in which order
goroutine 0, 1 or 2 has its languages and roles (`turn`): labelPack.go:53-59 ranges over maps. (In which order the languages of a fact
are rendered does not matter: `renderCell_order`.) -/
structure Schedule where
  langs : List Nat
  roles : List Nat
  grow : Nat → Nat
  turn : Nat → List String → List String := fun _ l => l
  fair : ∀ i l, (turn i l).Perm l := by intro _ _; exact .refl _

/-- formatPeriod.go:8-18 `formatPeriod`. (The loops assign to copies, but the headers are changed in place.) -/
def formatPeriod {Φ : Type} (spanish : Date → Option String) (g : Grids Φ) : Grids Φ :=
  { g with
    p := { g.p with periods := formatRelevantPeriod spanish g.p.periods g.langs }
    d := { g.d with domains := g.d.domains.map fun r => { r with periods := formatRelevantPeriod spanish r.periods g.langs } }
    c := g.c.map fun i => { i with periods := formatRelevantPeriod spanish i.periods g.langs } }

/-- The list that goroutine 0, 1 or 2 appends. -/
def pick (a b c : List String) : Nat → List String
  | 0 => a
  | 1 => b
  | _ => c

/-- The same, in the order in which that goroutine has it. -/
def Schedule.lists (s : Schedule) (a b c : List String) (i : Nat) : List String := s.turn i (pick a b c i)

/-- renderable.go:43-92: the grids of an entity and a role. -/
def renderGrids {Φ : Type} (f : Folder) (env : GridEnv Φ) (spanish : Date → Option String) (sched : Schedule) (b : Books)
    (entity role : String) : Run (Grids Φ) :=
  (pGrid f env entity role b.presentation).andThen fun p =>
  (dGrid f env entity role b).andThen fun d =>
  (cGrid f env entity role b).andThen fun c =>
    .done (formatPeriod spanish ⟨p.1, d.1, c.1,
      langsAfter (sched.lists p.2.2 d.2.2 c.2.2) sched.grow 8 sched.langs,
      langsAfter (sched.lists p.2.1 d.2.1 c.2.1) sched.grow 20 sched.roles⟩)

/-- The fact source of a folder: `h` is the fact, concept and measurement finder (renderable.go:58, 69, 80);
factualQuadrant.go:31-37, fact.go:21-52. -/
def folderSource (insts : List HInstance) (facts : FactEnv) (notes : Option Fact → List Footnote)
    (cellOrder : Nat → Nat → GoMap String Footnote → GoMap String Footnote)
    (lastOrder : GoMap String Footnote → GoMap String Footnote) (langs : List Lang) : FactSource (Option MultilingualFact) :=
  ⟨Query.findFact insts, notes, fun fact => renderCell facts fact langs, cellOrder, lastOrder⟩

end Telefacts.Render
