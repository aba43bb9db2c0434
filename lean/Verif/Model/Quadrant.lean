import Verif.Model.Context
import Verif.Model.Query
/-!
# pkg/renderables/factualQuadrant.go

The fact finder and `render` are parameters (a model of the former is in Model/Query.lean, of the latter in
Model/FactText.lean). Every `range` over `idMap` gets an iteration order of its own.
-/
namespace Telefacts.Render
open Telefacts.Instance

/-- `FactFinder` (fact.go:12-15), `render` (fact.go:21-52), and the iteration orders of `idMap`. -/
structure FactSource (Φ : Type) where
  find : String → String → Option Fact
  notes : Option Fact → List Footnote
  render : Option Fact → Φ
  /-- the order of the `range` at factualQuadrant.go:58 for a cell -/
  cellOrder : Nat → Nat → GoMap String Footnote → GoMap String Footnote
  /-- the order of the `range` at factualQuadrant.go:70 -/
  lastOrder : GoMap String Footnote → GoMap String Footnote

/-- factualQuadrant.go:39-43 -/
def addNote (m : GoMap String Footnote) (n : Footnote) : GoMap String Footnote :=
  match mapGet m n.id with
  | some _ => m
  | none => mapSet m n.id n

/-- factualQuadrant.go:56-66: the numbers of a cell, counting from `k`. -/
def cellNumbers (notes : List Footnote) : Nat → GoMap String Footnote → List Nat
  | _, [] => []
  | k, (id, _) :: rest =>
    if notes.any (fun n => decide (n.id = id)) then k :: cellNumbers notes (k + 1) rest
    else cellNumbers notes (k + 1) rest

/-- The results of `getFactualQuadrant`; nil slices are empty lists. -/
structure Quadrant (Φ : Type) where
  facts : List (List Φ)
  numbers : List (List (List Nat))
  footnotes : List String

/-- factualQuadrant.go:37-38: the footnotes of every cell. -/
def noteGrid {Φ : Type} (s : FactSource Φ) (hrefs : List String) (ctxs : List RelevantContext) :
    List (List (List Footnote)) :=
  hrefs.map fun h => ctxs.map fun c => s.notes (s.find h c.contextRef)

/-- factualQuadrant.go:18-74 `getFactualQuadrant` -/
def getFactualQuadrant {Φ : Type} (s : FactSource Φ) (hrefs : List String) (ctxs : List RelevantContext) : Quadrant Φ :=
  if hrefs.length = 0 ∨ ctxs.length = 0 then ⟨[], [], []⟩
  else
    let notes := noteGrid s hrefs ctxs
    let idMap := notes.flatten.flatten.foldl addNote []
    ⟨hrefs.map fun h => ctxs.map fun c => s.render (s.find h c.contextRef),
      notes.mapIdx fun i row => row.mapIdx fun j fs => cellNumbers fs 1 (s.cellOrder i j idMap),
      (s.lastOrder idMap).map fun e => e.2.inner⟩

end Telefacts.Render
