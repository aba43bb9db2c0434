import Verif.Model.Catalog
/-!
# pkg/renderables/renderable.go

The grids, languages and label roles of an entity and a relationship set are a parameter: pGrid, dGrid and cGrid never
return an error (presentationGrid.go:55, definitionGrid.go:18, calculationGrid.go:44), their parts are modelled in
Model/Network.lean and Model/Domain.lean, the goroutines that collect them in Model/Label.lean, the JSON encoding
in Model/GridJson.lean.
-/
namespace Telefacts.Catalog
open Telefacts.Instance Telefacts.Schema

/-- renderable.go:26-34; `γ` stands for the grids, languages and label roles. -/
structure Renderable (γ : Type) where
  subject : Subject
  rset : RSet
  grids : γ
deriving DecidableEq, Repr

/-- renderable.go:36-128 `MarshalRenderable` before encoding. Line 94 assigns the error of `EntityQuery` to the variable that
is tested at line 120. -/
def renderable {γ : Type} (query : String → String → Res String) (grids : String → String → γ) (wanted : String)
    (insts : List HInstance) (schemas : List HSchema) : Res (Renderable γ) :=
  match select wanted (sortedEntities insts) (sortedRSets schemas) with
  | none => .err "object not found"
  | some (e, r) =>
    let g := grids (stringify e) r.roleURI
    match query e.scheme e.chars with
    | .ok n => .ok ⟨⟨n, e⟩, r, g⟩
    | .err m => .err m
    | .panic => .panic

end Telefacts.Catalog
