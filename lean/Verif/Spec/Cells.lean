import Verif.Spec.EndToEnd
/-! # Specification of the cells of the three grids -/
namespace Telefacts.Hydrate
open Telefacts.Spec Telefacts.Render

/-- One of the three grids has `x` in a row for `href`. -/
def InRow {Φ : Type} (g : Grids Φ) (href : String) (x : Φ) : Prop :=
  (∃ n j, (g.p.rows.map IndentedLabel.href)[n]? = some href ∧ CellAt g.p.quadrant.facts n j x) ∨
  (∃ rd ∈ g.d.domains, ∃ n j, (rd.href :: rd.primaryItems.map PrimaryItem.href)[n]? = some href ∧ CellAt rd.quadrant.facts n j x) ∨
  (∃ it ∈ g.c, ∃ n j, (it.contributing.map Contributing.href ++ [it.href])[n]? = some href ∧ CellAt it.quadrant.facts n j x)

end Telefacts.Hydrate
