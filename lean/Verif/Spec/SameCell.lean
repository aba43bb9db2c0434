import Verif.Spec.Grid
import Verif.Spec.Member
import Verif.Model.Express
/-!
# The expression of a fact and the cells of the grids that show the fact
-/
namespace Telefacts.Spec
open Telefacts.Instance Telefacts.Render

/-- No two members of a column belong in the same row. -/
def OneEach (col : RelevantContext) : Prop := ∀ v, ∀ m ∈ col.members, ∀ m' ∈ col.members, Matches v m → Matches v m' → m = m'

/-- Wherever a grid has a row for the concept of the expression and a column for its context, it says the same: the text of the fact
(which is also the English text), the period, the members, and whether there are footnotes. `all` are the footnotes of facts. -/
def SaysSame (e : Expressable) (ref : String) (all : Option Fact → List Footnote) (f : Folder) (entity : String) (hrefs : List String)
    (headers : List LanguagePack) (members : List (List MemberCell)) (voids : List VoidCell) (q : Quadrant (Option MultilingualFact)) : Prop :=
  ∃ cols, ColumnsFor f entity hrefs cols ∧ ∀ n j col, hrefs[n]? = some e.href → cols[j]? = some col → col.contextRef = ref →
    (∃ m t, CellAt q.facts n j (some m) ∧ mapGet m "Unlabelled" = some t ∧ mapGet e.expression "Unlabelled" = some t ∧
      ∀ t', mapGet m "en - english" = some t' → t' = t) ∧
    (∃ h raw, headers[j]? = some h ∧ mapGet h "Unlabelled" = some raw ∧ mapGet e.period "Unlabelled" = some raw) ∧
    (OneEach col → ∀ i i' v x x', CellAt members i j x → voids[i]? = some v → CellAt e.members i' 0 x' → e.rows[i']? = some v → x = x') ∧
    (∃ ks, CellAt q.numbers n j ks ∧ (ks = [] ↔ e.footnotes = [])) ∧
    (SameNotes all → ∀ t ∈ e.footnotes, t ∈ q.footnotes)

end Telefacts.Spec
