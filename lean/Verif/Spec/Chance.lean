import Verif.Model.Grid
import Mathlib.Data.List.Forall2
/-! # Specification of what the iteration orders of Go's maps and the interleaving of goroutines leave alone -/
namespace Telefacts.Spec
open Telefacts.Render

/-- Two maps from languages to texts: the same raw text, and in every language that both have, the same text. -/
def AgreeIn {V : Type} (m m' : GoMap String V) : Prop :=
  mapGet m "Unlabelled" = mapGet m' "Unlabelled" ∧
  ∀ lang t t', mapGet m lang = some t → mapGet m' lang = some t' → t = t'

/-- Two cells show the same fact. -/
def CellsAgree : Option MultilingualFact → Option MultilingualFact → Prop
  | some m, some m' => AgreeIn m m'
  | none, none => True
  | _, _ => False

/-- The same footnotes, in whatever order, and as many numbers in every cell. -/
def SameFootnotes {Φ : Type} (q q' : Quadrant Φ) : Prop :=
  q.footnotes.Perm q'.footnotes ∧ q.numbers.map (fun row => row.map List.length) = q'.numbers.map (fun row => row.map List.length)

/-- The same rows and columns, with the same facts. -/
structure SamePGrid (g g' : PGrid (Option MultilingualFact)) : Prop where
  rows : g.rows = g'.rows
  periods : List.Forall₂ AgreeIn g.periods g'.periods
  members : g.members = g'.members
  voids : g.voids = g'.voids
  facts : g.quadrant.facts = g'.quadrant.facts
  footnotes : SameFootnotes g.quadrant g'.quadrant

/-- The same root domain, with the same facts. -/
structure SameDomain (r r' : RootDomain (Option MultilingualFact)) : Prop where
  href : r.href = r'.href
  label : r.label = r'.label
  primaryItems : r.primaryItems = r'.primaryItems
  periods : List.Forall₂ AgreeIn r.periods r'.periods
  members : r.members = r'.members
  voids : r.voids = r'.voids
  domains : r.domains = r'.domains
  dimensions : r.dimensions = r'.dimensions
  facts : r.quadrant.facts = r'.quadrant.facts
  footnotes : SameFootnotes r.quadrant r'.quadrant

/-- The same summation item, with the same facts but for the languages they are shown in. -/
structure SameItem (i i' : SummationItem (Option MultilingualFact)) : Prop where
  href : i.href = i'.href
  label : i.label = i'.label
  balance : i.balance = i'.balance
  periods : List.Forall₂ AgreeIn i.periods i'.periods
  members : i.members = i'.members
  voids : i.voids = i'.voids
  contributing : i.contributing = i'.contributing
  facts : List.Forall₂ (List.Forall₂ CellsAgree) i.quadrant.facts i'.quadrant.facts
  footnotes : SameFootnotes i.quadrant i'.quadrant

/-- Two renderables that differ by chance only: in the order of footnotes and their numbers, in the lists of languages and label roles,
and in the languages of the column headers and of the facts of calculations. -/
structure ByChance (g g' : Grids (Option MultilingualFact)) : Prop where
  p : SamePGrid g.p g'.p
  domains : List.Forall₂ SameDomain g.d.domains g'.d.domains
  nodes : g.d.nodes = g'.d.nodes
  links : g.d.links = g'.d.links
  c : List.Forall₂ SameItem g.c g'.c

end Telefacts.Spec
