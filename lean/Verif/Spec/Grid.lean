import Verif.Model.Grid
import Verif.Spec.Domain
import Verif.Spec.Member
import Verif.Spec.Label
import Verif.Spec.Period
import Mathlib.Data.List.Forall2
/-! # Specification of grids: rows and columns belong together -/
namespace Telefacts.Render
open Telefacts.Instance Telefacts.Spec

/-- The columns of a grid with these rows: those of the contexts of the entity that have a fact for a concrete row, of
every instance each once, in order of period, number of members and first member. -/
def ColumnsFor (f : Folder) (entity : String) (hrefs : List String) (cols : List RelevantContext) : Prop :=
  ∃ (css : List (List Context)) (cols' : List RelevantContext),
    List.Forall₂ (fun i cs => (cs.map Context.id).Nodup ∧ ∀ c, c ∈ cs ↔ OfEntity entity c ∧ HasFactFor f hrefs i c)
      f.insts css ∧
    List.Forall₂ (ColumnOf f) css.flatten cols' ∧ StableSortedOn ColumnBefore columnKey cols' cols

/-- The parts of a grid share their columns, and facts and footnote numbers their rows; the numbers count the footnotes of the facts,
and the footnotes of the grid are those of its facts. -/
def Aligned {Φ : Type} (f : Folder) (entity : String) (s : FactSource Φ) (hrefs : List String)
    (periods : List LanguagePack) (members : List (List MemberCell)) (voids : List VoidCell) (q : Quadrant Φ) : Prop :=
  ∃ cols, ColumnsFor f entity hrefs cols ∧
    periods = cols.map RelevantContext.period ∧
    HasShape members voids.length cols.length ∧
    (∀ i j x, CellAt members i j x ↔ ∃ v c, voids[i]? = some v ∧ cols[j]? = some c ∧
      ((∃ m, FirstWith (Matches v) c.members m ∧ Shows x m) ∨ ((∀ m ∈ c.members, ¬ Matches v m) ∧ x = ⟨none, ""⟩))) ∧
    (hrefs ≠ [] → cols ≠ [] → HasShape q.facts hrefs.length cols.length ∧ HasShape q.numbers hrefs.length cols.length) ∧
    (∀ i j x, CellAt q.facts i j x ↔ ∃ h c, hrefs[i]? = some h ∧ cols[j]? = some c ∧ x = s.render (s.find h c.contextRef)) ∧
    (GoodOrders s → Noted s hrefs cols q)

/-- Column `j` of the member grid shows the members of `col`. -/
def MemberColumn (members : List (List MemberCell)) (voids : List VoidCell) (j : Nat) (col : RelevantContext) : Prop :=
  ∀ i x, CellAt members i j x ↔ ∃ v, voids[i]? = some v ∧
    ((∃ m, FirstWith (Matches v) col.members m ∧ Shows x m) ∨ ((∀ m ∈ col.members, ¬ Matches v m) ∧ x = ⟨none, ""⟩))

/-- No other fact of the folder has the same concept and the same context identifier. -/
def Unrivalled (f : Folder) (x : Fact) : Prop :=
  ∀ i ∈ f.insts, ∀ y ∈ i.facts, y.href = x.href → y.contextRef = x.contextRef → y = x

/-- No two instances of the folder use the same context identifier. -/
def OwnContexts (f : Folder) : Prop :=
  ∀ i ∈ f.insts, ∀ c ∈ i.contexts, ∀ i' ∈ f.insts, ∀ y ∈ i'.facts, c.id = y.contextRef → i = i'

/-- Every column has a header: its raw period under `Unlabelled`, the text of that period for every language, nothing
else. -/
def Headed (spanish : Date → Option String) (langs : List Lang) (cols : List RelevantContext) (headers : List LanguagePack) : Prop :=
  List.Forall₂ (fun col h => ∃ raw, col.period = [("Unlabelled", raw)] ∧ mapGet h "Unlabelled" = some raw ∧
    (∀ lang ∈ langs, ∃ t, mapGet h lang = some t ∧ PeriodText spanish lang raw t) ∧
    ∀ lang, lang ≠ "Unlabelled" → lang ∉ langs → mapGet h lang = none) cols headers

/-- A language that every label has in some role is among the languages. -/
def Offers (f : Folder) (langs : List Lang) : Prop :=
  (∀ h, PackWF (f.label h)) → ∀ role lang, (∀ h, HasText (f.label h) role lang) → lang ∈ langs

/-- The cell has a text in the language. -/
def CellHas (x : Option MultilingualFact) (lang : Lang) : Prop := ∃ m e, x = some m ∧ (lang, e) ∈ m

end Telefacts.Render
