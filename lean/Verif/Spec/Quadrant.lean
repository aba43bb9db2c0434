import Verif.Model.Quadrant
/-! # Specification of the factual quadrant -/
namespace Telefacts.Render
open Telefacts.Instance

/-- The cell of a table. -/
def CellAt {Φ : Type} (g : List (List Φ)) (i j : Nat) (x : Φ) : Prop := ∃ row, g[i]? = some row ∧ row[j]? = some x

/-- A table with `r` rows and `c` columns. -/
def HasShape {Φ : Type} (g : List (List Φ)) (r c : Nat) : Prop := g.length = r ∧ ∀ row ∈ g, row.length = c

/-- A footnote of the fact at row `i` and column `j`. -/
def NoteOf {Φ : Type} (s : FactSource Φ) (hrefs : List String) (ctxs : List RelevantContext) (i j : Nat) (n : Footnote) : Prop :=
  ∃ h c, hrefs[i]? = some h ∧ ctxs[j]? = some c ∧ n ∈ s.notes (s.find h c.contextRef)

/-- Footnotes with the same identifier are the same. -/
def Coherent {Φ : Type} (s : FactSource Φ) (hrefs : List String) (ctxs : List RelevantContext) : Prop :=
  ∀ i j n i' j' n', NoteOf s hrefs ctxs i j n → NoteOf s hrefs ctxs i' j' n' → n.id = n'.id → n = n'

/-- The orders are orders of iteration: permutations. -/
def GoodOrders {Φ : Type} (s : FactSource Φ) : Prop :=
  (∀ i j m, (s.cellOrder i j m).Perm m) ∧ ∀ m, (s.lastOrder m).Perm m

/-- Footnotes of facts with the same identifier are the same. -/
def SameNotes (all : Option Fact → List Footnote) : Prop :=
  ∀ f f' n n', n ∈ all f → n' ∈ all f' → n.id = n'.id → n = n'

/-- What the numbers of a cell say of its footnotes, whatever the orders. -/
structure Keyed (notes : List Footnote) (ks : List Nat) (texts : List String) : Prop where
  increasing : ks.Pairwise (· < ·)
  bounds : ∀ k ∈ ks, 1 ≤ k ∧ k ≤ texts.length
  count : ∃ ids : List String, ids.Nodup ∧ (∀ id, id ∈ ids ↔ ∃ n ∈ notes, n.id = id) ∧ ks.length = ids.length

/-- What the texts of a grid say of the footnotes of one of its facts; `all` are the footnotes of any fact. -/
structure NotesListed (all : Option Fact → List Footnote) (notes : List Footnote) (texts : List String) : Prop where
  every : SameNotes all → ∀ n ∈ notes, n.inner ∈ texts
  only : ∀ t ∈ texts, ∃ f, ∃ n ∈ all f, t = n.inner
  once : ∃ ids : List String, ids.Nodup ∧ (∀ id ∈ ids, ∃ f, ∃ n ∈ all f, n.id = id) ∧ texts.length = ids.length

/-- What numbers and footnotes of a quadrant say, whatever the orders. -/
structure Noted {Φ : Type} (s : FactSource Φ) (hrefs : List String) (ctxs : List RelevantContext) (q : Quadrant Φ) : Prop where
  keyed : ∀ i j ks h c, CellAt q.numbers i j ks → hrefs[i]? = some h → ctxs[j]? = some c → Keyed (s.notes (s.find h c.contextRef)) ks q.footnotes
  listed : Coherent s hrefs ctxs → ∀ i j n, NoteOf s hrefs ctxs i j n → n.inner ∈ q.footnotes
  only : ∀ t ∈ q.footnotes, ∃ i j n, NoteOf s hrefs ctxs i j n ∧ t = n.inner
  total : ∃ ids : List String, ids.Nodup ∧ (∀ id, id ∈ ids ↔ ∃ i j n, NoteOf s hrefs ctxs i j n ∧ n.id = id) ∧ q.footnotes.length = ids.length

end Telefacts.Render
