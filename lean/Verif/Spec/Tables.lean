import Verif.Spec.TextBlock
/-! # Specification of the tables of a text block -/
namespace Telefacts.Text

/-- A token that is not a tag of a table, row or cell. -/
def Plain : HTok → Prop
  | .start n _ => n ∉ ["table", "tr", "th", "td"]
  | .finish n => n ∉ ["table", "tr", "th", "td"]
  | _ => True

/-- A cell: a heading or not, its attributes, the columns it spans, what is in it, and what follows before the next cell. -/
structure Cell where
  heading : Bool
  attrs : List (String × String)
  span : Nat
  content : List HTok
  after : List HTok

/-- The element of a cell. -/
def Cell.name (c : Cell) : String := if c.heading then "th" else "td"

/-- A row: its attributes, what precedes the first cell, the cells, and what follows before the next row. -/
structure Row where
  attrs : List (String × String)
  before : List HTok
  cells : List Cell
  after : List HTok

/-- The tokens of a cell. -/
def Cell.tokens (c : Cell) : List HTok := .start c.name c.attrs :: c.content ++ .finish c.name :: c.after

/-- The tokens of a row. -/
def Row.tokens (r : Row) : List HTok := .start "tr" r.attrs :: r.before ++ r.cells.flatMap Cell.tokens ++ .finish "tr" :: r.after

/-- The tokens of a table. -/
def tableTokens (attrs : List (String × String)) (before : List HTok) (rows : List Row) : List HTok :=
  .start "table" attrs :: before ++ rows.flatMap Row.tokens ++ [.finish "table"]

/-- Cells hold no tables, and spans are those of the attributes. -/
structure Cell.Ok (c : Cell) : Prop where
  span : Columns c.attrs c.span
  content : ∀ t ∈ c.content, Plain t
  after : ∀ t ∈ c.after, Plain t

/-- Likewise for rows. -/
structure Row.Ok (r : Row) : Prop where
  before : ∀ t ∈ r.before, Plain t
  cells : ∀ c ∈ r.cells, c.Ok
  after : ∀ t ∈ r.after, Plain t

/-- A cell as it should be shown: it opens once for every column that it spans, so that its text is in the last of them, and is closed as
often. -/
def Cell.shown (trim : String → String) (c : Cell) : List String :=
  (if c.heading then List.replicate c.span "<th>" ++ texts trim c.content ++ List.replicate c.span "</th>"
    else List.replicate c.span "<td>" ++ texts trim c.content ++ List.replicate c.span "</td>") ++ texts trim c.after

/-- A row as it should be shown. -/
def Row.shown (trim : String → String) (r : Row) : List String :=
  "<tr>" :: texts trim r.before ++ r.cells.flatMap (Cell.shown trim) ++ "</tr>" :: texts trim r.after

/-- A table as it should be shown. -/
def tableShown (trim : String → String) (before : List HTok) (rows : List Row) : List String :=
  "<table>" :: texts trim before ++ rows.flatMap (Row.shown trim) ++ ["</table>"]

/-- The tokens with all attributes but `colspan` removed. -/
def onlySpans (toks : List HTok) : List HTok :=
  toks.map fun t => match t with
    | .start n attrs => .start n (attrs.filter fun a => decide (a.1 = "colspan"))
    | t => t

/-- The cells among the tokens span `m` columns more than there are cells. -/
inductive Spare : List HTok → Nat → Prop
  | nil : Spare [] 0
  | cell {n : String} {attrs : List (String × String)} {k m : Nat} {ts : List HTok} : n = "td" ∨ n = "th" → Columns attrs k → Spare ts m →
      Spare (.start n attrs :: ts) (k - 1 + m)
  | skip {t : HTok} {m : Nat} {ts : List HTok} : (∀ n attrs, t = .start n attrs → n ≠ "td" ∧ n ≠ "th") → Spare ts m → Spare (t :: ts) m

end Telefacts.Text
