import Verif.Model.TextBlock
import Verif.Spec.Instance
/-! # Specification of sanitised text blocks -/
namespace Telefacts.Text
open Telefacts.Spec Telefacts.Instance

/-- Number of start tags of an element. -/
def starts (name : String) (toks : List HTok) : Nat :=
  toks.countP fun t => match t with | .start n _ => decide (n = name) | _ => false

/-- Number of end tags of an element. -/
def ends (name : String) (toks : List HTok) : Nat :=
  toks.countP fun t => match t with | .finish n => decide (n = name) | _ => false

/-- Every end tag of the element closes an earlier start tag. -/
def NoStray (name : String) (toks : List HTok) : Prop := ∀ pre, pre <+: toks → ends name pre ≤ starts name pre

/-- The tags of the element are balanced. -/
def Balanced (name : String) (toks : List HTok) : Prop := NoStray name toks ∧ starts name toks = ends name toks

/-- The markup that may be shown. -/
def markup : List String :=
  ["<table>", "<tr>", "<th>", "<td>", "</table>", "</tr>", "</th>", "</td>", "<br /><br />"]

/-- The texts shown for the text tokens, in order. -/
def texts (trim : String → String) : List HTok → List String
  | [] => []
  | .text d :: ts => (if trim d = "" then [] else [trim d ++ " "]) ++ texts trim ts
  | _ :: ts => texts trim ts

/-- The number of tables that are open after some tokens; end tags without a start tag have no effect. -/
def openTables (toks : List HTok) : Nat :=
  toks.foldl (fun n t => match t with
    | .start name _ => if name = "table" then n + 1 else n
    | .finish name => if name = "table" then n - 1 else n
    | _ => n) 0

/-- The number of columns spanned by a cell: its `colspan` if that is an integer greater than one. -/
def Columns (attrs : List (String × String)) (k : Nat) : Prop :=
  (∃ s c, FirstWith (fun a : String × String => a.1 = "colspan") attrs ("colspan", s) ∧ IntLit s c ∧ -(2 ^ 63) ≤ c ∧ c < 2 ^ 63 ∧
    k = max 1 c.toNat) ∨
  ((∀ s c, FirstWith (fun a : String × String => a.1 = "colspan") attrs ("colspan", s) → IntLit s c → c < -(2 ^ 63) ∨ 2 ^ 63 ≤ c) ∧ k = 1)

/-- The width in columns of the cells of an element. -/
inductive Width (name : String) : List HTok → Nat → Prop
  | nil : Width name [] 0
  | cell (attrs ts k n) : Columns attrs k → Width name ts n → Width name (.start name attrs :: ts) (k + n)
  | skip (t ts n) : (∀ attrs, t ≠ .start name attrs) → Width name ts n → Width name (t :: ts) n

end Telefacts.Text
