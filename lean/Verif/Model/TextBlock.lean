import Verif.Model.Instance
/-!
# pkg/renderables/textBlock.go

Tokenizing (`golang.org/x/net/html`, after `html.UnescapeString`) is not modelled: the loop gets the list of tokens before
the end of input. `tokenizer.Err()` is nil for a token that is not an error token, so the loop ends at the first error
token, whose error is `io.EOF` for a string reader. `trim` is `strings.TrimSpace`.
-/
namespace Telefacts.Text
open Telefacts.Instance

/-- A token; `start` stands for `StartTagToken` and `SelfClosingTagToken`, `other` for comments and doctypes. -/
inductive HTok where
  | start (name : String) (attrs : List (String × String))
  | finish (name : String)
  | text (data : String)
  | other
deriving DecidableEq, Repr

/-- textBlock.go:15-22 `findHtmlAttr`, and 25-28: the column span of a tag. -/
def colspanOf (attrs : List (String × String)) : Option Int :=
  match attrs.find? (fun a => decide (a.1 = "colspan")) with
  | some a => atoi a.2
  | none => none

/-- textBlock.go:29: how often the loop runs. -/
def extra (c : Int) : Nat := (c - 1).toNat

/-- The variables of the loop. `out` are the strings appended to `tokenized`; the heads of `ths` and `tds` are the ends of
the slices. -/
structure TB where
  disableBr : Int
  ths : List Int
  tds : List Int
  out : List String
deriving DecidableEq, Repr

/-- textBlock.go:24-34 `colSpanHelper` with its callback: push the span and emit, `extra` times. -/
def widen (attrs : List (String × String)) (tag : String) (stack : List Int) : List Int × List String :=
  match colspanOf attrs with
  | some c => (List.replicate (extra c) c ++ stack, List.replicate (extra c) tag)
  | none => (stack, [])

/-- `stack = stack[:len(stack)-1]`, `n` times; `none` is a panic. -/
def pops : Nat → List Int → Option (List Int)
  | 0, s => some s
  | _ + 1, [] => none
  | n + 1, _ :: s => pops n s

/-- textBlock.go:36-43 `colSpan2Helper` with its callback. -/
def narrow (tag : String) (stack : List Int) : Option (List Int × List String) :=
  match stack with
  | [] => some ([], [])
  | c :: _ => (pops (extra c) stack).map fun s => (s, List.replicate (extra c) tag)

/-- textBlock.go:93-102 -/
def blockElems : List String := ["div", "p", "h1", "h2", "h3", "h4", "h5", "h6"]

/-- textBlock.go:91-109 -/
def breaks (st : TB) (name : String) : TB :=
  if st.disableBr ≤ 0 then
    (if blockElems.contains name then { st with out := st.out ++ ["<br /><br />"] } else st)
  else st

/-- textBlock.go:72-90 -/
def openTag (st : TB) (name : String) (attrs : List (String × String)) : TB :=
  if name = "table" then { st with disableBr := st.disableBr + 1, out := st.out ++ ["<table>"] }
  else if name = "tr" then { st with out := st.out ++ ["<tr>"] }
  else if name = "th" then
    let r := widen attrs "<th>" st.ths
    { st with ths := r.1, out := st.out ++ "<th>" :: r.2 }
  else if name = "td" then
    let r := widen attrs "<td>" st.tds
    { st with tds := r.1, out := st.out ++ "<td>" :: r.2 }
  else st

/-- textBlock.go:115-134 -/
def closeTag (st : TB) (name : String) : Option TB :=
  if name = "table" then some { st with disableBr := st.disableBr - 1, out := st.out ++ ["</table>"] }
  else if name = "tr" then some { st with out := st.out ++ ["</tr>"] }
  else if name = "th" then
    (narrow "</th>" st.ths).map fun r => { st with ths := r.1, out := st.out ++ "</th>" :: r.2 }
  else if name = "td" then
    (narrow "</td>" st.tds).map fun r => { st with tds := r.1, out := st.out ++ "</td>" :: r.2 }
  else some st

/-- textBlock.go:70-136: one token; `none` is a panic. -/
def tbStep (trim : String → String) (st : TB) : HTok → Option TB
  | .start name attrs => some (breaks (openTag st name attrs) name)
  | .text data => some (if trim data = "" then st else { st with out := st.out ++ [trim data ++ " "] })
  | .finish name => closeTag st name
  | .other => some st

/-- textBlock.go:62-137: the loop. -/
def tbRun (trim : String → String) : TB → List HTok → Option TB
  | st, [] => some st
  | st, t :: ts => (tbStep trim st t).bind fun st => tbRun trim st ts

/-- textBlock.go:58-61 -/
def tbStart : TB := ⟨0, [], [], []⟩

/-- The strings that make up `InnerHtml` (textBlock.go:45-141 `renderTextBlock` for a text block). -/
def sanitize (trim : String → String) (toks : List HTok) : Option (List String) := (tbRun trim tbStart toks).map TB.out

end Telefacts.Text
