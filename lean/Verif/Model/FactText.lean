import Verif.Model.TextBlock
import Verif.Model.Label
import Verif.Model.Query
/-!
# pkg/renderables/fact.go and the fact parts of english.go and spanish.go

Parameters: `tokens` is the tokenizer on the unescaped text (textBlock.go:57-66), `trim` is `strings.TrimSpace`, `hundred`
is `big.ParseFloat`, multiplication by 100 and `Text('f', -1)` (fact.go:64-68), `digits` is `digits.New` with `Head`,
`Core` and `Tail` (fact.go:73-82). `none` is an error of those.
-/
namespace Telefacts.Render
open Telefacts.Instance Telefacts.Text

/-- factualQuadrant.go:7-12 -/
structure FactExpression where
  head : String
  core : String
  tail : String
  innerHtml : String
deriving DecidableEq, Repr

/-- factualQuadrant.go:14 -/
abbrev MultilingualFact := GoMap Lang FactExpression

/-- What rendering a fact reads: `HashQuery`, `FindMeasurement`, and the libraries. -/
structure FactEnv where
  concept : String → Option Schema.Concept
  measure : String → Option Query.Measurement × Option Query.Measurement
  tokens : String → List HTok
  trim : String → String
  hundred : String → Option String
  digits : Int → String → Char → Option (String × String × String)

/-- pkg/attr/literals.go:20, 56, 57 -/
def NUM := "http://www.xbrl.org/dtr/type/numeric"
def PercentItemType := "percentItemType"
def TextBlockItemType := "textBlockItemType"

/-- fact.go:55-56, english.go:53-54, spanish.go:56-57 -/
def isPercent (c : Schema.Concept) : Bool := decide (c.type.space = NUM) && decide (c.type.loc = PercentItemType)

/-- fact.go:54-83 `SigFigs`, `renderPercent`, `renderNumeric` -/
def sigFigs (env : FactEnv) (value : String) (precision : Int) (c : Schema.Concept) (g : Char) : Option (String × String × String) :=
  if isPercent c then
    match env.hundred value with
    | none => none
    | some p => env.digits precision p g
  else env.digits precision value g

/-- english.go:62-66 -/
def unitHead (num : Option Query.Measurement) (head : String) : String :=
  match num with
  | some m => if m.symbol ≠ "" then m.symbol ++ " " ++ head else head
  | none => head

/-- english.go:67-83 -/
def unitTail (percent : Bool) (num den : Option Query.Measurement) (tail : String) : String :=
  let tail := if percent then tail ++ "%" else tail
  match num with
  | none => tail
  | some m =>
    let tail := tail ++ " "
    let tail := if m.symbol = "" ∧ percent = false then tail ++ m.unitName else tail
    match den with
    | none => tail
    | some d =>
      let tail := tail ++ "/"
      if d.symbol ≠ "" then tail ++ d.symbol else tail ++ d.unitName

/-- english.go:37-90 `renderEnglishFact` (`sep` ',') and spanish.go:40-93 `renderSpanishFact` (`sep` ' '), with textBlock.go:45-141
`renderTextBlock`; `none` is a panic. -/
def renderFact (env : FactEnv) (sep : Char) (f : Fact) : Option FactExpression :=
  match env.concept f.href with
  | none => some ⟨"", "error", "", ""⟩
  | some c =>
    if c.type.loc = TextBlockItemType then
      (sanitize env.trim (env.tokens f.inner)).map fun out => ⟨"", "", "", String.join out⟩
    else if f.precision = precisionless then some ⟨"", f.inner, "", ""⟩
    else
      match sigFigs env f.inner f.precision c sep with
      | none => some ⟨"", f.inner, "", ""⟩
      | some (head, core, tail) =>
        some ⟨unitHead (env.measure f.unitRef).1 head, core, unitTail (isPercent c) (env.measure f.unitRef).1 (env.measure f.unitRef).2 tail, ""⟩

/-- fact.go:39-50: one language. -/
def renderLang (env : FactEnv) (f : Fact) (lang : Lang) (m : MultilingualFact) : Option MultilingualFact :=
  if lang = English then (renderFact env ',' f).map (mapSet m lang)
  else if lang = Espanol then (renderFact env ' ' f).map (mapSet m lang)
  else if lang = PureLabel then (renderFact env ',' f).map (mapSet m lang)
  else some m

/-- fact.go:39-50: the loop. -/
def renderLangs (env : FactEnv) (f : Fact) : List Lang → MultilingualFact → Option MultilingualFact
  | [], m => some m
  | l :: ls, m => (renderLang env f l m).bind (renderLangs env f ls)

/-- fact.go:21-52 `render`; every caller passes a measurement finder that is not nil, so 33-38 are left out. -/
def renderCell (env : FactEnv) (fact : Option Fact) (langs : List Lang) : Option MultilingualFact :=
  match fact with
  | none => some [(PureLabel, ⟨"", "", "", ""⟩)]
  | some f => if f.isNil then some [(PureLabel, ⟨"", "nil", "", ""⟩)] else renderLangs env f langs []

end Telefacts.Render
