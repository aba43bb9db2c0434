import Verif.Model.Member
import Verif.Model.FactText
import Verif.Model.Document
/-!
# pkg/renderables/expressable.go and the multilingual period of contexts.go

The JSON encoding is in Model/GridJson.lean. `h.Instances` is ranged over several times, each time in an order of its own: `order` at
expressable.go:31, `insts` of the folder elsewhere (the same for all: simplified).
-/
namespace Telefacts.Render
open Telefacts.Instance Telefacts.Document

/-- contexts.go:126-142 `appendLanguagePackFromPeriod` -/
def addPeriodTexts (spanish : Date → Option String) (pack : LanguagePack) (labels : LabelPack) (start stop : String) : LanguagePack :=
  (labels.flatMap fun item => item.2.map Prod.fst).foldl (fun ret lang =>
    if lang = English then mapSet ret English (formatEnglishDates start stop)
    else if lang = Espanol then mapSet ret Espanol (formatSpanishDates spanish start stop)
    else ret) pack

/-- contexts.go:105-124 `periodMultilingualString` -/
def periodTexts (spanish : Date → Option String) (labels : LabelPack) (c : Context) : LanguagePack :=
  if c.endDate ≠ "" ∧ c.startDate ≠ "" then
    let t := c.startDate ++ "/" ++ c.endDate
    addPeriodTexts spanish [(PureLabel, t), (BriefLabel, t)] labels c.startDate c.endDate
  else if c.instant ≠ "" then addPeriodTexts spanish [(PureLabel, c.instant), (BriefLabel, c.instant)] labels "" c.instant
  else [(PureLabel, "")]

/-- expressable.go:9-19 -/
structure Expressable where
  href : String
  labels : LabelPack
  period : LanguagePack
  rows : List VoidCell
  members : List (List MemberCell)
  expression : MultilingualFact
  footnotes : List String
deriving DecidableEq, Repr

/-- What a request reads of the folder, next to what rendering a fact reads. -/
structure ExpressEnv where
  folder : Folder
  doc : Option Doc
  /-- `NameQuery`: `ok ""` is the answer `"", nil, nil`. -/
  nameQuery : String → String → Res String
  order : List HInstance
  notes : Fact → List Footnote
  facts : FactEnv
  spanish : Date → Option String
  memberOrder : GoMap String RelevantMember → GoMap String RelevantMember

/-- The answer to a request: an error, nothing (`nil, nil`), or an expression. -/
inductive Answer where
  | error (msg : String)
  | nothing
  | expr (e : Expressable)
deriving DecidableEq, Repr

/-- expressable.go:44-80: the answer for a fact that was found. -/
def expressFact (env : ExpressEnv) (href ref : String) (fact : Fact) : Run Answer :=
  match env.order with
  | [] => .panic
  | i :: _ =>
    match getContext i ref with
    | none => .panic
    | some c =>
      (getRelevantContexts env.folder (c.scheme ++ "/" ++ c.ident) [href]).andThen fun rel =>
      (getMemberGrid env.memberOrder (rel.contexts.find? (fun x => decide (x.contextRef = ref))).toList rel.segmentTrees rel.scenarioTrees).andThen fun grid =>
      match renderCell env.facts (some fact) [PureLabel] with
      | none => .panic
      | some m =>
        .done (.expr ⟨href, env.folder.label href, periodTexts env.spanish (env.folder.label href) c, grid.2, grid.1, m,
          (env.notes fact).map Footnote.inner⟩)

/-- expressable.go:21-81 `MarshalExpressable` before encoding. -/
def express (env : ExpressEnv) (name ref : String) : Run Answer :=
  match env.doc with
  | none => .panic
  | some doc =>
    match mapGet doc.names name with
    | none => .done .nothing
    | some x =>
      match mapGet doc.ctxs ref with
      | none => .done .nothing
      | some _ =>
        match env.nameQuery x.space x.loc with
        | .err m => .done (.error m)
        | .panic => .panic
        | .ok href =>
          match Query.findFact env.folder.insts href ref with
          | none => .done .nothing
          | some fact => expressFact env href ref fact

end Telefacts.Render
