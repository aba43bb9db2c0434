import Verif.Model.Schema
/-!
# pkg/hydratables/instance.go: instances

The XML tokens of the content of a typed member (`Model/XmlText.lean` has a model of them) and `strings.TrimSpace` are
parameters.
-/
namespace Telefacts.Instance
open Telefacts.Linkbase Telefacts.Schema

/-- Outcome of a call that returns no error value: it returns, panics or never returns. -/
inductive Run (α : Type) where
  | done (a : α)
  | panic
  | loop
deriving DecidableEq, Repr

/-- Sequencing. -/
def Run.andThen {α β : Type} (r : Run α) (f : α → Run β) : Run β :=
  match r with
  | .done a => f a
  | .panic => .panic
  | .loop => .loop

/-- `for _, x := range l { if y, ok := f(x) { ret = append(ret, y) } }` where `f` may not return. -/
def collectRun {α β : Type} (f : α → Run (Option β)) : List α → Run (List β)
  | [] => .done []
  | x :: xs => (f x).andThen fun y => (collectRun f xs).andThen fun ys =>
    .done (match y with | some y => y :: ys | none => ys)

/-- instance.go:24-33 -/
structure ExplicitMember where
  dimHref : String
  dimValue : String
  memHref : String
  memValue : String
deriving DecidableEq, Repr

/-- instance.go:68-72; the order is a small positive integer, kept as a natural number. -/
structure TypedArc where
  order : Nat
  frm : String
  to : String
deriving DecidableEq, Repr

/-- instance.go:35-43; a nil map is an empty one. -/
structure TypedMember where
  dimHref : String
  dimValue : String
  typedDomainHref : String
  members : GoMap String String
  arcs : List TypedArc
deriving DecidableEq, Repr

/-- instance.go:63-66 -/
structure DimCtx where
  explicit : List ExplicitMember
  typed : List TypedMember
deriving DecidableEq, Repr

/-- instance.go:45-61, 74-81 -/
structure Context where
  id : String
  scheme : String
  ident : String
  segment : DimCtx
  instant : String
  startDate : String
  endDate : String
  scenario : DimCtx
deriving DecidableEq, Repr

/-- An explicitMember (character data) or typedMember (inner XML) element. -/
structure MemberElem where
  attrs : List Attr
  chars : String
deriving DecidableEq, Repr

/-- A segment or scenario element. -/
structure DimElem where
  explicit : List MemberElem
  typed : List MemberElem
deriving DecidableEq, Repr

/-- An entity element. -/
structure EntityElem where
  identifiers : List (List Attr × String)
  segments : List DimElem
deriving DecidableEq, Repr

/-- A period element. -/
structure PeriodElem where
  instants : List String
  starts : List String
  ends : List String
deriving DecidableEq, Repr

/-- A context element. -/
structure CtxElem where
  space : String
  attrs : List Attr
  entities : List EntityElem
  periods : List PeriodElem
  scenarios : List DimElem
deriving DecidableEq, Repr

/-- Tokens of `xml.Decoder` that the code looks at. -/
inductive Tok where
  | start (n : XName)
  | stop (n : XName)
  | text (s : String)
  | other
deriving DecidableEq, Repr

/-- What the decoder delivers: tokens, then `io.EOF` or (again and again) another error. -/
structure Stream where
  toks : List Tok
  eof : Bool
deriving DecidableEq, Repr

/-- The parameters of instance hydration. -/
structure World where
  env : Env
  /-- attributes of the root element of the instance -/
  tl : List Attr
  /-- `xml.NewDecoder` on inner XML -/
  tokens : String → Stream
  /-- `strings.TrimSpace` -/
  trim : String → String

/-- The state of the loop at instance.go:346-405. -/
structure WalkState where
  members : GoMap String String
  arcs : List TypedArc
  order : Nat
  stack : List (Option Concept)
  prevHref : String
  prev : Option Concept

/-- One round of the loop at instance.go:346-405; `error` is `return nil, nil`. -/
def walkStep (w : World) (dim : Concept) (st : WalkState) : Tok → Run (Except Unit WalkState)
  | .start n =>
    let name := xmlns w.tl (n.space ++ ":" ++ n.loc)
    if name.space = "" then .done (.ok st)
    else match nameQuery w.env name.space name.loc with
      | .err _ => .done (.error ())
      | .panic => .panic
      | .ok r =>
        let currHref := match r with | some p => p.1 | none => ""
        let curr := match r with | some p => some p.2 | none => none
        .done (.ok { st with
          order := st.order + 1
          stack := curr :: st.stack
          arcs := st.arcs ++ [⟨st.order + 1, st.prevHref, currHref⟩]
          prev := curr
          prevHref := currHref })
  | .stop n =>
    match st.stack with
    | [] => .done (.error ())
    | none :: _ => .panic
    | some popped :: rest =>
      let name := xmlns w.tl (n.space ++ ":" ++ n.loc)
      if popped.name.loc ≠ name.loc ∧ popped.name.space ≠ name.space then .done (.error ())
      else .done (.ok { st with
        stack := rest
        prev := match rest with | [] => some dim | p :: _ => p })
  | .text s =>
    let str := w.trim s
    if str = "" then .done (.ok st)
    else match st.prev with
      | none => .panic
      | some p =>
        match nameQuery w.env p.name.space p.name.loc with
        | .err _ => .done (.error ())
        | .panic => .panic
        | .ok r =>
          .done (.ok { st with members := mapSet st.members (match r with | some p => p.1 | none => "") str })
  | .other => .done (.ok st)

/-- The loop at instance.go:346-405. When the decoder fails otherwise than by `io.EOF` the loop spins. -/
def walk (w : World) (dim : Concept) (st : WalkState) (eof : Bool) :
    List Tok → Run (GoMap String String × List TypedArc)
  | [] => if eof then .done (st.members, st.arcs) else .loop
  | t :: ts =>
    match walkStep w dim st t with
    | .panic => .panic
    | .loop => .loop
    | .done (.error ()) => .done ([], [])
    | .done (.ok st') => walk w dim st' eof ts

/-- instance.go:332-407 `hydrateTypedMembers` (the namespace found by `HashQuery` is not used). -/
def hydrateTypedMembers (w : World) (dimHref inner : String) : Run (GoMap String String × List TypedArc) :=
  match hashQuery w.env w.env.namespaces dimHref with
  | .ok (_, dim) => walk w dim ⟨[], [], 0, [], dimHref, some dim⟩ (w.tokens inner).eof (w.tokens inner).toks
  | .err _ => .done ([], [])
  | .panic => .panic

/-- `NameQuery` of a prefixed name, with the checks at e.g. instance.go:159-166. (It never panics:
`nameQuery_ne_panic`.) -/
def lookup (w : World) (q : String) : Option (String × Concept) :=
  let n := xmlns w.tl q
  if n.space = "" then none
  else match nameQuery w.env n.space n.loc with
    | .ok (some p) => if p.1 = "" then none else some p
    | _ => none

/-- The dimension attribute: instance.go:155-158, 197-200 (segment) and, with the additional check of
`strict`, 250-253, 292-295 (scenario). -/
def dimAttr (strict : Bool) (attrs : List Attr) : Option String := do
  let v ← plainAttr attrs "dimension"
  guard (strict = true → v ≠ "")
  return v

/-- instance.go:154-192 and 249-287: one explicit member. -/
def explicitMember (w : World) (strict : Bool) (m : MemberElem) : Option ExplicitMember := do
  let dim ← dimAttr strict m.attrs
  let d ← lookup w dim
  let v ← lookup w m.chars
  return ⟨d.1, dim, v.1, m.chars⟩

/-- instance.go:196-225 and 291-320: one typed member. -/
def typedMember (w : World) (strict : Bool) (m : MemberElem) : Run (Option TypedMember) :=
  match dimAttr strict m.attrs with
  | none => .done none
  | some dim =>
    match lookup w dim with
    | none => .done none
    | some d => (hydrateTypedMembers w d.1 m.chars).andThen fun r =>
        .done (some ⟨d.1, dim, d.2.typedDomainHref, r.1, r.2⟩)

/-- instance.go:150-228 and 245-323: only the first segment or scenario element is read. -/
def hydrateDims (w : World) (strict : Bool) : List DimElem → Run DimCtx
  | [] => .done ⟨[], []⟩
  | e :: _ => (collectRun (typedMember w strict) e.typed).andThen fun ts =>
      .done ⟨e.explicit.filterMap (explicitMember w strict), ts⟩

/-- instance.go:230-244: instant, start and end. -/
def hydratePeriod : List PeriodElem → String × String × String
  | [] => ("", "", "")
  | p :: _ =>
    let instant := p.instants.head?.getD ""
    match p.starts, p.ends with
    | s :: _, e :: _ => (instant, s, e)
    | _, _ => (instant, "", "")

/-- instance.go:126-324: one context element. -/
def hydrateContext (w : World) (e : CtxElem) : Run (Option Context) :=
  if e.space ≠ XBRLI then .done none
  else match plainAttr e.attrs "id" with
    | none => .done none
    | some id =>
      if id = "" then .done none
      else match e.entities with
        | [] => .panic
        | ent :: _ =>
          match ent.identifiers with
          | [] => .done none
          | i :: _ =>
            if i.2 = "" then .done none
            else match plainAttr i.1 "scheme" with
              | none => .done none
              | some scheme =>
                (hydrateDims w false ent.segments).andThen fun segment =>
                (hydrateDims w true e.scenarios).andThen fun scenario =>
                .done (some {
                  id := id
                  scheme := scheme
                  ident := i.2
                  segment := segment
                  instant := (hydratePeriod e.periods).1
                  startDate := (hydratePeriod e.periods).2.1
                  endDate := (hydratePeriod e.periods).2.2
                  scenario := scenario })

/-- instance.go:124-330 `hydrateContexts`. -/
def hydrateContexts (w : World) (es : List CtxElem) : Run (List Context) :=
  (collectRun (hydrateContext w) es).andThen fun l =>
    .done (stableSort (fun a b => decide (a.id < b.id)) l)

/-! ## Facts -/

/-- precision.go:5 `Exact = -1 << 31` -/
def exact : Int := -(2 ^ 31)
/-- precision.go:6 `Precisionless = Exact + 1` -/
def precisionless : Int := exact + 1

/-- Value of a list of decimal digits, `none` if one is not a digit. -/
def digitsVal : Nat → List Char → Option Nat
  | acc, [] => some acc
  | acc, c :: cs => if 48 ≤ c.toNat ∧ c.toNat ≤ 57 then digitsVal (acc * 10 + (c.toNat - 48)) cs else none

/-- Unsigned part of `strconv.Atoi`. -/
def unsignedVal (cs : List Char) : Option Nat := if cs = [] then none else digitsVal 0 cs

/-- The value of an optionally signed literal. -/
def signedVal (cs : List Char) : Option Int :=
  match cs with
  | '-' :: cs => (unsignedVal cs).map fun n : Nat => -(n : Int)
  | '+' :: cs => (unsignedVal cs).map fun n : Nat => (n : Int)
  | cs => (unsignedVal cs).map fun n : Nat => (n : Int)

/-- `strconv.Atoi` with 64-bit `int`: `none` is an error. -/
def atoi (s : String) : Option Int :=
  match signedVal s.toList with
  | some z => if -(2 ^ 63) ≤ z ∧ z < 2 ^ 63 then some z else none
  | none => none

/-- fact.go:11-19 -/
structure Fact where
  href : String
  id : String
  contextRef : String
  unitRef : String
  precision : Int
  isNil : Bool
  inner : String
deriving DecidableEq, Repr

/-- A fact element. -/
structure FactElem where
  name : XName
  attrs : List Attr
  inner : String
deriving DecidableEq, Repr

/-- instance.go:490-501 -/
def precisionOf (attrs : List Attr) : Int :=
  match findAttr attrs "decimals" with
  | none => precisionless
  | some a =>
    if a.value = "INF" then exact
    else match atoi a.value with
      | some z => z
      | none => precisionless

/-- instance.go:468-516: one fact element. -/
def hydrateFact (w : World) (e : FactElem) : Option Fact :=
  if e.name.loc = "" ∨ e.name.space = "" then none
  else match nameQuery w.env e.name.space e.name.loc with
    | .ok (some (ref, _)) =>
      if ref = "" then none
      else match plainAttr e.attrs "contextRef" with
        | none => none
        | some ctx =>
          if ctx = "" then none
          else some {
            href := ref
            id := optAttr e.attrs "id"
            contextRef := ctx
            unitRef := optAttr e.attrs "unitRef"
            precision := precisionOf e.attrs
            isNil := boolAttr e.attrs "nil"
            inner := e.inner }
    | _ => none

/-- instance.go:466-522 `hydrateFacts`. -/
def hydrateFacts (w : World) (es : List FactElem) : List Fact :=
  stableSort (fun a b => decide (a.id < b.id)) (es.filterMap (hydrateFact w))

/-! ## Units -/

/-- measurement.go:18-21 -/
structure UnitMeasure where
  name : XName
  chars : String
deriving DecidableEq, Repr

/-- measurement.go:12-30; the zero measure is `⟨⟨"", ""⟩, ""⟩`. -/
structure HUnit where
  id : String
  measure : UnitMeasure
  numerator : UnitMeasure
  denominator : UnitMeasure
deriving DecidableEq, Repr

/-- The zero `UnitMeasure`. -/
def UnitMeasure.zero : UnitMeasure := ⟨⟨"", ""⟩, ""⟩

/-- A divide element: for each numerator (denominator) element the texts of its measures. -/
structure DivideElem where
  numerators : List (List String)
  denominators : List (List String)
deriving DecidableEq, Repr

/-- A unit element. -/
structure UnitElem where
  space : String
  attrs : List Attr
  measures : List String
  divides : List DivideElem
deriving DecidableEq, Repr

/-- instance.go:431-434, 436-439, 451-454 -/
def mkMeasure (tl : List Attr) (s : String) : UnitMeasure := ⟨xmlns tl s, s⟩

/-- instance.go:411-457: one unit element. -/
def hydrateUnit (tl : List Attr) (e : UnitElem) : Option HUnit :=
  if e.space ≠ XBRLI then none
  else match plainAttr e.attrs "id" with
    | none => none
    | some id =>
      if id = "" then none
      else match e.measures with
        | m :: _ => some ⟨id, mkMeasure tl m, .zero, .zero⟩
        | [] =>
          match e.divides with
          | [] => none
          | d :: _ =>
            match d.denominators, d.numerators with
            | den :: _, num :: _ =>
              match den, num with
              | b :: _, a :: _ => some ⟨id, .zero, mkMeasure tl a, mkMeasure tl b⟩
              | _, _ => none
            | _, _ => none

/-- instance.go:409-464 `hydrateUnits`. -/
def hydrateUnits (tl : List Attr) (es : List UnitElem) : List HUnit :=
  stableSort (fun a b => decide (a.id < b.id)) (es.filterMap (hydrateUnit tl))

/-! ## Footnote links -/

def ROLELINK := "http://www.xbrl.org/2003/role/link"
def FactFootnoteArcrole := "http://www.xbrl.org/2003/arcrole/fact-footnote"

/-- instance.go:90-95 -/
structure Footnote where
  id : String
  inner : String
  lang : String
  label : String
deriving DecidableEq, Repr

/-- instance.go:97-100 -/
structure FootnoteLoc where
  href : String
  label : String
deriving DecidableEq, Repr

/-- instance.go:102-106 -/
structure FootnoteArc where
  frm : String
  to : String
  arcrole : String
deriving DecidableEq, Repr

/-- instance.go:83-88 -/
structure FootnoteLink where
  title : String
  footnotes : List Footnote
  locs : List FootnoteLoc
  arcs : List FootnoteArc
deriving DecidableEq, Repr

/-- A footnoteLink element: locators, arcs (attributes), footnotes (attributes, inner XML). -/
structure FootnoteLinkElem where
  attrs : List Attr
  locs : List (List Attr)
  footnotes : List (List Attr × String)
  arcs : List (List Attr)
deriving DecidableEq, Repr

/-- instance.go:541-559: one locator (no check of the attribute namespaces). -/
def hydrateFootnoteLoc (attrs : List Attr) : Option FootnoteLoc := do
  let t ← plainAttr attrs "type"
  guard (t = "locator")
  let href ← plainAttr attrs "href"
  guard (href ≠ "")
  let label ← plainAttr attrs "label"
  guard (label ≠ "")
  return ⟨href, label⟩

/-- instance.go:561-585: one footnote. -/
def hydrateFootnote (e : List Attr × String) : Option Footnote := do
  let t ← plainAttr e.1 "type"
  guard (t = "resource")
  let id ← plainAttr e.1 "id"
  guard (id ≠ "")
  let label ← plainAttr e.1 "label"
  guard (label ≠ "")
  let lang ← plainAttr e.1 "lang"
  guard (lang ≠ "")
  return ⟨id, e.2, lang, label⟩

/-- instance.go:587-610: one arc. -/
def hydrateFootnoteArc (attrs : List Attr) : Option FootnoteArc := do
  let arcrole ← plainAttr attrs "arcrole"
  guard (arcrole = FactFootnoteArcrole)
  let t ← plainAttr attrs "type"
  guard (t = "arc")
  let frm ← plainAttr attrs "from"
  guard (frm ≠ "")
  let to ← plainAttr attrs "to"
  guard (to ≠ "")
  return ⟨frm, to, arcrole⟩

/-- instance.go:526-611: one footnote link. -/
def hydrateFootnoteLink (e : FootnoteLinkElem) : Option FootnoteLink := do
  let t ← plainAttr e.attrs "type"
  guard (t = "extended")
  let role ← plainAttr e.attrs "role"
  guard (role = ROLELINK)
  return ⟨optAttr e.attrs "title", e.footnotes.filterMap hydrateFootnote, e.locs.filterMap hydrateFootnoteLoc,
    e.arcs.filterMap hydrateFootnoteArc⟩

/-- instance.go:524-617 `hydrateFootnoteLinks`. -/
def hydrateFootnoteLinks (es : List FootnoteLinkElem) : List FootnoteLink :=
  stableSort (fun a b => decide (a.title < b.title)) (es.filterMap hydrateFootnoteLink)

/-- instance.go:16-22 -/
structure HInstance where
  fileName : String
  contexts : List Context
  units : List HUnit
  footnoteLinks : List FootnoteLink
  facts : List Fact
deriving DecidableEq, Repr

end Telefacts.Instance
