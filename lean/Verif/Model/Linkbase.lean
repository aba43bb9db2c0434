import Verif.Model.Attr
/-!
# pkg/hydratables: linkbases

The presentation, definition and calculation files have the same text up to the arc type; the common
parts are modelled once, with the lines of all of them cited. `strconv.ParseFloat` is a parameter
returning the value and whether the error is nil.
-/
namespace Telefacts.Linkbase

/-- The value of `FindAttr(attrs, n)`, if any. -/
def plainAttr (attrs : List Attr) (n : String) : Option String :=
  match findAttr attrs n with
  | none => none
  | some a => some a.value

/-- `if a := FindAttr(attrs, n); a != nil { x = a.Value }` for a string `x` that starts empty. -/
def optAttr (attrs : List Attr) (n : String) : String :=
  match findAttr attrs n with
  | none => ""
  | some a => a.value

/-- linkbase.go -/
structure Loc where
  href : String
  label : String
deriving DecidableEq, Repr

/-- linkbase.go -/
structure RoleRef where
  roleURI : String
  href : String
deriving DecidableEq, Repr

/-- A roleRef element. -/
structure RoleRefElem where
  space : String
  attrs : List Attr

/-- An extended link element with its locators and arcs (attribute lists) and label resources
(attributes, character data). -/
structure LinkElem where
  attrs : List Attr
  locs : List (List Attr)
  arcs : List (List Attr)
  labels : List (List Attr × String) := []

/-- presentationLinkbase.go:46-70, definitionLinkbase.go:49-73, calculationLinkbase.go:46-70,
labelLinkbase.go:52-76: one iteration. -/
def hydrateRoleRef (e : RoleRefElem) : Option RoleRef := do
  guard (e.space = LINK)
  let uri ← plainAttr e.attrs "roleURI"
  guard (uri ≠ "")
  let href ← xlinkAttr e.attrs "href"
  guard (href ≠ "")
  return ⟨uri, href⟩

/-- The loop over roleRef elements. -/
def hydrateRoleRefs (es : List RoleRefElem) : List RoleRef := es.filterMap hydrateRoleRef

/-- presentationLinkbase.go:86-103, definitionLinkbase.go:89-106, calculationLinkbase.go:86-103,
labelLinkbase.go:92-109: one locator. -/
def hydrateLoc (attrs : List Attr) : Option Loc := do
  let t ← xlinkAttr attrs "type"
  guard (t = "locator")
  let label ← xlinkAttr attrs "label"
  guard (label ≠ "")
  let href ← plainAttr attrs "href"
  guard (href ≠ "")
  return ⟨href, label⟩

/-- The role of an accepted extended link: presentationLinkbase.go:75-82, definitionLinkbase.go:78-85,
calculationLinkbase.go:75-82, labelLinkbase.go:81-88. -/
def linkRole (attrs : List Attr) : Option String := do
  let t ← xlinkAttr attrs "type"
  guard (t = "extended")
  let role ← plainAttr attrs "role"
  guard (role ≠ "")
  return role

/-- `PresentationLink`, `DefinitionLink`, `CalculationLink`. -/
structure Link (A : Type) where
  role : String
  locs : List Loc
  arcs : List A
deriving DecidableEq, Repr

/-- One link element: presentationLinkbase.go:75-141, definitionLinkbase.go:78-164,
calculationLinkbase.go:75-146. -/
def hydrateLink {A : Type} (arc : List Attr → Option A) (e : LinkElem) : Option (Link A) :=
  match linkRole e.attrs with
  | none => none
  | some role => some ⟨role, e.locs.filterMap hydrateLoc, e.arcs.filterMap arc⟩

/-- The loop over link elements: presentationLinkbase.go:72-142, definitionLinkbase.go:75-165,
calculationLinkbase.go:72-147. -/
def hydrateLinks {A : Type} (arc : List Attr → Option A) (es : List LinkElem) : List (Link A) :=
  es.filterMap (hydrateLink arc)

/-- One iteration of the merge: presentationLinkbase.go:148-156, definitionLinkbase.go:171-179,
calculationLinkbase.go:153-161. -/
def mergeLink {A : Type} (occured : GoMap String (Link A)) (l : Link A) : GoMap String (Link A) :=
  match mapGet occured l.role with
  | some m => mapSet occured l.role { m with locs := m.locs ++ l.locs, arcs := m.arcs ++ l.arcs }
  | none => mapSet occured l.role l

/-- `dedupPresentationLink` etc.: presentationLinkbase.go:146-162, definitionLinkbase.go:169-185,
calculationLinkbase.go:151-167. `ord` is the order in which the map is ranged over. -/
def dedupLinks {A : Type} (ord : GoMap String (Link A) → GoMap String (Link A)) (ls : List (Link A)) :
    List (Link A) :=
  (ord (ls.foldl mergeLink [])).map Prod.snd

/-- The order of an arc: `order, err := strconv.ParseFloat(v, 64); if err != nil { order = MaxFloat64 }`. -/
def orderOf (parse : String → F64 × Bool) (v : String) : F64 :=
  if (parse v).2 then (parse v).1 else F64.maxFinite

/-- The attributes common to all arcs: xlink type, arcrole, from and to. -/
def arcEnds (attrs : List Attr) : Option (String × String × String) := do
  let t ← xlinkAttr attrs "type"
  guard (t = "arc")
  let arcrole ← xlinkAttr attrs "arcrole"
  guard (arcrole ≠ "")
  let frm ← xlinkAttr attrs "from"
  guard (frm ≠ "")
  let to ← xlinkAttr attrs "to"
  guard (to ≠ "")
  return (arcrole, frm, to)

structure PArc where
  order : F64
  arcrole : String
  frm : String
  to : String
  preferredLabel : String
deriving DecidableEq, Repr

/-- presentationLinkbase.go:105-140: one arc. -/
def presentationArc (parse : String → F64 × Bool) (attrs : List Attr) : Option PArc := do
  let order ← plainAttr attrs "order"
  guard (order ≠ "")
  let (arcrole, frm, to) ← arcEnds attrs
  return ⟨orderOf parse order, arcrole, frm, to, optAttr attrs "preferredLabel"⟩

structure CArc where
  order : F64
  arcrole : String
  frm : String
  to : String
  weight : F64
deriving DecidableEq, Repr

/-- calculationLinkbase.go:105-145: one arc. -/
def calculationArc (parse : String → F64 × Bool) (attrs : List Attr) : Option CArc := do
  let order ← plainAttr attrs "order"
  guard (order ≠ "")
  let (arcrole, frm, to) ← arcEnds attrs
  let weight ← plainAttr attrs "weight"
  guard (weight ≠ "")
  return ⟨orderOf parse order, arcrole, frm, to, if (parse weight).2 then (parse weight).1 else F64.zero⟩

structure DArc where
  order : F64
  arcrole : String
  frm : String
  to : String
  closed : Bool
  usable : Bool
  contextElement : String
  targetRole : String
deriving DecidableEq, Repr

/-- `strconv.ParseBool`: `none` is an error (the value returned is then `false`). -/
def parseBool (s : String) : Option Bool :=
  if s ∈ ["1", "t", "T", "true", "TRUE", "True"] then some true
  else if s ∈ ["0", "f", "F", "false", "FALSE", "False"] then some false
  else none

/-- definitionLinkbase.go:138-145: `if err == nil { closed = false }`. -/
def closedFlag (attrs : List Attr) : Bool :=
  match findAttr attrs "closed" with
  | none => false
  | some a =>
    match parseBool a.value with
    | some _ => false
    | none => false

/-- definitionLinkbase.go:146-153: `if err == nil { usable = true }`. -/
def usableFlag (attrs : List Attr) : Bool :=
  match findAttr attrs "usable" with
  | none => false
  | some a =>
    match parseBool a.value with
    | some _ => true
    | none => false

/-- definitionLinkbase.go:108-163: one arc. -/
def definitionArc (parse : String → F64 × Bool) (attrs : List Attr) : Option DArc := do
  let order ← plainAttr attrs "order"
  guard (order ≠ "")
  let (arcrole, frm, to) ← arcEnds attrs
  return ⟨orderOf parse order, arcrole, frm, to, closedFlag attrs, usableFlag attrs,
    optAttr attrs "contextElement", optAttr attrs "targetRole"⟩

/-- presentationLinkbase.go:72-144 `hydratePresentationLink`. -/
def hydratePresentationLink (parse : String → F64 × Bool)
    (ord : GoMap String (Link PArc) → GoMap String (Link PArc)) (es : List LinkElem) : List (Link PArc) :=
  dedupLinks ord (hydrateLinks (presentationArc parse) es)

/-- definitionLinkbase.go:75-167 `hydrateDefinitionLink`. -/
def hydrateDefinitionLink (parse : String → F64 × Bool)
    (ord : GoMap String (Link DArc) → GoMap String (Link DArc)) (es : List LinkElem) : List (Link DArc) :=
  dedupLinks ord (hydrateLinks (definitionArc parse) es)

/-- calculationLinkbase.go:72-149 `hydrateCalculationLink`. -/
def hydrateCalculationLink (parse : String → F64 × Bool)
    (ord : GoMap String (Link CArc) → GoMap String (Link CArc)) (es : List LinkElem) : List (Link CArc) :=
  dedupLinks ord (hydrateLinks (calculationArc parse) es)

structure LArc where
  order : F64
  arcrole : String
  frm : String
  to : String
deriving DecidableEq, Repr

structure Label where
  label : String
  role : String
  lang : String
  chars : String
deriving DecidableEq, Repr

structure LabelLink where
  role : String
  locs : List Loc
  labels : List Label
  arcs : List LArc
deriving DecidableEq, Repr

/-- labelLinkbase.go:111-139: arc number `i` of `n`; a missing or empty order counts from `n`; the error
of `ParseFloat` is ignored. -/
def labelArc (parse : String → F64 × Bool) (n i : Nat) (attrs : List Attr) : Option LArc := do
  let (arcrole, frm, to) ← arcEnds attrs
  let order := match plainAttr attrs "order" with
    | none => F64.ofInt (n + i)
    | some v => if v = "" then F64.ofInt (n + i) else (parse v).1
  return ⟨order, arcrole, frm, to⟩

/-- The loop at labelLinkbase.go:111 from index `i` on. -/
def labelArcs (parse : String → F64 × Bool) (n : Nat) : Nat → List (List Attr) → List LArc
  | _, [] => []
  | i, a :: as =>
    match labelArc parse n i a with
    | some x => x :: labelArcs parse n (i + 1) as
    | none => labelArcs parse n (i + 1) as

/-- labelLinkbase.go:141-160: one label resource. -/
def hydrateLabel (r : List Attr × String) : Option Label := do
  let label ← xlinkAttr r.1 "label"
  guard (label ≠ "")
  let role ← xlinkAttr r.1 "role"
  guard (role ≠ "")
  let lang ← plainAttr r.1 "lang"
  guard (lang ≠ "")
  return ⟨label, role, lang, r.2⟩

/-- labelLinkbase.go:81-161: one label link. -/
def hydrateOneLabelLink (parse : String → F64 × Bool) (e : LinkElem) : Option LabelLink :=
  match linkRole e.attrs with
  | none => none
  | some role => some ⟨role, e.locs.filterMap hydrateLoc, e.labels.filterMap hydrateLabel,
      labelArcs parse e.arcs.length 0 e.arcs⟩

/-- labelLinkbase.go:78-164 `hydrateLabelLink` (no merging). -/
def hydrateLabelLink (parse : String → F64 × Bool) (es : List LinkElem) : List LabelLink :=
  es.filterMap (hydrateOneLabelLink parse)

end Telefacts.Linkbase
