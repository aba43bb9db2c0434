import Verif.Model.Linkbase
/-!
# pkg/hydratables: schemas and the two concept queries

`HydrateGlobalSchema` consults a cache first; that the cache does not change the answer is C68, so here
it is `HydrateSchema` of the discovered file. `attr.IsValidUrl` and discovery are parameters.
-/
namespace Telefacts.Schema
open Telefacts.Linkbase

def XSD := "http://www.w3.org/2001/XMLSchema"
def XBRLDT := "http://xbrl.org/2005/xbrldt"

/-- schema.go:15-25 -/
structure Concept where
  name : XName
  id : String
  type : XName
  substitutionGroup : XName
  nillable : Bool
  periodType : String
  balance : String
  abstract : Bool
  typedDomainHref : String
deriving DecidableEq, Repr

/-- schema.go:41-48 -/
structure RoleType where
  roleURI : String
  id : String
  definition : String
  usedOn : List String
deriving DecidableEq, Repr

/-- An element with a namespace and attributes. -/
structure Elem where
  space : String
  attrs : List Attr
deriving DecidableEq, Repr

/-- A roleType element. -/
structure RoleTypeElem where
  space : String
  attrs : List Attr
  definitions : List String
  usedOn : List (String × String)
deriving DecidableEq, Repr

/-- An appinfo element. -/
structure AppinfoElem where
  space : String
  roleTypes : List RoleTypeElem
deriving DecidableEq, Repr

/-- An annotation element. -/
structure AnnotationElem where
  space : String
  appinfos : List AppinfoElem
deriving DecidableEq, Repr

/-- `serializables.SchemaFile` (the parts read by hydration). -/
structure SchemaFile where
  attrs : List Attr
  elements : List Elem
  annotations : List AnnotationElem
deriving DecidableEq, Repr

/-- The zero `SchemaFile`: what Go reads for a key that is not in the map. -/
def SchemaFile.empty : SchemaFile := ⟨[], [], []⟩

/-- schema.go:27-31 -/
structure HSchema where
  fileName : String
  roleTypes : List RoleType
  concepts : List Concept
deriving DecidableEq, Repr

/-- schema.go:166-173 and 179-186: a boolean attribute, false when absent or not a boolean. -/
def boolAttr (attrs : List Attr) (n : String) : Bool :=
  match findAttr attrs n with
  | none => false
  | some a => match parseBool a.value with
    | some v => v
    | none => false

/-- schema.go:174-178 and 187-191: the attribute counts only if it is in namespace `space`. -/
def spacedAttr (space : String) (attrs : List Attr) (n : String) : String :=
  match findAttr attrs n with
  | none => ""
  | some a => if a.name.space = space then a.value else ""

/-- schema.go:192-200: a leading `#` is completed with the file name. -/
def typedDomain (fileName : String) (attrs : List Attr) : String :=
  match findAttr attrs "typedDomainRef" with
  | none => ""
  | some a =>
    if a.name.space = XBRLDT then
      match cut '#' a.value with
      | some (pre, _) => if pre = "" then fileName ++ a.value else a.value
      | none => a.value
    else ""

/-- schema.go:161-165 -/
def substGroup (tl attrs : List Attr) : XName :=
  match findAttr attrs "substitutionGroup" with
  | none => ⟨"", ""⟩
  | some a => if a.value = "" then ⟨"", ""⟩ else xmlns tl a.value

/-- schema.go:145-214: one element; the namespace is that of schema.go:64-70 `hydrateTargetNamespace`. -/
def hydrateConcept (tl : List Attr) (fileName : String) (e : Elem) : Option Concept := do
  guard (e.space = XSD)
  let id ← plainAttr e.attrs "id"
  guard (id ≠ "")
  let name ← plainAttr e.attrs "name"
  guard (name ≠ "")
  let type ← plainAttr e.attrs "type"
  guard (type ≠ "")
  return {
    name := ⟨optAttr tl "targetNamespace", name⟩
    id := id
    type := xmlns tl type
    substitutionGroup := substGroup tl e.attrs
    nillable := boolAttr e.attrs "nillable"
    periodType := spacedAttr XBRLI e.attrs "periodType"
    balance := spacedAttr XBRLI e.attrs "balance"
    abstract := boolAttr e.attrs "abstract"
    typedDomainHref := typedDomain fileName e.attrs }

/-- schema.go:141-217 `hydrateConcepts`. -/
def hydrateConcepts (file : SchemaFile) (fileName : String) : List Concept :=
  file.elements.filterMap (hydrateConcept file.attrs fileName)

/-- schema.go:123-130: one usedOn element. -/
def hydrateUsedOn (u : String × String) : Option String := if u.1 = LINK then some u.2 else none

/-- schema.go:103-132: one roleType element. -/
def hydrateRoleType (e : RoleTypeElem) : Option RoleType := do
  guard (e.space = LINK)
  let id ← plainAttr e.attrs "id"
  guard (id ≠ "")
  let uri ← plainAttr e.attrs "roleURI"
  guard (uri ≠ "")
  return ⟨uri, id, (e.definitions.head?).getD "", e.usedOn.filterMap hydrateUsedOn⟩

/-- schema.go:88-139 `hydrateAnnotation`: only the first appinfo of the first annotation. -/
def hydrateAnnotation (file : SchemaFile) : List RoleType :=
  match file.annotations with
  | [] => []
  | a :: _ =>
    if a.space ≠ XSD then []
    else match a.appinfos with
      | [] => []
      | i :: _ =>
        if i.space ≠ XSD then []
        else i.roleTypes.filterMap hydrateRoleType

/-- schema.go:50-62 `HydrateSchema` (callers never pass nil). -/
def hydrateSchema (file : SchemaFile) (fileName : String) : Res HSchema :=
  if fileName = "" then .err "empty file name"
  else .ok ⟨fileName, hydrateAnnotation file, hydrateConcepts file fileName⟩

/-- `serializables.Folder` (the parts read by the queries) and the world outside. -/
structure Env where
  namespaces : GoMap String String
  schemas : GoMap String SchemaFile
  /-- `attr.IsValidUrl` -/
  validUrl : String → Bool
  /-- `serializables.DiscoverGlobalSchema`: reading and decoding a local copy; `none` is an error. -/
  discover : String → Option SchemaFile

/-- global.go:21-46 `HydrateGlobalSchema` without the cache. -/
def globalSchema (h : Env) (url : String) : Res HSchema :=
  match h.discover url with
  | some f => hydrateSchema f url
  | none => .err "not found"

/-- query.go:30-43 and 59-72: the concepts of the schema at a location. A location that is not among the
files of the folder reads as the zero value. -/
def conceptsAt (h : Env) (loc : String) : Res (List Concept) :=
  let s := if h.validUrl loc then globalSchema h loc
    else hydrateSchema ((mapGet h.schemas loc).getD SchemaFile.empty) loc
  match s with
  | .ok s => .ok s.concepts
  | .err m => .err m
  | .panic => .panic

/-- query.go:24-29: the namespace found is the last one ranged over. -/
def namespaceOf (order : GoMap String String) (base : String) : String :=
  order.foldl (fun acc e => if e.2 = base then e.1 else acc) ""

/-- query.go:10-50 `HashQuery`: namespace and concept. `order` is the order in which the runtime ranges
over the namespaces. The namespace returned next to an error is dropped (no caller reads it). -/
def hashQuery (h : Env) (order : GoMap String String) (query : String) : Res (String × Concept) :=
  match cut '#' query with
  | none => .err "invalid query"
  | some (base, fragment) =>
    if base = "" then .err "invalid base query"
    else if fragment = "" then .err "invalid query fragment"
    else match conceptsAt h base with
      | .err m => .err m
      | .panic => .panic
      | .ok cs =>
        match cs.find? (fun c => fragment = c.id) with
        | some c => .ok (namespaceOf order base, c)
        | none => .err ("concept not found " ++ query)

/-- query.go:52-79 `NameQuery`: `ok none` is the answer `"", nil, nil`. -/
def nameQuery (h : Env) (nspace loc : String) : Res (Option (String × Concept)) :=
  let schemaLoc := (mapGet h.namespaces nspace).getD ""
  if schemaLoc = "" then .err (nspace ++ " is not scoped into the folder")
  else match conceptsAt h schemaLoc with
    | .err m => .err m
    | .panic => .panic
    | .ok cs =>
      match cs.find? (fun c => loc = c.name.loc ∧ nspace = c.name.space) with
      | some c => .ok (some (schemaLoc ++ "#" ++ c.id, c))
      | none => .ok none

/-- query.go:81-92 `EntityQuery`; `names` is the result of `HydrateEntityNames`. -/
def entityQuery (names : Res (GoMap String (GoMap String String))) (scheme chardata : String) : Res String :=
  match names with
  | .err m => .err m
  | .panic => .panic
  | .ok names =>
    match mapGet names scheme with
    | some x =>
      match mapGet x chardata with
      | some y => .ok y
      | none => .ok (scheme ++ "/" ++ chardata)
    | none => .ok (scheme ++ "/" ++ chardata)

end Telefacts.Schema
