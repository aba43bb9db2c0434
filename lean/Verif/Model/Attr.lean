import Verif.Model.Prelude
/-!
# pkg/attr: attribute lookup and namespace resolution
-/
namespace Telefacts

/-- `xml.Name` -/
structure XName where
  space : String
  loc : String
deriving DecidableEq, Repr

/-- `xml.Attr` -/
structure Attr where
  name : XName
  value : String
deriving DecidableEq, Repr

/-- pkg/attr/attr.go:10-17 `FindAttr`: first attribute with that local name, whatever its space. -/
def findAttr : List Attr → String → Option Attr
  | [], _ => none
  | a :: as, n => if a.name.loc = n then some a else findAttr as n

/-- pkg/attr/attr.go:59-66 `Ns`. -/
def ns : List Attr → String → String
  | [], _ => ""
  | a :: as, p => if a.name.space = "xmlns" ∧ a.name.loc = p then a.value else ns as p

/-- pkg/attr/attr.go:28-57 `Xmlns`. -/
def xmlns (attrs : List Attr) (prefixedName : String) : XName :=
  match cut ':' prefixedName with
  | none =>
    let space := match findAttr attrs "xmlns" with
      | some a => a.value
      | none => ""
    ⟨space, prefixedName⟩
  | some (pre, loc) =>
    if loc = "" then ⟨"", ""⟩
    else
      let space := ns attrs pre
      let space := if space = "" then
          match findAttr attrs "xmlns" with
          | some a => a.value
          | none => space
        else space
      ⟨space, loc⟩

/-! pkg/attr/literals.go: the constants used below. -/
def XBRLI := "http://www.xbrl.org/2003/instance"
def XBRLDI := "http://xbrl.org/2006/xbrldi"
def XLINK := "http://www.w3.org/1999/xlink"
def XSI := "http://www.w3.org/2001/XMLSchema-instance"
def ISO4217 := "http://www.xbrl.org/2003/iso4217"
def LINK := "http://www.xbrl.org/2003/linkbase"

/-- `xmlquery.Attr` (fields used by the code). -/
structure XpathAttr where
  name : XName
  value : String
  namespaceURI : String
deriving DecidableEq, Repr

/-- pkg/attr/name.go:143-146 `arr`. -/
def alphabet : List String :=
  ["a", "b", "c", "d", "e", "f", "g", "h", "i", "j", "k", "l", "m", "n",
   "o", "p", "q", "r", "s", "t", "u", "v", "w", "x", "y", "z"]

/-- pkg/attr/name.go:148-153 `toChar` with recursion depth bounded by the first argument; `none` is
the index-out-of-range panic. The recursive call with `i = 26` has the negative argument `-1`, which
panics. -/
def toCharAux : Nat → Nat → Option String
  | 0, _ => none
  | depth + 1, i =>
    if i < 26 then alphabet[i]?
    else if i = 26 then none
    else match toCharAux depth (i - 27) with
      | none => none
      | some s => some ("z" ++ s)

/-- pkg/attr/name.go:148-153 `toChar`; the argument decreases, so depth `i + 1` is enough. -/
def toChar (i : Nat) : Option String := toCharAux (i + 1) i

/-- pkg/attr/name.go:123-141: the loop of `newPrefix`. Outer `none` means the fuel ran out. -/
def newPrefixLoop (origin : String) (taken : List String) : Nat → Nat → String → Option (Res String)
  | 0, _, _ => none
  | fuel + 1, acc, curr =>
    if curr ∈ taken then
      match toChar acc with
      | none => some .panic
      | some ch => newPrefixLoop origin taken fuel (acc + 1) (origin ++ "-" ++ ch)
    else some (.ok curr)

/-- pkg/attr/name.go:123-141 `newPrefix`; `taken` are the keys of the map argument (only keys are
read). 27 rounds always suffice (`newPrefix_total`), so running out of fuel is not reachable. -/
def newPrefix (origin : String) (taken : List String) : Res String :=
  match newPrefixLoop origin taken 27 0 origin with
  | some r => r
  | none => .panic

/-- State of the loop of `processPrefixes`. -/
structure PrefixState where
  nameMap : GoMap String String
  prefixes : GoMap String String
  origin : GoMap String String
  target : GoMap String String
deriving Repr

/-- pkg/attr/name.go:81-98: initial maps. -/
def initPrefixState : PrefixState where
  nameMap := [(XBRLI, ""), (XBRLDI, "xbrldi"), (XLINK, "xlink"), (XSI, "xsi"), (ISO4217, "iso4217"), (LINK, "link")]
  prefixes := [("", XBRLI), ("xbrldi", XBRLDI), ("xlink", XLINK), ("xsi", XSI), ("iso4217", ISO4217), ("link", LINK)]
  origin := []
  target := []

/-- pkg/attr/name.go:113-121 `targetPrefix` (the second result is always the attribute value). -/
def targetPrefix (curr : XpathAttr) (acc prefixes : GoMap String String) : Res String :=
  match mapGet acc curr.value with
  | none => newPrefix curr.name.loc (mapKeys prefixes)
  | some prev => .ok prev

/-- pkg/attr/name.go:99-109: one round of the loop of `processPrefixes`. -/
def prefixStep (st : PrefixState) (a : XpathAttr) : Res PrefixState :=
  if a.namespaceURI ≠ "xmlns" then .ok st
  else
    let o := a.name.loc
    match targetPrefix a st.nameMap st.prefixes with
    | .ok t => .ok {
        nameMap := mapSet st.nameMap a.value t
        prefixes := mapSet st.prefixes o a.value
        origin := mapSet st.origin o a.value
        target := mapSet st.target o t }
    | .err m => .err m
    | .panic => .panic

/-- pkg/attr/name.go:17-20 `NameProvider`. -/
structure NameProvider where
  originPrefixes : GoMap String String
  targetPrefixes : GoMap String String
deriving DecidableEq, Repr

/-- pkg/attr/name.go:22-28 `NewNameProvider` and 80-111 `processPrefixes`. -/
def newNameProvider (attrs : List XpathAttr) : Res NameProvider :=
  match foldRes prefixStep initPrefixState attrs with
  | .ok st => .ok ⟨st.origin, st.target⟩
  | .err m => .err m
  | .panic => .panic

/-- pkg/attr/name.go:30-42 `ProvideConceptName`. -/
def NameProvider.provideConceptName (np : NameProvider) (prefixed : String) : Res String :=
  match cut ':' prefixed with
  | none => .ok prefixed
  | some (pre, rest) =>
    match mapGet np.originPrefixes pre with
    | none => .panic
    | some _ =>
      match mapGet np.targetPrefixes pre with
      | none => .panic
      | some t => .ok (t ++ ":" ++ rest)

/-- pkg/attr/name.go:44-60 `ProvideXmlName`. For `i < 0` Go evaluates `prefixed[i:]` with `i = -1`,
a run-time panic. -/
def NameProvider.provideXmlName (np : NameProvider) (prefixed : String) : Res XName :=
  match cut ':' prefixed with
  | none => .panic
  | some (pre, loc) =>
    match mapGet np.originPrefixes pre with
    | some space => .ok ⟨space, loc⟩
    | none => .err "prefix does not match a namespace"

/-- pkg/attr/name.go:62-78 `ProvideName`. `order` is the sequence in which the runtime iterates
`originPrefixes`; the loop stops at the first entry with the wanted namespace. -/
def NameProvider.provideName (np : NameProvider) (order : GoMap String String) (nspace loc : String) : Res String :=
  let hit := order.find? (fun e => e.2 = nspace)
  let found := hit.isSome
  let resultPrefix := match hit with
    | some e => (mapGet np.targetPrefixes e.1).getD ""
    | none => ""
  if resultPrefix ≠ "" ∧ found = true then .ok (resultPrefix ++ ":" ++ loc)
  else if resultPrefix = "" then .ok loc
  else .panic

/-- The idiom `a := FindAttr(attrs, n); if a == nil || a.Name.Space != attr.XLINK { skip }` used
throughout discovery and hydration (e.g. pkg/hydratables/presentationLinkbase.go:115-118). -/
def xlinkAttr (attrs : List Attr) (n : String) : Option String :=
  match findAttr attrs n with
  | none => none
  | some a => if a.name.space ≠ XLINK then none else some a.value

end Telefacts
