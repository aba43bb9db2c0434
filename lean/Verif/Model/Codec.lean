import Verif.Model.Json
import Verif.Model.Catalog
import Verif.Model.Store
/-!
# The JSON files and responses of the program

The catalog (pkg/renderables/catalog.go), the metadata file `_` of a folder (pkg/serializables/underscore.go) and `names.json`
(pkg/serializables/global.go).
-/
namespace Telefacts.Json
open Telefacts.Catalog Telefacts.Store

/-- encode.go `mapEncoder.encode`: the members sorted by name. -/
def ofMap (m : GoMap String Json) : Json := .obj (stableSort (fun a b => decide (a.1 < b.1)) m)

/-- renderable.go:21-24 -/
def ofEntity (e : Entity) : Json := .obj [("Scheme", .str e.scheme), ("CharData", .str e.chars)]

/-- renderable.go:16-19 -/
def ofSubject (s : Subject) : Json := .obj [("Name", .str s.name), ("Entity", ofEntity s.entity)]

/-- renderable.go:11-14 -/
def ofRSet (r : RSet) : Json := .obj [("Title", .str r.title), ("RoleURI", .str r.roleURI)]

/-- catalog.go:11-16; the slices are never nil (catalog.go:21, relationshipSet.go:21,38) and neither are the maps (22, 29). -/
def ofCatalog (c : Catalog) : Json :=
  .obj [("Subjects", .arr (c.subjects.map ofSubject)), ("RelationshipSets", .arr (c.rsets.map ofRSet)),
    ("Networks", ofMap (c.networks.map fun p => (p.1, ofMap (p.2.map fun q => (q.1, .str q.2))))),
    ("DocumentName", .str c.documentName)]

/-- catalog.go:45 -/
def marshalCatalog (c : Catalog) : List Char := text (ofCatalog c)

/-! ## Decoding -/

mutual
/-- scanner.go `pushParseState`: how deep arrays and objects are nested. -/
def depth : Json → Nat
  | .arr l => depthItems l + 1
  | .obj l => depthMembers l + 1
  | _ => 0

/-- The greatest depth of the elements. -/
def depthItems : List Json → Nat
  | [] => 0
  | v :: l => max (depth v) (depthItems l)

/-- The greatest depth of the members. -/
def depthMembers : List (String × Json) → Nat
  | [] => 0
  | p :: l => max (depth p.2) (depthMembers l)
end

/-- decode.go `Unmarshal` up to the assignment: the value, if the text is valid and not too deep (`maxNestingDepth`). -/
def unmarshal (cs : List Char) : Option Json :=
  match parse cs with
  | none => none
  | some v => if depth v ≤ 10000 then some v else none

/-- fold.go `foldName`: upper case ASCII letters. -/
def fold (c : Char) : Char := if 97 ≤ c.toNat ∧ c.toNat ≤ 122 then Char.ofNat (c.toNat - 32) else c

/-- decode.go `object`: the name of a member as compared with the name of a field (`foldName`). Simplified: only ASCII letters are
folded, which is exact for the names `Entry` and `Note`, whose letters are the fold of no others. -/
def named (field : String) (k : String) : Bool := k.toList.map fold = field.toList.map fold

/-- decode.go `literalStore`: a member assigned to a field of type string; `none`: an `UnmarshalTypeError`. -/
def assign (old : String) : Json → Option String
  | .str s => some s
  | .null => some old
  | _ => none

/-- decode.go `object` for `Underscore` (underscore.go:13-16): the members in order. An `UnmarshalTypeError` is returned at the end,
whatever comes after. -/
def assignAll (u : Underscore) : List (String × Json) → Option Underscore
  | [] => some u
  | (k, v) :: l =>
    if named "Entry" k then (assign u.entry v).bind fun s => assignAll { u with entry := s } l
    else if named "Note" k then (assign u.note v).bind fun s => assignAll { u with note := s } l
    else assignAll u l

/-- `json.Unmarshal(b, &underscore)` with a new `Underscore` -/
def ofUnderscore : Json → Option Underscore
  | .obj l => assignAll ⟨"", ""⟩ l
  | .null => some ⟨"", ""⟩
  | _ => none

/-- underscore.go:62-63: `Encode` writes a newline at the end. -/
def encodeUnderscore (u : Underscore) : List Char := text (.obj [("Entry", .str u.entry), ("Note", .str u.note)]) ++ ['\n']

/-- underscore.go:24-25: the field `Entry`, if there is no error. -/
def decodeEntry (cs : List Char) : Option String := ((unmarshal cs).bind ofUnderscore).map Underscore.entry

/-- decode.go `object` for `map[string]string`: later members replace earlier ones. -/
def stringMap (m : GoMap String String) : List (String × Json) → Option (GoMap String String)
  | [] => some m
  | (k, v) :: l => (assign "" v).bind fun s => stringMap (mapSet m k s) l

/-- decode.go `object`, `literalStore` for an element of type `map[string]string`. -/
def innerMap : Json → Option (GoMap String String)
  | .obj l => stringMap [] l
  | .null => some []
  | _ => none

/-- decode.go `object` for `map[string]map[string]string`. -/
def nameMap (m : GoMap String (GoMap String String)) : List (String × Json) → Option (GoMap String (GoMap String String))
  | [] => some m
  | (k, v) :: l => (innerMap v).bind fun x => nameMap (mapSet m k x) l

/-- `json.Unmarshal(b, &names)` -/
def ofNames : Json → Option (GoMap String (GoMap String String))
  | .obj l => nameMap [] l
  | .null => some []
  | _ => none

/-- global.go:74-83 `DiscoverEntityNames`, given the contents of `names.json`. -/
def decodeNames (cs : List Char) : Option (GoMap String (GoMap String String)) := (unmarshal cs).bind ofNames

/-! ## Bytes -/

/-- The bytes of a text. -/
def encodeUtf8 (cs : List Char) : Bytes := cs.flatMap String.utf8EncodeChar

/-- unicode/utf8 `DecodeRune`, repeated: an invalid byte is read as U+FFFD. -/
def decodeUtf8 : Bytes → List Char
  | [] => []
  | b :: bs =>
    match (b :: bs).toByteArray.utf8DecodeChar? 0 with
    | some c => c :: decodeUtf8 ((b :: bs).drop c.utf8Size)
    | none => Char.ofNat 0xFFFD :: decodeUtf8 bs
termination_by bs => bs.length
decreasing_by
  · have := c.utf8Size_pos
    simp only [List.length_drop, List.length_cons]
    omega
  · simp

/-- The JSON encoder and decoder of the folder store (underscore.go:24, 62-63). -/
def store (md5 : String → String) (wd : String) : Ctx where
  md5 := md5
  enc u := encodeUtf8 (encodeUnderscore u)
  dec b := decodeEntry (decodeUtf8 b)
  wd := wd

end Telefacts.Json
