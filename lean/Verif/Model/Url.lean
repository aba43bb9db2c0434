import Verif.Model.Prelude
/-!
# pkg/serializables/global.go: UrlToFilename, DiscoverGlobalFile

`url.Parse` is a parameter (its result: scheme, hostname, decoded path). `filepath.Clean` and
`filepath.Join` (Unix) are modelled from their documentation on character lists.
-/
namespace Telefacts.Url

/-- A Go string as characters. -/
abbrev Str := List Char

/-- `strings.Split(s, "/")`. -/
def split : Str → List Str
  | [] => [[]]
  | c :: r =>
    if c = '/' then [] :: split r
    else match split r with
      | [] => [[c]]
      | p :: ps => (c :: p) :: ps

/-- Join segments with slashes. -/
def joinSegs : List Str → Str
  | [] => []
  | [p] => p
  | p :: ps => p ++ '/' :: joinSegs ps

/-- One segment of `filepath.Clean`: drop empty and `.`; `..` removes the last name, is dropped at the
root, and kept at the start of a relative path. The stack is the output, last segment first. -/
def cleanStep (rooted : Bool) (out : List Str) (seg : Str) : List Str :=
  if seg = [] ∨ seg = ['.'] then out
  else if seg = ['.', '.'] then
    match out with
    | [] => if rooted then [] else [['.', '.']]
    | top :: rest => if top = ['.', '.'] then ['.', '.'] :: out else rest
  else seg :: out

/-- The segments of a cleaned path. -/
def cleanSegs (rooted : Bool) (segs : List Str) : List Str := (segs.foldl (cleanStep rooted) []).reverse

/-- Rooted path? -/
def rooted : Str → Bool
  | c :: _ => c = '/'
  | [] => false

/-- `filepath.Clean`. -/
def clean (p : Str) : Str :=
  let out := (if rooted p then ['/'] else []) ++ joinSegs (cleanSegs (rooted p) (split p))
  if out = [] then ['.'] else out

/-- `filepath.Join(elems...)`: leading empty elements are ignored. -/
def join : List Str → Str
  | [] => []
  | e :: es => if e = [] then join es else clean (joinSegs (e :: es))

/-- The parts of a parsed URL that are used. -/
structure Parsed where
  scheme : Str
  hostname : Str
  path : Str
deriving DecidableEq, Repr

/-- global.go:27-46 `UrlToFilename`. `gts` is GlobalTaxonomySetPath, `parse` is `url.Parse`. -/
def urlToFilename (parse : Str → Option Parsed) (gts : Str) (url : Str) : Option Str :=
  match parse url with
  | none => none
  | some u =>
    if u.scheme = [] then none
    else if u.hostname = [] then none
    else
      let dest := join [u.scheme, u.hostname]
      let dest := (split u.path).foldl (fun d s => join [d, s]) dest
      some (join [gts, "concepts".toList, dest])

/-- A file system: what `os.Stat` and `os.ReadFile` see. -/
structure FS (B : Type) where
  stat : Str → Bool
  read : Str → Option B

/-- global.go:48-64 `DiscoverGlobalFile`: `(bytes, err)`. `err` of `os.Stat` and `os.ReadFile` is a
variable of the `if` statement, the final `return nil, err` returns the outer one, which is nil.
Lines 55-57 rebuild the same path from its directory and base name. -/
def discoverGlobalFile {B : Type} (parse : Str → Option Parsed) (gts : Str) (fs : FS B) (url : Str) :
    Option B × Option String :=
  match urlToFilename parse gts url with
  | none => (none, some "invalid url")
  | some dest =>
    if fs.stat dest then
      match fs.read dest with
      | some b => (some b, none)
      | none => (none, none)
    else (none, none)

end Telefacts.Url
