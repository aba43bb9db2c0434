import Verif.Model.Web
import Verif.Model.Url
import Verif.Model.Discover
/-!
# internal/web/web.go: NewRouter, and the paths of a folder

gorilla/mux 1.8.1 is modelled from its documentation and source (not in /repo): the router first redirects
paths that are not clean; then the first route matches whose pattern fits the path and whose methods fit;
`{x}` stands for a non-empty text without `/`. A route that fits the path but not the method is skipped, and
the last route of `NewRouter` fits everything, so the router itself never answers 404 or 405. The file server
is a parameter. Paths are those of `req.URL.Path`: already percent-decoded.
-/
namespace Telefacts.Router
open Telefacts.Web Telefacts.Url

/-- The bytes of a path as characters and back; `filepath` and `path` only look at `/` and `.`. -/
def str (b : Bytes) : Str := b.map fun x => Char.ofNat x.val
def bytes (s : Str) : Bytes := s.map fun c => ⟨c.toNat % 256, Nat.mod_lt _ (by decide)⟩

/-- gorilla/mux `cleanPath`: `path.Clean` of the rooted path, keeping a final slash. -/
def cleanPath (p : Str) : Str :=
  if p = [] then ['/']
  else
    let p := if rooted p then p else '/' :: p
    let np := clean p
    if p.getLast? = some '/' ∧ np ≠ ['/'] then np ++ ['/'] else np

/-- What a request is handed to. -/
inductive Target where
  | redirect (to : Str)
  | catalog (id : Str)
  | facts (id : Str)
  | renderable (id hash : Str)
  | static
deriving DecidableEq, Repr

/-- The routes of web.go:103-109 in order, on the segments of a clean path:
`^/folders/(?P<v0>[^/]+)$`, `^/folders/(?P<v0>[^/]+)/facts$`, `^/folders/(?P<v0>[^/]+)/(?P<v1>[^/]+)$`,
all for GET only, then the file server (web.go:114-115). -/
def route (method : String) (path : Str) : Target :=
  if cleanPath path ≠ path then .redirect (cleanPath path)
  else if method = "GET" then
    match split path with
    | [root, f, id] =>
      if root = [] ∧ f = "folders".toList ∧ id ≠ [] then .catalog id else .static
    | [root, f, id, h] =>
      if root = [] ∧ f = "folders".toList ∧ id ≠ [] then
        if h = "facts".toList then .facts id
        else if h ≠ [] then .renderable id h
        else .static
      else .static
    | _ => .static
  else .static

/-- The cache layer: the three `cache.Marshal...` functions. -/
structure Backend where
  catalog : Bytes → CacheResult
  renderable : Bytes → Bytes → CacheResult
  expressable : Bytes → Bytes → Bytes → CacheResult

/-- web.go:103-117 `NewRouter` as a handler. `files` is the file server, `location` the text of the
redirected URL. -/
def serve (b : Backend) (files : String → Bytes → Writer) (location : Str → String) (method : String)
    (path rawQuery : Bytes) : Writer :=
  match route method (str path) with
  | .redirect to => (Writer.new.set "Location" (location to)).writeHeader 301
  | .catalog id => catalog b.catalog ⟨method, bytes id, [], rawQuery⟩
  | .facts id => expressable b.expressable ⟨method, bytes id, [], rawQuery⟩
  | .renderable id hash => renderable b.renderable ⟨method, bytes id, bytes hash, rawQuery⟩
  | .static => files method path

/-- folder.go:37: the directory of a folder. `wd` is WorkingDirectoryPath. -/
def folderDir (wd id : Str) : Str := join [wd, "folders".toList, id]

/-- underscore.go:20: the file with the name of the entry file. -/
def entryFile (wd id : Str) : Str := join [wd, "folders".toList, id, ['_']]

/-- folder.go:54, 67, 80, 117, 176, 242, 313: the file of a reference in the folder. -/
def localFile (dir href : Str) : Str := join [dir, href]

/-- The file system and the decoders, by full path: what `Discover(id)` may read. -/
structure Source (L D : Type) where
  entry : Str → Option String
  images : Str → GoMap String String
  doc : Str → Option (Option D)
  fileExists : Str → Bool
  inst : Str → Option Disc.InstanceFile
  schema : Str → Option Disc.SchemaFile
  linkbase : Disc.LKind → Str → Option L
  transform : D → GoMap String String → D
  isUrl : String → Bool

/-- What discovery sees of the folder `id`. -/
def folderEnv {L D : Type} (src : Source L D) (wd id : Str) : Disc.FolderEnv L D where
  entryName := src.entry (entryFile wd id)
  images := src.images (folderDir wd id)
  readDoc := fun f => src.doc (localFile (folderDir wd id) f.toList)
  transform := src.transform
  fileExists := fun f => src.fileExists (localFile (folderDir wd id) f.toList)
  readInstance := fun f => src.inst (localFile (folderDir wd id) f.toList)
  isUrl := src.isUrl
  readSchema := fun f => src.schema (localFile (folderDir wd id) f.toList)
  readLinkbase := fun k f => src.linkbase k (localFile (folderDir wd id) f.toList)

end Telefacts.Router
