import Verif.Model.Router
/-!
# cmd/telefacts/main.go:34-64 `setupServer`: the directories, and the file server of internal/web/web.go:110-115

`http.FileServer` with `http.Dir` is modelled from net/http/fs.go of Go 1.22 as far as the names go that it opens. Symbolic links are
not modelled.
-/
namespace Telefacts.Router
open Telefacts.Url

/-- main.go:36-49: WorkingDirectoryPath and GlobalTaxonomySetPath. `cwd` is `os.Getwd`, `none` an error; `wd` and `gts` are
the environment variables WD and GTS, empty if they are not set. -/
def directories (cwd : Option Str) (wd gts : Str) : Str × Str :=
  let dir := match cwd with | some d => d | none => join [".".toList]
  (join [if wd = [] then dir else wd, "wd".toList], join [if gts = [] then dir else gts, "gts".toList])

/-- web.go:110-114: the directory of the file server; `none` is a panic. -/
def staticRoot (cwd : Option Str) : Option Str := cwd.map fun d => join [d, "goldlord-midas".toList]

/-- net/http/fs.go `Dir.Open`: the file of a name. -/
def dirOpen (root name : Str) : Str :=
  join [root, match (clean ('/' :: name)).tail with | [] => ['.'] | p => p]

/-- web.go:115 `http.StripPrefix("/", …)` and fs.go `fileHandler.ServeHTTP`: the name for a request. -/
def staticName (path : Str) : Str :=
  let upath := if rooted path then path.tail else path
  clean (if rooted upath then upath else '/' :: upath)

/-- fs.go `serveFile`: the files that may be opened for a request. A path that ends in `/index.html` is redirected. -/
def opened (root path : Str) : List Str :=
  if "/index.html".toList <:+ path then []
  else [dirOpen root (staticName path),
    dirOpen root ((if staticName path = ['/'] then [] else staticName path) ++ "/index.html".toList)]

end Telefacts.Router
