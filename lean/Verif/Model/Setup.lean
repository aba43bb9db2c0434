import Verif.Model.Server
/-!
# The set-up of the packages: pkg/cache/cache.go:16-32, pkg/hydratables/global.go:12-19, cmd/telefacts/main.go:34-64

Programs that use the packages call `NewCache` and `InjectCache` before they serve anything. Of a cache only matters here
whether it is nil. (A cache of the program's own that is injected next to `appCache` has keys of its own; Model/Cache.lean has
one map for both.)
-/
namespace Telefacts.Server
open Telefacts.Cache

/-- The package variables: cache.go:17 `dry`, cache.go:20 `appCache` and global.go:14 `globalCache` (are they not nil?). -/
structure Vars where
  dry : Bool
  app : Bool
  global : Bool
deriving DecidableEq, Repr

/-- A call during the set-up. -/
inductive Call where
  /-- `NewCache(dry)` -/
  | newCache (dry : Bool)
  /-- `InjectCache(c)`; is `c` a cache? -/
  | inject (cache : Bool)
  /-- `InjectCache(NewCache(dry))` -/
  | injectNew (dry : Bool)
deriving DecidableEq, Repr

/-- cache.go:23-32 `NewCache`: in dry mode no cache is made. -/
def newCache (v : Vars) (dry : Bool) : Vars := if dry then { v with dry := true } else { v with dry := false, app := true }

/-- One call; `NewCache` returns `appCache`. -/
def call (v : Vars) : Call → Vars
  | .newCache d => newCache v d
  | .inject c => { v with global := c }
  | .injectNew d => { newCache v d with global := (newCache v d).app }

/-- The variables after the calls. -/
def setup (cs : List Call) : Vars := cs.foldl call ⟨false, false, false⟩

/-- main.go:35, 50 -/
def mainCalls : List Call := [.injectNew false]

/-- global.go:22, 54 and measurement.go:56: without a cache there are no published schemas, no names and no units. -/
def plug (v : Vars) (site : Site) : Site :=
  if v.global then site
  else { site with
    outside := { site.outside with discover := fun _ => none, registry := none }
    names := .err "no accessible cache" }

/-- A request is answered with `o` in some history of the program. Without a cache that is not dry, the first lookup
(cache.go:68, 134) dereferences a nil pointer. -/
def Answers (v : Vars) (site : Site) (allowed : Req → Prop) (r : Req) (o : Out Loaded Store.Bytes Unit) : Prop :=
  if v.dry = false ∧ v.app = false then o = .panic
  else ∃ s, Steps (backend (plug v site)) v.dry allowed State.init s ∧ (r, o) ∈ s.log

end Telefacts.Server
