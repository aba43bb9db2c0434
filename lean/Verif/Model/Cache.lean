import Verif.Model.Prelude
import Verif.Model.Fnv
import Verif.Model.Path
/-!
# pkg/cache and the global cache of pkg/hydratables

`cmd/telefacts/main.go:35,50` passes the same go-cache object to both packages, so all keys share one
map. Requests are programs whose steps are the lock-protected sections and the calls into the rest of
the code. Cache writes are done by background goroutines and may be arbitrarily delayed.

The rest of the code is a parameter (`Backend`): a relation between arguments and possible results,
because Go's map iteration makes results vary from call to call.
-/
namespace Telefacts.Cache

/-- The two `sync.RWMutex` variables: pkg/cache/cache.go:18 and pkg/hydratables/global.go:13. -/
inductive LockId where
  | app
  | global
deriving DecidableEq, Repr

/-- Dynamic type of a cached value (what the type assertions test). -/
inductive Kind where
  | hyd | bytes | schema | utr | names
deriving DecidableEq, Repr

/-- A cached value. `H`: hydrated folders, `B`: byte slices, `S`: schemas, unit registry, names.
`none` is a typed nil pointer or nil slice. -/
inductive Val (H B S : Type) where
  | hyd (h : Option H)
  | bytes (b : Option B)
  | schema (s : S)
  | utr (s : S)
  | names (s : S)

/-- Dynamic type of a value. -/
def Val.kind {H B S : Type} : Val H B S → Kind
  | .hyd _ => .hyd
  | .bytes _ => .bytes
  | .schema _ => .schema
  | .utr _ => .utr
  | .names _ => .names

/-- Outcome of a call: a value and a possible error, or a panic. -/
inductive Out (H B S : Type) where
  | ret (v : Val H B S) (err : Option String)
  | panic

/-- Results of the parts of the program called from the cache layer.
* `discover id`: `none` when `serializables.Discover` fails.
* `hydrate id`: what `hydratables.Hydrate` can return for the discovered folder (nil exactly on error,
  see `Backend.Sane`), or a panic (`none`).
* `catalog`, `renderable`, `express`: results of the functions of pkg/renderables on a non-nil
  hydratable (`none`: panic).
* `entryName`, `docBytes`: `h.Folder.EntryFileName`, `h.Folder.Document.Bytes` (`none`: Document nil).
* `schema`, `utr`, `names`: results of the uncached global lookups (`none`: error). -/
structure Backend (H B S : Type) where
  discover : String → Option String → Prop
  hydrate : String → Option (Option H × Option String) → Prop
  catalog : H → Option (Option B × Option String) → Prop
  renderable : String → H → Option (Option B × Option String) → Prop
  express : String → String → H → Option (Option B × Option String) → Prop
  entryName : H → String
  docBytes : H → Option B
  schema : String → Option S → Prop
  utr : Option S → Prop
  names : Option S → Prop

/-- pkg/hydratables/hydratable.go:19-82: `Hydrate` returns a nil pointer exactly with an error. -/
def Backend.Sane {H B S : Type} (b : Backend H B S) : Prop :=
  ∀ id h e, b.hydrate id (some (h, e)) → (h = none ↔ e ≠ none)

/-- A request program.
* `get l key kind hit miss`: `l.RLock()`, `Get(key)`; found with the asserted type: `RUnlock`, `hit`;
  not found: `RUnlock`, `miss`; found with another type: panic with the lock held.
* `spawn l key v next`: `go func() { l.Lock(); defer l.Unlock(); Set(key, v) }()`, then `next`.
* `choose`: one branch for every possible result of an uncached call. -/
inductive Prog (H B S : Type) where
  | done (o : Out H B S)
  | get (l : LockId) (key : String) (kind : Kind) (hit : Val H B S → Prog H B S) (miss : Prog H B S)
  | spawn (l : LockId) (key : String) (v : Val H B S) (next : Prog H B S)
  | chooseErr (possible : Option String → Prop) (k : Option String → Prog H B S)
  | chooseHyd (possible : Option (Option H × Option String) → Prop)
      (k : Option (Option H × Option String) → Prog H B S)
  | chooseBytes (possible : Option (Option B × Option String) → Prop)
      (k : Option (Option B × Option String) → Prog H B S)
  | chooseGlobal (possible : Option S → Prop) (k : Option S → Prog H B S)

variable {H B S : Type}

/-- pkg/cache/cache.go:131-155 `hydratable`; `k` is the rest of the caller, given `(ret, err)`.
A panic inside `Hydrate` ends the request. -/
def hydratable (be : Backend H B S) (dry : Bool) (id : String)
    (k : Option H → Option String → Prog H B S) : Prog H B S :=
  let fresh : Prog H B S :=
    .chooseErr (be.discover id) fun
      | some m => k none (some ("failed to discover folder, " ++ m))
      | none => .chooseHyd (be.hydrate id) fun
        | none => .done .panic
        | some (ret, err) =>
          if dry then k ret err else .spawn .app id (.hyd ret) (k ret err)
  if dry then fresh
  else .get .app id .hyd (fun v => match v with
      | .hyd h => k h none
      | _ => .done .panic) fresh

/-- Finish a request with bytes: `go func() { ... Set(key, byteArr) }(); return byteArr, err`. -/
def finish (dry : Bool) (key : String) : Option (Option B × Option String) → Prog H B S
  | none => .done .panic
  | some (b, err) =>
    if dry then .done (.ret (.bytes b) err) else .spawn .app key (.bytes b) (.done (.ret (.bytes b) err))

/-- The cached bytes: `ret := x.([]byte); return ret, nil`. -/
def hitBytes : Val H B S → Prog H B S := fun v => .done (.ret v none)

/-- pkg/cache/cache.go:40-41: cache key of a fact expression. -/
def expressKey (id name contextref : String) : String := fnvHex (id ++ "/facts/" ++ name ++ ":" ++ contextref)

/-- Use of the hydratable: a nil pointer is dereferenced (panic). -/
def withHyd (h : Option H) (k : H → Prog H B S) : Prog H B S :=
  match h with
  | none => .done .panic
  | some h => k h

/-- `if err != nil { return nil, err }` after `hydratable`. -/
def orFail (err : Option String) (next : Prog H B S) : Prog H B S :=
  match err with
  | some m => .done (.ret (.bytes none) (some m))
  | none => next

/-- `lock.RLock(); if !dry { if x, found := appCache.Get(key); found { return x.([]byte), nil } };
lock.RUnlock()` followed by `fresh`. -/
def cachedBytes (dry : Bool) (key : String) (fresh : Prog H B S) : Prog H B S :=
  if dry then fresh else .get .app key .bytes hitBytes fresh

/-- pkg/cache/cache.go:34-61 `MarshalExpressable`. -/
def expressProg (be : Backend H B S) (dry : Bool) (id name contextref : String) : Prog H B S :=
  hydratable be dry id fun h err => orFail err <|
    cachedBytes dry (expressKey id name contextref) <| withHyd h fun h =>
      .chooseBytes (be.express name contextref h) (finish dry (expressKey id name contextref))

/-- pkg/cache/cache.go:77-102: the uncached part of `MarshalRenderable`. -/
def renderableFresh (be : Backend H B S) (dry : Bool) (id hash : String) (h : H) : Prog H B S :=
  if (fileExt hash = ".xhtml" ∨ fileExt hash = ".htm") ∧ be.entryName h = hash then
    match be.docBytes h with
    | none => .done .panic
    | some data => finish dry (id ++ "/" ++ hash) (some (some data, none))
  else .chooseBytes (be.renderable hash h) (finish dry (id ++ "/" ++ hash))

/-- pkg/cache/cache.go:63-103 `MarshalRenderable`. -/
def renderableProg (be : Backend H B S) (dry : Bool) (id hash : String) : Prog H B S :=
  cachedBytes dry (id ++ "/" ++ hash) <|
    hydratable be dry id fun h err => orFail err <| withHyd h (renderableFresh be dry id hash)

/-- pkg/cache/cache.go:105-129 `MarshalCatalog`. -/
def catalogProg (be : Backend H B S) (dry : Bool) (id : String) : Prog H B S :=
  hydratable be dry id fun h err => orFail err <|
    cachedBytes dry (id ++ "/") <| withHyd h fun h =>
      .chooseBytes (be.catalog h) (finish dry (id ++ "/"))

/-- pkg/attr/literals.go:3 -/
def UTR := "http://www.xbrl.org/utr/utr.xml"

/-- pkg/hydratables/global.go:21-46 `HydrateGlobalSchema` (cache injected). Errors are not cached. -/
def schemaProg (be : Backend H B S) (url : String) : Prog H B S :=
  .get .global url .schema (fun v => .done (.ret v none))
    (.chooseGlobal (be.schema url) fun
      | none => .done (.ret (.bytes none) (some "error"))
      | some s => .spawn .global url (.schema s) (.done (.ret (.schema s) none)))

/-- pkg/hydratables/measurement.go `HydrateUnitTypeRegistry`, same shape with the registry URL. -/
def utrProg (be : Backend H B S) : Prog H B S :=
  .get .global UTR .utr (fun v => .done (.ret v none))
    (.chooseGlobal be.utr fun
      | none => .done (.ret (.bytes none) (some "error"))
      | some s => .spawn .global UTR (.utr s) (.done (.ret (.utr s) none)))

/-- pkg/hydratables/global.go:52-74 `HydrateEntityNames`. -/
def namesProg (be : Backend H B S) : Prog H B S :=
  .get .global "names.json" .names (fun v => .done (.ret v none))
    (.chooseGlobal be.names fun
      | none => .done (.ret (.bytes none) (some "error"))
      | some s => .spawn .global "names.json" (.names s) (.done (.ret (.names s) none)))

/-- A call of the cache layer. -/
inductive Req where
  | catalog (id : String)
  | renderable (id hash : String)
  | express (id name contextref : String)
  | schema (url : String)
  | utr
  | names
deriving DecidableEq, Repr

/-- The program of a call. -/
def prog (be : Backend H B S) (dry : Bool) : Req → Prog H B S
  | .catalog id => catalogProg be dry id
  | .renderable id hash => renderableProg be dry id hash
  | .express id name cr => expressProg be dry id name cr
  | .schema url => schemaProg be url
  | .utr => utrProg be
  | .names => namesProg be

/-- State of the process.
* `pending`: background writes not yet done.
* `leaked l`: read locks of `l` held by goroutines that panicked.
* `waiting l`: some writer is blocked in `l.Lock()`; then `RLock` blocks too (sync.RWMutex).
* `log`: finished calls with their outcome, latest first. -/
structure State (H B S : Type) where
  cache : String → Option (Val H B S)
  pending : List (LockId × String × Val H B S)
  threads : List (Req × Prog H B S)
  leaked : LockId → Nat
  waiting : LockId → Bool
  log : List (Req × Out H B S)

/-- Process start. -/
def State.init : State H B S where
  cache := fun _ => none
  pending := []
  threads := []
  leaked := fun _ => 0
  waiting := fun _ => false
  log := []

/-- Function update. -/
def upd {α β : Type} [DecidableEq α] (f : α → β) (a : α) (b : β) : α → β := fun x => if x = a then b else f x

/-- One atomic step of the process. `pre`/`post` locate the thread or pending write that moves;
`allowed` are the calls that may arrive. -/
inductive Step (be : Backend H B S) (dry : Bool) (allowed : Req → Prop) : State H B S → State H B S → Prop
  /-- a call arrives -/
  | start (s : State H B S) (r : Req) : allowed r →
      Step be dry allowed s { s with threads := (r, prog be dry r) :: s.threads }
  /-- a call finishes -/
  | done (s : State H B S) (pre post r o) : s.threads = pre ++ (r, .done o) :: post →
      Step be dry allowed s { s with threads := pre ++ post, log := (r, o) :: s.log }
  /-- lookup finds a value of the asserted type -/
  | hit (s : State H B S) (pre post r l key kind hit miss v) :
      s.threads = pre ++ (r, .get l key kind hit miss) :: post → s.waiting l = false →
      s.cache key = some v → v.kind = kind →
      Step be dry allowed s { s with threads := pre ++ (r, hit v) :: post }
  /-- lookup finds a value of another type: panic between `RLock` and `RUnlock` -/
  | clash (s : State H B S) (pre post r l key kind hit miss v) :
      s.threads = pre ++ (r, .get l key kind hit miss) :: post → s.waiting l = false →
      s.cache key = some v → v.kind ≠ kind →
      Step be dry allowed s { s with
        threads := pre ++ (r, .done .panic) :: post
        leaked := upd s.leaked l (s.leaked l + 1) }
  /-- lookup finds nothing -/
  | miss (s : State H B S) (pre post r l key kind hit miss) :
      s.threads = pre ++ (r, .get l key kind hit miss) :: post → s.waiting l = false →
      s.cache key = none →
      Step be dry allowed s { s with threads := pre ++ (r, miss) :: post }
  /-- a background write is started -/
  | spawn (s : State H B S) (pre post r l key v next) :
      s.threads = pre ++ (r, .spawn l key v next) :: post →
      Step be dry allowed s { s with
        threads := pre ++ (r, next) :: post
        pending := (l, key, v) :: s.pending }
  | chooseErr (s : State H B S) (pre post r possible k x) :
      s.threads = pre ++ (r, .chooseErr possible k) :: post → possible x →
      Step be dry allowed s { s with threads := pre ++ (r, k x) :: post }
  | chooseHyd (s : State H B S) (pre post r possible k x) :
      s.threads = pre ++ (r, .chooseHyd possible k) :: post → possible x →
      Step be dry allowed s { s with threads := pre ++ (r, k x) :: post }
  | chooseBytes (s : State H B S) (pre post r possible k x) :
      s.threads = pre ++ (r, .chooseBytes possible k) :: post → possible x →
      Step be dry allowed s { s with threads := pre ++ (r, k x) :: post }
  | chooseGlobal (s : State H B S) (pre post r possible k x) :
      s.threads = pre ++ (r, .chooseGlobal possible k) :: post → possible x →
      Step be dry allowed s { s with threads := pre ++ (r, k x) :: post }
  /-- a background write happens; it needs the lock free of readers -/
  | commit (s : State H B S) (pre post l key v) :
      s.pending = pre ++ (l, key, v) :: post → s.leaked l = 0 →
      Step be dry allowed s { s with
        pending := pre ++ post
        cache := upd s.cache key (some v) }
  /-- a background write blocks because a read lock was leaked; from now on readers block as well -/
  | block (s : State H B S) (pre post l key v) :
      s.pending = pre ++ (l, key, v) :: post → 0 < s.leaked l →
      Step be dry allowed s { s with waiting := upd s.waiting l true }

/-- Zero or more steps. -/
inductive Steps (be : Backend H B S) (dry : Bool) (allowed : Req → Prop) :
    State H B S → State H B S → Prop
  | refl (s) : Steps be dry allowed s s
  | tail {s t u} : Steps be dry allowed s t → Step be dry allowed t u → Steps be dry allowed s u

end Telefacts.Cache
