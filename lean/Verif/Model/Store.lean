import Verif.Model.Prelude
import Mathlib.Logic.Function.Basic
import Mathlib.Logic.Relation
/-!
# The folder store on disk: pkg/serializables/underscore.go, internal/actions/writeFile.go

Each system call is one atomic step; calls run concurrently and any system call may fail. A process
crash drops all running calls and keeps the disk (no power loss: what was written stays written).
-/
namespace Telefacts.Store

abbrev Bytes := List UInt8

/-- One folder directory; only its metadata file `_` is modelled (`none`: no such file). -/
structure Dir where
  meta_ : Option Bytes
deriving DecidableEq, Repr

/-- The directories below `WorkingDirectoryPath/folders`, by name. -/
abbrev Disk := String → Option Dir

/-- underscore.go:13 -/
structure Underscore where
  entry : String
  note : String
deriving DecidableEq, Repr

/-- Outside functions: `uuid.NewMD5(NilUuid, key).String()`, the JSON encoder and decoder, and the value
of `WorkingDirectoryPath`. `Json.store` in Model/Codec.lean has the actual encoder and decoder. -/
structure Ctx where
  md5 : String → String
  enc : Underscore → Bytes
  dec : Bytes → Option String
  wd : String

/-- `os.ErrExist` (also wrapped, from `Mkdir`) or any other error. -/
inductive Err where
  | exist | other
deriving DecidableEq, Repr

/-- Where a `NewFolder` call is. `done id e`: it returned `(id, e)`. -/
inductive PC where
  | start
  | stat (id : String)
  | mkdir (id : String)
  | stat2 (id : String) (e : Err)
  | openMeta (id : String)
  | write (id : String) (n : Nat)
  | done (id : String) (e : Option Err)
deriving DecidableEq, Repr

/-- A call of `NewFolder(key, u)`. -/
structure Call where
  key : String
  u : Underscore
  pc : PC

/-- Writing byte `b` at offset `n`. -/
def writeAt (c : Bytes) (n : Nat) (b : UInt8) : Bytes := c.take n ++ b :: c.drop (n + 1)

/-- One step of `NewFolder(key, u)` (underscore.go:28-68): `Step ctx faults key u (disk, pc) (disk', pc')`.
With `faults = true` any system call may also fail. The result of `uuid.New()` is any string. -/
inductive Step (ctx : Ctx) (faults : Bool) (key : String) (u : Underscore) : Disk × PC → Disk × PC → Prop
  /-- 29-31 -/
  | noWd (d) : ctx.wd = "" → Step ctx faults key u (d, .start) (d, .done "" (some .other))
  /-- 41 with a key -/
  | keyed (d) : ctx.wd ≠ "" → key ≠ "" → Step ctx faults key u (d, .start) (d, .stat (ctx.md5 key))
  /-- 41 without key -/
  | random (d id) : ctx.wd ≠ "" → key = "" → Step ctx faults key u (d, .start) (d, .stat id)
  /-- 43-47: it exists, with a key -/
  | statExist (d id x) : d id = some x → key ≠ "" → Step ctx faults key u (d, .stat id) (d, .done id (some .exist))
  /-- 43-51: it exists, without key: try another id -/
  | statAgain (d id x id') : d id = some x → key = "" → Step ctx faults key u (d, .stat id) (d, .stat id')
  /-- 43: it does not exist -/
  | statNone (d id) : d id = none → Step ctx faults key u (d, .stat id) (d, .mkdir id)
  /-- 43: `Stat` fails for another reason, which ends the loop too -/
  | statFault (d id) : faults = true → Step ctx faults key u (d, .stat id) (d, .mkdir id)
  /-- 52 -/
  | mkdirOk (d id) : d id = none →
      Step ctx faults key u (d, .mkdir id) (Function.update d id (some ⟨none⟩), .openMeta id)
  | mkdirExist (d id x) : d id = some x → Step ctx faults key u (d, .mkdir id) (d, .stat2 id .exist)
  | mkdirFault (d id) : faults = true → Step ctx faults key u (d, .mkdir id) (d, .stat2 id .other)
  /-- 54-57 -/
  | stat2Ok (d id e x) : d id = some x → Step ctx faults key u (d, .stat2 id e) (d, .done id (some e))
  | stat2None (d id e) : d id = none → Step ctx faults key u (d, .stat2 id e) (d, .done "" (some e))
  | stat2Fault (d id e) : faults = true → Step ctx faults key u (d, .stat2 id e) (d, .done "" (some e))
  /-- 60: created if missing, not truncated -/
  | openOk (d id x) : d id = some x →
      Step ctx faults key u (d, .openMeta id) (Function.update d id (some ⟨some (x.meta_.getD [])⟩), .write id 0)
  /-- 60-66: the error of `OpenFile` is dropped; `Encode` fails on the nil file -/
  | openFault (d id) : faults = true → Step ctx faults key u (d, .openMeta id) (d, .done "" (some .other))
  /-- 63: the metadata is written (byte by byte, so that every prefix is a state) -/
  | writeByte (d id n c b) : d id = some ⟨some c⟩ → (ctx.enc u)[n]? = some b →
      Step ctx faults key u (d, .write id n) (Function.update d id (some ⟨some (writeAt c n b)⟩), .write id (n + 1))
  | writeFault (d id n) : faults = true → Step ctx faults key u (d, .write id n) (d, .done "" (some .other))
  /-- 67 -/
  | finish (d id n) : n = (ctx.enc u).length → Step ctx faults key u (d, .write id n) (d, .done id none)

/-- The disk and the calls made so far (by number). -/
structure Sys where
  disk : Disk
  calls : Nat → Option Call

/-- One event: a call begins, a call makes a step, or the process crashes. -/
inductive Event (ctx : Ctx) (faults : Bool) : Sys → Sys → Prop
  | begin (s i key u) : s.calls i = none →
      Event ctx faults s ⟨s.disk, Function.update s.calls i (some ⟨key, u, .start⟩)⟩
  | step (s i c d' pc') : s.calls i = some c → Step ctx faults c.key c.u (s.disk, c.pc) (d', pc') →
      Event ctx faults s ⟨d', Function.update s.calls i (some { c with pc := pc' })⟩
  | crash (s) : Event ctx faults s ⟨s.disk, fun _ => none⟩

/-- Executions. -/
def Run (ctx : Ctx) (faults : Bool) : Sys → Sys → Prop := Relation.ReflTransGen (Event ctx faults)

/-- A freshly started process with some disk. -/
def fresh (d : Disk) : Sys := ⟨d, fun _ => none⟩

/-- underscore.go:18-26 `GetEntryFileName`. -/
def getEntryFileName (ctx : Ctx) (d : Disk) (id : String) : Res String :=
  match d id with
  | none => .err "no folder"
  | some x =>
    match x.meta_ with
    | none => .err "no metadata"
    | some b =>
      match ctx.dec b with
      | none => .err "bad metadata"
      | some e => .ok e

/-! ## internal/actions/writeFile.go -/

/-- Where a `WriteFile` call is. `done ok` says whether it returned nil. -/
inductive WPC where
  | opening
  | writing (n : Nat)
  | done (ok : Bool)
deriving DecidableEq, Repr

/-- One step of `WriteFile(dest, data)` (writeFile.go:5-16) on the contents of `dest`
(`none`: no such file). -/
inductive WStep (data : Bytes) : Option Bytes × WPC → Option Bytes × WPC → Prop
  | openFail (c) : WStep data (c, .opening) (c, .done false)
  | openOk (c) : WStep data (c, .opening) (some [], .writing 0)
  | writeByte (c n b) : data[n]? = some b → WStep data (some c, .writing n) (some (writeAt c n b), .writing (n + 1))
  | writeFail (c n) : WStep data (c, .writing n) (c, .done false)
  | finish (c n) : n = data.length → WStep data (c, .writing n) (c, .done true)

end Telefacts.Store
