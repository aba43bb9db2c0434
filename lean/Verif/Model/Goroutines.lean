import Verif.Model.Threads
import Verif.Model.Discover
import Verif.Model.Ixbrl
/-!
# The goroutines of Discover, DecodeIxbrlFile, HydrateDocument and MarshalRenderable

Only accesses to variables that several goroutines share are listed. Variables that nobody writes while
the goroutines run (`folder.Dir`, the parsed document, the name provider, the hydratable) are left out, and so
are the goroutines started for published schemas (folder.go:113, 172, 235, 310), which do not use the
folder at all.
-/
namespace Telefacts.Threads
open Telefacts.Disc Telefacts.Document Telefacts.Ixbrl

variable {L D : Type}

/-! ## pkg/serializables/folder.go -/

/-- Locked writes, one after the other: `folder.wLock.Lock()`, the write, `folder.wLock.Unlock()`. -/
def locked : List (Disc.Write L) → Prog (Disc.Write L) Unit → Prog (Disc.Write L) Unit
  | [], k => k
  | w :: ws, k => .crit () [w] (locked ws k)

/-- folder.go:270-359 `linkbaseRefSchema`: a goroutine for each linkbaseRef. -/
def linkbaseThreads (env : FolderEnv L D) (f : SchemaFile) : Prog (Disc.Write L) Unit :=
  .all (f.annotation.flatMap fun ann =>
    if ann.space ≠ XSD then []
    else ann.appinfo.flatMap fun app =>
      if app.space ≠ XSD then []
      else app.linkbaseRef.map fun item => locked (linkbaseItem env item) .done)

/-- folder.go:101-147, 160-206, 219-265: the goroutine of one reference. The namespace is written, the file
found is searched by three goroutines, and at the end the file is written. -/
def visitThread (env : FolderEnv L D) (v : Visit) (sub : SchemaFile → Prog (Disc.Write L) Unit) :
    Prog (Disc.Write L) Unit :=
  locked (v.ns.map fun p => .ns p.1 p.2)
    (match v.next with
    | none => .done
    | some (href, f) => .par (sub f) (linkbaseThreads env f) (.crit () [.schema href f] .done))

/-- folder.go:152-269 `importSchema` and `includeSchema`, cut off at a depth. -/
def searchThreads (env : FolderEnv L D) : Nat → SchemaFile → Prog (Disc.Write L) Unit
  | 0, _ => .done
  | n + 1, f => .par (.all (f.imp.map fun i => visitThread env (visitImport env i) (searchThreads env n)))
      (.all (f.incl.map fun i => visitThread env (visitInclude env i) (searchThreads env n))) .done

/-- folder.go:93-150 `schemaRef`, cut off at a depth. -/
def schemaRefThreads (env : FolderEnv L D) (depth : Nat) (inst : Disc.InstanceFile) :
    Prog (Disc.Write L) Unit :=
  .all (inst.schemaRef.map fun i => visitThread env (visitRef env i) (searchThreads env depth))

/-! ## Reads and writes of variables -/

/-- An access of a variable. -/
structure Use (V : Type) where
  var : V
  writes : Bool
deriving DecidableEq, Repr

def reads {V : Type} (v : V) : Use V := ⟨v, false⟩
def writes {V : Type} (v : V) : Use V := ⟨v, true⟩

/-! ## pkg/serializables/document.go -/

/-- The variables of `DecodeIxbrlFile` that its goroutines share (document.go:31-134). -/
inductive IxVar where
  | html | schemaRefs | contexts | units | nonFractions | nonNumerics | excludes | relationships
  | goErr | err | factMap
deriving DecidableEq, Repr

/-- document.go:51-59: the goroutine of `schemaRefs`, which sets `goErr`. The queries are constants and never
fail, so that the error is read and the branch for errors is not taken. -/
def queryGoErr (v : IxVar) : Prog (Use IxVar) Unit :=
  .acts [writes v, writes .goErr, reads .goErr] .done

/-- document.go:61-118: the goroutines of the other lists, which set `err` and test `goErr`. -/
def queryErr (v : IxVar) : Prog (Use IxVar) Unit :=
  .acts [writes v, writes .err, reads .goErr] .done

/-- document.go:38-49: the goroutine of `html`. -/
def queryHtml : Prog (Use IxVar) Unit :=
  .acts [writes .html, writes .goErr, reads .html, reads .goErr] .done

/-- document.go:136-145, 149-158: the goroutine of one fact. -/
def factMapThread (f : InlineFact) : Prog (Use IxVar) Unit :=
  match findXpathAttr f "id" with
  | none => .done
  | some a => if a.value = "" then .done else .crit () [writes .factMap] .done

/-- document.go:29-178 `DecodeIxbrlFile` of a file that can be parsed, from line 35 on. -/
def decodeThreads (ds : List Dom) : Prog (Use IxVar) Unit :=
  .par (.all [queryHtml, queryGoErr .schemaRefs, queryErr .contexts, queryErr .units, queryErr .nonFractions,
      queryErr .nonNumerics, queryErr .excludes, queryErr .relationships]) .done
    (.act (reads .html)
      (match html ds with
      | none => .done
      | some _ => .par (.all ((inlines "nonFraction" ds).map factMapThread))
          (.all ((inlines "nonNumeric" ds).map factMapThread)) (.act (reads .factMap) .done)))

/-! ## pkg/hydratables/document.go -/

/-- The variables of `HydrateDocument` that its goroutines share; `second`: the one of the second group. -/
inductive HydVar where
  | names | ctxs
  | goErr (second : Bool)
deriving DecidableEq, Repr

/-- document.go:33-49, 60-76: the goroutine of one fact; the mutex and the error variable are those of the
group. Simplified: a goroutine that finds an error goes on, which only adds accesses after the error has
been written; one that panics does the writes. -/
def inlineThread (np : NameProvider) (second : Bool) (f : InlineFact) : Prog (Use HydVar) Bool :=
  .act (reads (.goErr second))
    (match work np f with
    | .err _ => .act (writes (.goErr second)) .done
    | _ => .crit second [writes .names, writes .ctxs] .done)

/-- document.go:32-50, 59-77: the goroutines of one group. -/
def groupThreads (np : NameProvider) (second : Bool) (facts : List InlineFact) : Prog (Use HydVar) Bool :=
  .all (facts.map (inlineThread np second))

/-- document.go:29-86 `HydrateDocument` after the name provider is made. The second group is started if the
first had no error and did not panic. -/
def hydrateThreads (np : NameProvider) (nonNumerics nonFractions : List InlineFact) : Prog (Use HydVar) Bool :=
  .par (groupThreads np false nonNumerics) .done
    (.act (reads (.goErr false))
      (if nonNumerics.all (fun f => (work np f).isOk) then
        .par (groupThreads np true nonFractions) .done (.act (reads (.goErr true)) .done)
      else .done))

/-! ## pkg/renderables/renderable.go -/

/-- The variables of `MarshalRenderable` that its goroutines share (renderable.go:45-53). -/
inductive RenVar where
  | p | d | c | labelRoles | langs | err
deriving DecidableEq, Repr

/-- renderable.go:56-66, 67-77, 78-88: the goroutine of one grid; `ok`: the grid has no error. -/
def gridThread (v : RenVar) (ok : Bool) : Prog (Use RenVar) Unit :=
  if ok then .acts [writes v, reads .labelRoles, writes .labelRoles, reads .langs, writes .langs] .done
  else .acts [writes .err] .done

/-- renderable.go:54-91 `MarshalRenderable`, the three grids and what is done with them. -/
def renderThreads (okP okD okC : Bool) : Prog (Use RenVar) Unit :=
  .par (.all [gridThread .p okP, gridThread .d okD, gridThread .c okC]) .done
    (.acts [reads .langs, reads .labelRoles, reads .p, reads .d, reads .c] .done)

end Telefacts.Threads
