import Verif.Model.Server
/-!
# Which panics end the program

`net/http` recovers a panic of the goroutine that serves a request: the connection is closed and the server goes on
(conn.serve, net/http/server.go). There is no other `recover` in the program, so that a panic of any other goroutine ends the
process. The goroutines that requests start and in which something can panic are those of
pkg/hydratables/document.go:33, 60 and of pkg/renderables/renderable.go:56, 67, 78. (Those of pkg/serializables only read files
and write to maps and slices of their own, see Model/Discover.lean and Model/Ixbrl.lean; those of pkg/cache/cache.go only set an
entry.)
-/
namespace Telefacts.Server
open Telefacts.Linkbase Telefacts.Schema Telefacts.Instance Telefacts.Render Telefacts.Hydrate Telefacts.Catalog Telefacts.Document Telefacts.Decode

/-- pkg/hydratables/document.go:25-81: a goroutine of `HydrateDocument` panics. The second group starts after the first has ended
without an error (51-54). -/
def documentCrashes (w : Hydrate.World) (x : DocFile) : Bool :=
  match newNameProvider x.html with
  | .ok np =>
    let st := runGroup np x.nonNumerics ⟨[], []⟩ w.sched₁
    st.crashed || (st.goErr.isNone && (runGroup np x.nonFractions st.doc w.sched₂).crashed)
  | _ => false

/-- pkg/hydratables/hydratable.go:72-79: the document is hydrated after everything else. -/
def ReachesDocument (w : Hydrate.World) (fo : Files) : Prop := ∃ h, hydrate w { fo with document := none } = .done (some h)

/-- A run of pkg/cache/cache.go:140-144 on the folder ends the program. -/
def LoadingKills (site : Site) (folder : String) : Prop :=
  ∃ w fuel sched fo x, Varies site.outside w ∧ FairWorld w ∧ (∀ ws : List (Disc.Write LinkbaseFile), (sched ws).Perm ws) ∧
    Disc.discover (site.disk folder).env fuel sched = some (.ok fo) ∧ fo.document = some x ∧ Waited w x ∧
    ReachesDocument w (filesOf (site.disk folder) fo) ∧ documentCrashes w x = true

/-- pkg/renderables/renderable.go:56-86: a goroutine of `MarshalRenderable` panics. -/
def gridsCrash (site : Site) (c : Choice) (hash : String) (l : Loaded) : Prop :=
  match select hash (sortedEntities (values l.hyd.instances)) (sortedRSets (values l.hyd.schemas)) with
  | none => False
  | some (e, r) =>
    pGrid (folderOf site c l) (gridEnv site c l) (stringify e) r.roleURI (booksOf site c).presentation = .panic ∨
    dGrid (folderOf site c l) (gridEnv site c l) (stringify e) r.roleURI (booksOf site c) = .panic ∨
    cGrid (folderOf site c l) (gridEnv site c l) (stringify e) r.roleURI (booksOf site c) = .panic

/-- pkg/cache/cache.go:34-129: serving the request may end the program, when nothing but perhaps the folder is in the cache.
The functions that are called for catalogs and expressions start no goroutines that can panic. -/
def MayEnd (site : Site) : Cache.Req → Prop
  | .catalog folder => LoadingKills site folder
  | .express folder _ _ => LoadingKills site folder
  | .renderable folder hash => LoadingKills site folder ∨
      ∃ l, hydrates site folder (some (some l, none)) ∧
        ¬ ((fileExt hash = ".xhtml" ∨ fileExt hash = ".htm") ∧ (backend site).entryName l = hash) ∧
        ∃ c : Choice, c.Fair l.hyd ∧ gridsCrash site c hash l
  | _ => False

end Telefacts.Server
