import Verif.Spec.Threads
import Verif.Model.Goroutines
/-!
# Specification of conflicts
-/
namespace Telefacts.Spec
open Telefacts.Threads Telefacts.Disc

/-- The maps of a folder. -/
inductive FolderMap where
  | namespaces | schemas
  | links (kind : LKind)
deriving DecidableEq

/-- The map that is written. -/
def mapOf {L : Type} : Disc.Write L → FolderMap
  | .ns _ _ => .namespaces
  | .schema _ _ => .schemas
  | .link kind _ _ => .links kind

/-- Two writes of the same map conflict. -/
def SameMap {L : Type} (a b : Disc.Write L) : Prop := mapOf a = mapOf b

/-- Two accesses of the same variable, one of which writes, conflict. -/
def Conflict {V : Type} (a b : Use V) : Prop := a.var = b.var ∧ (a.writes = true ∨ b.writes = true)

/-- A conflict about one of certain variables. -/
def ConflictOn {V : Type} (vars : V → Prop) (a b : Use V) : Prop := Conflict a b ∧ vars a.var

end Telefacts.Spec
