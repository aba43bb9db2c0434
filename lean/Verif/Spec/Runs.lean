import Verif.Spec.Discover
/-! # Which location a namespace is given in the end -/
namespace Telefacts.Disc
open Telefacts.Spec
variable {L D : Type}

/-- A reference of the file, or of a file that is found from there, gives the namespace a location. -/
inductive Gives (env : FolderEnv L D) (n : String) : SchemaFile → Prop
  | imp (f : SchemaFile) (i : Item) (loc : String) : i ∈ f.imp → ImportNames i n loc → Gives env n f
  | incl (f : SchemaFile) (i : Item) (loc : String) (g : SchemaFile) : i ∈ f.incl → IncludeTo env i n loc g → Gives env n f
  | child (f : SchemaFile) (loc : String) (g : SchemaFile) : Child env f loc g → Gives env n g → Gives env n f

/-- A reference of the file gives the namespace the location, and from the file it leads to (if any) it is not given one again. -/
def LastAt (env : FolderEnv L D) (f : SchemaFile) (n loc : String) : Prop :=
  (∃ i ∈ f.imp, ImportNames i n loc ∧ ∀ g, Local env loc g → ¬ Gives env n g) ∨
  ∃ i ∈ f.incl, ∃ g, IncludeTo env i n loc g ∧ ¬ Gives env n g

/-- A followed reference gives the namespace the location, and from the file it leads to (if any) it is not given one again. -/
def Finally (env : FolderEnv L D) (inst : InstanceFile) (n loc : String) : Prop :=
  (∃ i ∈ inst.schemaRef, ∃ f, RefTo env i n loc f ∧ ¬ Gives env n f) ∨
  ∃ loc' f, Reach env inst loc' f ∧ LastAt env f n loc

end Telefacts.Disc
