import Verif.Spec.Discover
/-! # Specification: the ways from the instance to a schema file -/
namespace Telefacts.Disc
open Telefacts.Spec
variable {L D : Type}

/-- A reference of a schema file: its import, or its include, at a position. -/
inductive Hop where
  | imp (k : Nat)
  | incl (k : Nat)
deriving DecidableEq, Repr

/-- Following one reference of `f`. -/
def Leads (env : FolderEnv L D) (f : SchemaFile) (s : Hop) (loc : String) (g : SchemaFile) : Prop :=
  match s with
  | .imp k => ∃ i, f.imp[k]? = some i ∧ ∃ n, ImportNames i n loc ∧ Local env loc g
  | .incl k => ∃ i, f.incl[k]? = some i ∧ ∃ t, IncludeTo env i t loc g

/-- Following references one after the other, at least one. -/
inductive Hops (env : FolderEnv L D) : SchemaFile → List Hop → String → SchemaFile → Prop
  | one {f s loc g} : Leads env f s loc g → Hops env f [s] loc g
  | more {f s loc g q loc' h} : Leads env f s loc g → Hops env g q loc' h → Hops env f (s :: q) loc' h

/-- A way from the instance to the file at `loc`: the position of the schemaRef, then the references. -/
def Way (env : FolderEnv L D) (inst : InstanceFile) (w : Nat × List Hop) (loc : String) (f : SchemaFile) : Prop :=
  ∃ i, inst.schemaRef[w.1]? = some i ∧ ∃ t loc0 f0, RefTo env i t loc0 f0 ∧
    ((w.2 = [] ∧ loc = loc0 ∧ f = f0) ∨ Hops env f0 w.2 loc f)

/-- The values `l` come from the keys in `R`, one for each key. -/
def Lists {κ γ : Type} (R : κ → γ → Prop) (l : List γ) : Prop :=
  ∃ qs : List (κ × γ), qs.map Prod.snd = l ∧ (qs.map Prod.fst).Nodup ∧ ∀ c v, (c, v) ∈ qs ↔ R c v

end Telefacts.Disc
