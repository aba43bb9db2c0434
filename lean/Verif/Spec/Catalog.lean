import Verif.Model.Catalog
import Verif.Spec.Basic
/-! # Specification of the catalog -/
namespace Telefacts.Catalog
open Telefacts.Instance Telefacts.Schema

/-- The entity occurs in a context of the folder. -/
def Occurs (insts : List HInstance) (e : Entity) : Prop :=
  e.scheme ≠ "" ∧ e.chars ≠ "" ∧ ∃ i ∈ insts, ∃ c ∈ i.contexts, c.scheme = e.scheme ∧ c.ident = e.chars

/-- The relationship set is declared by a role type of the folder. -/
def DeclaredSet (schemas : List HSchema) (r : RSet) : Prop :=
  r.roleURI ≠ "" ∧ ∃ s ∈ schemas, ∃ t ∈ s.roleTypes, t.definition = r.title ∧ t.roleURI = r.roleURI

/-- Strictly increasing by scheme, then identifier. -/
def EntitiesSorted (l : List Entity) : Prop :=
  l.Pairwise fun a b => a.scheme < b.scheme ∨ (a.scheme = b.scheme ∧ a.chars < b.chars)

/-- Strictly increasing by title, then role URI. -/
def RSetsSorted (l : List RSet) : Prop :=
  l.Pairwise fun a b => a.title < b.title ∨ (a.title = b.title ∧ a.roleURI < b.roleURI)

/-- No member is a proper prefix of another one. -/
def PrefixFree (P : String → Prop) : Prop := ∀ a b r, P a → P b → a = b ++ r → r = ""

end Telefacts.Catalog
