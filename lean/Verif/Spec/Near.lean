import Verif.Model.Catalog
import Verif.Spec.Catalog
/-!
# Texts that differ in one place
-/
namespace Telefacts.Spec
open Telefacts.Catalog

/-- Two texts that are different, of the same length, and differ only within ten consecutive bytes. -/
def Near (s t : String) : Prop :=
  ∃ a m m' z, s = a ++ m ++ z ∧ t = a ++ m' ++ z ∧ m ≠ m' ∧ m.utf8ByteSize = m'.utf8ByteSize ∧ m.utf8ByteSize ≤ 10

/-- What is hashed for the network of an entity and a relationship set. -/
def joined (e : Entity) (r : RSet) : String := e.scheme ++ "/" ++ e.chars ++ r.roleURI ++ r.title

end Telefacts.Spec
