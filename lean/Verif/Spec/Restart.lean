import Verif.Model.Server
import Verif.Spec.Runs
/-! # Restarts -/
namespace Telefacts.Spec
open Telefacts.Hydrate

/-- No namespace has two locations that it may be given last. -/
def OneHome (d : Disk) : Prop :=
  ∀ key inst ns l l', Disc.EntryInstance d.env key inst → Disc.Finally d.env inst ns l → Disc.Finally d.env inst ns l' → l = l'

end Telefacts.Spec
