import Verif.Model.Startup
import Verif.Spec.Router
/-! # Specification of what is served as a file -/
namespace Telefacts.Router
open Telefacts.Url

/-- Some request opens something in the directory, or the directory itself, as a file to be sent. -/
def Exposed (root dir : Str) : Prop :=
  ∃ method path f, rooted path = true ∧ route method path = .static ∧ f ∈ opened root path ∧ Inside dir f

end Telefacts.Router
