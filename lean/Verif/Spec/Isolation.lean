import Verif.Model.Server
/-!
# Sites that have one folder in common
-/
namespace Telefacts.Spec
open Telefacts.Server

/-- The two sites have the folder in common; the other folders are arbitrary. What is outside the folders is the same. -/
structure ShareFolder (id : String) (site site' : Site) : Prop where
  eq : ∃ disk document, site' = { site with disk := disk, document := document }
  disk : site'.disk id = site.disk id
  document : site'.document id = site.document id

end Telefacts.Spec
