import Verif.Model.Http
import Verif.Spec.Router
import Verif.Spec.Web
import Verif.Spec.Server
/-! # Specification of the exchanges with clients -/
namespace Telefacts.Server
open Telefacts.Cache

/-- The parts of the web server that are not modelled. -/
structure Front where
  files : String → Web.Bytes → Web.Writer
  location : Url.Str → String
  sniff : Web.Bytes → String

/-- A client asked with GET for the path and got the status and body; the call of the cache is in the log. -/
def Got {H S : Type} (front : Front) (log : List (Req × Out H Store.Bytes S)) (path query : Web.Bytes) (status : Nat) (body : Web.Bytes) : Prop :=
  ∃ r o w, asked "GET" path query = some r ∧ (r, o) ∈ log ∧ respond front.files front.location "GET" path query o = some w ∧
    (w.finish front.sniff).1 = status ∧ (w.finish front.sniff).2.2 = body

/-- The path of the catalog and of a renderable of a folder. -/
def catalogPath (id : String) : Web.Bytes := Web.lit "/folders/" ++ wire (utf8 id)
def networkPath (id slug : String) : Web.Bytes := Web.lit "/folders/" ++ wire (utf8 id) ++ Web.lit "/" ++ wire (utf8 slug)

/-- The path of the expressions of facts of a folder. -/
def factsPath (id : String) : Web.Bytes := Web.lit "/folders/" ++ wire (utf8 id) ++ Web.lit "/" ++ Web.lit "facts"

/-- A client asks for the fact by name and context, encoded as in HTML forms; neither has a plus or percent sign. -/
def FactQuery (q : Web.Bytes) (name ref : String) : Prop :=
  ∃ en ec, Web.Enc (wire (utf8 name)) en ∧ Web.Enc (wire (utf8 ref)) ec ∧ q = Web.lit "name=" ++ en ++ Web.lit "&contextref=" ++ ec ∧
    Web.Plain (wire (utf8 name)) ∧ Web.Plain (wire (utf8 ref))

end Telefacts.Server
