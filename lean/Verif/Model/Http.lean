import Verif.Model.Server
import Verif.Model.Router
/-!
# The server: what is above the cache

A handler of internal/web/web.go calls the cache at most once and writes its answer. `Router.serve` with a cache layer that gives
the answer of that call is the response. A handler that panics sends none (`net/http` closes the connection).
-/
namespace Telefacts.Server
open Telefacts.Cache

/-- The bytes of a Go string. -/
def utf8 (s : String) : Store.Bytes := Json.encodeUtf8 s.toList

/-- Bytes as in Model/Web.lean, and back. -/
def wire (b : Store.Bytes) : Web.Bytes := b.map UInt8.toFin
def unwire (b : Web.Bytes) : Store.Bytes := b.map UInt8.ofFin

/-- The text of a Go string. Simplified: bytes that are not UTF-8 become U+FFFD. -/
def goText (b : Web.Bytes) : String := String.ofList (Json.decodeUtf8 (unwire b))

/-- internal/web/web.go:21-24, 44-52, 73-92: the call of the cache that a request makes. -/
def asked (method : String) (path query : Web.Bytes) : Option Req :=
  match Router.route method (Router.str path) with
  | .catalog id => some (.catalog (goText (Router.bytes id)))
  | .renderable id hash => some (.renderable (goText (Router.bytes id)) (goText (Router.bytes hash)))
  | .facts id =>
    match Web.factQuery query with
    | .ok (n, c) => some (.express (goText (Router.bytes id)) (goText n) (goText c))
    | .error _ => none
  | _ => none

/-- What the call returns to the handler: `none` for a panic. -/
def result {H S : Type} : Out H Store.Bytes S → Option Web.CacheResult
  | .ret (.bytes b) none => some (.ok (wire (b.getD [])))
  | .ret _ (some m) => some (.error (wire (utf8 m)))
  | _ => none

/-- The response to a request whose call of the cache had the outcome `o`. -/
def respond {H S : Type} (files : String → Web.Bytes → Web.Writer) (location : Url.Str → String) (method : String)
    (path query : Web.Bytes) (o : Out H Store.Bytes S) : Option Web.Writer :=
  (result o).map fun r => Router.serve ⟨fun _ => r, fun _ _ => r, fun _ _ _ => r⟩ files location method path query

end Telefacts.Server
