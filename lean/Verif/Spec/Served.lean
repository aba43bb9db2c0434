import Verif.Spec.Server
import Verif.Spec.EndToEnd
/-! # Specification of what a client that follows the catalog of a server finds of a fact -/
namespace Telefacts.Server
open Telefacts.Hydrate Telefacts.Catalog Telefacts.Json Telefacts.Cache Telefacts.Decode Telefacts.Schema Telefacts.Linkbase

/-- `b` is what a server answers, in some history of ordinary requests, to a request for the slug that its catalog gives for the
entity and the role. -/
def Followed (site : Site) (id entity role : String) (b : Store.Bytes) : Prop :=
  ∃ allowed dry s b₀ e₀ e slug, Normal allowed ∧ Steps (backend site) dry allowed State.init s ∧
    (.catalog id, .ret (.bytes (some b₀)) e₀) ∈ s.log ∧ Advertises b₀ entity role slug ∧
    (.renderable id slug, .ret (.bytes (some b)) e) ∈ s.log

/-- The element `x` of the instance on disk, whose root is `root`, reports a fact for the context `r` of the entity, of a concept `c`
that is declared at `l` and not abstract; `file` is the decoded instance. -/
structure OnDisk (site : Site) (id entity : String) (root : Xml) (file : InstFile) (x : Xml) (c : Concept) (r l : String) : Prop where
  url : site.outside.validUrl = (site.disk id).isUrl
  decoded : instanceFile root = some file
  reports : Reports root x c r
  schema : ∃ inst sx, EntryRoot (site.disk id) root inst ∧ SchemaAt (site.disk id) site.outside.discover inst x.name.space l sx ∧
    DeclaredIn sx l c ∧ Distinct sx l c
  concrete : c.abstract = false
  ids : ∀ w fo h, Loads site id w fo h → ∀ l' c', Declares (queryEnv w fo) l' c' → '#' ∉ c'.id.toList
  context : ∀ w fo h, Loads site id w fo h → ∃ cc, HasContext (instanceWorld w fo file) root r cc ∧ Render.OfEntity entity cc

end Telefacts.Server
