import Verif.Model.Hydrate
/-! # The catalog of a loaded folder -/
namespace Telefacts.Hydrate
open Telefacts.Catalog

/-- pkg/renderables/catalog.go:18-51 `MarshalCatalog` for a loaded folder, before encoding; `h.Folder.EntryFileName` is the
entry name of the folder (pkg/serializables/folder.go:38-49). -/
def listing (d : Disk) (query : String → String → Res String) (h : Hydratable) : Catalog :=
  catalog query (values h.instances) (values h.schemas) (if h.document.isSome then some (d.entryName.getD "") else none)

end Telefacts.Hydrate
