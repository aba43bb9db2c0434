import Verif.Model.Server
/-!
# The server over versions of its files

`Server.backend` with loaded folders that keep the files they were loaded from: pkg/hydratables/hydratable.go:19-82 keeps the discovered
folder in the `Hydratable`, and what is computed from it (names of the entry file and the images, the bytes of the document) is read
from there, not from the disk. Only the folders change; what is outside of them is constant.
-/
namespace Telefacts.Server
open Telefacts.Hydrate

/-- A version of the folders: their files, and the bytes of their entry files. -/
structure Edition where
  disk : String → Disk
  document : String → Store.Bytes

/-- The site with another version of the folders. -/
def withEdition (base : Site) (v : Edition) : Site := { base with disk := v.disk, document := v.document }

/-- pkg/cache/cache.go:140-155: the folder is loaded from the files that are there, and then keeps them. -/
def keeping (base : Site) (v : Edition) : Cache.Backend (Edition × Loaded) Store.Bytes Unit where
  discover := discovers (withEdition base v)
  hydrate := fun folder x => ∃ y, hydrates (withEdition base v) folder y ∧ x = y.map fun p => (p.1.map (Prod.mk v), p.2)
  catalog := fun l => (backend (withEdition base l.1)).catalog l.2
  renderable := fun hash l => (backend (withEdition base l.1)).renderable hash l.2
  express := fun name ref l => (backend (withEdition base l.1)).express name ref l.2
  entryName := fun l => (backend (withEdition base l.1)).entryName l.2
  docBytes := fun l => (backend (withEdition base l.1)).docBytes l.2
  schema := fun _ _ => True
  utr := fun _ => True
  names := fun _ => True

end Telefacts.Server
