import Verif.Spec.Xml
import Verif.Model.Server
/-!
# Instance files whose elements come in another order
-/
namespace Telefacts.Spec
open Telefacts.Linkbase Telefacts.Instance Telefacts.Decode Telefacts.Hydrate Telefacts.Server

/-- The children with the property are the same, in the same order. -/
def Kept (P : Xml → Prop) (x x' : Xml) : Prop := ∃ l, Collected (fun k y => P k ∧ y = k) x.kids l ∧ Collected (fun k y => P k ∧ y = k) x'.kids l

/-- The same elements; schema references and footnote links are in the same order, and contexts (units, facts) with the same id. -/
structure Reordered (x x' : Xml) : Prop where
  root : x.name.loc = "xbrl"
  name : x'.name = x.name
  attrs : x'.attrs = x.attrs
  refs : Kept (fun k => k.name.loc = "schemaRef") x x'
  notes : Kept (fun k => k.name.loc = "footnoteLink") x x'
  contexts : ∀ i, Kept (fun k => k.name.loc = "context" ∧ OptVal k.attrs "id" i) x x'
  units : ∀ i, Kept (fun k => k.name.loc = "unit" ∧ OptVal k.attrs "id" i) x x'
  facts : ∀ i, Kept (fun k => ¬ Reserved k.name.loc ∧ OptVal k.attrs "id" i) x x'

/-- Reading the typed members of the file comes to an end. -/
def TypedEnds (tokens : String → Stream) (x : Xml) : Prop :=
  ∀ f, IsInstance x f → ∀ e ∈ f.contexts, ∀ d, (d ∈ e.scenarios ∨ ∃ ent ∈ e.entities, d ∈ ent.segments) → ∀ m ∈ d.typed, (tokens m.chars).eof = true

/-- Folders with the same files, but for the order of elements in instances. -/
structure ReorderedDisk (tokens : String → Stream) (d d' : Disk) : Prop where
  entry : d'.entryName = d.entryName
  images : d'.images = d.images
  exist : d'.fileExists = d.fileExists
  doc : d'.doc = d.doc
  url : d'.isUrl = d.isUrl
  read : ∀ n, d'.read n = d.read n ∨ ∃ x x', d.read n = some x ∧ d'.read n = some x' ∧ Reordered x x' ∧ TypedEnds tokens x

/-- Sites with the same files, but for the order of elements in instances. -/
structure ReorderedSite (site site' : Site) : Prop where
  eq : ∃ disk, site' = { site with disk := disk }
  disk : ∀ folder, ReorderedDisk site.outside.tokens (site.disk folder) (site'.disk folder)

end Telefacts.Spec
