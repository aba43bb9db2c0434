import Verif.Spec.Discover
import Verif.Model.Server
import Verif.Spec.Image
/-!
# Folders that differ only in files that nothing refers to
-/
namespace Telefacts.Spec
open Telefacts.Server Telefacts.Hydrate Telefacts.Disc

/-- The files of the folder that its entry leads to: the entry itself, and the files that the instance, its schemas and theirs refer to. -/
inductive Referred (d : Disk) : String → Prop
  | entry (e : String) : d.entryName = some e → Referred d e
  | xml (e : String) : d.entryName = some e → Referred d (e ++ ".xml")
  | ref (key : String) (inst : InstanceFile) (i : Item) (n : String) : EntryInstance d.env key inst → i ∈ inst.schemaRef →
      AttrVal i.attrs "href" n → Referred d n
  | schema (key : String) (inst : InstanceFile) (loc : String) (f : SchemaFile) (i : Item) (n : String) : EntryInstance d.env key inst →
      Reach d.env inst loc f → i ∈ f.imp ∨ i ∈ f.incl → AttrVal i.attrs "schemaLocation" n → Referred d n
  | linkbase (key : String) (inst : InstanceFile) (loc : String) (f : SchemaFile) (kind : LKind) (n : String) : EntryInstance d.env key inst →
      Reach d.env inst loc f → LinkIn d.env f kind n → Referred d n

/-- The second folder has the same files under the names that the first refers to. -/
structure SameReferred (d d' : Disk) : Prop where
  entry : d'.entryName = d.entryName
  images : d'.images = d.images
  url : d'.isUrl = d.isUrl
  read : ∀ n, Referred d n → d'.read n = d.read n ∧ d'.doc n = d.doc n ∧ d'.fileExists n = d.fileExists n

/-- Sites whose folders have the same files where it matters. -/
structure SameReferredSite (site site' : Site) : Prop where
  eq : ∃ disk, site' = { site with disk := disk }
  disk : ∀ folder, SameReferred (site.disk folder) (site'.disk folder)

/-- No element of the tree shows an image of that name. -/
def Unshown (name : String) (n : Image.Node) : Prop :=
  ∀ p m, Image.At n p m → m.elem = true → m.data = "img" → ∀ a ∈ m.attrs, a.key = "src" → ¬ BaseName a.val name

/-- The site with one more file in a folder, an image. -/
def withImage (site : Site) (id name url : String) : Site :=
  { site with disk := fun f => if f = id then { site.disk f with images := (name, url) :: (site.disk f).images } else site.disk f }

end Telefacts.Spec
