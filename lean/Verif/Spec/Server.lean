import Verif.Model.Server
import Verif.Spec.Cache
import Verif.Spec.Listing
import Verif.Spec.GridJson
import Verif.Spec.Ixbrl
/-! # Specification of the server -/
namespace Telefacts.Server
open Telefacts.Hydrate Telefacts.Catalog Telefacts.Json

/-- No two networks of the folder have the same slug, unless they are of the same entity and role. -/
def Unambiguous (d : Disk) : Prop :=
  ∀ e₁ e₂ r₁ r₂, ReportsOn d e₁ → ReportsOn d e₂ → RoleOfFolder d r₁ → RoleOfFolder d r₂ →
    fnvHex (e₁.scheme ++ "/" ++ e₁.chars ++ r₁.roleURI ++ r₁.title) = fnvHex (e₂.scheme ++ "/" ++ e₂.chars ++ r₂.roleURI ++ r₂.title) →
    e₁.scheme ++ "/" ++ e₁.chars = e₂.scheme ++ "/" ++ e₂.chars ∧ r₁.roleURI = r₂.roleURI

/-- A client that reads the bytes as JSON finds the slug for the entity and the role in the catalog. -/
def Advertises (b : Store.Bytes) (entity role slug : String) : Prop :=
  ∃ v, IsText (decodeUtf8 b) v ∧ At v [.key "Networks", .key entity, .key role] (.str slug)

/-- The renderable is about the entity and the role. -/
def IsOf (v : Json) (e : Entity) (r : RSet) : Prop :=
  At v [.key "Subject", .key "Entity", .key "Scheme"] (.str e.scheme) ∧
  At v [.key "Subject", .key "Entity", .key "CharData"] (.str e.chars) ∧
  At v [.key "RelationshipSet", .key "RoleURI"] (.str r.roleURI) ∧ At v [.key "RelationshipSet", .key "Title"] (.str r.title)

/-- A load of the folder that succeeded. -/
def Loads (site : Site) (folder : String) (w : Hydrate.World) (fo : Files) (h : Hydratable) : Prop :=
  Ends site folder w (.done (some (fo, h)))

/-- The entry of the folder is an inline document with the elements `ds`, `h` being its first html element. -/
def DocumentAt (d : Disk) (ds : List Ixbrl.Dom) (h : Ixbrl.Dom) : Prop :=
  ∃ e, d.entryName = some e ∧ Disc.Inline e ∧ d.doc e = some (Ixbrl.decodeIxbrlFile (some ds)) ∧ Ixbrl.First ds h

/-- A text or number fact of the inline document has the name `name`, which means `q`, and the context `ref`. -/
def Tagged (d : Disk) (name : String) (q : XName) (ref : String) : Prop :=
  ∃ ds h x, DocumentAt d ds h ∧ Ixbrl.Elem ds x ∧ Ixbrl.Simple x ∧ Document.Uses h.attrs x.attrs name q ref

/-- The answer is about the concept, has the text and the period, and no members but those of the context. -/
def FactShown (v : Json) (href core raw : String) (cc : Instance.Context) : Prop :=
  At v [.key "Href"] (.str href) ∧ At v [.key "Expression", .key "Unlabelled", .key "Core"] (.str core) ∧
  At v [.key "Context", .key "Period", .key "Unlabelled"] (.str raw) ∧ ∃ p, At v [.key "Context"] p ∧ MembersShown p 0 cc

end Telefacts.Server
