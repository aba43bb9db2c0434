import Verif.Spec.EndToEnd
import Verif.Spec.Catalog
/-! # Specification of the catalog in terms of the files of the folder -/
namespace Telefacts.Hydrate
open Telefacts.Spec Telefacts.Catalog

/-- The context element `x` is about the entity `e`: it has an id, and the first identifier of its first entity names `e`. -/
def About (x : Xml) (e : Entity) : Prop :=
  x.name.space = "http://www.xbrl.org/2003/instance" ∧ x.name.loc = "context" ∧ (∃ id, AttrVal x.attrs "id" id ∧ id ≠ "") ∧
  ∃ ent i, FirstWith (fun k : Xml => k.name.loc = "entity") x.kids ent ∧
    FirstWith (fun k : Xml => k.name.loc = "identifier") ent.kids i ∧
    AttrVal i.attrs "scheme" e.scheme ∧ e.scheme ≠ "" ∧ e.chars = i.chars ∧ e.chars ≠ ""

/-- The entity is one that the instance of the folder reports on. -/
def ReportsOn (d : Disk) (e : Entity) : Prop :=
  ∃ root inst, EntryRoot d root inst ∧ ∃ x ∈ root.kids, About x e

/-- The element `x` declares the role with URI and definition of `r`. -/
def DeclaresRole (x : Xml) (r : RSet) : Prop :=
  x.name.space = "http://www.xbrl.org/2003/linkbase" ∧ x.name.loc = "roleType" ∧ (∃ id, AttrVal x.attrs "id" id ∧ id ≠ "") ∧
  AttrVal x.attrs "roleURI" r.roleURI ∧ r.roleURI ≠ "" ∧
  ((∃ t, FirstWith (fun k : Xml => k.name.loc = "definition") x.kids t ∧ r.title = t.chars) ∨
    ((∀ k ∈ x.kids, k.name.loc ≠ "definition") ∧ r.title = ""))

/-- The role is declared in the first appinfo of the first annotation of the schema tree `sx`. -/
def RoleIn (sx : Xml) (r : RSet) : Prop :=
  ∃ a i, FirstWith (fun k : Xml => k.name.loc = "annotation") sx.kids a ∧ a.name.space = "http://www.w3.org/2001/XMLSchema" ∧
    FirstWith (fun k : Xml => k.name.loc = "appinfo") a.kids i ∧ i.name.space = "http://www.w3.org/2001/XMLSchema" ∧
    ∃ x ∈ i.kids, DeclaresRole x r

/-- The role is declared by a schema file of the folder that is reachable from its instance. -/
def RoleOfFolder (d : Disk) (r : RSet) : Prop :=
  ∃ root inst l f sx, EntryRoot d root inst ∧ Disc.Reach d.env inst l f ∧ d.read l = some sx ∧ RoleIn sx r

end Telefacts.Hydrate
