import Verif.Model.Query
import Verif.Model.Fnv
/-!
# pkg/renderables/catalog.go, relationshipSet.go and the selection in renderable.go

`h.Instances` and `h.Schemas` are passed as the lists of their values in iteration order. The JSON encoding is
in Model/Codec.lean.
-/
namespace Telefacts.Catalog
open Telefacts.Instance Telefacts.Schema

/-- renderable.go:21-24 -/
structure Entity where
  scheme : String
  chars : String
deriving DecidableEq, Repr

/-- renderable.go:11-14 -/
structure RSet where
  title : String
  roleURI : String
deriving DecidableEq, Repr

/-- contexts.go:145-158 -/
def allEntities (insts : List HInstance) : List Entity :=
  (insts.flatMap HInstance.contexts).filterMap fun c =>
    if c.scheme ≠ "" ∧ c.ident ≠ "" then some ⟨c.scheme, c.ident⟩ else none

/-- contexts.go:144-172 `dedupEntities` -/
def dedupEntities (insts : List HInstance) : List Entity := dedup (allEntities insts)

/-- contexts.go:176-181: the comparison. -/
def entityLess (a b : Entity) : Bool :=
  if a.scheme = b.scheme then decide (a.chars < b.chars) else decide (a.scheme < b.scheme)

/-- contexts.go:174-183 `sortedEntities` -/
def sortedEntities (insts : List HInstance) : List Entity := stableSort entityLess (dedupEntities insts)

/-- contexts.go:185-190 `stringify` -/
def stringify (e : Entity) : String := e.scheme ++ "/" ++ e.chars

/-- relationshipSet.go:21-35 -/
def allRSets (schemas : List HSchema) : List RSet :=
  (schemas.flatMap HSchema.roleTypes).filterMap fun r =>
    if r.roleURI ≠ "" then some ⟨r.definition, r.roleURI⟩ else none

/-- relationshipSet.go:20-48 `dedupRelationshipSets` -/
def dedupRSets (schemas : List HSchema) : List RSet := dedup (allRSets schemas)

/-- relationshipSet.go:11-16: the comparison. -/
def rsetLess (a b : RSet) : Bool :=
  if a.title = b.title then decide (a.roleURI < b.roleURI) else decide (a.title < b.title)

/-- relationshipSet.go:9-18 `sortedRelationshipSets` -/
def sortedRSets (schemas : List HSchema) : List RSet := stableSort rsetLess (dedupRSets schemas)

/-- catalog.go:53-57 `hash` -/
def slug (entity roleURI title : String) : String := fnvHex (entity ++ roleURI ++ title)

/-- catalog.go:29-33: the slugs of one entity. -/
def entityNetworks (entity : String) (rsets : List RSet) : GoMap String String :=
  rsets.foldl (fun m r => mapSet m r.roleURI (slug entity r.roleURI r.title)) []

/-- catalog.go:27-44: `Networks`. -/
def networks (ents : List Entity) (rsets : List RSet) : GoMap String (GoMap String String) :=
  ents.foldl (fun m e => mapSet m (stringify e) (entityNetworks (stringify e) rsets)) []

/-- renderable.go:16-19 -/
structure Subject where
  name : String
  entity : Entity
deriving DecidableEq, Repr

/-- catalog.go:34-43 (and renderable.go:93-98): the display name; an error of `EntityQuery` is ignored. -/
def subjectName (query : String → String → Res String) (e : Entity) : String :=
  match query e.scheme e.chars with
  | .ok n => n
  | _ => e.scheme ++ "/" ++ e.chars

/-- catalog.go:11-16 -/
structure Catalog where
  subjects : List Subject
  rsets : List RSet
  networks : GoMap String (GoMap String String)
  documentName : String
deriving DecidableEq, Repr

/-- catalog.go:18-51 `MarshalCatalog` before encoding; `entryFileName` is `none` without inline document. -/
def catalog (query : String → String → Res String) (insts : List HInstance) (schemas : List HSchema)
    (entryFileName : Option String) : Catalog where
  subjects := (sortedEntities insts).map fun e => ⟨subjectName query e, e⟩
  rsets := sortedRSets schemas
  networks := networks (sortedEntities insts) (sortedRSets schemas)
  documentName := entryFileName.getD ""

/-- renderable.go:39-43: the first entity and relationship set with that slug. -/
def select (wanted : String) (ents : List Entity) (rsets : List RSet) : Option (Entity × RSet) :=
  (ents.flatMap fun e => rsets.map fun r => (e, r)).find?
    fun p => decide (wanted = slug (stringify p.1) p.2.roleURI p.2.title)

end Telefacts.Catalog
