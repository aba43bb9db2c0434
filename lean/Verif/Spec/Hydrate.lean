import Verif.Model.Hydrate
import Verif.Spec.Instance
import Verif.Spec.Discover
import Verif.Spec.Document
/-! # Specification of the hydration of a folder -/
namespace Telefacts.Hydrate
open Telefacts.Linkbase Telefacts.Schema Telefacts.Instance Telefacts.Decode Telefacts.Spec

/-- Two maps have the same keys, with related values. -/
def Entries {A B : Type} (R : String → A → B → Prop) (m : GoMap String A) (m' : GoMap String B) : Prop :=
  MapWF m' ∧ (∀ k a, mapGet m k = some a → ∃ b, mapGet m' k = some b ∧ R k a b) ∧
    ∀ k b, mapGet m' k = some b → ∃ a, mapGet m k = some a ∧ R k a b

/-- The hydrated schema of a file. -/
def SchemaOf (k : String) (x : SchemaFile) (s : HSchema) : Prop :=
  s.fileName = k ∧ Collected (ConceptOf x.attrs k) x.elements s.concepts

/-- A definition arc, with its flags as the code reads them (C21). -/
def DefArcOf (parse : String → F64 × Bool) (x : List Attr) (a : DArc) : Prop :=
  DArcOf parse x a ∧ a.closed = false ∧ (a.usable = true ↔ ∃ s, AttrVal x "usable" s ∧ BoolText s)

/-- The hydrated linkbase of a file. -/
def LinkbaseOf {A : Type} (arcOf : List Attr → A → Prop) (x : LinkbaseFile) (b : Render.Lb A) : Prop :=
  Collected RoleRefOf x.roleRefs b.roleRefs ∧ Merged arcOf x.links b.links

/-- The hydrated instance of a file. -/
structure InstanceOf (w : World) (fo : Files) (k : String) (x : InstFile) (i : HInstance) : Prop where
  fileName : i.fileName = k
  contexts : ∃ l, Collected (ContextOf (instanceWorld w fo x)) x.contexts l ∧ StableSortedBy Context.id l i.contexts
  units : ∃ l, Collected (UnitOf x.attrs) x.units l ∧ StableSortedBy HUnit.id l i.units
  footnoteLinks : ∃ l, Collected FootnoteLinkOf x.footnoteLinks l ∧ StableSortedBy FootnoteLink.title l i.footnoteLinks
  facts : ∃ l, Collected (FactOf (instanceWorld w fo x)) x.facts l ∧ StableSortedBy Fact.id l i.facts

/-- The contexts of an instance can be hydrated. -/
def Readable (w : World) (fo : Files) (x : InstFile) : Prop :=
  ∀ e ∈ x.contexts, ¬ NoEntity e ∧ ¬ Stuck (instanceWorld w fo x) e

/-- No file of the folder has an empty name. -/
def Named (fo : Files) : Prop :=
  mapGet fo.schemas "" = none ∧ mapGet fo.presentation "" = none ∧ mapGet fo.definition "" = none ∧
    mapGet fo.calculation "" = none ∧ mapGet fo.label "" = none ∧ mapGet fo.instances "" = none

/-- The maps of a folder have every key once. -/
def FilesWF (fo : Files) : Prop :=
  MapWF fo.schemas ∧ MapWF fo.presentation ∧ MapWF fo.definition ∧ MapWF fo.calculation ∧ MapWF fo.label ∧ MapWF fo.instances

/-- The order choices are permutations. -/
structure Fair (w : World) : Prop where
  p : ∀ k m, (w.pOrder k m).Perm m
  d : ∀ k m, (w.dOrder k m).Perm m
  c : ∀ k m, (w.cOrder k m).Perm m
  n : ∀ h m, (w.nsOrder h m).Perm m
  l : ∀ h m, (w.labelOrder h m).Perm m

end Telefacts.Hydrate
