import Verif.Spec.Document
import Verif.Spec.Context
import Verif.Spec.EndToEnd
import Verif.Spec.Server
import Verif.Model.Process
/-! # What brings the server down (C154) -/
namespace Telefacts.Spec
open Telefacts.Linkbase Telefacts.Schema Telefacts.Instance Telefacts.Render Telefacts.Hydrate Telefacts.Document Telefacts.Server Telefacts.Decode

/-- The goroutines of an inline document can panic: some text fact is malformed, or some number is and the text facts are all
in order. -/
def UnsafeDocument (x : DocFile) : Prop :=
  (∃ np, newNameProvider x.html = .ok np) ∧
    ((∃ f ∈ x.nonNumerics, Malformed x.html f) ∨
      ((∃ f ∈ x.nonFractions, Malformed x.html f) ∧ ∀ f ∈ x.nonNumerics, ∃ s n c, Uses x.html f s n c))

/-- A fact of a concrete concept refers to a context that its instance does not have. -/
def Astray (f : Folder) (i : HInstance) (fact : Fact) : Prop :=
  fact ∈ i.facts ∧ (∃ c, f.concept fact.href = some c ∧ c.abstract = false) ∧ ∀ c ∈ i.contexts, c.id ≠ fact.contextRef

/-- Every fact of the instance refers to a context that is there and says whom it is about. -/
def ContextsThere (root : Xml) : Prop :=
  ∀ x ∈ root.kids, ¬ Reserved x.name.loc → ∀ r, AttrVal x.attrs "contextRef" r → r ≠ "" →
    ∃ y ∈ root.kids, y.name.loc = "context" ∧ ∃ e ent s i, IsContext y e ∧ Identified e ent r s i

/-- No context of the instance has typed members. -/
def NoTyped (root : Xml) : Prop :=
  ∀ y ∈ root.kids, y.name.loc = "context" → ∀ e, IsContext y e → ∀ ent, ent ∈ e.entities → ∀ d, d ∈ ent.segments ∨ d ∈ e.scenarios →
    d.typed = []

/-- The inline document of the folder, if it has one, has no malformed facts. -/
def InlineSound (d : Disk) : Prop :=
  ∀ name, d.entryName = some name → Disc.Inline name → ∀ x, d.doc name = some (some x) → ¬ UnsafeDocument x

end Telefacts.Spec
