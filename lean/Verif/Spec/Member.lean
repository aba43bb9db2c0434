import Verif.Model.Member
import Verif.Spec.Context
import Verif.Spec.Quadrant
/-! # Specification of dimension rows and member cells -/
namespace Telefacts.Render
open Telefacts.Spec

/-- The member belongs to the row: same dimension, and either no typed domain or the same typed domain. -/
def Matches (v : VoidCell) (m : RelevantMember) : Prop :=
  m.dimension.href = v.dimension.href ∧
    ((m.typedDomain = none ∧ v.typedDomain = none) ∨
      ∃ a b, m.typedDomain = some a ∧ v.typedDomain = some b ∧ a.href = b.href)

/-- The cell shows the member. -/
def Shows (x : MemberCell) (m : RelevantMember) : Prop :=
  (m.typedDomain = none ∧ x.explicit = m.explicit ∧ x.typedMember = "") ∨
  (m.typedDomain ≠ none ∧ x.explicit = none ∧ x.typedMember = m.typedMember)

/-- A member has something to show. -/
def Showable (m : RelevantMember) : Prop :=
  (m.typedDomain = none ∧ m.explicit ≠ none) ∨ (m.typedDomain ≠ none ∧ m.typedMember ≠ "")

/-- A column has an explicit member of the dimension, in its segment or in its scenario. -/
def HasExplicit (ctxs : List RelevantContext) (segment : Bool) (dim : String) : Prop :=
  dim ≠ "" ∧ ∃ c ∈ ctxs, ∃ m ∈ c.members, m.dimension.href = dim ∧ m.isSegment = segment ∧ m.explicit ≠ none

open Classical in
/-- How many rows an explicit dimension has. -/
noncomputable def explicitCount (ctxs : List RelevantContext) (dim : String) : Nat :=
  (if HasExplicit ctxs true dim then 1 else 0) + (if HasExplicit ctxs false dim then 1 else 0)

/-- The rows of the explicit dimensions. -/
structure ExplicitPart (ctxs : List RelevantContext) (rows : List VoidCell) : Prop where
  sorted : (rows.map fun r => r.dimension.href).Pairwise (fun a b => ¬ b < a)
  count : ∀ dim, (rows.map fun r => r.dimension.href).count dim = explicitCount ctxs dim
  plain : ∀ r ∈ rows, r.indentation = 0 ∧ r.isParenthesized = false ∧ r.typedDomain = none
  dimension : ∀ r ∈ rows, ∃ c ∈ ctxs, ∃ m ∈ c.members, m.dimension = r.dimension

/-- A locator at a depth of a tree. -/
inductive NodeAt : Node → Nat → String → Prop
  | here (l o cs) : NodeAt (.mk l o cs) 0 l
  | under (l o cs c k x) : c ∈ cs → NodeAt c k x → NodeAt (.mk l o cs) (k + 1) x

/-- A locator at a depth of one of the trees. -/
def SomeAt (trees : List Node) (k : Nat) (x : String) : Prop := ∃ t ∈ trees, NodeAt t k x

/-- A column has a member of the dimension. -/
def IsDimension (ctxs : List RelevantContext) (href : String) : Prop :=
  href ≠ "" ∧ ∃ c ∈ ctxs, ∃ m ∈ c.members, m.dimension.href = href

/-- A column has a member of the typed domain. -/
def IsTypedDomain (ctxs : List RelevantContext) (href : String) : Prop :=
  ∃ c ∈ ctxs, ∃ m ∈ c.members, m.dimension.href ≠ "" ∧ ∃ t, m.typedDomain = some t ∧ t.href = href

/-- Every dimension and every element of the typed domain trees is that of a member of a column. (An element without
text of its own is not.) -/
def AllKnown (ctxs : List RelevantContext) (trees : List Node) : Prop :=
  (∀ x, SomeAt trees 1 x → IsDimension ctxs x) ∧
  (∀ k x, SomeAt trees (k + 2) x → x = "" ∨ IsTypedDomain ctxs x)

/-- Dimensions with the same href are the same. -/
def CoherentDims (ctxs : List RelevantContext) : Prop :=
  ∀ c ∈ ctxs, ∀ m ∈ c.members, ∀ c' ∈ ctxs, ∀ m' ∈ c'.members, m.dimension.href = m'.dimension.href →
    m.dimension = m'.dimension

end Telefacts.Render
