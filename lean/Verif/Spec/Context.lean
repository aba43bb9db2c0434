import Verif.Model.Context
import Verif.Spec.Basic
/-! # Specification of the columns of a grid -/
namespace Telefacts.Render
open Telefacts.Instance Telefacts.Spec

/-- The href of a row whose concept exists and is not abstract. -/
def ConcreteRow (f : Folder) (hrefs : List String) (href : String) : Prop :=
  href ∈ hrefs ∧ ∃ c, f.concept href = some c ∧ c.abstract = false

/-- The context of an instance with an identifier. -/
def ContextOf (i : HInstance) (ref : String) (c : Context) : Prop := FirstWith (fun c => c.id = ref) i.contexts c

/-- The context is that of the entity. -/
def OfEntity (entity : String) (c : Context) : Prop := c.scheme ++ "/" ++ c.ident = entity

/-- The context has a fact of the instance for a concrete row. -/
def HasFactFor (f : Folder) (hrefs : List String) (i : HInstance) (c : Context) : Prop :=
  ∃ fact ∈ i.facts, ConcreteRow f hrefs fact.href ∧ ContextOf i fact.contextRef c

/-- A fact for a concrete row refers to a context that the instance does not have. -/
def Dangling (f : Folder) (hrefs : List String) (i : HInstance) : Prop :=
  ∃ fact ∈ i.facts, ConcreteRow f hrefs fact.href ∧ ∀ c ∈ i.contexts, c.id ≠ fact.contextRef

/-- The raw text of the period of a context. -/
def RawPeriod (c : Context) (t : String) : Prop :=
  (c.startDate ≠ "" ∧ c.endDate ≠ "" ∧ t = c.startDate ++ "/" ++ c.endDate) ∨
  (¬ (c.startDate ≠ "" ∧ c.endDate ≠ "") ∧ t = c.instant)

/-- A member of a column: that of an explicit or typed member of the context. -/
def MemberOf (f : Folder) (c : Context) (m : RelevantMember) : Prop :=
  (∃ e ∈ c.segment.explicit, m.isSegment = true ∧ m.dimension = ⟨e.dimHref, f.label e.dimHref⟩ ∧
    m.explicit = some ⟨e.memHref, f.label e.memHref⟩ ∧ m.typedDomain = none ∧ m.typedMember = "") ∨
  (∃ e ∈ c.scenario.explicit, m.isSegment = false ∧ m.dimension = ⟨e.dimHref, f.label e.dimHref⟩ ∧
    m.explicit = some ⟨e.memHref, f.label e.memHref⟩ ∧ m.typedDomain = none ∧ m.typedMember = "") ∨
  (∃ t, (t ∈ c.segment.typed ∨ t ∈ c.scenario.typed) ∧ ∃ d v, (d, v) ∈ t.members ∧ m.isSegment = false ∧
    m.dimension = ⟨t.dimHref, f.label t.dimHref⟩ ∧ m.explicit = none ∧ m.typedDomain = some ⟨d, f.label d⟩ ∧
    m.typedMember = v)

/-- The column of a context. -/
def ColumnOf (f : Folder) (c : Context) (col : RelevantContext) : Prop :=
  col.contextRef = c.id ∧ (∃ t, RawPeriod c t ∧ col.period = [("Unlabelled", t)]) ∧
    ∀ m, m ∈ col.members ↔ MemberOf f c m

/-- What the first member of a column is ordered by: segment before scenario; typed, nothing, explicit; the domain and
value of a typed member, the href of an explicit one. -/
def memberKey (m : RelevantMember) : Nat × Nat × String × String :=
  (if m.isSegment then 0 else 1,
    match m.typedDomain, m.explicit with
    | some d, _ => (0, d.href, m.typedMember)
    | none, none => (1, "", "")
    | none, some e => (2, e.href, ""))

/-- The text under `Unlabelled`. -/
def rawText (p : LanguagePack) : String :=
  match p.find? (fun e => decide (e.1 = "Unlabelled")) with
  | some e => e.2
  | none => ""

/-- What columns are ordered by: the raw period, the number of members, the first member. -/
def columnKey (c : RelevantContext) : String × Nat × Nat × Nat × String × String :=
  (rawText c.period, c.members.length,
    match c.members with
    | m :: _ => memberKey m
    | [] => (0, 0, "", ""))

/-- The order of columns. -/
def ColumnBefore : String × Nat × Nat × Nat × String × String → String × Nat × Nat × Nat × String × String → Prop :=
  Lexi (· < ·) (Lexi (· < ·) (Lexi (· < ·) (Lexi (· < ·) (Lexi (· < ·) (· < ·)))))

end Telefacts.Render
