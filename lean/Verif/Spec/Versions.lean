import Verif.Spec.Cache
/-! # Specification of servers whose files change while they run -/
namespace Telefacts.Cache
variable {H B S : Type}

/-- Two versions of the files: what is made of a folder once it is loaded is the same function. -/
structure SameRest (a b : Backend H B S) : Prop where
  catalog : a.catalog = b.catalog
  renderable : a.renderable = b.renderable
  express : a.express = b.express
  entryName : a.entryName = b.entryName
  docBytes : a.docBytes = b.docBytes

/-- Nothing is going on. -/
def Quiet (s : State H B S) : Prop := s.threads = [] ∧ s.pending = []

/-- Histories of a server whose files are changed, any number of times; a change happens when nothing is going on. The versions
are listed latest first. -/
inductive Phases (allowed : Req → Prop) : List (Backend H B S) → State H B S → Prop
  | first (be s) : be.Sane → Steps be false allowed State.init s → Phases allowed [be] s
  | change (be be' bs s t) : Phases allowed (be :: bs) s → Quiet s → be'.Sane → SameRest be be' → Steps be' false allowed s t →
      Phases allowed (be' :: be :: bs) t

/-- An answer that a server without cache could give for a version of the files, but that the body of an error may be repeated as a
success and that an error may become a panic (C60, C61). -/
def AnswersAs (be : Backend H B S) (r : Req) (o : Out H B S) : Prop :=
  Direct be r o ∨ (∃ b e, o = .ret (.bytes b) none ∧ Direct be r (.ret (.bytes b) (some e))) ∨
  (o = .panic ∧ ∃ e, Direct be r (.ret (.bytes none) (some e)))

end Telefacts.Cache
