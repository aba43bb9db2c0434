import Verif.Model.Setup
/-! # Specification of the set-up -/
namespace Telefacts.Server

/-- The mode that a call asks for. -/
def Call.mode : Call → Option Bool
  | .newCache d => some d
  | .injectNew d => some d
  | .inject _ => none

/-- Does the call inject something? -/
def Call.injects : Call → Bool
  | .newCache _ => false
  | _ => true

/-- A cache has been made. -/
def Made (cs : List Call) : Prop := ∃ c ∈ cs, c.mode = some false

/-- The last mode asked for is dry. -/
def EndsDry (cs : List Call) : Prop := ∃ pre c post, cs = pre ++ c :: post ∧ c.mode = some true ∧ ∀ x ∈ post, x.mode = none

/-- What was injected last is a cache. -/
def Injected (cs : List Call) : Prop :=
  ∃ pre c post, cs = pre ++ c :: post ∧ (∀ x ∈ post, x.injects = false) ∧
    (c = .inject true ∨ c = .injectNew false ∨ (c = .injectNew true ∧ Made pre))

/-- Something can be served. -/
def Usable (cs : List Call) : Prop := Injected cs ∧ (EndsDry cs ∨ Made cs)

end Telefacts.Server
