import Verif.Model.Document
import Verif.Spec.Attr
/-! # Specification of inline documents -/
namespace Telefacts.Document
open Telefacts.Spec

/-- The first attribute with that local name has value `v`. -/
def HasVal (f : InlineFact) (n v : String) : Prop :=
  ∃ a, FirstWith (fun a : XpathAttr => a.name.loc = n) f a ∧ a.value = v

/-- The fact uses name `s`, meaning `x`, and context `c`. -/
def Uses (html : List XpathAttr) (f : InlineFact) (s : String) (x : XName) (c : String) : Prop :=
  HasVal f "name" s ∧ HasVal f "contextRef" c ∧
    ∃ p, ':' ∉ p.toList ∧ s = p ++ ":" ++ x.loc ∧ Bound html p x.space

/-- The prefix of the name of the fact is not declared. -/
def Undeclared (html : List XpathAttr) (f : InlineFact) : Prop :=
  ∃ p l, ':' ∉ p.toList ∧ HasVal f "name" (p ++ ":" ++ l) ∧ ∀ n, ¬ Bound html p n

/-- Neither of the two: there is no name, no prefix or (with a declared prefix) no context. -/
def Malformed (html : List XpathAttr) (f : InlineFact) : Prop :=
  (∀ s, ¬ HasVal f "name" s) ∨ (∃ s, HasVal f "name" s ∧ ':' ∉ s.toList) ∨
    ((∀ c, ¬ HasVal f "contextRef" c) ∧ ∃ p l n, ':' ∉ p.toList ∧ HasVal f "name" (p ++ ":" ++ l) ∧ Bound html p n)

/-- The schedule gives each goroutine the two turns it needs (further turns change nothing). -/
def Complete (facts : List InlineFact) (sched : List Nat) : Prop := ∀ i < facts.length, 2 ≤ sched.count i

end Telefacts.Document
