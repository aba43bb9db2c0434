import Verif.Model.Threads
/-!
# Specification of data races
-/
namespace Telefacts.Spec
open Telefacts.Threads

/-- The access `a` is the next thing one of the goroutines does. -/
def Next {A M : Type} : Conf A M → A → Prop
  | .run (.act b _), a => a = b
  | .run _, _ => False
  | .inside _ [] _, _ => False
  | .inside _ (b :: _) _, a => a = b
  | .wait l r _, a => Next l a ∨ Next r a

/-- Two goroutines are both about to do an access, and the two accesses conflict. -/
def Racing {A M : Type} (cf : A → A → Prop) : Conf A M → Prop
  | .wait l r _ => (∃ a b, Next l a ∧ Next r b ∧ cf a b) ∨ Racing cf l ∨ Racing cf r
  | _ => False

/-- The program has a data race: some execution gets there. -/
def Racy {A M : Type} (cf : A → A → Prop) (p : Prog A M) : Prop := ∃ t c, Runs p t c ∧ Racing cf c

/-- All goroutines are done. -/
def Finished {A M : Type} (c : Conf A M) : Prop := c = .run .done

/-- The goroutines cannot get stuck: from wherever an execution gets, it can be continued to the end. -/
def NeverStuck {A M : Type} (p : Prog A M) : Prop :=
  ∀ t c, Runs p t c → ∃ u d, Steps (fun _ => False) c u d ∧ Finished d

end Telefacts.Spec
