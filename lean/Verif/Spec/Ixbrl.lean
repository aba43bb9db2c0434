import Verif.Model.Ixbrl
import Verif.Spec.Document
/-! # Specification of inline documents as element trees -/
namespace Telefacts.Ixbrl
open Telefacts.Document

/-- `x` is an element of the file: a root or a child of an element. -/
inductive Elem (ds : List Dom) : Dom → Prop
  | root {x} : x ∈ ds → Elem ds x
  | child {x y} : Elem ds x → y ∈ x.kids → Elem ds y

/-- `x` is the first html element, in document order. -/
inductive First : List Dom → Dom → Prop
  | here {x ds} : x.name.loc = "html" → First (x :: ds) x
  | inner {y ds x} : y.name.loc ≠ "html" → First y.kids x → First (y :: ds) x
  | after {y ds x} : (∀ e, Elem [y] e → e.name.loc ≠ "html") → First ds x → First (y :: ds) x

/-- An inline fact with text or number content. -/
def Simple (x : Dom) : Prop :=
  (x.name.loc = "nonNumeric" ∨ x.name.loc = "nonFraction") ∧ x.name.space = "http://www.xbrl.org/2013/inlineXBRL"

/-- An inline fact (Inline XBRL 1.1: `ix:nonNumeric`, `ix:nonFraction`, `ix:fraction`). -/
def Inline (x : Dom) : Prop :=
  Simple x ∨ (x.name.loc = "fraction" ∧ x.name.space = "http://www.xbrl.org/2013/inlineXBRL")

/-- The namespace declarations in scope at an element: its own, then those of the elements around it. -/
inductive InScope (ds : List Dom) : Dom → String → String → Prop
  | own {x p n} : Elem ds x → Spec.Bound x.attrs p n → InScope ds x p n
  | outer {x y p n} : InScope ds x p n → y ∈ x.kids → (∀ n, ¬ Spec.Bound y.attrs p n) → InScope ds y p n

end Telefacts.Ixbrl
