import Verif.Spec.Query
import Verif.Spec.Xml
import Verif.Spec.Served
/-! # Specification of the units of an instance file and of facts -/
namespace Telefacts.Server
open Telefacts.Instance Telefacts.Spec Telefacts.Decode Telefacts.Schema Telefacts.Query Telefacts.Render

/-- `u` is the unit that the instance `root` has under the identifier `r`, and the only one. -/
def HasUnit (root : Xml) (r : String) (u : HUnit) : Prop :=
  u.id = r ∧ ∃ y ∈ root.kids, y.name.loc = "unit" ∧ (∃ e, IsUnit y e ∧ UnitOf root.attrs e u) ∧
    ∀ z ∈ root.kids, z.name.loc = "unit" → ∀ e, IsUnit z e → AttrVal e.attrs "id" r → z = y

/-- A unit that is a measure. -/
def Measures (u : HUnit) (n : XName) : Prop := u.measure.chars ≠ "" ∧ u.measure.name = n

/-- A unit that divides. -/
def Divides (u : HUnit) (num den : XName) : Prop :=
  u.measure.chars = "" ∧ u.numerator.chars ≠ "" ∧ u.denominator.chars ≠ "" ∧ u.numerator.name = num ∧ u.denominator.name = den

/-- The fact `x` of the concept `c` is a number with an accuracy; `head`, `core` and `tail` are the digits of its value or, of a
percentage, of the hundredfold value. -/
structure Formatted (site : Site) (x : Xml) (c : Concept) (percent : Bool) (head core tail : String) : Prop where
  present : ¬ IsSet x.attrs "nil"
  text : c.type.loc ≠ "textBlockItemType"
  kind : percent = true ↔ c.type = ⟨"http://www.xbrl.org/dtr/type/numeric", "percentItemType"⟩
  digits : ∃ a amount, Declared x.attrs a ∧ stored a ≠ -2147483647 ∧
    ((percent = true ∧ site.hundred x.inner = some amount) ∨ (percent = false ∧ amount = x.inner)) ∧
    site.digits (stored a) amount ',' = some (head, core, tail)

/-- The texts before and after the digits are those of the entry that the registry has for the measure. -/
structure WithUnit (us : List UtrUnit) (n : XName) (percent : Bool) (head tail : String) (e : FactExpression) : Prop where
  symbol : ∀ m, EntryOf us n m → m.symbol ≠ "" → e.head = m.symbol ++ " " ++ head ∧ e.tail = tail ++ (if percent then "% " else " ")
  name : ∀ m, EntryOf us n m → m.symbol = "" → e.head = head ∧ e.tail = tail ++ (if percent then "% " else " " ++ m.unitName)
  unregistered : (∀ m, ¬ EntryOf us n m) → e.head = head ∧ e.tail = tail ++ (if percent then "%" else "")

end Telefacts.Server
