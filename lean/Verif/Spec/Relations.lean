import Verif.Spec.Domain
import Verif.Spec.Linkbase
/-! # Specification of relationships in the sense of XBRL 2.1 and XBRL Dimensions -/
namespace Telefacts.Linkbase
open Telefacts.Spec

/-- An arc element of the links of a role. -/
def ArcElem (es : List LinkElem) (role : String) (x : List Attr) : Prop := ∃ e ∈ es, HasRole e role ∧ x ∈ e.arcs

/-- A prohibiting arc (XBRL 2.1, 3.5.3.9.7.1). -/
def Prohibits (x : List Attr) : Prop := AttrVal x "use" "prohibited"

/-- The priority of an arc: 0 unless it is given (XBRL 2.1, 3.5.3.9.7.2). -/
def HasPriority (x : List Attr) (p : Int) : Prop := OptVal x "priority" "" ∧ p = 0 ∨ AttrVal x "priority" p.repr

/-- A relationship is in force if an arc element states it and no prohibiting arc of the same relationship has the same or a higher
priority (XBRL 2.1, 3.5.3.9.7.5). Arcs are equivalent if they state the same `a`: all attributes but `use` and `priority`. -/
def InForce {A : Type} (arcOf : List Attr → A → Prop) (es : List LinkElem) (role : String) (a : A) : Prop :=
  ∃ x, ArcElem es role x ∧ arcOf x a ∧ ¬ Prohibits x ∧
    ∀ y, ArcElem es role y → arcOf y a → Prohibits y → ∀ p q, HasPriority x p → HasPriority y q → q < p

/-- The link without the attributes of arcs that have one of the names. -/
def withoutAttrs (names : List String) (e : LinkElem) : LinkElem :=
  { e with arcs := e.arcs.map fun x => x.filter fun a => decide (a.name.loc ∉ names) }

/-- In the links of the role, the locators of the label point at one concept. -/
def LabelFor (es : List LinkElem) (role label href : String) : Prop :=
  '#' ∈ href.toList ∧ (∃ e ∈ es, HasRole e role ∧ ∃ x ∈ e.locs, LocOf x ⟨href, label⟩) ∧
    ∀ e ∈ es, HasRole e role → ∀ x ∈ e.locs, ∀ l, LocOf x l → l.label = label → l.href = href

end Telefacts.Linkbase

namespace Telefacts.Render
open Telefacts.Spec Telefacts.Linkbase

/-- The linkbase with other arcs. -/
def mapArcs {A : Type} (g : A → A) (lb : Lb A) : Lb A :=
  { lb with links := lb.links.map fun k => { k with arcs := k.arcs.map g } }

/-- A hypercube that a primary item has itself or inherits from an item above it (XBRL Dimensions, 2.3.1). `items`: the roots of the
primary items. -/
def InheritsCube (w : Networks) (items : List Node) (net : List Node) (primary dim cube : String) : Prop :=
  HasCube w net primary dim cube ∨
    ∃ t ∈ items, ∃ n, (n = t ∨ Below t n) ∧ HasCube w net (w.href n) dim cube ∧ ∃ x, Below n x ∧ w.href x = primary

/-- `Listed` with the hypercubes that are inherited. -/
structure ListedInherited (w : Networks) (items : List Node) (primary dim : String) (m : EffectiveMember) : Prop where
  label : m.label = w.label m.href
  cube : if m.isStrikethrough = true then ∃ cube, InheritsCube w items w.exclusive primary dim cube
    else ∃ cube, InheritsCube w items w.inclusive primary dim cube
  default : m.isDefault = true → if m.isStrikethrough = true then ∃ dim', DefaultOf w dim' m.href else DefaultOf w dim m.href
  member : m.isDefault = false → HasDomain w dim ∧ DomainMember w m.href

/-- What a tree builder has to return for the arcs of a role: below every node its arcs, and at the top the sources that are no
targets. -/
structure IsForest (arcs : List Arc) (arcrole : String) (root : Node) : Prop where
  tops : ∀ l, (∃ c ∈ root.children, c.locator = l) ↔
    (∃ a ∈ arcs, a.arcrole = arcrole ∧ a.frm = l) ∧ ¬ ∃ a ∈ arcs, a.arcrole = arcrole ∧ a.to = l
  kids : ∀ x, Below root x → ∀ l o, (∃ c ∈ x.children, c.locator = l ∧ c.order = o) ↔
    ∃ a ∈ arcs, a.arcrole = arcrole ∧ a.frm = x.locator ∧ a.to = l ∧ a.order = o

/-- In a list of indented rows, row `j` is a child of row `i`: one level deeper, and everything in between is below row `i`. -/
def ChildRow {α : Type} (level : α → Nat) (rows : List α) (i j : Nat) : Prop :=
  i < j ∧ (∃ x y, rows[i]? = some x ∧ rows[j]? = some y ∧ level y = level x + 1) ∧
    ∀ m x z, i < m → m < j → rows[i]? = some x → rows[m]? = some z → level x < level z

/-- No chain of arcs of the role comes back to where it started. -/
def Acyclic (arcs : List Arc) (arcrole : String) : Prop :=
  ∃ rank : String → Nat, ∀ a ∈ arcs, a.arcrole = arcrole → rank a.frm < rank a.to

/-- An arc element of the role states the relationship. -/
def States (es : List LinkElem) (role arcrole frm to' : String) : Prop := ∃ x, ArcElem es role x ∧ ArcEnds x arcrole frm to'

/-- The attribute is there and not empty. -/
def Given (x : List Attr) (n : String) : Prop := ∃ s, AttrVal x n s ∧ s ≠ ""

end Telefacts.Render
