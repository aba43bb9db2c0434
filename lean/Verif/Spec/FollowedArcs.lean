import Verif.Spec.Served
import Verif.Spec.GridLabels
import Verif.Spec.Relations
import Verif.Spec.GridJson
/-! # Specification of what a client that follows the catalog finds of the arcs of linkbases -/
namespace Telefacts.Hydrate
open Telefacts.Linkbase Telefacts.Schema Telefacts.Decode Telefacts.Render

/-- The linkbase has a reference to the role. -/
def RefersTo (file : LinkbaseFile) (role : String) : Prop := ∃ r ∈ file.roleRefs, ∃ rr, RoleRefOf r rr ∧ rr.roleURI = role

/-- `file` is a linkbase of the kind that a schema in reach refers to, under the name; it refers to the role and has a link of it. -/
def HeldBy (d : Disk) (kind : Disc.LKind) (role name : String) (file : LinkbaseFile) : Prop :=
  (∃ x, LinkedFile d kind name x ∧ IsLinkbase kind x file) ∧ RefersTo file role ∧ ∃ e ∈ file.links, HasRole e role

/-- ... and it is the only one. -/
def OnlyHeldBy (d : Disk) (kind : Disc.LKind) (role : String) (file : LinkbaseFile) : Prop :=
  ∃ name, HeldBy d kind role name file ∧ ∀ name' file', HeldBy d kind role name' file' → name' = name

/-- A schema in reach declares a concept, with its name and its id for itself, that the href stands for. -/
def KnownConcept (d : Disk) (web : String → Option SchemaFile) (href : String) : Prop :=
  ∃ key inst c l sx, Disc.EntryInstance d.env key inst ∧ SchemaAt d web inst c.name.space l sx ∧ DeclaredIn sx l c ∧ Distinct sx l c ∧
    href = l ++ "#" ++ c.id

/-- No order of the role is read as NaN. -/
def OrdersGood (parse : String → F64 × Bool) (es : List LinkElem) (role : String) : Prop :=
  ∀ x, ArcElem es role x → ∀ s, AttrVal x "order" s → (parse s).1 ≠ .nan

/-- The labels of the arc stand for one concept each. -/
def LabelsGood (es : List LinkElem) (role : String) : Prop :=
  ∀ x, ArcElem es role x → ∀ arcrole frm dest, ArcEnds x arcrole frm dest →
    (∃ h, LabelFor es role frm h) ∧ ∃ h, LabelFor es role dest h

/-- The presentation arcs of the role. -/
def ArcsOfRole (parse : String → F64 × Bool) (es : List LinkElem) (role : String) (arcs : List Arc) : Prop :=
  ∀ a, a ∈ arcs ↔ ∃ x pa, ArcElem es role x ∧ PArcOf parse x pa ∧ a = ⟨pa.arcrole, pa.order, pa.frm, pa.to⟩

/-- What the tree builder makes of the presentation arcs of the role is their forest. -/
def TreeGood (tree : List Arc → String → Node) (parse : String → F64 × Bool) (es : List LinkElem) (role : String) : Prop :=
  ∀ arcs, ArcsOfRole parse es role arcs → IsForest arcs "http://www.xbrl.org/2003/arcrole/parent-child"
    (tree arcs "http://www.xbrl.org/2003/arcrole/parent-child")

/-- The parent-child arcs of the role have no cycle. -/
def NoCycle (es : List LinkElem) (role : String) : Prop :=
  ∃ rank : String → Nat, ∀ x, ArcElem es role x → ∀ frm dest,
    ArcEnds x "http://www.xbrl.org/2003/arcrole/parent-child" frm dest → rank frm < rank dest

end Telefacts.Hydrate

namespace Telefacts.Json
open Telefacts.Render

/-- Row `i` of the presentation grid is that of `href`, at level `n`. -/
def LevelRow (v : Json) (i : Nat) (href : String) (n : Nat) : Prop :=
  At v [.key "PGrid", .key "IndentedLabels", .idx i, .key "Href"] (.str href) ∧
    ∃ x, At v [.key "PGrid", .key "IndentedLabels", .idx i, .key "Indentation"] x ∧ Numeral x n

/-- Row `j` is a child of row `i`: one level deeper, and everything in between is below row `i`. -/
def RowBelow (v : Json) (i j : Nat) : Prop :=
  i < j ∧ (∃ h h' n, LevelRow v i h n ∧ LevelRow v j h' (n + 1)) ∧ ∀ m h h' n k, i < m → m < j → LevelRow v i h n → LevelRow v m h' k → n < k

/-- Under the item of `h1` the contribution of `h2` is shown with a sign and a scale. -/
def SummandShown (v : Json) (h1 h2 sign scale : String) : Prop :=
  ∃ i j, At v [.key "CGrid", .key "SummationItems", .idx i, .key "Href"] (.str h1) ∧
    At v [.key "CGrid", .key "SummationItems", .idx i, .key "ContributingConcepts", .idx j, .key "Href"] (.str h2) ∧
    At v [.key "CGrid", .key "SummationItems", .idx i, .key "ContributingConcepts", .idx j, .key "Sign"] (.str sign) ∧
    At v [.key "CGrid", .key "SummationItems", .idx i, .key "ContributingConcepts", .idx j, .key "Scale"] (.str scale)

/-- Link number `i` of the dimensional relationship set. -/
def LinkAt (v : Json) (i : Nat) (l : DRSLink) : Prop :=
  ∃ x, At v [.key "DGrid", .key "DRS", .key "Links", .idx i] x ∧ LinkText x l

end Telefacts.Json
