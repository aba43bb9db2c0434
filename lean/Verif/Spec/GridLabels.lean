import Verif.Spec.EndToEnd
import Verif.Spec.Label
/-! # Specification of the labels that stand in grids -/
namespace Telefacts.Hydrate
open Telefacts.Linkbase Telefacts.Decode Telefacts.Spec Telefacts.Render

/-- `x` is the tree of a linkbase of the kind that a schema of the folder refers to as `name`. -/
def LinkedFile (d : Disk) (kind : Disc.LKind) (name : String) (x : Xml) : Prop :=
  (∃ key inst loc f, Disc.EntryInstance d.env key inst ∧ Disc.Reach d.env inst loc f ∧ Disc.LinkIn d.env f kind name) ∧
    d.read name = some x ∧ x.name.loc = "linkbase"

/-- The label link `link` gives the concept `href` the text `t` in the role and language. -/
def GivesLabel (link : Xml) (href role lang t : String) : Prop :=
  link.name.loc = "labelLink" ∧ XlinkVal link.attrs "type" "extended" ∧ (∃ r, AttrVal link.attrs "role" r ∧ r ≠ "") ∧
    ∃ loc ∈ link.kids, ∃ arc ∈ link.kids, ∃ res ∈ link.kids, ∃ a l,
      loc.name.loc = "loc" ∧ LocOf loc.attrs ⟨href, a⟩ ∧
      arc.name.loc = "labelArc" ∧ ArcEnds arc.attrs "http://www.xbrl.org/2003/arcrole/concept-label" a l.label ∧
      res.name.loc = "label" ∧ LabelOf (res.attrs, res.chars) l ∧ HasLabelRole l role ∧ InLang l lang ∧ t = res.chars

/-- A label linkbase of the folder gives the concept `href` the text `t` in the role and language. -/
def HasLabel (d : Disk) (href role lang t : String) : Prop :=
  ∃ name x, LinkedFile d .lab name x ∧ ∃ link ∈ x.kids, GivesLabel link href role lang t

end Telefacts.Hydrate

namespace Telefacts.Render

/-- The label stands beside the href at the left or the top of a grid. -/
inductive InColumns (members : List (List MemberCell)) (voids : List VoidCell) : String → LabelPack → Prop
  | dimension (v : VoidCell) : v ∈ voids → InColumns members voids v.dimension.href v.dimension.label
  | typed (v : VoidCell) (t : Labelled) : v ∈ voids → v.typedDomain = some t → InColumns members voids t.href t.label
  | member (row : List MemberCell) (x : MemberCell) (e : Labelled) : row ∈ members → x ∈ row → x.explicit = some e →
      InColumns members voids e.href e.label

/-- The label stands beside the href in the grids of a renderable. -/
inductive InGrids {Φ : Type} (g : Grids Φ) : String → LabelPack → Prop
  | row (r : IndentedLabel) : r ∈ g.p.rows → InGrids g r.href r.label
  | columns (h : String) (p : LabelPack) : InColumns g.p.members g.p.voids h p → InGrids g h p
  | root (r : RootDomain Φ) : r ∈ g.d.domains → InGrids g r.href r.label
  | primary (r : RootDomain Φ) (i : PrimaryItem) : r ∈ g.d.domains → i ∈ r.primaryItems → InGrids g i.href i.label
  | effective (r : RootDomain Φ) (row : List (List EffectiveMember)) (dom : List EffectiveMember) (m : EffectiveMember) :
      r ∈ g.d.domains → row ∈ r.domains → dom ∈ row → m ∈ dom → InGrids g m.href m.label
  | dim (r : RootDomain Φ) (x : EffectiveDimension) : r ∈ g.d.domains → x ∈ r.dimensions → InGrids g x.href x.label
  | rootColumns (r : RootDomain Φ) (h : String) (p : LabelPack) : r ∈ g.d.domains → InColumns r.members r.voids h p → InGrids g h p
  | node (n : DRSNode) : n ∈ g.d.nodes → InGrids g n.href n.label
  | sum (i : SummationItem Φ) : i ∈ g.c → InGrids g i.href i.label
  | part (i : SummationItem Φ) (c : Contributing) : i ∈ g.c → c ∈ i.contributing → InGrids g c.href c.label
  | sumColumns (i : SummationItem Φ) (h : String) (p : LabelPack) : i ∈ g.c → InColumns i.members i.voids h p → InGrids g h p

end Telefacts.Render
