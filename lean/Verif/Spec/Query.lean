import Verif.Model.Query
import Verif.Spec.Instance
/-! # Specification of the unit registry, fact lookup and footnotes -/
namespace Telefacts.Query
open Telefacts.Spec Telefacts.Linkbase Telefacts.Instance

/-- `s` is the first text of `l`, empty if there is none. -/
def FirstText (l : List String) (s : String) : Prop := (l = [] ∧ s = "") ∨ ∃ r, l = s :: r

/-- The registry entry of a complete unit element. -/
structure MeasurementOf (u : UtrUnit) (m : Measurement) : Prop where
  unitID : FirstText u.unitID m.unitID ∧ m.unitID ≠ ""
  unitName : FirstText u.unitName m.unitName ∧ m.unitName ≠ ""
  nsUnit : FirstText u.nsUnit m.nsUnit ∧ m.nsUnit ≠ ""
  itemType : FirstText u.itemType m.itemType
  nsItemType : FirstText u.nsItemType m.nsItemType
  itemTypeDate : FirstText u.itemTypeDate m.itemTypeDate
  symbol : FirstText u.symbol m.symbol
  definition : FirstText u.definition m.definition
  baseStandard : FirstText u.baseStandard m.baseStandard
  conversionPresentation : FirstText u.conversionPresentation m.conversionPresentation
  conversionContent : FirstText u.conversionContent m.conversionContent
  status : FirstText u.status m.status
  versionDate : FirstText u.versionDate m.versionDate
  numeratorItemType : FirstText u.numeratorItemType m.numeratorItemType
  nsNumeratorItemType : FirstText u.nsNumeratorItemType m.nsNumeratorItemType
  denominatorItemType : FirstText u.denominatorItemType m.denominatorItemType
  nsDenominatorItemType : FirstText u.nsDenominatorItemType m.nsDenominatorItemType

/-- `m` is the entry of the last complete unit with that namespace and id. -/
def EntryOf (us : List UtrUnit) (n : XName) (m : Measurement) : Prop :=
  ∃ l, Collected MeasurementOf us l ∧ LastWith (fun m => m.nsUnit = n.space ∧ m.unitID = n.loc) l m

/-- The first locator with that label and a fragment refers to the element `id`; without such a locator
the label itself is the id. -/
def RefersIn (ls : List FootnoteLink) (label id : String) : Prop :=
  (∃ l pre, FirstWith (fun l : FootnoteLoc => l.label = label ∧ '#' ∈ l.href.toList)
      (ls.flatMap FootnoteLink.locs) l ∧ l.href = pre ++ "#" ++ id ∧ id ≠ "" ∧ '#' ∉ id.toList) ∨
  ((∀ l ∈ ls.flatMap FootnoteLink.locs, ¬ (l.label = label ∧ '#' ∈ l.href.toList)) ∧ id = label)

def Refers (i : HInstance) (label id : String) : Prop := RefersIn i.footnoteLinks label id

/-- An arc of the link connects the fact `id` to the footnote. -/
def Connects (i : HInstance) (link : FootnoteLink) (id : String) (fn : Footnote) : Prop :=
  fn ∈ link.footnotes ∧ ∃ a ∈ link.arcs, Refers i a.frm id ∧ fn.label = a.to

/-- No arc ends where an arc starts. -/
def Bipartite (arcs : List FootnoteArc) : Prop := ∀ a ∈ arcs, ∀ b ∈ arcs, a.to ≠ b.frm

/-- What is assumed of the `arcs` library: for a bipartite network the root's children are the sources, and
the children of a source are its targets. -/
structure Faithful (tree : List FootnoteArc → RTree) : Prop where
  sources : ∀ arcs, Bipartite arcs → ∀ l, (∃ c ∈ (tree arcs).children, c.locator = l) ↔ ∃ a ∈ arcs, a.frm = l
  targets : ∀ arcs, Bipartite arcs → ∀ c ∈ (tree arcs).children, ∀ l,
    (∃ g ∈ c.children, g.locator = l) ↔ ∃ a ∈ arcs, a.frm = c.locator ∧ a.to = l

end Telefacts.Query
