import Verif.Model.Codec
import Verif.Model.Grid
import Verif.Model.Express
import Verif.Model.Renderable
/-!
# The JSON of renderables and of expressions

pkg/renderables/renderable.go:123 and expressable.go:66 `json.Marshal`. Fields are written in the order in which they are declared;
an embedded slice type is a field named like its type. A nil slice is written as `null`, an empty one as `[]`: nil are only the
footnote grid and the footnotes of a quadrant without rows or columns (factualQuadrant.go:24) and the summation items of a role that
no calculation linkbase has (calculationGrid.go:155).
-/
namespace Telefacts.Json
open Telefacts.Render Telefacts.Catalog

/-- intEncoder on an `int` that is not negative. -/
def ofNat (n : Nat) : Json := .num (decimal n)

/-- labelPack.go:20 -/
def ofPack (p : LanguagePack) : Json := ofMap (p.map fun q => (q.1, .str q.2))

/-- labelPack.go:10 -/
def ofLabel (p : LabelPack) : Json := ofMap (p.map fun q => (q.1, ofPack q.2))

/-- contexts.go:34-47 `ExplicitMember`, `Dimension`, `TypedDomain`; dimensionRelationshipSet.go:33-36 `DRSNode`;
effectiveDomainGrid.go:33-36 `EffectiveDimension` -/
def ofLabelled (href : String) (label : LabelPack) : Json := .obj [("Href", .str href), ("Label", ofLabel label)]

/-- `omitempty` on a pointer. -/
def optional (name : String) : Option Json → List (String × Json)
  | none => []
  | some v => [(name, v)]

/-- contextualQuadrant.go:11-14 -/
def ofMember (c : MemberCell) : Json :=
  .obj (optional "ExplicitMember" (c.explicit.map fun m => ofLabelled m.href m.label) ++
    if c.typedMember = "" then [] else [("TypedMember", .str c.typedMember)])

/-- contextualQuadrant.go:16-21 -/
def ofVoid (c : VoidCell) : Json :=
  .obj ([("IsParenthesized", .bool c.isParenthesized), ("Indentation", ofNat c.indentation),
    ("Dimension", ofLabelled c.dimension.href c.dimension.label)] ++
    optional "TypedDomain" (c.typedDomain.map fun t => ofLabelled t.href t.label))

/-- factualQuadrant.go:7-12 -/
def ofExpression (e : FactExpression) : Json :=
  .obj [("Head", .str e.head), ("Core", .str e.core), ("Tail", .str e.tail), ("InnerHtml", .str e.innerHtml)]

/-- factualQuadrant.go:14 -/
def ofFact (m : MultilingualFact) : Json := ofMap (m.map fun q => (q.1, ofExpression q.2))

/-- factualQuadrant.go:16; `none` would be a panic while rendering (Model/FactText.lean), which never happens (`C57_no_panic`). -/
def ofCell : Option MultilingualFact → Json
  | none => .null
  | some m => ofFact m

/-- A matrix. -/
def ofGrid {α : Type} (f : α → Json) (g : List (List α)) : Json := .arr (g.map fun row => .arr (row.map f))

/-- The last three fields of the grids. -/
def ofQuadrant (q : Quadrant (Option MultilingualFact)) : List (String × Json) :=
  [("FactualQuadrant", ofGrid ofCell q.facts),
   ("FootnoteGrid", if q.facts = [] then .null else ofGrid (fun l => .arr (l.map ofNat)) q.numbers),
   ("Footnotes", if q.facts = [] then .null else .arr (q.footnotes.map .str))]

/-- The embedded fields of the grids. -/
def ofColumns (periods : List LanguagePack) (members : List (List MemberCell)) (voids : List VoidCell) : List (String × Json) :=
  [("PeriodHeaders", .arr (periods.map ofPack)), ("ContextualMemberGrid", ofGrid ofMember members),
   ("VoidQuadrant", .arr (voids.map ofVoid))]

/-- presentationGrid.go:12-16 -/
def ofRow (r : IndentedLabel) : Json :=
  .obj [("Href", .str r.href), ("Label", ofLabel r.label), ("Indentation", ofNat r.indentation)]

/-- presentationGrid.go:18-26 -/
def ofPGrid (g : PGrid (Option MultilingualFact)) : Json :=
  .obj (("IndentedLabels", .arr (g.rows.map ofRow)) :: (ofColumns g.periods g.members g.voids ++ ofQuadrant g.quadrant))

/-- effectiveDomainGrid.go:27-31 -/
def ofPrimary (i : PrimaryItem) : Json :=
  .obj [("Href", .str i.href), ("Label", ofLabel i.label), ("Level", ofNat i.level)]

/-- effectiveDomainGrid.go:40-45 -/
def ofEffective (m : EffectiveMember) : Json :=
  .obj [("Href", .str m.href), ("Label", ofLabel m.label), ("IsDefault", .bool m.isDefault),
    ("IsStrikethrough", .bool m.isStrikethrough)]

/-- effectiveDomainGrid.go:12-25; nothing is ever assigned to `DRSNodes`, which is left out when empty. -/
def ofRootDomain (r : RootDomain (Option MultilingualFact)) : Json :=
  .obj ([("Href", .str r.href), ("Label", ofLabel r.label), ("PrimaryItems", .arr (r.primaryItems.map ofPrimary))] ++
    ofColumns r.periods r.members r.voids ++ ofQuadrant r.quadrant ++
    [("EffectiveDomainGrid", ofGrid (fun l => .arr (l.map ofEffective)) r.domains),
     ("EffectiveDimensions", .arr (r.dimensions.map fun d => ofLabelled d.href d.label))])

/-- dimensionRelationshipSet.go:11-16 -/
def ofHypercube (c : HypercubeConnection) : Json :=
  .obj [("IsClosed", .bool c.isClosed), ("ContextElement", .str c.contextElement), ("IsInclusive", .bool c.isInclusive),
    ("External", .str c.external)]

/-- dimensionRelationshipSet.go:17-20 -/
def ofHypercubeDimension (c : HypercubeDimensionConnection) : Json := .obj [("Order", .str c.order), ("External", .str c.external)]

/-- dimensionRelationshipSet.go:21-26 -/
def ofDimensionDomain (c : DimensionDomainConnection) : Json :=
  .obj [("Order", .str c.order), ("Default", .bool c.default), ("Usable", .bool c.usable), ("External", .str c.external)]

/-- dimensionRelationshipSet.go:27-31 -/
def ofDomainMember (c : DomainMemberConnection) : Json :=
  .obj [("Order", .str c.order), ("Usable", .bool c.usable), ("External", .str c.external)]

/-- dimensionRelationshipSet.go:38-45 -/
def ofDRSLink (l : DRSLink) : Json :=
  .obj ([("SourceHref", .str l.source), ("TargetHref", .str l.target)] ++
    optional "HypercubeConnection" (l.hypercube.map ofHypercube) ++
    optional "HypercubeDimensionConnection" (l.hypercubeDimension.map ofHypercubeDimension) ++
    optional "DimensionDomainConnection" (l.dimensionDomain.map ofDimensionDomain) ++
    optional "DomainMemberConnection" (l.domainMember.map ofDomainMember))

/-- definitionGrid.go:7-10, dimensionRelationshipSet.go:47-50 -/
def ofDGrid (g : DGrid (Option MultilingualFact)) : Json :=
  .obj [("RootDomains", .arr (g.domains.map ofRootDomain)),
    ("DRS", .obj [("Nodes", .arr (g.nodes.map fun n => ofLabelled n.href n.label)), ("Links", .arr (g.links.map ofDRSLink))])]

/-- calculationGrid.go:25-32 -/
def ofContributing (c : Contributing) : Json :=
  .obj [("Sign", .str c.sign), ("Scale", .str c.scale), ("BalanceType", .str c.balance), ("Href", .str c.href),
    ("Label", ofLabel c.label), ("IsSummationItem", .bool c.isSummationItem)]

/-- calculationGrid.go:12-23 -/
def ofSummationItem (i : SummationItem (Option MultilingualFact)) : Json :=
  .obj ([("Href", .str i.href), ("Label", ofLabel i.label), ("BalanceType", .str i.balance)] ++
    ofColumns i.periods i.members i.voids ++ [("ContributingConcepts", .arr (i.contributing.map ofContributing))] ++
    ofQuadrant i.quadrant)

/-- calculationGrid.go:47-58: whether a link of the role is found (`getSummationItems`, Model/Network.lean). -/
def calcFound (role : String) : List (Linkbase.Link Linkbase.CArc) → List (Lb Linkbase.CArc) → Bool
  | _, [] => false
  | links, lb :: lbs =>
    let links := if lb.roleRefs.any (fun r => decide (role = r.roleURI)) then lb.links else links
    if (links.find? fun k => decide (k.role = role)).isSome then true else calcFound role links lbs

/-- calculationGrid.go:34-36; `found`: some calculation linkbase has a link of the role. -/
def ofCGrid (found : Bool) (items : List (SummationItem (Option MultilingualFact))) : Json :=
  .obj [("SummationItems", if found then .arr (items.map ofSummationItem) else .null)]

/-- renderable.go:26-34 -/
def ofRenderable (found : Bool) (r : Renderable (Grids (Option MultilingualFact))) : Json :=
  .obj [("RelationshipSet", ofRSet r.rset), ("Subject", ofSubject r.subject), ("Lang", .arr (r.grids.langs.map .str)),
    ("LabelRoles", .arr (r.grids.roles.map .str)), ("PGrid", ofPGrid r.grids.p), ("DGrid", ofDGrid r.grids.d),
    ("CGrid", ofCGrid found r.grids.c)]

/-- renderable.go:123 -/
def marshalRenderable (found : Bool) (r : Renderable (Grids (Option MultilingualFact))) : List Char := text (ofRenderable found r)

/-- expressable.go:9-19 -/
def ofExpressable (e : Expressable) : Json :=
  .obj [("Href", .str e.href), ("Labels", ofLabel e.labels),
    ("Context", .obj [("Period", ofPack e.period), ("VoidQuadrant", .arr (e.rows.map ofVoid)),
      ("ContextualMemberGrid", ofGrid ofMember e.members)]),
    ("Expression", ofFact e.expression), ("Footnotes", .arr (e.footnotes.map .str))]

/-- expressable.go:66 -/
def marshalExpressable (e : Expressable) : List Char := text (ofExpressable e)

end Telefacts.Json
