import Mathlib.Data.List.Forall2
import Verif.Spec.Codec
import Verif.Spec.Context
import Verif.Spec.Quadrant
import Verif.Model.Grid
import Verif.Model.Express
import Verif.Model.Renderable
/-!
# Specification of the JSON of renderables and expressions

What a client finds in a JSON value, member by member (`Member`) and element by element.
-/
namespace Telefacts.Json
open Telefacts.Render Telefacts.Catalog

/-- There is no member of that name. -/
def Absent (v : Json) (k : String) : Prop := ∃ l, v = .obj l ∧ ∀ q ∈ l, q.1 ≠ k

/-- A member that is left out if there is nothing to say. -/
def Optionally {α : Type} (R : Json → α → Prop) (v : Json) (k : String) : Option α → Prop
  | none => Absent v k
  | some a => ∃ x, Member v k x ∧ R x a

/-- An array with one element for each. -/
def Elems {α : Type} (R : Json → α → Prop) (v : Json) (l : List α) : Prop := ∃ js, v = .arr js ∧ List.Forall₂ R js l

/-- A string. -/
def IsStr (v : Json) (s : String) : Prop := v = .str s

/-- A number. -/
def Numeral (v : Json) (n : Nat) : Prop :=
  ∃ ds, v = .num ds ∧ (∀ c ∈ ds, 48 ≤ c.toNat ∧ c.toNat ≤ 57) ∧ ds.foldl (fun a c => a * 10 + (c.toNat - 48)) 0 = n

/-- An object with a text for every language. -/
def PackText (v : Json) (p : LanguagePack) : Prop := ∀ k x, Member v k x ↔ ∃ s, x = .str s ∧ (k, s) ∈ p

/-- An object with the texts of every role. -/
def LabelText (v : Json) (p : LabelPack) : Prop :=
  (∀ r q, (r, q) ∈ p → ∃ x, Member v r x ∧ PackText x q) ∧ ∀ r x, Member v r x → ∃ q, (r, q) ∈ p

/-- A reference with its labels. -/
def LabelledText (v : Json) (href : String) (label : LabelPack) : Prop :=
  Member v "Href" (.str href) ∧ ∃ x, Member v "Label" x ∧ LabelText x label

/-- A cell of the member grid: an empty typed member is not distinguished from none. -/
def MemberText (v : Json) (c : MemberCell) : Prop :=
  Optionally (fun x (m : Labelled) => LabelledText x m.href m.label) v "ExplicitMember" c.explicit ∧
    ((c.typedMember ≠ "" ∧ Member v "TypedMember" (.str c.typedMember)) ∨ (c.typedMember = "" ∧ Absent v "TypedMember"))

/-- A header of the member grid. -/
def VoidText (v : Json) (c : VoidCell) : Prop :=
  Member v "IsParenthesized" (.bool c.isParenthesized) ∧ (∃ x, Member v "Indentation" x ∧ Numeral x c.indentation) ∧
    (∃ x, Member v "Dimension" x ∧ LabelledText x c.dimension.href c.dimension.label) ∧
    Optionally (fun x (m : Labelled) => LabelledText x m.href m.label) v "TypedDomain" c.typedDomain

/-- The text of a fact in a language. -/
def ExpressionText (v : Json) (e : FactExpression) : Prop :=
  Member v "Head" (.str e.head) ∧ Member v "Core" (.str e.core) ∧ Member v "Tail" (.str e.tail) ∧ Member v "InnerHtml" (.str e.innerHtml)

/-- The texts of a fact in all languages. -/
def FactText (v : Json) (m : MultilingualFact) : Prop :=
  (∀ lang e, (lang, e) ∈ m → ∃ x, Member v lang x ∧ ExpressionText x e) ∧ ∀ lang x, Member v lang x → ∃ e, (lang, e) ∈ m

/-- A cell of the factual quadrant, which is never `null`. -/
def CellText (v : Json) (c : Option MultilingualFact) : Prop := ∃ m, c = some m ∧ FactText v m

/-- Facts and footnotes. -/
def QuadrantText (v : Json) (q : Quadrant (Option MultilingualFact)) : Prop :=
  (∃ x, Member v "FactualQuadrant" x ∧ Elems (Elems CellText) x q.facts) ∧
  (∃ x, Member v "FootnoteGrid" x ∧ ((q.facts = [] ∧ x = .null) ∨ (q.facts ≠ [] ∧ Elems (Elems (Elems Numeral)) x q.numbers))) ∧
  ∃ x, Member v "Footnotes" x ∧ ((q.facts = [] ∧ x = .null) ∨ (q.facts ≠ [] ∧ Elems IsStr x q.footnotes))

/-- Headers, members and their headers. -/
def ColumnsText (v : Json) (periods : List LanguagePack) (members : List (List MemberCell)) (voids : List VoidCell) : Prop :=
  (∃ x, Member v "PeriodHeaders" x ∧ Elems PackText x periods) ∧
  (∃ x, Member v "ContextualMemberGrid" x ∧ Elems (Elems MemberText) x members) ∧
  ∃ x, Member v "VoidQuadrant" x ∧ Elems VoidText x voids

/-- A row of a presentation grid. -/
def RowText (v : Json) (r : IndentedLabel) : Prop :=
  LabelledText v r.href r.label ∧ ∃ x, Member v "Indentation" x ∧ Numeral x r.indentation

/-- A presentation grid. -/
def PGridText (v : Json) (g : PGrid (Option MultilingualFact)) : Prop :=
  (∃ x, Member v "IndentedLabels" x ∧ Elems RowText x g.rows) ∧ ColumnsText v g.periods g.members g.voids ∧ QuadrantText v g.quadrant

/-- A primary item. -/
def PrimaryText (v : Json) (i : PrimaryItem) : Prop :=
  LabelledText v i.href i.label ∧ ∃ x, Member v "Level" x ∧ Numeral x i.level

/-- A member of an effective domain. -/
def EffectiveText (v : Json) (m : EffectiveMember) : Prop :=
  LabelledText v m.href m.label ∧ Member v "IsDefault" (.bool m.isDefault) ∧ Member v "IsStrikethrough" (.bool m.isStrikethrough)

/-- A root domain. -/
def RootText (v : Json) (r : RootDomain (Option MultilingualFact)) : Prop :=
  LabelledText v r.href r.label ∧ (∃ x, Member v "PrimaryItems" x ∧ Elems PrimaryText x r.primaryItems) ∧
  ColumnsText v r.periods r.members r.voids ∧ QuadrantText v r.quadrant ∧
  (∃ x, Member v "EffectiveDomainGrid" x ∧ Elems (Elems (Elems EffectiveText)) x r.domains) ∧
  ∃ x, Member v "EffectiveDimensions" x ∧ Elems (fun y (d : EffectiveDimension) => LabelledText y d.href d.label) x r.dimensions

/-- A link of the dimensional relationship set. -/
def LinkText (v : Json) (l : DRSLink) : Prop :=
  Member v "SourceHref" (.str l.source) ∧ Member v "TargetHref" (.str l.target) ∧
  Optionally (fun x (c : HypercubeConnection) => Member x "IsClosed" (.bool c.isClosed) ∧ Member x "ContextElement" (.str c.contextElement) ∧
    Member x "IsInclusive" (.bool c.isInclusive) ∧ Member x "External" (.str c.external)) v "HypercubeConnection" l.hypercube ∧
  Optionally (fun x (c : HypercubeDimensionConnection) => Member x "Order" (.str c.order) ∧ Member x "External" (.str c.external))
    v "HypercubeDimensionConnection" l.hypercubeDimension ∧
  Optionally (fun x (c : DimensionDomainConnection) => Member x "Order" (.str c.order) ∧ Member x "Default" (.bool c.default) ∧
    Member x "Usable" (.bool c.usable) ∧ Member x "External" (.str c.external)) v "DimensionDomainConnection" l.dimensionDomain ∧
  Optionally (fun x (c : DomainMemberConnection) => Member x "Order" (.str c.order) ∧ Member x "Usable" (.bool c.usable) ∧
    Member x "External" (.str c.external)) v "DomainMemberConnection" l.domainMember

/-- A definition grid. -/
def DGridText (v : Json) (g : DGrid (Option MultilingualFact)) : Prop :=
  (∃ x, Member v "RootDomains" x ∧ Elems RootText x g.domains) ∧
  ∃ x, Member v "DRS" x ∧ (∃ y, Member x "Nodes" y ∧ Elems (fun z (n : DRSNode) => LabelledText z n.href n.label) y g.nodes) ∧
    ∃ y, Member x "Links" y ∧ Elems LinkText y g.links

/-- A contribution. -/
def ContributingText (v : Json) (c : Contributing) : Prop :=
  LabelledText v c.href c.label ∧ Member v "Sign" (.str c.sign) ∧ Member v "Scale" (.str c.scale) ∧
    Member v "BalanceType" (.str c.balance) ∧ Member v "IsSummationItem" (.bool c.isSummationItem)

/-- A summation item. -/
def ItemText (v : Json) (i : SummationItem (Option MultilingualFact)) : Prop :=
  LabelledText v i.href i.label ∧ Member v "BalanceType" (.str i.balance) ∧ ColumnsText v i.periods i.members i.voids ∧
  (∃ x, Member v "ContributingConcepts" x ∧ Elems ContributingText x i.contributing) ∧ QuadrantText v i.quadrant

/-- A renderable. -/
def RenderableText (v : Json) (r : Renderable (Grids (Option MultilingualFact))) : Prop :=
  (∃ x, Member v "RelationshipSet" x ∧ RSetText x r.rset) ∧ (∃ x, Member v "Subject" x ∧ SubjectText x r.subject) ∧
  (∃ x, Member v "Lang" x ∧ Elems IsStr x r.grids.langs) ∧ (∃ x, Member v "LabelRoles" x ∧ Elems IsStr x r.grids.roles) ∧
  (∃ x, Member v "PGrid" x ∧ PGridText x r.grids.p) ∧ (∃ x, Member v "DGrid" x ∧ DGridText x r.grids.d) ∧
  ∃ x y, Member v "CGrid" x ∧ Member x "SummationItems" y ∧ (Elems ItemText y r.grids.c ∨ (y = .null ∧ r.grids.c = []))

/-- An expression. -/
def ExpressableText (v : Json) (e : Expressable) : Prop :=
  Member v "Href" (.str e.href) ∧ (∃ x, Member v "Labels" x ∧ LabelText x e.labels) ∧
  (∃ x, Member v "Context" x ∧ (∃ y, Member x "Period" y ∧ PackText y e.period) ∧
    (∃ y, Member x "VoidQuadrant" y ∧ Elems VoidText y e.rows) ∧
    ∃ y, Member x "ContextualMemberGrid" y ∧ Elems (Elems MemberText) y e.members) ∧
  (∃ x, Member v "Expression" x ∧ FactText x e.expression) ∧ ∃ x, Member v "Footnotes" x ∧ Elems IsStr x e.footnotes

/-! ## The client's way through a document -/

/-- A member or an element. -/
inductive Step where
  | key (k : String)
  | idx (i : Nat)

/-- What is found by following the steps. -/
def At (v : Json) : List Step → Json → Prop
  | [], x => x = v
  | .key k :: ss, x => ∃ y, Member v k y ∧ At y ss x
  | .idx i :: ss, x => ∃ l y, v = .arr l ∧ l[i]? = some y ∧ At y ss x

/-- Row `n` of a presentation grid is that of `href`. -/
def PRow (v : Json) (n : Nat) (href : String) : Prop := At v [.key "IndentedLabels", .idx n, .key "Href"] (.str href)

/-- Row `n` of a root domain is that of `href`: first the root, then the primary items. -/
def DRow (v : Json) (n : Nat) (href : String) : Prop :=
  (n = 0 ∧ At v [.key "Href"] (.str href)) ∨ ∃ k, n = k + 1 ∧ At v [.key "PrimaryItems", .idx k, .key "Href"] (.str href)

/-- Row `n` of a summation item is that of `href`: first the contributing concepts, then the item. -/
def CRow (v : Json) (n : Nat) (href : String) : Prop :=
  At v [.key "ContributingConcepts", .idx n, .key "Href"] (.str href) ∨
    ∃ l, At v [.key "ContributingConcepts"] (.arr l) ∧ n = l.length ∧ At v [.key "Href"] (.str href)

/-- The context has an explicit member. -/
def HasMember (c : Instance.Context) (dim mem : String) : Prop :=
  ∃ e, (e ∈ c.segment.explicit ∨ e ∈ c.scenario.explicit) ∧ e.dimHref = dim ∧ e.memHref = mem

/-- In column `j` of the part `v` of the answer: the members are explicit members of the context, and there is one in every row of a
dimension that has one. -/
def MembersShown (v : Json) (j : Nat) (c : Instance.Context) : Prop :=
  (∀ i dim mem, At v [.key "VoidQuadrant", .idx i, .key "Dimension", .key "Href"] (.str dim) →
    At v [.key "ContextualMemberGrid", .idx i, .idx j, .key "ExplicitMember", .key "Href"] (.str mem) → HasMember c dim mem) ∧
  ∀ i dim mem x, At v [.key "VoidQuadrant", .idx i, .key "Dimension", .key "Href"] (.str dim) →
    At v [.key "VoidQuadrant", .idx i] x → Absent x "TypedDomain" → HasMember c dim mem →
    ∃ mem', At v [.key "ContextualMemberGrid", .idx i, .idx j, .key "ExplicitMember", .key "Href"] (.str mem')

/-- In the part `v` of the answer the text `core` is shown in every row for `href`, in a column with the period of the context; the
members in that column are explicit members of the context, and there is one in every row of a dimension that has one. -/
def CoreShown (v : Json) (row : Nat → String → Prop) (href : String) (c : Instance.Context) (core : String) : Prop :=
  ∃ j raw, RawPeriod c raw ∧ At v [.key "PeriodHeaders", .idx j, .key "Unlabelled"] (.str raw) ∧
    (∀ n, row n href → At v [.key "FactualQuadrant", .idx n, .idx j, .key "Unlabelled", .key "Core"] (.str core)) ∧
    MembersShown v j c

/-- Column `j` of the part `v` of the answer is headed by the period of the context; the members in it are explicit members of the
context, and there is one in every row of a dimension that has one. -/
def InColumn (v : Json) (c : Instance.Context) (j : Nat) : Prop :=
  ∃ raw, RawPeriod c raw ∧ At v [.key "PeriodHeaders", .idx j, .key "Unlabelled"] (.str raw) ∧ MembersShown v j c

/-- In the part `v` of the answer all texts of `e` are shown in every row for `href`, in a column of the context. -/
def TextShown (v : Json) (row : Nat → String → Prop) (href : String) (c : Instance.Context) (e : FactExpression) : Prop :=
  ∃ j, InColumn v c j ∧ ∀ n, row n href → ∃ y, At v [.key "FactualQuadrant", .idx n, .idx j, .key "Unlabelled"] y ∧ ExpressionText y e

/-- In row `n` and column `j` of the part `v` of the answer there are numbers for the footnotes, whose texts are in the part. -/
def NotesAt (v : Json) (n j : Nat) (all : Option Instance.Fact → List Instance.Footnote) (notes : List Instance.Footnote) : Prop :=
  ∃ x ks y ts, At v [.key "FootnoteGrid", .idx n, .idx j] x ∧ Elems Numeral x ks ∧ At v [.key "Footnotes"] y ∧ Elems IsStr y ts ∧
    Keyed notes ks ts ∧ NotesListed all notes ts

/-- In the part `v` of the answer all texts of `e` are shown in every row for `href`, in a column of the context, with numbers for the
footnotes. -/
def FactShown (v : Json) (row : Nat → String → Prop) (href : String) (c : Instance.Context) (e : FactExpression)
    (all : Option Instance.Fact → List Instance.Footnote) (notes : List Instance.Footnote) (good : Prop) : Prop :=
  ∃ j, InColumn v c j ∧
    (∀ n, row n href → ∃ y, At v [.key "FactualQuadrant", .idx n, .idx j, .key "Unlabelled"] y ∧ ExpressionText y e) ∧
    (good → ∀ n, row n href → NotesAt v n j all notes)

/-- In every grid with a row for `href`. -/
def ShownEverywhere (v : Json) (href : String) (shown : Json → (Nat → String → Prop) → Prop) : Prop :=
  (∀ p, At v [.key "PGrid"] p → (∃ n, PRow p n href) → shown p (PRow p)) ∧
  (∀ k p, At v [.key "DGrid", .key "RootDomains", .idx k] p → (∃ n, DRow p n href) → shown p (DRow p)) ∧
  ∀ k p, At v [.key "CGrid", .key "SummationItems", .idx k] p → (∃ n, CRow p n href) → shown p (CRow p)

/-! ## Well-formed: no key of a Go map occurs twice -/

/-- The packs of a label. -/
def LabelWF (p : LabelPack) : Prop := MapWF p ∧ ∀ r q, (r, q) ∈ p → MapWF q

/-- The maps of a quadrant. -/
def QuadrantWF (q : Quadrant (Option MultilingualFact)) : Prop := ∀ row ∈ q.facts, ∀ c ∈ row, ∃ m, c = some m ∧ MapWF m

/-- The maps of the headers and the member grid. -/
def ColumnsWF (periods : List LanguagePack) (members : List (List MemberCell)) (voids : List VoidCell) : Prop :=
  (∀ p ∈ periods, MapWF p) ∧ (∀ row ∈ members, ∀ c ∈ row, ∀ m, c.explicit = some m → LabelWF m.label) ∧
  ∀ c ∈ voids, LabelWF c.dimension.label ∧ ∀ t, c.typedDomain = some t → LabelWF t.label

/-- The maps of the grids. -/
structure GridsWF (g : Grids (Option MultilingualFact)) : Prop where
  rows : ∀ r ∈ g.p.rows, LabelWF r.label
  pcols : ColumnsWF g.p.periods g.p.members g.p.voids
  pquad : QuadrantWF g.p.quadrant
  roots : ∀ r ∈ g.d.domains, LabelWF r.label ∧ (∀ i ∈ r.primaryItems, LabelWF i.label) ∧ ColumnsWF r.periods r.members r.voids ∧
    QuadrantWF r.quadrant ∧ (∀ row ∈ r.domains, ∀ dom ∈ row, ∀ m ∈ dom, LabelWF m.label) ∧ ∀ d ∈ r.dimensions, LabelWF d.label
  nodes : ∀ n ∈ g.d.nodes, LabelWF n.label
  items : ∀ i ∈ g.c, LabelWF i.label ∧ ColumnsWF i.periods i.members i.voids ∧ (∀ c ∈ i.contributing, LabelWF c.label) ∧
    QuadrantWF i.quadrant

end Telefacts.Json
