import Verif.Spec.Hydrate
import Verif.Spec.Xml
import Verif.Spec.Grid
/-! # Specification from the files of a folder to the cells of its grids -/
namespace Telefacts.Hydrate
open Telefacts.Linkbase Telefacts.Schema Telefacts.Instance Telefacts.Decode Telefacts.Spec Telefacts.Render

/-- `root` is the root of the instance file of the folder, and `inst` what discovery keeps of it. -/
def EntryRoot (d : Disk) (root : Xml) (inst : Disc.InstanceFile) : Prop :=
  ∃ key, Disc.EntryInstance d.env key inst ∧ d.read key = some root

/-- The schema tree `sx` at location `l` declares the concept `c`. -/
def DeclaredIn (sx : Xml) (l : String) (c : Concept) : Prop :=
  ∃ e ∈ sx.kids, e.name.loc = "element" ∧ ConceptOf sx.attrs l ⟨e.name.space, e.attrs⟩ c

/-- The namespace `ns` is that of the schema at `l`, which has the tree `sx`, and of no other: a file of the folder, or a published
schema, of which `web` is what is read. -/
structure SchemaAt (d : Disk) (web : String → Option SchemaFile) (inst : Disc.InstanceFile) (ns l : String) (sx : Xml) : Prop where
  located : Disc.Locates d.env inst ns l
  only : ∀ l', Disc.Locates d.env inst ns l' → l' = l
  nonempty : l ≠ ""
  source : (d.isUrl l = false ∧ d.read l = some sx) ∨ (d.isUrl l = true ∧ web l = schemaFile sx)
  root : sx.name.loc = "schema"
  noHash : '#' ∉ l.toList

/-- The concept `c` of the schema tree `sx` has its name and its id for itself. -/
def Distinct (sx : Xml) (l : String) (c : Concept) : Prop :=
  ∀ c', DeclaredIn sx l c' → c'.name = c.name ∨ c'.id = c.id → c' = c

/-- The element `x` of the instance `root` reports a fact of the concept `c` for the context `r`, and no other element does. -/
structure Reports (root x : Xml) (c : Concept) (r : String) : Prop where
  kid : x ∈ root.kids
  fact : ¬ Reserved x.name.loc
  name : x.name = c.name
  nspace : x.name.space ≠ ""
  ctx : AttrVal x.attrs "contextRef" r
  nonempty : r ≠ ""
  only : ∀ y ∈ root.kids, y.name = c.name → AttrVal y.attrs "contextRef" r → y = x

/-- `cc` is the context that the instance `root` has under the identifier `r`, and the only one. -/
def HasContext (w : Instance.World) (root : Xml) (r : String) (cc : Context) : Prop :=
  cc.id = r ∧ ∃ x ∈ root.kids, x.name.loc = "context" ∧ (∃ e, IsContext x e ∧ Instance.ContextOf w e cc) ∧
    ∀ y ∈ root.kids, y.name.loc = "context" → ∀ e, IsContext y e → HasId e r → y = x

/-- What is rendered of the fact `x` is shown in every row for `href`, in a column with the period and the members of the context `c`;
there, as many footnote numbers as the fact has footnotes, whose texts are in the grid. -/
def ShownAt {Φ : Type} (f : Render.Folder) (hrefs : List String) (headers : List LanguagePack) (members : List (List MemberCell))
    (voids : List VoidCell) (s : FactSource Φ) (q : Quadrant Φ) (href : String) (c : Context) (x : Fact) : Prop :=
  ∃ j hd raw col, headers[j]? = some hd ∧ mapGet hd "Unlabelled" = some raw ∧ RawPeriod c raw ∧
    ColumnOf f c col ∧ MemberColumn members voids j col ∧ (∀ n, hrefs[n]? = some href → CellAt q.facts n j (s.render (some x))) ∧
    ∀ n, hrefs[n]? = some href → GoodOrders s → ∃ ks, CellAt q.numbers n j ks ∧ Keyed (s.notes (some x)) ks q.footnotes ∧
      NotesListed s.notes (s.notes (some x)) q.footnotes

end Telefacts.Hydrate
