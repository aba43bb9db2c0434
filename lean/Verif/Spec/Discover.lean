import Verif.Model.Discover
import Verif.Spec.AttrVal
import Verif.Spec.Path
/-! # Specification of discovery -/
namespace Telefacts.Disc
open Telefacts.Spec
variable {L D : Type}

/-- A readable file of the folder (not a URL) at `loc`. -/
def Local (env : FolderEnv L D) (loc : String) (f : SchemaFile) : Prop :=
  loc ≠ "" ∧ env.isUrl loc = false ∧ env.readSchema loc = some f

/-- The file declares a target namespace. -/
def Targets (f : SchemaFile) (t : String) : Prop := AttrVal f.attrs "targetNamespace" t ∧ t ≠ ""

/-- A schemaRef element leads to the file `f` at `loc` with target namespace `t`. -/
def RefTo (env : FolderEnv L D) (i : Item) (t loc : String) (f : SchemaFile) : Prop :=
  i.space = "http://www.xbrl.org/2003/linkbase" ∧ AttrVal i.attrs "href" loc ∧ Local env loc f ∧ Targets f t

/-- An include element leads to the file. -/
def IncludeTo (env : FolderEnv L D) (i : Item) (t loc : String) (f : SchemaFile) : Prop :=
  i.space = "http://www.w3.org/2001/XMLSchema" ∧ AttrVal i.attrs "schemaLocation" loc ∧
    Local env loc f ∧ Targets f t

/-- An import element names a namespace and a location. -/
def ImportNames (i : Item) (n loc : String) : Prop :=
  i.space = "http://www.w3.org/2001/XMLSchema" ∧ AttrVal i.attrs "namespace" n ∧ n ≠ "" ∧
    AttrVal i.attrs "schemaLocation" loc ∧ loc ≠ ""

/-- A file refers to a further file. -/
def Child (env : FolderEnv L D) (f : SchemaFile) (loc : String) (g : SchemaFile) : Prop :=
  (∃ i ∈ f.imp, ∃ n, ImportNames i n loc ∧ Local env loc g) ∨ (∃ i ∈ f.incl, ∃ t, IncludeTo env i t loc g)

/-- The instance refers to a file. -/
def Root (env : FolderEnv L D) (inst : InstanceFile) (loc : String) (f : SchemaFile) : Prop :=
  ∃ i ∈ inst.schemaRef, ∃ t, RefTo env i t loc f

/-- Files reachable from the instance. -/
inductive Reach (env : FolderEnv L D) (inst : InstanceFile) : String → SchemaFile → Prop
  | root (loc f) : Root env inst loc f → Reach env inst loc f
  | child (loc f loc' g) : Reach env inst loc f → Child env f loc' g → Reach env inst loc' g

/-- The role of the references to a kind of linkbase (XBRL 2.1, 4.3.4). -/
def refRole : LKind → String
  | .pre => "http://www.xbrl.org/2003/role/presentationLinkbaseRef"
  | .defn => "http://www.xbrl.org/2003/role/definitionLinkbaseRef"
  | .calc => "http://www.xbrl.org/2003/role/calculationLinkbaseRef"
  | .lab => "http://www.xbrl.org/2003/role/labelLinkbaseRef"

/-- Linkbases named by a schema file. -/
def LinkIn (env : FolderEnv L D) (f : SchemaFile) (kind : LKind) (href : String) : Prop :=
  ∃ ann ∈ f.annotation, ann.space = "http://www.w3.org/2001/XMLSchema" ∧
  ∃ app ∈ ann.appinfo, app.space = "http://www.w3.org/2001/XMLSchema" ∧
  ∃ i ∈ app.linkbaseRef, i.space = "http://www.xbrl.org/2003/linkbase" ∧
    XlinkVal i.attrs "arcrole" "http://www.w3.org/1999/xlink/properties/linkbase" ∧
    XlinkVal i.attrs "type" "simple" ∧ XlinkVal i.attrs "role" (refRole kind) ∧
    XlinkVal i.attrs "href" href ∧ href ≠ "" ∧ env.isUrl href = false

/-- Namespace `n` is given location `loc` by a followed reference. -/
def Locates (env : FolderEnv L D) (inst : InstanceFile) (n loc : String) : Prop :=
  (∃ i ∈ inst.schemaRef, ∃ f, RefTo env i n loc f) ∨
  (∃ loc' f, Reach env inst loc' f ∧
    ((∃ i ∈ f.imp, ImportNames i n loc) ∨ (∃ i ∈ f.incl, ∃ g, IncludeTo env i n loc g)))

/-- An infinite chain of references starting at the instance. -/
def Endless (env : FolderEnv L D) (inst : InstanceFile) : Prop :=
  ∃ c : Nat → String × SchemaFile, Root env inst (c 0).1 (c 0).2 ∧
    ∀ n, Child env (c n).2 (c (n + 1)).1 (c (n + 1)).2

/-- Inline documents and plain instances by entry name. -/
def Inline (e : String) : Prop := EndsIn e ".xhtml" ∨ EndsIn e ".htm"
def Plain (e : String) : Prop := EndsIn e ".xbrl" ∨ EndsIn e ".xml"

/-- Discovery comes to read the instance `inst` of the folder, stored as file `key`. -/
def EntryInstance (env : FolderEnv L D) (key : String) (inst : InstanceFile) : Prop :=
  ∃ e, env.entryName = some e ∧ env.readInstance key = some inst ∧
    ((Inline e ∧ key = e ++ ".xml" ∧ (∃ d, env.readDoc e = some (some d)) ∧ env.fileExists key = true) ∨
     (Plain e ∧ key = e))

/-- The same map. -/
def SameMap {V : Type} (m m' : GoMap String V) : Prop := ∀ k, mapGet m k = mapGet m' k

end Telefacts.Disc
