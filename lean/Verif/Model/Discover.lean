import Verif.Model.Attr
import Verif.Model.Path
/-!
# pkg/serializables/folder.go: Discover

The file system, XML decoding, `attr.IsValidUrl` and image handling are parameters (`FolderEnv`).
Goroutines only communicate through locked map writes, so discovery is modelled as the list of these
writes, applied in an arbitrary order (`sched`, any permutation: an over-approximation of the
interleavings). `Runs` has the orders that the goroutines can produce; it is used where it matters that
an order is one of these. The recursion over references need not terminate, so it has fuel; `none` means that
more fuel is needed.
-/
namespace Telefacts.Disc

/-- pkg/attr/literals.go:7,12 -/
def XSD := "http://www.w3.org/2001/XMLSchema"
def LINKARCROLE := "http://www.w3.org/1999/xlink/properties/linkbase"

/-- An element of which only name space and attributes are used (schemaRef, include, import,
linkbaseRef). -/
structure Item where
  space : String
  attrs : List Attr
deriving DecidableEq, Repr

/-- `Appinfo` of schemaFile.go:30-41 -/
structure Appinfo where
  space : String
  linkbaseRef : List Item
deriving DecidableEq, Repr

/-- `Annotation` of schemaFile.go:22-30 -/
structure Annotation where
  space : String
  appinfo : List Appinfo
deriving DecidableEq, Repr

/-- schemaFile.go:11 `SchemaFile`; simplified: only the parts used by discovery, `rest` stands for the
others. -/
structure SchemaFile where
  attrs : List Attr
  incl : List Item
  imp : List Item
  annotation : List Annotation
  rest : Nat
deriving DecidableEq, Repr

/-- instanceFile.go `InstanceFile`; simplified likewise. -/
structure InstanceFile where
  schemaRef : List Item
  rest : Nat
deriving DecidableEq, Repr

/-- The four linkbase kinds of the switch at folder.go:314-353. -/
inductive LKind where
  | pre | defn | calc | lab
deriving DecidableEq, Repr

/-- The role URI of a linkbase kind (literals.go:23-26). -/
def LKind.role : LKind → String
  | .pre => "http://www.xbrl.org/2003/role/presentationLinkbaseRef"
  | .defn => "http://www.xbrl.org/2003/role/definitionLinkbaseRef"
  | .calc => "http://www.xbrl.org/2003/role/calculationLinkbaseRef"
  | .lab => "http://www.xbrl.org/2003/role/labelLinkbaseRef"

/-- The rest of the world for one folder. `L`: linkbase files, `D`: inline documents.
`readSchema href` is `ReadSchemaFile(filepath.Join(folder.Dir, href))` and so on.
`entryName`: `GetEntryFileName(id)`. `readDoc`: `os.ReadFile` of the inline document and
`DecodeIxbrlFile`: outer `none` is a read error, inner `none` is a nil document. -/
structure FolderEnv (L D : Type) where
  entryName : Option String
  images : GoMap String String
  readDoc : String → Option (Option D)
  transform : D → GoMap String String → D
  fileExists : String → Bool
  readInstance : String → Option InstanceFile
  isUrl : String → Bool
  readSchema : String → Option SchemaFile
  readLinkbase : LKind → String → Option L

variable {L D : Type}

/-- A locked write of a discovery goroutine. -/
inductive Write (L : Type) where
  | ns (k v : String)
  | schema (k : String) (f : SchemaFile)
  | link (kind : LKind) (k : String) (f : L)

/-- What one reference leads to: the namespace writes done for it and, if it is accepted and readable,
the location and the file to be searched. -/
structure Visit where
  ns : List (String × String)
  next : Option (String × SchemaFile)

/-- folder.go:100-130 (the goroutine of `schemaRef` up to the recursive calls). -/
def visitRef (env : FolderEnv L D) (item : Item) : Visit :=
  if item.space ≠ LINK then ⟨[], none⟩
  else match findAttr item.attrs "href" with
    | none => ⟨[], none⟩
    | some href =>
      if href.value = "" then ⟨[], none⟩
      else if env.isUrl href.value then ⟨[], none⟩
      else match env.readSchema href.value with
        | none => ⟨[], none⟩
        | some f =>
          match findAttr f.attrs "targetNamespace" with
          | none => ⟨[], none⟩
          | some t => if t.value = "" then ⟨[], none⟩ else ⟨[(t.value, href.value)], some (href.value, f)⟩

/-- folder.go:159-188 (the goroutine of `includeSchema`). -/
def visitInclude (env : FolderEnv L D) (item : Item) : Visit :=
  if item.space ≠ XSD then ⟨[], none⟩
  else match findAttr item.attrs "schemaLocation" with
    | none => ⟨[], none⟩
    | some loc =>
      if loc.value = "" then ⟨[], none⟩
      else if env.isUrl loc.value then ⟨[], none⟩
      else match env.readSchema loc.value with
        | none => ⟨[], none⟩
        | some f =>
          match findAttr f.attrs "targetNamespace" with
          | none => ⟨[], none⟩
          | some t => if t.value = "" then ⟨[], none⟩ else ⟨[(t.value, loc.value)], some (loc.value, f)⟩

/-- folder.go:218-246 (the goroutine of `importSchema`). -/
def visitImport (env : FolderEnv L D) (item : Item) : Visit :=
  if item.space ≠ XSD then ⟨[], none⟩
  else match findAttr item.attrs "namespace" with
    | none => ⟨[], none⟩
    | some n =>
      if n.value = "" then ⟨[], none⟩
      else match findAttr item.attrs "schemaLocation" with
        | none => ⟨[], none⟩
        | some loc =>
          if loc.value = "" then ⟨[], none⟩
          else if env.isUrl loc.value then ⟨[(n.value, loc.value)], none⟩
          else match env.readSchema loc.value with
            | none => ⟨[(n.value, loc.value)], none⟩
            | some f => ⟨[(n.value, loc.value)], some (loc.value, f)⟩

/-- The linkbase kind of a role (the switch at folder.go:314). -/
def kindOfRole (role : String) : Option LKind :=
  if role = LKind.pre.role then some .pre
  else if role = LKind.defn.role then some .defn
  else if role = LKind.calc.role then some .calc
  else if role = LKind.lab.role then some .lab
  else none

/-- folder.go:285-354 (the goroutine of one linkbaseRef). -/
def linkbaseItem (env : FolderEnv L D) (item : Item) : List (Write L) :=
  if item.space ≠ LINK then []
  else if xlinkAttr item.attrs "arcrole" ≠ some LINKARCROLE then []
  else if xlinkAttr item.attrs "type" ≠ some "simple" then []
  else match xlinkAttr item.attrs "role" with
    | none => []
    | some role =>
      if role = "" then []
      else match xlinkAttr item.attrs "href" with
        | none => []
        | some href =>
          if href = "" then []
          else if env.isUrl href then []
          else match kindOfRole role with
            | none => []
            | some kind =>
              match env.readLinkbase kind href with
              | none => []
              | some l => [.link kind href l]

/-- folder.go:270-359 `linkbaseRefSchema`. -/
def linkbaseRefSchema (env : FolderEnv L D) (f : SchemaFile) : List (Write L) :=
  f.annotation.flatMap fun ann =>
    if ann.space ≠ XSD then []
    else ann.appinfo.flatMap fun app =>
      if app.space ≠ XSD then [] else app.linkbaseRef.flatMap (linkbaseItem env)

/-- Finish one reference: namespace writes, then the writes of import, include and linkbaseRef of the
file found, then the write of the file itself (folder.go:126-147, 185-206, 247-265). -/
def finishVisit (env : FolderEnv L D) (v : Visit)
    (sub : SchemaFile → Option (List (Write L))) : Option (List (Write L)) :=
  match v.next with
  | none => some (v.ns.map fun p => .ns p.1 p.2)
  | some (href, f) =>
    match sub f with
    | none => none
    | some ws => some ((v.ns.map fun p => Write.ns p.1 p.2) ++ ws ++ linkbaseRefSchema env f ++ [.schema href f])

/-- All results, in order. -/
def collect {α β : Type} (f : α → Option (List β)) : List α → Option (List β)
  | [] => some []
  | x :: xs =>
    match f x, collect f xs with
    | some a, some b => some (a ++ b)
    | _, _ => none

/-- `importSchema(f)` and `includeSchema(f)` (folder.go:152-269) with recursion depth bounded by the
first argument. -/
def searchSchema (env : FolderEnv L D) : Nat → SchemaFile → Option (List (Write L))
  | 0, _ => none
  | n + 1, f =>
    match collect (fun i => finishVisit env (visitImport env i) (searchSchema env n)) f.imp,
      collect (fun i => finishVisit env (visitInclude env i) (searchSchema env n)) f.incl with
    | some a, some b => some (a ++ b)
    | _, _ => none

/-- folder.go:93-150 `schemaRef`. -/
def schemaRef (env : FolderEnv L D) (fuel : Nat) (inst : InstanceFile) : Option (List (Write L)) :=
  collect (fun i => finishVisit env (visitRef env i) (searchSchema env fuel)) inst.schemaRef

/-- The folder (folder.go:17-30). -/
structure Folder (L D : Type) where
  entry : String
  document : Option D
  namespaces : GoMap String String
  instances : GoMap String InstanceFile
  schemas : GoMap String SchemaFile
  links : LKind → GoMap String L

/-- One write. -/
def applyWrite (fo : Folder L D) : Write L → Folder L D
  | .ns k v => { fo with namespaces := mapSet fo.namespaces k v }
  | .schema k f => { fo with schemas := mapSet fo.schemas k f }
  | .link kind k f =>
    { fo with links := fun kd => if kd = kind then mapSet (fo.links kind) k f else fo.links kd }

/-- folder.go:38-49: the empty folder. -/
def emptyFolder (entry : String) : Folder L D := ⟨entry, none, [], [], [], fun _ => []⟩

/-- folder.go:70-78, 84-88: `ret.schemaRef(instanceFile)`, then the instance is stored under `key`. -/
def withInstance (env : FolderEnv L D) (fuel : Nat) (sched : List (Write L) → List (Write L))
    (fo : Folder L D) (key : String) : Option (Res (Folder L D)) :=
  match env.readInstance key with
  | none => some (.err "cannot read instance")
  | some inst =>
    match schemaRef env fuel inst with
    | none => none
    | some ws =>
      let fo := (sched ws).foldl applyWrite fo
      some (.ok { fo with instances := mapSet fo.instances key inst })

/-- folder.go:32-91 `Discover`. `none`: still running. A nil document is dereferenced at line 61 when
there are images. -/
def discover (env : FolderEnv L D) (fuel : Nat) (sched : List (Write L) → List (Write L)) :
    Option (Res (Folder L D)) :=
  match env.entryName with
  | none => some (.err "no entry file name")
  | some entry =>
    if fileExt entry = ".xhtml" ∨ fileExt entry = ".htm" then
      match env.readDoc entry with
      | none => some (.err "cannot read document")
      | some none => if env.images ≠ [] then some .panic else some (.err "failed to decode IXBRL source document")
      | some (some d) =>
        let d := if env.images ≠ [] then env.transform d env.images else d
        if env.fileExists (entry ++ ".xml") = false then some (.err "does not exists")
        else withInstance env fuel sched { (emptyFolder entry : Folder L D) with document := some d } (entry ++ ".xml")
    else if fileExt entry = ".xbrl" ∨ fileExt entry = ".xml" then
      withInstance env fuel sched (emptyFolder entry) entry
    else some (.ok (emptyFolder entry))

/-! ## The orders that the goroutines can produce -/

/-- `c` is an interleaving of `a` and `b`. -/
inductive Merge {α : Type} : List α → List α → List α → Prop
  | nil : Merge [] [] []
  | left (x : α) {a b c : List α} : Merge a b c → Merge (x :: a) b (x :: c)
  | right (x : α) {a b c : List α} : Merge a b c → Merge a (x :: b) (x :: c)

/-- An interleaving of one list for each of the items (`for … { go … }`). -/
def Each {ι α : Type} (R : ι → List α → Prop) : List ι → List α → Prop
  | [], c => c = []
  | i :: is, c => ∃ a b, R i a ∧ Each R is b ∧ Merge a b c

/-- folder.go:124-147, 183-206, 237-265: a goroutine writes the namespace, starts those of import and include (`sub`) and of the
linkbases of the file, waits for them and writes the file. Each goroutine of a linkbaseRef (folder.go:285-354) writes at most once and
they wait for nothing, so these writes come in any order. -/
def RunsVisit (env : FolderEnv L D) (v : Visit) (sub : SchemaFile → List (Write L) → Prop) (c : List (Write L)) : Prop :=
  match v.next with
  | none => c = v.ns.map fun p => .ns p.1 p.2
  | some (href, f) => ∃ a b d, sub f a ∧ b.Perm (linkbaseRefSchema env f) ∧ Merge a b d ∧
      c = (v.ns.map fun p => Write.ns p.1 p.2) ++ d ++ [.schema href f]

/-- The orders of the writes of `importSchema(f)` and `includeSchema(f)` (folder.go:152-269). -/
def RunsSearch (env : FolderEnv L D) : Nat → SchemaFile → List (Write L) → Prop
  | 0, _, _ => False
  | n + 1, f, c => ∃ a b, Each (fun i => RunsVisit env (visitImport env i) (RunsSearch env n)) f.imp a ∧
      Each (fun i => RunsVisit env (visitInclude env i) (RunsSearch env n)) f.incl b ∧ Merge a b c

/-- The orders of the writes of `schemaRef` (folder.go:93-150). -/
def Runs (env : FolderEnv L D) (fuel : Nat) (inst : InstanceFile) : List (Write L) → Prop :=
  Each (fun i => RunsVisit env (visitRef env i) (RunsSearch env fuel)) inst.schemaRef

/-- The order in which `sched` applies the writes of the instance that is read is one that the goroutines can produce. -/
def Realised (env : FolderEnv L D) (fuel : Nat) (sched : List (Write L) → List (Write L)) : Prop :=
  ∀ fo key inst ws, discover env fuel sched = some (.ok fo) → mapGet fo.instances key = some inst →
    schemaRef env fuel inst = some ws → Runs env fuel inst (sched ws)

end Telefacts.Disc
