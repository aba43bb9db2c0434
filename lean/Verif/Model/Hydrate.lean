import Verif.Model.Xml
import Verif.Model.Document
import Verif.Model.Grid
import Verif.Model.Catalog
/-!
# pkg/hydratables/hydratable.go: a folder is hydrated

`Hydrate` ranges over the maps of the folder; the order of an association list stands for the iteration order.
`none` is an error. Folders are read from a disk of XML trees (Model/Xml.lean).
-/
namespace Telefacts.Hydrate
open Telefacts.Linkbase Telefacts.Schema Telefacts.Instance Telefacts.Decode Telefacts.Render

/-- The inline document: attributes of the html element and of the inline facts. -/
structure DocFile where
  html : List XpathAttr
  nonNumerics : List Document.InlineFact
  nonFractions : List Document.InlineFact

/-- `serializables.Folder` after discovery. -/
structure Files where
  namespaces : GoMap String String
  schemas : GoMap String SchemaFile
  presentation : GoMap String LinkbaseFile
  definition : GoMap String LinkbaseFile
  calculation : GoMap String LinkbaseFile
  label : GoMap String LinkbaseFile
  instances : GoMap String InstFile
  document : Option DocFile

/-- The world outside the folder, and the choices of the runtime. -/
structure World where
  /-- `strconv.ParseFloat` -/
  parse : String → F64 × Bool
  validUrl : String → Bool
  discover : String → Option SchemaFile
  tokens : String → Stream
  trim : String → String
  /-- the map order in `dedupPresentationLink` etc., for every file -/
  pOrder : String → GoMap String (Link PArc) → GoMap String (Link PArc)
  dOrder : String → GoMap String (Link DArc) → GoMap String (Link DArc)
  cOrder : String → GoMap String (Link CArc) → GoMap String (Link CArc)
  /-- the map order in `HashQuery`, for every href -/
  nsOrder : String → GoMap String String → GoMap String String
  /-- the map order in `GetLabel`, for every href (label.go:24; simplified: the same for all labels of the href in one request) -/
  labelOrder : String → GoMap String (List LabelLink) → GoMap String (List LabelLink) := fun _ m => m
  /-- `DiscoverUnitTypeRegistry`; `none` is an error -/
  registry : Option (List (List Query.UtrUnit))
  sched₁ : List Nat
  sched₂ : List Nat

/-- hydratable.go:7-17; the file names of linkbases are the keys. -/
structure Hydratable where
  registry : Query.Registry
  document : Option Document.Doc
  instances : GoMap String HInstance
  schemas : GoMap String HSchema
  label : GoMap String (List LabelLink)
  presentation : GoMap String (Lb PArc)
  definition : GoMap String (Lb DArc)
  calculation : GoMap String (Lb CArc)

/-- `for k, file := range m { entry, err := f(&file, k); if err != nil { return nil, err }; ret[k] = *entry }` -/
def hydrateMap {A B : Type} (f : String → A → Run (Option B)) : GoMap String A → GoMap String B → Run (Option (GoMap String B))
  | [], acc => .done (some acc)
  | (k, a) :: rest, acc => (f k a).andThen fun
    | none => .done none
    | some b => hydrateMap f rest (mapSet acc k b)

/-- Sequencing of calls that may fail. -/
def bindRun {α β : Type} (r : Run (Option α)) (f : α → Run (Option β)) : Run (Option β) :=
  r.andThen fun
    | none => .done none
    | some a => f a

/-- A result with error or panic. -/
def ofRes {α : Type} : Res α → Run (Option α)
  | .ok a => .done (some a)
  | .err _ => .done none
  | .panic => .panic

/-- `if len(fileName) <= 0 { return nil, fmt.Errorf("empty file name") }` -/
def keyed {A B : Type} (f : String → A → B) (k : String) (a : A) : Run (Option B) :=
  if k = "" then .done none else .done (some (f k a))

/-- presentationLinkbase.go:32-44 `HydratePresentationLinkbase` -/
def presentationLb (w : World) (k : String) (x : LinkbaseFile) : Lb PArc :=
  ⟨hydrateRoleRefs x.roleRefs, hydratePresentationLink w.parse (w.pOrder k) x.links⟩

/-- definitionLinkbase.go:35-47 `HydrateDefinitionLinkbase` -/
def definitionLb (w : World) (k : String) (x : LinkbaseFile) : Lb DArc :=
  ⟨hydrateRoleRefs x.roleRefs, hydrateDefinitionLink w.parse (w.dOrder k) x.links⟩

/-- calculationLinkbase.go:32-44 `HydrateCalculationLinkbase` -/
def calculationLb (w : World) (k : String) (x : LinkbaseFile) : Lb CArc :=
  ⟨hydrateRoleRefs x.roleRefs, hydrateCalculationLink w.parse (w.cOrder k) x.links⟩

/-- labelLinkbase.go:38-50 `HydrateLabelLinkbase` (the role references are not read again). -/
def labelLb (w : World) (_ : String) (x : LinkbaseFile) : List LabelLink := hydrateLabelLink w.parse x.links

/-- The queries of a folder during hydration. -/
def queryEnv (w : World) (fo : Files) : Env := ⟨fo.namespaces, fo.schemas, w.validUrl, w.discover⟩

/-- The parameters of the hydration of an instance. -/
def instanceWorld (w : World) (fo : Files) (x : InstFile) : Instance.World := ⟨queryEnv w fo, x.attrs, w.tokens, w.trim⟩

/-- instance.go:108-122 `HydrateInstance` -/
def hydrateInstance (w : World) (fo : Files) (k : String) (x : InstFile) : Run (Option HInstance) :=
  if k = "" then .done none
  else (hydrateContexts (instanceWorld w fo x) x.contexts).andThen fun cs =>
    .done (some ⟨k, cs, hydrateUnits x.attrs x.units, hydrateFootnoteLinks x.footnoteLinks,
      hydrateFacts (instanceWorld w fo x) x.facts⟩)

/-- document.go:17-21: no document, no error. -/
def hydrateDoc (w : World) : Option DocFile → Run (Option (Option Document.Doc))
  | none => .done (some none)
  | some d => bindRun (ofRes (Document.hydrateDocument d.html d.nonNumerics d.nonFractions w.sched₁ w.sched₂)) fun d =>
      .done (some (some d))

/-- hydratable.go:19-82 `Hydrate` -/
def hydrate (w : World) (fo : Files) : Run (Option Hydratable) :=
  bindRun (hydrateMap (fun k x => ofRes (hydrateSchema x k)) fo.schemas []) fun schemas =>
  bindRun (hydrateMap (keyed (presentationLb w)) fo.presentation []) fun presentation =>
  bindRun (hydrateMap (keyed (definitionLb w)) fo.definition []) fun definition =>
  bindRun (hydrateMap (keyed (calculationLb w)) fo.calculation []) fun calculation =>
  bindRun (hydrateMap (keyed (labelLb w)) fo.label []) fun label =>
  bindRun (hydrateMap (hydrateInstance w fo) fo.instances []) fun instances =>
  match w.registry with
  | none => .done none
  | some r => bindRun (hydrateDoc w fo.document) fun document =>
      .done (some ⟨Query.mapMeasurements r, document, instances, schemas, label, presentation, definition, calculation⟩)

/-! ## From the disk -/

/-- A folder on disk. `read name` is reading and tokenizing a file (pkg/serializables/instanceFile.go:143-153 `ReadInstanceFile`, and
`ReadPresentationLinkbaseFile`, `ReadDefinitionLinkbaseFile`, `ReadCalculationLinkbaseFile`, `ReadLabelLinkbaseFile`); `doc` is reading and decoding an inline document. -/
structure Disk where
  entryName : Option String
  images : GoMap String String
  read : String → Option Xml
  fileExists : String → Bool
  doc : String → Option (Option DocFile)
  isUrl : String → Bool

/-- The view that discovery has of a folder on disk. Embedding the images (pkg/serializables/folder.go:60-62) changes only the bytes of
the document, which are not part of `DocFile`. -/
def Disk.env (d : Disk) : Disc.FolderEnv LinkbaseFile DocFile where
  entryName := d.entryName
  images := d.images
  readDoc := d.doc
  transform := fun x _ => x
  fileExists := d.fileExists
  readInstance := fun name => (d.read name).bind fun x => (instanceFile x).map fun i => ⟨i.schemaRef, 0⟩
  isUrl := d.isUrl
  readSchema := fun name => (d.read name).bind discoveredSchema
  readLinkbase := fun kind name => (d.read name).bind (linkbaseFile kind)

/-- What hydration reads of a discovered folder. Simplified: discovery keeps of a schema or instance only the part it uses;
the rest of the file is read from the disk once more. -/
def filesOf (d : Disk) (fo : Disc.Folder LinkbaseFile DocFile) : Files where
  namespaces := fo.namespaces
  schemas := fo.schemas.filterMap fun e => ((d.read e.1).bind schemaFile).map fun x => (e.1, x)
  presentation := fo.links .pre
  definition := fo.links .defn
  calculation := fo.links .calc
  label := fo.links .lab
  instances := fo.instances.filterMap fun e => ((d.read e.1).bind instanceFile).map fun x => (e.1, x)
  document := fo.document

/-- pkg/cache/cache.go:134-155: a folder is discovered, then hydrated. Outer `none`: discovery is still running; inner
`none`: an error. -/
def load (d : Disk) (w : World) (fuel : Nat) (sched : List (Disc.Write LinkbaseFile) → List (Disc.Write LinkbaseFile)) :
    Option (Run (Option (Files × Hydratable))) :=
  match Disc.discover d.env fuel sched with
  | none => none
  | some (.err _) => some (.done none)
  | some .panic => some .panic
  | some (.ok fo) => some (bindRun (hydrate w (filesOf d fo)) fun h => .done (some (filesOf d fo, h)))

/-- The values of a map, in iteration order. -/
def values {V : Type} (m : GoMap String V) : List V := m.map Prod.snd

/-- What rendering reads of the folder. -/
def renderFolder (w : World) (fo : Files) (h : Hydratable) (tree : List Arc → String → Node) : Render.Folder where
  insts := values h.instances
  concept := fun href => match hashQuery (queryEnv w fo) (w.nsOrder href fo.namespaces) href with
    | .ok p => some p.2
    | _ => none
  label := fun href => getLabel (values (w.labelOrder href h.label)) href
  tree := tree

/-- The linkbases that rendering ranges over. -/
def books (h : Hydratable) (fmt : F64 → String) (drsOrder : GoMap String Nat → GoMap String Nat) : Books :=
  ⟨values h.presentation, values h.definition, values h.definition, fun _ => values h.definition, values h.calculation, fmt, drsOrder⟩

end Telefacts.Hydrate
