import Verif.Model.Cache
import Verif.Model.Listing
import Verif.Model.GridJson
import Verif.Model.Express
import Verif.Model.Renderable
import Verif.Model.Image
/-!
# The server: what is below the cache

An instance of `Cache.Backend`: folders are discovered and hydrated from the files (Model/Hydrate.lean), catalogs, renderables and
expressions are computed from them and encoded. The files and the world outside do not change while the server runs.

What a call may return is a relation: the choices of the runtime (goroutine schedules, map orders) are made anew in every call.
Over-approximated: the discovery that `Discover` reports on and the one that `Hydrate` works with are two; the three lookups of
global files may return anything (`validUrl`, `discover` and `registry` of the world stand for what the folders see of them). An
answer is given only if the computation ends.
-/
namespace Telefacts.Server
open Telefacts.Linkbase Telefacts.Schema Telefacts.Instance Telefacts.Render Telefacts.Hydrate Telefacts.Catalog Telefacts.Json
  Telefacts.Decode

/-- The files, and what is outside the program. -/
structure Site where
  /-- the folders below `WorkingDirectoryPath`, by id -/
  disk : String → Disk
  /-- the bytes of the entry file of a folder -/
  document : String → Store.Bytes
  /-- `html.Parse` and `html.Render` of golang.org/x/net/html; `none`: an error -/
  parseHtml : Store.Bytes → Option Image.Node
  renderHtml : Image.Node → Option Store.Bytes
  /-- the orders and schedules in it are not used -/
  outside : Hydrate.World
  /-- `HydrateEntityNames` -/
  names : Res (GoMap String (GoMap String String))
  /-- the trees of the `arcs` library -/
  tree : List Arc → String → Node
  noteTree : List FootnoteArc → Query.RTree
  /-- `lctime`, `strconv.FormatFloat`, and the parameters of Model/FactText.lean -/
  spanish : Date → Option String
  fmt : F64 → String
  htmlTokens : String → List Text.HTok
  hundred : String → Option String
  digits : Int → String → Char → Option (String × String × String)

/-- `w` differs from `w₀` only by choices of the runtime. -/
def Varies (w₀ w : Hydrate.World) : Prop :=
  ∃ p d c n l s₁ s₂, w = { w₀ with pOrder := p, dOrder := d, cOrder := c, nsOrder := n, labelOrder := l, sched₁ := s₁, sched₂ := s₂ }

/-- The order choices are permutations. -/
structure FairWorld (w : Hydrate.World) : Prop where
  p : ∀ k m, (w.pOrder k m).Perm m
  d : ∀ k m, (w.dOrder k m).Perm m
  c : ∀ k m, (w.cOrder k m).Perm m
  n : ∀ h m, (w.nsOrder h m).Perm m
  l : ∀ h m, (w.labelOrder h m).Perm m

/-- document.go:51, 78: the goroutines of the document are waited for. -/
def Waited (w : Hydrate.World) (x : DocFile) : Prop :=
  (∀ i < x.nonNumerics.length, 2 ≤ w.sched₁.count i) ∧ ∀ i < x.nonFractions.length, 2 ≤ w.sched₂.count i

/-- A hydrated folder. -/
structure Loaded where
  folder : String
  world : Hydrate.World
  files : Files
  hyd : Hydratable

/-- A run of pkg/cache/cache.go:140-144 on the folder ends in `r`. -/
def Ends (site : Site) (folder : String) (w : Hydrate.World) (r : Run (Option (Files × Hydratable))) : Prop :=
  Varies site.outside w ∧ FairWorld w ∧ ∃ fuel sched, (∀ ws : List (Disc.Write LinkbaseFile), (sched ws).Perm ws) ∧
    load (site.disk folder) w fuel sched = some r ∧
    (∀ fo x, Disc.discover (site.disk folder).env fuel sched = some (.ok fo) → fo.document = some x → Waited w x) ∧
    Disc.Realised (site.disk folder).env fuel sched

/-- cache.go:140: `Discover`. (Whether it succeeds does not depend on `sched`, so any permutation will do.) -/
def discovers (site : Site) (folder : String) (e : Option String) : Prop :=
  ∃ fuel sched, (∀ ws : List (Disc.Write LinkbaseFile), (sched ws).Perm ws) ∧
    match Disc.discover (site.disk folder).env fuel sched, e with
    | some (.ok _), none => True
    | some (.err m), some m' => m' = m
    | some .panic, none => True -- the panic is that of `hydrates`
    | _, _ => False

/-- cache.go:144: `Hydrate`. The texts of its errors are not modelled. -/
def hydrates (site : Site) (folder : String) : Option (Option Loaded × Option String) → Prop
  | some (some l, none) => l.folder = folder ∧ Ends site folder l.world (.done (some (l.files, l.hyd)))
  | some (none, some e) => e = "error" ∧ ∃ w, Ends site folder w (.done none)
  | none => ∃ w, Ends site folder w .panic
  | _ => False

/-- cache.go:118: `MarshalCatalog` -/
def catalogBytes (site : Site) (l : Loaded) : Store.Bytes :=
  encodeUtf8 (marshalCatalog (listing (site.disk l.folder) (entityQuery site.names) l.hyd))

/-- The choices of the runtime during a request. -/
structure Choice where
  nsOrder : String → GoMap String String → GoMap String String
  labelOrder : String → GoMap String (List LabelLink) → GoMap String (List LabelLink)
  mapOrder : GoMap String (List CStruct) → GoMap String (List CStruct)
  memberOrder : GoMap String RelevantMember → GoMap String RelevantMember
  cellOrder : Nat → Nat → GoMap String Footnote → GoMap String Footnote
  lastOrder : GoMap String Footnote → GoMap String Footnote
  drsOrder : GoMap String Nat → GoMap String Nat
  presentation : List (Lb PArc)
  definition : List (Lb DArc)
  definitionAgain : List (Lb DArc)
  dimensionOrder : Nat → List (Lb DArc)
  calculation : List (Lb CArc)
  order : List HInstance
  schedule : Schedule

/-- Maps are ranged over in some order. -/
structure Choice.Fair (c : Choice) (h : Hydratable) : Prop where
  ns : ∀ x m, (c.nsOrder x m).Perm m
  label : ∀ x m, (c.labelOrder x m).Perm m
  map : ∀ m, (c.mapOrder m).Perm m
  member : ∀ m, (c.memberOrder m).Perm m
  cell : ∀ i j m, (c.cellOrder i j m).Perm m
  last : ∀ m, (c.lastOrder m).Perm m
  drs : ∀ m, (c.drsOrder m).Perm m
  presentation : c.presentation.Perm (values h.presentation)
  definition : c.definition.Perm (values h.definition)
  definitionAgain : c.definitionAgain.Perm (values h.definition)
  dimensionOrder : ∀ e, (c.dimensionOrder e).Perm (values h.definition)
  calculation : c.calculation.Perm (values h.calculation)
  order : c.order.Perm (values h.instances)

/-- What a request reads of the folder. -/
def folderOf (site : Site) (c : Choice) (l : Loaded) : Folder :=
  renderFolder { l.world with nsOrder := c.nsOrder, labelOrder := c.labelOrder } l.files l.hyd site.tree

/-- Rendering of facts. -/
def factEnv (site : Site) (c : Choice) (l : Loaded) : FactEnv where
  concept := (folderOf site c l).concept
  measure := Query.findMeasurement (site.outside.registry.map Query.mapMeasurements) (values l.hyd.instances)
  tokens := site.htmlTokens
  trim := site.outside.trim
  hundred := site.hundred
  digits := site.digits

/-- The footnotes of a fact. -/
def notesOf (site : Site) (l : Loaded) : Option Fact → List Footnote := Query.getFootnotes site.noteTree (values l.hyd.instances)

/-- What the grids read. -/
def gridEnv (site : Site) (c : Choice) (l : Loaded) : GridEnv (Option MultilingualFact) :=
  ⟨c.mapOrder, c.memberOrder, folderSource (values l.hyd.instances) (factEnv site c l) (notesOf site l) c.cellOrder c.lastOrder⟩

/-- The linkbases, as ranged over. -/
def booksOf (site : Site) (c : Choice) : Books :=
  ⟨c.presentation, c.definition, c.definitionAgain, c.dimensionOrder, c.calculation, site.fmt, c.drsOrder⟩

/-- pkg/renderables/renderable.go:36-128 `MarshalRenderable` -/
def render (site : Site) (c : Choice) (hash : String) (l : Loaded) : Run (Option Store.Bytes × Option String) :=
  match select hash (sortedEntities (values l.hyd.instances)) (sortedRSets (values l.hyd.schemas)) with
  | none => .done (none, some "object not found")
  | some (e, r) =>
    (renderGrids (folderOf site c l) (gridEnv site c l) site.spanish c.schedule (booksOf site c) (stringify e) r.roleURI).andThen fun g =>
      match entityQuery site.names e.scheme e.chars with
      | .ok n => .done (some (encodeUtf8 (marshalRenderable (calcFound r.roleURI [] c.calculation) ⟨⟨n, e⟩, r, g⟩)), none)
      | .err m => .done (none, some m)
      | .panic => .panic

/-- What a request for an expression reads. `NameQuery` answers `"", nil, nil` if there is no concept. -/
def expressEnv (site : Site) (c : Choice) (l : Loaded) : ExpressEnv where
  folder := folderOf site c l
  doc := l.hyd.document
  nameQuery := fun space loc => match nameQuery (queryEnv l.world l.files) space loc with
    | .ok (some p) => .ok p.1
    | .ok none => .ok ""
    | .err m => .err m
    | .panic => .panic
  order := c.order
  notes := fun f => notesOf site l (some f)
  facts := factEnv site c l
  spanish := site.spanish
  memberOrder := c.memberOrder

/-- pkg/renderables/expressable.go:21-81 `MarshalExpressable` -/
def expression (site : Site) (c : Choice) (name ref : String) (l : Loaded) : Run (Option Store.Bytes × Option String) :=
  (express (expressEnv site c l) name ref).andThen fun
    | .error m => .done (none, some m)
    | .nothing => .done (none, none)
    | .expr e => .done (some (encodeUtf8 (marshalExpressable e)), none)

/-- What a computation that ended has returned. -/
def Returns (r : Run (Option Store.Bytes × Option String)) (x : Option (Option Store.Bytes × Option String)) : Prop :=
  match r with
  | .done p => x = some p
  | .panic => x = none
  | .loop => False

/-- pkg/serializables/folder.go:56-62: `Document.Bytes` -/
def documentBytes (site : Site) (folder : String) : Store.Bytes :=
  if (site.disk folder).images ≠ [] then
    Image.transformInlineImages site.parseHtml site.renderHtml (site.document folder) (site.disk folder).images
  else site.document folder

/-- The program below the cache. -/
def backend (site : Site) : Cache.Backend Loaded Store.Bytes Unit where
  discover := discovers site
  hydrate := hydrates site
  catalog := fun l x => x = some (some (catalogBytes site l), none)
  renderable := fun hash l x => ∃ c : Choice, c.Fair l.hyd ∧ Returns (render site c hash l) x
  express := fun name ref l x => ∃ c : Choice, c.Fair l.hyd ∧ Returns (expression site c name ref l) x
  entryName := fun l => (site.disk l.folder).entryName.getD ""
  docBytes := fun l => if l.hyd.document.isSome then some (documentBytes site l.folder) else none
  schema := fun _ _ => True
  utr := fun _ => True
  names := fun _ => True

end Telefacts.Server
