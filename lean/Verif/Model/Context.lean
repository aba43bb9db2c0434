import Verif.Model.Tree
import Verif.Model.Period
/-!
# pkg/renderables/contexts.go and typedMember.go: the columns of a grid

`h.Instances` is passed as the list of its values in iteration order, and so is `TypedMembersMap`. `HashQuery`
(which never panics and never answers nil without error) and `GetLabel` are passed as functions; the results of
`GetLabel` for one href are taken to be the same at every call of one request (they may depend on the order in which the label
linkbases are ranged over when two linkbases label a concept in the same role and language).
-/
namespace Telefacts.Render
open Telefacts.Instance Telefacts.Schema

/-- What rendering reads of a `hydratables.Hydratable`. -/
structure Folder where
  insts : List HInstance
  /-- `HashQuery`; `none` is an error. -/
  concept : String → Option Concept
  /-- `GetLabel` -/
  label : String → LabelPack
  /-- `graph.Tree` -/
  tree : List Arc → String → Node

/-- `ExplicitMember`, `Dimension`, `TypedDomain`: contexts.go:34-47. -/
structure Labelled where
  href : String
  label : LabelPack
deriving DecidableEq, Repr

/-- contexts.go:26-32 -/
structure RelevantMember where
  dimension : Labelled
  explicit : Option Labelled
  typedMember : String
  typedDomain : Option Labelled
  isSegment : Bool
deriving DecidableEq, Repr

/-- contexts.go:20-24 -/
structure RelevantContext where
  contextRef : String
  period : LanguagePack
  members : List RelevantMember
deriving DecidableEq, Repr

/-- contexts.go:11-18 `getContext`; `none` is nil. -/
def getContext (i : HInstance) (ref : String) : Option Context := i.contexts.find? (fun c => decide (c.id = ref))

/-- `ctx.PeriodHeader[PureLabel]`: the zero value if absent. -/
def pureText (p : LanguagePack) : String := (mapGet p PureLabel).getD ""

/-- The body of the loop at contexts.go:53-84, which always returns in its first round. `return i < j` is reached
with `i > j` only (`sort.SliceStable` compares an element with earlier ones). -/
def memberLess (a b : RelevantMember) : Bool :=
  if a.isSegment && !b.isSegment then true
  else if !a.isSegment && b.isSegment then false
  else match a.typedDomain, b.typedDomain with
    | some _, none => true
    | none, some _ => false
    | some x, some y => if x.href = y.href then decide (a.typedMember < b.typedMember) else decide (x.href < y.href)
    | none, none =>
      match a.explicit, b.explicit with
      | some x, some y => decide (x.href < y.href)
      | none, some _ => true
      | some _, none => false
      | none, none => false

/-- The comparison at contexts.go:50-90. -/
def contextLess (a b : RelevantContext) : Bool :=
  if pureText a.period = pureText b.period then
    if a.members.length = b.members.length then
      match a.members, b.members with
      | x :: _, y :: _ => memberLess x y
      | _, _ => decide (pureText a.period < pureText b.period)
    else decide (a.members.length < b.members.length)
  else decide (pureText a.period < pureText b.period)

/-- contexts.go:49-91 `sortContexts` -/
def sortContexts (l : List RelevantContext) : List RelevantContext := stableSort contextLess l

/-- typedMember.go:8 -/
def typedDomainArcRole := "http://ecksbee.com/arc-role/typed-domain"

/-- typedMember.go:10-21 `tDomArcs` -/
def tDomArcs (l : List TypedArc) : List Arc := l.map fun a => ⟨typedDomainArcRole, F64.ofInt a.order, a.frm, a.to⟩

/-- contexts.go:249-267 and 284-302: the members of an explicit dimension. -/
def explicitMembers (f : Folder) (isSegment : Bool) (l : List ExplicitMember) : List RelevantMember :=
  l.map fun m => ⟨⟨m.dimHref, f.label m.dimHref⟩, some ⟨m.memHref, f.label m.memHref⟩, "", none, isSegment⟩

/-- typedMember.go:23-42 `getTypedMember`: the members. `isSegment` is not used by the code. -/
def typedMembers (f : Folder) (m : TypedMember) : List RelevantMember :=
  m.members.map fun e => ⟨⟨m.dimHref, f.label m.dimHref⟩, none, e.2, some ⟨e.1, f.label e.1⟩, false⟩

/-- contexts.go:241-319 `getContextualMembers`: the members. -/
def contextualMembers (f : Folder) (c : Context) : List RelevantMember :=
  explicitMembers f true c.segment.explicit ++ c.segment.typed.flatMap (typedMembers f) ++
    explicitMembers f false c.scenario.explicit ++ c.scenario.typed.flatMap (typedMembers f)

/-- contexts.go:278 and 313: the typed domain trees. -/
def typedTrees (f : Folder) (d : DimCtx) : List Node :=
  d.typed.map fun m => f.tree (tDomArcs m.arcs) typedDomainArcRole

/-- contexts.go:250-255: the labels of explicit members. -/
def explicitLabels (f : Folder) (l : List ExplicitMember) : List LabelPack :=
  l.flatMap fun m => [f.label m.memHref, f.label m.dimHref]

/-- contexts.go:271-279, typedMember.go:27-29: the labels of typed members. -/
def typedLabels (f : Folder) (l : List TypedMember) : List LabelPack :=
  l.flatMap fun m => [f.label m.dimHref, f.label m.dimHref]

/-- contexts.go:241-319 `getContextualMembers`: the labels. -/
def contextualLabels (f : Folder) (c : Context) : List LabelPack :=
  explicitLabels f c.segment.explicit ++ typedLabels f c.segment.typed ++
    explicitLabels f c.scenario.explicit ++ typedLabels f c.scenario.typed

/-- contexts.go:194-200: the hrefs of concrete concepts. -/
def factualHrefs (f : Folder) (hrefs : List String) : List String :=
  hrefs.filter fun h => match f.concept h with | some c => !c.abstract | none => false

/-- The loops at contexts.go:210-235 over the pairs of an href and a fact: the contexts appended. -/
def takeContexts (i : HInstance) (entity : String) : List String → List (String × Fact) → Run (List Context)
  | _, [] => .done []
  | taken, (href, fact) :: rest =>
    if fact.contextRef ∈ taken then takeContexts i entity taken rest
    else if href = fact.href then
      match getContext i fact.contextRef with
      | none => .panic
      | some c =>
        if c.scheme ++ "/" ++ c.ident = entity then
          (takeContexts i entity (fact.contextRef :: taken) rest).andThen fun cs => .done (c :: cs)
        else takeContexts i entity taken rest
    else takeContexts i entity taken rest

/-- contexts.go:209-235: one instance. -/
def instanceContexts (entity : String) (factual : List String) (i : HInstance) : Run (List Context) :=
  takeContexts i entity [] (factual.flatMap fun h => i.facts.map fun f => (h, f))

/-- contexts.go:208-236: all instances. -/
def allContexts (entity : String) (factual : List String) : List HInstance → Run (List Context)
  | [] => .done []
  | i :: is => (instanceContexts entity factual i).andThen fun cs =>
    (allContexts entity factual is).andThen fun ds => .done (cs ++ ds)

/-- contexts.go:223-227 -/
def newItem (f : Folder) (c : Context) : RelevantContext := ⟨c.id, periodString c, contextualMembers f c⟩

/-- The results of `getRelevantContexts`. -/
structure Relevant where
  contexts : List RelevantContext
  segmentTrees : List Node
  scenarioTrees : List Node
  labels : List LabelPack

/-- contexts.go:192-239 `getRelevantContexts`. (When `factuaHrefs` is empty the loops find nothing either; the early
return at 201-203 is kept.) -/
def getRelevantContexts (f : Folder) (entity : String) (hrefs : List String) : Run Relevant :=
  let factual := factualHrefs f hrefs
  if factual = [] then .done ⟨[], [], [], []⟩
  else (allContexts entity factual f.insts).andThen fun cs =>
    .done ⟨sortContexts (cs.map (newItem f)), cs.flatMap (fun c => typedTrees f c.segment),
      cs.flatMap (fun c => typedTrees f c.scenario), cs.flatMap (contextualLabels f)⟩

end Telefacts.Render
