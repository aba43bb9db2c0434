import Verif.Model.Server
import Verif.Proof.Network
import Verif.Spec.Cache
/-! # Instances that differ only in how names are written

Of the texts of the names in members and units only whether they are empty is read after hydration. -/
namespace Telefacts.Server
open Telefacts.Linkbase Telefacts.Schema Telefacts.Instance Telefacts.Render Telefacts.Hydrate Telefacts.Catalog Telefacts.Json
  Telefacts.Decode

def bareExplicit (m : ExplicitMember) : ExplicitMember := { m with dimValue := "", memValue := "" }
def bareTyped (m : TypedMember) : TypedMember := { m with dimValue := "" }
def bareDims (d : DimCtx) : DimCtx := ⟨d.explicit.map bareExplicit, d.typed.map bareTyped⟩
def bareContext (c : Context) : Context := { c with segment := bareDims c.segment, scenario := bareDims c.scenario }
def bareMeasure (m : UnitMeasure) : UnitMeasure := { m with chars := if m.chars = "" then "" else "x" }
def bareUnit (u : HUnit) : HUnit := ⟨u.id, bareMeasure u.measure, bareMeasure u.numerator, bareMeasure u.denominator⟩
/-- An instance without the texts of names. -/
def bare (i : HInstance) : HInstance := { i with contexts := i.contexts.map bareContext, units := i.units.map bareUnit }

theorem find?_map_same {α β : Type} (g : α → β) (p : β → Bool) (q : α → Bool) (h : ∀ x, p (g x) = q x) (l : List α) :
    (l.map g).find? p = (l.find? q).map g := by
  induction l with
  | nil => rfl
  | cons a l ih =>
    simp only [List.map_cons, List.find?_cons, h]
    cases q a
    · exact ih
    · rfl

theorem getContext_bare (i : HInstance) (ref : String) : getContext (bare i) ref = (getContext i ref).map bareContext :=
  find?_map_same bareContext _ _ (fun _ => rfl) _

def mapRun {α β : Type} (g : α → β) : Run α → Run β
  | .done a => .done (g a)
  | .panic => .panic
  | .loop => .loop

theorem takeContexts_bare (i : HInstance) (entity : String) (l : List (String × Fact)) : ∀ taken,
    takeContexts (bare i) entity taken l = mapRun (List.map bareContext) (takeContexts i entity taken l) := by
  induction l with
  | nil => intro _; rfl
  | cons p l ih =>
    obtain ⟨href, fact⟩ := p
    intro taken
    unfold takeContexts
    rw [getContext_bare]
    by_cases h1 : fact.contextRef ∈ taken
    · simp only [if_pos h1]; exact ih _
    · by_cases h2 : href = fact.href
      · simp only [if_neg h1, if_pos h2]
        cases getContext i fact.contextRef with
        | none => rfl
        | some c =>
          by_cases h3 : c.scheme ++ "/" ++ c.ident = entity
          · have h3' : (bareContext c).scheme ++ "/" ++ (bareContext c).ident = entity := h3
            simp only [Option.map_some, if_pos h3, if_pos h3', ih]
            cases takeContexts i entity (fact.contextRef :: taken) l <;> rfl
          · have h3' : ¬ (bareContext c).scheme ++ "/" ++ (bareContext c).ident = entity := h3
            simp only [Option.map_some, if_neg h3, if_neg h3', ih]
      · simp only [if_neg h1, if_neg h2]; exact ih _

theorem allContexts_bare (entity : String) (factual : List String) (l : List HInstance) :
    allContexts entity factual (l.map bare) = mapRun (List.map bareContext) (allContexts entity factual l) := by
  induction l with
  | nil => rfl
  | cons i l ih =>
    simp only [List.map_cons, allContexts]
    have e : instanceContexts entity factual (bare i) = mapRun (List.map bareContext)
        (takeContexts i entity [] (factual.flatMap fun h => i.facts.map fun f => (h, f))) := takeContexts_bare ..
    rw [ih, e, instanceContexts]
    cases takeContexts i entity [] (factual.flatMap fun h => i.facts.map fun f => (h, f)) with
    | panic => rfl
    | loop => rfl
    | done cs =>
      cases allContexts entity factual l with
      | panic => rfl
      | loop => rfl
      | done ds => simp [mapRun, Run.andThen]

theorem contextualMembers_bare (f : Folder) (c : Context) : contextualMembers f (bareContext c) = contextualMembers f c := by
  simp only [contextualMembers, bareContext, bareDims, explicitMembers, List.map_map, List.flatMap_map]
  rfl

theorem contextualLabels_bare (f : Folder) (c : Context) : contextualLabels f (bareContext c) = contextualLabels f c := by
  simp only [contextualLabels, bareContext, bareDims, explicitLabels, typedLabels, List.flatMap_map]
  rfl

theorem typedTrees_bare (f : Folder) (d : DimCtx) : typedTrees f (bareDims d) = typedTrees f d := by
  simp only [typedTrees, bareDims, List.map_map]
  rfl

/-- The columns do not depend on the texts of names. -/
theorem relevant_bare (f : Folder) (l : List HInstance) (entity : String) (hrefs : List String) :
    getRelevantContexts { f with insts := l.map bare } entity hrefs = getRelevantContexts { f with insts := l } entity hrefs := by
  unfold getRelevantContexts
  show (if factualHrefs { f with insts := l } hrefs = [] then _ else _) = _
  by_cases h : factualHrefs { f with insts := l } hrefs = []
  · rw [if_pos h, if_pos h]
  · rw [if_neg h, if_neg h]
    show (allContexts entity (factualHrefs { f with insts := l } hrefs) (l.map bare)).andThen _ = _
    rw [allContexts_bare]
    cases allContexts entity (factualHrefs { f with insts := l } hrefs) l with
    | panic => rfl
    | loop => rfl
    | done cs =>
      simp only [mapRun, Run.andThen, List.map_map, List.flatMap_map]
      have e1 : (newItem { f with insts := l.map bare } ∘ bareContext) = newItem { f with insts := l } := by
        funext c
        show RelevantContext.mk c.id (periodString c) (contextualMembers { f with insts := l.map bare } (bareContext c)) = _
        rw [contextualMembers_bare]
        rfl
      rw [e1]
      congr 2
      · congr 1; funext c; exact typedTrees_bare _ _
      · congr 1; funext c; exact typedTrees_bare _ _
      · congr 1; funext c; exact contextualLabels_bare _ _

theorem facts_bare (l : List HInstance) : (l.map bare).flatMap HInstance.facts = l.flatMap HInstance.facts := by
  rw [List.flatMap_map]; rfl

theorem links_bare (l : List HInstance) : (l.map bare).flatMap HInstance.footnoteLinks = l.flatMap HInstance.footnoteLinks := by
  rw [List.flatMap_map]; rfl

theorem findFact_bare (l : List HInstance) : Query.findFact (l.map bare) = Query.findFact l := by
  funext href ctx; unfold Query.findFact; rw [facts_bare]

theorem bareMeasure_empty (m : UnitMeasure) : (bareMeasure m).chars = "" ↔ m.chars = "" := by
  unfold bareMeasure
  by_cases h : m.chars = "" <;> simp [h]

theorem findMeasurement_bare (utr : Option Query.Registry) (l : List HInstance) :
    Query.findMeasurement utr (l.map bare) = Query.findMeasurement utr l := by
  funext ref
  unfold Query.findMeasurement
  have e : (l.map bare).flatMap HInstance.units = (l.flatMap HInstance.units).map bareUnit := by
    rw [List.flatMap_map, List.map_flatMap]; rfl
  rw [e, find?_map_same bareUnit _ (fun u => decide (u.id = ref)) (fun _ => rfl)]
  cases (l.flatMap HInstance.units).find? (fun u => decide (u.id = ref)) with
  | none => rfl
  | some u =>
    show Query.measurementsOf utr (bareUnit u) = _
    unfold Query.measurementsOf
    simp only [bareUnit, bareMeasure_empty]
    rfl

theorem footnotesLoop_bare (tree : List FootnoteArc → Query.RTree) (l : List HInstance) (id : String) (ps : List (HInstance × FootnoteLink)) :
    Query.footnotesLoop tree (l.map bare) id (ps.map fun p => (bare p.1, p.2)) = Query.footnotesLoop tree l id ps := by
  induction ps with
  | nil => rfl
  | cons p ps ih =>
    have h1 : ∀ child, Query.footnotesBelow (l.map bare) (bare p.1) child = Query.footnotesBelow l p.1 child := by
      intro child
      unfold Query.footnotesBelow Query.findFootnote
      rw [links_bare]; rfl
    have h2 : Query.footnotesIn tree (l.map bare) id (bare p.1) p.2 = Query.footnotesIn tree l id p.1 p.2 := by
      unfold Query.footnotesIn
      simp only [h1]; rfl
    simp only [List.map_cons, Query.footnotesLoop, h2, ih]

theorem getFootnotes_bare (tree : List FootnoteArc → Query.RTree) (l : List HInstance) :
    Query.getFootnotes tree (l.map bare) = Query.getFootnotes tree l := by
  funext f
  cases f with
  | none => rfl
  | some f =>
    simp only [Query.getFootnotes]
    rw [← footnotesLoop_bare tree l f.id]
    congr 1
    rw [List.flatMap_map, List.map_flatMap]
    congr 1; funext i
    simp only [List.map_map]; rfl

theorem sortedEntities_bare (l : List HInstance) : sortedEntities (l.map bare) = sortedEntities l := by
  unfold sortedEntities dedupEntities allEntities
  have e : (l.map bare).flatMap HInstance.contexts = (l.flatMap HInstance.contexts).map bareContext := by
    rw [List.flatMap_map, List.map_flatMap]; rfl
  rw [e, List.filterMap_map]; rfl

/-! ## Folders with the same columns -/

/-- The same but for the instances, and the same columns. -/
structure SameColumns (f f' : Folder) : Prop where
  eq : ∃ l, f' = { f with insts := l }
  columns : ∀ entity hrefs, getRelevantContexts f' entity hrefs = getRelevantContexts f entity hrefs

theorem pGrid_same {Φ : Type} {f f' : Folder} (h : SameColumns f f') (env : GridEnv Φ) (entity role : String) (lbs : List (Lb PArc)) :
    pGrid f' env entity role lbs = pGrid f env entity role lbs := by
  obtain ⟨⟨l, e⟩, hc⟩ := h
  have e1 : getIndentedLabels f' lbs role = getIndentedLabels f lbs role := by subst e; rfl
  unfold pGrid
  rw [e1]
  simp only [hc]

theorem rootStep_same {Φ : Type} {f f' : Folder} (h : SameColumns f f') (o : GoMap String RelevantMember → GoMap String RelevantMember)
    (s : List Lang → FactSource Φ) (entity : String) (w : Networks) (dims : List String) :
    rootStep f' o s entity w dims = rootStep f o s entity w dims := by
  obtain ⟨⟨l, e⟩, hc⟩ := h
  have e1 : f'.label = f.label := by subst e; rfl
  funext st root
  unfold rootStep
  simp only [hc, e1]

theorem dGrid_same {Φ : Type} {f f' : Folder} (h : SameColumns f f') (env : GridEnv Φ) (entity role : String) (b : Books) :
    dGrid f' env entity role b = dGrid f env entity role b := by
  have hr := fun s => rootStep_same (Φ := Φ) h env.memberOrder s entity
  obtain ⟨⟨l, e⟩, hc⟩ := h
  have e1 : f'.label = f.label := by subst e; rfl
  have e2 : linkNetworks f' = linkNetworks f := by subst e; rfl
  have e3 : getDRS f' = getDRS f := by subst e; rfl
  unfold dGrid getRootDomains
  have e4 : linkStep f' env.memberOrder env.source entity role b.dimensionOrder =
      linkStep f env.memberOrder env.source entity role b.dimensionOrder := by
    funext st e
    unfold linkStep
    simp only [hr, e1, e2]
  rw [e4, e3]

theorem cGrid_same {Φ : Type} {f f' : Folder} (h : SameColumns f f') (env : GridEnv Φ) (entity role : String) (b : Books) :
    cGrid f' env entity role b = cGrid f env entity role b := by
  obtain ⟨⟨l, e⟩, hc⟩ := h
  have e1 : f'.label = f.label := by subst e; rfl
  have e2 : f'.concept = f.concept := by subst e; rfl
  have e3 : contributing f' = contributing f := by subst e; rfl
  have s1 : ∀ m, summationStep f' env entity m = summationStep f env entity m := by
    intro m
    funext st e
    unfold summationStep
    simp only [hc, e1, e2, e3]
  have s2 : ∀ m st es, summationLoop f' env entity m st es = summationLoop f env entity m st es := by
    intro m st es
    induction es generalizing st with
    | nil => rfl
    | cons x es ih => simp only [summationLoop, s1, ih]
  unfold cGrid
  generalize ([] : List (Link CArc)) = links
  generalize b.calculation = lbs
  induction lbs generalizing links with
  | nil => rfl
  | cons lb lbs ih => simp only [getSummationItems, summationItems, s2, ih]

theorem renderGrids_same {Φ : Type} {f f' : Folder} (h : SameColumns f f') (env : GridEnv Φ) (sp : Date → Option String) (s : Schedule)
    (b : Books) (entity role : String) : renderGrids f' env sp s b entity role = renderGrids f env sp s b entity role := by
  simp only [renderGrids, pGrid_same h, dGrid_same h, cGrid_same h]

/-! ## Folders that are served alike -/

/-- The same but for texts of names in the instances. -/
structure AlikeHyd (h h' : Hydratable) : Prop where
  eq : ∃ m, h' = { h with instances := m }
  insts : (values h'.instances).map bare = (values h.instances).map bare

/-- Hydration ends alike. -/
def AlikeRun : Run (Option Hydratable) → Run (Option Hydratable) → Prop
  | .done none, .done none => True
  | .done (some h), .done (some h') => AlikeHyd h h'
  | .panic, .panic => True
  | .loop, .loop => True
  | _, _ => False

/-- Discovery and hydration end alike. -/
def AlikeFound (o : Hydrate.World) (d d' : Disk) :
    Option (Res (Disc.Folder LinkbaseFile DocFile)) → Option (Res (Disc.Folder LinkbaseFile DocFile)) → Prop
  | none, none => True
  | some (.err m), some (.err m') => m' = m
  | some .panic, some .panic => True
  | some (.ok fo), some (.ok fo') => (∃ m, fo' = { fo with instances := m }) ∧
      ∀ w, Varies o w → AlikeRun (hydrate w (filesOf d fo)) (hydrate w (filesOf d' fo'))
  | _, _ => False

/-- Whatever can be made of one folder can be made of the other, up to texts of names. -/
structure AlikeDisk (o : Hydrate.World) (d d' : Disk) : Prop where
  entry : d'.entryName = d.entryName
  images : d'.images = d.images
  schemas : ∀ n, (d'.read n).bind schemaFile = (d.read n).bind schemaFile
  found : ∀ fuel sched, (∀ ws : List (Disc.Write LinkbaseFile), (sched ws).Perm ws) →
    ∃ sched', (∀ ws : List (Disc.Write LinkbaseFile), (sched' ws).Perm ws) ∧
      AlikeFound o d d' (Disc.discover d.env fuel sched) (Disc.discover d'.env fuel sched') ∧
      (Disc.Realised d.env fuel sched → Disc.Realised d'.env fuel sched')

/-- Sites that differ only in how names are written in instances. -/
structure AlikeSite (site site' : Site) : Prop where
  eq : ∃ disk, site' = { site with disk := disk }
  disk : ∀ folder, AlikeDisk site.outside (site.disk folder) (site'.disk folder)

/-- Loaded folders that differ only so. -/
structure AlikeLoaded (l l' : Loaded) : Prop where
  folder : l'.folder = l.folder
  world : l'.world = l.world
  files : l'.files.namespaces = l.files.namespaces ∧ l'.files.schemas = l.files.schemas
  hyd : AlikeHyd l.hyd l'.hyd

theorem perm_bare {u v : List HInstance} (h : u.Perm v) : ∀ {v' : List HInstance}, v'.map bare = v.map bare →
    ∃ u' : List HInstance, u'.Perm v' ∧ u'.map bare = u.map bare := by
  induction h with
  | nil => intro v' e; exact ⟨[], by simpa using e, rfl⟩
  | cons x h ih =>
    intro v' e
    cases v' with
    | nil => simp at e
    | cons y v' =>
      simp only [List.map_cons, List.cons.injEq] at e
      obtain ⟨u', p, q⟩ := ih e.2
      exact ⟨y :: u', p.cons y, by simp [e.1, q]⟩
  | swap x y l =>
    intro v' e
    cases v' with
    | nil => simp at e
    | cons a v' =>
      cases v' with
      | nil => simp at e
      | cons b v' =>
        simp only [List.map_cons, List.cons.injEq] at e
        exact ⟨b :: a :: v', .swap a b v', by simp [e.1, e.2.1, e.2.2]⟩
  | trans h1 h2 ih1 ih2 =>
    intro v' e
    obtain ⟨u', p, q⟩ := ih2 e
    obtain ⟨u'', p', q'⟩ := ih1 q
    exact ⟨u'', p'.trans p, q'⟩

theorem folderOf_alike {site site' : Site} (hs : AlikeSite site site') {l l' : Loaded} (h : AlikeLoaded l l') (c : Choice) :
    SameColumns (folderOf site c l) (folderOf site' c l') := by
  obtain ⟨disk, rfl⟩ := hs.eq
  obtain ⟨f, w, fo, hyd⟩ := l
  obtain ⟨f', w', fo', hyd'⟩ := l'
  obtain ⟨h1, h2, ⟨h3, h4⟩, ⟨⟨m, h5⟩, h6⟩⟩ := h
  simp only at h1 h2 h3 h4 h5 h6
  subst h1 h2 h5
  have e : folderOf { site with disk := disk } c ⟨f', w', fo', { hyd with instances := m }⟩ =
      { folderOf site c ⟨f', w', fo, hyd⟩ with insts := values m } := by
    simp only [folderOf, renderFolder, queryEnv, h3, h4]
  refine ⟨⟨_, e⟩, fun entity hrefs => ?_⟩
  rw [e, ← relevant_bare]
  have h6' : (values m).map bare = (values hyd.instances).map bare := h6
  rw [h6', relevant_bare]
  rfl

theorem env_alike {site site' : Site} (hs : AlikeSite site site') {l l' : Loaded} (h : AlikeLoaded l l') (c : Choice) :
    gridEnv site' c l' = gridEnv site c l ∧ notesOf site' l' = notesOf site l ∧ factEnv site' c l' = factEnv site c l := by
  have hf := folderOf_alike hs h c
  obtain ⟨disk, rfl⟩ := hs.eq
  have hi := h.hyd.insts
  have e1 : Query.findFact (values l'.hyd.instances) = Query.findFact (values l.hyd.instances) := by
    rw [← findFact_bare, hi, findFact_bare]
  have e2 : notesOf { site with disk := disk } l' = notesOf site l := by
    simp only [notesOf]
    rw [← getFootnotes_bare, hi, getFootnotes_bare]
  have e3 : factEnv { site with disk := disk } c l' = factEnv site c l := by
    obtain ⟨⟨k, e⟩, _⟩ := hf
    have hc : (folderOf { site with disk := disk } c l').concept = (folderOf site c l).concept := by rw [e]
    have hm : Query.findMeasurement (site.outside.registry.map Query.mapMeasurements) (values l'.hyd.instances) =
        Query.findMeasurement (site.outside.registry.map Query.mapMeasurements) (values l.hyd.instances) := by
      rw [← findMeasurement_bare, hi, findMeasurement_bare]
    simp only [factEnv, hc, hm]
  refine ⟨?_, e2, e3⟩
  have e4 : folderSource (values l'.hyd.instances) (factEnv site c l) (notesOf site l) c.cellOrder c.lastOrder =
      folderSource (values l.hyd.instances) (factEnv site c l) (notesOf site l) c.cellOrder c.lastOrder := by
    funext langs
    simp only [folderSource, e1]
  simp only [gridEnv, e2, e3, e4]

theorem render_alike {site site' : Site} (hs : AlikeSite site site') {l l' : Loaded} (h : AlikeLoaded l l') (c : Choice) (hash : String) :
    render site' c hash l' = render site c hash l := by
  have hf := folderOf_alike hs h c
  have he := (env_alike hs h c).1
  have h1 : sortedEntities (values l'.hyd.instances) = sortedEntities (values l.hyd.instances) := by
    rw [← sortedEntities_bare, h.hyd.insts, sortedEntities_bare]
  have h2 : l'.hyd.schemas = l.hyd.schemas := by obtain ⟨m, e⟩ := h.hyd.eq; rw [e]
  obtain ⟨disk, e⟩ := hs.eq
  have e1 : site'.spanish = site.spanish := by rw [e]
  have e2 : booksOf site' c = booksOf site c := by rw [e]; rfl
  have e3 : site'.names = site.names := by rw [e]
  unfold render
  simp only [h1, h2, renderGrids_same hf, he, e1, e2, e3]

theorem periodTexts_bare (sp : Date → Option String) (p : LabelPack) (c : Context) :
    periodTexts sp p (bareContext c) = periodTexts sp p c := rfl

theorem expressFact_alike {env env' : ExpressEnv} (hf : SameColumns env.folder env'.folder) (ho : env'.order.map bare = env.order.map bare)
    (hn : env'.notes = env.notes) (hq : env'.facts = env.facts) (hs : env'.spanish = env.spanish) (hm : env'.memberOrder = env.memberOrder)
    (href ref : String) (fact : Fact) : expressFact env' href ref fact = expressFact env href ref fact := by
  have hl : env'.folder.label = env.folder.label := by obtain ⟨⟨l, e⟩, _⟩ := hf; rw [e]
  have hc := hf.columns
  unfold expressFact
  simp only [hl, hc, hn, hq, hs, hm]
  cases h1 : env.order with
  | nil =>
    rw [h1] at ho
    have : env'.order = [] := by simpa using ho
    simp only [this]
  | cons i is =>
    rw [h1] at ho
    cases h2 : env'.order with
    | nil => rw [h2] at ho; simp at ho
    | cons j js =>
      rw [h2] at ho
      simp only [List.map_cons, List.cons.injEq] at ho
      have e : (getContext j ref).map bareContext = (getContext i ref).map bareContext := by
        rw [← getContext_bare, ← getContext_bare, ho.1]
      simp only
      cases h3 : getContext i ref with
      | none =>
        rw [h3] at e
        have : getContext j ref = none := by simpa using e
        simp only [this]
      | some c =>
        rw [h3] at e
        cases h4 : getContext j ref with
        | none => rw [h4] at e; simp at e
        | some c' =>
          rw [h4] at e
          simp only [Option.map_some, Option.some.injEq] at e
          have k1 : c'.scheme = c.scheme := by have := congrArg Context.scheme e; exact this
          have k2 : c'.ident = c.ident := by have := congrArg Context.ident e; exact this
          have k3 : ∀ p, periodTexts env.spanish p c' = periodTexts env.spanish p c := by
            intro p
            rw [← periodTexts_bare, e, periodTexts_bare]
          simp only [k1, k2, k3]

theorem expression_alike {site site' : Site} (hs : AlikeSite site site') {l l' : Loaded} (h : AlikeLoaded l l') (c : Choice)
    {o : List HInstance} (ho : o.map bare = c.order.map bare) (name ref : String) :
    expression site' { c with order := o } name ref l' = expression site c name ref l := by
  have hf : SameColumns (folderOf site c l) (folderOf site' { c with order := o } l') := folderOf_alike hs h c
  have he := (env_alike hs h c).2
  have hd : l'.hyd.document = l.hyd.document := by obtain ⟨m, e⟩ := h.hyd.eq; rw [e]
  obtain ⟨disk, e⟩ := hs.eq
  have e1 : site'.spanish = site.spanish := by rw [e]
  have hx := expressFact_alike (env := expressEnv site c l) (env' := expressEnv site' { c with order := o } l') hf ho
    (by funext f; exact congrFun he.1 (some f)) he.2 e1 rfl
  have hq : (expressEnv site' { c with order := o } l').nameQuery = (expressEnv site c l).nameQuery := by
    simp only [expressEnv, queryEnv, h.world, h.files]
  have hfind : Query.findFact (expressEnv site' { c with order := o } l').folder.insts = Query.findFact (expressEnv site c l).folder.insts := by
    show Query.findFact (values l'.hyd.instances) = Query.findFact (values l.hyd.instances)
    rw [← findFact_bare, h.hyd.insts, findFact_bare]
  have hdoc : (expressEnv site' { c with order := o } l').doc = (expressEnv site c l).doc := hd
  unfold expression express
  simp only [hx, hq, hfind, hdoc]

theorem catalog_alike {site site' : Site} (hs : AlikeSite site site') {l l' : Loaded} (h : AlikeLoaded l l') :
    catalogBytes site' l' = catalogBytes site l := by
  have h1 : sortedEntities (values l'.hyd.instances) = sortedEntities (values l.hyd.instances) := by
    rw [← sortedEntities_bare, h.hyd.insts, sortedEntities_bare]
  have h2 : l'.hyd.schemas = l.hyd.schemas ∧ l'.hyd.document = l.hyd.document := by obtain ⟨m, e⟩ := h.hyd.eq; rw [e]; exact ⟨rfl, rfl⟩
  have h3 : site'.names = site.names := by obtain ⟨disk, e⟩ := hs.eq; rw [e]
  have h4 : (site'.disk l.folder).entryName = (site.disk l.folder).entryName := (hs.disk l.folder).entry
  unfold catalogBytes listing catalog
  simp only [h1, h2, h3, h4, h.folder]

theorem fair_alike {c : Choice} {h h' : Hydratable} (hc : c.Fair h) (ha : AlikeHyd h h') :
    ∃ o, Choice.Fair { c with order := o } h' ∧ o.map bare = c.order.map bare := by
  obtain ⟨o, p, q⟩ := perm_bare hc.order ha.insts
  obtain ⟨m, e⟩ := ha.eq
  refine ⟨o, ⟨hc.ns, hc.label, hc.map, hc.member, hc.cell, hc.last, hc.drs, ?_, ?_, ?_, ?_, ?_, p⟩, q⟩
  · rw [e]; exact hc.presentation
  · rw [e]; exact hc.definition
  · rw [e]; exact hc.definitionAgain
  · rw [e]; exact hc.dimensionOrder
  · rw [e]; exact hc.calculation

theorem discovers_alike {site site' : Site} (hs : AlikeSite site site') {folder : String} {e : Option String}
    (h : discovers site folder e) : discovers site' folder e := by
  obtain ⟨fuel, sched, hp, h⟩ := h
  obtain ⟨sched', hp', ha, _⟩ := (hs.disk folder).found fuel sched hp
  refine ⟨fuel, sched', hp', ?_⟩
  cases h1 : Disc.discover (site.disk folder).env fuel sched with
  | none => rw [h1] at h; simp at h
  | some r =>
    cases h2 : Disc.discover (site'.disk folder).env fuel sched' with
    | none => rw [h1, h2] at ha; cases r <;> exact ha.elim
    | some r' =>
      rw [h1] at h ha
      rw [h2] at ha
      cases r with
      | ok fo =>
        cases r' with
        | ok _ => cases e <;> trivial
        | err _ => exact ha.elim
        | panic => exact ha.elim
      | err m =>
        cases r' with
        | ok _ => exact ha.elim
        | err m' =>
          have : m' = m := ha
          subst this
          cases e <;> trivial
        | panic => exact ha.elim
      | panic =>
        cases r' with
        | ok _ => exact ha.elim
        | err _ => exact ha.elim
        | panic => cases e <;> trivial

theorem files_alike {o : Hydrate.World} {d d' : Disk} (hd : AlikeDisk o d d') (fo : Disc.Folder LinkbaseFile DocFile)
    (m : GoMap String Disc.InstanceFile) :
    (filesOf d' { fo with instances := m }).namespaces = (filesOf d fo).namespaces ∧
    (filesOf d' { fo with instances := m }).schemas = (filesOf d fo).schemas := by
  refine ⟨rfl, ?_⟩
  simp only [filesOf, hd.schemas]

theorem ends_alike {site site' : Site} (hs : AlikeSite site site') {folder : String} {w : Hydrate.World}
    {r : Run (Option (Files × Hydratable))} (h : Ends site folder w r) :
    ∃ r', Ends site' folder w r' ∧
      (∀ f h, r = .done (some (f, h)) → ∃ f' h', r' = .done (some (f', h')) ∧ f'.namespaces = f.namespaces ∧ f'.schemas = f.schemas ∧ AlikeHyd h h') ∧
      (r = .done none → r' = .done none) ∧ (r = .panic → r' = .panic) := by
  obtain ⟨hv, hw, fuel, sched, hp, hl, hwait, hrun⟩ := h
  have hd := hs.disk folder
  obtain ⟨sched', hp', ha, hre⟩ := hd.found fuel sched hp
  have hout : site'.outside = site.outside := by obtain ⟨disk, e⟩ := hs.eq; rw [e]
  have ends : ∀ r', load (site'.disk folder) w fuel sched' = some r' → Ends site' folder w r' := by
    intro r' hr'
    refine ⟨hout ▸ hv, hw, fuel, sched', hp', hr', fun fo' x h1 h2 => ?_, hre hrun⟩
    rw [h1] at ha
    cases h3 : Disc.discover (site.disk folder).env fuel sched with
    | none => rw [h3] at ha; exact ha.elim
    | some q =>
      rw [h3] at ha
      cases q with
      | err _ => exact ha.elim
      | panic => exact ha.elim
      | ok fo =>
        obtain ⟨⟨m, e⟩, _⟩ := ha
        exact hwait fo x h3 (by rw [e] at h2; exact h2)
  unfold load at hl ends
  cases h1 : Disc.discover (site.disk folder).env fuel sched with
  | none => rw [h1] at hl; cases hl
  | some q =>
    rw [h1] at hl ha
    cases h2 : Disc.discover (site'.disk folder).env fuel sched' with
    | none => rw [h2] at ha; cases q <;> exact ha.elim
    | some q' =>
      rw [h2] at ha ends
      cases q with
      | err _ =>
        cases q' with
        | err _ =>
          simp only [Option.some.injEq] at hl
          subst hl
          exact ⟨_, ends _ rfl, fun _ _ h => (by cases h), fun _ => rfl, fun h => by cases h⟩
        | ok _ => exact ha.elim
        | panic => exact ha.elim
      | panic =>
        cases q' with
        | panic =>
          simp only [Option.some.injEq] at hl
          subst hl
          exact ⟨_, ends _ rfl, fun _ _ h => (by cases h), fun h => (by cases h), fun _ => rfl⟩
        | ok _ => exact ha.elim
        | err _ => exact ha.elim
      | ok fo =>
        cases q' with
        | err _ => exact ha.elim
        | panic => exact ha.elim
        | ok fo' =>
          obtain ⟨⟨m, e⟩, hr⟩ := ha
          subst e
          have hr := hr w hv
          have hfiles := files_alike hd fo m
          simp only [Option.some.injEq] at hl
          subst hl
          refine ⟨_, ends _ rfl, ?_⟩
          cases ha : hydrate w (filesOf (site.disk folder) fo) with
          | panic =>
            cases hb : hydrate w (filesOf (site'.disk folder) { fo with instances := m }) with
            | panic => exact ⟨fun _ _ h => (by cases h), fun h => (by cases h), fun _ => rfl⟩
            | loop => rw [ha, hb] at hr; exact hr.elim
            | done y => rw [ha, hb] at hr; exact hr.elim
          | loop =>
            cases hb : hydrate w (filesOf (site'.disk folder) { fo with instances := m }) with
            | panic => rw [ha, hb] at hr; exact hr.elim
            | loop => exact ⟨fun _ _ h => (by cases h), fun h => (by cases h), fun h => by cases h⟩
            | done y => rw [ha, hb] at hr; exact hr.elim
          | done x =>
            cases hb : hydrate w (filesOf (site'.disk folder) { fo with instances := m }) with
            | panic => rw [ha, hb] at hr; cases x <;> exact hr.elim
            | loop => rw [ha, hb] at hr; cases x <;> exact hr.elim
            | done y =>
              rw [ha, hb] at hr
              cases x with
              | none =>
                cases y with
                | none => exact ⟨fun _ _ h => (by cases h), fun _ => rfl, fun h => by cases h⟩
                | some _ => exact hr.elim
              | some x =>
                cases y with
                | none => exact hr.elim
                | some y =>
                  refine ⟨fun f h e => ?_, fun h => (by cases h), fun h => by cases h⟩
                  simp only [bindRun, Run.andThen, Run.done.injEq, Option.some.injEq, Prod.mk.injEq] at e
                  obtain ⟨rfl, rfl⟩ := e
                  exact ⟨_, y, rfl, hfiles.1, hfiles.2, hr⟩

theorem hydrates_alike {site site' : Site} (hs : AlikeSite site site') {folder : String} {l : Loaded}
    (h : hydrates site folder (some (some l, none))) : ∃ l', hydrates site' folder (some (some l', none)) ∧ AlikeLoaded l l' := by
  obtain ⟨h1, h2⟩ := h
  obtain ⟨r', he, hk, _⟩ := ends_alike hs h2
  obtain ⟨f', h', rfl, e1, e2, e3⟩ := hk _ _ rfl
  exact ⟨⟨folder, l.world, f', h'⟩, ⟨rfl, he⟩, ⟨h1.symm, rfl, ⟨e1, e2⟩, e3⟩⟩

theorem hydrateFails_alike {site site' : Site} (hs : AlikeSite site site') {folder : String} {h : Option Loaded} {m : String}
    (hh : hydrates site folder (some (h, some m))) : hydrates site' folder (some (h, some m)) := by
  cases h with
  | some l => exact hh.elim
  | none =>
    obtain ⟨e, w, he⟩ := hh
    obtain ⟨r', he', _, hk, _⟩ := ends_alike hs he
    rw [hk rfl] at he'
    exact ⟨e, w, he'⟩

theorem hydratePanics_alike {site site' : Site} (hs : AlikeSite site site') {folder : String} (hh : hydrates site folder none) :
    hydrates site' folder none := by
  obtain ⟨w, he⟩ := hh
  obtain ⟨r', he', _, _, hk⟩ := ends_alike hs he
  rw [hk rfl] at he'
  exact ⟨w, he'⟩

theorem computes_alike {site site' : Site} (hs : AlikeSite site site') {l l' : Loaded} (h : AlikeLoaded l l') {r : Cache.Req}
    {x : Option (Option Store.Bytes × Option String)} (hx : Cache.Computes (backend site) r l x) :
    Cache.Computes (backend site') r l' x := by
  have h4 : (site'.disk l.folder).entryName = (site.disk l.folder).entryName := (hs.disk l.folder).entry
  have h5 : (site'.disk l.folder).images = (site.disk l.folder).images := (hs.disk l.folder).images
  have hd : l'.hyd.document = l.hyd.document := by obtain ⟨m, e⟩ := h.hyd.eq; rw [e]
  have hb : (backend site').docBytes l' = (backend site).docBytes l := by
    obtain ⟨disk, e⟩ := hs.eq
    have e1 : site'.parseHtml = site.parseHtml ∧ site'.renderHtml = site.renderHtml ∧ site'.document = site.document := by
      rw [e]; exact ⟨rfl, rfl, rfl⟩
    simp only [backend, documentBytes, hd, h.folder, h5, e1]
  have he : (backend site').entryName l' = (backend site).entryName l := by
    simp only [backend, h.folder, h4]
  cases r with
  | catalog id =>
    have hx : x = some (some (catalogBytes site l), none) := hx
    show x = some (some (catalogBytes site' l'), none)
    rw [catalog_alike hs h]; exact hx
  | renderable id hash =>
    simp only [Cache.Computes, hb, he] at hx ⊢
    rcases hx with hx | ⟨hx, c, hc, hr⟩
    · exact .inl hx
    · refine .inr ⟨hx, ?_⟩
      obtain ⟨o, ho, _⟩ := fair_alike hc h.hyd
      refine ⟨_, ho, ?_⟩
      have e : render site' { c with order := o } hash l' = render site' c hash l' := rfl
      rw [e, render_alike hs h]
      exact hr
  | express id name cr =>
    obtain ⟨c, hc, hr⟩ := hx
    obtain ⟨o, ho, hp⟩ := fair_alike hc h.hyd
    exact ⟨_, ho, by rw [expression_alike hs h c hp]; exact hr⟩
  | schema _ => exact hx.elim
  | utr => exact hx.elim
  | names => exact hx.elim

/-- Every answer of one site is an answer of the other. -/
theorem direct_alike {site site' : Site} (hs : AlikeSite site site') {r : Cache.Req} {o : Cache.Out Loaded Store.Bytes Unit}
    (h : Cache.Direct (backend site) r o) : Cache.Direct (backend site') r o := by
  cases h with
  | undiscovered _ id m h1 h2 => exact .undiscovered _ id m h1 (discovers_alike hs h2)
  | hydratePanic _ id h1 h2 h3 => exact .hydratePanic _ id h1 (discovers_alike hs h2) (hydratePanics_alike hs h3)
  | unhydrated _ id l m h1 h2 h3 => exact .unhydrated _ id l m h1 (discovers_alike hs h2) (hydrateFails_alike hs h3)
  | computePanic _ id l h1 h2 h3 h4 =>
    obtain ⟨l', h5, h6⟩ := hydrates_alike hs h3
    exact .computePanic _ id l' h1 (discovers_alike hs h2) h5 (computes_alike hs h6 h4)
  | computed _ id l b e h1 h2 h3 h4 =>
    obtain ⟨l', h5, h6⟩ := hydrates_alike hs h3
    exact .computed _ id l' b e h1 (discovers_alike hs h2) h5 (computes_alike hs h6 h4)
  | schema url s h => exact .schema url s h
  | schemaErr url h => exact .schemaErr url h
  | utr s h => exact .utr s h
  | utrErr h => exact .utrErr h
  | names s h => exact .names s h
  | namesErr h => exact .namesErr h

end Telefacts.Server
