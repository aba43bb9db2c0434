import Verif.Props.EndToEnd
import Verif.Props.Listing
/-! # C147, C148: published schemas and namespaces of several files -/
namespace Telefacts
open Telefacts.Hydrate Telefacts.Decode Telefacts.Instance Telefacts.Linkbase Telefacts.Schema Telefacts.Spec Telefacts.Render

variable {d : Disk} {w : Hydrate.World} {fuel : Nat} {sched : List (Disc.Write LinkbaseFile) → List (Disc.Write LinkbaseFile)}
  {fo : Files} {h : Hydratable}

/-- The facts of the instance of a loaded folder are those of the fact elements of its tree. -/
theorem loaded_facts (hl : load d w fuel sched = some (.done (some (fo, h)))) {root : Xml} {inst : Disc.InstanceFile}
    (hroot : EntryRoot d root inst) {file : InstFile} (hfile : instanceFile root = some file) :
    ∃ i, values h.instances = [i] ∧ ∀ f, f ∈ i.facts ↔ ∃ x ∈ root.kids, ¬ Reserved x.name.loc ∧ FactOf (instanceWorld w fo file) (fact x) f := by
  obtain ⟨key, hE, hread⟩ := hroot
  rcases load_instances hl with ⟨_, hno⟩ | ⟨key', inst', root', file', i, hE', hr', hf', _, hv, hio, _⟩
  · exact absurd hE (hno _ _)
  obtain ⟨rfl, rfl⟩ := entryInstance_unique hE hE'
  rw [hread] at hr'; cases hr'
  rw [hfile] at hf'; cases hf'
  refine ⟨i, hv, fun f => ?_⟩
  obtain ⟨_, _, _, _, _, _, hfacts⟩ := ((C99_instance root).2 file).1 hfile
  obtain ⟨lf, hlf, hsf⟩ := hio.facts
  rw [hsf.1.mem_iff, (collected_iff (hydrateFact_iff _) _ _).1 hlf, List.mem_filterMap]
  simp only [hydrateFact_iff, (factKids_iff _ _).1 hfacts, List.mem_map]
  constructor
  · rintro ⟨_, ⟨x, hx, rfl⟩, hf⟩
    simp only [Xml.others, List.mem_filter, decide_eq_true_eq] at hx
    exact ⟨x, hx.1, by simpa [Reserved] using hx.2, hf⟩
  · rintro ⟨x, hx, hr, hf⟩
    exact ⟨_, ⟨x, by simpa [Xml.others, hx, Reserved] using hr, rfl⟩, hf⟩

/-- **C147 fails.** When the instance refers to published schemas only, none of its facts is read and no role is listed, whatever
the schemas declare. -/
theorem C147_published_fails (hperm : ∀ ws, (sched ws).Perm ws) (hl : load d w fuel sched = some (.done (some (fo, h))))
    (root : Xml) (inst : Disc.InstanceFile) (hroot : EntryRoot d root inst) (file : InstFile) (hfile : instanceFile root = some file)
    (hpub : ∀ i ∈ inst.schemaRef, ∀ l, AttrVal i.attrs "href" l → d.isUrl l = true) (query : String → String → Res String) :
    (∀ i ∈ values h.instances, i.facts = []) ∧ (listing d query h).rsets = [] ∧
      ∀ e m uri, mapGet (listing d query h).networks e = some m → mapGet m uri = none := by
  have hnoroot : ∀ l f, ¬ Disc.Root d.env inst l f := by
    rintro l f ⟨i, hi, t, hr⟩
    have h1 := hpub i hi l hr.2.1
    have h2 : d.isUrl l = false := hr.2.2.1.2.1
    rw [h1] at h2; cases h2
  have hnoreach : ∀ l f, ¬ Disc.Reach d.env inst l f := by
    intro l f hr
    induction hr with
    | root l f h => exact hnoroot _ _ h
    | child _ _ _ _ _ _ ih => exact ih
  have hnorole : ∀ r, ¬ RoleOfFolder d r := by
    rintro r ⟨root', inst', l, f, sx, ⟨key', hE', _⟩, hr, _⟩
    obtain ⟨key, hE, _⟩ := hroot
    obtain ⟨rfl, rfl⟩ := entryInstance_unique hE hE'
    exact hnoreach _ _ hr
  refine ⟨fun i hi => ?_, ?_, fun e m uri hm => ?_⟩
  · obtain ⟨i', hv, hfs⟩ := loaded_facts hl hroot hfile
    rw [hv] at hi
    obtain rfl := List.mem_singleton.1 hi
    refine List.eq_nil_iff_forall_not_mem.2 fun f hf => ?_
    obtain ⟨x, _, _, hfo⟩ := (hfs f).1 hf
    obtain ⟨c, l, _, _, hns, _⟩ := hfo.concept
    obtain ⟨fo0, h1, rfl, _⟩ := load_some hl
    obtain ⟨_, _, c3, _⟩ := C12_collects_reachable d.env fuel sched hperm fo0 h1
    obtain ⟨key', inst', hE', hloc⟩ := c3 _ _ hns
    obtain ⟨key, hE, _⟩ := hroot
    obtain ⟨rfl, rfl⟩ := entryInstance_unique hE hE'
    rcases hloc with ⟨i, hi, f, hr⟩ | ⟨l', f, hr, _⟩
    · exact hnoroot _ _ ⟨i, hi, _, hr⟩
    · exact hnoreach _ _ hr
  · exact List.eq_nil_iff_forall_not_mem.2 fun r hr => hnorole r ((C108_relationship_sets hperm hl query).1 r |>.1 hr)
  · cases hu : mapGet m uri with
    | none => rfl
    | some s =>
      obtain ⟨_, r, hr, _⟩ := (C108_networks hperm hl query e uri s).1 ⟨m, hm, hu⟩
      exact absurd hr (hnorole r)

/-- **C147, what holds.** The facts of a concept of a schema that is located for its namespace — a file of the folder, or a published
schema that a file of the folder imports — are read. -/
theorem C147_located_partial (hw : Fair w) (hurl : w.validUrl = d.isUrl) (hperm : ∀ ws, (sched ws).Perm ws)
    (hl : load d w fuel sched = some (.done (some (fo, h))))
    (root : Xml) (inst : Disc.InstanceFile) (hroot : EntryRoot d root inst) (file : InstFile) (hfile : instanceFile root = some file)
    (x : Xml) (hx : x ∈ root.kids) (hres : ¬ Reserved x.name.loc) (hspace : x.name.space ≠ "") (r : String) (hctx : AttrVal x.attrs "contextRef" r) (hr : r ≠ "")
    (c : Concept) (hname : x.name = c.name) (l : String) (sx : Xml) (hsx : SchemaAt d w.discover inst x.name.space l sx)
    (hc : DeclaredIn sx l c) (hdist : Distinct sx l c) :
    ∃ i f, values h.instances = [i] ∧ f ∈ i.facts ∧ FactOf (instanceWorld w fo file) (fact x) f ∧ f.href = l ++ "#" ++ c.id ∧ f.contextRef = r := by
  obtain ⟨i, hv, hfs⟩ := loaded_facts hl hroot hfile
  obtain ⟨key, hE, _⟩ := hroot
  obtain ⟨hq, _⟩ := loaded_concept hw hurl hperm hl hE hname hsx hc hdist
  have hloc : c.name.loc ≠ "" := by obtain ⟨e, _, _, hco⟩ := hc; exact hco.name.2
  obtain ⟨f, hf, hhref, hctx'⟩ := factOf_exists (w := instanceWorld w fo file) (e := fact x) (r := r) hspace
    (by change x.name.loc ≠ ""; rw [hname]; exact hloc) hq (by
      intro e
      have := congrArg String.length e
      simp only [String.length_append] at this
      have h1 : ("#" : String).length = 1 := rfl
      have h2 : ("" : String).length = 0 := rfl
      omega) hctx hr
  exact ⟨i, f, hv, (hfs f).2 ⟨x, hx, hres, hf⟩, hf, hhref, hctx'⟩

/-- A fact is read only if the file that is recorded for its namespace declares its concept. -/
theorem fact_file (hurl : w.validUrl = d.isUrl) (hperm : ∀ ws, (sched ws).Perm ws) (hl : load d w fuel sched = some (.done (some (fo, h))))
    {key : String} {inst : Disc.InstanceFile} (hE : Disc.EntryInstance d.env key inst) (file : InstFile)
    {ns : String} (hloc : ∀ l, Disc.Locates d.env inst ns l → d.isUrl l = false) (x : Xml) (hx : x.name.space = ns)
    (hf : ∃ f, FactOf (instanceWorld w fo file) (fact x) f) :
    ∃ l sx c, mapGet fo.namespaces ns = some l ∧ Disc.Locates d.env inst ns l ∧ d.read l = some sx ∧ DeclaredIn sx l c ∧ c.name = x.name := by
  obtain ⟨fo0, h1, rfl, _⟩ := load_some hl
  obtain ⟨c1, _, c3, _⟩ := C12_collects_reachable d.env fuel sched hperm fo0 h1
  obtain ⟨f, hf⟩ := hf
  obtain ⟨c, l, sf, cs, hns, ⟨hl0, hat⟩, hcol, hfw, _⟩ := hf.concept
  change mapGet fo0.namespaces x.name.space = some l at hns
  rw [hx] at hns
  obtain ⟨key', inst', hE', hlo⟩ := c3 _ _ hns
  obtain ⟨rfl, rfl⟩ := entryInstance_unique hE hE'
  obtain ⟨hcm, hcn⟩ := firstWith_mem hfw
  obtain ⟨e, he, hce⟩ := collected_mem hcol c hcm
  have hno : w.validUrl l = false := by rw [hurl]; exact hloc l hlo
  rcases hat with ⟨hv, _⟩ | ⟨_, hm | ⟨_, rfl⟩⟩
  · change w.validUrl l = true at hv
    rw [hno] at hv; cases hv
  · obtain ⟨_, _, hf'⟩ := (mapGet_filterMap _ _ (discover_wf h1).2.1 _ _).1 hm
    obtain ⟨sx, hsx, hs⟩ := Option.bind_eq_some_iff.1 hf'
    obtain ⟨_, hat, hel, _⟩ := ((C99_schema sx).1 sf).1 hs
    obtain ⟨k, hk, hkn, k1, k2⟩ := collected_mem hel e he
    refine ⟨l, sx, c, hns, hlo, hsx, ⟨k, hk, hkn, ?_⟩, hcn⟩
    rw [← hat, ← k1, ← k2]; exact hce
  · cases he

/-- **C148 fails.** When the namespace of two facts is that of several files, one of them declaring the concept of the first fact and
another that of the second, at most one of the facts is read, whatever the order of discovery. -/
theorem C148_several_files_fails (hurl : w.validUrl = d.isUrl) (hperm : ∀ ws, (sched ws).Perm ws)
    (hl : load d w fuel sched = some (.done (some (fo, h))))
    (root : Xml) (inst : Disc.InstanceFile) (hroot : EntryRoot d root inst) (file : InstFile)
    (ns : String) (hloc : ∀ l, Disc.Locates d.env inst ns l → d.isUrl l = false) (x₁ x₂ : Xml) (h₁ : x₁.name.space = ns) (h₂ : x₂.name.space = ns)
    (l₁ l₂ : String) (hne : l₁ ≠ l₂)
    (only₁ : ∀ l sx c, Disc.Locates d.env inst ns l → d.read l = some sx → DeclaredIn sx l c → c.name = x₁.name → l = l₁)
    (only₂ : ∀ l sx c, Disc.Locates d.env inst ns l → d.read l = some sx → DeclaredIn sx l c → c.name = x₂.name → l = l₂) :
    (∀ f, ¬ FactOf (instanceWorld w fo file) (fact x₁) f) ∨ ∀ f, ¬ FactOf (instanceWorld w fo file) (fact x₂) f := by
  obtain ⟨key, hE, _⟩ := hroot
  by_cases e1 : ∃ f, FactOf (instanceWorld w fo file) (fact x₁) f
  · by_cases e2 : ∃ f, FactOf (instanceWorld w fo file) (fact x₂) f
    · obtain ⟨l, sx, c, hn, a, b, c', d'⟩ := fact_file hurl hperm hl hE file hloc x₁ h₁ e1
      obtain ⟨l', sx', c2, hn', a', b', c2', d2⟩ := fact_file hurl hperm hl hE file hloc x₂ h₂ e2
      rw [hn] at hn'; cases hn'
      exact absurd ((only₁ _ _ _ a b c' d').symm.trans (only₂ _ _ _ a' b' c2' d2)) hne
    · exact .inr fun f hf => e2 ⟨f, hf⟩
  · exact .inl fun f hf => e1 ⟨f, hf⟩

/-! ## A folder whose instance reports a concept of a published schema that the schema of the folder imports -/

def webSchema : Xml :=
  .mk ⟨Disc.XSD, "schema"⟩ [⟨⟨"", "targetNamespace"⟩, "http://w"⟩] "" "" [
    .mk ⟨Disc.XSD, "annotation"⟩ [] "" "" [.mk ⟨Disc.XSD, "appinfo"⟩ [] "" "" [
      .mk ⟨LINK, "linkbaseRef"⟩ [⟨⟨XLINK, "arcrole"⟩, Disc.LINKARCROLE⟩, ⟨⟨XLINK, "type"⟩, "simple"⟩,
        ⟨⟨XLINK, "role"⟩, Disc.LKind.pre.role⟩, ⟨⟨XLINK, "href"⟩, "p.xml"⟩] "" "" []]],
    .mk ⟨Disc.XSD, "import"⟩ [⟨⟨"", "namespace"⟩, "http://x"⟩, ⟨⟨"", "schemaLocation"⟩, "http://p/x.xsd"⟩] "" "" []]

def webLinks : Xml :=
  .mk ⟨LINK, "linkbase"⟩ [] "" "" [
    .mk ⟨LINK, "roleRef"⟩ [⟨⟨"", "roleURI"⟩, "r"⟩, ⟨⟨XLINK, "href"⟩, "http://p/x.xsd#r"⟩] "" "" [],
    .mk ⟨LINK, "presentationLink"⟩ [⟨⟨XLINK, "type"⟩, "extended"⟩, ⟨⟨XLINK, "role"⟩, "r"⟩] "" "" [
      .mk ⟨LINK, "loc"⟩ [⟨⟨XLINK, "type"⟩, "locator"⟩, ⟨⟨XLINK, "href"⟩, "http://p/x.xsd#x_Cash"⟩, ⟨⟨XLINK, "label"⟩, "cash"⟩] "" "" [],
      .mk ⟨LINK, "presentationArc"⟩ [⟨⟨XLINK, "type"⟩, "arc"⟩, ⟨⟨XLINK, "arcrole"⟩, PresentationArcrole⟩, ⟨⟨XLINK, "from"⟩, "root"⟩,
        ⟨⟨XLINK, "to"⟩, "cash"⟩, ⟨⟨"", "order"⟩, "1"⟩] "" "" []]]

def webDisk : Disk where
  entryName := some "r.xml"
  images := []
  read := fun n => if n = "r.xml" then some reportXml else if n = "x.xsd" then some webSchema else if n = "p.xml" then some webLinks else none
  fileExists := fun _ => true
  doc := fun _ => none
  isUrl := fun l => decide (l = "http://p/x.xsd")

def webWorld : Hydrate.World :=
  { diskWorld with
    validUrl := fun l => decide (l = "http://p/x.xsd")
    discover := fun l => if l = "http://p/x.xsd" then schemaFile diskSchema else none }

def webGrids (fo : Files) (h : Hydratable) : Run (Grids (Option Fact)) :=
  renderGrids (renderFolder webWorld fo h diskTree) ⟨id, id, plainSource (values h.instances)⟩ (fun _ => none)
    { langs := [0, 0, 0, 1, 1, 1, 2, 2, 2], roles := [0, 0, 0, 1, 1, 1, 2, 2, 2], grow := fun _ => 0 } (books h (fun _ => "") id) "s/1" "r"

def webShown : Option (List String × List String × List (List (Option Fact))) :=
  match load webDisk webWorld 3 id with
  | some (.done (some (fo, h))) =>
    match webGrids fo h with
    | .done g => some (g.p.rows.map IndentedLabel.href, g.p.periods.map pureText, g.p.quadrant.facts)
    | _ => none
  | _ => none

theorem webShown_eq : webShown = some (["http://p/x.xsd#x_Cash"], ["2020-12-31"],
    [[some ⟨"http://p/x.xsd#x_Cash", "f1", "c", "usd", -2147483647, false, "100"⟩]]) := by decide +kernel

theorem webEntry : Disc.EntryInstance webDisk.env "r.xml" diskInst :=
  ⟨"r.xml", rfl, rfl, .inr ⟨(Disc.plain_iff _).2 (by decide +kernel), rfl⟩⟩

theorem webRead {l : String} {f : Disc.SchemaFile} (h : webDisk.env.readSchema l = some f) : l = "x.xsd" ∧ discoveredSchema webSchema = some f := by
  obtain ⟨x, hx, hs⟩ := Option.bind_eq_some_iff.1 (show (webDisk.read l).bind discoveredSchema = some f from h)
  simp only [webDisk] at hx
  split at hx
  · cases hx; exact absurd (show discoveredSchema reportXml = none by decide +kernel) (by rw [hs]; simp)
  · split at hx
    · cases hx; exact ⟨‹_›, hs⟩
    · split at hx
      · cases hx; exact absurd (show discoveredSchema webLinks = none by decide +kernel) (by rw [hs]; simp)
      · cases hx

theorem webRef {i : Disc.Item} {n l : String} {f : Disc.SchemaFile} (hr : Disc.RefTo webDisk.env i n l f) : n = "http://w" ∧ discoveredSchema webSchema = some f := by
  obtain ⟨_, _, ⟨_, _, hrd⟩, ht, _⟩ := hr
  obtain ⟨_, hf⟩ := webRead hrd
  cases hf
  rw [← plainAttr_iff] at ht
  exact ⟨(Option.some.inj (ht.symm.trans (by decide : _ = some "http://w"))), rfl⟩

theorem webSchemaAt : SchemaAt webDisk webWorld.discover diskInst "http://x" "http://p/x.xsd" diskSchema where
  located := by
    refine .inr ⟨"x.xsd", (discoveredSchema webSchema).get rfl, .root _ _ ⟨_, List.mem_singleton.2 rfl, "http://w", rfl, ?_, ⟨by decide, by decide, rfl⟩, ?_, by decide⟩,
      .inl ⟨_, List.mem_singleton.2 rfl, rfl, ?_, by decide, ?_, by decide⟩⟩
    all_goals (rw [← plainAttr_iff]; decide)
  only := by
    rintro l' (⟨i, _, f, hr⟩ | ⟨loc, f, hre, h⟩)
    · exact absurd (webRef hr).1 (by decide)
    · obtain ⟨_, hf⟩ := webRead (Disc.reach_read hre)
      cases hf
      rcases h with ⟨i, hi, hn⟩ | ⟨i, hi, _⟩
      · obtain rfl := List.mem_singleton.1 hi
        have := hn.2.2.2.1
        rw [← plainAttr_iff] at this
        exact Option.some.inj (this.symm.trans (by decide))
      · cases hi
  nonempty := by decide
  source := .inr ⟨rfl, rfl⟩
  root := rfl
  noHash := by decide

theorem webDeclared {c : Concept} : DeclaredIn diskSchema "http://p/x.xsd" c ↔ c = diskConcept := by
  have key : ∀ c, ConceptOf diskSchema.attrs "http://p/x.xsd" ⟨Disc.XSD, [⟨⟨"", "id"⟩, "x_Cash"⟩, ⟨⟨"", "name"⟩, "Cash"⟩, ⟨⟨"", "type"⟩, "t"⟩]⟩ c ↔
      c = diskConcept := by
    intro c
    rw [← hydrateConcept_iff]
    rw [show hydrateConcept diskSchema.attrs "http://p/x.xsd" ⟨Disc.XSD, [⟨⟨"", "id"⟩, "x_Cash"⟩, ⟨⟨"", "name"⟩, "Cash"⟩, ⟨⟨"", "type"⟩, "t"⟩]⟩ =
      some diskConcept by decide +kernel]
    simp [eq_comm]
  constructor
  · rintro ⟨e, he, hn, hc⟩
    simp only [diskSchema, Xml.kids, List.mem_cons, List.not_mem_nil, or_false] at he
    rcases he with rfl | rfl
    · exact absurd hn (by decide)
    · exact (key c).1 hc
  · rintro rfl
    exact ⟨_, List.mem_of_getElem? (i := 1) rfl, rfl, (key _).2 rfl⟩

theorem webIds {fo : Files} {h : Hydratable} (hl : load webDisk webWorld 3 id = some (.done (some (fo, h)))) :
    ∀ l' c', Declares (queryEnv webWorld fo) l' c' → '#' ∉ c'.id.toList := by
  rintro l c ⟨file, ⟨_, ⟨hv, hd⟩ | ⟨_, hm | ⟨_, rfl⟩⟩⟩, e, hem, hc⟩
  · have : l = "http://p/x.xsd" := by simpa [queryEnv, webWorld] using hv
    subst this
    change schemaFile diskSchema = some file at hd
    obtain ⟨_, hat, hel, _⟩ := ((C99_schema diskSchema).1 file).1 hd
    obtain ⟨k, hk, hkn, h1, h2⟩ := collected_mem hel e hem
    have : DeclaredIn diskSchema "http://p/x.xsd" c := ⟨k, hk, hkn, by rw [← hat, ← h1, ← h2]; exact hc⟩
    rw [webDeclared.1 this]; decide
  · obtain ⟨fo0, h1, rfl, _⟩ := load_some hl
    obtain ⟨_, hg, hf⟩ := (mapGet_filterMap _ _ (discover_wf h1).2.1 _ _).1 hm
    obtain ⟨key, inst, _, hre⟩ := ((C12_collects_reachable webDisk.env 3 id (fun _ => .refl _) fo0 h1).1 _ _).1 hg
    obtain ⟨rfl, _⟩ := webRead (Disc.reach_read hre)
    change schemaFile webSchema = some file at hf
    cases hf
    cases hem
  · cases hem

/-- The hypotheses of `C102_shown` and `C147_located_partial` hold of it, and the grid has the row. -/
example : ∃ fo h file g, load webDisk webWorld 3 id = some (.done (some (fo, h))) ∧ Fair webWorld ∧
    webWorld.validUrl = webDisk.isUrl ∧ EntryRoot webDisk reportXml diskInst ∧
    instanceFile reportXml = some file ∧ Reports reportXml diskFact diskConcept "c" ∧
    SchemaAt webDisk webWorld.discover diskInst diskFact.name.space "http://p/x.xsd" diskSchema ∧ DeclaredIn diskSchema "http://p/x.xsd" diskConcept ∧
    Distinct diskSchema "http://p/x.xsd" diskConcept ∧ diskConcept.abstract = false ∧
    (∀ l' c', Declares (queryEnv webWorld fo) l' c' → '#' ∉ c'.id.toList) ∧
    HasContext (instanceWorld webWorld fo file) reportXml "c" diskContext ∧ OfEntity "s/1" diskContext ∧
    webGrids fo h = .done g ∧ "http://p/x.xsd" ++ "#" ++ diskConcept.id ∈ g.p.rows.map IndentedLabel.href := by
  have he := webShown_eq
  unfold webShown at he
  split at he
  · rename_i fo h hl
    split at he
    · rename_i g hg
      simp only [Option.some.injEq, Prod.mk.injEq] at he
      refine ⟨fo, h, _, g, hl, ⟨fun _ _ => .refl _, fun _ _ => .refl _, fun _ _ => .refl _, fun _ _ => .refl _, fun _ _ => .refl _⟩, rfl, ⟨_, webEntry, rfl⟩, rfl,
        diskReports, webSchemaAt, webDeclared.2 rfl, fun c' hc _ => webDeclared.1 hc, rfl, webIds hl, diskHasContext _,
        by unfold OfEntity; decide, hg, by rw [he.1]; decide⟩
    · cases he
  · cases he

/-! ## An instance that refers to the published schema itself -/

def bareReport : Xml :=
  .mk ⟨XBRLI, "xbrl"⟩ [⟨⟨"xmlns", "x"⟩, "http://x"⟩] "" "" [
    .mk ⟨LINK, "schemaRef"⟩ [⟨⟨XLINK, "href"⟩, "http://p/x.xsd"⟩] "" "" [],
    .mk ⟨XBRLI, "context"⟩ [⟨⟨"", "id"⟩, "c"⟩] "" "" [
      .mk ⟨XBRLI, "entity"⟩ [] "" "" [.mk ⟨XBRLI, "identifier"⟩ [⟨⟨"", "scheme"⟩, "s"⟩] "1" "1" []],
      .mk ⟨XBRLI, "period"⟩ [] "" "" [.mk ⟨XBRLI, "instant"⟩ [] "2020-12-31" "2020-12-31" []]],
    .mk ⟨"http://x", "Cash"⟩ [⟨⟨"", "contextRef"⟩, "c"⟩, ⟨⟨"", "id"⟩, "f1"⟩] "100" "100" []]

def bareDisk : Disk := { webDisk with read := fun n => if n = "r.xml" then some bareReport else none }
def bareInst : Disc.InstanceFile := ⟨[⟨LINK, [⟨⟨XLINK, "href"⟩, "http://p/x.xsd"⟩]⟩], 0⟩

/-- The hypotheses of `C147_published_fails` hold, and the schema that the instance refers to declares the concept of its fact and a role. -/
example : ∃ fo h file, load bareDisk webWorld 3 id = some (.done (some (fo, h))) ∧ EntryRoot bareDisk bareReport bareInst ∧
    instanceFile bareReport = some file ∧ (∀ i ∈ bareInst.schemaRef, ∀ l, AttrVal i.attrs "href" l → bareDisk.isUrl l = true) ∧
    (∃ i, values h.instances = [i] ∧ i.contexts.length = 1) ∧
    (webWorld.discover "http://p/x.xsd").map (fun f => (f.elements.length, (hydrateAnnotation f).length)) = some (1, 1) := by
  have he : (match load bareDisk webWorld 3 id with
    | some (.done (some (_, h))) => (values h.instances).map fun i => i.contexts.length
    | _ => []) = [1] := by decide +kernel
  split at he
  · rename_i fo h hl
    refine ⟨fo, h, _, hl, ⟨"r.xml", ⟨"r.xml", rfl, rfl, .inr ⟨(Disc.plain_iff _).2 (by decide +kernel), rfl⟩⟩, rfl⟩, rfl, ?_, ?_, by decide +kernel⟩
    · intro i hi l hl
      obtain rfl := List.mem_singleton.1 hi
      rw [← plainAttr_iff] at hl
      obtain rfl := Option.some.inj (hl.symm.trans (by decide : _ = some "http://p/x.xsd"))
      rfl
    · match hv : values h.instances with
      | [i] => rw [hv] at he; exact ⟨i, rfl, by simpa using he⟩
      | [] => rw [hv] at he; cases he
      | _ :: _ :: _ => rw [hv] at he; simp at he
  · cases he

/-! ## A namespace of two files, one of which includes the other -/

def splitReport : Xml :=
  .mk ⟨XBRLI, "xbrl"⟩ [⟨⟨"xmlns", "x"⟩, "http://x"⟩] "" "" [
    .mk ⟨LINK, "schemaRef"⟩ [⟨⟨XLINK, "href"⟩, "x.xsd"⟩] "" "" [],
    .mk ⟨XBRLI, "context"⟩ [⟨⟨"", "id"⟩, "c"⟩] "" "" [
      .mk ⟨XBRLI, "entity"⟩ [] "" "" [.mk ⟨XBRLI, "identifier"⟩ [⟨⟨"", "scheme"⟩, "s"⟩] "1" "1" []],
      .mk ⟨XBRLI, "period"⟩ [] "" "" [.mk ⟨XBRLI, "instant"⟩ [] "2020-12-31" "2020-12-31" []]],
    .mk ⟨"http://x", "Cash"⟩ [⟨⟨"", "contextRef"⟩, "c"⟩, ⟨⟨"", "id"⟩, "f1"⟩] "100" "100" [],
    .mk ⟨"http://x", "Debt"⟩ [⟨⟨"", "contextRef"⟩, "c"⟩, ⟨⟨"", "id"⟩, "f2"⟩] "7" "7" []]

def splitX : Xml :=
  .mk ⟨Disc.XSD, "schema"⟩ [⟨⟨"", "targetNamespace"⟩, "http://x"⟩] "" "" [
    .mk ⟨Disc.XSD, "include"⟩ [⟨⟨"", "schemaLocation"⟩, "y.xsd"⟩] "" "" [],
    .mk ⟨Disc.XSD, "element"⟩ [⟨⟨"", "id"⟩, "x_Cash"⟩, ⟨⟨"", "name"⟩, "Cash"⟩, ⟨⟨"", "type"⟩, "t"⟩] "" "" []]

def splitY : Xml :=
  .mk ⟨Disc.XSD, "schema"⟩ [⟨⟨"", "targetNamespace"⟩, "http://x"⟩] "" "" [
    .mk ⟨Disc.XSD, "element"⟩ [⟨⟨"", "id"⟩, "x_Debt"⟩, ⟨⟨"", "name"⟩, "Debt"⟩, ⟨⟨"", "type"⟩, "t"⟩] "" "" []]

def splitDisk : Disk :=
  { webDisk with
    read := fun n => if n = "r.xml" then some splitReport else if n = "x.xsd" then some splitX else if n = "y.xsd" then some splitY else none
    isUrl := fun _ => false }
def splitInst : Disc.InstanceFile := ⟨[⟨LINK, [⟨⟨XLINK, "href"⟩, "x.xsd"⟩]⟩], 0⟩
def splitFacts (sched : List (Disc.Write LinkbaseFile) → List (Disc.Write LinkbaseFile)) : Option (List (List String)) :=
  match load splitDisk diskWorld 3 sched with
  | some (.done (some (_, h))) => some ((values h.instances).map fun i => i.facts.map Fact.href)
  | _ => none

/-- The fact of the included file is read, that of the including file is not. -/
example : splitFacts id = some [["y.xsd#x_Debt"]] := by decide +kernel

/-- The hypotheses of `C148_several_files_fails` hold of it: both files are located for the namespace and each declares the concept of one of the facts. -/
example : (∃ fo h, load splitDisk diskWorld 3 id = some (.done (some (fo, h)))) ∧ diskWorld.validUrl = splitDisk.isUrl ∧
    EntryRoot splitDisk splitReport splitInst ∧ (∀ l, Disc.Locates splitDisk.env splitInst "http://x" l → splitDisk.isUrl l = false) ∧
    Disc.Locates splitDisk.env splitInst "http://x" "x.xsd" ∧ Disc.Locates splitDisk.env splitInst "http://x" "y.xsd" ∧
    (∃ c, DeclaredIn splitX "x.xsd" c ∧ c.name = ⟨"http://x", "Cash"⟩) ∧ (∃ c, DeclaredIn splitY "y.xsd" c ∧ c.name = ⟨"http://x", "Debt"⟩) ∧
    (∀ l sx c, Disc.Locates splitDisk.env splitInst "http://x" l → splitDisk.read l = some sx → DeclaredIn sx l c → c.name = ⟨"http://x", "Cash"⟩ → l = "x.xsd") ∧
    (∀ l sx c, Disc.Locates splitDisk.env splitInst "http://x" l → splitDisk.read l = some sx → DeclaredIn sx l c → c.name = ⟨"http://x", "Debt"⟩ → l = "y.xsd") := by
  have hroot : Disc.RefTo splitDisk.env ⟨LINK, [⟨⟨XLINK, "href"⟩, "x.xsd"⟩]⟩ "http://x" "x.xsd" ((discoveredSchema splitX).get rfl) := by
    refine ⟨rfl, ?_, ⟨by decide, rfl, rfl⟩, ?_, by decide⟩ <;> (rw [← plainAttr_iff]; decide)
  have named : ∀ {l : String} {sx : Xml} {c : Concept}, splitDisk.read l = some sx → DeclaredIn sx l c →
      (l = "x.xsd" ∧ c.name.loc = "Cash") ∨ (l = "y.xsd" ∧ c.name.loc = "Debt") := by
    rintro l sx c hr ⟨e, he, hn, hc⟩
    have hname := hc.name.1
    rw [← plainAttr_iff] at hname
    simp only [splitDisk] at hr
    split at hr
    · cases hr
      simp only [splitReport, Xml.kids, List.mem_cons, List.not_mem_nil, or_false] at he
      rcases he with rfl | rfl | rfl | rfl <;> exact absurd hn (by decide)
    · split at hr
      · cases hr
        simp only [splitX, Xml.kids, List.mem_cons, List.not_mem_nil, or_false] at he
        rcases he with rfl | rfl
        · exact absurd hn (by decide)
        · exact .inl ⟨‹_›, Option.some.inj (hname.symm.trans (by decide))⟩
      · split at hr
        · cases hr
          simp only [splitY, Xml.kids, List.mem_cons, List.not_mem_nil, or_false] at he
          obtain rfl := he
          exact .inr ⟨‹_›, Option.some.inj (hname.symm.trans (by decide))⟩
        · cases hr
  have he : splitFacts id = some [["y.xsd#x_Debt"]] := by decide +kernel
  refine ⟨?_, rfl, ⟨"r.xml", ⟨"r.xml", rfl, rfl, .inr ⟨(Disc.plain_iff _).2 (by decide +kernel), rfl⟩⟩, rfl⟩, fun _ _ => rfl,
    .inl ⟨_, List.mem_singleton.2 rfl, _, hroot⟩, .inr ⟨"x.xsd", _, .root _ _ ⟨_, List.mem_singleton.2 rfl, _, hroot⟩, .inr ⟨_, List.mem_singleton.2 rfl,
      (discoveredSchema splitY).get rfl, rfl, ?_, ⟨by decide, rfl, rfl⟩, ?_, by decide⟩⟩, ?_, ?_, ?_, ?_⟩
  · revert he; intro he
    unfold splitFacts at he
    split at he
    · exact ⟨_, _, ‹_›⟩
    · cases he
  · rw [← plainAttr_iff]; decide
  · rw [← plainAttr_iff]; decide
  · refine ⟨⟨⟨"http://x", "Cash"⟩, "x_Cash", ⟨"", "t"⟩, ⟨"", ""⟩, false, "", "", false, ""⟩, ⟨_, List.mem_of_getElem? (i := 1) rfl, rfl, ?_⟩, rfl⟩
    rw [← hydrateConcept_iff]; decide +kernel
  · refine ⟨⟨⟨"http://x", "Debt"⟩, "x_Debt", ⟨"", "t"⟩, ⟨"", ""⟩, false, "", "", false, ""⟩, ⟨_, List.mem_of_getElem? (i := 0) rfl, rfl, ?_⟩, rfl⟩
    rw [← hydrateConcept_iff]; decide +kernel
  · intro l sx c _ hr hd hn
    rcases named hr hd with ⟨h1, _⟩ | ⟨_, h2⟩
    · exact h1
    · rw [hn] at h2; exact absurd h2 (by decide)
  · intro l sx c _ hr hd hn
    rcases named hr hd with ⟨_, h2⟩ | ⟨h1, _⟩
    · rw [hn] at h2; exact absurd h2 (by decide)
    · exact h1

end Telefacts
