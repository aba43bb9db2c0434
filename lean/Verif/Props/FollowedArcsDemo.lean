import Verif.Props.FollowedArcs
/-! # C171: a site that meets the hypotheses -/
namespace Telefacts
open Telefacts.Server Telefacts.Hydrate Telefacts.Catalog Telefacts.Json Telefacts.Cache Telefacts.Schema Telefacts.Instance
  Telefacts.Render Telefacts.Decode Telefacts.Spec Telefacts.Linkbase Telefacts.Query

def arcRef (kind : Disc.LKind) (href : String) : Xml :=
  .mk ⟨LINK, "linkbaseRef"⟩ [⟨⟨XLINK, "arcrole"⟩, Disc.LINKARCROLE⟩, ⟨⟨XLINK, "type"⟩, "simple"⟩,
    ⟨⟨XLINK, "role"⟩, kind.role⟩, ⟨⟨XLINK, "href"⟩, href⟩] "" "" []

def arcSchema : Xml :=
  .mk ⟨Disc.XSD, "schema"⟩ [⟨⟨"", "targetNamespace"⟩, "http://x"⟩] "" "" [
    .mk ⟨Disc.XSD, "annotation"⟩ [] "" "" [.mk ⟨Disc.XSD, "appinfo"⟩ [] "" "" [
      arcRef .pre "p.xml", arcRef .calc "k.xml", arcRef .defn "d.xml",
      .mk ⟨LINK, "roleType"⟩ [⟨⟨"", "roleURI"⟩, "r"⟩, ⟨⟨"", "id"⟩, "R"⟩] "" "" [.mk ⟨LINK, "definition"⟩ [] "001 - A" "001 - A" []]]],
    .mk ⟨Disc.XSD, "element"⟩ [⟨⟨"", "id"⟩, "x_Cash"⟩, ⟨⟨"", "name"⟩, "Cash"⟩, ⟨⟨"", "type"⟩, "t"⟩] "" "" [],
    .mk ⟨Disc.XSD, "element"⟩ [⟨⟨"", "id"⟩, "x_Total"⟩, ⟨⟨"", "name"⟩, "Total"⟩, ⟨⟨"", "type"⟩, "t"⟩] "" "" []]

def arcLocAttrs (href label : String) : List Attr := [⟨⟨XLINK, "type"⟩, "locator"⟩, ⟨⟨XLINK, "href"⟩, href⟩, ⟨⟨XLINK, "label"⟩, label⟩]
def arcAttrs (arcrole : String) (extra : List Attr) : List Attr :=
  [⟨⟨XLINK, "type"⟩, "arc"⟩, ⟨⟨XLINK, "arcrole"⟩, arcrole⟩, ⟨⟨XLINK, "from"⟩, "total"⟩, ⟨⟨XLINK, "to"⟩, "cash"⟩, ⟨⟨"", "order"⟩, "1"⟩] ++ extra
def arcRoleRef : List Attr := [⟨⟨"", "roleURI"⟩, "r"⟩, ⟨⟨XLINK, "href"⟩, "x.xsd#r"⟩]
def arcLinkAttrs : List Attr := [⟨⟨XLINK, "type"⟩, "extended"⟩, ⟨⟨XLINK, "role"⟩, "r"⟩]

/-- A linkbase with one arc, from the total to the cash. -/
def arcLinks (link arc : String) (attrs : List Attr) : Xml :=
  .mk ⟨LINK, "linkbase"⟩ [] "" "" [
    .mk ⟨LINK, "roleRef"⟩ arcRoleRef "" "" [],
    .mk ⟨LINK, link⟩ arcLinkAttrs "" "" [
      .mk ⟨LINK, "loc"⟩ (arcLocAttrs "x.xsd#x_Total" "total") "" "" [],
      .mk ⟨LINK, "loc"⟩ (arcLocAttrs "x.xsd#x_Cash" "cash") "" "" [],
      .mk ⟨LINK, arc⟩ attrs "" "" []]]

/-- What is decoded of it. -/
def arcFile (attrs : List Attr) : LinkbaseFile :=
  ⟨[⟨LINK, arcRoleRef⟩], [⟨arcLinkAttrs, [arcLocAttrs "x.xsd#x_Total" "total", arcLocAttrs "x.xsd#x_Cash" "cash"], [attrs], []⟩]⟩

def arcP : List Attr := arcAttrs PresentationArcrole []
def arcC : List Attr := arcAttrs CalculationArcrole [⟨⟨"", "weight"⟩, "-1"⟩]
def arcD : List Attr := arcAttrs DomainMemberArcrole []

def arcDisk : Disk where
  entryName := some "r.xml"
  images := []
  read := fun n => if n = "r.xml" then some reportXml else if n = "x.xsd" then some arcSchema
    else if n = "p.xml" then some (arcLinks "presentationLink" "presentationArc" arcP)
    else if n = "k.xml" then some (arcLinks "calculationLink" "calculationArc" arcC)
    else if n = "d.xml" then some (arcLinks "definitionLink" "definitionArc" arcD) else none
  fileExists := fun _ => true
  doc := fun _ => none
  isUrl := fun _ => false

def arcParse (s : String) : F64 × Bool := (F64.ofInt (if s = "-1" then -1 else 1), true)

def arcWorld : Hydrate.World := { diskWorld with parse := arcParse }

def arcSite : Site := { demoSite with disk := fun _ => arcDisk, outside := arcWorld, tree := forest 6 }

theorem arc_load : ∃ fo h, load arcDisk arcWorld 3 id = some (.done (some (fo, h))) ∧
    (∃ b, render arcSite (demoChoice h) demoSlug ⟨"a-1", arcWorld, fo, h⟩ = .done (some b, none)) ∧
    (listing arcDisk (entityQuery (.ok [])) h).subjects.map Subject.entity = [⟨"s", "1"⟩] ∧
    (listing arcDisk (entityQuery (.ok [])) h).rsets = [⟨"001 - A", "r"⟩] := by
  have he : (match load arcDisk arcWorld 3 id with
    | some (.done (some (fo, h))) =>
      (match render arcSite (demoChoice h) demoSlug ⟨"a-1", arcWorld, fo, h⟩ with
        | .done (some _, none) => true
        | _ => false) &&
      decide ((listing arcDisk (entityQuery (.ok [])) h).subjects.map Subject.entity = [⟨"s", "1"⟩]) &&
      decide ((listing arcDisk (entityQuery (.ok [])) h).rsets = [⟨"001 - A", "r"⟩])
    | _ => false) = true := by decide +kernel
  split at he
  · rename_i fo h hl
    simp only [Bool.and_eq_true, decide_eq_true_eq] at he
    obtain ⟨⟨h1, h2⟩, h3⟩ := he
    refine ⟨fo, h, hl, ?_, h2, h3⟩
    split at h1
    · exact ⟨_, ‹_›⟩
    · cases h1
  · cases he

theorem arc_loads {fo : Files} {h : Hydratable} (hl : load arcDisk arcWorld 3 id = some (.done (some (fo, h)))) :
    Loads arcSite "a-1" arcWorld fo h := by
  refine ⟨⟨_, _, _, _, _, _, _, rfl⟩, ⟨fun _ _ => .refl _, fun _ _ => .refl _, fun _ _ => .refl _, fun _ _ => .refl _, fun _ _ => .refl _⟩, 3, id,
    fun _ => .refl _, hl, fun fo x hf hx => ?_, Disc.realised_id _ _⟩
  have : (match Disc.discover arcDisk.env 3 id with
    | some (.ok fo) => fo.document.isSome
    | _ => false) = false := by decide +kernel
  change Disc.discover arcDisk.env 3 id = _ at hf
  rw [hf] at this
  simp [hx] at this

theorem arc_facts : Unambiguous arcDisk ∧ ReportsOn arcDisk ⟨"s", "1"⟩ ∧ RoleOfFolder arcDisk ⟨"001 - A", "r"⟩ ∧
    ∀ r, RoleOfFolder arcDisk r → r = ⟨"001 - A", "r"⟩ := by
  obtain ⟨fo, h, hl, _, h1, h2⟩ := arc_load
  have k1 := (C108_subjects hl (entityQuery (.ok []))).1
  have k2 := (C108_relationship_sets (fun _ => .refl _) hl (entityQuery (.ok []))).1
  rw [h1] at k1
  rw [h2] at k2
  simp only [List.mem_singleton] at k1 k2
  refine ⟨?_, (k1 _).1 rfl, (k2 _).1 rfl, fun r hr => (k2 r).2 hr⟩
  intro e₁ e₂ r₁ r₂ a b c d _
  rw [(k1 _).2 a, (k1 _).2 b, (k2 _).2 c, (k2 _).2 d]
  exact ⟨rfl, rfl⟩

/-- A history in which a client follows the catalog. -/
theorem arc_followed : ∃ b, Followed arcSite "a-1" "s/1" "r" b := by
  obtain ⟨fo, h, hl, ⟨b, hb⟩, _⟩ := arc_load
  obtain ⟨s, hs, hlog⟩ := follow_history (allowed := demoCalls) (.inl rfl) (.inr rfl) (arc_loads hl) ⟨_, _, _, demoSlug_eq⟩ (demoChoice_fair h) hb
  have hmem : (Req.catalog "a-1", Out.ret (Val.bytes (some (catalogBytes arcSite ⟨"a-1", arcWorld, fo, h⟩))) none) ∈ s.log := by
    rw [hlog]; exact List.mem_cons_of_mem _ List.mem_cons_self
  refine ⟨b, demoCalls, true, s, _, none, none, demoSlug, demoCalls_normal, hs, hmem, ?_, by rw [hlog]; exact List.mem_cons_self⟩
  rw [C124_catalog arcSite demoCalls demoCalls_normal true s hs "a-1" _ _ hmem]
  obtain ⟨_, f1, f2, f3⟩ := arc_facts
  refine ⟨⟨_, f1, by decide⟩, _, f2, rfl, demoSlug_eq, fun r' hr _ => ?_⟩
  rw [f3 r' hr]
  exact String.lt_irrefl _

theorem arcEntry : Disc.EntryInstance arcDisk.env "r.xml" diskInst :=
  ⟨"r.xml", rfl, rfl, .inr ⟨(Disc.plain_iff _).2 (by decide +kernel), rfl⟩⟩

theorem arcRead {l : String} {x : Xml} (h : arcDisk.read l = some x) :
    (l = "r.xml" ∧ x = reportXml) ∨ (l = "x.xsd" ∧ x = arcSchema) ∨
    (l = "p.xml" ∧ x = arcLinks "presentationLink" "presentationArc" arcP) ∨
    (l = "k.xml" ∧ x = arcLinks "calculationLink" "calculationArc" arcC) ∨
    (l = "d.xml" ∧ x = arcLinks "definitionLink" "definitionArc" arcD) := by
  simp only [arcDisk] at h
  split at h
  · cases h; exact .inl ⟨‹_›, rfl⟩
  · split at h
    · cases h; exact .inr (.inl ⟨‹_›, rfl⟩)
    · split at h
      · cases h; exact .inr (.inr (.inl ⟨‹_›, rfl⟩))
      · split at h
        · cases h; exact .inr (.inr (.inr (.inl ⟨‹_›, rfl⟩)))
        · split at h
          · cases h; exact .inr (.inr (.inr (.inr ⟨‹_›, rfl⟩)))
          · cases h

theorem arcRead_schema {l : String} {x : Xml} (h : arcDisk.read l = some x) (hx : x.name.loc = "schema") : l = "x.xsd" ∧ x = arcSchema := by
  rcases arcRead h with ⟨_, rfl⟩ | h | ⟨_, rfl⟩ | ⟨_, rfl⟩ | ⟨_, rfl⟩
  · exact absurd hx (by decide)
  · exact h
  · exact absurd hx (by decide)
  · exact absurd hx (by decide)
  · exact absurd hx (by decide)

theorem arcRefTo (i : Disc.Item) (hi : i ∈ diskInst.schemaRef) :
    ∃ f, discoveredSchema arcSchema = some f ∧ Disc.RefTo arcDisk.env i "http://x" "x.xsd" f := by
  obtain rfl := List.mem_singleton.1 hi
  refine ⟨_, rfl, rfl, ?_, ⟨by decide, rfl, rfl⟩, ?_, by decide⟩
  · rw [← plainAttr_iff]; decide
  · rw [← plainAttr_iff]; decide

theorem arcSchemaAt (web : String → Option SchemaFile) : SchemaAt arcDisk web diskInst "http://x" "x.xsd" arcSchema where
  located := by
    obtain ⟨f, _, h⟩ := arcRefTo _ (List.mem_singleton.2 rfl)
    exact .inl ⟨_, List.mem_singleton.2 rfl, f, h⟩
  only := by
    have hr : ∀ l f, arcDisk.env.readSchema l = some f → l = "x.xsd" := by
      intro l f h
      obtain ⟨x, hx, hs⟩ := Option.bind_eq_some_iff.1 (show (arcDisk.read l).bind discoveredSchema = some f from h)
      exact (arcRead_schema hx ((C99_schema x).2 f |>.1 hs).1).1
    have hr' : ∀ l f, arcDisk.env.readSchema l = some f → f.imp = [] ∧ f.incl = [] := by
      intro l f h
      obtain ⟨x, hx, hs⟩ := Option.bind_eq_some_iff.1 (show (arcDisk.read l).bind discoveredSchema = some f from h)
      obtain ⟨_, rfl⟩ := arcRead_schema hx ((C99_schema x).2 f |>.1 hs).1
      cases hs
      exact ⟨rfl, rfl⟩
    rintro l' (⟨i, _, f, _, _, hl, _⟩ | ⟨loc, f, hre, h⟩)
    · exact hr _ _ hl.2.2
    · obtain ⟨e1, e2⟩ := hr' _ _ (Disc.reach_read hre)
      rw [e1, e2] at h
      rcases h with ⟨_, h, _⟩ | ⟨_, h, _⟩ <;> cases h
  nonempty := by decide
  source := .inl ⟨rfl, rfl⟩
  root := rfl
  noHash := by decide

def totalConcept : Concept := ⟨⟨"http://x", "Total"⟩, "x_Total", ⟨"", "t"⟩, ⟨"", ""⟩, false, "", "", false, ""⟩

theorem arcDeclared {c : Concept} : DeclaredIn arcSchema "x.xsd" c ↔ c = diskConcept ∨ c = totalConcept := by
  have key : ∀ c, ConceptOf arcSchema.attrs "x.xsd" ⟨Disc.XSD, [⟨⟨"", "id"⟩, "x_Cash"⟩, ⟨⟨"", "name"⟩, "Cash"⟩, ⟨⟨"", "type"⟩, "t"⟩]⟩ c ↔
      c = diskConcept := by
    intro c
    rw [← hydrateConcept_iff]
    rw [show hydrateConcept arcSchema.attrs "x.xsd" ⟨Disc.XSD, [⟨⟨"", "id"⟩, "x_Cash"⟩, ⟨⟨"", "name"⟩, "Cash"⟩, ⟨⟨"", "type"⟩, "t"⟩]⟩ =
      some diskConcept by decide +kernel]
    simp [eq_comm]
  have key' : ∀ c, ConceptOf arcSchema.attrs "x.xsd" ⟨Disc.XSD, [⟨⟨"", "id"⟩, "x_Total"⟩, ⟨⟨"", "name"⟩, "Total"⟩, ⟨⟨"", "type"⟩, "t"⟩]⟩ c ↔
      c = totalConcept := by
    intro c
    rw [← hydrateConcept_iff]
    rw [show hydrateConcept arcSchema.attrs "x.xsd" ⟨Disc.XSD, [⟨⟨"", "id"⟩, "x_Total"⟩, ⟨⟨"", "name"⟩, "Total"⟩, ⟨⟨"", "type"⟩, "t"⟩]⟩ =
      some totalConcept by decide +kernel]
    simp [eq_comm]
  constructor
  · rintro ⟨e, he, hn, hc⟩
    simp only [arcSchema, Xml.kids, List.mem_cons, List.not_mem_nil, or_false] at he
    rcases he with rfl | rfl | rfl
    · exact absurd hn (by decide)
    · exact .inl ((key c).1 hc)
    · exact .inr ((key' c).1 hc)
  · rintro (rfl | rfl)
    · exact ⟨_, List.mem_of_getElem? (i := 1) rfl, rfl, (key _).2 rfl⟩
    · exact ⟨_, List.mem_of_getElem? (i := 2) rfl, rfl, (key' _).2 rfl⟩

theorem arcKnown : KnownConcept arcDisk arcWorld.discover "x.xsd#x_Cash" ∧ KnownConcept arcDisk arcWorld.discover "x.xsd#x_Total" := by
  constructor
  · refine ⟨"r.xml", diskInst, diskConcept, "x.xsd", arcSchema, arcEntry, arcSchemaAt _, arcDeclared.2 (.inl rfl), ?_, by decide⟩
    intro c' hc' h
    rcases arcDeclared.1 hc' with rfl | rfl
    · rfl
    · exact absurd h (by decide)
  · refine ⟨"r.xml", diskInst, totalConcept, "x.xsd", arcSchema, arcEntry, arcSchemaAt _, arcDeclared.2 (.inr rfl), ?_, by decide⟩
    intro c' hc' h
    rcases arcDeclared.1 hc' with rfl | rfl
    · exact absurd h (by decide)
    · rfl

theorem arcRefers (attrs : List Attr) : RefersTo (arcFile attrs) "r" := by
  refine ⟨_, List.mem_singleton.2 rfl, ⟨"r", "x.xsd#r"⟩, ⟨rfl, ?_, by decide, ?_, by decide⟩, rfl⟩
  · rw [← plainAttr_iff]; decide
  · rw [xlinkVal_iff]; decide

theorem arcRole (attrs : List Attr) : ∀ e ∈ (arcFile attrs).links, HasRole e "r" := by
  intro e he
  obtain rfl := List.mem_singleton.1 he
  rw [← linkRole_iff]
  change linkRole arcLinkAttrs = some "r"
  decide +kernel

theorem arcElem (attrs x : List Attr) : ArcElem (arcFile attrs).links "r" x ↔ x = attrs := by
  constructor
  · rintro ⟨e, he, _, hx⟩
    obtain rfl := List.mem_singleton.1 he
    exact List.mem_singleton.1 hx
  · rintro rfl
    exact ⟨_, List.mem_singleton.2 rfl, arcRole x _ (List.mem_singleton.2 rfl), List.mem_singleton.2 rfl⟩

theorem arcLabels (attrs : List Attr) : LabelFor (arcFile attrs).links "r" "total" "x.xsd#x_Total" ∧
    LabelFor (arcFile attrs).links "r" "cash" "x.xsd#x_Cash" := by
  have l1 : hydrateLoc (arcLocAttrs "x.xsd#x_Total" "total") = some ⟨"x.xsd#x_Total", "total"⟩ := by decide +kernel
  have l2 : hydrateLoc (arcLocAttrs "x.xsd#x_Cash" "cash") = some ⟨"x.xsd#x_Cash", "cash"⟩ := by decide +kernel
  have all : ∀ e ∈ (arcFile attrs).links, ∀ x ∈ e.locs, ∀ l, LocOf x l → l = ⟨"x.xsd#x_Total", "total"⟩ ∨ l = ⟨"x.xsd#x_Cash", "cash"⟩ := by
    intro e he x hx l hl
    obtain rfl := List.mem_singleton.1 he
    simp only [List.mem_cons, List.not_mem_nil, or_false] at hx
    rw [← hydrateLoc_iff] at hl
    rcases hx with rfl | rfl
    · rw [l1] at hl; exact .inl (Option.some.inj hl).symm
    · rw [l2] at hl; exact .inr (Option.some.inj hl).symm
  constructor
  · refine ⟨by decide, ⟨_, List.mem_singleton.2 rfl, arcRole attrs _ (List.mem_singleton.2 rfl), _, List.mem_of_getElem? (i := 0) rfl, (hydrateLoc_iff _ _).1 l1⟩, ?_⟩
    intro e he _ x hx l hl hlab
    rcases all e he x hx l hl with rfl | rfl
    · rfl
    · exact absurd hlab (by decide)
  · refine ⟨by decide, ⟨_, List.mem_singleton.2 rfl, arcRole attrs _ (List.mem_singleton.2 rfl), _, List.mem_of_getElem? (i := 1) rfl, (hydrateLoc_iff _ _).1 l2⟩, ?_⟩
    intro e he _ x hx l hl hlab
    rcases all e he x hx l hl with rfl | rfl
    · exact absurd hlab (by decide)
    · rfl

theorem arcHeld (kind : Disc.LKind) (name : String) (x : Xml) (attrs : List Attr) (hread : arcDisk.read name = some x)
    (hx : linkbaseFile kind x = some (arcFile attrs))
    (hl : ∃ f, discoveredSchema arcSchema = some f ∧ Disc.LinkIn arcDisk.env f kind name) : HeldBy arcDisk kind "r" name (arcFile attrs) := by
  obtain ⟨f, hf, hl⟩ := hl
  obtain ⟨f', hf', href⟩ := arcRefTo _ (List.mem_singleton.2 rfl)
  rw [hf] at hf'
  cases hf'
  obtain ⟨h1, h2⟩ := (C99_linkbase kind x _).1 hx
  exact ⟨⟨x, ⟨⟨"r.xml", diskInst, "x.xsd", f, arcEntry, .root _ _ ⟨_, List.mem_singleton.2 rfl, _, href⟩, hl⟩, hread, h1⟩, h2⟩, arcRefers attrs,
    _, List.mem_singleton.2 rfl, arcRole attrs _ (List.mem_singleton.2 rfl)⟩

/-- Only the linkbase with links of the kind holds the role. -/
theorem arcOnly (kind : Disc.LKind) (name : String) (attrs : List Attr) (h : HeldBy arcDisk kind "r" name (arcFile attrs))
    (hno : ∀ l ∈ ["p.xml", "k.xml", "d.xml"], l ≠ name → ((arcDisk.read l).bind (linkbaseFile kind)).map LinkbaseFile.links = some []) :
    OnlyHeldBy arcDisk kind "r" (arcFile attrs) := by
  refine ⟨name, h, fun name' file' h' => ?_⟩
  obtain ⟨⟨x, ⟨_, hr, hn⟩, hi⟩, _, e, he, _⟩ := h'
  have hf := (C99_linkbase kind x file').2 ⟨hn, hi⟩
  by_contra hne
  have hm : name' ∈ ["p.xml", "k.xml", "d.xml"] := by
    rcases arcRead hr with ⟨_, rfl⟩ | ⟨_, rfl⟩ | ⟨rfl, _⟩ | ⟨rfl, _⟩ | ⟨rfl, _⟩
    · exact absurd hn (by decide)
    · exact absurd hn (by decide)
    · simp
    · simp
    · simp
  have := hno name' hm hne
  rw [hr] at this
  simp only [Option.bind_some, hf, Option.map_some, Option.some.injEq] at this
  rw [this] at he
  cases he

theorem arcLinkIn (kind : Disc.LKind) (name : String) (hname : name ≠ "")
    (hm : arcRef kind name ∈ [arcRef .pre "p.xml", arcRef .calc "k.xml", arcRef .defn "d.xml"])
    (hk : kind.role = Disc.refRole kind) :
    ∃ f, discoveredSchema arcSchema = some f ∧ Disc.LinkIn arcDisk.env f kind name := by
  refine ⟨_, rfl, _, List.mem_singleton.2 rfl, rfl, _, List.mem_singleton.2 rfl, rfl, ⟨LINK, (arcRef kind name).attrs⟩, ?_, rfl, ?_⟩
  · have h3 : (arcRef .pre "p.xml" :: arcRef .calc "k.xml" :: [arcRef .defn "d.xml"]).map (fun y : Xml => (⟨y.name.space, y.attrs⟩ : Disc.Item)) =
        [⟨LINK, (arcRef .pre "p.xml").attrs⟩, ⟨LINK, (arcRef .calc "k.xml").attrs⟩, ⟨LINK, (arcRef .defn "d.xml").attrs⟩] := rfl
    have := List.mem_map_of_mem (f := fun y : Xml => (⟨y.name.space, y.attrs⟩ : Disc.Item)) hm
    rw [h3] at this
    exact this
  · rw [← hk]
    refine ⟨?_, ?_, ?_, ?_, hname, rfl⟩ <;> rw [xlinkVal_iff] <;> cases kind <;> rfl

theorem arcHeldAll : OnlyHeldBy arcDisk .calc "r" (arcFile arcC) ∧ OnlyHeldBy arcDisk .pre "r" (arcFile arcP) ∧
    HeldBy arcDisk .defn "r" "d.xml" (arcFile arcD) := by
  refine ⟨arcOnly _ "k.xml" _ (arcHeld _ _ _ _ rfl rfl (arcLinkIn _ _ (by decide) (by simp) rfl)) ?_,
    arcOnly _ "p.xml" _ (arcHeld _ _ _ _ rfl rfl (arcLinkIn _ _ (by decide) (by simp) rfl)) ?_,
    arcHeld _ _ _ _ rfl rfl (arcLinkIn _ _ (by decide) (by simp) rfl)⟩
  · intro l hl hne
    simp only [List.mem_cons, List.not_mem_nil, or_false] at hl
    rcases hl with rfl | rfl | rfl
    · rfl
    · exact absurd rfl hne
    · rfl
  · intro l hl hne
    simp only [List.mem_cons, List.not_mem_nil, or_false] at hl
    rcases hl with rfl | rfl | rfl
    · exact absurd rfl hne
    · rfl
    · rfl

/-- The hypotheses of `C171_calculation` hold of the site, and the client finds that the cash is subtracted. -/
example : ∃ b v, Followed arcSite "a-1" "s/1" "r" b ∧ IsText (decodeUtf8 b) v ∧ SummandShown v "x.xsd#x_Total" "x.xsd#x_Cash" "-" "1.0" := by
  obtain ⟨b, hb⟩ := arc_followed
  have ha : CArcOf arcSite.outside.parse arcC ⟨F64.ofInt 1, CalculationArcrole, "total", "cash", F64.ofInt (-1)⟩ :=
    (calculationArc_iff _ _ _).1 (by decide +kernel)
  obtain ⟨v, hv, sign, scale, hs, h1, h2, h3⟩ := C171_calculation arcSite "a-1" "s/1" "r" b hb arc_facts.1 rfl (arcFile arcC) arcHeldAll.1
    (fun x _ s _ => by change F64.ofInt _ ≠ .nan; intro h; cases h) arcC ((arcElem _ _).2 rfl) _ ha rfl _ _ (arcLabels _).1 (arcLabels _).2 arcKnown.2 arcKnown.1
  refine ⟨b, v, hb, (hv v).2 rfl, ?_⟩
  have e1 : sign = "-" := h1.2 (.inr ⟨-1 * 2 ^ 1074, by decide +kernel, rfl⟩)
  obtain ⟨q, hq, q1, q2⟩ := h3 (-1 * 2 ^ 1074) rfl
  have : q = 10 := by
    have hz : (-1 * 2 ^ 1074 : Int).natAbs = 2 ^ 1074 := by decide +kernel
    rw [hz] at q1 q2
    have hp : 0 < (2 : Nat) ^ 1074 := Nat.two_pow_pos _
    generalize (2 : Nat) ^ 1074 = u at *
    have a1 : 20 * u ≤ (2 * q + 1) * u := by omega
    have a2 : (2 * q) * u ≤ 21 * u := by omega
    have := Nat.le_of_mul_le_mul_right a1 hp
    have := Nat.le_of_mul_le_mul_right a2 hp
    omega
  subst this
  rw [e1, hq, show tenthsText 10 = "1.0" by decide +kernel] at hs
  exact hs

theorem arcTree : TreeGood arcSite.tree arcSite.outside.parse (arcFile arcP).links "r" ∧ NoCycle (arcFile arcP).links "r" := by
  have only : ∀ frm dest, ArcEnds arcP "http://www.xbrl.org/2003/arcrole/parent-child" frm dest → frm = "total" ∧ dest = "cash" := by
    rintro frm dest ⟨_, _, _, h1, _, h2, _⟩
    rw [xlinkVal_iff] at h1 h2
    rw [show xlinkAttr arcP "from" = some "total" by decide +kernel] at h1
    rw [show xlinkAttr arcP "to" = some "cash" by decide +kernel] at h2
    exact ⟨(Option.some.inj h1).symm, (Option.some.inj h2).symm⟩
  constructor
  · intro arcs harcs
    refine forest_isForest arcs _ (fun l => if l = "total" then 0 else 1) 5 fun a ha har => ?_
    obtain ⟨x, pa, hx, hpa, rfl⟩ := (harcs a).1 ha
    obtain rfl := (arcElem _ _).1 hx
    simp only at har
    have := hpa.1
    rw [har] at this
    obtain ⟨e1, e2⟩ := only _ _ this
    simp [e1, e2]
  · refine ⟨fun l => if l = "total" then 0 else 1, fun x hx frm dest h => ?_⟩
    obtain rfl := (arcElem _ _).1 hx
    obtain ⟨rfl, rfl⟩ := only _ _ h
    decide

/-- The hypotheses of `C171_presentation` hold of the site. -/
example : ∃ b v i j n, Followed arcSite "a-1" "s/1" "r" b ∧ IsText (decodeUtf8 b) v ∧ RowBelow v i j ∧ LevelRow v i "x.xsd#x_Total" n ∧
    LevelRow v j "x.xsd#x_Cash" (n + 1) := by
  obtain ⟨b, hb⟩ := arc_followed
  have ha : PArcOf arcSite.outside.parse arcP ⟨F64.ofInt 1, PresentationArcrole, "total", "cash", ""⟩ :=
    (presentationArc_iff _ _ _).1 (by decide +kernel)
  obtain ⟨v, hv, i, j, n, h⟩ := C171_presentation arcSite "a-1" "s/1" "r" b hb arc_facts.1 (arcFile arcP) arcHeldAll.2.1 arcTree.1 arcTree.2
    arcP ((arcElem _ _).2 rfl) _ ha rfl _ _ (arcLabels _).1 (arcLabels _).2
  exact ⟨b, v, i, j, n, hb, (hv v).2 rfl, h⟩

/-- The hypotheses of `C171_definition` hold of the site. -/
example : ∃ b v i l, Followed arcSite "a-1" "s/1" "r" b ∧ IsText (decodeUtf8 b) v ∧ LinkAt v i l ∧ l.source = "x.xsd#x_Total" ∧
    l.target = "x.xsd#x_Cash" ∧ l.domainMember.isSome := by
  obtain ⟨b, hb⟩ := arc_followed
  have ha : DefArcOf arcSite.outside.parse arcD ⟨F64.ofInt 1, DomainMemberArcrole, "total", "cash", false, false, "", ""⟩ := by
    refine ⟨(((definitionArc_iff _ _ _).1 (by decide +kernel :
      definitionArc arcParse arcD = some ⟨F64.ofInt 1, DomainMemberArcrole, "total", "cash", false, false, "", ""⟩))).1, rfl, ?_⟩
    refine ⟨fun h => (Bool.false_ne_true h).elim, fun ⟨s, hs, _⟩ => ?_⟩
    obtain ⟨b, hb, _⟩ := (attrVal_iff _ _ _).1 hs
    rw [show findAttr arcD "usable" = none by decide +kernel] at hb
    cases hb
  obtain ⟨v, hv, i, l, h1, h2, h3, _, h4⟩ := C171_definition arcSite "a-1" "s/1" "r" b hb arc_facts.1 "d.xml" (arcFile arcD) arcHeldAll.2.2
    arcD ((arcElem _ _).2 rfl) _ ha "r" rfl (arcRefers _) _ _ (arcLabels _).1 (arcLabels _).2
  refine ⟨b, v, i, l, hb, (hv v).2 rfl, h1, h2, h3, ?_⟩
  rw [(h4.member _).2 ⟨rfl, rfl⟩]
  rfl

end Telefacts
