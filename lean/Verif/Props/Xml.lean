import Verif.Spec.Xml
import Verif.Props.Instance
/-! # C99, C100: decoding files -/
namespace Telefacts
open Telefacts.Decode Telefacts.Instance Telefacts.Linkbase Telefacts.Schema Telefacts.Spec

theorem kids_iff {α : Type} {R : Xml → α → Prop} {f : Xml → α} (h : ∀ k y, R k y ↔ y = f k) (n : String) (x : Xml) (l : List α) :
    Kids n R x l ↔ l = (x.named n).map f := by
  unfold Kids Xml.named
  rw [collected_iff (f := fun k => if k.name.loc = n then some (f k) else none)]
  · rw [← List.filterMap_eq_map, List.filterMap_filter]
    simp only [decide_eq_true_eq, Function.comp_apply]
  · intro k y
    rw [h]
    split <;> simp_all [eq_comm]

theorem hasAttrs_iff (k : Xml) (y : List Attr) : HasAttrs k y ↔ y = k.attrs := Iff.rfl
theorem hasText_iff' (k : Xml) (y : String) : HasText k y ↔ y = k.chars := Iff.rfl
theorem hasAttrsText_iff (k : Xml) (y : List Attr × String) : HasAttrsText k y ↔ y = (k.attrs, k.chars) := by
  cases y; simp [HasAttrsText]
theorem hasAttrsSource_iff (k : Xml) (y : List Attr × String) : HasAttrsSource k y ↔ y = (k.attrs, k.inner) := by
  cases y; simp [HasAttrsSource]
theorem isItem_iff (k : Xml) (y : Disc.Item) : IsItem k y ↔ y = item k := by cases y; simp [IsItem, item]

theorem isDims_iff (k : Xml) (y : DimElem) : IsDims k y ↔ y = dims k := by
  cases y
  rw [IsDims, kids_iff (f := fun m => ⟨m.attrs, m.chars⟩), kids_iff (f := fun m => ⟨m.attrs, m.inner⟩)]
  · simp [dims]
  all_goals intro k y; cases y; simp

theorem isEntity_iff (k : Xml) (y : EntityElem) : IsEntity k y ↔ y = entity k := by
  cases y
  rw [IsEntity, kids_iff hasAttrsText_iff, kids_iff isDims_iff]
  simp [entity]

theorem isPeriod_iff (k : Xml) (y : PeriodElem) : IsPeriod k y ↔ y = period k := by
  cases y
  rw [IsPeriod, kids_iff hasText_iff', kids_iff hasText_iff', kids_iff hasText_iff']
  simp [period]

theorem isContext_iff (k : Xml) (y : CtxElem) : IsContext k y ↔ y = context k := by
  cases y
  rw [IsContext, kids_iff isEntity_iff, kids_iff isPeriod_iff, kids_iff isDims_iff]
  simp [context]

theorem isDivide_iff (k : Xml) (y : DivideElem) : IsDivide k y ↔ y = divide k := by
  cases y
  rw [IsDivide, kids_iff (kids_iff hasText_iff' "measure"), kids_iff (kids_iff hasText_iff' "measure")]
  simp [divide]

theorem isUnit_iff (k : Xml) (y : UnitElem) : IsUnit k y ↔ y = unit k := by
  cases y
  rw [IsUnit, kids_iff hasText_iff', kids_iff isDivide_iff]
  simp [unit]

theorem isFootnoteLink_iff (k : Xml) (y : FootnoteLinkElem) : IsFootnoteLink k y ↔ y = footnoteLink k := by
  cases y
  rw [IsFootnoteLink, kids_iff hasAttrs_iff, kids_iff hasAttrs_iff, kids_iff hasAttrsSource_iff]
  simp [footnoteLink]

theorem isFact_iff (k : Xml) (y : FactElem) : IsFact k y ↔ y = fact k := by
  cases y; simp [IsFact, fact]

theorem factKids_iff (x : Xml) (l : List FactElem) :
    Collected (fun k y => ¬ Reserved k.name.loc ∧ IsFact k y) x.kids l ↔
      l = (x.others ["schemaRef", "context", "unit", "footnoteLink"]).map fact := by
  unfold Xml.others
  rw [collected_iff (f := fun k => if k.name.loc ∉ ["schemaRef", "context", "unit", "footnoteLink"] then some (fact k) else none)]
  · rw [← List.filterMap_eq_map, List.filterMap_filter]
    simp only [decide_eq_true_eq, Function.comp_apply]
  · intro k y
    rw [isFact_iff]
    split <;> rename_i h <;> simp only [List.mem_cons, List.not_mem_nil, or_false] at h
    · rw [Option.some.injEq]
      exact ⟨fun e => ⟨h, e.symm⟩, fun e => e.2.symm⟩
    · simp only [reduceCtorEq, false_iff, not_and]
      exact fun e => absurd e h

theorem isInstance_iff (x : Xml) (f : InstFile) (hx : x.name.loc = "xbrl") : IsInstance x f ↔ instanceFile x = some f := by
  cases f
  rw [IsInstance, kids_iff isItem_iff, kids_iff isContext_iff, kids_iff isUnit_iff, kids_iff isFootnoteLink_iff, factKids_iff]
  simp only [instanceFile, if_pos hx, Option.some.injEq, InstFile.mk.injEq]
  constructor <;> · rintro ⟨a, b, c, d, e, f⟩; exact ⟨a.symm, b.symm, c.symm, d.symm, e.symm, f.symm⟩

/-- **C99.** Decoding an instance fails iff the root has another local name than `xbrl`; otherwise every child element of
the root becomes, in document order, an entry of exactly the list its local name selects (a fact if it selects none), with
its attributes and contents. -/
theorem C99_instance (x : Xml) :
    (instanceFile x = none ↔ x.name.loc ≠ "xbrl") ∧
    ∀ f, instanceFile x = some f ↔ x.name.loc = "xbrl" ∧ IsInstance x f := by
  constructor
  · unfold instanceFile; split <;> simp_all
  · intro f
    by_cases hx : x.name.loc = "xbrl"
    · rw [isInstance_iff x f hx]; simp [hx]
    · simp [instanceFile, hx]

/-- An instance with a context, a fact, a unit, a fact of a company whose concept is called `unit` and a tuple of facts. -/
def reportXml : Xml :=
  .mk ⟨XBRLI, "xbrl"⟩ [⟨⟨"xmlns", "x"⟩, "http://x"⟩] "" "" [
    .mk ⟨LINK, "schemaRef"⟩ [⟨⟨XLINK, "href"⟩, "x.xsd"⟩] "" "" [],
    .mk ⟨XBRLI, "context"⟩ [⟨⟨"", "id"⟩, "c"⟩] "" "" [
      .mk ⟨XBRLI, "entity"⟩ [] "" "" [.mk ⟨XBRLI, "identifier"⟩ [⟨⟨"", "scheme"⟩, "s"⟩] "1" "1" []],
      .mk ⟨XBRLI, "period"⟩ [] "" "" [.mk ⟨XBRLI, "instant"⟩ [] "2020-12-31" "2020-12-31" []]],
    .mk ⟨"http://x", "Cash"⟩ [⟨⟨"", "contextRef"⟩, "c"⟩, ⟨⟨"", "unitRef"⟩, "usd"⟩, ⟨⟨"", "id"⟩, "f1"⟩] "100" "100" [],
    .mk ⟨XBRLI, "unit"⟩ [⟨⟨"", "id"⟩, "usd"⟩] "" "" [.mk ⟨XBRLI, "measure"⟩ [] "iso4217:USD" "iso4217:USD" []],
    .mk ⟨"http://x", "unit"⟩ [⟨⟨"", "contextRef"⟩, "c"⟩, ⟨⟨"", "id"⟩, "f2"⟩] "7" "7" [],
    .mk ⟨"http://x", "Holder"⟩ [⟨⟨"", "id"⟩, "f3"⟩] "" "<x:A contextRef=\"c\">8</x:A>" [
      .mk ⟨"http://x", "A"⟩ [⟨⟨"", "contextRef"⟩, "c"⟩] "8" "8" []]]

example : (instanceFile reportXml).map InstFile.contexts =
      some [⟨XBRLI, [⟨⟨"", "id"⟩, "c"⟩], [⟨[([⟨⟨"", "scheme"⟩, "s"⟩], "1")], []⟩], [⟨["2020-12-31"], [], []⟩], []⟩] ∧
    (instanceFile reportXml).map InstFile.units =
      some [⟨XBRLI, [⟨⟨"", "id"⟩, "usd"⟩], ["iso4217:USD"], []⟩, ⟨"http://x", [⟨⟨"", "contextRef"⟩, "c"⟩, ⟨⟨"", "id"⟩, "f2"⟩], [], []⟩] ∧
    (instanceFile reportXml).map (fun f => f.facts.map fun e => (e.name.loc, e.inner)) =
      some [("Cash", "100"), ("Holder", "<x:A contextRef=\"c\">8</x:A>")] := by decide +kernel

/-- A fact element of the instance: a child of the root, or of a tuple (a child that is neither context nor unit nor a
link). -/
def FactElement (x k : Xml) : Prop :=
  k ∈ x.kids ∨ ∃ t ∈ x.kids, t.name.space ≠ XBRLI ∧ t.name.space ≠ LINK ∧ k ∈ t.kids

/-- **C100 (partial).** Every child of the root that is a fact of a known concept with a context is a fact of the hydrated
instance, and there are no others. Missing: concepts with the local name of an element of the instance schema, facts in
tuples (`C100_fails`). -/
theorem C100_kept_partial (w : World) (x : Xml) (file : InstFile) (h : instanceFile x = some file) :
    (∀ k ∈ x.kids, ¬ Reserved k.name.loc → ∀ e f, IsFact k e → FactOf w e f → f ∈ hydrateFacts w file.facts) ∧
    ∀ f ∈ hydrateFacts w file.facts, ∃ k ∈ x.kids, ¬ Reserved k.name.loc ∧ ∃ e, IsFact k e ∧ FactOf w e f := by
  obtain ⟨_, _, _, _, _, _, hf⟩ := ((C99_instance x).2 file).1 h
  obtain ⟨l, hc, hs⟩ := C22_facts w file.facts
  constructor
  · intro k hk hr e f he hfo
    have h1 : e ∈ file.facts := by
      rw [(factKids_iff _ _).1 hf, (isFact_iff _ _).1 he]
      refine List.mem_map_of_mem ?_
      simpa [Xml.others, hk, Reserved] using hr
    rw [hs.1.mem_iff, (collected_iff (hydrateFact_iff w) _ _).1 hc]
    exact List.mem_filterMap.2 ⟨e, h1, (hydrateFact_iff w e f).2 hfo⟩
  · intro f hfm
    rw [hs.1.mem_iff] at hfm
    obtain ⟨e, he, hfo⟩ := collected_mem hc f hfm
    obtain ⟨k, hk, hr, hke⟩ := collected_mem hf e he
    exact ⟨k, hk, hr, e, hke, hfo⟩

/-- **C100 (exact).** When every fact element is read: when every one that gives a fact, but is in a tuple or has a reserved name, has
beside the tuples a child of the root with a name that is not reserved and that gives the same fact. -/
theorem C100_exact (w : World) (x : Xml) (file : InstFile) (h : instanceFile x = some file) :
    (∀ k, FactElement x k → ∀ e f, IsFact k e → FactOf w e f → f ∈ hydrateFacts w file.facts) ↔
    ∀ k, FactElement x k → (k ∉ x.kids ∨ Reserved k.name.loc) → ∀ e f, IsFact k e → FactOf w e f →
      ∃ k' ∈ x.kids, ¬ Reserved k'.name.loc ∧ ∃ e', IsFact k' e' ∧ FactOf w e' f := by
  obtain ⟨h1, h2⟩ := C100_kept_partial w x file h
  constructor
  · intro ha k hk _ e f he hf
    exact h2 f (ha k hk e f he hf)
  · intro ha k hk e f he hf
    by_cases hc : k ∉ x.kids ∨ Reserved k.name.loc
    · obtain ⟨k', hk', hr, e', he', hf'⟩ := ha k hk hc e f he hf
      exact h1 k' hk' hr e' f he' hf'
    · rw [not_or, not_not] at hc
      exact h1 k hc.1 hc.2 e f he hf

def unitWorld : World :=
  { instWorld with env := ⟨[("http://x", "x.xsd")], [("x.xsd", { instFile with elements := ["Cash", "unit", "A"].map fun n =>
      ⟨XSD, [⟨⟨"", "id"⟩, "x_" ++ n⟩, ⟨⟨"", "name"⟩, n⟩, ⟨⟨"", "type"⟩, "t"⟩]⟩ })], fun _ => false, fun _ => none⟩ }

/-- A fact whose concept is called `unit` and a fact in a tuple are lost, although both concepts are known. -/
theorem C100_fails : ∃ (w : World) (x : Xml) (file : InstFile) (k k' : Xml) (f f' : Fact), instanceFile x = some file ∧
    k ∈ x.kids ∧ Reserved k.name.loc ∧ FactOf w (fact k) f ∧ f ∉ hydrateFacts w file.facts ∧
    FactElement x k' ∧ ¬ Reserved k'.name.loc ∧ FactOf w (fact k') f' ∧ f' ∉ hydrateFacts w file.facts := by
  have e : ((instanceFile reportXml).map fun file => hydrateFacts unitWorld file.facts) =
      some [⟨"x.xsd#x_Cash", "f1", "c", "usd", -2147483647, false, "100"⟩] := by decide +kernel
  obtain ⟨file, hfile, he⟩ := Option.map_eq_some_iff.1 e
  refine ⟨unitWorld, reportXml, file,
    .mk ⟨"http://x", "unit"⟩ [⟨⟨"", "contextRef"⟩, "c"⟩, ⟨⟨"", "id"⟩, "f2"⟩] "7" "7" [],
    .mk ⟨"http://x", "A"⟩ [⟨⟨"", "contextRef"⟩, "c"⟩] "8" "8" [],
    ⟨"x.xsd#x_unit", "f2", "c", "", -2147483647, false, "7"⟩, ⟨"x.xsd#x_A", "", "c", "", -2147483647, false, "8"⟩, hfile, ?_, ?_, ?_, ?_,
    .inr ⟨_, List.mem_of_getElem? (i := 5) rfl, ?_, ?_, List.mem_singleton.2 rfl⟩, ?_, ?_, ?_⟩
  · exact List.mem_of_getElem? (i := 4) rfl
  · simp [Reserved, Xml.name]
  · rw [← hydrateFact_iff]; decide +kernel
  · rw [he]; decide
  · decide
  · decide
  · simp [Reserved, Xml.name]
  · rw [← hydrateFact_iff]; decide +kernel
  · rw [he]; decide

example : FactOf unitWorld (fact (.mk ⟨"http://x", "Cash"⟩ [⟨⟨"", "contextRef"⟩, "c"⟩, ⟨⟨"", "unitRef"⟩, "usd"⟩, ⟨⟨"", "id"⟩, "f1"⟩]
    "100" "100" [])) ⟨"x.xsd#x_Cash", "f1", "c", "usd", -2147483647, false, "100"⟩ := by
  rw [← hydrateFact_iff]; decide +kernel

theorem isRoleType_iff (k : Xml) (y : RoleTypeElem) : IsRoleType k y ↔ y = roleType k := by
  cases y
  rw [IsRoleType, kids_iff hasText_iff', kids_iff (f := fun u => (u.name.space, u.chars))]
  · simp [roleType]
  · intro k y; cases y; simp

theorem C99_schema (x : Xml) :
    (∀ f, schemaFile x = some f ↔ x.name.loc = "schema" ∧ IsSchema x f) ∧
    ∀ f, discoveredSchema x = some f ↔ x.name.loc = "schema" ∧ IsDiscovered x f ∧ f.rest = 0 := by
  constructor
  · intro f
    cases f
    rw [IsSchema, kids_iff (f := fun e => (⟨e.name.space, e.attrs⟩ : Elem)), kids_iff (f := fun a => (⟨a.name.space,
      (a.named "appinfo").map fun i => ⟨i.name.space, (i.named "roleType").map roleType⟩⟩ : AnnotationElem))]
    · unfold schemaFile
      split <;> rename_i h
      · simp only [Option.some.injEq, SchemaFile.mk.injEq, h, true_and]
        constructor <;> · rintro ⟨a, b, c⟩; exact ⟨a.symm, b.symm, c.symm⟩
      · simp [h]
    · intro k y
      cases y
      rw [kids_iff (f := fun i => (⟨i.name.space, (i.named "roleType").map roleType⟩ : AppinfoElem))]
      · simp
      · intro k y; cases y; rw [kids_iff isRoleType_iff]; simp
    · intro k y; cases y; simp
  · intro f
    cases f
    rw [IsDiscovered, kids_iff isItem_iff, kids_iff isItem_iff, kids_iff (f := fun a => (⟨a.name.space,
      (a.named "appinfo").map fun i => ⟨i.name.space, (i.named "linkbaseRef").map item⟩⟩ : Disc.Annotation))]
    · unfold discoveredSchema
      split <;> rename_i h
      · simp only [Option.some.injEq, Disc.SchemaFile.mk.injEq, h, true_and]
        constructor
        · rintro ⟨a, b, c, d, e⟩; exact ⟨⟨a.symm, b.symm, c.symm, d.symm⟩, e.symm⟩
        · rintro ⟨⟨a, b, c, d⟩, e⟩; exact ⟨a.symm, b.symm, c.symm, d.symm, e.symm⟩
      · simp [h]
    · intro k y
      cases y
      rw [kids_iff (f := fun i => (⟨i.name.space, (i.named "linkbaseRef").map item⟩ : Disc.Appinfo))]
      · simp
      · intro k y; cases y; rw [kids_iff isItem_iff]; simp

theorem isLink_iff (kind : Disc.LKind) (arc : String) (k : Xml) (y : LinkElem) : IsLink kind arc k y ↔
    y = ⟨k.attrs, (k.named "loc").map Xml.attrs, (k.named arc).map Xml.attrs,
        if kind = .lab then (k.named "label").map fun l => (l.attrs, l.chars) else []⟩ := by
  cases y
  rw [IsLink, kids_iff hasAttrs_iff, kids_iff hasAttrs_iff, kids_iff hasAttrsText_iff]
  by_cases h : kind = .lab <;> simp [h]

theorem linkNames_iff (kind : Disc.LKind) (link arc : String) : LinkNames kind link arc ↔ link = linkTag kind ∧ arc = arcTag kind := by
  cases kind <;> simp [LinkNames, linkTag, arcTag]

theorem C99_linkbase (kind : Disc.LKind) (x : Xml) (f : LinkbaseFile) :
    linkbaseFile kind x = some f ↔ x.name.loc = "linkbase" ∧ IsLinkbase kind x f := by
  have h1 : IsLinkbase kind x f ↔ f = ⟨(x.named "roleRef").map fun r => ⟨r.name.space, r.attrs⟩,
      (x.named (linkTag kind)).map fun k => ⟨k.attrs, (k.named "loc").map Xml.attrs, (k.named (arcTag kind)).map Xml.attrs,
        if kind = .lab then (k.named "label").map fun l => (l.attrs, l.chars) else []⟩⟩ := by
    cases f
    unfold IsLinkbase
    rw [kids_iff (f := fun r => (⟨r.name.space, r.attrs⟩ : RoleRefElem))]
    · simp only [linkNames_iff, LinkbaseFile.mk.injEq]
      refine and_congr_right fun _ => ?_
      constructor
      · rintro ⟨_, _, ⟨rfl, rfl⟩, h⟩; exact (kids_iff (isLink_iff kind _) _ _ _).1 h
      · intro h; exact ⟨_, _, ⟨rfl, rfl⟩, (kids_iff (isLink_iff kind _) _ _ _).2 h⟩
    · intro k y; cases y; simp
  rw [h1]
  unfold linkbaseFile
  split <;> simp_all [eq_comm]

theorem hasSource_iff (k : Xml) (y : String) : HasSource k y ↔ y = k.inner := Iff.rfl

theorem isRegistryUnit_iff (k : Xml) (y : Query.UtrUnit) : IsRegistryUnit k y ↔ y =
    ⟨(k.named "unitId").map Xml.chars, (k.named "unitName").map Xml.chars, (k.named "nsUnit").map Xml.chars,
      (k.named "itemType").map Xml.chars, (k.named "nsItemType").map Xml.chars, (k.named "itemTypeDate").map Xml.chars,
      (k.named "symbol").map Xml.chars, (k.named "definition").map Xml.chars, (k.named "baseStandard").map Xml.chars,
      (k.named "conversionPresentation").map Xml.inner, (k.named "conversionContent").map Xml.inner,
      (k.named "status").map Xml.chars, (k.named "versionDate").map Xml.chars, (k.named "numeratorItemType").map Xml.chars,
      (k.named "nsNumeratorItemType").map Xml.chars, (k.named "denominatorItemType").map Xml.chars,
      (k.named "nsDenominatorItemType").map Xml.chars⟩ := by
  constructor
  · rintro ⟨h0, h1, h2, h3, h4, h5, h6, h7, h8, h9, h10, h11, h12, h13, h14, h15, h16⟩
    simp only [kids_iff hasText_iff', kids_iff hasSource_iff] at h0 h1 h2 h3 h4 h5 h6 h7 h8 h9 h10 h11 h12 h13 h14 h15 h16
    cases y
    simp_all
  · rintro rfl
    constructor <;> simp only [kids_iff hasText_iff', kids_iff hasSource_iff]

theorem C99_registry (x : Xml) (l : List (List Query.UtrUnit)) : registryFile x = some l ↔ x.name.loc = "utr" ∧ IsRegistry x l := by
  rw [IsRegistry, kids_iff (kids_iff isRegistryUnit_iff "unit")]
  unfold registryFile
  split <;> simp_all [eq_comm]

end Telefacts
