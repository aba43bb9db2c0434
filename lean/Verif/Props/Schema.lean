import Verif.Proof.Schema
/-! # C28, C73 - C76: schemas and concept queries -/
namespace Telefacts
open Telefacts.Schema Telefacts.Linkbase Telefacts.Spec

/-- **C73.** The concepts of a hydrated schema are, in document order, exactly those of the element
declarations with an id, a name and a type, with the attribute values of the declaration. -/
theorem C73_concepts (file : SchemaFile) (fileName : String) (hn : fileName ≠ "") :
    ∃ s, hydrateSchema file fileName = .ok s ∧ s.fileName = fileName ∧
      Collected (ConceptOf file.attrs fileName) file.elements s.concepts :=
  ⟨⟨fileName, hydrateAnnotation file, hydrateConcepts file fileName⟩, by simp [hydrateSchema, hn], rfl,
    (collected_iff (hydrateConcept_iff file.attrs fileName) _ _).2 rfl⟩

def sampleFile : SchemaFile where
  attrs := [⟨⟨"", "targetNamespace"⟩, "http://x"⟩, ⟨⟨"xmlns", "xbrli"⟩, XBRLI⟩]
  elements := [⟨XSD, [⟨⟨"", "id"⟩, "x_Cash"⟩, ⟨⟨"", "name"⟩, "Cash"⟩, ⟨⟨"", "type"⟩, "xbrli:monetaryItemType"⟩,
      ⟨⟨XBRLI, "periodType"⟩, "instant"⟩, ⟨⟨"", "nillable"⟩, "true"⟩]⟩,
    ⟨XSD, [⟨⟨"", "id"⟩, "x_Dim"⟩, ⟨⟨"", "name"⟩, "Dim"⟩, ⟨⟨"", "type"⟩, "xbrli:stringItemType"⟩,
      ⟨⟨"", "abstract"⟩, "true"⟩, ⟨⟨XBRLDT, "typedDomainRef"⟩, "#x_Dom"⟩]⟩,
    ⟨XSD, [⟨⟨"", "name"⟩, "NoId"⟩, ⟨⟨"", "type"⟩, "xbrli:stringItemType"⟩]⟩]
  annotations := [⟨XSD, [⟨XSD, [⟨LINK, [⟨⟨"", "id"⟩, "r"⟩, ⟨⟨"", "roleURI"⟩, "http://x/role/A"⟩], ["001 - A"],
    [(LINK, "link:presentationLink")]⟩]⟩]⟩]

example : hydrateConcepts sampleFile "x.xsd" =
    [⟨⟨"http://x", "Cash"⟩, "x_Cash", ⟨XBRLI, "monetaryItemType"⟩, ⟨"", ""⟩, true, "instant", "", false, ""⟩,
     ⟨⟨"http://x", "Dim"⟩, "x_Dim", ⟨XBRLI, "stringItemType"⟩, ⟨"", ""⟩, false, "", "", true, "x.xsd#x_Dom"⟩] := by
  decide +kernel

/-- **C74 (partial).** The role types of the first appinfo of the first annotation are hydrated exactly, in
document order. Missing: every other annotation and appinfo (`C74_fails`). -/
theorem C74_role_types_partial (file : SchemaFile) (fileName : String) (hn : fileName ≠ "")
    (a : AnnotationElem) (as : List AnnotationElem) (i : AppinfoElem) (is : List AppinfoElem)
    (ha : file.annotations = a :: as) (has : a.space = "http://www.w3.org/2001/XMLSchema")
    (hi : a.appinfos = i :: is) (his : i.space = "http://www.w3.org/2001/XMLSchema") :
    ∃ s, hydrateSchema file fileName = .ok s ∧ Collected RoleTypeOf i.roleTypes s.roleTypes := by
  refine ⟨⟨fileName, hydrateAnnotation file, hydrateConcepts file fileName⟩, by simp [hydrateSchema, hn], ?_⟩
  rw [collected_iff hydrateRoleType_iff]
  have e1 : a.space = XSD := has
  have e2 : i.space = XSD := his
  simp [hydrateAnnotation, ha, hi, e1, e2]

example : hydrateAnnotation sampleFile = [⟨"http://x/role/A", "r", "001 - A", ["link:presentationLink"]⟩] := by
  decide +kernel

/-- A role type declared in a second annotation or a second appinfo is lost. -/
theorem C74_fails : ∃ (file : SchemaFile) (s : HSchema) (a : AnnotationElem) (i : AppinfoElem) (e : RoleTypeElem) (r : RoleType),
    hydrateSchema file "x.xsd" = .ok s ∧ a ∈ file.annotations ∧ a.space = "http://www.w3.org/2001/XMLSchema" ∧ i ∈ a.appinfos ∧ i.space = "http://www.w3.org/2001/XMLSchema" ∧
    e ∈ i.roleTypes ∧ RoleTypeOf e r ∧ r ∉ s.roleTypes := by
  refine ⟨⟨[], [], [⟨XSD, []⟩, ⟨XSD, [⟨XSD, [⟨LINK, [⟨⟨"", "id"⟩, "r"⟩, ⟨⟨"", "roleURI"⟩, "u"⟩], [], []⟩]⟩]⟩]⟩,
    ⟨"x.xsd", [], []⟩, ⟨XSD, [⟨XSD, [⟨LINK, [⟨⟨"", "id"⟩, "r"⟩, ⟨⟨"", "roleURI"⟩, "u"⟩], [], []⟩]⟩]⟩,
    ⟨XSD, [⟨LINK, [⟨⟨"", "id"⟩, "r"⟩, ⟨⟨"", "roleURI"⟩, "u"⟩], [], []⟩]⟩,
    ⟨LINK, [⟨⟨"", "id"⟩, "r"⟩, ⟨⟨"", "roleURI"⟩, "u"⟩], [], []⟩, ⟨"u", "r", "", []⟩, by decide +kernel, by simp, rfl,
    by simp, rfl, by simp, ?_, by simp⟩
  rw [← hydrateRoleType_iff]
  decide +kernel

/-- **C75.** `NameQuery` answers with a concept iff the namespace is mapped to a readable schema that
declares that name; the concept has that name and the reference is its location and id. -/
theorem C75_name_query (h : Env) (ns loc : String) :
    ((∃ href c, nameQuery h ns loc = .ok (some (href, c))) ↔
      ∃ l c, mapGet h.namespaces ns = some l ∧ Declares h l c ∧ c.name = ⟨ns, loc⟩) ∧
    ∀ href c, nameQuery h ns loc = .ok (some (href, c)) →
      ∃ l, mapGet h.namespaces ns = some l ∧ href = l ++ "#" ++ c.id ∧ Declares h l c ∧ c.name = ⟨ns, loc⟩ := by
  constructor
  · constructor
    · rintro ⟨href, c, hq⟩
      obtain ⟨l, h1, _, _, h2, h3⟩ := nameQuery_some hq
      exact ⟨l, c, h1, h2, h3⟩
    · rintro ⟨l, c, hm, hd, hc⟩
      have hl0 : l ≠ "" := by obtain ⟨f, hf, _⟩ := hd; exact hf.1
      obtain ⟨cs, hcs, hmem⟩ := declares_ok hd
      unfold nameQuery
      simp only [hm, Option.getD_some, if_neg hl0, hcs]
      cases hf : cs.find? (fun c => decide (loc = c.name.loc ∧ ns = c.name.space)) with
      | none =>
        have := List.find?_eq_none.1 hf c hmem
        simp [hc] at this
      | some c' => exact ⟨_, _, rfl⟩
  · intro href c hq
    obtain ⟨l, h1, _, h2, h3, h4⟩ := nameQuery_some hq
    exact ⟨l, h1, h2, h3, h4⟩

/-- **C75.** Exactly which concept and reference `NameQuery` answers with: the first concept of that name in the schema of the
namespace. -/
theorem C75_exact (h : Env) (n : XName) (href : String) (c : Concept) :
    nameQuery h n.space n.loc = .ok (some (href, c)) ↔ NameOf h n href c :=
  nameQuery_iff h n href c

/-- **C28.** Name lookup and href lookup are inverse: the reference found by name, looked up by href, gives
a concept of the same schema with the same id, whatever the map iteration order, and a namespace mapped to
the same schema; it is the very same concept if ids are unique in the schema, and the very same namespace
if no other namespace is mapped to the schema. -/
theorem C28_round_trip (h : Env) (wf : MapWF h.namespaces) (order : GoMap String String)
    (ho : order.Perm h.namespaces) (ns loc href : String) (c : Concept)
    (hq : nameQuery h ns loc = .ok (some (href, c))) :
    ∃ l, mapGet h.namespaces ns = some l ∧ ('#' ∉ l.toList →
      ∃ ns' c', hashQuery h order href = .ok (ns', c') ∧ c'.id = c.id ∧ Declares h l c' ∧
        mapGet h.namespaces ns' = some l ∧
        ((∀ c₁ c₂, Declares h l c₁ → Declares h l c₂ → c₁.id = c₂.id → c₁ = c₂) → c' = c) ∧
        ((∀ k, mapGet h.namespaces k = some l → k = ns) → ns' = ns)) := by
  obtain ⟨l, hm, _, rfl, hd, hn⟩ := nameQuery_some hq
  refine ⟨l, hm, fun hl => ?_⟩
  obtain ⟨c', hq', hid, hd'⟩ := hashQuery_declared order hd hl
  have hns : mapGet h.namespaces (namespaceOf order l) = some l := by
    apply mapGet_of_mem wf
    rw [← ho.mem_iff]
    exact namespaceOf_mem order l ⟨ns, ho.mem_iff.2 (mem_of_mapGet hm)⟩
  exact ⟨_, c', hq', hid, hd', hns, fun hu => hu _ _ hd' hd hid, fun hu => hu _ hns⟩

def sampleEnv : Env where
  namespaces := [("http://y", "y.xsd"), ("http://x", "x.xsd")]
  schemas := [("x.xsd", sampleFile)]
  validUrl := fun _ => false
  discover := fun _ => none

example : ∃ c, nameQuery sampleEnv "http://x" "Cash" = .ok (some ("x.xsd#x_Cash", c)) ∧
    hashQuery sampleEnv sampleEnv.namespaces "x.xsd#x_Cash" = .ok ("http://x", c) :=
  ⟨⟨⟨"http://x", "Cash"⟩, "x_Cash", ⟨XBRLI, "monetaryItemType"⟩, ⟨"", ""⟩, true, "instant", "", false, ""⟩,
    by decide +kernel, by decide +kernel⟩

/-- **C76.** A registered entity is shown with its registered name, any other as `scheme/identifier`. -/
theorem C76_entity_query (names : GoMap String (GoMap String String)) (wf : MapWF names)
    (wf' : ∀ s m, (s, m) ∈ names → MapWF m) (scheme ident : String) :
    ∃ r, entityQuery (.ok names) scheme ident = .ok r ∧
      (∀ m y, (scheme, m) ∈ names → (ident, y) ∈ m → r = y) ∧
      ((∀ m y, (scheme, m) ∈ names → (ident, y) ∉ m) → r = scheme ++ "/" ++ ident) := by
  unfold entityQuery
  cases h1 : mapGet names scheme with
  | none =>
    refine ⟨scheme ++ "/" ++ ident, by simp only [h1], ?_, fun _ => rfl⟩
    intro m y hm
    rw [mapGet_of_mem wf hm] at h1; simp at h1
  | some x =>
    have hx := mem_of_mapGet h1
    cases h2 : mapGet x ident with
    | none =>
      refine ⟨scheme ++ "/" ++ ident, by simp only [h1, h2], ?_, fun _ => rfl⟩
      intro m y hm hy
      rw [mapGet_of_mem wf hm] at h1
      simp only [Option.some.injEq] at h1; subst h1
      rw [mapGet_of_mem (wf' _ _ hm) hy] at h2; simp at h2
    | some y =>
      refine ⟨y, by simp only [h1, h2], ?_, fun h => absurd (mem_of_mapGet h2) (h x y hx)⟩
      intro m y' hm hy
      rw [mapGet_of_mem wf hm] at h1
      simp only [Option.some.injEq] at h1; subst h1
      rw [mapGet_of_mem (wf' _ _ hm) hy] at h2
      exact (Option.some.inj h2).symm

example : entityQuery (.ok [("http://www.sec.gov/CIK", [("0000320193", "Apple Inc.")])]) "http://www.sec.gov/CIK" "0000320193"
    = .ok "Apple Inc." := by decide +kernel

end Telefacts
