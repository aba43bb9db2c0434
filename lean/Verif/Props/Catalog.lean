import Verif.Proof.Catalog
/-! # C32 - C36, C79: the catalog -/
namespace Telefacts
open Telefacts.Catalog Telefacts.Instance Telefacts.Schema Telefacts.Spec

/-- **C32.** The subjects are exactly the entities that occur, strictly sorted, the same for every iteration
order of the instances; a subject is named by the registry, or by scheme and identifier if that fails. -/
theorem C32_subjects (insts order : List HInstance) (ho : order.Perm insts) (query : String → String → Res String)
    (schemas : List HSchema) (entry : Option String) :
    let l := (catalog query order schemas entry).subjects.map Subject.entity
    (∀ e, e ∈ l ↔ Occurs insts e) ∧ EntitiesSorted l ∧
      (catalog query order schemas entry).subjects = (catalog query insts schemas entry).subjects ∧
      ∀ s ∈ (catalog query order schemas entry).subjects,
        query s.entity.scheme s.entity.chars = .ok s.name ∨
        ((∀ n, query s.entity.scheme s.entity.chars ≠ .ok n) ∧ s.name = s.entity.scheme ++ "/" ++ s.entity.chars) := by
  have hocc : ∀ e, Occurs order e ↔ Occurs insts e := by
    intro e; simp only [Occurs, ho.mem_iff]
  have hl : (catalog query order schemas entry).subjects.map Subject.entity = sortedEntities order := by
    simp [catalog, Function.comp_def]
  have hs : sortedEntities order = sortedEntities insts :=
    entitiesSorted_unique (sortedEntities_sorted _) (sortedEntities_sorted _) fun e => by
      rw [mem_sortedEntities, mem_sortedEntities, hocc]
  simp only [hl]
  refine ⟨fun e => by rw [mem_sortedEntities, hocc], sortedEntities_sorted _, ?_, ?_⟩
  · simp only [catalog, hs]
  · intro s hs
    simp only [catalog, List.mem_map] at hs
    obtain ⟨e, _, rfl⟩ := hs
    simp only [subjectName]
    cases hq : query e.scheme e.chars with
    | ok n => left; rfl
    | err m => right; simp
    | panic => right; simp

/-- **C33.** The relationship sets are exactly the declared ones, strictly sorted, the same for every iteration
order of the schemas. -/
theorem C33_relationship_sets (schemas order : List HSchema) (ho : order.Perm schemas)
    (query : String → String → Res String) (insts : List HInstance) (entry : Option String) :
    (∀ r, r ∈ (catalog query insts order entry).rsets ↔ DeclaredSet schemas r) ∧
      RSetsSorted (catalog query insts order entry).rsets ∧
      (catalog query insts order entry).rsets = (catalog query insts schemas entry).rsets := by
  have hocc : ∀ r, DeclaredSet order r ↔ DeclaredSet schemas r := by
    intro r; simp only [DeclaredSet, ho.mem_iff]
  refine ⟨fun r => by simp only [catalog, mem_sortedRSets, hocc], sortedRSets_sorted _, ?_⟩
  exact rsetsSorted_unique (sortedRSets_sorted _) (sortedRSets_sorted _) fun r => by
    simp only [catalog, mem_sortedRSets, hocc]

def catCtx (scheme ident : String) : Context := ⟨"c", scheme, ident, ⟨[], []⟩, "", "", "", ⟨[], []⟩⟩
def catInst (l : List (String × String)) : HInstance := ⟨"i", l.map fun p => catCtx p.1 p.2, [], [], []⟩
def catSchema (l : List (String × String)) : HSchema := ⟨"s", l.map fun p => ⟨p.1, "id", p.2, []⟩, []⟩

example : (catalog (fun _ _ => .err "") [catInst [("s", "2"), ("s", "1")], catInst [("s", "2"), ("", "1")]]
      [catSchema [("r2", "A"), ("r1", "B"), ("", "C")], catSchema [("r1", "A"), ("r2", "A")]] none).subjects =
    [⟨"s/1", ⟨"s", "1"⟩⟩, ⟨"s/2", ⟨"s", "2"⟩⟩] ∧
    (catalog (fun _ _ => .err "") [] [catSchema [("r2", "A"), ("r1", "B"), ("", "C")], catSchema [("r1", "A"), ("r2", "A")]] none).rsets =
    [⟨"A", "r1"⟩, ⟨"A", "r2"⟩, ⟨"B", "r1"⟩] := by decide +kernel

/-- A listed slug selects an entity and a relationship set with that slug. -/
theorem slugs_select (query : String → String → Res String) (insts : List HInstance) (schemas : List HSchema)
    (entry : Option String) (e uri s : String) (m : GoMap String String)
    (hm : mapGet (catalog query insts schemas entry).networks e = some m) (hs : mapGet m uri = some s) :
    ∃ ent r, select s (sortedEntities insts) (sortedRSets schemas) = some (ent, r) ∧ Occurs insts ent ∧
      DeclaredSet schemas r ∧ slug (stringify ent) r.roleURI r.title = s ∧
      ((∀ e₁ e₂ r₁ r₂, Occurs insts e₁ → Occurs insts e₂ → DeclaredSet schemas r₁ → DeclaredSet schemas r₂ →
          slug (stringify e₁) r₁.roleURI r₁.title = slug (stringify e₂) r₂.roleURI r₂.title →
          stringify e₁ = stringify e₂ ∧ r₁.roleURI = r₂.roleURI) →
        stringify ent = e ∧ r.roleURI = uri) := by
  obtain ⟨⟨x, hx, rfl⟩, r, hr, rfl⟩ := (networks_iff (sortedEntities insts) (sortedRSets schemas) e uri s).1 ⟨m, hm, hs⟩
  obtain ⟨hrm, rfl⟩ := lastWith_mem hr
  cases hsel : select (slug (stringify x) r.roleURI r.title) (sortedEntities insts) (sortedRSets schemas) with
  | none => exact absurd rfl (select_none.1 hsel x hx r hrm)
  | some p =>
    obtain ⟨ent, r'⟩ := p
    obtain ⟨h1, h2, h3⟩ := select_some hsel
    simp only at h1 h2 h3
    rw [mem_sortedEntities] at h1 hx
    rw [mem_sortedRSets] at h2 hrm
    exact ⟨ent, r', rfl, h1, h2, h3, fun hc => hc ent x r' r h1 hx h2 hrm h3⟩

/-- **C79.** The catalog lists a slug for every entity and every role URI of the folder, and nothing else: the
slug of the last relationship set with that role URI. -/
theorem C79_networks (query : String → String → Res String) (insts : List HInstance) (schemas : List HSchema)
    (entry : Option String) (e uri s : String) :
    (∃ m, mapGet (catalog query insts schemas entry).networks e = some m ∧ mapGet m uri = some s) ↔
      (∃ x, Occurs insts x ∧ x.scheme ++ "/" ++ x.chars = e) ∧
      ∃ r, DeclaredSet schemas r ∧ r.roleURI = uri ∧ s = slug e uri r.title ∧
        ∀ r', DeclaredSet schemas r' → r'.roleURI = uri → ¬ r.title < r'.title := by
  have := networks_iff (sortedEntities insts) (sortedRSets schemas) e uri s
  simp only [mem_sortedEntities] at this
  rw [show (catalog query insts schemas entry).networks = networks (sortedEntities insts) (sortedRSets schemas) from rfl,
    this]
  refine and_congr Iff.rfl ?_
  have hsort := sortedRSets_sorted schemas
  constructor
  · rintro ⟨r, hr, rfl⟩
    obtain ⟨hrm, hru⟩ := lastWith_mem hr
    refine ⟨r, (mem_sortedRSets _ _).1 hrm, hru, rfl, ?_⟩
    intro r' hr' hu' hlt
    obtain ⟨pre, post, he, _, hno⟩ := hr
    have hm' := (mem_sortedRSets _ _).2 hr'
    rw [he] at hm' hsort
    unfold RSetsSorted at hsort
    rcases List.mem_append.1 hm' with h | h
    · have := (List.pairwise_append.1 hsort).2.2 r' h r (by simp)
      rcases this with h1 | ⟨h1, _⟩
      · exact str_lt_asymm h1 hlt
      · rw [h1] at hlt; exact String.lt_irrefl _ hlt
    · rcases List.mem_cons.1 h with rfl | h
      · exact String.lt_irrefl _ hlt
      · exact hno r' h hu'
  · rintro ⟨r, hr, hru, rfl, hmax⟩
    obtain ⟨r', hr'⟩ := lastWith_exists (fun r : RSet => r.roleURI = uri) ⟨r, (mem_sortedRSets _ _).2 hr, hru⟩
    refine ⟨r', hr', ?_⟩
    obtain ⟨hrm', hru'⟩ := lastWith_mem hr'
    have hge := hmax r' ((mem_sortedRSets _ _).1 hrm') hru'
    obtain ⟨pre, post, he, _, hno⟩ := hr'
    have hm := (mem_sortedRSets _ _).2 hr
    rw [he] at hm hsort
    unfold RSetsSorted at hsort
    rcases List.mem_append.1 hm with h | h
    · have := (List.pairwise_append.1 hsort).2.2 r h r' (by simp)
      rcases this with h1 | ⟨h1, _⟩
      · exact absurd h1 hge
      · rw [h1]
    · rcases List.mem_cons.1 h with rfl | h
      · rfl
      · exact absurd hru (hno r h)

example : ∃ m, mapGet (catalog (fun _ _ => .err "") [catInst [("s", "1")]] [catSchema [("r", "A"), ("r", "B")]] none).networks "s/1" =
    some m ∧ mapGet m "r" = some (slug "s/1" "r" "B") ∧
    select (slug "s/1" "r" "B") [⟨"s", "1"⟩] [⟨"A", "r"⟩, ⟨"B", "r"⟩] = some (⟨"s", "1"⟩, ⟨"B", "r"⟩) :=
  ⟨[("r", slug "s/1" "r" "B")], by decide +kernel⟩

/-- **C35 (partial).** If no entity and no role URI is a proper prefix of another, different triples hash
different texts, so they have different slugs unless FNV collides on these texts. Missing: other entities and
role URIs (`C35_fails`). -/
theorem C35_slugs_differ_partial (Ent Uri : String → Prop) (he : PrefixFree Ent) (hu : PrefixFree Uri)
    (e e' u u' t t' : String) (h1 : Ent e) (h1' : Ent e') (h2 : Uri u) (h2' : Uri u')
    (hcoll : fnvHex (e ++ u ++ t) = fnvHex (e' ++ u' ++ t') → e ++ u ++ t = e' ++ u' ++ t')
    (hs : slug e u t = slug e' u' t') : e = e' ∧ u = u' ∧ t = t' := by
  have h := hcoll hs
  rw [String.append_assoc, String.append_assoc] at h
  obtain ⟨rfl, h3⟩ := prefixFree_append he h1 h1' h
  obtain ⟨rfl, rfl⟩ := prefixFree_append hu h2 h2' h3
  exact ⟨rfl, rfl, rfl⟩

example : PrefixFree (fun s => s = "http://x/role/a" ∨ s = "http://x/role/b") ∧
    slug "s/1" "http://x/role/a" "t" ≠ slug "s/1" "http://x/role/b" "t" := by
  refine ⟨?_, by decide +kernel⟩
  rintro a b r (rfl | rfl) (rfl | rfl) h <;> have h := congrArg String.toList h <;> simp at h <;> exact h

/-- Two role types of one folder with one slug, whatever the hash function. -/
theorem C35_fails : ∃ (insts : List HInstance) (schemas : List HSchema) (e : Entity) (r r' : RSet),
    Occurs insts e ∧ DeclaredSet schemas r ∧ DeclaredSet schemas r' ∧ r ≠ r' ∧
    stringify e ++ r.roleURI ++ r.title = stringify e ++ r'.roleURI ++ r'.title ∧
    slug (stringify e) r.roleURI r.title = slug (stringify e) r'.roleURI r'.title := by
  refine ⟨[catInst [("s", "1")]], [catSchema [("http://x/role/Debt", "2 - Debt"), ("http://x/role/Debt2", " - Debt")]],
    ⟨"s", "1"⟩, ⟨"2 - Debt", "http://x/role/Debt"⟩, ⟨" - Debt", "http://x/role/Debt2"⟩, ?_, ?_, ?_, by decide, by decide, ?_⟩
  · rw [← mem_allEntities]; decide
  · rw [← mem_allRSets]; decide
  · rw [← mem_allRSets]; decide
  · have : ("s/1" ++ "http://x/role/Debt" ++ "2 - Debt" : String) = "s/1" ++ "http://x/role/Debt2" ++ " - Debt" := by decide
    simp only [slug, stringify]
    exact congrArg fnvHex this

/-- **C36.** Slugs consist of 32 lower-case hexadecimal digits; no document name, `facts` or empty segment is
a slug. -/
theorem C36_slug_shape (e u t : String) :
    (slug e u t).toList.length = 32 ∧
    (∀ c ∈ (slug e u t).toList, ('0' ≤ c ∧ c ≤ '9') ∨ ('a' ≤ c ∧ c ≤ 'f')) ∧
    slug e u t ≠ "facts" ∧ slug e u t ≠ "" ∧ (∀ base, slug e u t ≠ base ++ ".htm" ∧ slug e u t ≠ base ++ ".xhtml") := by
  have hlen : (slug e u t).toList.length = 32 := fnvHex_length _
  have hdot : '.' ∉ (slug e u t).toList := fnvHex_not_mem _ (by decide)
  refine ⟨hlen, ?_, ?_, ?_, ?_⟩
  · intro c hc
    have hm : c ∈ hexDigits := fnvHex_mem _ c hc
    revert c
    intro c _ hm
    simp only [hexDigits, List.mem_cons, List.not_mem_nil, or_false] at hm
    rcases hm with rfl | rfl | rfl | rfl | rfl | rfl | rfl | rfl | rfl | rfl | rfl | rfl | rfl | rfl | rfl | rfl <;> decide
  · intro h; rw [h] at hlen; revert hlen; decide
  · intro h; rw [h] at hlen; revert hlen; decide
  · intro base
    constructor <;> intro h <;> rw [h] at hdot <;> simp at hdot

example : slug "s/1" "r" "A" = "044ba1f98283d94f70817862ebb111fb" := by decide +kernel

end Telefacts
