import Verif.Model.Renderable
import Verif.Props.Catalog
/-! # C34, C59: renderables -/
namespace Telefacts
open Telefacts.Catalog Telefacts.Instance Telefacts.Schema Telefacts.Spec

/-- **C34.** Every slug listed in the catalog is answered (if the registry of names can be read): with an entity and a
relationship set of the folder that have that very slug, and their grids; if slugs do not collide on the folder they are
the listed ones. A text that is the slug of no entity and relationship set of the folder is not found. -/
theorem C34_slugs_resolve {γ : Type} (query : String → String → Res String) (hq : ∀ a b, ∃ n, query a b = .ok n)
    (grids : String → String → γ) (insts : List HInstance) (schemas : List HSchema) (entry : Option String) (s : String) :
    (∀ e uri m, mapGet (catalog query insts schemas entry).networks e = some m → mapGet m uri = some s →
      ∃ r, renderable query grids s insts schemas = .ok r ∧ Occurs insts r.subject.entity ∧ DeclaredSet schemas r.rset ∧
        slug (r.subject.entity.scheme ++ "/" ++ r.subject.entity.chars) r.rset.roleURI r.rset.title = s ∧
        r.grids = grids (r.subject.entity.scheme ++ "/" ++ r.subject.entity.chars) r.rset.roleURI ∧
        ((∀ (e₁ e₂ : Entity) (r₁ r₂ : RSet), Occurs insts e₁ → Occurs insts e₂ → DeclaredSet schemas r₁ → DeclaredSet schemas r₂ →
            slug (e₁.scheme ++ "/" ++ e₁.chars) r₁.roleURI r₁.title = slug (e₂.scheme ++ "/" ++ e₂.chars) r₂.roleURI r₂.title →
            e₁.scheme ++ "/" ++ e₁.chars = e₂.scheme ++ "/" ++ e₂.chars ∧ r₁.roleURI = r₂.roleURI) →
          r.subject.entity.scheme ++ "/" ++ r.subject.entity.chars = e ∧ r.rset.roleURI = uri)) ∧
    ((∀ (e : Entity) (r : RSet), Occurs insts e → DeclaredSet schemas r → slug (e.scheme ++ "/" ++ e.chars) r.roleURI r.title ≠ s) →
      ∃ msg, renderable query grids s insts schemas = .err msg) := by
  constructor
  · intro e uri m hm hs
    obtain ⟨ent, rs, h1, h2, h3, h4, h5⟩ := slugs_select query insts schemas entry e uri s m hm hs
    obtain ⟨n, hn⟩ := hq ent.scheme ent.chars
    refine ⟨⟨⟨n, ent⟩, rs, grids (stringify ent) rs.roleURI⟩, ?_, h2, h3, h4, rfl, h5⟩
    unfold renderable
    rw [h1]
    simp only
    rw [hn]
  · intro h
    unfold renderable
    have : select s (sortedEntities insts) (sortedRSets schemas) = none := select_none.2 fun e he r hr heq =>
      h e r ((mem_sortedEntities _ _).1 he) ((mem_sortedRSets _ _).1 hr) heq
    rw [this]
    exact ⟨_, rfl⟩

/-- Two role types with one role URI: the listed slug is that of the last one. -/
example : ∃ m, mapGet (catalog (entityQuery (.ok [])) [catInst [("s", "1")]] [catSchema [("r", "A"), ("r", "B")]] none).networks "s/1" =
    some m ∧ mapGet m "r" = some (slug "s/1" "r" "B") ∧
    renderable (entityQuery (.ok [])) (fun e u => e ++ u) (slug "s/1" "r" "B") [catInst [("s", "1")]] [catSchema [("r", "A"), ("r", "B")]] =
      .ok ⟨⟨"s/1", ⟨"s", "1"⟩⟩, ⟨"B", "r"⟩, "s/1r"⟩ :=
  ⟨[("r", slug "s/1" "r" "B")], by decide +kernel⟩

/-- **C59 (partial).** If the registry of entity names can be read, a slug of the catalog renders, under the name and entity
of a subject and a relationship set of the catalog with that slug.
Missing: the same when the registry cannot be read; it fails (`C59_fails`, `C59_error`). -/
theorem C59_renders_partial {γ : Type} (names : GoMap String (GoMap String String)) (grids : String → String → γ)
    (insts : List HInstance) (schemas : List HSchema) (entry : Option String) (e uri s : String) (m : GoMap String String)
    (hm : mapGet (catalog (entityQuery (.ok names)) insts schemas entry).networks e = some m) (hs : mapGet m uri = some s) :
    ∃ r, renderable (entityQuery (.ok names)) grids s insts schemas = .ok r ∧
      r.subject ∈ (catalog (entityQuery (.ok names)) insts schemas entry).subjects ∧
      r.rset ∈ (catalog (entityQuery (.ok names)) insts schemas entry).rsets ∧
      slug (r.subject.entity.scheme ++ "/" ++ r.subject.entity.chars) r.rset.roleURI r.rset.title = s ∧
      r.grids = grids (r.subject.entity.scheme ++ "/" ++ r.subject.entity.chars) r.rset.roleURI := by
  obtain ⟨ent, rs, h1, h2, h3, h4, _⟩ := slugs_select _ insts schemas entry e uri s m hm hs
  have hq : ∃ n, entityQuery (.ok names) ent.scheme ent.chars = .ok n := by
    unfold entityQuery
    simp only
    split
    · split <;> exact ⟨_, rfl⟩
    · exact ⟨_, rfl⟩
  obtain ⟨n, hn⟩ := hq
  refine ⟨⟨⟨n, ent⟩, rs, grids (stringify ent) rs.roleURI⟩, ?_, ?_, ?_, h4, rfl⟩
  · unfold renderable
    rw [h1]
    simp only
    rw [hn]
  · simp only [catalog, List.mem_map]
    refine ⟨ent, (mem_sortedEntities _ _).2 h2, ?_⟩
    unfold subjectName
    rw [hn]
  · exact (mem_sortedRSets _ _).2 h3

/-- **C59.** If the registry cannot be read, every renderable fails, although the catalog is made with the fallback name
of every subject. -/
theorem C59_error {γ : Type} (msg : String) (grids : String → String → γ) (wanted : String) (insts : List HInstance)
    (schemas : List HSchema) (entry : Option String) :
    (∃ msg', renderable (entityQuery (.err msg)) grids wanted insts schemas = .err msg') ∧
    ∀ s ∈ (catalog (entityQuery (.err msg)) insts schemas entry).subjects, s.name = s.entity.scheme ++ "/" ++ s.entity.chars := by
  constructor
  · unfold renderable
    split
    · exact ⟨_, rfl⟩
    · exact ⟨msg, rfl⟩
  · intro s hs
    simp only [catalog, List.mem_map] at hs
    obtain ⟨e, _, rfl⟩ := hs
    rfl

/-- **C59**, exactly: a slug of the catalog renders if and only if the registry of entity names can be read. -/
theorem C59_exact {γ : Type} (registry : Res (GoMap String (GoMap String String))) (grids : String → String → γ)
    (insts : List HInstance) (schemas : List HSchema) (entry : Option String) (e uri s : String) (m : GoMap String String)
    (hm : mapGet (catalog (entityQuery registry) insts schemas entry).networks e = some m) (hs : mapGet m uri = some s) :
    (∃ r, renderable (entityQuery registry) grids s insts schemas = .ok r) ↔ ∃ names, registry = .ok names := by
  constructor
  · rintro ⟨r, hr⟩
    match registry with
    | .ok names => exact ⟨names, rfl⟩
    | .err msg =>
      obtain ⟨msg', h⟩ := (C59_error msg grids s insts schemas entry).1
      rw [h] at hr
      cases hr
    | .panic =>
      unfold renderable at hr
      split at hr
      · cases hr
      · simp [entityQuery] at hr
  · rintro ⟨names, rfl⟩
    obtain ⟨r, hr, _⟩ := C59_renders_partial names grids insts schemas entry e uri s m hm hs
    exact ⟨r, hr⟩

/-- **C59 fails.** A folder with a slug in its catalog whose renderable fails because the registry cannot be read. -/
theorem C59_fails : ∃ (insts : List HInstance) (schemas : List HSchema) (e uri s : String) (m : GoMap String String),
    mapGet (catalog (entityQuery (.err "no names")) insts schemas none).networks e = some m ∧ mapGet m uri = some s ∧
    renderable (entityQuery (.err "no names")) (fun _ _ => ()) s insts schemas = .err "no names" ∧
    (∃ r, renderable (entityQuery (.ok [])) (fun _ _ => ()) s insts schemas = .ok r) := by
  refine ⟨[catInst [("s", "1")]], [catSchema [("r", "A")]], "s/1", "r", slug "s/1" "r" "A",
    [("r", slug "s/1" "r" "A")], by decide +kernel, by decide +kernel, by decide +kernel, ⟨⟨⟨"s/1", ⟨"s", "1"⟩⟩, ⟨"A", "r"⟩, ()⟩, by decide +kernel⟩⟩

end Telefacts
