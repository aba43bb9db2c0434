import Verif.Proof.Hash
import Verif.Props.Renderable
/-!
# C179: a client can compute slugs itself
-/
namespace Telefacts
open Telefacts.Catalog Telefacts.Instance Telefacts.Schema Telefacts.Spec

theorem slugOf_slug (e u t s : String) : SlugOf e u t s ↔ s = slug e u t := slugOf_iff e u t s

/-- **C179.** What the catalog lists for an entity and a role is the published FNV-1a hash (128 bits, hexadecimal) of the entity, the role URI
and the last of its definitions, and every entity and role of the folder is listed with it. -/
theorem C179_catalog (query : String → String → Res String) (insts : List HInstance) (schemas : List HSchema) (entry : Option String)
    (e uri s : String) :
    (∃ m, mapGet (catalog query insts schemas entry).networks e = some m ∧ mapGet m uri = some s) ↔
      (∃ x, Occurs insts x ∧ x.scheme ++ "/" ++ x.chars = e) ∧
      ∃ r, DeclaredSet schemas r ∧ r.roleURI = uri ∧ SlugOf e uri r.title s ∧
        ∀ r', DeclaredSet schemas r' → r'.roleURI = uri → ¬ r.title < r'.title := by
  rw [C79_networks]
  simp only [slugOf_slug]

/-- **C179.** A request that does not come from the catalog: it is answered if and only if the text is the slug, computed in the published way,
of an entity and a relationship set of the folder, and the answer is about such ones. -/
theorem C179_request {γ : Type} (query : String → String → Res String) (hq : ∀ a b, ∃ n, query a b = .ok n)
    (grids : String → String → γ) (insts : List HInstance) (schemas : List HSchema) (s : String) :
    ((∃ r, renderable query grids s insts schemas = .ok r) ↔
      ∃ e r, Occurs insts e ∧ DeclaredSet schemas r ∧ SlugOf (e.scheme ++ "/" ++ e.chars) r.roleURI r.title s) ∧
    ∀ r, renderable query grids s insts schemas = .ok r → Occurs insts r.subject.entity ∧ DeclaredSet schemas r.rset ∧
      SlugOf (r.subject.entity.scheme ++ "/" ++ r.subject.entity.chars) r.rset.roleURI r.rset.title s ∧
      r.grids = grids (r.subject.entity.scheme ++ "/" ++ r.subject.entity.chars) r.rset.roleURI := by
  have key : ∀ r, renderable query grids s insts schemas = .ok r → Occurs insts r.subject.entity ∧ DeclaredSet schemas r.rset ∧
      SlugOf (r.subject.entity.scheme ++ "/" ++ r.subject.entity.chars) r.rset.roleURI r.rset.title s ∧
      r.grids = grids (r.subject.entity.scheme ++ "/" ++ r.subject.entity.chars) r.rset.roleURI := by
    intro r hr
    unfold renderable at hr
    cases hs : select s (sortedEntities insts) (sortedRSets schemas) with
    | none => rw [hs] at hr; simp at hr
    | some p =>
      obtain ⟨h1, h2, h3⟩ := select_some hs
      rw [hs] at hr
      obtain ⟨n, hn⟩ := hq p.1.scheme p.1.chars
      simp only [hn, Res.ok.injEq] at hr
      subst hr
      exact ⟨(mem_sortedEntities _ _).1 h1, (mem_sortedRSets _ _).1 h2, (slugOf_slug _ _ _ _).2 h3.symm, rfl⟩
  refine ⟨⟨?_, ?_⟩, key⟩
  · rintro ⟨r, hr⟩
    obtain ⟨h1, h2, h3, _⟩ := key r hr
    exact ⟨_, _, h1, h2, h3⟩
  · rintro ⟨e, r, h1, h2, h3⟩
    cases hs : select s (sortedEntities insts) (sortedRSets schemas) with
    | none =>
      exact absurd ((slugOf_slug _ _ _ _).1 h3).symm
        (select_none.1 hs e ((mem_sortedEntities _ _).2 h1) r ((mem_sortedRSets _ _).2 h2))
    | some p =>
      obtain ⟨n, hn⟩ := hq p.1.scheme p.1.chars
      exact ⟨⟨⟨n, p.1⟩, p.2, grids (stringify p.1) p.2.roleURI⟩, by unfold renderable; rw [hs]; simp only [hn]⟩

/-- The slug of a network: every text has exactly one, and one of these is a published test vector (of `abc`). -/
example : SlugOf "a" "b" "c" "a68d622cec8b5822836dbc7977af7f3b" ∧ ∀ s, SlugOf "a" "b" "c" s → s = "a68d622cec8b5822836dbc7977af7f3b" := by
  have h : slug "a" "b" "c" = "a68d622cec8b5822836dbc7977af7f3b" := by decide +kernel
  exact ⟨(slugOf_slug _ _ _ _).2 h.symm, fun s hs => ((slugOf_slug _ _ _ _).1 hs).trans h⟩

/-- A folder with a network that a client asks for with a slug computed in the published way. -/
example : SlugOf "s/1" "r" "B" "044ba1f98383d94f70817862ebb11336" ∧
    renderable (entityQuery (.ok [])) (fun e u => e ++ u) "044ba1f98383d94f70817862ebb11336" [catInst [("s", "1")]] [catSchema [("r", "A"), ("r", "B")]] =
      .ok ⟨⟨"s/1", ⟨"s", "1"⟩⟩, ⟨"B", "r"⟩, "s/1r"⟩ :=
  ⟨(slugOf_slug _ _ _ _).2 (by decide +kernel), by decide +kernel⟩

end Telefacts
