import Verif.Spec.Near
import Verif.Proof.FnvWindow
import Verif.Props.Catalog
import Verif.Props.Cache
/-!
# C170: names that differ in one place are told apart
-/
namespace Telefacts
open Telefacts.Spec Telefacts.Catalog Telefacts.Cache Telefacts.Instance Telefacts.Schema
variable {H B S : Type}

theorem Spec.Near.inside {s t : String} (h : Near s t) (x y : String) : Near (x ++ s ++ y) (x ++ t ++ y) := by
  obtain ⟨a, m, m', z, rfl, rfl, h1, h2, h3⟩ := h
  exact ⟨x ++ a, m, m', z ++ y, by simp [String.append_assoc], by simp [String.append_assoc], h1, h2, h3⟩

theorem Spec.Near.hash_ne {s t : String} (h : Near s t) : fnvHex s ≠ fnvHex t := by
  obtain ⟨a, m, m', z, rfl, rfl, h1, h2, h3⟩ := h
  exact fnvHex_window a m m' z h2 h3 h1

/-- **C170.** Entities, role URIs and definitions that differ in one place give different slugs, if the rest is the same. -/
theorem C170_slugs (e u t : String) :
    (∀ e', Near e e' → slug e u t ≠ slug e' u t) ∧ (∀ u', Near u u' → slug e u t ≠ slug e u' t) ∧
    (∀ t', Near t t' → slug e u t ≠ slug e u t') := by
  refine ⟨fun e' h => ?_, fun u' h => ?_, fun t' h => ?_⟩
  · have := (h.inside "" (u ++ t)).hash_ne
    simpa [slug, String.append_assoc] using this
  · exact (h.inside e t).hash_ne
  · have := (h.inside (e ++ u) "").hash_ne
    simpa [slug, String.append_assoc] using this

/-- **C170**: the slug of a network of a folder leads to this network, if the others differ from it in one place. -/
theorem C170_leads (insts : List HInstance) (schemas : List HSchema) (e : Entity) (r : RSet) (he : Occurs insts e) (hr : DeclaredSet schemas r)
    (hn : ∀ e' r', Occurs insts e' → DeclaredSet schemas r' → (e', r') ≠ (e, r) → Near (joined e r) (joined e' r')) :
    select (slug (stringify e) r.roleURI r.title) (sortedEntities insts) (sortedRSets schemas) = some (e, r) := by
  cases h : select (slug (stringify e) r.roleURI r.title) (sortedEntities insts) (sortedRSets schemas) with
  | none => exact absurd rfl (select_none.1 h e ((mem_sortedEntities _ _).2 he) r ((mem_sortedRSets _ _).2 hr))
  | some p =>
    obtain ⟨e', r'⟩ := p
    obtain ⟨h1, h2, h3⟩ := select_some h
    by_cases hp : (e', r') = (e, r)
    · rw [hp]
    · exact absurd h3.symm (hn e' r' ((mem_sortedEntities _ _).1 h1) ((mem_sortedRSets _ _).1 h2) hp).hash_ne

/-- **C170**: the answers to requests for facts of one folder that differ in one place, in the name or in the context, are never kept under
one key. -/
theorem C170_keys (be : Backend H B S) (dry : Bool) (id n n' c c' k : String) (h : Near (n ++ ":" ++ c) (n' ++ ":" ++ c')) :
    ¬ (Uses (prog be dry (.express id n c)) k .bytes ∧ Uses (prog be dry (.express id n' c')) k .bytes) := by
  rintro ⟨h1, h2⟩
  have k1 : expressKey id n c ≠ expressKey id n' c' := by
    have := (h.inside (id ++ "/facts/") "").hash_ne
    simpa [expressKey, String.append_assoc] using this
  rcases uses_prog h1 with ⟨_, h⟩ | ⟨h1, _⟩
  · cases h
  rcases uses_prog h2 with ⟨_, h⟩ | ⟨h2, _⟩
  · cases h
  exact k1 (h1.symm.trans h2)

/-- Numbered roles and contexts are near. -/
theorem near_roles : Near "http://x/role/R00001" "http://x/role/R00002" :=
  ⟨"http://x/role/R0000", "1", "2", "", by decide +kernel, by decide +kernel, by decide, by decide +kernel, by decide +kernel⟩

example : Near "us-gaap:Assets:c-17" "us-gaap:Assets:c-99" :=
  ⟨"us-gaap:Assets:c-", "17", "99", "", by decide +kernel, by decide +kernel, by decide, by decide +kernel, by decide +kernel⟩

example : slug "s/1" "http://x/role/R00001" "A" ≠ slug "s/1" "http://x/role/R00002" "A" := (C170_slugs _ _ _).2.1 _ near_roles

/-- Non-vacuity of `C170_leads`: two roles. -/
example : let schemas := [catSchema [("http://x/role/R00001", "A"), ("http://x/role/R00002", "A")]]
    select (slug "s/1" "http://x/role/R00002" "A") (sortedEntities [catInst [("s", "1")]]) (sortedRSets schemas) =
      some (⟨"s", "1"⟩, ⟨"A", "http://x/role/R00002"⟩) := by
  intro schemas
  refine C170_leads [catInst [("s", "1")]] schemas ⟨"s", "1"⟩ ⟨"A", "http://x/role/R00002"⟩ ?_ ?_ ?_
  · rw [← mem_allEntities]; decide
  · rw [← mem_allRSets]; decide
  · intro e' r' he hr hne
    rw [← mem_allEntities] at he
    rw [← mem_allRSets] at hr
    have he' : e' = ⟨"s", "1"⟩ := by
      simp [allEntities, catInst] at he
      exact he.2.symm
    have hr' : r' = ⟨"A", "http://x/role/R00001"⟩ ∨ r' = ⟨"A", "http://x/role/R00002"⟩ := by simpa [allRSets, schemas, catSchema] using hr
    subst he'
    rcases hr' with rfl | rfl
    · obtain ⟨a, m, m', z, h1, h2, h3, h4, h5⟩ := near_roles.inside "s/1" "A"
      exact ⟨a, m', m, z, h2, h1, h3.symm, h4.symm, h4 ▸ h5⟩
    · exact absurd rfl hne

/-! The published test vectors of FNV-1a with 128 bits. -/

example : fnvHex "" = "6c62272e07bb014262b821756295c58d" ∧ fnvHex "a" = "d228cb696f1a8caf78912b704e4a8964" ∧
    fnvHex "ab" = "08809544bbab1be95aa0733055b69a62" ∧ fnvHex "abc" = "a68d622cec8b5822836dbc7977af7f3b" := by decide +kernel

end Telefacts
