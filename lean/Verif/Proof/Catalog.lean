import Verif.Spec.Catalog
import Verif.Proof.Prelude
import Verif.Proof.Basic
import Verif.Proof.Fnv
/-! # Proofs about the catalog -/
namespace Telefacts.Catalog
open Telefacts.Instance Telefacts.Schema Telefacts.Spec

/-- Comparison by two strings. -/
theorem pairLess_strictWeak {α : Type} (f g : α → String) :
    StrictWeak (fun a b : α => if f a = f b then decide (g a < g b) else decide (f a < f b)) where
  asymm := by
    intro a b h
    by_cases he : f a = f b
    · rw [if_pos he] at h
      rw [if_pos he.symm]
      exact strLess_strictWeak.asymm _ _ h
    · rw [if_neg he] at h
      rw [if_neg (Ne.symm he)]
      exact strLess_strictWeak.asymm _ _ h
  negTrans := by
    intro a b c h1 h2
    by_cases hab : f a = f b
    · by_cases hbc : f b = f c
      · simp only [if_pos hab, if_pos hbc] at h1 h2
        simp only [if_pos (hab.trans hbc)]
        exact strLess_strictWeak.negTrans _ _ _ h1 h2
      · rw [if_neg hbc] at h2
        rw [if_neg (by rw [hab]; exact hbc), hab]; exact h2
    · rw [if_neg hab] at h1
      by_cases hbc : f b = f c
      · rw [if_neg (by rw [← hbc]; exact hab), ← hbc]; exact h1
      · rw [if_neg hbc] at h2
        have h3 := strLess_strictWeak.negTrans _ _ _ h1 h2
        by_cases hac : f a = f c
        · exfalso
          rw [hac] at h1
          exact hbc (strLess_anti h2 h1)
        · rw [if_neg hac]; exact h3

theorem pairLess_total {α : Type} (f g : α → String) (hinj : ∀ a b, f a = f b → g a = g b → a = b) {a b : α}
    (h1 : (if f a = f b then decide (g a < g b) else decide (f a < f b)) = false)
    (h2 : (if f b = f a then decide (g b < g a) else decide (f b < f a)) = false) : a = b := by
  by_cases he : f a = f b
  · rw [if_pos he] at h1
    rw [if_pos he.symm] at h2
    exact hinj a b he (strLess_anti h1 h2)
  · rw [if_neg he] at h1
    rw [if_neg (Ne.symm he)] at h2
    exact absurd (strLess_anti h1 h2) he

/-- Sorting without duplicates is strict. -/
theorem pairSorted_strict {α : Type} (f g : α → String) (hinj : ∀ a b, f a = f b → g a = g b → a = b) {l : List α}
    (hn : l.Nodup) (hs : SortedBy (fun a b : α => if f a = f b then decide (g a < g b) else decide (f a < f b)) l) :
    l.Pairwise fun a b => f a < f b ∨ (f a = f b ∧ g a < g b) := by
  have := List.Pairwise.and hs hn
  refine this.imp ?_
  rintro a b ⟨h, hne⟩
  simp only at h
  by_cases he : f b = f a
  · rw [if_pos he] at h
    simp only [decide_eq_false_iff_not] at h
    rcases str_trichotomy (g a) (g b) with h' | h' | h'
    · exact .inr ⟨he.symm, h'⟩
    · exact absurd (hinj a b he.symm h') hne
    · exact absurd h' h
  · rw [if_neg he] at h
    simp only [decide_eq_false_iff_not] at h
    rcases str_trichotomy (f a) (f b) with h' | h' | h'
    · exact .inl h'
    · exact absurd h'.symm he
    · exact absurd h' h

theorem mem_allEntities (insts : List HInstance) (e : Entity) : e ∈ allEntities insts ↔ Occurs insts e := by
  simp only [allEntities, List.mem_filterMap, List.mem_flatMap, Occurs]
  constructor
  · rintro ⟨c, ⟨i, hi, hc⟩, h⟩
    split at h
    · rename_i hne
      simp only [Option.some.injEq] at h
      subst h
      exact ⟨hne.1, hne.2, i, hi, c, hc, rfl, rfl⟩
    · simp at h
  · rintro ⟨h1, h2, i, hi, c, hc, e1, e2⟩
    refine ⟨c, ⟨i, hi, hc⟩, ?_⟩
    rw [if_pos (by rw [e1, e2]; exact ⟨h1, h2⟩), e1, e2]

theorem mem_sortedEntities (insts : List HInstance) (e : Entity) : e ∈ sortedEntities insts ↔ Occurs insts e := by
  rw [sortedEntities, mem_stableSort, dedupEntities, mem_dedup, mem_allEntities]

theorem entity_ext {a b : Entity} (h1 : a.scheme = b.scheme) (h2 : a.chars = b.chars) : a = b := by
  cases a; cases b; simp_all

theorem sortedEntities_sorted (insts : List HInstance) : EntitiesSorted (sortedEntities insts) :=
  pairSorted_strict Entity.scheme Entity.chars (fun _ _ => entity_ext)
    ((nodup_stableSort _).2 (nodup_dedup _)) (stableSort_sorted (pairLess_strictWeak Entity.scheme Entity.chars) _)

theorem mem_allRSets (schemas : List HSchema) (r : RSet) : r ∈ allRSets schemas ↔ DeclaredSet schemas r := by
  simp only [allRSets, List.mem_filterMap, List.mem_flatMap, DeclaredSet]
  constructor
  · rintro ⟨c, ⟨i, hi, hc⟩, h⟩
    split at h
    · rename_i hne
      simp only [Option.some.injEq] at h
      subst h
      exact ⟨hne, i, hi, c, hc, rfl, rfl⟩
    · simp at h
  · rintro ⟨h1, i, hi, c, hc, e1, e2⟩
    refine ⟨c, ⟨i, hi, hc⟩, ?_⟩
    rw [if_pos (by rw [e2]; exact h1), e1, e2]

theorem mem_sortedRSets (schemas : List HSchema) (r : RSet) : r ∈ sortedRSets schemas ↔ DeclaredSet schemas r := by
  rw [sortedRSets, mem_stableSort, dedupRSets, mem_dedup, mem_allRSets]

theorem rset_ext {a b : RSet} (h1 : a.title = b.title) (h2 : a.roleURI = b.roleURI) : a = b := by
  cases a; cases b; simp_all

theorem sortedRSets_sorted (schemas : List HSchema) : RSetsSorted (sortedRSets schemas) :=
  pairSorted_strict RSet.title RSet.roleURI (fun _ _ => rset_ext)
    ((nodup_stableSort _).2 (nodup_dedup _)) (stableSort_sorted (pairLess_strictWeak RSet.title RSet.roleURI) _)

/-- Strictly sorted lists with the same members are equal. -/
theorem strict_unique {α : Type} {lt : α → α → Prop} (hirr : ∀ a, ¬ lt a a) (htr : ∀ a b c, lt a b → lt b c → lt a c)
    {l₁ l₂ : List α} (h₁ : l₁.Pairwise lt) (h₂ : l₂.Pairwise lt) (hm : ∀ x, x ∈ l₁ ↔ x ∈ l₂) : l₁ = l₂ := by
  induction l₁ generalizing l₂ with
  | nil =>
    cases l₂ with
    | nil => rfl
    | cons b l₂ => have := (hm b).2 (by simp); simp at this
  | cons a l₁ ih =>
    cases l₂ with
    | nil => have := (hm a).1 (by simp); simp at this
    | cons b l₂ =>
      rw [List.pairwise_cons] at h₁ h₂
      have hab : a = b := by
        rcases List.mem_cons.1 ((hm a).1 (by simp)) with h | h
        · exact h
        rcases List.mem_cons.1 ((hm b).2 (by simp)) with h' | h'
        · exact h'.symm
        exact absurd (htr _ _ _ (h₂.1 a h) (h₁.1 b h')) (hirr b)
      subst hab
      congr 1
      refine ih h₁.2 h₂.2 fun x => ?_
      constructor
      · intro hx
        rcases List.mem_cons.1 ((hm x).1 (List.mem_cons_of_mem _ hx)) with h | h
        · subst h; exact absurd (h₁.1 x hx) (hirr x)
        · exact h
      · intro hx
        rcases List.mem_cons.1 ((hm x).2 (List.mem_cons_of_mem _ hx)) with h | h
        · subst h; exact absurd (h₂.1 x hx) (hirr x)
        · exact h

theorem pairLt_irrefl {α : Type} (f g : α → String) (a : α) : ¬ (f a < f a ∨ (f a = f a ∧ g a < g a)) := by
  rintro (h | ⟨_, h⟩) <;> exact String.lt_irrefl _ h

theorem pairLt_trans {α : Type} (f g : α → String) (a b c : α) (h1 : f a < f b ∨ (f a = f b ∧ g a < g b))
    (h2 : f b < f c ∨ (f b = f c ∧ g b < g c)) : f a < f c ∨ (f a = f c ∧ g a < g c) := by
  rcases h1 with h1 | ⟨e1, h1⟩ <;> rcases h2 with h2 | ⟨e2, h2⟩
  · exact .inl (String.lt_trans h1 h2)
  · exact .inl (e2 ▸ h1)
  · exact .inl (e1 ▸ h2)
  · exact .inr ⟨e1.trans e2, String.lt_trans h1 h2⟩

theorem entitiesSorted_unique {l₁ l₂ : List Entity} (h₁ : EntitiesSorted l₁) (h₂ : EntitiesSorted l₂)
    (hm : ∀ x, x ∈ l₁ ↔ x ∈ l₂) : l₁ = l₂ :=
  strict_unique (pairLt_irrefl Entity.scheme Entity.chars) (pairLt_trans Entity.scheme Entity.chars) h₁ h₂ hm

theorem rsetsSorted_unique {l₁ l₂ : List RSet} (h₁ : RSetsSorted l₁) (h₂ : RSetsSorted l₂)
    (hm : ∀ x, x ∈ l₁ ↔ x ∈ l₂) : l₁ = l₂ :=
  strict_unique (pairLt_irrefl RSet.title RSet.roleURI) (pairLt_trans RSet.title RSet.roleURI) h₁ h₂ hm

/-- Later writes win. -/
theorem mapGet_foldl_set {α V : Type} (key : α → String) (val : α → V) (l : List α) (k : String) (v : V) :
    mapGet (l.foldl (fun m x => mapSet m (key x) (val x)) []) k = some v ↔
      ∃ x, LastWith (fun x => key x = k) l x ∧ val x = v := by
  induction l using snocInd with
  | nil =>
    simp only [List.foldl_nil, mapGet]
    constructor
    · intro h; simp at h
    · rintro ⟨x, hx, _⟩; exact absurd hx (not_lastWith_nil x)
  | snoc l x ih =>
    rw [List.foldl_append, List.foldl_cons, List.foldl_nil, mapGet_mapSet]
    by_cases hk : key x = k
    · rw [if_pos hk]
      constructor
      · intro h; exact ⟨x, lastWith_append_singleton.2 (.inl ⟨hk, rfl⟩), Option.some.inj h⟩
      · rintro ⟨y, hy, rfl⟩
        rcases lastWith_append_singleton.1 hy with ⟨_, rfl⟩ | ⟨h, _⟩
        · rfl
        · exact absurd hk h
    · rw [if_neg hk, ih]
      constructor
      · rintro ⟨y, hy, hv⟩; exact ⟨y, lastWith_append_singleton.2 (.inr ⟨hk, hy⟩), hv⟩
      · rintro ⟨y, hy, hv⟩
        rcases lastWith_append_singleton.1 hy with ⟨h, _⟩ | ⟨_, h⟩
        · exact absurd h hk
        · exact ⟨y, h, hv⟩

/-- What the catalog lists. -/
theorem networks_iff (ents : List Entity) (rsets : List RSet) (e uri s : String) :
    (∃ m, mapGet (networks ents rsets) e = some m ∧ mapGet m uri = some s) ↔
      (∃ x ∈ ents, stringify x = e) ∧ ∃ r, LastWith (fun r : RSet => r.roleURI = uri) rsets r ∧ s = slug e uri r.title := by
  unfold networks
  simp only [mapGet_foldl_set stringify (fun e => entityNetworks (stringify e) rsets)]
  constructor
  · rintro ⟨m, ⟨x, hx, rfl⟩, hm⟩
    obtain ⟨hxm, rfl⟩ := lastWith_mem hx
    unfold entityNetworks at hm
    rw [mapGet_foldl_set RSet.roleURI (fun r => slug (stringify x) r.roleURI r.title)] at hm
    obtain ⟨r, hr, rfl⟩ := hm
    refine ⟨⟨x, hxm, rfl⟩, r, hr, ?_⟩
    rw [(lastWith_mem hr).2]
  · rintro ⟨⟨x, hx, rfl⟩, r, hr, rfl⟩
    obtain ⟨y, hy⟩ := lastWith_exists (fun y : Entity => stringify y = stringify x) ⟨x, hx, rfl⟩
    refine ⟨_, ⟨y, hy, rfl⟩, ?_⟩
    unfold entityNetworks
    rw [mapGet_foldl_set RSet.roleURI (fun r => slug (stringify y) r.roleURI r.title)]
    refine ⟨r, hr, ?_⟩
    rw [(lastWith_mem hr).2, (lastWith_mem hy).2]

theorem select_some {wanted : String} {ents : List Entity} {rsets : List RSet} {p : Entity × RSet}
    (h : select wanted ents rsets = some p) :
    p.1 ∈ ents ∧ p.2 ∈ rsets ∧ slug (stringify p.1) p.2.roleURI p.2.title = wanted := by
  have h1 := List.find?_some h
  have h2 := List.mem_of_find?_eq_some h
  simp only [decide_eq_true_eq] at h1
  simp only [List.mem_flatMap, List.mem_map] at h2
  obtain ⟨e, he, r, hr, rfl⟩ := h2
  exact ⟨he, hr, h1.symm⟩

theorem select_none {wanted : String} {ents : List Entity} {rsets : List RSet} :
    select wanted ents rsets = none ↔ ∀ e ∈ ents, ∀ r ∈ rsets, slug (stringify e) r.roleURI r.title ≠ wanted := by
  unfold select
  rw [List.find?_eq_none]
  simp only [List.mem_flatMap, List.mem_map, decide_eq_true_eq]
  constructor
  · intro h e he r hr hs; exact h (e, r) ⟨e, he, r, hr, rfl⟩ hs.symm
  · rintro h _ ⟨e, he, r, hr, rfl⟩ hs; exact h e he r hr hs.symm

/-- Cancellation for prefix-free sets. -/
theorem prefixFree_append {P : String → Prop} (hP : PrefixFree P) {a b x y : String} (ha : P a) (hb : P b)
    (h : a ++ x = b ++ y) : a = b ∧ x = y := by
  have h' : a.toList ++ x.toList = b.toList ++ y.toList := by
    have := congrArg String.toList h; simpa using this
  rcases List.append_eq_append_iff.1 h' with ⟨r, e1, e2⟩ | ⟨r, e1, e2⟩
  · have : b = a ++ String.ofList r := by apply String.toList_inj.1; simp [e1]
    have hr := hP b a _ hb ha this
    have hr' : r = [] := by have := congrArg String.toList hr; simpa using this
    subst hr'
    exact ⟨String.toList_inj.1 (by simpa using e1.symm), String.toList_inj.1 (by simpa using e2)⟩
  · have : a = b ++ String.ofList r := by apply String.toList_inj.1; simp [e1]
    have hr := hP a b _ ha hb this
    have hr' : r = [] := by have := congrArg String.toList hr; simpa using this
    subst hr'
    exact ⟨String.toList_inj.1 (by simpa using e1), String.toList_inj.1 (by simpa using e2.symm)⟩

end Telefacts.Catalog
