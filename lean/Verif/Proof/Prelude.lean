import Verif.Model.Prelude
import Mathlib.Data.List.Nodup
import Mathlib.Data.List.Perm.Basic
/-!
# Lemmas about the Go runtime pieces
-/
namespace Telefacts

/-! ## foldRes -/

theorem foldRes_append {α β : Type} (f : β → α → Res β) (acc : β) (l₁ l₂ : List α) :
    foldRes f acc (l₁ ++ l₂) =
      match foldRes f acc l₁ with
      | .ok a => foldRes f a l₂
      | .err m => .err m
      | .panic => .panic := by
  induction l₁ generalizing acc with
  | nil => simp [foldRes]
  | cons x xs ih =>
    simp only [List.cons_append, foldRes]
    cases h : f acc x <;> simp [ih]

/-- Invariant rule for `foldRes`. -/
theorem foldRes_inv {α β : Type} {f : β → α → Res β} (P : β → Prop) {acc : β} {l : List α}
    (h0 : P acc) (hs : ∀ b x b', P b → x ∈ l → f b x = .ok b' → P b') {r : β}
    (hr : foldRes f acc l = .ok r) : P r := by
  induction l generalizing acc with
  | nil => simp [foldRes] at hr; exact hr ▸ h0
  | cons x xs ih =>
    simp only [foldRes] at hr
    cases h : f acc x with
    | ok a =>
      rw [h] at hr
      exact ih (hs _ _ _ h0 (by simp) h) (fun b y b' hb hy => hs b y b' hb (by simp [hy])) hr
    | err m => rw [h] at hr; simp at hr
    | panic => rw [h] at hr; simp at hr

/-- Invariant rule with the processed prefix in view. -/
theorem foldRes_inv_prefix {α β : Type} {f : β → α → Res β} (P : List α → β → Prop) {acc : β}
    {l : List α} (pre : List α) (h0 : P pre acc)
    (hs : ∀ b p x b', P p b → f b x = .ok b' → P (p ++ [x]) b') {r : β}
    (hr : foldRes f acc l = .ok r) : P (pre ++ l) r := by
  induction l generalizing acc pre with
  | nil => simp [foldRes] at hr; subst hr; simpa using h0
  | cons x xs ih =>
    simp only [foldRes] at hr
    cases h : f acc x with
    | ok a =>
      rw [h] at hr
      have := ih (pre ++ [x]) (hs _ _ _ _ h0 h) hr
      simpa using this
    | err m => rw [h] at hr; simp at hr
    | panic => rw [h] at hr; simp at hr

theorem foldRes_pure {α β : Type} (f : β → α → β) (acc : β) (l : List α) :
    foldRes (fun b x => .ok (f b x)) acc l = .ok (l.foldl f acc) := by
  induction l generalizing acc with
  | nil => rfl
  | cons x xs ih => simp [foldRes, ih]

/-! ## Maps -/

section Map
variable {K V : Type} [DecidableEq K]

@[simp] theorem mapGet_nil (k : K) : mapGet ([] : GoMap K V) k = none := rfl

theorem mapGet_cons (k' : K) (v : V) (m : GoMap K V) (k : K) :
    mapGet ((k', v) :: m) k = if k' = k then some v else mapGet m k := rfl

theorem mapGet_mapSet (m : GoMap K V) (k k' : K) (v : V) :
    mapGet (mapSet m k v) k' = if k = k' then some v else mapGet m k' := by
  induction m with
  | nil => simp [mapSet, mapGet]
  | cons e m ih =>
    obtain ⟨a, b⟩ := e
    simp only [mapSet]
    by_cases h : a = k
    · subst h
      simp [mapGet]
      split <;> rfl
    · simp only [h, if_false, mapGet, ih]
      by_cases h2 : a = k'
      · subst h2
        simp [Ne.symm h]
      · simp [h2]

@[simp] theorem mapGet_mapSet_self (m : GoMap K V) (k : K) (v : V) :
    mapGet (mapSet m k v) k = some v := by simp [mapGet_mapSet]

theorem mem_mapKeys_mapSet (m : GoMap K V) (k k' : K) (v : V) :
    k' ∈ mapKeys (mapSet m k v) ↔ k' = k ∨ k' ∈ mapKeys m := by
  induction m with
  | nil => simp [mapSet, mapKeys]
  | cons e m ih =>
    obtain ⟨a, b⟩ := e
    simp only [mapSet]
    by_cases h : a = k
    · subst h; simp [mapKeys]
    · simp only [h, if_false]
      simp only [mapKeys, List.map_cons, List.mem_cons] at ih ⊢
      rw [ih]
      constructor
      · rintro (h | h | h) <;> simp [h]
      · rintro (h | h | h) <;> simp [h]

theorem mapGet_eq_none (m : GoMap K V) (k : K) : mapGet m k = none ↔ k ∉ mapKeys m := by
  induction m with
  | nil => simp [mapKeys]
  | cons e m ih =>
    obtain ⟨a, b⟩ := e
    simp only [mapGet, mapKeys, List.map_cons, List.mem_cons] at ih ⊢
    by_cases h : a = k
    · simp [h]
    · simp [h, ih, Ne.symm h]

theorem mapGet_isSome (m : GoMap K V) (k : K) : (∃ v, mapGet m k = some v) ↔ k ∈ mapKeys m := by
  have := mapGet_eq_none m k
  cases h : mapGet m k with
  | none => simp [h] at this; simp [this]
  | some v => simp [h] at this; simp [this]

theorem mem_of_mapGet {m : GoMap K V} {k : K} {v : V} (h : mapGet m k = some v) : (k, v) ∈ m := by
  induction m with
  | nil => simp at h
  | cons e m ih =>
    obtain ⟨a, b⟩ := e
    rw [mapGet_cons] at h
    split at h
    · rename_i h2; cases h; subst h2; simp
    · simp [ih h]

theorem mapGet_of_mem {m : GoMap K V} (wf : MapWF m) {k : K} {v : V} (h : (k, v) ∈ m) :
    mapGet m k = some v := by
  induction m with
  | nil => simp at h
  | cons e m ih =>
    obtain ⟨a, b⟩ := e
    rw [mapGet_cons]
    simp only [MapWF, mapKeys, List.map_cons, List.nodup_cons] at wf
    rcases List.mem_cons.1 h with h | h
    · cases h; simp
    · have : a ≠ k := by
        rintro rfl
        exact wf.1 (List.mem_map.2 ⟨_, h, rfl⟩)
      simp [this, ih wf.2 h]

theorem mapGet_iff_mem {m : GoMap K V} (wf : MapWF m) {k : K} {v : V} :
    mapGet m k = some v ↔ (k, v) ∈ m := ⟨mem_of_mapGet, mapGet_of_mem wf⟩

theorem MapWF.mapSet {m : GoMap K V} (wf : MapWF m) (k : K) (v : V) : MapWF (mapSet m k v) := by
  induction m with
  | nil => simp [Telefacts.mapSet, MapWF, mapKeys]
  | cons e m ih =>
    obtain ⟨a, b⟩ := e
    simp only [MapWF, mapKeys, List.map_cons, List.nodup_cons] at wf
    simp only [Telefacts.mapSet]
    by_cases h : a = k
    · subst h
      simp only [if_true, MapWF, mapKeys, List.map_cons, List.nodup_cons]
      exact wf
    · simp only [h, if_false, MapWF, mapKeys, List.map_cons, List.nodup_cons]
      refine ⟨?_, ih wf.2⟩
      intro hm
      have := (mem_mapKeys_mapSet m k a v).1 hm
      rcases this with h2 | h2
      · exact h h2
      · exact wf.1 h2

omit [DecidableEq K] in
theorem MapWF.nil : MapWF ([] : GoMap K V) := by simp [MapWF, mapKeys]

omit [DecidableEq K] in
theorem MapWF.perm {m m' : GoMap K V} (wf : MapWF m) (h : m.Perm m') : MapWF m' := by
  have := h.map Prod.fst
  exact this.nodup_iff.1 wf

theorem mapGet_perm {m m' : GoMap K V} (wf : MapWF m) (h : m.Perm m') (k : K) :
    mapGet m' k = mapGet m k := by
  have wf' := wf.perm h
  cases h1 : mapGet m k with
  | some v => exact mapGet_of_mem wf' (h.mem_iff.1 (mem_of_mapGet h1))
  | none =>
    cases h2 : mapGet m' k with
    | none => rfl
    | some v => rw [mapGet_of_mem wf (h.mem_iff.2 (mem_of_mapGet h2))] at h1; cases h1

/-- Two well-formed maps with the same lookups are permutations of each other. -/
theorem perm_of_mapGet_eq {m m' : GoMap K V} (wf : MapWF m) (wf' : MapWF m')
    (h : ∀ k, mapGet m k = mapGet m' k) : m.Perm m' := by
  refine (List.perm_ext_iff_of_nodup (List.Nodup.of_map _ wf) (List.Nodup.of_map _ wf')).2 ?_
  rintro ⟨k, v⟩
  rw [← mapGet_iff_mem wf, ← mapGet_iff_mem wf', h]
end Map

/-! ## cut -/

theorem cutL_eq_none {c : Char} {l : List Char} : cutL c l = none ↔ c ∉ l := by
  induction l with
  | nil => simp [cutL]
  | cons x xs ih =>
    simp only [cutL]
    by_cases h : x = c
    · simp [h]
    · simp only [h, if_false, List.mem_cons]
      cases h2 : cutL c xs with
      | none => simp [h2] at ih; simp [ih, Ne.symm h]
      | some p => simp [h2] at ih; simp [ih]

theorem cutL_eq_some {c : Char} {l a b : List Char} :
    cutL c l = some (a, b) ↔ l = a ++ c :: b ∧ c ∉ a := by
  induction l generalizing a with
  | nil => simp [cutL]
  | cons x xs ih =>
    simp only [cutL]
    by_cases h : x = c
    · subst h
      simp only [if_true, Option.some.injEq, Prod.mk.injEq]
      constructor
      · rintro ⟨rfl, rfl⟩; simp
      · rintro ⟨h1, h2⟩
        cases a with
        | nil => simp at h1; simp [h1]
        | cons y ys => simp at h1; simp [h1.1] at h2
    · simp only [h, if_false]
      cases a with
      | nil =>
        simp only [List.nil_append, List.cons.injEq, h, false_and, iff_false]
        cases cutL c xs <;> simp
      | cons y ys =>
        simp only [List.cons_append, List.cons.injEq, List.mem_cons, not_or]
        have := @ih ys
        cases h2 : cutL c xs with
        | none => simp [h2] at this; simp only [reduceCtorEq, false_iff]; grind
        | some p =>
          obtain ⟨u, v⟩ := p
          simp only [h2, Option.some.injEq, Prod.mk.injEq] at this
          simp only [Option.some.injEq, Prod.mk.injEq, List.cons.injEq]
          constructor
          · rintro ⟨⟨rfl, rfl⟩, rfl⟩
            have := this.1 ⟨rfl, rfl⟩
            exact ⟨⟨rfl, this.1⟩, Ne.symm h, this.2⟩
          · rintro ⟨⟨rfl, h3⟩, _, h4⟩
            have := this.2 ⟨h3, h4⟩
            exact ⟨⟨rfl, this.1⟩, this.2⟩

theorem cut_eq_none {c : Char} {s : String} : cut c s = none ↔ c ∉ s.toList := by
  unfold cut
  rw [← cutL_eq_none]
  cases cutL c s.toList <;> simp

theorem cut_eq_some {c : Char} {s a b : String} :
    cut c s = some (a, b) ↔ s = a ++ String.singleton c ++ b ∧ c ∉ a.toList := by
  unfold cut
  have key := @cutL_eq_some c s.toList a.toList b.toList
  have e1 : (s = a ++ String.singleton c ++ b) ↔ s.toList = a.toList ++ c :: b.toList := by
    rw [← String.toList_inj]; simp
  rw [e1, ← key]
  cases h : cutL c s.toList with
  | none => simp
  | some p =>
    obtain ⟨u, v⟩ := p
    simp only [Option.some.injEq, Prod.mk.injEq]
    constructor
    · rintro ⟨rfl, rfl⟩; simp
    · rintro ⟨rfl, rfl⟩; simp

/-! ## stable sort -/

section Sorting
variable {α : Type} (less : α → α → Bool)

theorem insertStable_perm (x : α) (l : List α) : (insertStable less x l).Perm (x :: l) := by
  induction l with
  | nil => simp [insertStable]
  | cons y ys ih =>
    simp only [insertStable]
    split
    · exact (ih.cons y).trans (List.Perm.swap x y ys)
    · exact List.Perm.refl _

theorem stableSort_perm (l : List α) : (stableSort less l).Perm l := by
  induction l with
  | nil => simp [stableSort]
  | cons x xs ih => exact (insertStable_perm less x _).trans (ih.cons x)

theorem mem_stableSort {l : List α} {x : α} : x ∈ stableSort less l ↔ x ∈ l :=
  (stableSort_perm less l).mem_iff

theorem length_stableSort (l : List α) : (stableSort less l).length = l.length :=
  (stableSort_perm less l).length_eq

theorem nodup_stableSort {l : List α} : (stableSort less l).Nodup ↔ l.Nodup :=
  (stableSort_perm less l).nodup_iff

/-- A comparator that is a strict weak order. -/
structure StrictWeak : Prop where
  asymm : ∀ a b, less a b = true → less b a = false
  negTrans : ∀ a b c, less a b = false → less b c = false → less a c = false

variable {less}

theorem StrictWeak.irrefl (h : StrictWeak less) (a : α) : less a a = false := by
  cases h2 : less a a with
  | false => rfl
  | true => have := h.asymm a a h2; simp_all

theorem StrictWeak.trans (h : StrictWeak less) {a b c : α} (h1 : less a b = true)
    (h2 : less b c = true) : less a c = true := by
  cases h3 : less a c with
  | true => rfl
  | false =>
    have := h.negTrans a c b h3 (h.asymm _ _ h2)
    simp_all

/-- Sorted: no later element is smaller than an earlier one. -/
def SortedBy (less : α → α → Bool) (l : List α) : Prop := l.Pairwise (fun a b => less b a = false)

theorem insertStable_sorted (h : StrictWeak less) (x : α) {l : List α} (hl : SortedBy less l) :
    SortedBy less (insertStable less x l) := by
  induction l with
  | nil => simp [insertStable, SortedBy]
  | cons y ys ih =>
    simp only [SortedBy, List.pairwise_cons] at hl
    simp only [insertStable]
    split
    · rename_i hyx
      simp only [SortedBy, List.pairwise_cons]
      refine ⟨?_, ih hl.2⟩
      intro z hz
      rcases List.mem_cons.1 ((insertStable_perm less x ys).mem_iff.1 hz) with rfl | hz
      · exact h.asymm _ _ hyx
      · exact hl.1 z hz
    · rename_i hyx
      simp only [Bool.not_eq_true] at hyx
      simp only [SortedBy, List.pairwise_cons]
      refine ⟨?_, hl.1, hl.2⟩
      intro z hz
      rcases List.mem_cons.1 hz with rfl | hz
      · exact hyx
      · exact h.negTrans _ _ _ (hl.1 z hz) hyx

theorem stableSort_sorted (h : StrictWeak less) (l : List α) : SortedBy less (stableSort less l) := by
  induction l with
  | nil => simp [stableSort, SortedBy]
  | cons x xs ih => exact insertStable_sorted h x ih

/-- Equivalence induced by the comparator. -/
def equivBy (less : α → α → Bool) (a b : α) : Bool := !less a b && !less b a

theorem insertStable_filter_equiv (h : StrictWeak less) (a x : α) (l : List α) :
    (insertStable less x l).filter (equivBy less a) = (x :: l).filter (equivBy less a) := by
  induction l with
  | nil => simp [insertStable]
  | cons y ys ih =>
    simp only [insertStable]
    split
    · rename_i hyx
      rw [List.filter_cons, ih]
      by_cases hx : equivBy less a x = true
      · have : equivBy less a y = false := by
          simp only [equivBy, Bool.and_eq_true, Bool.not_eq_true'] at hx
          cases h3 : equivBy less a y with
          | false => rfl
          | true =>
            simp only [equivBy, Bool.and_eq_true, Bool.not_eq_true'] at h3
            have := h.negTrans y a x h3.2 hx.1
            simp_all
        simp [List.filter_cons, this]
      · simp [List.filter_cons, hx]
    · rfl

/-- Stability: within every equivalence class the original order is kept. -/
theorem stableSort_stable (h : StrictWeak less) (a : α) (l : List α) :
    (stableSort less l).filter (equivBy less a) = l.filter (equivBy less a) := by
  induction l with
  | nil => simp [stableSort]
  | cons x xs ih =>
    simp only [stableSort]
    rw [insertStable_filter_equiv h, List.filter_cons, List.filter_cons, ih]

/-- Sorted permutations are unique when equivalent elements are equal. -/
theorem sorted_unique {l₁ l₂ : List α} (hp : l₁.Perm l₂)
    (s₁ : SortedBy less l₁) (s₂ : SortedBy less l₂)
    (anti : ∀ a ∈ l₁, ∀ b ∈ l₁, less a b = false → less b a = false → a = b) : l₁ = l₂ := by
  induction l₁ generalizing l₂ with
  | nil => exact (List.nil_perm.1 hp).symm
  | cons x xs ih =>
    cases l₂ with
    | nil => exact absurd hp.symm (by simp)
    | cons y ys =>
      simp only [SortedBy, List.pairwise_cons] at s₁ s₂
      have hxy : x = y := by
        have hx : x ∈ y :: ys := hp.mem_iff.1 (by simp)
        have hy : y ∈ x :: xs := hp.mem_iff.2 (by simp)
        rcases List.mem_cons.1 hx with h | h
        · exact h
        · rcases List.mem_cons.1 hy with h' | h'
          · exact h'.symm
          · exact anti x (by simp) y (by simp [h']) (s₂.1 x h) (s₁.1 y h')
      subst hxy
      rw [ih (hp.cons_inv) s₁.2 s₂.2 (fun a ha b hb => anti a (by simp [ha]) b (by simp [hb]))]

theorem stableSort_perm_eq (h : StrictWeak less) {l₁ l₂ : List α} (hp : l₁.Perm l₂)
    (anti : ∀ a ∈ l₁, ∀ b ∈ l₁, less a b = false → less b a = false → a = b) :
    stableSort less l₁ = stableSort less l₂ := by
  refine sorted_unique (less := less)
    (((stableSort_perm less l₁).trans hp).trans (stableSort_perm less l₂).symm)
    (stableSort_sorted h _) (stableSort_sorted h _) ?_
  intro a ha b hb
  exact anti a ((mem_stableSort less).1 ha) b ((mem_stableSort less).1 hb)

/-- Sorting a sorted list changes nothing. -/
theorem stableSort_of_sorted {l : List α} (hs : SortedBy less l) : stableSort less l = l := by
  induction l with
  | nil => rfl
  | cons x xs ih =>
    simp only [SortedBy, List.pairwise_cons] at hs
    simp only [stableSort, ih hs.2]
    cases xs with
    | nil => rfl
    | cons y ys => simp [insertStable, hs.1 y (by simp)]
end Sorting

/-! ## String order -/

theorem strLess_strictWeak : StrictWeak (fun a b : String => decide (a < b)) where
  asymm a b := by
    simp only [decide_eq_true_eq, decide_eq_false_iff_not]
    intro h h2
    exact String.lt_irrefl _ (String.lt_trans h h2)
  negTrans a b c := by
    simp only [decide_eq_false_iff_not, String.not_lt]
    intro h1 h2
    exact String.le_trans h2 h1

theorem strLess_anti {a b : String} (h1 : decide (a < b) = false) (h2 : decide (b < a) = false) : a = b := by
  simp only [decide_eq_false_iff_not, String.not_lt] at h1 h2
  exact String.le_antisymm h2 h1

theorem str_lt_asymm {a b : String} (h : a < b) : ¬ b < a := fun h2 => String.lt_irrefl _ (String.lt_trans h h2)

theorem str_trichotomy (a b : String) : a < b ∨ a = b ∨ b < a := by
  by_cases h : a < b
  · exact .inl h
  · by_cases h2 : b < a
    · exact .inr (.inr h2)
    · exact .inr (.inl (strLess_anti (by simpa using h) (by simpa using h2)))

theorem sortStrings_perm (l : List String) : (sortStrings l).Perm l := stableSort_perm _ l

theorem mem_sortStrings {l : List String} {x : String} : x ∈ sortStrings l ↔ x ∈ l :=
  (sortStrings_perm l).mem_iff

theorem sortStrings_sorted (l : List String) : (sortStrings l).Pairwise (fun a b => ¬ b < a) := by
  have := stableSort_sorted strLess_strictWeak l
  exact this.imp (by simp)

theorem sortStrings_strict {l : List String} (h : l.Nodup) : (sortStrings l).Pairwise (· < ·) := by
  have hs := sortStrings_sorted l
  have hn : (sortStrings l).Nodup := (sortStrings_perm l).nodup_iff.2 h
  refine (hs.and hn).imp ?_
  rintro a b ⟨h1, h2⟩
  rcases str_trichotomy a b with h | h | h
  · exact h
  · exact absurd h h2
  · exact absurd h h1

theorem sortStrings_perm_eq {l₁ l₂ : List String} (h : l₁.Perm l₂) : sortStrings l₁ = sortStrings l₂ :=
  stableSort_perm_eq strLess_strictWeak h (fun _ _ _ _ => strLess_anti)

/-! ## dedup -/

section Dedup
variable {α : Type} [DecidableEq α]

theorem mem_dedupAux {seen l : List α} {x : α} : x ∈ dedupAux seen l ↔ x ∈ l ∧ x ∉ seen := by
  induction l generalizing seen with
  | nil => simp [dedupAux]
  | cons y ys ih =>
    simp only [dedupAux]
    by_cases h : y ∈ seen
    · simp only [h, if_true, ih, List.mem_cons]
      constructor
      · rintro ⟨h1, h2⟩; exact ⟨.inr h1, h2⟩
      · rintro ⟨h1 | h1, h2⟩
        · subst h1; exact absurd h h2
        · exact ⟨h1, h2⟩
    · simp only [h, if_false, List.mem_cons, ih, not_or]
      constructor
      · rintro (h1 | ⟨h1, h2, h3⟩)
        · subst h1; exact ⟨.inl rfl, h⟩
        · exact ⟨.inr h1, h3⟩
      · rintro ⟨h1 | h1, h2⟩
        · exact .inl h1
        · by_cases h3 : x = y
          · exact .inl h3
          · exact .inr ⟨h1, h3, h2⟩

theorem nodup_dedupAux (seen l : List α) : (dedupAux seen l).Nodup := by
  induction l generalizing seen with
  | nil => simp [dedupAux]
  | cons y ys ih =>
    simp only [dedupAux]
    split
    · exact ih _
    · refine List.nodup_cons.2 ⟨?_, ih _⟩
      rw [mem_dedupAux]; simp

theorem mem_dedup {l : List α} {x : α} : x ∈ dedup l ↔ x ∈ l := by simp [dedup, mem_dedupAux]

theorem nodup_dedup (l : List α) : (dedup l).Nodup := nodup_dedupAux [] l

theorem dedupAux_sublist (seen l : List α) : (dedupAux seen l).Sublist l := by
  induction l generalizing seen with
  | nil => simp [dedupAux]
  | cons y ys ih =>
    simp only [dedupAux]
    split
    · exact (ih _).cons _
    · exact (ih _).cons_cons _

theorem dedup_sublist (l : List α) : (dedup l).Sublist l := dedupAux_sublist [] l

theorem dedup_perm {l₁ l₂ : List α} (h : ∀ x, x ∈ l₁ ↔ x ∈ l₂) : (dedup l₁).Perm (dedup l₂) := by
  refine (List.perm_ext_iff_of_nodup (nodup_dedup _) (nodup_dedup _)).2 ?_
  intro a; rw [mem_dedup, mem_dedup, h]

theorem dedup_of_nodup {l : List α} (h : l.Nodup) : dedup l = l := by
  have key : ∀ (seen l : List α), l.Nodup → (∀ x ∈ l, x ∉ seen) → dedupAux seen l = l := by
    intro seen l
    induction l generalizing seen with
    | nil => intros; rfl
    | cons y ys ih =>
      intro hn hd
      simp only [List.nodup_cons] at hn
      simp only [dedupAux, hd y (by simp), if_false, List.cons.injEq, true_and]
      refine ih _ hn.2 ?_
      intro x hx
      simp only [List.mem_cons, not_or]
      exact ⟨fun h => hn.1 (h ▸ hx), hd x (by simp [hx])⟩
  exact key [] l h (by simp)
end Dedup

/-! ## float64 -/

theorem F64.lt_irrefl (a : F64) : F64.lt a a = false := by cases a <;> simp [F64.lt]

theorem F64.lt_asymm {a b : F64} (h : F64.lt a b = true) : F64.lt b a = false := by
  cases a <;> cases b <;> simp_all [F64.lt]; omega

theorem F64.lt_negTrans {a b c : F64} (hb : b ≠ .nan) (h1 : F64.lt a b = false)
    (h2 : F64.lt b c = false) : F64.lt a c = false := by
  cases a <;> cases b <;> cases c <;> simp_all [F64.lt]; omega

end Telefacts
