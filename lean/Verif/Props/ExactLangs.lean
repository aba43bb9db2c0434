import Verif.Props.Label
/-! # C52: when the languages depend on the schedule -/
namespace Telefacts
open Telefacts.Render Telefacts.Spec

/-- The grids other than `g`. -/
def othersOf (g : Nat) : List Nat := [0, 1, 2].filter fun j => decide (j ≠ g)

/-- All three load the empty slice, then the others write and store, then `g` does. -/
def lastWins (g : Nat) : List Nat :=
  match othersOf g with
  | [a, b] => [a, b, g, a, b, a, b, g, g]
  | _ => []

theorem overwrite_start (l xs : List String) : (overwrite l 0 xs).take xs.length = xs := by
  unfold overwrite
  simp

/-- What the slice is after the schedule. -/
theorem lastWins_elems (ln : Nat → List String) (grow : Nat → Nat) (cap : Nat) (a b g : Nat) (hab : a ≠ b) (hag : a ≠ g) (hbg : b ≠ g) :
    sliceElems (runAppends ln grow cap [a, b, g, a, b, a, b, g, g]) = ln g := by
  unfold runAppends
  have hba := hab.symm
  have hga := hag.symm
  have hgb := hbg.symm
  simp only [List.foldl_cons, List.foldl_nil]
  generalize e0 : emptySlice cap = s0
  have p0 : ∀ j, s0.pcs j = .start := by rw [← e0]; intro j; rfl
  have n0 : 0 < s0.next := by rw [← e0]; exact Nat.one_pos
  have h0 : s0.hdr = ⟨0, 0⟩ := by rw [← e0]; rfl
  clear e0
  -- the three loads
  have e1 : appendStep ln grow s0 a = { s0 with pcs := upd s0.pcs a (.loaded ⟨0, 0⟩) } := by simp [appendStep, p0, h0]
  rw [e1]
  generalize hs1 : ({ s0 with pcs := upd s0.pcs a (.loaded ⟨0, 0⟩) } : Shared) = s1
  have k1 : s1.pcs a = .loaded ⟨0, 0⟩ ∧ s1.pcs b = .start ∧ s1.pcs g = .start ∧ s1.hdr = ⟨0, 0⟩ ∧ 0 < s1.next := by
    subst hs1; simp [upd, hba, hga, p0, h0, n0]
  clear hs1 e1
  obtain ⟨k1a, k1b, k1g, k1h, k1n⟩ := k1
  have e2 : appendStep ln grow s1 b = { s1 with pcs := upd s1.pcs b (.loaded ⟨0, 0⟩) } := by simp [appendStep, k1b, k1h]
  rw [e2]
  generalize hs2 : ({ s1 with pcs := upd s1.pcs b (.loaded ⟨0, 0⟩) } : Shared) = s2
  have k2 : s2.pcs a = .loaded ⟨0, 0⟩ ∧ s2.pcs b = .loaded ⟨0, 0⟩ ∧ s2.pcs g = .start ∧ s2.hdr = ⟨0, 0⟩ ∧ 0 < s2.next := by
    subst hs2; simp [upd, hab, hgb, k1a, k1g, k1h, k1n]
  clear hs2 e2
  obtain ⟨k2a, k2b, k2g, k2h, k2n⟩ := k2
  have e3 : appendStep ln grow s2 g = { s2 with pcs := upd s2.pcs g (.loaded ⟨0, 0⟩) } := by simp [appendStep, k2g, k2h]
  rw [e3]
  generalize hs3 : ({ s2 with pcs := upd s2.pcs g (.loaded ⟨0, 0⟩) } : Shared) = s3
  have k3 : s3.pcs a = .loaded ⟨0, 0⟩ ∧ s3.pcs b = .loaded ⟨0, 0⟩ ∧ s3.pcs g = .loaded ⟨0, 0⟩ := by
    subst hs3; simp [upd, hag, hbg, k2a, k2b]
  clear hs3 e3
  obtain ⟨k3a, k3b, k3g⟩ := k3
  -- a step of another goroutine leaves this one where it is
  have other : ∀ (s : Shared) (j k : Nat), j ≠ k → (appendStep ln grow s j).pcs k = s.pcs k := by
    intro s j k hjk
    unfold appendStep
    split
    · simp [upd, hjk.symm]
    · simp only; split <;> simp [upd, hjk.symm]
    · simp [upd, hjk.symm]
    · rfl
  generalize hs4 : appendStep ln grow (appendStep ln grow (appendStep ln grow (appendStep ln grow s3 a) b) a) b = s4
  have k4 : s4.pcs g = .loaded ⟨0, 0⟩ := by
    subst hs4; rw [other _ _ _ hbg, other _ _ _ hag, other _ _ _ hbg, other _ _ _ hag, k3g]
  clear hs4
  by_cases hc : (ln g).length ≤ (s4.heap 0).length
  · have e5 : appendStep ln grow s4 g = { s4 with heap := upd s4.heap 0 (overwrite (s4.heap 0) 0 (ln g)), pcs := upd s4.pcs g (.written ⟨0, (ln g).length⟩) } := by
      simp [appendStep, k4, hc]
    rw [e5]
    simp [appendStep, upd, sliceElems, overwrite_start]
  · have e5 : appendStep ln grow s4 g = { s4 with heap := upd s4.heap s4.next (ln g ++ List.replicate (grow (ln g).length) ""), next := s4.next + 1, pcs := upd s4.pcs g (.written ⟨s4.next, (ln g).length⟩) } := by
      simp [appendStep, k4, hc]
    rw [e5]
    simp [appendStep, upd, sliceElems]

/-- **C52 (fails).** For each of the grids there is a schedule after which exactly its languages are offered. -/
theorem C52_any_fails (ln : Nat → List String) (grow : Nat → Nat) (cap : Nat) (g : Nat) (hg : g < 3) :
    ∃ sched : List Nat, (∀ j, j < 3 → sched.count j = 3) ∧ ∀ l, l ∈ langsAfter ln grow cap sched ↔ l ∈ ln g := by
  refine ⟨lastWins g, ?_, ?_⟩
  · intro j hj
    have : g = 0 ∨ g = 1 ∨ g = 2 := by omega
    have : j = 0 ∨ j = 1 ∨ j = 2 := by omega
    rcases ‹g = 0 ∨ g = 1 ∨ g = 2› with rfl | rfl | rfl <;> rcases ‹j = 0 ∨ j = 1 ∨ j = 2› with rfl | rfl | rfl <;> decide
  · intro l
    unfold langsAfter
    rw [mem_dedup]
    have : g = 0 ∨ g = 1 ∨ g = 2 := by omega
    rcases this with rfl | rfl | rfl
    · rw [show lastWins 0 = [1, 2, 0, 1, 2, 1, 2, 0, 0] from rfl, lastWins_elems ln grow cap 1 2 0 (by decide) (by decide) (by decide)]
    · rw [show lastWins 1 = [0, 2, 1, 0, 2, 0, 2, 1, 1] from rfl, lastWins_elems ln grow cap 0 2 1 (by decide) (by decide) (by decide)]
    · rw [show lastWins 2 = [0, 1, 2, 0, 1, 0, 1, 2, 2] from rfl, lastWins_elems ln grow cap 0 1 2 (by decide) (by decide) (by decide)]

/-- **C52 (fails).** If the languages do not depend on the schedule, the three grids offer the same languages. -/
theorem C52_depends_fails (ln : Nat → List String) (grow : Nat → Nat) (cap : Nat)
    (h : ∀ s s' : List Nat, (∀ j, j < 3 → s.count j = 3) → (∀ j, j < 3 → s'.count j = 3) →
      ∀ l, l ∈ langsAfter ln grow cap s ↔ l ∈ langsAfter ln grow cap s') (g g' : Nat) (hg : g < 3) (hg' : g' < 3) (l : String) :
    l ∈ ln g ↔ l ∈ ln g' := by
  obtain ⟨s, hs, e⟩ := C52_any_fails ln grow cap g hg
  obtain ⟨s', hs', e'⟩ := C52_any_fails ln grow cap g' hg'
  rw [← e, ← e']
  exact h s s' hs hs' l

/-! ## Equal lists -/

theorem overwrite_get (l xs : List String) (i j : Nat) (hi : i ≤ l.length) :
    (overwrite l i xs)[j]? = if j < i then l[j]? else if j < i + xs.length then xs[j - i]? else l[j]? := by
  unfold overwrite
  have hl : (l.take i).length = i := by simp [hi]
  by_cases h1 : j < i
  · rw [if_pos h1, List.append_assoc, List.getElem?_append_left (by omega), List.getElem?_take_of_lt h1]
  · rw [if_neg h1]
    by_cases h2 : j < i + xs.length
    · rw [if_pos h2, List.getElem?_append_left (by rw [List.length_append]; omega), List.getElem?_append_right (by omega), hl]
    · rw [if_neg h2, List.getElem?_append_right (by rw [List.length_append]; omega), List.length_append, hl, List.getElem?_drop]
      congr 1
      omega

/-- What is readable through a header is the list again and again. -/
def Repeats (x : List String) (s : Shared) (h : Hdr) : Prop :=
  (∃ k, h.len = k * x.length) ∧ h.len ≤ (s.heap h.arr).length ∧ h.arr < s.next ∧
    ∀ j, j < h.len → (s.heap h.arr)[j]? = x[j % x.length]?

/-- How far a goroutine is. -/
def rank : Pc → Nat
  | .start => 0
  | .loaded _ => 1
  | .written _ => 2
  | .finished => 3

structure RepInv (x : List String) (s : Shared) : Prop where
  hdr : Repeats x s s.hdr
  pcs : ∀ g h, (s.pcs g = .loaded h ∨ s.pcs g = .written h) → Repeats x s h
  long : ∀ g h, s.pcs g = .written h → x.length ≤ h.len
  done : (∃ g, s.pcs g = .finished) → x.length ≤ s.hdr.len

theorem repInv_step {x : List String} {ln : Nat → List String} {grow : Nat → Nat} {s : Shared} {g : Nat}
    (hx : ln g = x) (h : RepInv x s) : RepInv x (appendStep ln grow s g) := by
  unfold appendStep
  split
  · rename_i hpc
    refine ⟨h.hdr, ?_, ?_, ?_⟩
    · intro j h' hj
      simp only [upd] at hj
      split at hj
      · rcases hj with hj | hj
        · cases hj; exact h.hdr
        · cases hj
      · exact h.pcs j h' hj
    · intro j h' hj
      simp only [upd] at hj
      split at hj
      · cases hj
      · exact h.long j h' hj
    · rintro ⟨j, hj⟩
      simp only [upd] at hj
      split at hj
      · cases hj
      · exact h.done ⟨j, hj⟩
  · rename_i hd hpc
    obtain ⟨⟨k, hk⟩, hlen, harr, hget⟩ := h.pcs g hd (.inl hpc)
    rw [hx]
    simp only
    split
    · rename_i hc
      have cov : ∀ d : Hdr, Repeats x s d → Repeats x { s with
          heap := upd s.heap hd.arr (overwrite (s.heap hd.arr) hd.len x)
          pcs := upd s.pcs g (.written ⟨hd.arr, hd.len + x.length⟩) } d := by
        rintro d ⟨d1, d2, d3, d4⟩
        refine ⟨d1, ?_, d3, ?_⟩
        · simp only [upd]
          split
          · rename_i he
            rw [he] at d2
            simp only [overwrite, List.length_append, List.length_take, List.length_drop]
            omega
          · exact d2
        · intro j hj
          simp only [upd]
          split
          · rename_i he
            rw [overwrite_get _ _ _ _ hlen]
            have := d4 j hj
            rw [he] at this
            split
            · exact this
            · split
              · rename_i h1 h2
                have hm : j % x.length = j - hd.len := by
                  have : j = (j - hd.len) + x.length * k := by rw [Nat.mul_comm, ← hk]; omega
                  rw [this, Nat.add_mul_mod_self_left, Nat.mod_eq_of_lt (by omega)]
                  rw [Nat.mul_comm, ← hk]; omega
                rw [hm]
              · exact this
          · exact d4 j hj
      refine ⟨cov _ h.hdr, ?_, ?_, ?_⟩
      · intro j h' hj
        simp only [upd] at hj
        split at hj
        · rcases hj with hj | hj
          · cases hj
          · cases hj
            refine ⟨⟨k + 1, by rw [Nat.add_mul, ← hk]; simp⟩, ?_, harr, ?_⟩
            · simp only [upd, if_pos, overwrite, List.length_append, List.length_take, List.length_drop]
              omega
            · intro j' hj'
              simp only [upd, if_pos]
              rw [overwrite_get _ _ _ _ hlen]
              simp only at hj'
              split
              · rename_i h1; exact hget j' h1
              · have hm : j' % x.length = j' - hd.len := by
                  have : j' = (j' - hd.len) + x.length * k := by rw [Nat.mul_comm, ← hk]; omega
                  rw [this, Nat.add_mul_mod_self_left, Nat.mod_eq_of_lt (by omega)]
                  rw [Nat.mul_comm, ← hk]; omega
                rw [hm]
        · exact cov _ (h.pcs j h' hj)
      · intro j h' hj
        simp only [upd] at hj
        split at hj
        · cases hj; simp
        · exact h.long j h' hj
      · rintro ⟨j, hj⟩
        simp only [upd] at hj
        split at hj
        · cases hj
        · exact h.done ⟨j, hj⟩
    · have cov : ∀ d : Hdr, Repeats x s d → Repeats x { s with
          heap := upd s.heap s.next ((s.heap hd.arr).take hd.len ++ x ++ List.replicate (grow (hd.len + x.length)) "")
          next := s.next + 1
          pcs := upd s.pcs g (.written ⟨s.next, hd.len + x.length⟩) } d := by
        rintro d ⟨d1, d2, d3, d4⟩
        have hne : d.arr ≠ s.next := by omega
        refine ⟨d1, ?_, by simp only; omega, ?_⟩
        · simp only [upd, if_neg hne]; exact d2
        · intro j hj; simp only [upd, if_neg hne]; exact d4 j hj
      refine ⟨cov _ h.hdr, ?_, ?_, ?_⟩
      · intro j h' hj
        simp only [upd] at hj
        split at hj
        · rcases hj with hj | hj
          · cases hj
          · cases hj
            refine ⟨⟨k + 1, by rw [Nat.add_mul, ← hk]; simp⟩, ?_, by simp, ?_⟩
            · simp only [upd, if_pos, List.length_append, List.length_take]
              omega
            · intro j' hj'
              simp only [upd, if_pos]
              simp only at hj'
              have hl : ((s.heap hd.arr).take hd.len).length = hd.len := by simp [hlen]
              rw [List.getElem?_append_left (by rw [List.length_append]; omega)]
              by_cases h1 : j' < hd.len
              · rw [List.getElem?_append_left (by omega), List.getElem?_take_of_lt h1]
                exact hget j' h1
              · rw [List.getElem?_append_right (by omega), hl]
                have hm : j' % x.length = j' - hd.len := by
                  have : j' = (j' - hd.len) + x.length * k := by rw [Nat.mul_comm, ← hk]; omega
                  rw [this, Nat.add_mul_mod_self_left, Nat.mod_eq_of_lt (by omega)]
                  rw [Nat.mul_comm, ← hk]; omega
                rw [hm]
        · exact cov _ (h.pcs j h' hj)
      · intro j h' hj
        simp only [upd] at hj
        split at hj
        · cases hj; simp
        · exact h.long j h' hj
      · rintro ⟨j, hj⟩
        simp only [upd] at hj
        split at hj
        · cases hj
        · exact h.done ⟨j, hj⟩
  · rename_i hd hpc
    refine ⟨h.pcs g hd (.inr hpc), ?_, ?_, fun _ => h.long g hd hpc⟩
    · intro j h' hj
      simp only [upd] at hj
      split at hj
      · rcases hj with hj | hj <;> cases hj
      · exact h.pcs j h' hj
    · intro j h' hj
      simp only [upd] at hj
      split at hj
      · cases hj
      · exact h.long j h' hj
  · exact h

theorem rank_step (ln : Nat → List String) (grow : Nat → Nat) (s : Shared) (g j : Nat) :
    rank ((appendStep ln grow s g).pcs j) = if j = g then min 3 (rank (s.pcs j) + 1) else rank (s.pcs j) := by
  unfold appendStep
  by_cases hj : j = g
  · subst hj
    rw [if_pos rfl]
    split
    · rename_i h; simp [upd, h, rank]
    · rename_i h; simp only; split <;> simp [upd, h, rank]
    · rename_i h; simp [upd, h, rank]
    · rename_i h; simp [h, rank]
  · rw [if_neg hj]
    split
    · simp [upd, hj]
    · simp only; split <;> simp [upd, hj]
    · simp [upd, hj]
    · rfl

theorem rank_run (ln : Nat → List String) (grow : Nat → Nat) (j : Nat) (sched : List Nat) (s : Shared) (hr : rank (s.pcs j) ≤ 3) :
    rank ((sched.foldl (appendStep ln grow) s).pcs j) = min 3 (rank (s.pcs j) + sched.count j) := by
  induction sched generalizing s with
  | nil => simp; omega
  | cons g gs ih =>
    rw [List.foldl_cons, ih _ (by rw [rank_step]; split <;> omega), rank_step, List.count_cons]
    by_cases h : j = g
    · subst h; simp; omega
    · have : ¬ g = j := fun e => h e.symm
      simp [h, this]

/-- **C52 (partial).** If the three grids offer the same list of languages, it is offered whatever the schedule. Missing: grids that
offer different languages, for which it always depends on the schedule (`C52_depends_fails`). -/
theorem C52_same_partial (ln : Nat → List String) (grow : Nat → Nat) (cap : Nat) (x : List String) (hx : ∀ g, g < 3 → ln g = x)
    (sched : List Nat) (hs : ∀ j ∈ sched, j < 3) (hc : ∃ j, j < 3 ∧ 3 ≤ sched.count j) (l : String) :
    l ∈ langsAfter ln grow cap sched ↔ l ∈ x := by
  have hinv : ∀ (sched : List Nat) (s : Shared), (∀ j ∈ sched, j < 3) → RepInv x s → RepInv x (sched.foldl (appendStep ln grow) s) := by
    intro sched
    induction sched with
    | nil => intro s _ h; exact h
    | cons g gs ih =>
      intro s hs h
      exact ih _ (fun j hj => hs j (by simp [hj])) (repInv_step (hx g (hs g (by simp))) h)
  have h := hinv sched (emptySlice cap) hs ⟨⟨⟨0, by simp [emptySlice]⟩, by simp [emptySlice], by simp [emptySlice], by simp [emptySlice]⟩,
    by simp [emptySlice], by simp [emptySlice], by simp [emptySlice]⟩
  obtain ⟨j, hj, hcj⟩ := hc
  have hfin : (runAppends ln grow cap sched).pcs j = .finished := by
    have := rank_run ln grow j sched (emptySlice cap) (by simp [emptySlice, rank])
    unfold runAppends
    rw [show rank ((emptySlice cap).pcs j) = 0 from rfl, Nat.zero_add, Nat.min_eq_left hcj] at this
    cases hp : (List.foldl (appendStep ln grow) (emptySlice cap) sched).pcs j with
    | finished => rfl
    | start => rw [hp] at this; cases this
    | loaded => rw [hp] at this; cases this
    | written => rw [hp] at this; cases this
  have hlong := h.done ⟨j, hfin⟩
  obtain ⟨_, hl, _, hget⟩ := h.hdr
  unfold langsAfter
  rw [mem_dedup]
  unfold sliceElems runAppends
  constructor
  · intro hm
    obtain ⟨k, hk⟩ := List.mem_iff_getElem?.1 hm
    rw [List.getElem?_take] at hk
    split at hk
    · rename_i hlt
      rw [hget k hlt] at hk
      exact List.mem_of_getElem? hk
    · cases hk
  · intro hm
    obtain ⟨k, hk⟩ := List.mem_iff_getElem?.1 hm
    have hkl : k < x.length := (List.getElem?_eq_some_iff.1 hk).1
    refine List.mem_iff_getElem?.2 ⟨k, ?_⟩
    rw [List.getElem?_take, if_pos (by omega), hget k (by omega), Nat.mod_eq_of_lt hkl, hk]

/-- Three grids with the same languages, overlapping. -/
example : (∀ j ∈ [0, 1, 2, 0, 1, 2, 0, 1, 2], j < 3) ∧ (∃ j, j < 3 ∧ 3 ≤ [0, 1, 2, 0, 1, 2, 0, 1, 2].count j) ∧
    langsAfter (fun _ => ["Unlabelled", "en - english"]) (fun _ => 0) 8 [0, 1, 2, 0, 1, 2, 0, 1, 2] = ["Unlabelled", "en - english"] :=
  ⟨by decide, ⟨0, by decide, by decide⟩, by decide +kernel⟩

end Telefacts
