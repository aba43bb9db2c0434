import Verif.Proof.Decimal
import Verif.Proof.Relations
import Mathlib.Algebra.Order.Group.Unbundled.Abs
/-! # Comparing decimal numbers that were read; siblings in order -/
namespace Telefacts.Number

/-- What a decimal number is rounded to. -/
def rounded (m : Int) (k : Nat) : Int := if m < 0 then -(nearest (m.natAbs * 2 ^ 1074) (10 ^ k) : Int) else nearest (m.natAbs * 2 ^ 1074) (10 ^ k)

theorem nearest_zero (d : Nat) : nearest 0 d = 0 := by unfold nearest; simp

theorem parse_decimal (other : String → F64 × Bool) {s : String} {m : Int} {k : Nat} (h : DecimalText s m k)
    (hr : nearest (m.natAbs * 2 ^ 1074) (10 ^ k) < 2 ^ 2098) : parseFloat other s = (.fin (rounded m k), true) := by
  obtain ⟨neg, h1, h2⟩ := readDecimal_decimal h
  unfold parseFloat
  rw [h1]
  simp only [if_pos hr]
  congr 2
  unfold rounded
  by_cases hm : m = 0
  · subst hm
    simp [nearest_zero]
  · cases neg with
    | true =>
      rw [if_pos rfl] at h2
      rw [if_pos rfl, if_pos (by omega)]
    | false =>
      rw [if_neg (by simp)] at h2
      rw [if_neg (by simp), if_neg (by omega)]

/-- Numbers that are not too large. -/
def InRange (m : Int) (k : Nat) : Prop := m.natAbs ≤ 10 ^ k * 2 ^ 1023

theorem inRange_nearest {m : Int} {k : Nat} (h : InRange m k) : nearest (m.natAbs * 2 ^ 1074) (10 ^ k) < 2 ^ 2098 := by
  unfold InRange at h
  have hd : 0 < 10 ^ k := Nat.pow_pos (by omega)
  have hb := nearest_best (m.natAbs * 2 ^ 1074) (10 ^ k) hd (b := 1) (c := 2097) (by decide)
  have hle : m.natAbs * 2 ^ 1074 ≤ 1 * 2 ^ 2097 * 10 ^ k := by
    calc m.natAbs * 2 ^ 1074 ≤ 10 ^ k * 2 ^ 1023 * 2 ^ 1074 := Nat.mul_le_mul_right _ h
      _ = 10 ^ k * (2 ^ 1023 * 2 ^ 1074) := by rw [Nat.mul_assoc]
      _ = 10 ^ k * 2 ^ 2097 := by rw [← Nat.pow_add]
      _ = 1 * 2 ^ 2097 * 10 ^ k := by rw [Nat.one_mul, Nat.mul_comm]
  have hz : nearest (m.natAbs * 2 ^ 1074) (10 ^ k) * 10 ^ k ≤ 1 * 2 ^ 2097 * 10 ^ k := by
    generalize nearest (m.natAbs * 2 ^ 1074) (10 ^ k) = z at *
    rw [← Nat.cast_mul, ← Nat.cast_mul] at hb
    generalize 1 * 2 ^ 2097 * 10 ^ k = x at *
    generalize z * 10 ^ k = y at *
    generalize m.natAbs * 2 ^ 1074 = n at *
    omega
  have := Nat.le_of_mul_le_mul_right hz hd
  have h2 : (2 : Nat) ^ 2098 = 2 * 2 ^ 2097 := by rw [show 2098 = 1 + 2097 by omega, Nat.pow_add, Nat.pow_one]
  rw [h2]
  have : 0 < (2 : Nat) ^ 2097 := Nat.two_pow_pos _
  omega

theorem neg_scaled {m : Int} (h : m < 0) {u : Nat} : m * 2 ^ u = -((m.natAbs * 2 ^ u : Nat) : Int) := by
  rw [Int.natCast_mul, ← Int.neg_mul, show -(m.natAbs : Int) = m by omega, Int.natCast_pow]
  rfl

theorem pos_scaled {m : Int} (h : ¬ m < 0) {u : Nat} : m * 2 ^ u = ((m.natAbs * 2 ^ u : Nat) : Int) := by
  rw [Int.natCast_mul, show (m.natAbs : Int) = m by omega, Int.natCast_pow]
  rfl

theorem natAbs_neg_sub (a b : Int) : (-a - -b).natAbs = (a - b).natAbs := by omega

theorem rounded_nearest {m : Int} {k : Nat} (h : nearest (m.natAbs * 2 ^ 1074) (10 ^ k) < 2 ^ 2098) : Nearest m k (rounded m k) := by
  have hd : 0 < 10 ^ k := Nat.pow_pos (by omega)
  have hdb := nearest_double _ _ hd h
  have hbest : ∀ z', Double z' → ((m.natAbs * 2 ^ 1074 : Nat) - (nearest (m.natAbs * 2 ^ 1074) (10 ^ k) : Int) * (10 ^ k : Nat)).natAbs ≤
      ((m.natAbs * 2 ^ 1074 : Nat) - z' * (10 ^ k : Nat) : Int).natAbs := by
    rintro z' ⟨a, e, rfl, ha, _⟩
    refine Nat.le_trans (nearest_best _ _ hd ha (c := e)) ?_
    have e1 : ((a.natAbs * 2 ^ e : Nat) : Int) = ((a * 2 ^ e).natAbs : Int) := by
      rw [Int.natAbs_mul, Int.natAbs_pow]; rfl
    rw [e1]
    generalize a * 2 ^ e = z
    generalize m.natAbs * 2 ^ 1074 = n
    have hz : (z.natAbs : Int) * (10 ^ k : Nat) = ((z * (10 ^ k : Nat)).natAbs : Int) := by
      rw [Int.natAbs_mul]; simp
    rw [hz]
    generalize z * ((10 ^ k : Nat) : Int) = y
    omega
  have cast : ((10 ^ k : Nat) : Int) = 10 ^ k := by push_cast; rfl
  rw [cast] at hbest
  unfold rounded
  by_cases hm : m < 0
  · rw [if_pos hm]
    constructor
    · obtain ⟨a, e, h1, h2, h3⟩ := hdb
      exact ⟨-a, e, by rw [h1, Int.neg_mul], by omega, h3⟩
    · intro z' hz'
      obtain ⟨a, e, rfl, h2, h3⟩ := hz'
      have hm2 : m * 2 ^ 1074 = -((m.natAbs * 2 ^ 1074 : Nat) : Int) := neg_scaled hm
      have := hbest (-(a * 2 ^ e)) ⟨-a, e, by rw [Int.neg_mul], by omega, h3⟩
      rw [hm2, Int.neg_mul, natAbs_neg_sub]
      refine Nat.le_trans this ?_
      rw [← natAbs_neg_sub, Int.neg_mul, Int.neg_neg]
  · rw [if_neg hm]
    refine ⟨hdb, fun z' hz' => ?_⟩
    have hm2 : m * 2 ^ 1074 = ((m.natAbs * 2 ^ 1074 : Nat) : Int) := pos_scaled hm
    rw [hm2]
    exact hbest z' hz'

theorem rounded_scale (m : Int) (k c : Nat) : rounded (m * 10 ^ c) (k + c) = rounded m k := by
  have hc : 0 < 10 ^ c := Nat.pow_pos (by omega)
  have e1 : (m * 10 ^ c).natAbs * 2 ^ 1074 = m.natAbs * 2 ^ 1074 * 10 ^ c := by
    rw [Int.natAbs_mul, Int.natAbs_pow]; simp only [Int.reduceAbs]; ring
  have hs : m * 10 ^ c < 0 ↔ m < 0 := by
    have : (0 : Int) < 10 ^ c := by positivity
    constructor
    · intro h
      by_contra hn
      have := Int.mul_nonneg (Int.not_lt.1 hn) (Int.le_of_lt this)
      omega
    · exact fun h => Int.mul_neg_of_neg_of_pos h this
  unfold rounded
  rw [e1, Nat.pow_add, nearest_scale _ _ _ hc]
  simp only [hs]

/-- Rounding keeps the order. -/
theorem rounded_mono {m m' : Int} {k k' : Nat} (hm : nearest (m.natAbs * 2 ^ 1074) (10 ^ k) < 2 ^ 2098)
    (hm' : nearest (m'.natAbs * 2 ^ 1074) (10 ^ k') < 2 ^ 2098) (h : m * 10 ^ k' ≤ m' * 10 ^ k) : rounded m k ≤ rounded m' k' := by
  obtain ⟨hd, hn⟩ := rounded_nearest hm
  obtain ⟨hd', hn'⟩ := rounded_nearest hm'
  have e1 := rounded_scale m k k'
  have e2 := rounded_scale m' k' k
  by_contra hlt
  rw [Int.not_le] at hlt
  have h1 := hn _ hd'
  have h2 := hn' _ hd
  by_cases heq : m * 10 ^ k' = m' * 10 ^ k
  · rw [heq, Nat.add_comm k k', e2] at e1
    omega
  · have p : (0 : Int) < 10 ^ k := by positivity
    have p' : (0 : Int) < 10 ^ k' := by positivity
    have pp : (0 : Int) < 2 ^ 1074 := by positivity
    generalize rounded m k = z at *
    generalize rounded m' k' = z' at *
    generalize (10 : Int) ^ k = d at *
    generalize (10 : Int) ^ k' = d' at *
    generalize (2 : Int) ^ 1074 = u at *
    -- `m u / d` is at least, `m' u / d'` at most halfway between `z'` and `z`
    have g1 : (z + z') * d ≤ 2 * (m * u) := by
      have l1 : z' * d < z * d := Int.mul_lt_mul_of_pos_right hlt p
      have l2 : (z + z') * d = z * d + z' * d := by ring
      omega
    have g2 : 2 * (m' * u) ≤ (z + z') * d' := by
      have l1 : z' * d' < z * d' := Int.mul_lt_mul_of_pos_right hlt p'
      have l2 : (z + z') * d' = z * d' + z' * d' := by ring
      omega
    have g3 : (z + z') * d * d' ≤ 2 * (m * u) * d' := Int.mul_le_mul_of_nonneg_right g1 (Int.le_of_lt p')
    have g4 : 2 * (m' * u) * d ≤ (z + z') * d' * d := Int.mul_le_mul_of_nonneg_right g2 (Int.le_of_lt p)
    have g5 : m * d' < m' * d := by omega
    have g6 : m * d' * u < m' * d * u := Int.mul_lt_mul_of_pos_right g5 pp
    nlinarith

theorem unit_bound {n d : Nat} (hd : 0 < d) : d * 2 ^ unit n d ≤ d ∨ d * 2 ^ unit n d * 2 ^ 52 ≤ n := by
  by_cases h : unit n d = 0
  · left; rw [h]; simp
  · right
    have := (floor_bounds n d hd).2 h
    have h2 := Nat.div_mul_le_self n (d * 2 ^ unit n d)
    calc d * 2 ^ unit n d * 2 ^ 52 = 2 ^ 52 * (d * 2 ^ unit n d) := Nat.mul_comm _ _
      _ ≤ n / (d * 2 ^ unit n d) * (d * 2 ^ unit n d) := Nat.mul_le_mul_right _ this
      _ ≤ n := h2

/-- The error of rounding is small. -/
theorem rounded_error (m : Int) {k : Nat} (hk : k ≤ 300) :
    (m * 2 ^ 53 * 2 ^ 1021 - rounded m k * 10 ^ k).natAbs ≤ m.natAbs * 2 ^ 1021 := by
  have hd : 0 < 10 ^ k := Nat.pow_pos (by omega)
  have he := nearest_error (m.natAbs * 2 ^ 1074) (10 ^ k) hd
  have hu := unit_bound (n := m.natAbs * 2 ^ 1074) hd
  have hsmall : 10 ^ k ≤ 2 ^ 1022 := Nat.le_trans (Nat.pow_le_pow_right (by omega) hk) (by decide +kernel)
  have e1074 : (2 : Nat) ^ 1074 = 2 ^ 52 * 2 ^ 1022 := by rw [← Nat.pow_add]
  have e1022 : (2 : Nat) ^ 1022 = 2 * 2 ^ 1021 := by rw [show 1022 = 1 + 1021 by omega, Nat.pow_add, Nat.pow_one]
  have hD : m ≠ 0 → 10 ^ k * 2 ^ unit (m.natAbs * 2 ^ 1074) (10 ^ k) ≤ m.natAbs * 2 ^ 1022 := by
    intro hm
    rcases hu with hu | hu
    · refine Nat.le_trans hu (Nat.le_trans hsmall ?_)
      exact Nat.le_mul_of_pos_left _ (by omega)
    · rw [e1074] at hu ⊢
      have : 10 ^ k * 2 ^ unit (m.natAbs * (2 ^ 52 * 2 ^ 1022)) (10 ^ k) * 2 ^ 52 ≤ (m.natAbs * 2 ^ 1022) * 2 ^ 52 := by
        refine Nat.le_trans hu (Nat.le_of_eq ?_)
        ring
      exact Nat.le_of_mul_le_mul_right this (by decide)
  by_cases hm : m = 0
  · subst hm
    unfold rounded
    simp [nearest_zero]
  have hD := hD hm
  have hfin : (((m.natAbs * 2 ^ 1074 : Nat) : Int) - (nearest (m.natAbs * 2 ^ 1074) (10 ^ k) : Int) * ((10 ^ k : Nat) : Int)).natAbs ≤ m.natAbs * 2 ^ 1021 := by
    have h3 := Nat.le_trans he hD
    rw [e1022, Int.natAbs_mul] at h3
    have : 2 * (((m.natAbs * 2 ^ 1074 : Nat) : Int) - (nearest (m.natAbs * 2 ^ 1074) (10 ^ k) : Int) * ((10 ^ k : Nat) : Int)).natAbs ≤
        2 * (m.natAbs * 2 ^ 1021) := by
      refine Nat.le_trans h3 (Nat.le_of_eq ?_)
      ring
    omega
  have cast : ((10 ^ k : Nat) : Int) = 10 ^ k := by push_cast; rfl
  have e53 : (2 : Int) ^ 53 * 2 ^ 1021 = 2 ^ 1074 := by rw [← pow_add]
  rw [cast] at hfin
  rw [Int.mul_assoc, e53]
  unfold rounded
  by_cases hneg : m < 0
  · rw [if_pos hneg]
    have hm2 : m * 2 ^ 1074 = -((m.natAbs * 2 ^ 1074 : Nat) : Int) := neg_scaled hneg
    rw [hm2, Int.neg_mul, natAbs_neg_sub]
    exact hfin
  · rw [if_neg hneg]
    have hm2 : m * 2 ^ 1074 = ((m.natAbs * 2 ^ 1074 : Nat) : Int) := pos_scaled hneg
    rw [hm2]
    exact hfin

/-- Different numbers of 15 digits stay different. -/
theorem rounded_strict {m m' : Int} {k : Nat} (hk : k ≤ 300) (h : m < m') (hs : m.natAbs < 10 ^ 15 ∨ m'.natAbs < 10 ^ 15) :
    rounded m k < rounded m' k := by
  have h1 := rounded_error m hk
  have h2 := rounded_error m' hk
  have p : (0 : Int) < 10 ^ k := by positivity
  have pu : 0 < (2 : Nat) ^ 1021 := Nat.two_pow_pos _
  have c : ((2 ^ 1021 : Nat) : Int) = (2 : Int) ^ 1021 := by push_cast; rfl
  rw [← c] at h1 h2
  generalize (2 : Nat) ^ 1021 = u at *
  by_contra hn
  rw [Int.not_lt] at hn
  have hle : rounded m' k * 10 ^ k ≤ rounded m k * 10 ^ k := Int.mul_le_mul_of_nonneg_right hn (Int.le_of_lt p)
  generalize rounded m k * 10 ^ k = x at *
  generalize rounded m' k * 10 ^ k = y at *
  have key : (m' - m) * 2 ^ 53 ≤ ((m.natAbs + m'.natAbs : Nat) : Int) := by
    have h3 : m' * 2 ^ 53 * (u : Int) - m * 2 ^ 53 * (u : Int) ≤ ((m.natAbs * u + m'.natAbs * u : Nat) : Int) := by omega
    have h4 : (m' - m) * 2 ^ 53 * (u : Int) ≤ ((m.natAbs + m'.natAbs : Nat) : Int) * u := by
      have l : (m' - m) * 2 ^ 53 * (u : Int) = m' * 2 ^ 53 * (u : Int) - m * 2 ^ 53 * (u : Int) := by ring
      have r : ((m.natAbs + m'.natAbs : Nat) : Int) * u = ((m.natAbs * u + m'.natAbs * u : Nat) : Int) := by push_cast; ring
      rw [l, r]; exact h3
    exact Int.le_of_mul_le_mul_right h4 (by omega)
  omega

end Telefacts.Number

namespace Telefacts.Render
open Telefacts.Spec

theorem rowsOf_two : ∀ (cs : List Node) (k : Nat) (c d : Node), List.Sublist [c, d] cs → ∃ i j : Nat, i < j ∧
    (rowsOf k cs)[i]? = some (k, c.locator) ∧ (rowsOf k cs)[j]? = some (k, d.locator) := by
  intro cs
  induction cs with
  | nil => intro k c d h; cases h
  | cons x cs ih =>
    intro k c d h
    obtain ⟨l, o, ds⟩ := x
    have up : ∀ j p, (rowsOf k cs)[j]? = some p → (rowsOf k (.mk l o ds :: cs))[(rowsOf (k + 1) ds).length + j + 1]? = some p := by
      intro j p hj
      rw [rowsOf_cons, List.getElem?_cons_succ, List.getElem?_append_right (by omega),
        show (rowsOf (k + 1) ds).length + j - (rowsOf (k + 1) ds).length = j by omega]
      exact hj
    cases h with
    | cons _ h =>
      obtain ⟨i, j, hij, h1, h2⟩ := ih k c d h
      exact ⟨_, _, by omega, up i _ h1, up j _ h2⟩
    | cons_cons _ h =>
      obtain ⟨j, hj⟩ := rowsOf_top cs k d (h.subset List.mem_cons_self)
      exact ⟨0, _, by omega, by rw [rowsOf_cons]; rfl, up j _ hj⟩

/-- Every row is that of a node, and has the rows of its children below it in their order. -/
theorem rowsOf_pair : ∀ (cs : List Node) (k i : Nat) (p : Nat × String), (rowsOf k cs)[i]? = some p →
    ∃ x, InForest cs x ∧ x.locator = p.2 ∧ ∀ c d, List.Sublist [c, d] x.children → ∃ j j' : Nat, j < j' ∧
      ChildRow Prod.fst (rowsOf k cs) i j ∧ ChildRow Prod.fst (rowsOf k cs) i j' ∧
      (rowsOf k cs)[j]? = some (p.1 + 1, c.locator) ∧ (rowsOf k cs)[j']? = some (p.1 + 1, d.locator) := by
  refine forestInd (fun k i p hp => by rw [rowsOf_nil] at hp; cases hp) ?_
  intro l o ds cs h1 h2 k i p hp
  rw [rowsOf_cons] at hp ⊢
  cases i with
  | zero =>
    rw [List.getElem?_cons_zero, Option.some.injEq] at hp
    subst hp
    refine ⟨.mk l o ds, ⟨_, List.mem_cons_self, .inl rfl⟩, rfl, ?_⟩
    intro c d hcd
    obtain ⟨j, j', hjj, hj, hj'⟩ := rowsOf_two ds (k + 1) c d hcd
    have key : ∀ j p, (rowsOf (k + 1) ds)[j]? = some (k + 1, p) →
        ChildRow Prod.fst ((k, l) :: (rowsOf (k + 1) ds ++ rowsOf k cs)) 0 (j + 1) ∧
          ((k, l) :: (rowsOf (k + 1) ds ++ rowsOf k cs))[j + 1]? = some (k + 1, p) := by
      intro j p hj
      have hlt := (List.getElem?_eq_some_iff.1 hj).1
      have hj' : ((k, l) :: (rowsOf (k + 1) ds ++ rowsOf k cs))[j + 1]? = some (k + 1, p) := by
        rw [List.getElem?_cons_succ, List.getElem?_append_left hlt]; exact hj
      refine ⟨⟨by omega, ⟨(k, l), _, rfl, hj', rfl⟩, ?_⟩, hj'⟩
      intro m x z hm1 hm2 hx hz
      cases hx
      obtain ⟨m', rfl⟩ : ∃ m', m = m' + 1 := ⟨m - 1, by omega⟩
      rw [List.getElem?_cons_succ, List.getElem?_append_left (by omega)] at hz
      exact rowsOf_ge _ _ _ (List.mem_of_getElem? hz)
    exact ⟨j + 1, j' + 1, by omega, (key j _ hj).1, (key j' _ hj').1, (key j _ hj).2, (key j' _ hj').2⟩
  | succ i =>
    rw [List.getElem?_cons_succ] at hp
    by_cases hi : i < (rowsOf (k + 1) ds).length
    · rw [List.getElem?_append_left hi] at hp
      obtain ⟨x, hx1, hx2, hx3⟩ := h1 _ _ _ hp
      refine ⟨x, hx1.head, hx2, ?_⟩
      intro c d hcd
      obtain ⟨j, j', hjj, hj1, hj1', hj2, hj2'⟩ := hx3 c d hcd
      have key : ∀ j q, ChildRow Prod.fst (rowsOf (k + 1) ds) i j → (rowsOf (k + 1) ds)[j]? = some q →
          ChildRow Prod.fst ((k, l) :: (rowsOf (k + 1) ds ++ rowsOf k cs)) (i + 1) (j + 1) ∧
          ((k, l) :: (rowsOf (k + 1) ds ++ rowsOf k cs))[j + 1]? = some q := by
        intro j q hc hq
        have hlt := (List.getElem?_eq_some_iff.1 hq).1
        refine ⟨?_, ?_⟩
        · have := childRow_shift [(k, l)] (rowsOf k cs) hc
          simpa [Nat.add_comm] using this
        · rw [List.getElem?_cons_succ, List.getElem?_append_left hlt]; exact hq
      exact ⟨j + 1, j' + 1, by omega, (key _ _ hj1 hj2).1, (key _ _ hj1' hj2').1, (key _ _ hj1 hj2).2, (key _ _ hj1' hj2').2⟩
    · rw [List.getElem?_append_right (by omega)] at hp
      obtain ⟨x, hx1, hx2, hx3⟩ := h2 _ _ _ hp
      refine ⟨x, hx1.tail, hx2, ?_⟩
      intro c d hcd
      obtain ⟨j, j', hjj, hj1, hj1', hj2, hj2'⟩ := hx3 c d hcd
      have key : ∀ j q, ChildRow Prod.fst (rowsOf k cs) (i - (rowsOf (k + 1) ds).length) j → (rowsOf k cs)[j]? = some q →
          ChildRow Prod.fst ((k, l) :: (rowsOf (k + 1) ds ++ rowsOf k cs)) (i + 1) ((rowsOf (k + 1) ds).length + j + 1) ∧
          ((k, l) :: (rowsOf (k + 1) ds ++ rowsOf k cs))[(rowsOf (k + 1) ds).length + j + 1]? = some q := by
        intro j q hc hq
        refine ⟨?_, ?_⟩
        · have := childRow_shift ((k, l) :: rowsOf (k + 1) ds) [] hc
          rw [List.append_nil, List.length_cons, List.cons_append] at this
          rw [show i + 1 = (rowsOf (k + 1) ds).length + 1 + (i - (rowsOf (k + 1) ds).length) by omega,
            show (rowsOf (k + 1) ds).length + j + 1 = (rowsOf (k + 1) ds).length + 1 + j by omega]
          exact this
        · rw [List.getElem?_cons_succ, List.getElem?_append_right (by omega),
            show (rowsOf (k + 1) ds).length + j - (rowsOf (k + 1) ds).length = j by omega]
          exact hq
      exact ⟨_, _, by omega, (key _ _ hj1 hj2).1, (key _ _ hj1' hj2').1, (key _ _ hj1 hj2).2, (key _ _ hj1' hj2').2⟩

theorem two_sublist {α : Type} {R : α → α → Prop} {l : List α} (hp : l.Pairwise fun a b => ¬ R b a) {c d : α} (hc : c ∈ l) (hd : d ∈ l)
    (hr : R c d) (hir : ¬ R c c) : List.Sublist [c, d] l := by
  induction l with
  | nil => cases hc
  | cons x l ih =>
    rw [List.pairwise_cons] at hp
    rcases List.mem_cons.1 hc with rfl | hc'
    · rcases List.mem_cons.1 hd with rfl | hd'
      · exact absurd hr hir
      · exact (List.singleton_sublist.2 hd').cons_cons _
    · rcases List.mem_cons.1 hd with rfl | hd'
      · exact absurd hr (hp.1 c hc')
      · exact (ih hp.2 hc' hd').cons _

/-- Of two children of a row, the one of the smaller order is above. -/
theorem forest_ordered {arcs : List Arc} {arcrole : String} {root : Node} (h : IsForest arcs arcrole root)
    (hn : ∀ a ∈ arcs, a.order ≠ .nan) {a b : Arc} (ha : a ∈ arcs) (hb : b ∈ arcs)
    (har : a.arcrole = arcrole) (hbr : b.arcrole = arcrole) (hab : a.frm = b.frm) (hlt : Less a.order b.order)
    {i : Nat} {p : Nat × String} (hp : (rowsOf 0 root.sorted.children)[i]? = some p) (e : p.2 = a.frm) :
    ∃ j j' : Nat, j < j' ∧ ChildRow Prod.fst (rowsOf 0 root.sorted.children) i j ∧ ChildRow Prod.fst (rowsOf 0 root.sorted.children) i j' ∧
      (rowsOf 0 root.sorted.children)[j]? = some (p.1 + 1, a.to) ∧ (rowsOf 0 root.sorted.children)[j']? = some (p.1 + 1, b.to) := by
  obtain ⟨x, hx, e1, hc⟩ := rowsOf_pair _ _ _ _ hp
  have hxb := inForest_below hx
  obtain ⟨y, hy, rfl⟩ := below_sorted hxb
  obtain ⟨c, hc1, hc2, hc3⟩ := (h.sorted.kids _ hxb a.to a.order).2 ⟨a, ha, har, by rw [e1, e], rfl, rfl⟩
  obtain ⟨d, hd1, hd2, hd3⟩ := (h.sorted.kids _ hxb b.to b.order).2 ⟨b, hb, hbr, by rw [← hab, e1, e], rfl, rfl⟩
  have hnan : ∀ z ∈ y.children, z.order ≠ .nan := by
    intro z hz hz2
    obtain ⟨a', ha', _, _, _, ho⟩ := (h.kids y hy z.locator z.order).1 ⟨z, hz, rfl, rfl⟩
    exact hn a' ha' (ho.trans hz2)
  have hs : y.sorted.children.Pairwise fun a b => ¬ Less b.order a.order := by
    rw [sorted_children, List.pairwise_map]
    refine List.Pairwise.imp ?_ (stableSortedOn_f64 Node.order y.children hnan).2.1
    intro a b hab
    rw [order_sorted, order_sorted]
    exact hab
  have hirr : ¬ Less c.order c.order := by
    rintro (⟨x, y, h1, h2, h3⟩ | ⟨h1, h2 | ⟨y, h2⟩⟩ | ⟨⟨x, h1⟩, h2⟩)
    · rw [h1] at h2; cases h2; omega
    · rw [h1] at h2; cases h2
    · rw [h1] at h2; cases h2
    · rw [h1] at h2; cases h2
  obtain ⟨j, j', hjj, g1, g2, g3, g4⟩ := hc c d (two_sublist (R := fun a b => Less a.order b.order) hs hc1 hd1 (by rw [hc3, hd3]; exact hlt) hirr)
  exact ⟨j, j', hjj, g1, g2, by rw [g3, hc2], by rw [g4, hd2]⟩

end Telefacts.Render
