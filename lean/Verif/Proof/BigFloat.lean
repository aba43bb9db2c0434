import Verif.Model.BigFloat
import Verif.Spec.Percent
import Verif.Proof.Decimal
import Mathlib.Tactic.Linarith
import Mathlib.Tactic.Ring
import Mathlib.Tactic.FieldSimp
import Mathlib.Tactic.Positivity
import Mathlib.Algebra.Order.Field.Power
/-! # Rounding towards zero -/
namespace Telefacts.Big
open Telefacts.Number

theorem ulp_pos (p : ℕ) (x : ℚ) : 0 < ulp p x := by unfold ulp; positivity

theorem ulp_neg (p : ℕ) (x : ℚ) : ulp p (-x) = ulp p x := by unfold ulp; rw [abs_neg]

theorem ulp_bounds (p : ℕ) {x : ℚ} (hx : x ≠ 0) : 2 ^ p * ulp p x ≤ 2 * |x| ∧ |x| < 2 ^ p * ulp p x := by
  have h : (2 : ℚ) ^ p * ulp p x = 2 ^ (Int.log 2 |x| + 1) := by
    unfold ulp
    rw [← zpow_natCast, ← zpow_add₀ (by norm_num)]
    congr 1; ring
  rw [h]
  have h1 := Int.zpow_log_le_self (b := 2) (by omega) (abs_pos.2 hx)
  have h2 := Int.lt_zpow_succ_log_self (b := 2) (by omega) |x|
  rw [zpow_add₀ (by norm_num), zpow_one]
  rw [zpow_add₀ (by norm_num), zpow_one] at h2
  push_cast at h1 h2
  exact ⟨by linarith, h2⟩

theorem lastBit_ulp (p : ℕ) {x : ℚ} (hx : x ≠ 0) : LastBit p x (ulp p x) := ⟨⟨_, rfl⟩, ulp_bounds p hx⟩

/-- Numbers that are not small are multiples of the unit. -/
theorem multiple {p : ℕ} {z : ℚ} (h : HasBits p z) {e : ℤ} (hz : 0 < z) (hb : (2 : ℚ) ^ p * 2 ^ e ≤ 2 * z) : ∃ b : ℤ, z = b * 2 ^ e := by
  obtain ⟨a, e', rfl, ha⟩ := h
  have hle : e ≤ e' := by
    have h1 : ((a : ℤ) : ℚ) < 2 ^ p := by exact_mod_cast (lt_of_abs_lt ha)
    have h2 : (0 : ℚ) < 2 ^ e' := by positivity
    have h3 : (2 : ℚ) ^ p * 2 ^ e < 2 ^ p * 2 ^ (e' + 1) := by
      rw [zpow_add₀ (by norm_num), zpow_one]
      nlinarith
    have h4 : (2 : ℚ) ^ e < 2 ^ (e' + 1) := lt_of_mul_lt_mul_left h3 (by positivity)
    have := (zpow_lt_zpow_iff_right₀ (by norm_num : (1 : ℚ) < 2)).1 h4
    omega
  refine ⟨a * 2 ^ (e' - e).toNat, ?_⟩
  push_cast
  rw [mul_assoc, ← zpow_natCast, ← zpow_add₀ (by norm_num)]
  congr 2
  omega

/-- The next number is one unit away. -/
theorem gap {p : ℕ} {y z u : ℚ} (hy : HasBits p y) (hz : HasBits p z) (h0 : 0 < y) (hu : LastBit p y u) (h : y < z) : y + u ≤ z := by
  obtain ⟨⟨e, rfl⟩, h1, -⟩ := hu
  rw [abs_of_pos h0] at h1
  obtain ⟨a, rfl⟩ := multiple hy h0 h1
  obtain ⟨b, rfl⟩ := multiple hz (h0.trans h) (by linarith)
  have hp : (0 : ℚ) < 2 ^ e := by positivity
  have : a < b := by exact_mod_cast lt_of_mul_lt_mul_right h hp.le
  have : ((a : ℚ) + 1) ≤ b := by exact_mod_cast this
  nlinarith

theorem toZero_zero (p : ℕ) : toZero p 0 = 0 := by unfold toZero; simp

theorem toZero_neg (p : ℕ) (x : ℚ) : toZero p (-x) = -toZero p x := by
  rcases lt_trichotomy x 0 with h | h | h
  · unfold toZero
    rw [ulp_neg, abs_neg, if_pos h, if_neg (by linarith)]; ring
  · subst h; simp [toZero_zero]
  · unfold toZero
    rw [ulp_neg, abs_neg, if_pos (by linarith), if_neg (by linarith)]; ring

theorem toZero_spec {p : ℕ} (hp : 1 ≤ p) {x : ℚ} (hx : 0 < x) :
    toZero p x ≤ x ∧ x < toZero p x + ulp p x ∧ 0 < toZero p x ∧ HasBits p (toZero p x) ∧ ulp p x * 2 ^ p ≤ 2 * toZero p x ∧
    ∀ z, HasBits p z → z ≤ x → z ≤ toZero p x := by
  obtain ⟨b1, b2⟩ := ulp_bounds p hx.ne'
  rw [abs_of_pos hx] at b1 b2
  have hu := ulp_pos p x
  have he : toZero p x = ⌊x / ulp p x⌋ * ulp p x := by
    unfold toZero; rw [if_neg (by linarith), abs_of_pos hx, one_mul]
  rw [he]
  have f1 := Int.floor_le (x / ulp p x)
  have f2 := Int.lt_floor_add_one (x / ulp p x)
  have g1 : (⌊x / ulp p x⌋ : ℚ) * ulp p x ≤ x := by rwa [le_div_iff₀ hu] at f1
  have g2 : x < (⌊x / ulp p x⌋ + 1) * ulp p x := by rwa [div_lt_iff₀ hu] at f2
  have lower : ((2 ^ (p - 1) : ℤ) : ℚ) ≤ ⌊x / ulp p x⌋ := by
    have : (2 ^ (p - 1) : ℤ) ≤ ⌊x / ulp p x⌋ := by
      rw [Int.le_floor, le_div_iff₀ hu]
      have : (2 : ℚ) ^ p = 2 * 2 ^ (p - 1) := by rw [← pow_succ']; congr 1; omega
      rw [this] at b1
      push_cast
      linarith
    exact_mod_cast this
  have h2 : (2 : ℚ) ^ p = 2 * 2 ^ (p - 1) := by rw [← pow_succ']; congr 1; omega
  push_cast at lower
  have low : ulp p x * 2 ^ p ≤ 2 * (⌊x / ulp p x⌋ * ulp p x) := by
    rw [h2]
    nlinarith
  have pos : (0 : ℚ) < ⌊x / ulp p x⌋ * ulp p x := by
    have : (0 : ℚ) < ulp p x * 2 ^ p := by positivity
    linarith
  refine ⟨g1, by linarith, pos, ⟨⌊x / ulp p x⌋, _, rfl, ?_⟩, low, ?_⟩
  · have hn : 0 < ⌊x / ulp p x⌋ := by
      have : (0 : ℚ) < ⌊x / ulp p x⌋ := lt_of_lt_of_le (by positivity) lower
      exact_mod_cast this
    rw [abs_of_pos hn]
    have : ((⌊x / ulp p x⌋ : ℤ) : ℚ) < 2 ^ p := lt_of_mul_lt_mul_right (lt_of_le_of_lt g1 b2) hu.le
    exact_mod_cast this
  · intro z hz hzx
    by_cases hs : 2 ^ p * ulp p x ≤ 2 * z
    · have hz0 : 0 < z := by
        have : (0 : ℚ) < 2 ^ p * ulp p x := by positivity
        linarith
      obtain ⟨b, hb⟩ := multiple hz (e := Int.log 2 |x| + 1 - p) hz0 hs
      change z = b * ulp p x at hb
      have : b ≤ ⌊x / ulp p x⌋ := by
        rw [Int.le_floor, le_div_iff₀ hu]; linarith
      have : (b : ℚ) ≤ ⌊x / ulp p x⌋ := by exact_mod_cast this
      rw [hb]
      exact mul_le_mul_of_nonneg_right this hu.le
    · linarith

theorem toZero_of_hasBits {p : ℕ} (hp : 1 ≤ p) {x : ℚ} (hx : 0 ≤ x) (h : HasBits p x) : toZero p x = x := by
  rcases hx.eq_or_lt with h0 | h0
  · rw [← h0, toZero_zero]
  · obtain ⟨a, -, -, -, -, b⟩ := toZero_spec hp h0
    exact le_antisymm a (b x h le_rfl)

/-- Rounding loses less than the last bit. -/
theorem toZero_rel {p : ℕ} (hp : 1 ≤ p) {x : ℚ} (hx : 0 ≤ x) : toZero p x ≤ x ∧ x - toZero p x ≤ x * 2 / 2 ^ p ∧ 0 ≤ toZero p x := by
  rcases hx.eq_or_lt with h0 | h0
  · rw [← h0, toZero_zero]; simp
  · obtain ⟨a, b, c, -, -, -⟩ := toZero_spec hp h0
    obtain ⟨b1, -⟩ := ulp_bounds p h0.ne'
    rw [abs_of_pos h0] at b1
    refine ⟨a, ?_, c.le⟩
    rw [le_div_iff₀ (by positivity)]
    have hq : (0 : ℚ) < 2 ^ p := by positivity
    nlinarith

theorem hasBits_zero (p : ℕ) : HasBits p 0 := ⟨0, 0, by simp, by simp⟩

theorem hasBits_neg {p : ℕ} {x : ℚ} (h : HasBits p x) : HasBits p (-x) := by
  obtain ⟨a, e, rfl, h⟩ := h
  exact ⟨-a, e, by push_cast; ring, by rwa [abs_neg]⟩

theorem hasBits_toZero {p : ℕ} (hp : 1 ≤ p) (x : ℚ) : HasBits p (toZero p x) := by
  rcases lt_trichotomy x 0 with h | h | h
  · have := (toZero_spec hp (x := -x) (by linarith)).2.2.2.1
    rw [toZero_neg] at this
    simpa using hasBits_neg this
  · rw [h, toZero_zero]; exact hasBits_zero p
  · exact (toZero_spec hp h).2.2.2.1

/-- A number that is read: the number with the sign of the text is cut off after `p` bits. -/
theorem parse_of {p : ℕ} {s : String} {m : ℤ} {k : ℕ} (h : DecimalText s m k) (hk : k ≤ 27) : parse p s = some (toZero p (m / 10 ^ k)) := by
  obtain ⟨neg, h1, h2⟩ := readDecimal_decimal h
  have hs : scan p m.natAbs k = toZero p (m.natAbs / 10 ^ k) := by
    unfold scan
    by_cases hk0 : k = 0
    · subst hk0; simp
    · rw [if_neg hk0, pow5, if_pos hk, div_div, ← mul_pow]; norm_num
  unfold parse
  rw [h1]
  simp only
  rw [hs]
  congr 1
  cases neg with
  | false =>
    rw [if_neg (by decide)] at h2 ⊢
    congr 2
    conv_rhs => rw [h2]
    simp
  | true =>
    rw [if_pos rfl] at h2 ⊢
    rw [← toZero_neg]
    congr 1
    have : (m : ℚ) = -(m.natAbs : ℚ) := by exact_mod_cast h2
    rw [this]
    ring

end Telefacts.Big
