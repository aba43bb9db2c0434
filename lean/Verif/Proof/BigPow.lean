import Verif.Proof.BigFloat
import Mathlib.Algebra.Order.Ring.Pow
/-! # Powers of five beyond the table: math/big floatconv.go `pow5` -/
namespace Telefacts.Big
open Telefacts.Number

/-- After `n` roundings with the proportion `u`. -/
def Off (u : ℚ) (n : ℕ) (x y : ℚ) : Prop := y * (1 - u) ^ n ≤ x ∧ x * (1 - u) ^ n ≤ y

theorem toEven_close {p : ℕ} {x : ℚ} (hx : 0 < x) : |toEven p x - x| ≤ x / 2 ^ p := by
  obtain ⟨b1, -⟩ := ulp_bounds p hx.ne'
  rw [abs_of_pos hx] at b1
  have hu := ulp_pos p x
  have h2 : (0 : ℚ) < 2 ^ p := by positivity
  have hl : ulp p x / 2 ≤ x / 2 ^ p := by rw [div_le_div_iff₀ (by norm_num) h2]; linarith
  have hf := Int.floor_le (x / ulp p x)
  have hf' := Int.lt_floor_add_one (x / ulp p x)
  have e : x = x / ulp p x * ulp p x := (div_mul_cancel₀ x hu.ne').symm
  refine le_trans ?_ hl
  unfold toEven
  simp only
  generalize ⌊x / ulp p x⌋ = a at *
  generalize hq : x / ulp p x = q at *
  have goal : ∀ c : ℤ, |(c : ℚ) - q| ≤ 1 / 2 → |(c : ℚ) * ulp p x - x| ≤ ulp p x / 2 := by
    intro c hc
    rw [show (c : ℚ) * ulp p x - x = (c - q) * ulp p x by rw [sub_mul, ← e], abs_mul, abs_of_pos hu]
    nlinarith
  apply goal
  rw [abs_le]
  split
  · constructor <;> linarith
  · split
    · push_cast; constructor <;> linarith
    · have : q - a = 1 / 2 := by linarith
      split
      · constructor <;> linarith
      · push_cast; constructor <;> linarith

theorem off_refl (u x : ℚ) : Off u 0 x x := by simp [Off]

theorem off_more {u : ℚ} (h0 : 0 ≤ u) (h1 : u < 1) {n n' : ℕ} (hn : n ≤ n') {x y : ℚ} (hx : 0 < x) (hy : 0 < y) (h : Off u n x y) : Off u n' x y := by
  have hp : (1 - u) ^ n' ≤ (1 - u) ^ n := pow_le_pow_of_le_one (by linarith) (by linarith) hn
  exact ⟨le_trans (by nlinarith) h.1, le_trans (by nlinarith) h.2⟩

theorem off_mul {u : ℚ} (h1 : u < 1) {n n' : ℕ} {x y x' y' : ℚ} (hx : 0 < x) (hy : 0 < y) (hx' : 0 < x') (hy' : 0 < y')
    (h : Off u n x y) (h' : Off u n' x' y') : Off u (n + n') (x * x') (y * y') := by
  have hp : 0 < (1 - u) ^ n := pow_pos (by linarith) _
  have hp' : 0 < (1 - u) ^ n' := pow_pos (by linarith) _
  constructor
  · rw [pow_add, show y * y' * ((1 - u) ^ n * (1 - u) ^ n') = (y * (1 - u) ^ n) * (y' * (1 - u) ^ n') by ring]
    exact mul_le_mul h.1 h'.1 (by positivity) hx.le
  · rw [pow_add, show x * x' * ((1 - u) ^ n * (1 - u) ^ n') = (x * (1 - u) ^ n) * (x' * (1 - u) ^ n') by ring]
    exact mul_le_mul h.2 h'.2 (by positivity) hy.le

theorem off_trans {u : ℚ} (h1 : u < 1) {n n' : ℕ} {x y z : ℚ} (h : Off u n x y) (h' : Off u n' y z) : Off u (n + n') x z := by
  have hp : 0 ≤ (1 - u) ^ n := (pow_pos (by linarith) _).le
  have hp' : 0 ≤ (1 - u) ^ n' := (pow_pos (by linarith) _).le
  constructor
  · rw [Nat.add_comm, pow_add, ← mul_assoc]
    exact le_trans (mul_le_mul_of_nonneg_right h'.1 hp) h.1
  · rw [pow_add, ← mul_assoc]
    exact le_trans (mul_le_mul_of_nonneg_right h.2 hp') h'.2

theorem off_toEven {p q : ℕ} (hq : q ≤ p) (h1 : 1 ≤ q) {x : ℚ} (hx : 0 < x) : 0 < toEven p x ∧ Off (1 / 2 ^ q) 1 (toEven p x) x := by
  have h := toEven_close (p := p) hx
  have h2 : (2 : ℚ) ^ q ≤ 2 ^ p := pow_le_pow_right₀ (by norm_num) hq
  have h3 : x / 2 ^ p ≤ x * (1 / 2 ^ q) := by
    rw [mul_one_div]; exact div_le_div_of_nonneg_left hx.le (by positivity) h2
  have h4 : (1 : ℚ) / 2 ^ q ≤ 1 / 2 := by
    apply div_le_div_of_nonneg_left (by norm_num) (by norm_num)
    simpa using pow_le_pow_right₀ (by norm_num : (1 : ℚ) ≤ 2) h1
  have h5 : (0 : ℚ) < 1 / 2 ^ q := by positivity
  generalize (1 : ℚ) / 2 ^ q = u at *
  rw [abs_le] at h
  refine ⟨by nlinarith, ?_, ?_⟩ <;> rw [pow_one] <;> nlinarith

theorem off_loop {p : ℕ} (hp : 1 ≤ p) : ∀ (n : ℕ) (z f Z F : ℚ) (a b : ℕ), 0 < z → 0 < f → 0 < Z → 0 < F →
    Off (1 / 2 ^ p) a z Z → Off (1 / 2 ^ p) b f F → 0 < pow5Loop p z f n ∧ Off (1 / 2 ^ p) (a + (b + 1) * n) (pow5Loop p z f n) (Z * F ^ n) := by
  have u1 : (1 : ℚ) / 2 ^ p < 1 := by
    rw [div_lt_one (by positivity)]; exact one_lt_pow₀ (by norm_num) (by omega)
  intro n
  induction n using Nat.strongRecOn with
  | _ n ih =>
    intro z f Z F a b hz hf hZ hF h h'
    rw [pow5Loop]
    by_cases h0 : n = 0
    · subst h0
      rw [if_pos rfl, Nat.mul_zero, pow_zero, mul_one]
      exact ⟨hz, h⟩
    rw [if_neg h0]
    obtain ⟨f1, f2⟩ := off_toEven (p := p + 64) (q := p) (by omega) hp (x := f * f) (by positivity)
    have f3 := off_trans u1 f2 (off_mul u1 hf hF hf hF h' h')
    by_cases hn : n % 2 = 1
    · rw [if_pos hn]
      obtain ⟨z1, z2⟩ := off_toEven (p := p) (q := p) le_rfl hp (x := z * f) (by positivity)
      have z3 := off_trans u1 z2 (off_mul u1 hz hZ hf hF h h')
      obtain ⟨r1, r2⟩ := ih (n / 2) (by omega) _ _ _ _ _ _ z1 f1 (by positivity) (by positivity) z3 f3
      refine ⟨r1, ?_⟩
      have e1 : 1 + (a + b) + (1 + (b + b) + 1) * (n / 2) = a + (b + 1) * n := by
        conv_rhs => rw [← Nat.div_add_mod n 2, hn]
        ring
      have e2 : Z * F * (F * F) ^ (n / 2) = Z * F ^ n := by
        conv_rhs => rw [← Nat.div_add_mod n 2, hn]
        rw [pow_succ, pow_mul]; ring
      rwa [e1, e2] at r2
    · rw [if_neg hn]
      obtain ⟨r1, r2⟩ := ih (n / 2) (by omega) _ _ _ _ _ _ hz f1 hZ (by positivity) h f3
      refine ⟨r1, ?_⟩
      have hn0 : n % 2 = 0 := by omega
      have e1 : a + (1 + (b + b) + 1) * (n / 2) = a + (b + 1) * n := by
        conv_rhs => rw [← Nat.div_add_mod n 2, hn0]
        ring
      have e2 : Z * (F * F) ^ (n / 2) = Z * F ^ n := by
        conv_rhs => rw [← Nat.div_add_mod n 2, hn0]
        rw [Nat.add_zero, pow_mul]; ring
      rwa [e1, e2] at r2

/-- The power of five is right up to a proportion, however large the exponent. -/
theorem off_pow5 {p : ℕ} (hp : 1 ≤ p) (k : ℕ) : 0 < pow5 p k ∧ Off (1 / 2 ^ p) k (pow5 p k) (5 ^ k) := by
  have u1 : (1 : ℚ) / 2 ^ p < 1 := by
    rw [div_lt_one (by positivity)]; exact one_lt_pow₀ (by norm_num) (by omega)
  unfold pow5
  split
  · exact ⟨by positivity, off_more (by positivity) u1 (Nat.zero_le _) (by positivity) (by positivity) (off_refl _ _)⟩
  · obtain ⟨r1, r2⟩ := off_loop hp (k - 27) (5 ^ 27) 5 (5 ^ 27) 5 0 0 (by positivity) (by positivity) (by positivity) (by positivity)
      (off_refl _ _) (off_refl _ _)
    refine ⟨r1, ?_⟩
    rw [← pow_add, show 27 + (k - 27) = k by omega] at r2
    exact off_more (by positivity) u1 (by omega) r1 (by positivity) r2

/-- Exponents of up to 60 bits: the power is right up to a sixteenth of the last of 64 bits less. -/
theorem pow5_close (p k : ℕ) (hk : k ≤ 2 ^ 60) : 0 < pow5 (p + 64) k ∧ (5 : ℚ) ^ k * (1 - 1 / 2 ^ p / 16) ≤ pow5 (p + 64) k ∧
    pow5 (p + 64) k * (1 - 1 / 2 ^ p / 16) ≤ 5 ^ k := by
  obtain ⟨h0, h1, h2⟩ := off_pow5 (p := p + 64) (by omega) k
  refine ⟨h0, ?_⟩
  have hu : (1 : ℚ) / 2 ^ (p + 64) ≤ 1 := by
    rw [div_le_one (by positivity)]; exact one_le_pow₀ (by norm_num)
  have hb : 1 + (k : ℚ) * (-(1 / 2 ^ (p + 64))) ≤ (1 + (-(1 / 2 ^ (p + 64)))) ^ k := one_add_mul_le_pow (by linarith) k
  have hk' : (k : ℚ) ≤ 2 ^ 60 := by exact_mod_cast hk
  have hm : (k : ℚ) * (1 / 2 ^ (p + 64)) ≤ 1 / 2 ^ p / 16 := by
    have : (1 : ℚ) / 2 ^ p / 16 = 2 ^ 60 * (1 / 2 ^ (p + 64)) := by rw [pow_add]; field_simp; norm_num
    rw [this]
    exact mul_le_mul_of_nonneg_right hk' (by positivity)
  have hc : 1 - 1 / 2 ^ p / 16 ≤ (1 - (1 : ℚ) / 2 ^ (p + 64)) ^ k := by
    rw [sub_eq_add_neg 1 ((1 : ℚ) / 2 ^ (p + 64))]; linarith
  exact ⟨le_trans (mul_le_mul_of_nonneg_left hc (by positivity)) h1, le_trans (mul_le_mul_of_nonneg_left hc h0.le) h2⟩

/-- A number with many decimals that is read: a number near it is cut off. -/
theorem parse_near {p : ℕ} {s : String} {m : ℤ} {k : ℕ} (h : DecimalText s m k) (hk : k ≤ 2 ^ 60) :
    ∃ v : ℚ, parse p s = some (toZero p v) ∧ |v - m / 10 ^ k| ≤ |(m / 10 ^ k : ℚ)| / 2 ^ p / 8 := by
  obtain ⟨neg, h1, h2⟩ := readDecimal_decimal h
  obtain ⟨p0, p1, p2⟩ := pow5_close p k hk
  have hs : scan p m.natAbs k = toZero p (m.natAbs / 2 ^ k / pow5 (p + 64) k) := by
    unfold scan
    by_cases hk0 : k = 0
    · subst hk0; simp [pow5]
    · rw [if_neg hk0]
  have hv : (m.natAbs : ℚ) / 10 ^ k = m.natAbs / 2 ^ k / 5 ^ k := by rw [div_div, ← mul_pow]; norm_num
  have hn : |(m.natAbs : ℚ) / 2 ^ k / pow5 (p + 64) k - m.natAbs / 10 ^ k| ≤ m.natAbs / 10 ^ k / 2 ^ p / 8 := by
    rw [hv]
    have hc : (0 : ℚ) ≤ m.natAbs / 2 ^ k := by positivity
    generalize (m.natAbs : ℚ) / 2 ^ k = c at hc
    have h5 : (0 : ℚ) < 5 ^ k := by positivity
    have he : (1 : ℚ) / 2 ^ p / 16 ≤ 1 / 16 := by
      have : (1 : ℚ) / 2 ^ p ≤ 1 := by rw [div_le_one (by positivity)]; exact one_le_pow₀ (by norm_num)
      linarith
    have he0 : (0 : ℚ) < 1 / 2 ^ p / 16 := by positivity
    rw [show c / 5 ^ k / 2 ^ p / 8 = c / 5 ^ k * (2 * (1 / 2 ^ p / 16)) by ring]
    generalize (1 : ℚ) / 2 ^ p / 16 = e at *
    generalize (5 : ℚ) ^ k = F at *
    generalize pow5 (p + 64) k = P at *
    have hd : |P - F| ≤ P * (2 * e) := by rw [abs_le]; constructor <;> nlinarith
    rw [show c / P - c / F = c / F * ((F - P) / P) by field_simp, abs_mul, abs_of_nonneg (by positivity : 0 ≤ c / F), abs_div, abs_of_pos p0,
      abs_sub_comm]
    refine mul_le_mul_of_nonneg_left ?_ (by positivity)
    rw [div_le_iff₀ p0]; linarith
  have hz : (0 : ℚ) ≤ m.natAbs / 10 ^ k := by positivity
  unfold parse
  rw [h1]
  simp only
  rw [hs]
  cases neg with
  | false =>
    rw [if_neg (by decide)] at h2
    refine ⟨_, by rw [if_neg (by decide)], ?_⟩
    have e : (m : ℚ) = (m.natAbs : ℚ) := (congrArg (Int.cast (R := ℚ)) h2).trans (Int.cast_natCast _)
    rw [e, abs_of_nonneg hz]
    exact hn
  | true =>
    rw [if_pos rfl] at h2
    refine ⟨-(m.natAbs / 2 ^ k / pow5 (p + 64) k), by rw [if_pos rfl, toZero_neg], ?_⟩
    have e : (m : ℚ) = -(m.natAbs : ℚ) := by exact_mod_cast h2
    rw [e, neg_div, abs_neg, abs_of_nonneg hz, ← neg_sub_neg, neg_neg, neg_neg, abs_sub_comm]
    exact hn

end Telefacts.Big
