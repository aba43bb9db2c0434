import Verif.Proof.BigPow
import Verif.Props.FactText
/-! # C156: percentages -/
namespace Telefacts
open Telefacts.Big Telefacts.Number Telefacts.Instance Telefacts.Render Telefacts.Spec

/-- A text denotes one number. -/
theorem denotes_unique {s : String} {q q' : ℚ} (h : Denotes s q) (h' : Denotes s q') : q = q' := by
  obtain ⟨m, k, h, rfl⟩ := h
  obtain ⟨m', k', h', rfl⟩ := h'
  obtain ⟨n, e1, e2⟩ := readDecimal_decimal h
  obtain ⟨n', e1', e2'⟩ := readDecimal_decimal h'
  rw [e1] at e1'
  simp only [Option.some.injEq, Prod.mk.injEq] at e1'
  obtain ⟨rfl, h3, rfl⟩ := e1'
  rw [e2, e2', h3]

/-- The digits of a percentage are those of the hundredfold value, as it is computed. -/
theorem percent_shown (env : FactEnv) (f : Fact) (amount : String) (hf : Percentage env f) (ha : env.hundred f.inner = some amount)
    (langs : List Lang) (m : MultilingualFact) (lang : Lang) (e : FactExpression) (hm : renderCell env (some f) langs = some m)
    (he : (lang, e) ∈ m) : ShownAs env f.precision amount lang e := by
  obtain ⟨c, hc, ht⟩ := hf.kind
  intro head core tail hd
  obtain ⟨h1, -, h2, h3⟩ := C87_numeric env langs f c m lang e amount head core tail hf.present hc (by rw [ht]; decide) hf.accuracy hm he
    (c.type = ⟨"http://www.xbrl.org/dtr/type/numeric", "percentItemType"⟩) Iff.rfl (.inl ⟨ht, ha⟩) hd
  refine ⟨h1, ⟨_, h2⟩, ?_⟩
  rw [if_pos ht] at h3
  exact ⟨_, h3⟩

/-- The numbers on the way: the value cut off, and the product cut off. -/
theorem hundred_of {p : ℕ} (hp : 8 ≤ p) {text : ℚ → String} (ht : Prints p text) (other : String → Option String) {s : String} {m : ℤ} {k : ℕ}
    (h : DecimalText s m k) (hk : k ≤ 27) : ∃ M K, hundred text other p s = some (text (toZero p (toZero p (m / 10 ^ k) * 100))) ∧
      DecimalText (text (toZero p (toZero p (m / 10 ^ k) * 100))) M K ∧
      (toZero p (toZero p (m / 10 ^ k) * 100) = 0 → M = 0) ∧
      (∀ u, LastBit p (toZero p (toZero p (m / 10 ^ k) * 100)) u → |(M / 10 ^ K : ℚ) - toZero p (toZero p (m / 10 ^ k) * 100)| ≤ u / 2) ∧
      ∀ (m' : ℤ) (k' : ℕ), toZero p (toZero p (m / 10 ^ k) * 100) = m' / 10 ^ k' → K ≤ k' := by
  obtain ⟨M, K, h1, h2, h3, h4⟩ := ht _ (hasBits_toZero (p := p) (by omega) (toZero p (m / 10 ^ k) * 100))
  refine ⟨M, K, ?_, h1, h2, h3, h4⟩
  unfold hundred
  rw [parse_of h hk]

theorem cut_neg (p : ℕ) (v : ℚ) : toZero p (toZero p (-v) * 100) = -toZero p (toZero p v * 100) := by
  rw [toZero_neg, neg_mul, toZero_neg]

/-- The computed product is never more than the product. -/
theorem cut_abs {p : ℕ} (hp : 8 ≤ p) (v : ℚ) : |toZero p (toZero p v * 100)| ≤ |100 * v| ∧
    |toZero p (toZero p v * 100) - 100 * v| ≤ |100 * v| * 4 / 2 ^ p := by
  have key : ∀ v : ℚ, 0 ≤ v → |toZero p (toZero p v * 100)| ≤ |100 * v| ∧
      |toZero p (toZero p v * 100) - 100 * v| ≤ |100 * v| * 4 / 2 ^ p := by
    intro v hv
    obtain ⟨a1, a2, a3⟩ := toZero_rel (p := p) (by omega) hv
    obtain ⟨b1, b2, b3⟩ := toZero_rel (p := p) (by omega) (x := toZero p v * 100) (by linarith)
    rw [abs_of_nonneg b3, abs_of_nonneg (by linarith : (0 : ℚ) ≤ 100 * v), abs_of_nonpos (by linarith)]
    refine ⟨by linarith, ?_⟩
    have h1 : toZero p v * 100 * 2 / 2 ^ p ≤ v * 100 * 2 / 2 ^ p := by
      apply div_le_div_of_nonneg_right _ (by positivity); linarith
    have h2 : 100 * v * 4 / 2 ^ p = v * 100 * 2 / 2 ^ p + 100 * (v * 2 / 2 ^ p) := by ring
    rw [h2]
    linarith
  rcases le_total 0 v with h | h
  · exact key v h
  · have := key (-v) (by linarith)
    rw [cut_neg, abs_neg, mul_neg, abs_neg, ← neg_sub_neg, neg_neg, neg_neg, abs_sub_comm] at this
    exact this

theorem lastBit_small {p : ℕ} {x u : ℚ} (h : LastBit p x u) : u ≤ 2 * |x| / 2 ^ p := by
  rw [le_div_iff₀ (by positivity)]; linarith [h.2.1]

/-- What `Text` makes of the product, and the product: together right up to five units of the last bit. -/
theorem text_close {p : ℕ} (hp : 8 ≤ p) {v q : ℚ} (h3 : toZero p (toZero p v * 100) = 0 → q = 0)
    (h4 : ∀ u, LastBit p (toZero p (toZero p v * 100)) u → |q - toZero p (toZero p v * 100)| ≤ u / 2) : |q - 100 * v| ≤ |100 * v| * 5 / 2 ^ p := by
  obtain ⟨c1, c2⟩ := cut_abs hp v
  generalize toZero p (toZero p v * 100) = y at h3 h4 c1 c2
  have hq : |q - y| ≤ |100 * v| * 1 / 2 ^ p := by
    by_cases hy : y = 0
    · rw [h3 hy, hy]; simp; positivity
    · have := h4 _ (lastBit_ulp p hy)
      have h6 := lastBit_small (lastBit_ulp p hy)
      have h7 : 2 * |y| / 2 ^ p ≤ 2 * |100 * v| / 2 ^ p := div_le_div_of_nonneg_right (by linarith) (by positivity)
      have h8 : 2 * |100 * v| / 2 ^ p = 2 * (|100 * v| * 1 / 2 ^ p) := by ring
      rw [h8] at h7
      linarith
  have := abs_sub_le q y (100 * v)
  have h9 : |100 * v| * 5 / 2 ^ p = |100 * v| * 1 / 2 ^ p + |100 * v| * 4 / 2 ^ p := by ring
  rw [h9]
  linarith

/-- **C156 (the part that holds).** A percentage with at most 27 decimals is shown as the number that the formatter has for a number
`amount`, and the amount differs from a hundred times the value by at most five units of the last bit: by the proportion 5 / 2 ^ p. -/
theorem C156_close_partial (p : ℕ) (hp : 8 ≤ p) (text : ℚ → String) (ht : Prints p text) (other : String → Option String) (env : FactEnv)
    (henv : env.hundred = hundred text other p) (f : Fact) (hf : Percentage env f) (m : ℤ) (k : ℕ) (hv : DecimalText f.inner m k) (hk : k ≤ 27) :
    ∃ amount q, Denotes amount q ∧ |q - 100 * (m / 10 ^ k)| ≤ |100 * (m / 10 ^ k : ℚ)| * 5 / 2 ^ p ∧
      ∀ langs ml lang e, renderCell env (some f) langs = some ml → (lang, e) ∈ ml → ShownAs env f.precision amount lang e := by
  obtain ⟨M, K, h1, h2, h3, h4, -⟩ := hundred_of hp ht other hv hk
  exact ⟨_, _, ⟨M, K, h2, rfl⟩, text_close hp (fun h => by rw [h3 h]; simp) h4,
    fun langs ml lang e hm he => percent_shown env f _ hf (by rw [henv]; exact h1) langs ml lang e hm he⟩

/-- **C156 (the part that holds, for more decimals).** With more decimals the power of five that math/big divides by is itself rounded. The
amount then differs by at most six units of the last bit, for every number of decimals up to `2 ^ 60`. -/
theorem C156_long_partial (p : ℕ) (hp : 8 ≤ p) (text : ℚ → String) (ht : Prints p text) (other : String → Option String) (env : FactEnv)
    (henv : env.hundred = hundred text other p) (f : Fact) (hf : Percentage env f) (m : ℤ) (k : ℕ) (hv : DecimalText f.inner m k) (hk : k ≤ 2 ^ 60) :
    ∃ amount q, Denotes amount q ∧ |q - 100 * (m / 10 ^ k)| ≤ |100 * (m / 10 ^ k : ℚ)| * 6 / 2 ^ p ∧
      ∀ langs ml lang e, renderCell env (some f) langs = some ml → (lang, e) ∈ ml → ShownAs env f.precision amount lang e := by
  obtain ⟨v, hv1, hv2⟩ := parse_near (p := p) hv hk
  obtain ⟨M, K, h2, h3, h4, -⟩ := ht _ (hasBits_toZero (p := p) (by omega) (toZero p v * 100))
  have h1 : hundred text other p f.inner = some (text (toZero p (toZero p v * 100))) := by unfold hundred; rw [hv1]
  refine ⟨_, _, ⟨M, K, h2, rfl⟩, ?_, fun langs ml lang e hm he => percent_shown env f _ hf (by rw [henv]; exact h1) langs ml lang e hm he⟩
  have c := text_close hp (q := M / 10 ^ K) (fun h => by rw [h3 h]; simp) h4
  generalize (m / 10 ^ k : ℚ) = w at *
  generalize (M / 10 ^ K : ℚ) = q at *
  have h8 : (1 : ℚ) / 2 ^ p ≤ 1 / 8 := by
    apply div_le_div_of_nonneg_left (by norm_num) (by norm_num)
    exact le_trans (by norm_num) (pow_le_pow_right₀ (by norm_num : (1 : ℚ) ≤ 2) hp)
  have h0 : (0 : ℚ) < 1 / 2 ^ p := by positivity
  rw [show |100 * v| * 5 / 2 ^ p = |100 * v| * 5 * (1 / 2 ^ p) by ring] at c
  rw [show |100 * w| * 6 / 2 ^ p = |100 * w| * 6 * (1 / 2 ^ p) by ring]
  rw [show |w| / 2 ^ p / 8 = |w| * (1 / 2 ^ p) / 8 by ring] at hv2
  generalize (1 : ℚ) / 2 ^ p = u at *
  have e1 : |100 * v| = 100 * |v| := by rw [abs_mul]; norm_num
  have e2 : |100 * w| = 100 * |w| := by rw [abs_mul]; norm_num
  have e3 : |100 * v - 100 * w| = 100 * |v - w| := by rw [← mul_sub, abs_mul]; norm_num
  have t1 := abs_sub_le q (100 * v) (100 * w)
  have t2 : |v| ≤ |w| + |v - w| := by have := abs_add_le w (v - w); rwa [add_sub_cancel] at this
  have hw := abs_nonneg w
  rw [e1] at c
  rw [e2]
  rw [e3] at t1
  have hwu : |w| * u ≤ |w| * (1 / 8) := mul_le_mul_of_nonneg_left h8 hw
  have t3 : |v| ≤ |w| * (65 / 64) := by linarith
  have t4 : |v| * u ≤ |w| * (65 / 64) * u := mul_le_mul_of_nonneg_right t3 h0.le
  have t5 := mul_nonneg hw h0.le
  linarith

theorem hasBits_int {p : ℕ} {n : ℤ} (h : |n| < 2 ^ p) : HasBits p n := ⟨n, 0, by simp, h⟩

theorem odd_part : ∀ (j : ℕ) (n : ℤ), (25 : ℤ) ∣ n * 2 ^ j → (25 : ℤ) ∣ n
  | 0, n, h => by simpa using h
  | j + 1, n, h => odd_part j n (by rw [pow_succ, ← mul_assoc] at h; omega)

/-- A hundredth of a whole number is not a binary fraction, unless the number is a multiple of 25. -/
theorem hasBits_hundredth {p : ℕ} {n : ℤ} (h : HasBits p (n / 100)) : (25 : ℤ) ∣ n := by
  obtain ⟨a, e, h, -⟩ := h
  have hn : (n : ℚ) = 100 * a * 2 ^ e := by rw [mul_assoc, ← h]; ring
  rcases e with j | j
  · have : n = 25 * (4 * a * 2 ^ j) := by
      have h' : (n : ℚ) = ((25 * (4 * a * 2 ^ j) : ℤ) : ℚ) := by rw [hn]; push_cast; rw [Int.ofNat_eq_natCast, zpow_natCast]; ring
      exact_mod_cast h'
    exact ⟨_, this⟩
  · have : n * 2 ^ (j + 1) = 25 * (4 * a) := by
      have h' : (n : ℚ) * 2 ^ (j + 1) = 25 * (4 * a) := by
        rw [hn, zpow_negSucc, mul_assoc, inv_mul_cancel₀ (by positivity)]; ring
      exact_mod_cast h'
    have h25 : (25 : ℤ) ∣ n * 2 ^ (j + 1) := ⟨_, this⟩
    exact odd_part _ _ h25

/-- Of a whole number of percent that is not a multiple of 25, less is left, by more than `Text` makes good. -/
theorem cut_whole {p : ℕ} (hp : 8 ≤ p) {n : ℤ} (hn : |n| < 2 ^ p) (h25 : ¬ (25 : ℤ) ∣ n) (q : ℚ)
    (hq : ∀ u, LastBit p (toZero p (toZero p (n / 100) * 100)) u → |q - toZero p (toZero p (n / 100) * 100)| ≤ u / 2) : |q| < |(n : ℚ)| := by
  have key : ∀ (n : ℤ) (q : ℚ), |n| < 2 ^ p → ¬ (25 : ℤ) ∣ n → 0 < n →
      (∀ u, LastBit p (toZero p (toZero p (n / 100) * 100)) u → |q - toZero p (toZero p (n / 100) * 100)| ≤ u / 2) → |q| < (n : ℚ) := by
    intro n q hn h25 h0 hq
    have hv : (0 : ℚ) < n / 100 := by
      have : (0 : ℚ) < n := by exact_mod_cast h0
      positivity
    obtain ⟨a1, -, a3, a4, -, -⟩ := toZero_spec (p := p) (by omega) hv
    have hlt : toZero p (n / 100) < n / 100 := lt_of_le_of_ne a1 fun h => h25 (hasBits_hundredth (p := p) (h ▸ a4))
    obtain ⟨b1, -, b3, b4, -, -⟩ := toZero_spec (p := p) (by omega) (x := toZero p (n / 100) * 100) (by linarith)
    have hg := gap b4 (hasBits_int hn) b3 (lastBit_ulp p b3.ne') (by linarith)
    have := hq _ (lastBit_ulp p b3.ne')
    have hu := ulp_pos p (toZero p (toZero p (n / 100) * 100))
    have h1 := abs_sub_abs_le_abs_sub q (toZero p (toZero p (n / 100) * 100))
    rw [abs_of_pos b3] at h1
    linarith
  rcases lt_trichotomy n 0 with h | h | h
  · have hneg := key (-n) (-q) (by rwa [abs_neg]) (by omega) (by omega) (by
      intro u hu
      push_cast at hu ⊢
      rw [neg_div, cut_neg] at hu ⊢
      rw [← neg_sub_neg, neg_neg, neg_neg, abs_sub_comm]
      refine hq u ⟨hu.1, ?_⟩
      simpa using hu.2)
    rw [abs_neg] at hneg
    have : (n : ℚ) < 0 := by exact_mod_cast h
    rw [abs_of_neg this]
    push_cast at hneg
    exact hneg
  · exact absurd ⟨0, by omega⟩ h25
  · have := key n q hn h25 h hq
    have h' : (0 : ℚ) < n := by exact_mod_cast h
    rwa [abs_of_pos h']

/-- Of a multiple of 25 percent, nothing is lost. -/
theorem cut_quarter {p : ℕ} (hp : 8 ≤ p) {n : ℤ} (hn : |n| < 2 ^ p) (h25 : (25 : ℤ) ∣ n) : toZero p (toZero p (n / 100) * 100) = n := by
  have key : ∀ j : ℕ, (25 * j : ℤ) < 2 ^ p → toZero p (toZero p ((25 * j : ℤ) / 100) * 100) = (25 * j : ℤ) := by
    intro j hj
    have e1 : (((25 * j : ℤ) : ℚ) / 100) = (j : ℤ) * 2 ^ (-2 : ℤ) := by
      push_cast
      rw [show (2 : ℚ) ^ (-2 : ℤ) = 1 / 4 by norm_num]
      ring
    have b1 : HasBits p (((25 * j : ℤ) : ℚ) / 100) := ⟨j, -2, e1, by rw [abs_of_nonneg (by omega)]; omega⟩
    rw [toZero_of_hasBits (p := p) (by omega) (by push_cast; positivity) b1, div_mul_cancel₀ _ (by norm_num)]
    exact toZero_of_hasBits (p := p) (by omega) (by push_cast; positivity) (hasBits_int (by rw [abs_of_nonneg (by omega)]; exact hj))
  obtain ⟨j, rfl⟩ := h25
  rcases le_total 0 j with h | h
  · obtain ⟨i, rfl⟩ := Int.eq_ofNat_of_zero_le h
    exact key i (by rwa [abs_of_nonneg (by omega)] at hn)
  · obtain ⟨i, hi⟩ := Int.eq_ofNat_of_zero_le (show 0 ≤ -j by omega)
    obtain rfl : j = -(i : ℤ) := by omega
    have := key i (by rw [mul_neg, abs_neg, abs_of_nonneg (by omega)] at hn; exact hn)
    rw [mul_neg, Int.cast_neg, neg_div, cut_neg, this]

/-- **C156.** A whole number `n` of percent, however many zeros it is written with, is formatted as the number `n` exactly if it is a
multiple of 25; otherwise as a number that is nearer to zero. -/
theorem C156_whole (p : ℕ) (hp : 8 ≤ p) (text : ℚ → String) (ht : Prints p text) (other : String → Option String) (env : FactEnv)
    (henv : env.hundred = hundred text other p) (f : Fact) (hf : Percentage env f) (m n : ℤ) (k : ℕ) (hv : DecimalText f.inner m k) (hk : k ≤ 27)
    (hn : m * 100 = n * 10 ^ k) (hb : |n| < 2 ^ p) :
    ∃ amount q, Denotes amount q ∧ (q = n ↔ (25 : ℤ) ∣ n) ∧ (q ≠ n → |q| < |(n : ℚ)|) ∧
      ∀ langs ml lang e, renderCell env (some f) langs = some ml → (lang, e) ∈ ml → ShownAs env f.precision amount lang e := by
  obtain ⟨M, K, h1, h2, h3, h4, h5⟩ := hundred_of hp ht other hv hk
  have hval : (m / 10 ^ k : ℚ) = n / 100 := by
    have : (m : ℚ) * 100 = n * 10 ^ k := by exact_mod_cast hn
    rw [div_eq_div_iff (by positivity) (by norm_num)]; exact this
  rw [hval] at h1 h2 h3 h4 h5
  have shown : ∀ langs ml lang e, renderCell env (some f) langs = some ml → (lang, e) ∈ ml → ShownAs env f.precision _ lang e :=
    fun langs ml lang e hm he => percent_shown env f _ hf (by rw [henv]; exact h1) langs ml lang e hm he
  by_cases h25 : (25 : ℤ) ∣ n
  · have hq : (M / 10 ^ K : ℚ) = n := by
      rw [cut_quarter hp hb h25] at h3 h4 h5
      obtain rfl : K = 0 := by
        have := h5 n 0 (by simp)
        omega
      by_cases h0 : n = 0
      · subst h0
        rw [h3 (by simp)]; simp
      · have hnz : (n : ℚ) ≠ 0 := by exact_mod_cast h0
        have hu := lastBit_ulp p hnz
        have hd := h4 _ hu
        have hone : ulp p (n : ℚ) ≤ 1 := by
          obtain ⟨b, hb'⟩ := ulp_bounds p hnz
          unfold ulp
          have hl : Int.log 2 |(n : ℚ)| < p := by
            rw [← Int.lt_zpow_iff_log_lt (by omega) (abs_pos.2 hnz)]
            have : |(n : ℚ)| < 2 ^ p := by exact_mod_cast hb
            rw [zpow_natCast]
            exact this
          exact zpow_le_one_of_nonpos₀ (by norm_num) (by omega)
        have hd' : |((M - n : ℤ) : ℚ)| < ((1 : ℤ) : ℚ) := by
          push_cast
          rw [pow_zero, div_one] at hd
          linarith
        have : |M - n| < 1 := by exact_mod_cast hd'
        have : M - n = 0 := Int.abs_lt_one_iff.1 this
        rw [pow_zero, div_one]
        have : M = n := by omega
        rw [this]
    exact ⟨_, _, ⟨M, K, h2, rfl⟩, ⟨fun _ => h25, fun _ => hq⟩, fun h => absurd hq h, shown⟩
  · have hlt := cut_whole hp hb h25 _ h4
    exact ⟨_, _, ⟨M, K, h2, rfl⟩, ⟨fun h => absurd hlt (by rw [h]; exact lt_irrefl _), fun h => absurd h h25⟩, fun _ => hlt, shown⟩

/-- **C156 (fails).** Seven percent is shown as the formatter shows some number below seven, whatever the number of bits. -/
theorem C156_fails (p : ℕ) (hp : 8 ≤ p) (text : ℚ → String) (ht : Prints p text) (other : String → Option String) :
    ∃ amount q, hundred text other p "0.07" = some amount ∧ Denotes "0.07" (7 / 100) ∧ Denotes amount q ∧ q < 7 ∧ ¬ Denotes amount 7 := by
  have hd : DecimalText "0.07" 7 2 := ⟨[], ['0'], ['0', '7'], 7, by simp, by simp,
    .snoc ['0', '0'] '7' 0 7 (.snoc ['0'] '0' 0 0 (.snoc [] '0' 0 0 .nil ⟨by omega, by decide⟩) ⟨by omega, by decide⟩) ⟨by omega, by decide⟩,
    rfl, by decide, .inl (by decide)⟩
  obtain ⟨M, K, h1, h2, -, h4, -⟩ := hundred_of hp ht other hd (by omega)
  have h8 : (2 : ℤ) ^ 8 ≤ 2 ^ p := pow_le_pow_right₀ (by omega) hp
  have hval : (((7 : ℤ) : ℚ) / 10 ^ 2) = ((7 : ℤ) : ℚ) / 100 := by norm_num
  rw [hval] at h1 h2 h4
  have hlt := cut_whole hp (n := 7) (lt_of_lt_of_le (by norm_num) h8) (by omega) _ h4
  have hq : (M / 10 ^ K : ℚ) < 7 := by
    have := (le_abs_self (M / 10 ^ K : ℚ)).trans_lt hlt
    norm_num at this
    exact this
  exact ⟨_, _, h1, ⟨7, 2, hd, by norm_num⟩, ⟨M, K, h2, rfl⟩, hq, fun h => hq.ne (denotes_unique ⟨M, K, h2, rfl⟩ h)⟩

/-- **C156.** What is shown of a fact, also of a percentage, depends only on what the formatter does for the decimals that the value of
the fact has. -/
theorem C156_accuracy (env env' : FactEnv) (f : Fact) (langs : List Lang)
    (h : env' = { env with digits := env'.digits }) (hd : ∀ v s, env'.digits f.precision v s = env.digits f.precision v s) :
    renderCell env' (some f) langs = renderCell env (some f) langs := by
  have fact : ∀ s, renderFact env' s f = renderFact env s f := by
    intro s
    rw [h] at hd ⊢
    unfold renderFact
    dsimp only
    split
    · rfl
    · split
      · rfl
      · split
        · rfl
        · have : ∀ c, sigFigs { env with digits := env'.digits } f.inner f.precision c s = sigFigs env f.inner f.precision c s := by
            intro c
            unfold sigFigs
            dsimp only
            split
            · split
              · rfl
              · exact hd _ _
            · exact hd _ _
          rw [this]
  have lang : ∀ l m, renderLang env' f l m = renderLang env f l m := by
    intro l m
    unfold renderLang
    rw [fact, fact]
  have all : ∀ ls m, renderLangs env' f ls m = renderLangs env f ls m := by
    intro ls
    induction ls with
    | nil => intro m; rfl
    | cons l ls ih =>
      intro m
      unfold renderLangs
      rw [lang]
      congr 1
      exact funext ih
  unfold renderCell
  dsimp only
  rw [all]

/-- A number with one decimal digit after the other. -/
def digitChar (d : ℕ) : Char := Char.ofNat (48 + d)

def lastDigits : ℕ → ℕ → List Char
  | 0, _ => []
  | k + 1, n => lastDigits k (n / 10) ++ [digitChar (n % 10)]

theorem lastDigits_of : ∀ (k r a : ℕ) (xs : List Char), DigitsOf xs a → r < 10 ^ k → DigitsOf (xs ++ lastDigits k r) (a * 10 ^ k + r)
  | 0, r, a, xs, h, hr => by
    obtain rfl : r = 0 := by simpa using hr
    simpa [lastDigits] using h
  | k + 1, r, a, xs, h, hr => by
    have := DigitsOf.snoc _ (digitChar (r % 10)) _ (r % 10) (lastDigits_of k (r / 10) a xs h (by rw [pow_succ] at hr; omega)) ⟨by omega, rfl⟩
    rw [List.append_assoc] at this
    refine (?_ : 10 * (a * 10 ^ k + r / 10) + r % 10 = a * 10 ^ (k + 1) + r) ▸ this
    rw [pow_succ]
    have := Nat.div_add_mod r 10
    linarith

theorem lastDigits_length : ∀ k n, (lastDigits k n).length = k
  | 0, _ => rfl
  | k + 1, n => by simp [lastDigits, lastDigits_length k]

/-- `m / 10 ^ k` with all its digits. -/
def written (m : ℤ) (k : ℕ) : String :=
  String.ofList ((if m < 0 then ['-'] else []) ++ lastDigits (m.natAbs + 1) (m.natAbs / 10 ^ k) ++ '.' :: lastDigits k (m.natAbs % 10 ^ k))

theorem written_decimal (m : ℤ) (k : ℕ) : DecimalText (written m k) m k := by
  refine ⟨if m < 0 then ['-'] else [], lastDigits (m.natAbs + 1) (m.natAbs / 10 ^ k), lastDigits k (m.natAbs % 10 ^ k), m.natAbs, ?_, ?_, ?_,
    lastDigits_length _ _, ?_, .inl (String.toList_ofList)⟩
  · split <;> simp
  · intro h
    have := congrArg List.length h
    rw [List.length_append, lastDigits_length] at this
    simp at this
  · have h1 : m.natAbs / 10 ^ k < 10 ^ (m.natAbs + 1) := by
      have : m.natAbs < 10 ^ m.natAbs := Nat.lt_pow_self (by omega)
      have : 10 ^ m.natAbs ≤ 10 ^ (m.natAbs + 1) := Nat.pow_le_pow_right (by omega) (by omega)
      have := Nat.div_le_self m.natAbs (10 ^ k)
      omega
    have h2 := lastDigits_of (m.natAbs + 1) (m.natAbs / 10 ^ k) 0 [] .nil h1
    have h3 := lastDigits_of k (m.natAbs % 10 ^ k) _ _ h2 (Nat.mod_lt _ (by positivity))
    simp only [List.nil_append, Nat.zero_mul, Nat.zero_add] at h3
    rwa [Nat.div_add_mod'] at h3
  · split
    · rw [if_pos rfl]; omega
    · rw [if_neg (by simp)]; omega

open Classical in
/-- Every number with all its digits, and no more. -/
noncomputable def exactText (x : ℚ) : String :=
  if h : ∃ (k : ℕ) (m : ℤ), x = m / 10 ^ k then written (Nat.find_spec h).choose (Nat.find h) else ""

/-- What is assumed of `Text` can be met, for every number of bits. -/
theorem exactText_prints (p : ℕ) : Prints p exactText := by
  intro x hx
  have h : ∃ (k : ℕ) (m : ℤ), x = m / 10 ^ k := by
    obtain ⟨a, e, rfl, -⟩ := hx
    rcases e with j | j
    · exact ⟨0, a * 2 ^ j, by push_cast; rw [Int.ofNat_eq_natCast, zpow_natCast]; simp⟩
    · refine ⟨j + 1, a * 5 ^ (j + 1), ?_⟩
      push_cast
      rw [zpow_negSucc, show (10 : ℚ) = 2 * 5 by norm_num, mul_pow, mul_div_mul_right _ _ (by positivity), div_eq_mul_inv]
  classical
  have hs := (Nat.find_spec h).choose_spec
  refine ⟨(Nat.find_spec h).choose, Nat.find h, ?_, ?_, ?_, ?_⟩
  · unfold exactText
    rw [dif_pos h]
    exact written_decimal _ _
  · intro h0
    have hz := hs.symm.trans h0
    rw [div_eq_zero_iff] at hz
    rcases hz with hz | hz
    · exact_mod_cast hz
    · exact absurd hz (by positivity)
  · intro u hu
    rw [← hs, sub_self, abs_zero]
    obtain ⟨⟨e, rfl⟩, -⟩ := hu
    positivity
  · intro m' k' hm
    exact Nat.find_min' h ⟨m', hm⟩

/-- A folder with one percentage; the formatter writes the decimals it is asked for. -/
noncomputable def percentEnv (p : ℕ) : FactEnv where
  concept h := if h = "x#rate" then some ⟨⟨"x", "rate"⟩, "rate", ⟨"http://www.xbrl.org/dtr/type/numeric", "percentItemType"⟩, ⟨"", ""⟩, false, "", "", false, ""⟩ else none
  measure _ := (none, none)
  tokens s := [.text s]
  trim s := s
  hundred := hundred exactText (fun _ => none) p
  digits d v _ := some ("", v, if d = 4 then " to 4 decimals " else " ")

/-- The fact is read from `<x:rate decimals="4">0.0712</x:rate>`. -/
def rate (v : String) : Fact := ⟨"x#rate", "f", "c", "pure", 4, false, v⟩

theorem rate_percentage (p : ℕ) (v : String) : Percentage (percentEnv p) (rate v) := ⟨rfl, show (4 : Int) ≠ _ by decide, _, rfl, rfl⟩

/-- A value with forty decimals, for which math/big divides by a rounded power of five. -/
example (p : ℕ) (hp : 8 ≤ p) : ∃ v, DecimalText v 7 40 ∧ ∃ a q, Denotes a q ∧ |q - 100 * (7 / 10 ^ 40)| ≤ |(100 * (7 / 10 ^ 40) : ℚ)| * 6 / 2 ^ p ∧
    ∀ langs ml lang e, renderCell (percentEnv p) (some (rate v)) langs = some ml → (lang, e) ∈ ml → ShownAs (percentEnv p) 4 a lang e := by
  have zeros : ∀ n, DigitsOf (List.replicate n '0') 0 := by
    intro n
    induction n with
    | zero => exact .nil
    | succ n ih => rw [List.replicate_succ']; exact .snoc _ _ 0 0 ih ⟨by omega, by decide⟩
  have hd : DecimalText (String.ofList ('.' :: (List.replicate 39 '0' ++ ['7']))) 7 40 := by
    refine ⟨[], [], List.replicate 39 '0' ++ ['7'], 7, .inl rfl, by simp, ?_, by simp, ?_, .inl (by rw [String.toList_ofList]; rfl)⟩
    · exact .snoc _ '7' 0 7 (zeros 39) ⟨by omega, by decide⟩
    · rw [if_neg (by simp)]; rfl
  refine ⟨_, hd, ?_⟩
  have := C156_long_partial p hp exactText (exactText_prints p) (fun _ => none) (percentEnv p) rfl (rate _) (rate_percentage p _) _ 40 hd (by norm_num)
  rw [show ((7 : ℤ) : ℚ) = 7 by norm_num] at this
  exact this

/-- The hypotheses of the theorems can be met, by a value that is a multiple of 25 percent and by one that is not. -/
example (p : ℕ) (hp : 8 ≤ p) : ∃ a q a' q', Denotes a q ∧ Denotes a' q' ∧ q = 25 ∧ q' ≠ 21 ∧
    ShownAs (percentEnv p) 4 a "Unlabelled" ⟨"", a, " to 4 decimals %", ""⟩ ∧ ShownAs (percentEnv p) 4 a' "Unlabelled" ⟨"", a', " to 4 decimals %", ""⟩ := by
  have h8 : (2 : ℤ) ^ 8 ≤ 2 ^ p := pow_le_pow_right₀ (by omega) hp
  have two : ∀ (a b : Char) (x y : ℕ), IsDigit a x → IsDigit b y → DecimalText (String.ofList ['.', a, b]) (10 * x + y : ℕ) 2 := by
    intro a b x y ha hb
    refine ⟨[], [], [a, b], 10 * x + y, .inl rfl, by simp, ?_, rfl, ?_, .inl (by rw [String.toList_ofList]; rfl)⟩
    · exact .snoc [a] b _ y (by simpa using DigitsOf.snoc [] a 0 x .nil ha) hb
    · rw [if_neg (by simp)]
  have h25 := two '2' '5' 2 5 ⟨by omega, by decide⟩ ⟨by omega, by decide⟩
  have h21 := two '2' '1' 2 1 ⟨by omega, by decide⟩ ⟨by omega, by decide⟩
  obtain ⟨a, q, d, iq, -, -⟩ := C156_whole p hp exactText (exactText_prints p) (fun _ => none) (percentEnv p) rfl (rate _)
    (rate_percentage p _) _ 25 2 h25 (by omega) (by norm_num) (lt_of_lt_of_le (by norm_num) h8)
  obtain ⟨a', q', d', iq', -, -⟩ := C156_whole p hp exactText (exactText_prints p) (fun _ => none) (percentEnv p) rfl (rate _)
    (rate_percentage p _) _ 21 2 h21 (by omega) (by norm_num) (lt_of_lt_of_le (by norm_num) h8)
  refine ⟨a, q, a', q', d, d', ?_, ?_, ?_, ?_⟩
  · have := iq.2 ⟨1, by omega⟩
    rw [this]; norm_num
  · intro h
    have := iq'.1 (by rw [h]; norm_num)
    omega
  all_goals
    intro head core tail hd
    cases hd
    exact ⟨rfl, ⟨"", rfl⟩, "", rfl⟩

/-- **C156 (fails).** Of a value with four decimals, the hundredfold has two. The formatter is asked for four. -/
theorem C156_accuracy_fails (p : ℕ) (v a : String) (h : (percentEnv p).hundred v = some a) :
    renderCell (percentEnv p) (some (rate v)) ["Unlabelled"] = some [("Unlabelled", ⟨"", a, " to 4 decimals %", ""⟩)] := by
  change Big.hundred exactText (fun _ => none) p v = some a at h
  simp only [renderCell, rate, renderLangs, renderLang, renderFact, percentEnv, sigFigs, isPercent, h]
  rfl

end Telefacts
