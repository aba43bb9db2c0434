import Verif.Model.ParseFloat
import Verif.Spec.Decimal
import Mathlib.Tactic.Ring
import Mathlib.Tactic.Linarith
import Mathlib.Algebra.Order.Ring.Nat
import Mathlib.Algebra.Order.Ring.Int
/-! # Reading and rounding decimal numbers -/
namespace Telefacts.Number

/-! ## Reading -/

theorem digit_iff (c : Char) (d : Nat) : digit c = some d ↔ IsDigit c d := by
  unfold digit IsDigit
  constructor
  · intro h
    split at h
    · rename_i hc
      cases h
      refine ⟨by omega, ?_⟩
      rw [show 48 + (c.toNat - 48) = c.toNat by omega, Char.ofNat_toNat]
    · cases h
  · rintro ⟨hd, rfl⟩
    have key : ∀ d, d < 10 → (Char.ofNat (48 + d)).toNat = 48 + d := by decide
    rw [key d hd, if_pos (by omega)]
    congr 1
    omega

/-- Digits after others. -/
def After (acc : Nat) (cs : List Char) (n : Nat) : Prop := ∃ v, DigitsOf cs v ∧ n = acc * 10 ^ cs.length + v

theorem DigitsOf.mem {cs : List Char} {n : Nat} (h : DigitsOf cs n) : ∀ c ∈ cs, ∃ d, digit c = some d := by
  induction h with
  | nil => intro c hc; cases hc
  | snoc cs c n d _ hd ih =>
    intro x hx
    rw [List.mem_append, List.mem_singleton] at hx
    rcases hx with hx | rfl
    · exact ih x hx
    · exact ⟨d, (digit_iff _ _).2 hd⟩

theorem DigitsOf.split : ∀ {cs : List Char} {n : Nat}, DigitsOf cs n → ∀ i f, cs = i ++ f →
    ∃ a b, DigitsOf i a ∧ DigitsOf f b ∧ n = a * 10 ^ f.length + b := by
  intro cs n h
  induction h with
  | nil =>
    intro i f h
    obtain ⟨rfl, rfl⟩ := List.append_eq_nil_iff.1 h.symm
    exact ⟨0, 0, .nil, .nil, by simp⟩
  | snoc cs c n d hc hd ih =>
    intro i f h
    rcases List.eq_nil_or_concat f with rfl | ⟨f', x, rfl⟩
    · rw [List.append_nil] at h
      subst h
      exact ⟨_, 0, .snoc _ _ _ _ hc hd, .nil, by simp⟩
    · rw [List.concat_eq_append, ← List.append_assoc] at h
      obtain ⟨h1, h2⟩ := List.append_inj' h rfl
      cases h2
      obtain ⟨a, b, ha, hb, e⟩ := ih i f' h1
      refine ⟨a, 10 * b + d, ha, by rw [List.concat_eq_append]; exact .snoc _ _ _ _ hb hd, ?_⟩
      rw [e, List.concat_eq_append, List.length_append, List.length_singleton, Nat.pow_succ]
      ring

/-- The rest does not begin with a digit. -/
def NoDigit : List Char → Prop
  | [] => True
  | c :: _ => digit c = none

theorem digits_stop (acc n : Nat) {rest : List Char} (h : NoDigit rest) : digits acc n rest = (acc, n, rest) := by
  cases rest with
  | nil => rfl
  | cons c cs => unfold NoDigit at h; rw [digits, h]

theorem digits_run : ∀ (cs : List Char) (acc n v : Nat) (rest : List Char), DigitsOf cs v → NoDigit rest →
    digits acc n (cs ++ rest) = (acc * 10 ^ cs.length + v, n + cs.length, rest) := by
  intro cs
  induction cs with
  | nil =>
    intro acc n v rest h hr
    rw [List.nil_append, digits_stop acc n hr]
    have : v = 0 := by
      generalize hl : ([] : List Char) = l at h
      cases h with
      | nil => rfl
      | snoc => simp at hl
    simp [this]
  | cons c cs ih =>
    intro acc n v rest h hr
    obtain ⟨a, b, ha, hb, e⟩ := h.split [c] cs rfl
    obtain ⟨d, hd⟩ := h.mem c List.mem_cons_self
    have had : a = d := by
      generalize hl : [c] = l at ha
      cases ha with
      | nil => simp at hl
      | snoc cs' c' n' d' h1 h2 =>
        cases cs' with
        | nil =>
          simp only [List.nil_append, List.cons.injEq, and_true] at hl
          subst hl
          rw [(digit_iff _ _).2 h2] at hd
          cases hd
          generalize hl : ([] : List Char) = l at h1
          cases h1 with
          | nil => simp
          | snoc => simp at hl
        | cons => simp at hl
    rw [List.cons_append, digits, hd]
    simp only
    rw [ih _ _ b rest hb hr, e, had, List.length_cons, Nat.pow_succ]
    congr 1
    · ring
    · congr 1; omega

theorem point_noDigit (f : List Char) : NoDigit ('.' :: f) := by show digit '.' = none; decide

theorem readUnsigned_decimal {i f : List Char} {n : Nat} (h : DigitsOf (i ++ f) n) (hne : i ++ f ≠ []) :
    readUnsigned (i ++ '.' :: f) = some (n, f.length) ∧ (f = [] → readUnsigned i = some (n, 0)) := by
  obtain ⟨a, b, ha, hb, e⟩ := h.split i f rfl
  have r1 : digits 0 0 (i ++ '.' :: f) = (a, i.length, '.' :: f) := by
    rw [digits_run i 0 0 a _ ha (point_noDigit f)]; simp
  have r2 : ∀ acc, digits acc 0 f = (acc * 10 ^ f.length + b, f.length, []) := by
    intro acc
    have := digits_run f acc 0 b [] hb trivial
    simpa using this
  constructor
  · unfold readUnsigned
    rw [r1]
    cases hi : i.length with
    | zero =>
      have : i = [] := List.length_eq_zero_iff.1 hi
      subst this
      have ha0 : a = 0 := by
        have := digits_run [] 0 0 a [] ha trivial
        simpa [digits] using this.symm
      simp only
      rw [r2 0]
      cases hf : f.length with
      | zero => exact absurd (List.length_eq_zero_iff.1 hf) (by simpa using hne)
      | succ k => simp only [e, ha0, hf]
    | succ k =>
      simp only
      rw [r2 a]
      simp only [e]
  · rintro rfl
    have r0 := digits_run i 0 0 a [] ha trivial
    rw [List.append_nil] at r0
    simp only [Nat.zero_mul, Nat.zero_add] at r0
    unfold readUnsigned
    rw [r0]
    have hb0 : n = a := by
      have := r2 0
      simp [digits] at this
      simp [e, ← this]
    cases hi : i.length with
    | zero => exact absurd (List.length_eq_zero_iff.1 hi) (by simpa using hne)
    | succ k => simp only [hb0]

theorem sign_head {i f : List Char} {n : Nat} (h : DigitsOf (i ++ f) n) (hne : i ++ f ≠ []) (c : Char) (hc : c = '+' ∨ c = '-') :
    (∀ r, i ++ '.' :: f ≠ c :: r) ∧ (f = [] → ∀ r, i ≠ c :: r) := by
  have key : ∀ x ∈ i, x ≠ c := by
    intro x hx e
    obtain ⟨d, hd⟩ := h.mem x (List.mem_append_left _ hx)
    subst e
    rcases hc with rfl | rfl <;> simp [digit] at hd
  constructor
  · intro r e
    cases i with
    | nil => cases e; rcases hc with hc | hc <;> exact absurd hc (by decide)
    | cons x i => cases e; exact key c List.mem_cons_self rfl
  · rintro rfl r e
    exact key c (by rw [e]; exact List.mem_cons_self) rfl

theorem readDecimal_decimal {s : String} {m : Int} {k : Nat} (h : DecimalText s m k) :
    ∃ neg, readDecimal s = some (neg, m.natAbs, k) ∧ m = if neg then -(m.natAbs : Int) else m.natAbs := by
  obtain ⟨sign, i, f, n, hs, hne, hd, rfl, hm, ht⟩ := h
  obtain ⟨r1, r2⟩ := readUnsigned_decimal hd hne
  have hp := sign_head hd hne '+' (.inl rfl)
  have hq := sign_head hd hne '-' (.inr rfl)
  have hn : m.natAbs = n := by rw [hm]; split <;> omega
  rw [hn]
  rcases hs with rfl | rfl | rfl
  · refine ⟨false, ?_, by rw [hm]; simp⟩
    unfold readDecimal
    rcases ht with ht | ⟨rfl, ht⟩
    · rw [ht, List.nil_append]
      split
      · rename_i h; exact absurd h (hp.1 _)
      · rename_i h; exact absurd h (hq.1 _)
      · rw [r1]; rfl
    · rw [ht, List.nil_append]
      split
      · exact absurd rfl (hp.2 rfl _)
      · exact absurd rfl (hq.2 rfl _)
      · rw [r2 rfl]; rfl
  · refine ⟨false, ?_, by rw [hm]; simp⟩
    unfold readDecimal
    rcases ht with ht | ⟨rfl, ht⟩
    · rw [ht]
      simp only [List.cons_append, List.nil_append]
      rw [r1]; rfl
    · rw [ht]
      simp only [List.cons_append, List.nil_append]
      rw [r2 rfl]; rfl
  · refine ⟨true, ?_, by rw [hm]; simp⟩
    unfold readDecimal
    rcases ht with ht | ⟨rfl, ht⟩
    · rw [ht]
      simp only [List.cons_append, List.nil_append]
      rw [r1]; rfl
    · rw [ht]
      simp only [List.cons_append, List.nil_append]
      rw [r2 rfl]; rfl

/-! ## Rounding -/

/-- The unit of the last place. -/
def unit (n d : Nat) : Nat := if n / d < 2 ^ 53 then 0 else (n / d).log2 - 52

theorem nearest_eq (n d : Nat) : nearest n d =
    (if 2 * (n % (d * 2 ^ unit n d)) < d * 2 ^ unit n d then n / (d * 2 ^ unit n d)
     else if d * 2 ^ unit n d < 2 * (n % (d * 2 ^ unit n d)) then n / (d * 2 ^ unit n d) + 1
     else if n / (d * 2 ^ unit n d) % 2 = 0 then n / (d * 2 ^ unit n d) else n / (d * 2 ^ unit n d) + 1) * 2 ^ unit n d := by
  unfold nearest unit
  by_cases h : n / d < 2 ^ 53
  · simp only [if_pos h, Nat.pow_zero]
  · simp only [if_neg h]

theorem nearest_cases (n d : Nat) (hd : 0 < d) : ∃ w, nearest n d = w * 2 ^ unit n d ∧
    ((w = n / (d * 2 ^ unit n d) ∧ 2 * n ≤ (2 * w + 1) * (d * 2 ^ unit n d)) ∨
     (w = n / (d * 2 ^ unit n d) + 1 ∧ (2 * w - 1) * (d * 2 ^ unit n d) ≤ 2 * n)) := by
  refine ⟨_, nearest_eq n d, ?_⟩
  generalize hD : d * 2 ^ unit n d = D
  have hD0 : 0 < D := by rw [← hD]; exact Nat.mul_pos hd (Nat.two_pow_pos _)
  have hn := Nat.div_add_mod n D
  generalize n / D = a at hn ⊢
  generalize n % D = r at hn ⊢
  have e1 : (2 * a + 1) * D = 2 * (D * a) + D := by ring
  have e2 : (2 * (a + 1) - 1) * D = 2 * (D * a) + D := by rw [show 2 * (a + 1) - 1 = 2 * a + 1 by omega, e1]
  split
  · left; exact ⟨rfl, by omega⟩
  · split
    · right; exact ⟨rfl, by omega⟩
    · split
      · left; exact ⟨rfl, by omega⟩
      · right; exact ⟨rfl, by omega⟩

theorem floor_bounds (n d : Nat) (hd : 0 < d) : n / (d * 2 ^ unit n d) < 2 ^ 53 ∧
    (unit n d ≠ 0 → 2 ^ 52 ≤ n / (d * 2 ^ unit n d)) := by
  rw [← Nat.div_div_eq_div_mul]
  unfold unit
  by_cases h : n / d < 2 ^ 53
  · rw [if_pos h]; simp only [Nat.pow_zero, Nat.div_one]
    exact ⟨h, fun h => absurd rfl h⟩
  · rw [if_neg h]
    generalize n / d = q at h
    have hq : q ≠ 0 := by omega
    have h1 := Nat.log2_self_le hq
    have h2 := (Nat.log2_lt hq (k := q.log2 + 1)).1 (by omega)
    have hl : 53 ≤ q.log2 := (Nat.le_log2 hq).2 (by omega)
    obtain ⟨e, he⟩ : ∃ e, q.log2 = e + 52 := ⟨q.log2 - 52, by omega⟩
    rw [he] at h1 h2 ⊢
    rw [show e + 52 - 52 = e by omega]
    constructor
    · rw [Nat.div_lt_iff_lt_mul (Nat.two_pow_pos _), ← Nat.pow_add, Nat.add_comm]
      rw [show e + 52 + 1 = e + 53 by omega] at h2
      exact h2
    · intro _
      rw [Nat.le_div_iff_mul_le (Nat.two_pow_pos _), ← Nat.pow_add, Nat.add_comm]
      exact h1

/-- There is no double strictly between two neighbours. -/
theorem no_between {a e b c : Nat} (ha : e ≠ 0 → 2 ^ 52 ≤ a) (hb : b < 2 ^ 53) (h1 : a * 2 ^ e < b * 2 ^ c) (h2 : b * 2 ^ c < (a + 1) * 2 ^ e) :
    False := by
  by_cases hce : e ≤ c
  · obtain ⟨g, rfl⟩ : ∃ g, c = e + g := ⟨c - e, by omega⟩
    rw [Nat.pow_add, show b * (2 ^ e * 2 ^ g) = (b * 2 ^ g) * 2 ^ e by ring] at h1 h2
    have h1 := Nat.lt_of_mul_lt_mul_right h1
    have h2 := Nat.lt_of_mul_lt_mul_right h2
    omega
  · obtain ⟨g, rfl⟩ : ∃ g, e = c + g + 1 := ⟨e - c - 1, by omega⟩
    have ha := ha (by omega)
    have : 2 ^ 52 * 2 ^ (c + g + 1) ≤ a * 2 ^ (c + g + 1) := Nat.mul_le_mul_right _ ha
    have h3 : b * 2 ^ c < 2 ^ 53 * 2 ^ c := Nat.mul_lt_mul_of_pos_right hb (Nat.two_pow_pos _)
    have h4 : 2 ^ 53 * 2 ^ c ≤ 2 ^ 52 * 2 ^ (c + g + 1) := by
      rw [show c + g + 1 = g + (1 + c) by omega, Nat.pow_add 2 g, Nat.pow_add 2 1]
      have : 1 ≤ 2 ^ g := Nat.one_le_two_pow
      have h5 : 2 ^ 1 * 2 ^ c ≤ 2 ^ g * (2 ^ 1 * 2 ^ c) := Nat.le_mul_of_pos_left _ this
      calc 2 ^ 53 * 2 ^ c = 2 ^ 52 * (2 ^ 1 * 2 ^ c) := by ring
        _ ≤ 2 ^ 52 * (2 ^ g * (2 ^ 1 * 2 ^ c)) := Nat.mul_le_mul_left _ h5
    omega

theorem nearest_error (n d : Nat) (hd : 0 < d) :
    (2 * ((n : Int) - nearest n d * d)).natAbs ≤ d * 2 ^ unit n d := by
  obtain ⟨w, hw, h⟩ := nearest_cases n d hd
  rw [hw]
  have hD0 : 0 < d * 2 ^ unit n d := Nat.mul_pos hd (Nat.two_pow_pos _)
  have e : ((w * 2 ^ unit n d : Nat) : Int) * d = ((w * (d * 2 ^ unit n d) : Nat) : Int) := by push_cast; ring
  rw [e]
  generalize d * 2 ^ unit n d = D at *
  have hlo := Nat.div_mul_le_self n D
  have hhi := Nat.lt_div_mul_add (a := n) hD0
  rcases h with ⟨rfl, h⟩ | ⟨rfl, h⟩
  · have : (2 * (n / D) + 1) * D = 2 * (n / D * D) + D := by ring
    omega
  · have : (2 * (n / D + 1) - 1) * D = 2 * (n / D * D) + D := by rw [show 2 * (n / D + 1) - 1 = 2 * (n / D) + 1 by omega]; ring
    have h3 : (n / D + 1) * D = n / D * D + D := by ring
    omega

theorem nearest_best (n d : Nat) (hd : 0 < d) {b c : Nat} (hb : b < 2 ^ 53) :
    ((n : Int) - nearest n d * d).natAbs ≤ ((n : Int) - (b * 2 ^ c : Nat) * d).natAbs := by
  obtain ⟨w, hw, h⟩ := nearest_cases n d hd
  obtain ⟨_, hf⟩ := floor_bounds n d hd
  have hD0 : 0 < d * 2 ^ unit n d := Nat.mul_pos hd (Nat.two_pow_pos _)
  have hlo := Nat.div_mul_le_self n (d * 2 ^ unit n d)
  have hhi := Nat.lt_div_mul_add (a := n) hD0
  have hside : b * 2 ^ c ≤ n / (d * 2 ^ unit n d) * 2 ^ unit n d ∨ (n / (d * 2 ^ unit n d) + 1) * 2 ^ unit n d ≤ b * 2 ^ c := by
    by_contra hc
    simp only [not_or, Nat.not_le] at hc
    exact no_between hf hb hc.1 hc.2
  rw [hw]
  have e : ((w * 2 ^ unit n d : Nat) : Int) * d = ((w * (d * 2 ^ unit n d) : Nat) : Int) := by push_cast; ring
  rw [e, ← Nat.cast_mul]
  have hside : b * 2 ^ c * d ≤ n / (d * 2 ^ unit n d) * (d * 2 ^ unit n d) ∨
      n / (d * 2 ^ unit n d) * (d * 2 ^ unit n d) + d * 2 ^ unit n d ≤ b * 2 ^ c * d := by
    rcases hside with hs | hs
    · left
      calc b * 2 ^ c * d ≤ n / (d * 2 ^ unit n d) * 2 ^ unit n d * d := Nat.mul_le_mul_right _ hs
        _ = _ := by ring
    · right
      calc _ = (n / (d * 2 ^ unit n d) + 1) * 2 ^ unit n d * d := by ring
        _ ≤ _ := Nat.mul_le_mul_right _ hs
  generalize b * 2 ^ c * d = x at *
  generalize d * 2 ^ unit n d = D at *
  rcases h with ⟨rfl, h⟩ | ⟨rfl, h⟩
  · have : (2 * (n / D) + 1) * D = 2 * (n / D * D) + D := by ring
    omega
  · have : (2 * (n / D + 1) - 1) * D = 2 * (n / D * D) + D := by rw [show 2 * (n / D + 1) - 1 = 2 * (n / D) + 1 by omega]; ring
    have h3 : (n / D + 1) * D = n / D * D + D := by ring
    omega

theorem nearest_scale (n d c : Nat) (hc : 0 < c) : nearest (n * c) (d * c) = nearest n d := by
  unfold nearest
  simp only
  rw [Nat.mul_div_mul_right _ _ hc]
  generalize (if n / d < 2 ^ 53 then 1 else 2 ^ ((n / d).log2 - 52)) = u
  rw [show d * c * u = d * u * c by ring, Nat.mul_div_mul_right _ _ hc, Nat.mul_mod_mul_right]
  have e1 : (2 * (n % (d * u) * c) < d * u * c) = (2 * (n % (d * u)) < d * u) := by
    rw [← Nat.mul_assoc]; exact propext (Nat.mul_lt_mul_right hc)
  have e2 : (d * u * c < 2 * (n % (d * u) * c)) = (d * u < 2 * (n % (d * u))) := by
    rw [← Nat.mul_assoc 2]; exact propext (Nat.mul_lt_mul_right hc)
  simp only [e1, e2]

theorem nearest_double (n d : Nat) (hd : 0 < d) (h : nearest n d < 2 ^ 2098) : Double (nearest n d) := by
  obtain ⟨w, hw, hc⟩ := nearest_cases n d hd
  obtain ⟨hf1, hf2⟩ := floor_bounds n d hd
  rw [hw] at h ⊢
  generalize unit n d = e at *
  generalize n / (d * 2 ^ e) = a at *
  have hwa : w = a ∨ w = a + 1 := by rcases hc with ⟨h, _⟩ | ⟨h, _⟩ <;> [left; right] <;> exact h
  clear hc hw
  by_cases hw : w < 2 ^ 53
  · refine ⟨w, e, by push_cast; ring, by omega, ?_⟩
    by_cases he : e = 0
    · omega
    · have := hf2 he
      have h52 : 2 ^ 52 * 2 ^ e ≤ w * 2 ^ e := Nat.mul_le_mul_right _ (by omega)
      rw [← Nat.pow_add] at h52
      have := (Nat.pow_lt_pow_iff_right (by omega : 1 < 2)).1 (Nat.lt_of_le_of_lt h52 h)
      omega
  · have hw : w = 2 ^ 53 := by omega
    subst hw
    refine ⟨2 ^ 52, e + 1, by push_cast; ring, by decide, ?_⟩
    rw [← Nat.pow_add] at h
    have := (Nat.pow_lt_pow_iff_right (by omega : 1 < 2)).1 h
    omega

end Telefacts.Number
