import Verif.Proof.Fnv
import Verif.Proof.FnvEndless
import Mathlib.Data.Nat.ModEq
import Mathlib.Tactic.Ring
import Mathlib.Tactic.LinearCombination
import Mathlib.Algebra.Ring.Int.Defs
import Mathlib.Algebra.Order.Ring.Int
import Mathlib.Algebra.Ring.Divisibility.Basic
import Mathlib.Tactic.Linarith
/-!
# FNV-1a does not collide on texts that differ within ten bytes

The difference of two states is multiplied by the prime `2^88 + 315` at every byte and changed by at most 510. After `n` bytes it is the
value of a polynomial with small coefficients at the prime, that is `A + 2^88 * B` modulo `2^128`, where `A` is the value at 315 and `B`
that of the derivative. For at most ten bytes `A` is too small to be a multiple of `2^88` other than zero; then the intermediate values of
Horner's scheme at 315 are -1, 0 and 1, and `B`, the value of the polynomial that has them as coefficients, is no multiple of `2^40`.
-/
namespace Telefacts

/-- One byte: `Model/Fnv.lean`. -/
def fnvStep (h b : Nat) : Nat := ((h ^^^ b) * fnvPrime) % 2 ^ 128

theorem fnv128a_fold (bs : List Nat) : fnv128a bs = bs.foldl fnvStep fnvOffset := rfl

theorem fnvStep_lt (h b : Nat) : fnvStep h b < 2 ^ 128 := Nat.mod_lt _ (by decide)

theorem fold_fnvStep_lt (bs : List Nat) (h : Nat) (hh : h < 2 ^ 128) : bs.foldl fnvStep h < 2 ^ 128 := by
  induction bs generalizing h with
  | nil => exact hh
  | cons b bs ih => exact ih _ (fnvStep_lt _ _)

theorem xor_cancel (h a b : Nat) (e : h ^^^ a = h ^^^ b) : a = b := by
  have := congrArg (h ^^^ ·) e
  simpa [← Nat.xor_assoc] using this

theorem xor_near (h b : Nat) (hb : b < 256) : -255 ≤ ((h ^^^ b : Nat) : Int) - h ∧ ((h ^^^ b : Nat) : Int) - h ≤ 255 := by
  have h1 : (h ^^^ b) / 256 = h / 256 := by
    have := Nat.xor_div_two_pow (a := h) (b := b) (n := 8)
    rw [show (2 : Nat) ^ 8 = 256 from rfl, Nat.div_eq_of_lt hb, Nat.xor_zero] at this
    exact this
  omega

theorem two_pow_dvd_mul_prime (x : Int) (h : (2 ^ 128 : Int) ∣ x * (fnvPrime : Int)) : (2 ^ 128 : Int) ∣ x :=
  Int.dvd_of_dvd_mul_left_of_gcd_one h (by decide +kernel)

/-- Given the byte, a step loses nothing. -/
theorem fnvStep_inj (h h' b : Nat) (hh : h < 2 ^ 128) (hh' : h' < 2 ^ 128) (hb : b < 256) (e : fnvStep h b = fnvStep h' b) : h = h' := by
  have hb' : b < 2 ^ 128 := lt_of_lt_of_le hb (by decide)
  have l1 : h ^^^ b < 2 ^ 128 := Nat.xor_lt_two_pow hh hb'
  have l2 : h' ^^^ b < 2 ^ 128 := Nat.xor_lt_two_pow hh' hb'
  have e1 : (h ^^^ b) * fnvPrime ≡ (h' ^^^ b) * fnvPrime [MOD 2 ^ 128] := e
  have e2 : (h ^^^ b) ≡ (h' ^^^ b) [MOD 2 ^ 128] := Nat.ModEq.cancel_right_of_coprime (by decide +kernel) e1
  have e3 : h ^^^ b = h' ^^^ b := Nat.ModEq.eq_of_lt_of_lt e2 l1 l2
  rw [Nat.xor_comm h, Nat.xor_comm h'] at e3
  exact xor_cancel _ _ _ e3

theorem fold_fnvStep_inj (bs : List Nat) (hbs : ∀ b ∈ bs, b < 256) (h h' : Nat) (hh : h < 2 ^ 128) (hh' : h' < 2 ^ 128)
    (e : bs.foldl fnvStep h = bs.foldl fnvStep h') : h = h' := by
  induction bs generalizing h h' with
  | nil => exact e
  | cons b bs ih =>
    exact fnvStep_inj h h' b hh hh' (hbs b (by simp)) (ih (fun x hx => hbs x (by simp [hx])) _ _ (fnvStep_lt _ _) (fnvStep_lt _ _) e)

/-- Horner's scheme. -/
def horner (x : Int) (g : Int) (es : List Int) : Int := es.foldl (fun a e => a * x + e) g

def Small (es : List Int) : Prop := ∀ e ∈ es, -510 ≤ e ∧ e ≤ 510

theorem fnvStep_diff (h h' b b' : Nat) :
    (2 ^ 128 : Int) ∣ ((fnvStep h b : Nat) : Int) - (fnvStep h' b' : Nat) - ((h ^^^ b : Nat) - (h' ^^^ b' : Nat) : Int) * fnvPrime := by
  have k (x : Nat) : ∃ q : Int, ((x % 2 ^ 128 : Nat) : Int) = x - 2 ^ 128 * q :=
    ⟨((x / 2 ^ 128 : Nat) : Int), by have := Nat.div_add_mod x (2 ^ 128); zify at this ⊢; linarith⟩
  obtain ⟨q, hq⟩ := k ((h ^^^ b) * fnvPrime)
  obtain ⟨q', hq'⟩ := k ((h' ^^^ b') * fnvPrime)
  unfold fnvStep
  rw [hq, hq']
  refine ⟨q' - q, ?_⟩
  rw [Nat.cast_mul, Nat.cast_mul]
  ring

theorem fold_fnvStep_diff (m m' : List Nat) (hl : m.length = m'.length) (hm : ∀ b ∈ m, b < 256) (hm' : ∀ b ∈ m', b < 256)
    (h h' : Nat) (g : Int) (hg : (2 ^ 128 : Int) ∣ (h : Int) - h' - g * fnvPrime) :
    ∃ es, es.length = m.length ∧ Small es ∧
      (2 ^ 128 : Int) ∣ ((m.foldl fnvStep h : Nat) : Int) - (m'.foldl fnvStep h' : Nat) - horner fnvPrime g es * fnvPrime := by
  induction m generalizing m' h h' g with
  | nil =>
    cases m' with
    | nil => exact ⟨[], rfl, fun _ h => by simp at h, hg⟩
    | cons => simp at hl
  | cons b m ih =>
    cases m' with
    | nil => simp at hl
    | cons b' m' =>
      have n1 := xor_near h b (hm b (by simp))
      have n2 := xor_near h' b' (hm' b' (by simp))
      obtain ⟨es, l, s, d⟩ := ih m' (by simpa using hl) (fun x hx => hm x (by simp [hx])) (fun x hx => hm' x (by simp [hx]))
        (fnvStep h b) (fnvStep h' b') (g * fnvPrime + (((h ^^^ b : Nat) : Int) - (h' ^^^ b' : Nat) - ((h : Int) - h'))) (by
          obtain ⟨q, hq⟩ := fnvStep_diff h h' b b'
          obtain ⟨r, hr⟩ := hg
          refine ⟨q + r * fnvPrime, ?_⟩
          have hr' := congrArg (· * (fnvPrime : Int)) hr

          linear_combination hq + hr')
      refine ⟨(((h ^^^ b : Nat) : Int) - (h' ^^^ b' : Nat) - ((h : Int) - h')) :: es, by simp [l], ?_, d⟩
      intro e he
      rcases List.mem_cons.1 he with rfl | he
      · constructor <;> omega
      · exact s e he

/-- The scheme at 315, with the derivative. -/
def hornerPair (s : Int × Int) (es : List Int) : Int × Int := es.foldl (fun s e => (s.1 * 315 + e, s.2 * 315 + s.1)) s

theorem hornerPair_fst (es : List Int) (s : Int × Int) : (hornerPair s es).1 = horner 315 s.1 es := by
  induction es generalizing s with
  | nil => rfl
  | cons e es ih => exact ih _

theorem horner_split (es : List Int) (g : Int) (s : Int × Int) (h : (2 ^ 128 : Int) ∣ g - (s.1 + 2 ^ 88 * s.2)) :
    (2 ^ 128 : Int) ∣ horner fnvPrime g es - ((hornerPair s es).1 + 2 ^ 88 * (hornerPair s es).2) := by
  induction es generalizing g s with
  | nil => exact h
  | cons e es ih =>
    refine ih (g * fnvPrime + e) (s.1 * 315 + e, s.2 * 315 + s.1) ?_
    obtain ⟨q, hq⟩ := h
    refine ⟨q * fnvPrime + 2 ^ 48 * s.2, ?_⟩
    have hP : (fnvPrime : Int) = 2 ^ 88 + 315 := by decide +kernel
    rw [hP]
    have hq' := congrArg (· * ((2 : Int) ^ 88 + 315)) hq
    simp only at hq' ⊢
    linear_combination hq'

theorem horner_bound (es : List Int) (hs : Small es) (a X : Int) (h1 : a + 2 ≤ X) (h2 : -a + 2 ≤ X) :
    horner 315 a es + 2 ≤ X * 315 ^ es.length ∧ -horner 315 a es + 2 ≤ X * 315 ^ es.length := by
  induction es generalizing a X with
  | nil => exact ⟨by simpa [horner] using h1, by simpa only [horner, List.foldl_nil, List.length_nil, pow_zero, mul_one] using h2⟩
  | cons e es ih =>
    obtain ⟨l, u⟩ := hs e (by simp)
    have := ih (fun x hx => hs x (by simp [hx])) (a * 315 + e) (X * 315) (by omega) (by omega)
    rw [List.length_cons, pow_succ, mul_comm (315 ^ es.length), ← mul_assoc]
    exact this

theorem horner_small (es : List Int) (hs : Small es) (a : Int) (h : -1 ≤ horner 315 a es ∧ horner 315 a es ≤ 1) : -1 ≤ a ∧ a ≤ 1 := by
  induction es generalizing a with
  | nil => exact h
  | cons e es ih =>
    obtain ⟨l, u⟩ := hs e (by simp)
    have := ih (fun x hx => hs x (by simp [hx])) (a * 315 + e) h
    omega

/-- No scheme that starts at `b` and has at most `k` further digits -1, 0 or 1 arrives at a multiple of `2^40`. -/
def noHit : Nat → Int → Bool
  | 0, b => b % 1099511627776 != 0
  | k + 1, b => b % 1099511627776 != 0 && noHit k (b * 315 + -1) && noHit k (b * 315 + 0) && noHit k (b * 315 + 1)

theorem noHit_one : noHit 8 1 = true := by decide +kernel
theorem noHit_minus : noHit 8 (-1) = true := by decide +kernel

theorem noHit_here (k : Nat) (b : Int) (h : noHit k b = true) : b % 1099511627776 ≠ 0 := by
  cases k <;> simp [noHit] at h <;> intro e <;> simp_all

theorem noHit_next (k : Nat) (b d : Int) (hd : -1 ≤ d ∧ d ≤ 1) (h : noHit (k + 1) b = true) : noHit k (b * 315 + d) = true := by
  simp only [noHit, Bool.and_eq_true] at h
  have : d = -1 ∨ d = 0 ∨ d = 1 := by omega
  rcases this with rfl | rfl | rfl
  · exact h.1.1.2
  · exact h.1.2
  · exact h.2

theorem derivative_no_hit (es : List Int) (hs : Small es) (k : Nat) (hk : es.length ≤ k) (a b : Int) (hb : noHit k b = true)
    (h : horner 315 a es = 0) : (hornerPair (a, b) es).2 % 1099511627776 ≠ 0 := by
  induction es generalizing k a b with
  | nil => exact noHit_here k b hb
  | cons e es ih =>
    cases k with
    | zero => simp at hk
    | succ k =>
      have ha := horner_small (e :: es) hs a (by omega)
      exact ih (fun x hx => hs x (by simp [hx])) k (by simpa using hk) (a * 315 + e) (b * 315 + a) (noHit_next k b a ha hb) h

theorem horner_ne (e : Int) (es : List Int) (h0 : e ≠ 0) (he : -510 ≤ e ∧ e ≤ 510) (hs : Small es) (hl : es.length ≤ 9) :
    ¬ (2 ^ 128 : Int) ∣ horner fnvPrime e es := by
  intro hd
  have h1 := dvd_sub hd (horner_split es e (e, 0) (by simp))
  rw [sub_sub_cancel, hornerPair_fst] at h1
  obtain ⟨b1, b2⟩ := horner_bound es hs e 512 (by omega) (by omega)
  have hp : (315 : Int) ^ es.length ≤ 315 ^ 9 := pow_le_pow_right₀ (by norm_num) hl
  simp only at h1
  generalize hA : horner 315 e es = A at h1 b1 b2
  generalize hB : (hornerPair (e, 0) es).2 = B at h1
  have hA0 : A = 0 := by
    norm_num at h1 hp
    generalize (315 : Int) ^ es.length = p at hp b1 b2
    omega
  subst hA0
  have ha := horner_small es hs e (by omega)
  cases es with
  | nil => exact h0 hA
  | cons x es =>
    have key : noHit 8 e = true := by
      have : e = -1 ∨ e = 1 := by omega
      rcases this with rfl | rfl
      · exact noHit_minus
      · exact noHit_one
    have := derivative_no_hit es (fun x hx => hs x (by simp [hx])) 8 (by simpa using hl) (e * 315 + x) e key hA
    have hB' : (hornerPair (e * 315 + x, e) es).2 = B := by
      rw [← hB]; simp [hornerPair]
    rw [hB'] at this
    norm_num at h1
    omega

/-- From one state, different sequences of at most ten bytes lead to different states. -/
theorem fold_fnvStep_ne (m m' : List Nat) (hl : m.length = m'.length) (h10 : m.length ≤ 10) (hm : ∀ b ∈ m, b < 256)
    (hm' : ∀ b ∈ m', b < 256) (hne : m ≠ m') (h : Nat) : m.foldl fnvStep h ≠ m'.foldl fnvStep h := by
  induction m generalizing m' h with
  | nil => cases m' with
    | nil => exact absurd rfl hne
    | cons => simp at hl
  | cons b m ih =>
    cases m' with
    | nil => simp at hl
    | cons b' m' =>
      by_cases hb : b = b'
      · subst hb
        exact ih m' (by simpa using hl) (by simp at h10; omega) (fun x hx => hm x (by simp [hx])) (fun x hx => hm' x (by simp [hx]))
          (fun e => hne (by rw [e])) _
      · intro e
        have n1 := xor_near h b (hm b (by simp))
        have n2 := xor_near h b' (hm' b' (by simp))
        have hx : h ^^^ b ≠ h ^^^ b' := fun e => hb (xor_cancel _ _ _ e)
        obtain ⟨es, l, s, d⟩ := fold_fnvStep_diff m m' (by simpa using hl) (fun x hx => hm x (by simp [hx]))
          (fun x hx => hm' x (by simp [hx])) (fnvStep h b) (fnvStep h b') (((h ^^^ b : Nat) : Int) - (h ^^^ b' : Nat)) (fnvStep_diff h h b b')
        rw [List.foldl_cons, List.foldl_cons] at e
        rw [e, sub_self, zero_sub, Int.dvd_neg] at d
        refine horner_ne _ es (by omega) (by omega) s ?_ (two_pow_dvd_mul_prime _ d)
        simp at h10; omega

theorem fnv128a_window (pre m m' post : List Nat) (hl : m.length = m'.length) (h10 : m.length ≤ 10) (hm : ∀ b ∈ m, b < 256)
    (hm' : ∀ b ∈ m', b < 256) (hp : ∀ b ∈ post, b < 256) (hne : m ≠ m') : fnv128a (pre ++ m ++ post) ≠ fnv128a (pre ++ m' ++ post) := by
  intro e
  simp only [fnv128a_fold, List.foldl_append] at e
  have h0 := fold_fnvStep_lt pre fnvOffset (by decide +kernel)
  exact fold_fnvStep_ne m m' hl h10 hm hm' hne _ (fold_fnvStep_inj post hp _ _ (fold_fnvStep_lt _ _ h0) (fold_fnvStep_lt _ _ h0) e)

/-! ## Hexadecimal digits -/

theorem mod_pow_of_digits (h h' k : Nat) (e : ∀ j, j < k → h / 256 ^ j % 256 = h' / 256 ^ j % 256) : h % 256 ^ k = h' % 256 ^ k := by
  induction k with
  | zero => simp [Nat.mod_one]
  | succ k ih => rw [Nat.mod_pow_succ, Nat.mod_pow_succ, ih (fun j hj => e j (by omega)), e k (by omega)]

theorem sumBytes_inj (h h' : Nat) (hh : h < 2 ^ 128) (hh' : h' < 2 ^ 128) (e : sumBytes h = sumBytes h') : h = h' := by
  have h2 : (2 : Nat) ^ 128 = 256 ^ 16 := by decide
  have := mod_pow_of_digits h h' 16 (by
    intro j hj
    have := congrArg (·[15 - j]?) e
    simp only [sumBytes, List.getElem?_map, List.getElem?_range (show 15 - j < 16 by omega), Option.map_some, Option.some.injEq] at this
    rwa [show 15 - (15 - j) = j by omega] at this)
  rwa [Nat.mod_eq_of_lt (h2 ▸ hh), Nat.mod_eq_of_lt (h2 ▸ hh')] at this

theorem hexDigit_inj : ∀ a < 16, ∀ b < 16, hexDigit a = hexDigit b → a = b := by decide +kernel

theorem hexEncode_inj (bs bs' : List Nat) (h : ∀ b ∈ bs, b < 256) (h' : ∀ b ∈ bs', b < 256) (e : hexEncode bs = hexEncode bs') : bs = bs' := by
  induction bs generalizing bs' with
  | nil => cases bs' with
    | nil => rfl
    | cons => simp [hexEncode] at e
  | cons b bs ih =>
    cases bs' with
    | nil => simp [hexEncode] at e
    | cons b' bs' =>
      have hb := h b (by simp)
      have hb' := h' b' (by simp)
      simp only [hexEncode, List.flatMap_cons, List.cons_append, List.nil_append, List.cons.injEq] at e
      have e1 := hexDigit_inj _ (by omega) _ (by omega) e.1
      have e2 := hexDigit_inj _ (by omega) _ (by omega) e.2.1
      rw [ih bs' (fun x hx => h x (by simp [hx])) (fun x hx => h' x (by simp [hx])) e.2.2, show b = b' by omega]

theorem bytesOf_append (s t : String) : bytesOf (s ++ t) = bytesOf s ++ bytesOf t := by
  simp [bytesOf]

theorem bytesOf_lt (s : String) : ∀ b ∈ bytesOf s, b < 256 := by
  intro b hb
  simp only [bytesOf, List.mem_flatMap, List.mem_map] at hb
  obtain ⟨c, _, u, _, rfl⟩ := hb
  exact u.toNat_lt

theorem bytesOf_map (s : String) : bytesOf s = (s.toList.flatMap String.utf8EncodeChar).map UInt8.toNat := by
  simp [bytesOf, List.map_flatMap]

theorem toByteArray_bytes (s : String) : s.toByteArray = (s.toList.flatMap String.utf8EncodeChar).toByteArray := by
  conv => lhs; rw [← String.ofList_toList (s := s)]
  rw [String.toByteArray_ofList]; rfl

theorem bytesOf_inj (s t : String) (e : bytesOf s = bytesOf t) : s = t := by
  rw [bytesOf_map, bytesOf_map] at e
  rw [← String.toByteArray_inj, toByteArray_bytes, toByteArray_bytes]
  exact congrArg _ (List.map_injective_iff.2 (fun a b h => UInt8.toNat_inj.1 h) e)

theorem bytesOf_length (s : String) : (bytesOf s).length = s.utf8ByteSize := by
  rw [bytesOf_map, List.length_map, ← String.size_toByteArray, toByteArray_bytes]
  simp

theorem fnvHex_eq (s t : String) (e : fnvHex s = fnvHex t) : fnv128a (bytesOf s) = fnv128a (bytesOf t) := by
  have e := congrArg String.toList e
  rw [fnvHex_toList, fnvHex_toList] at e
  have k : ∀ h, ∀ b ∈ sumBytes h, b < 256 := by
    intro h b hb
    simp only [sumBytes, List.mem_map] at hb
    obtain ⟨i, _, rfl⟩ := hb
    exact Nat.mod_lt _ (by decide)
  exact sumBytes_inj _ _ (fnv128a_lt _) (fnv128a_lt _) (hexEncode_inj _ _ (k _) (k _) e)

theorem fnvHex_window (a m m' z : String) (hl : m.utf8ByteSize = m'.utf8ByteSize) (h10 : m.utf8ByteSize ≤ 10) (hne : m ≠ m') :
    fnvHex (a ++ m ++ z) ≠ fnvHex (a ++ m' ++ z) := by
  intro e
  have e := fnvHex_eq _ _ e
  simp only [bytesOf_append] at e
  exact fnv128a_window _ _ _ _ (by rw [bytesOf_length, bytesOf_length, hl]) (by rw [bytesOf_length]; exact h10) (bytesOf_lt _) (bytesOf_lt _)
    (bytesOf_lt _) (fun h => hne (bytesOf_inj _ _ h)) e

end Telefacts
