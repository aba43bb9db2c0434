import Verif.Spec.Period
import Verif.Proof.Label
/-! # Lemmas on dates and periods -/
namespace Telefacts.Render
open Telefacts.Spec

/-! ## The calendar -/

theorem isLeap_iff (y : Nat) : isLeap y = true ↔ (4 ∣ y ∧ (100 ∣ y → 400 ∣ y)) := by
  simp only [isLeap, ne_eq, decide_not, Bool.and_eq_true, decide_eq_true_eq, Bool.or_eq_true, Bool.not_eq_true',
    decide_eq_false_iff_not]
  omega

theorem monthLength_iff (y m n : Nat) : MonthLength y m n ↔ 1 ≤ m ∧ m ≤ 12 ∧ n = daysIn m y := by
  unfold MonthLength
  rw [← isLeap_iff]
  unfold daysIn
  by_cases h2 : m = 2
  · subst h2
    cases isLeap y <;> simp
  · rw [if_neg h2]
    by_cases h30 : m = 4 ∨ m = 6 ∨ m = 9 ∨ m = 11
    · rw [if_pos h30]; omega
    · rw [if_neg h30]; omega

theorem daysIn_pos (m y : Nat) : 28 ≤ daysIn m y := by unfold daysIn; split <;> (try split) <;> omega
theorem daysIn_le (m y : Nat) : daysIn m y ≤ 31 := by unfold daysIn; split <;> (try split) <;> omega

theorem validDate_iff (a : Date) : ValidDate a ↔ 1 ≤ a.m ∧ a.m ≤ 12 ∧ 1 ≤ a.d ∧ a.d ≤ daysIn a.m a.y := by
  unfold ValidDate
  simp only [monthLength_iff]
  constructor
  · rintro ⟨n, ⟨h1, h2, rfl⟩, h3, h4⟩; exact ⟨h1, h2, h3, h4⟩
  · rintro ⟨h1, h2, h3, h4⟩; exact ⟨_, ⟨h1, h2, rfl⟩, h3, h4⟩

theorem nextDay_valid {a : Date} (h : ValidDate a) : ValidDate (nextDay a) := by
  rw [validDate_iff] at h ⊢
  unfold nextDay
  split
  · simp only; omega
  · split
    · have := daysIn_pos (a.m + 1) a.y; simp only; omega
    · have := daysIn_pos 1 (a.y + 1); simp only; omega

theorem dayAfter_iff {a : Date} (h : ValidDate a) (b : Date) : DayAfter a b ↔ b = nextDay a := by
  rw [validDate_iff] at h
  unfold DayAfter nextDay
  simp only [monthLength_iff]
  constructor
  · rintro ⟨n, ⟨_, _, rfl⟩, ⟨h3, rfl⟩ | ⟨h3, h4, rfl⟩ | ⟨h3, h4, rfl⟩⟩
    · rw [if_pos h3]
    · rw [if_neg (by omega), if_pos h4]
    · rw [if_neg (by omega), if_neg (by omega)]
  · rintro rfl
    refine ⟨_, ⟨h.1, h.2.1, rfl⟩, ?_⟩
    split
    · rename_i h3; exact .inl ⟨h3, rfl⟩
    · split
      · rename_i h3 h4; exact .inr (.inl ⟨by omega, h4, rfl⟩)
      · rename_i h3 h4; exact .inr (.inr ⟨by omega, by omega, rfl⟩)

theorem yearLength (y : Nat) : daysBeforeMonth y 12 + daysIn 12 y = if isLeap y then 366 else 365 := by
  simp only [daysBeforeMonth, daysIn]
  cases isLeap y <;> simp

theorem dayNumber_nextDay {a : Date} (h : ValidDate a) : dayNumber (nextDay a) = dayNumber a + 1 := by
  rw [validDate_iff] at h
  unfold nextDay dayNumber
  split
  · simp only; omega
  · split
    · have : daysBeforeMonth a.y (a.m + 1) = daysBeforeMonth a.y a.m + daysIn a.m a.y := by
        obtain ⟨k, hk⟩ : ∃ k, a.m = k + 1 := ⟨a.m - 1, by omega⟩
        rw [hk]; rfl
      simp only [this]; omega
    · have h12 : a.m = 12 := by omega
      have := yearLength a.y
      simp only [daysBeforeYear]
      rw [h12] at h ⊢
      have hd : a.d = daysIn 12 a.y := by rw [← h12] at h ⊢; omega
      have h1 : daysBeforeMonth (a.y + 1) 1 = 0 := rfl
      rw [h1]
      omega

theorem civil_valid (n : Nat) : ValidDate (civil n) := by
  induction n with
  | zero => rw [validDate_iff]; decide
  | succ n ih => exact nextDay_valid ih

theorem dayNumber_civil (n : Nat) : dayNumber (civil n) = n := by
  induction n with
  | zero => decide
  | succ n ih => rw [civil, dayNumber_nextDay (civil_valid n), ih]

theorem daysBeforeYear_mono {y z : Nat} (h : y ≤ z) : daysBeforeYear y ≤ daysBeforeYear z := by
  induction z with
  | zero => have : y = 0 := by omega
            rw [this]; exact Nat.le_refl _
  | succ z ih =>
    by_cases hz : y = z + 1
    · rw [hz]; exact Nat.le_refl _
    · exact Nat.le_trans (ih (by omega)) (by simp [daysBeforeYear])

theorem daysBeforeMonth_succ (y m : Nat) (h : 1 ≤ m) : daysBeforeMonth y (m + 1) = daysBeforeMonth y m + daysIn m y := by
  obtain ⟨k, rfl⟩ : ∃ k, m = k + 1 := ⟨m - 1, by omega⟩
  rfl

theorem daysBeforeMonth_mono (y : Nat) {m n : Nat} (h0 : 1 ≤ m) (h : m ≤ n) : daysBeforeMonth y m ≤ daysBeforeMonth y n := by
  induction n with
  | zero => omega
  | succ n ih =>
    by_cases hz : m = n + 1
    · rw [hz]; exact Nat.le_refl _
    · rw [daysBeforeMonth_succ y n (by omega)]
      have := ih (by omega)
      omega

theorem dayNumber_lt_year {a b : Date} (ha : ValidDate a) (h : a.y < b.y) :
    dayNumber a < dayNumber b := by
  rw [validDate_iff] at ha
  have h1 := daysBeforeYear_mono (show a.y + 1 ≤ b.y from h)
  have h2 := yearLength a.y
  have h3 := daysBeforeMonth_mono a.y (show 1 ≤ a.m + 1 by omega) (show a.m + 1 ≤ 13 by omega)
  rw [daysBeforeMonth_succ _ _ ha.1] at h3
  rw [daysBeforeMonth_succ _ 12 (by omega)] at h3
  simp only [daysBeforeYear] at h1
  unfold dayNumber
  omega

theorem dayNumber_lt_month {a b : Date} (ha : ValidDate a) (hy : a.y = b.y) (h : a.m < b.m) :
    dayNumber a < dayNumber b := by
  rw [validDate_iff] at ha
  have h3 := daysBeforeMonth_mono a.y (show 1 ≤ a.m + 1 by omega) (show a.m + 1 ≤ b.m by omega)
  rw [daysBeforeMonth_succ _ _ ha.1] at h3
  unfold dayNumber
  rw [← hy]
  omega

theorem dayNumber_inj {a b : Date} (ha : ValidDate a) (hb : ValidDate b) (h : dayNumber a = dayNumber b) : a = b := by
  rcases Nat.lt_trichotomy a.y b.y with hy | hy | hy
  · have := dayNumber_lt_year ha hy; omega
  · rcases Nat.lt_trichotomy a.m b.m with hm | hm | hm
    · have := dayNumber_lt_month ha hy hm; omega
    · rw [validDate_iff] at ha hb
      unfold dayNumber at h
      rw [hy, hm] at h
      obtain ⟨ay, am, ad⟩ := a
      obtain ⟨by_, bm, bd⟩ := b
      simp only at *
      subst hy hm
      congr 1
      omega
    · have := dayNumber_lt_month hb hy.symm hm; omega
  · have := dayNumber_lt_year hb hy; omega

theorem civil_dayNumber {a : Date} (h : ValidDate a) : civil (dayNumber a) = a :=
  dayNumber_inj (civil_valid _) h (dayNumber_civil _)

theorem daysAfter_iff {a : Date} (h : ValidDate a) (n : Nat) (b : Date) :
    DaysAfter a n b ↔ b = civil (dayNumber a + n) := by
  induction n generalizing b with
  | zero =>
    rw [Nat.add_zero, civil_dayNumber h]
    constructor
    · intro h; cases h; rfl
    · rintro rfl; exact .zero _
  | succ n ih =>
    constructor
    · intro hd
      cases hd with
      | succ _ b' _ h1 h2 =>
        rw [ih] at h1
        subst h1
        rw [dayAfter_iff (civil_valid _)] at h2
        rw [h2]; rfl
    · rintro rfl
      exact .succ _ _ _ _ ((ih _).2 rfl) ((dayAfter_iff (civil_valid _) _).2 rfl)

/-! ## Counting months -/

/-- The number of a month. -/
def monthIdx (a : Date) : Nat := 12 * a.y + a.m

theorem monthIdx_nextDay {a : Date} (h : ValidDate a) :
    ((nextDay a).m = a.m ∧ monthIdx (nextDay a) = monthIdx a) ∨
      ((nextDay a).m ≠ a.m ∧ monthIdx (nextDay a) = monthIdx a + 1) := by
  rw [validDate_iff] at h
  unfold nextDay monthIdx
  split
  · exact .inl ⟨rfl, rfl⟩
  · split
    · right; simp only; omega
    · right; simp only; omega

theorem monthIdx_mono {n k : Nat} : monthIdx (civil n) ≤ monthIdx (civil (n + k)) := by
  induction k with
  | zero => exact Nat.le_refl _
  | succ k ih =>
    rw [← Nat.add_assoc, civil]
    rcases monthIdx_nextDay (civil_valid (n + k)) with h | h <;> omega

theorem monthLoop_eq (k start months : Nat) :
    monthLoop start (start + k) (civil start).m months =
      months + (monthIdx (civil (start + k)) - monthIdx (civil start)) := by
  induction k generalizing start months with
  | zero => rw [monthLoop]; simp
  | succ k ih =>
    rw [monthLoop, if_pos (by omega)]
    simp only
    have e : start + (k + 1) = start + 1 + k := by omega
    rw [e, ih]
    have hm : monthIdx (civil (start + 1)) ≤ monthIdx (civil (start + 1 + k)) := monthIdx_mono
    rcases monthIdx_nextDay (civil_valid start) with ⟨h1, h2⟩ | ⟨h1, h2⟩
    · rw [if_neg (by rw [civil]; simp [h1])]
      rw [civil] at hm ⊢
      rw [h2]
    · rw [if_pos (by rw [civil]; exact h1)]
      rw [civil] at hm ⊢
      omega

theorem monthCount_far {s e : Nat} (h : s + 30 ≤ e) :
    (monthCount s e : Int) = monthsApart (civil s) (civil e) + 1 := by
  unfold monthCount
  rw [if_neg (by omega)]
  obtain ⟨k, rfl⟩ : ∃ k, e = s + k := ⟨e - s, by omega⟩
  rw [monthLoop_eq]
  have := @monthIdx_mono s k
  unfold monthsApart
  unfold monthIdx at this ⊢
  omega

theorem monthCount_near {s e : Nat} (h : e < s + 30) : monthCount s e = 0 := by
  unfold monthCount
  rw [if_pos (by omega)]

theorem monthCount_pos {s e : Nat} (h : s + 30 ≤ e) : 1 ≤ monthCount s e := by
  unfold monthCount
  rw [if_neg (by omega)]
  obtain ⟨k, rfl⟩ : ∃ k, e = s + k := ⟨e - s, by omega⟩
  rw [monthLoop_eq]
  omega

/-! ## ISO texts -/

theorem digitOf_iff (c : Char) (n : Nat) : digitOf c = some n ↔ n < 10 ∧ c = Char.ofNat (48 + n) := by
  unfold digitOf
  constructor
  · intro h
    split at h
    · rename_i hc
      have h' := Option.some.inj h
      refine ⟨by omega, ?_⟩
      rw [show 48 + n = c.toNat by omega]
      exact (Char.ofNat_toNat c).symm
    · simp at h
  · rintro ⟨h, rfl⟩
    have : (Char.ofNat (48 + n)).toNat = 48 + n := by
      unfold Char.ofNat
      rw [dif_pos (by left; omega)]
      rfl
    rw [this, if_pos (by omega)]
    simp

theorem guard_iff {p : Prop} [Decidable p] (u : Unit) : (guard p : Option Unit) = some u ↔ p := by
  by_cases h : p <;> simp [guard, h]

theorem parseISO_iff (s : String) (a : Date) : parseISO s = some a ↔ IsoText s a := by
  unfold IsoText parseISO
  rw [validDate_iff]
  constructor
  · intro h
    split at h
    · rename_i l y1 y2 y3 y4 s1 m1 m2 s2 d1 d2 hl
      simp only [bind, Option.bind_eq_some_iff, guard_iff, pure, Option.some.injEq, digitOf_iff] at h
      obtain ⟨y1', ⟨g1, rfl⟩, y2', ⟨g2, rfl⟩, y3', ⟨g3, rfl⟩, y4', ⟨g4, rfl⟩, _, rfl, m1', ⟨g5, rfl⟩, m2', ⟨g6, rfl⟩, _, hm, _, rfl,
        d1', ⟨g7, rfl⟩, d2', ⟨g8, rfl⟩, _, hd, rfl⟩ := h
      exact ⟨⟨hm.1, hm.2, hd.1, hd.2⟩, by simp only; omega, y1', y2', y3', y4', m1', m2', d1', d2', g1, g2, g3, g4, g5, g6, g7, g8,
        rfl, rfl, rfl, hl⟩
    · simp at h
  · rintro ⟨hv, _, y1, y2, y3, y4, m1, m2, d1, d2, g1, g2, g3, g4, g5, g6, g7, g8, hy, hm, hd, hl⟩
    rw [hl]
    simp only [bind, Option.bind_eq_some_iff, guard_iff, pure, Option.some.injEq, digitOf_iff]
    rw [hm, hd, hy] at hv
    refine ⟨y1, ⟨g1, rfl⟩, y2, ⟨g2, rfl⟩, y3, ⟨g3, rfl⟩, y4, ⟨g4, rfl⟩, (), trivial, m1, ⟨g5, rfl⟩, m2, ⟨g6, rfl⟩, (), ⟨hv.1, hv.2.1⟩, (), trivial,
      d1, ⟨g7, rfl⟩, d2, ⟨g8, rfl⟩, (), ⟨hv.2.2.1, hv.2.2.2⟩, ?_⟩
    obtain ⟨y, m, d⟩ := a
    simp only at hy hm hd
    rw [hy, hm, hd]

theorem parseISO_none (s : String) : parseISO s = none ↔ ∀ a, ¬ IsoText s a := by
  constructor
  · intro h a ha
    rw [← parseISO_iff, h] at ha
    simp at ha
  · intro h
    cases hp : parseISO s with
    | none => rfl
    | some a => exact absurd ((parseISO_iff s a).1 hp) (h a)

/-! ## English dates -/

theorem digitChar_inj {a b : Nat} (ha : a < 10) (hb : b < 10) (h : digitChar a = digitChar b) : a = b := by
  have h1 := (digitOf_iff (digitChar a) a).2 ⟨ha, rfl⟩
  have h2 := (digitOf_iff (digitChar b) b).2 ⟨hb, rfl⟩
  rw [h, h2] at h1
  exact (Option.some.inj h1).symm

theorem year4_inj {a b : Nat} (ha : a < 10000) (hb : b < 10000) (h : year4 a = year4 b) : a = b := by
  unfold year4 at h
  have h := String.ofList_injective h
  simp only [List.cons.injEq, and_true] at h
  have h1 := digitChar_inj (by omega) (by omega) h.1
  have h2 := digitChar_inj (by omega) (by omega) h.2.1
  have h3 := digitChar_inj (by omega) (by omega) h.2.2.1
  have h4 := digitChar_inj (by omega) (by omega) h.2.2.2
  omega

theorem day12_inj {a b : Nat} (ha : a < 100) (hb : b < 100) (h : day12 a = day12 b) : a = b := by
  unfold day12 at h
  split at h <;> split at h <;> have h := String.ofList_injective h <;> simp only [List.cons.injEq, and_true, reduceCtorEq,
    and_false, List.nil_eq] at h
  · exact digitChar_inj (by omega) (by omega) h
  · have h1 := digitChar_inj (by omega) (by omega) h.1
    have h2 := digitChar_inj (by omega) (by omega) h.2
    omega

theorem digitChar_ne {n : Nat} (h : n < 10) (c : Char) (hc : c.toNat < 48) : digitChar n ≠ c := by
  intro he
  have h1 := (digitOf_iff (digitChar n) n).2 ⟨h, rfl⟩
  rw [he] at h1
  unfold digitOf at h1
  rw [if_neg (by omega)] at h1
  simp at h1

theorem day12_no_comma {n : Nat} (h : n < 100) : ',' ∉ (day12 n).toList := by
  unfold day12
  split
  · simp only [String.toList_ofList, List.mem_cons, List.not_mem_nil, or_false]
    intro hc; exact digitChar_ne (by omega) ',' (by decide) hc.symm
  · simp only [String.toList_ofList, List.mem_cons, List.not_mem_nil, or_false]
    rintro (hc | hc) <;> exact digitChar_ne (by omega) ',' (by decide) hc.symm

theorem cut_unique {c : Char} {a a' b b' : String} (h : a ++ String.singleton c ++ b = a' ++ String.singleton c ++ b')
    (ha : c ∉ a.toList) (ha' : c ∉ a'.toList) : a = a' ∧ b = b' := by
  have h1 : cut c (a ++ String.singleton c ++ b) = some (a, b) := cut_eq_some.2 ⟨rfl, ha⟩
  have h2 : cut c (a' ++ String.singleton c ++ b') = some (a', b') := cut_eq_some.2 ⟨rfl, ha'⟩
  rw [h, h2] at h1
  cases h1
  exact ⟨rfl, rfl⟩

theorem monthName_no_space (m : Nat) : ' ' ∉ (monthName m).toList := by
  unfold monthName; split <;> decide

theorem monthName_inj {a b : Nat} (ha : 1 ≤ a) (ha' : a ≤ 12) (hb : 1 ≤ b) (hb' : b ≤ 12) (h : monthName a = monthName b) :
    a = b := by
  have key : ∀ a < 13, ∀ b < 13, 1 ≤ a → 1 ≤ b → monthName a = monthName b → a = b := by decide
  exact key a (by omega) b (by omega) ha hb h

theorem englishDate_inj {a b : Date} (ha : ValidDate a) (hb : ValidDate b) (hya : a.y < 10000) (hyb : b.y < 10000)
    (h : englishDate a = englishDate b) : a = b := by
  rw [validDate_iff] at ha hb
  have d1 := daysIn_le a.m a.y
  have d2 := daysIn_le b.m b.y
  unfold englishDate at h
  have e : ∀ x : Date, monthName x.m ++ " " ++ day12 x.d ++ ", " ++ year4 x.y =
      monthName x.m ++ String.singleton ' ' ++ (day12 x.d ++ String.singleton ',' ++ (" " ++ year4 x.y)) := by
    intro x
    apply String.toList_injective
    simp
  rw [e, e] at h
  obtain ⟨hm, h⟩ := cut_unique h (monthName_no_space _) (monthName_no_space _)
  obtain ⟨hd, hy⟩ := cut_unique h (day12_no_comma (by omega)) (day12_no_comma (by omega))
  have hy : year4 a.y = year4 b.y := by
    have hy := congrArg String.toList hy
    simp only [String.toList_append, List.append_cancel_left_eq] at hy
    exact String.toList_injective hy
  have hm := monthName_inj ha.1 ha.2.1 hb.1 hb.2.1 hm
  have hd := day12_inj (by omega) (by omega) hd
  have hy := year4_inj hya hyb hy
  obtain ⟨ay, am, ad⟩ := a
  obtain ⟨by_, bm, bd⟩ := b
  simp only at hm hd hy
  rw [hm, hd, hy]

/-! ## Headers -/

theorem formatHeader_get (spanish : Date → Option String) (langs : List Lang) (ctx : LanguagePack) (pure : String)
    (h : mapGet ctx PureLabel = some pure) (lang : Lang) :
    mapGet (formatHeader spanish langs ctx) lang =
      if lang ≠ PureLabel ∧ lang ∈ langs then some (formatDate spanish lang pure) else mapGet ctx lang := by
  unfold formatHeader
  rw [h]
  simp only
  induction langs using snocInd with
  | nil => simp
  | snoc ls x ih =>
    rw [List.foldl_append, List.foldl_cons, List.foldl_nil]
    by_cases hx : x = PureLabel
    · rw [if_pos hx, ih]
      by_cases hl : lang = PureLabel
      · simp [hl]
      · have : lang ∈ ls ++ [x] ↔ lang ∈ ls := by
          simp only [List.mem_append, List.mem_singleton, or_iff_left_iff_imp]
          intro h; rw [h] at hl; exact absurd hx hl
        simp only [this]
    · rw [if_neg hx, mapGet_mapSet]
      by_cases hl : x = lang
      · subst hl
        rw [if_pos rfl, if_pos ⟨hx, by simp⟩]
      · rw [if_neg hl, ih]
        have : lang ∈ ls ++ [x] ↔ lang ∈ ls := by
          simp [Ne.symm hl]
        simp only [this]

end Telefacts.Render
