import Verif.Props.Period
/-! # C141, C142: durations in words -/
namespace Telefacts
open Telefacts.Render Telefacts.Instance Telefacts.Spec

/-- From the first day of a month to the last day of a month, `n` months in all. -/
def WholeMonths (a : Date) (n : Nat) (b : Date) : Prop := a.d = 1 ∧ MonthLength b.y b.m b.d ∧ monthsApart a b + 1 = n ∧ 1 ≤ n

theorem whole_far {a b : Date} (ha : ValidDate a) (hb : ValidDate b) {n : Nat} (h : WholeMonths a n b) (hn : 2 ≤ n ∨ b.d = 31) :
    dayNumber a + 30 ≤ dayNumber b := by
  obtain ⟨h1, h2, h3, h4⟩ := h
  rw [validDate_iff] at ha hb
  rw [monthLength_iff] at h2
  unfold monthsApart at h3
  have la := daysIn_pos a.m a.y
  have lb := daysIn_pos b.m b.y
  by_cases hn1 : n = 1
  · have hm : a.y = b.y ∧ a.m = b.m := by omega
    have hd : b.d = 31 := by omega
    unfold dayNumber
    rw [hm.1, hm.2, h1, hd]
    omega
  · have va : ValidDate ⟨a.y, a.m, daysIn a.m a.y⟩ := (validDate_iff _).2 ⟨ha.1, ha.2.1, by show 1 ≤ daysIn a.m a.y; omega, Nat.le_refl _⟩
    have hlt : dayNumber ⟨a.y, a.m, daysIn a.m a.y⟩ < dayNumber ⟨b.y, b.m, 1⟩ := by
      by_cases hy : a.y < b.y
      · exact dayNumber_lt_year va hy
      · exact dayNumber_lt_month va (by show a.y = b.y; omega) (by show a.m < b.m; omega)
    unfold dayNumber at hlt ⊢
    simp only at hlt
    omega

theorem whole_near {a b : Date} (ha : ValidDate a) (hb : ValidDate b) (h : WholeMonths a 1 b) (hn : b.d ≠ 31) :
    dayNumber b < dayNumber a + 30 := by
  obtain ⟨h1, h2, h3, h4⟩ := h
  rw [validDate_iff] at ha hb
  rw [monthLength_iff] at h2
  unfold monthsApart at h3
  have lb := daysIn_le b.m b.y
  have hm : a.y = b.y ∧ a.m = b.m := by omega
  unfold dayNumber
  rw [hm.1, hm.2, h1]
  omega

/-- Thirty or more days. -/
def Far (a b : Date) : Prop := ∃ n, 30 ≤ n ∧ DaysAfter a n b

theorem Far_iff {a b : Date} (ha : ValidDate a) (hb : ValidDate b) : Far a b ↔ dayNumber a + 30 ≤ dayNumber b := by
  constructor
  · rintro ⟨n, hn, hd⟩
    rw [daysAfter_iff ha] at hd
    rw [hd, dayNumber_civil]
    omega
  · intro h
    refine ⟨dayNumber b - dayNumber a, by omega, ?_⟩
    rw [daysAfter_iff ha, show dayNumber a + (dayNumber b - dayNumber a) = dayNumber b by omega, civil_dayNumber hb]

/-- **C141 (partial).** A duration of `n` whole calendar months, from the first day of a month to the last day of a month, is headed
in English by `n` and its last day, if it has two or more months or is a month of 31 days. Missing: the other single months, and
durations that do not begin and end with a month (`C141_fails`). -/
theorem C141_months_partial (spanish : Date → Option String) {s e : String} {a b : Date} (hs : IsoText s a) (he : IsoText e b)
    (n : Nat) (h : WholeMonths a n b) (hn : 2 ≤ n ∨ b.d = 31) (d : String) (hd : EnglishText b d) :
    formatDate spanish "en - english" (s ++ "/" ++ e) = (if n = 1 then "1 month ended " else toString n ++ " months ended ") ++ d := by
  obtain ⟨m, hm, hda⟩ := (Far_iff hs.1 he.1).2 (whole_far hs.1 he.1 h hn)
  obtain ⟨k, hk, _, ht, _⟩ := (C53_months spanish hs he).2.1 m hm hda
  rw [ht d hd]
  obtain ⟨_, _, h3, _⟩ := h
  rw [show k = n by omega]

theorem months_example : IsoText "2019-01-01" ⟨2019, 1, 1⟩ ∧ IsoText "2019-12-31" ⟨2019, 12, 31⟩ ∧ IsoText "2019-04-01" ⟨2019, 4, 1⟩ ∧
    IsoText "2019-04-30" ⟨2019, 4, 30⟩ ∧ IsoText "2018-12-30" ⟨2018, 12, 30⟩ ∧ IsoText "2019-12-28" ⟨2019, 12, 28⟩ ∧
    IsoText "2019-01-20" ⟨2019, 1, 20⟩ := by
  simp only [← parseISO_iff]; decide

example : WholeMonths ⟨2019, 1, 1⟩ 12 ⟨2019, 12, 31⟩ ∧
    formatDate (fun _ => none) "en - english" ("2019-01-01" ++ "/" ++ "2019-12-31") = "12 months ended December 31, 2019" := by
  obtain ⟨h1, h2, _⟩ := months_example
  have hw : WholeMonths ⟨2019, 1, 1⟩ 12 ⟨2019, 12, 31⟩ := ⟨rfl, by unfold MonthLength; simp, by decide, by omega⟩
  refine ⟨hw, ?_⟩
  rw [C141_months_partial _ h1 h2 12 hw (.inl (by omega)) _ ((englishText_iff h2.1 h2.2.1 _).2 rfl)]
  decide

/-- **C141 (fails).** A calendar month of fewer than 31 days is not headed by "1 month" but by its two dates, whichever month it is. A
fiscal year of 52 weeks is headed by "13 months". -/
theorem C141_fails (spanish : Date → Option String) :
    (∀ s e a b, IsoText s a → IsoText e b → WholeMonths a 1 b → b.d ≠ 31 →
      formatDate spanish "en - english" (s ++ "/" ++ e) = s ++ "/" ++ e) ∧
    WholeMonths ⟨2019, 4, 1⟩ 1 ⟨2019, 4, 30⟩ ∧
    formatDate spanish "en - english" ("2019-04-01" ++ "/" ++ "2019-04-30") = "2019-04-01" ++ "/" ++ "2019-04-30" ∧
    DaysAfter ⟨2018, 12, 30⟩ (52 * 7 - 1) ⟨2019, 12, 28⟩ ∧
    formatDate spanish "en - english" ("2018-12-30" ++ "/" ++ "2019-12-28") = "13 months ended December 28, 2019" := by
  obtain ⟨_, _, h3, h4, h5, h6, _⟩ := months_example
  have hall : ∀ s e a b, IsoText s a → IsoText e b → WholeMonths a 1 b → b.d ≠ 31 →
      formatDate spanish "en - english" (s ++ "/" ++ e) = s ++ "/" ++ e := by
    intro s e a b hs he hw hd
    refine ((C53_months spanish hs he).2.2 fun n hn hda => ?_).1
    have := (Far_iff hs.1 he.1).1 ⟨n, hn, hda⟩
    have := whole_near hs.1 he.1 hw hd
    omega
  have hw : WholeMonths ⟨2019, 4, 1⟩ 1 ⟨2019, 4, 30⟩ := ⟨rfl, by unfold MonthLength; simp, by decide, by omega⟩
  have hd : DaysAfter ⟨2018, 12, 30⟩ (52 * 7 - 1) ⟨2019, 12, 28⟩ := by
    rw [daysAfter_iff h5.1]
    have : dayNumber ⟨2018, 12, 30⟩ + (52 * 7 - 1) = dayNumber ⟨2019, 12, 28⟩ := by decide +kernel
    rw [this, civil_dayNumber h6.1]
  refine ⟨hall, hw, hall _ _ _ _ h3 h4 hw (by decide), hd, ?_⟩
  obtain ⟨k, hk, _, ht, _⟩ := (C53_months spanish h5 h6).2.1 _ (by omega) hd
  rw [ht _ ((englishText_iff h6.1 h6.2.1 _).2 rfl)]
  have hk : k = 13 := by
    have : monthsApart ⟨2018, 12, 30⟩ ⟨2019, 12, 28⟩ = 12 := by decide
    omega
  rw [hk]
  decide

/-! ## C142 -/

theorem toString_inj {m n : Nat} (h : toString m = toString n) : m = n := by
  have h := congrArg String.toList h
  rw [Nat.toString_eq_repr, Nat.toString_eq_repr, Nat.toList_repr, Nat.toList_repr] at h
  have h := congrArg (fun l => Nat.ofDigitChars 10 l 0) h
  simpa only [Nat.ofDigitChars_ten_toDigits] using h

theorem toString_no_space (n : Nat) : ' ' ∉ (toString n).toList := by
  rw [Nat.toString_eq_repr, Nat.toList_repr]
  intro h
  have := Nat.isDigit_of_mem_toDigits (by omega) (by omega) h
  exact absurd this (by decide)

/-- A duration written with two dates. -/
def Lasts (p : String) (a b : Date) : Prop := ∃ s e, p = s ++ "/" ++ e ∧ IsoText s a ∧ IsoText e b

theorem worded_eq (spanish : Date → Option String) {p : String} {a b : Date} (h : Lasts p a b) (hf : Far a b) :
    ∃ k : Nat, (k : Int) = monthsApart a b + 1 ∧ formatDate spanish "en - english" p =
      toString k ++ String.singleton ' ' ++ ((if k = 1 then "month ended " else "months ended ") ++ englishDate b) := by
  obtain ⟨s, e, rfl, hs, he⟩ := h
  obtain ⟨n, hn, hd⟩ := hf
  obtain ⟨k, hk, _, ht, _⟩ := (C53_months spanish hs he).2.1 n hn hd
  refine ⟨k, hk, ?_⟩
  rw [ht _ ((englishText_iff he.1 he.2.1 _).2 rfl)]
  apply String.toList_injective
  by_cases h1 : k = 1
  · subst h1
    simp only [if_true, String.toList_append]
    rfl
  · simp only [if_neg h1, String.toList_append, List.append_assoc, List.append_cancel_left_eq]
    rfl

theorem raw_eq (spanish : Date → Option String) {p : String} {a b : Date} (h : Lasts p a b) (hf : ¬ Far a b) :
    formatDate spanish "en - english" p = p := by
  obtain ⟨s, e, rfl, hs, he⟩ := h
  exact ((C53_months spanish hs he).2.2 fun n hn hd => hf ⟨n, hn, hd⟩).1

theorem iso_no_space {s : String} {a : Date} (h : IsoText s a) : ' ' ∉ s.toList := by
  obtain ⟨_, _, y1, y2, y3, y4, m1, m2, d1, d2, g1, g2, g3, g4, g5, g6, g7, g8, _, _, _, hl⟩ := h
  rw [hl]
  have key : ∀ n, n < 10 → ' ' ≠ Char.ofNat (48 + n) := fun n hn he => digitChar_ne hn ' ' (by decide) he.symm
  have kd : ' ' ≠ '-' := by decide
  simp [key _ g1, key _ g2, key _ g3, key _ g4, key _ g5, key _ g6, key _ g7, key _ g8, kd]

theorem lasts_no_space {p : String} {a b : Date} (h : Lasts p a b) : ' ' ∉ p.toList := by
  obtain ⟨s, e, rfl, hs, he⟩ := h
  have h1 := iso_no_space hs
  have h2 := iso_no_space he
  simp only [String.toList_append, List.mem_append]
  rintro ((h | h) | h)
  · exact h1 h
  · exact absurd h (by decide)
  · exact h2 h

theorem Lasts.unique {p : String} {a b a' b' : Date} (h : Lasts p a b) (h' : Lasts p a' b') : a = a' ∧ b = b' := by
  obtain ⟨s, e, rfl, hs, he⟩ := h
  obtain ⟨s', e', hp, hs', he'⟩ := h'
  have hc := cut_duration hs' e'
  rw [← hp, cut_duration hs] at hc
  cases hc
  exact ⟨isoText_unique hs hs', isoText_unique he he'⟩

/-- **C142 (exact).** Two durations have the same English header exactly if they are written alike, or if both last 30 days or more, end
on the same day and begin in the same month. No duration has the header of an instant. -/
theorem C142_exact (spanish : Date → Option String) {p q : String} {a b a' b' : Date} (hp : Lasts p a b) :
    (Lasts q a' b' → (formatDate spanish "en - english" p = formatDate spanish "en - english" q ↔
      p = q ∨ (Far a b ∧ Far a' b' ∧ b = b' ∧ a.y = a'.y ∧ a.m = a'.m))) ∧
    (IsoText q b' → formatDate spanish "en - english" p ≠ formatDate spanish "en - english" q) := by
  constructor
  · intro hq
    by_cases h1 : Far a b <;> by_cases h2 : Far a' b'
    · obtain ⟨k, hk, e1⟩ := worded_eq spanish hp h1
      obtain ⟨k', hk', e2⟩ := worded_eq spanish hq h2
      rw [e1, e2]
      obtain ⟨s, e, rfl, hs, he⟩ := hp
      obtain ⟨s', e', rfl, hs', he'⟩ := hq
      have va := (validDate_iff _).1 hs.1
      have va' := (validDate_iff _).1 hs'.1
      unfold monthsApart at hk hk'
      constructor
      · intro h
        obtain ⟨hkk, h⟩ := cut_unique h (toString_no_space _) (toString_no_space _)
        have hkk := toString_inj hkk
        subst hkk
        have hb : b = b' := by
          apply englishDate_inj he.1 he'.1 he.2.1 he'.2.1
          have h := congrArg String.toList h
          simp only [String.toList_append, List.append_cancel_left_eq] at h
          exact String.toList_injective h
        subst hb
        exact .inr ⟨h1, h2, rfl, by omega, by omega⟩
      · rintro (h | ⟨_, _, rfl, hy, hm⟩)
        · obtain ⟨rfl, rfl⟩ := Lasts.unique (a' := a') (b' := b') ⟨s, e, rfl, hs, he⟩ ⟨s', e', h, hs', he'⟩
          rw [show k = k' by omega]
        · rw [show k = k' by omega]
    · obtain ⟨k, hk, e1⟩ := worded_eq spanish hp h1
      rw [e1, raw_eq spanish hq h2]
      constructor
      · intro h
        exfalso
        apply lasts_no_space hq
        rw [← h]
        simp
      · rintro (rfl | h)
        · obtain ⟨rfl, rfl⟩ := Lasts.unique hp hq
          exact absurd h1 h2
        · exact absurd h.2.1 h2
    · obtain ⟨k, hk, e1⟩ := worded_eq spanish hq h2
      rw [e1, raw_eq spanish hp h1]
      constructor
      · intro h
        exfalso
        apply lasts_no_space hp
        rw [h]
        simp
      · rintro (rfl | h)
        · obtain ⟨rfl, rfl⟩ := Lasts.unique hp hq
          exact absurd h2 h1
        · exact absurd h.1 h1
    · rw [raw_eq spanish hp h1, raw_eq spanish hq h2]
      exact ⟨.inl, fun h => h.elim (·) fun h => absurd h.1 h1⟩
  · intro hq h
    obtain ⟨d, hd, e2⟩ := (C55_english spanish).2.2.1 q b' hq
    rw [e2] at h
    by_cases h1 : Far a b
    · obtain ⟨k, hk, e1⟩ := worded_eq spanish hp h1
      rw [e1] at h
      have h : toString k ++ String.singleton ' ' ++ ((if k = 1 then "month ended " else "months ended ") ++ englishDate b) =
          "as" ++ String.singleton ' ' ++ ("of " ++ d) := by
        rw [h]
        apply String.toList_injective
        simp only [String.toList_append, List.append_assoc]
        rfl
      obtain ⟨hk, _⟩ := cut_unique h (toString_no_space _) (by decide)
      have hm : 'a' ∈ (toString k).toList := by rw [hk]; decide
      rw [Nat.toString_eq_repr, Nat.toList_repr] at hm
      exact absurd (Nat.isDigit_of_mem_toDigits (by omega) (by omega) hm) (by decide)
    · rw [raw_eq spanish hp h1] at h
      apply lasts_no_space hp
      rw [h]
      simp only [String.toList_append, List.mem_append]
      exact .inl (by decide)

/-- **C142 (partial).** Durations that begin with the first day of a month have different English headers if they are different.
Missing: other durations (`C142_fails`, and `C142_exact` says which). -/
theorem C142_partial (spanish : Date → Option String) {p q : String} {a b a' b' : Date} (hp : Lasts p a b) (hq : Lasts q a' b')
    (h1 : a.d = 1) (h2 : a'.d = 1) (h : formatDate spanish "en - english" p = formatDate spanish "en - english" q) :
    a = a' ∧ b = b' := by
  rcases ((C142_exact spanish hp).1 hq).1 h with rfl | ⟨_, _, hb, hy, hm⟩
  · exact Lasts.unique hp hq
  · refine ⟨?_, hb⟩
    obtain ⟨y, m, d⟩ := a
    obtain ⟨y', m', d'⟩ := a'
    simp only at hy hm h1 h2
    rw [hy, hm, h1, h2]

example : Lasts "2019-01-01/2019-12-31" ⟨2019, 1, 1⟩ ⟨2019, 12, 31⟩ ∧ Lasts "2019-04-01/2019-12-31" ⟨2019, 4, 1⟩ ⟨2019, 12, 31⟩ := by
  obtain ⟨h1, h2, h3, _⟩ := months_example
  exact ⟨⟨"2019-01-01", "2019-12-31", by decide, h1, h2⟩, ⟨"2019-04-01", "2019-12-31", by decide, h3, h2⟩⟩

/-- **C142 (fails).** The durations from the first and from the 20th of January 2019 to the end of that year have one header. -/
theorem C142_fails (spanish : Date → Option String) :
    formatDate spanish "en - english" "2019-01-01/2019-12-31" = formatDate spanish "en - english" "2019-01-20/2019-12-31" := by
  obtain ⟨h1, h2, _, _, _, _, h7⟩ := months_example
  refine ((C142_exact spanish (a' := ⟨2019, 1, 20⟩) (b' := ⟨2019, 12, 31⟩)
    ⟨"2019-01-01", "2019-12-31", by decide, h1, h2⟩).1 ⟨"2019-01-20", "2019-12-31", by decide, h7, h2⟩).2
    (.inr ⟨(Far_iff h1.1 h2.1).2 (by decide +kernel), (Far_iff h7.1 h2.1).2 (by decide +kernel), rfl, rfl, rfl⟩)

end Telefacts
