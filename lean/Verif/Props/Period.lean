import Verif.Proof.PeriodText
import Verif.Spec.Context
/-! # C53 - C55: periods -/
namespace Telefacts
open Telefacts.Render Telefacts.Instance Telefacts.Spec

theorem iso_no_slash {s : String} {a : Date} (h : IsoText s a) : '/' ∉ s.toList := by
  obtain ⟨_, _, y1, y2, y3, y4, m1, m2, d1, d2, g1, g2, g3, g4, g5, g6, g7, g8, _, _, _, hl⟩ := h
  rw [hl]
  have key : ∀ n, n < 10 → '/' ≠ Char.ofNat (48 + n) := fun n hn he => digitChar_ne hn '/' (by decide) he.symm
  have kd : '/' ≠ '-' := by decide
  simp [key _ g1, key _ g2, key _ g3, key _ g4, key _ g5, key _ g6, key _ g7, key _ g8, kd]

theorem iso_ne_empty {s : String} {a : Date} (h : IsoText s a) : s ≠ "" := by
  rintro rfl
  obtain ⟨_, _, y1, y2, y3, y4, m1, m2, d1, d2, _, _, _, _, _, _, _, _, _, _, _, hl⟩ := h
  simp at hl

theorem cut_duration {s : String} {a : Date} (h : IsoText s a) (e : String) : cut '/' (s ++ "/" ++ e) = some (s, e) :=
  cut_eq_some.2 ⟨rfl, iso_no_slash h⟩

/-- **C53.** For the duration from one valid ISO date to another: when the second is 30 or more days after the first,
the English and Spanish texts show the distance of their months plus one; otherwise
the period is shown as it is written. -/
theorem C53_months (spanish : Date → Option String) {s e : String} {a b : Date} (hs : IsoText s a) (he : IsoText e b) :
    (∃ d, EnglishText b d) ∧
    (∀ n, 30 ≤ n → DaysAfter a n b → ∃ k : Nat, (k : Int) = monthsApart a b + 1 ∧ 1 ≤ k ∧
      (∀ d, EnglishText b d → formatDate spanish "en - english" (s ++ "/" ++ e) =
        (if k = 1 then "1 month ended " else toString k ++ " months ended ") ++ d) ∧
      (∀ t, spanish b = some t → formatDate spanish "es - español" (s ++ "/" ++ e) =
        (if k = 1 then "un mes terminado al " else toString k ++ " meses terminados al ") ++ t)) ∧
    ((∀ n, 30 ≤ n → ¬ DaysAfter a n b) →
      formatDate spanish "en - english" (s ++ "/" ++ e) = s ++ "/" ++ e ∧
      formatDate spanish "es - español" (s ++ "/" ++ e) = s ++ "/" ++ e) := by
  have ps := (parseISO_iff s a).2 hs
  have pe := (parseISO_iff e b).2 he
  have hne := iso_ne_empty hs
  have e1 : formatDate spanish "en - english" (s ++ "/" ++ e) = formatEnglishDates s e := by
    unfold formatDate
    rw [cut_duration hs]
    simp only
    rw [if_neg (by decide), if_pos (by decide)]
  have e2 : formatDate spanish "es - español" (s ++ "/" ++ e) = formatSpanishDates spanish s e := by
    unfold formatDate
    rw [cut_duration hs]
    simp only
    rw [if_neg (by decide), if_neg (by decide), if_pos (by decide)]
  rw [e1, e2]
  refine ⟨⟨_, (englishText_iff he.1 he.2.1 _).2 rfl⟩, ?_, ?_⟩
  · intro n hn hd
    rw [daysAfter_iff hs.1] at hd
    have hb : dayNumber b = dayNumber a + n := by rw [hd, dayNumber_civil]
    have hk : dayNumber a + 30 ≤ dayNumber b := by omega
    have h1 := monthCount_far hk
    have h2 := monthCount_pos hk
    rw [civil_dayNumber hs.1, civil_dayNumber he.1] at h1
    refine ⟨_, h1, h2, ?_, ?_⟩
    · intro d hd
      rw [(englishText_iff he.1 he.2.1 d).1 hd]
      unfold formatEnglishDates
      rw [pe, ps]
      simp only
      rw [if_pos hne, if_neg (by omega)]
      split <;> rfl
    · intro t ht
      unfold formatSpanishDates
      rw [pe, ps]
      simp only [ht]
      rw [if_pos hne, if_neg (by omega)]
      split <;> rfl
  · intro hn
    have hk : dayNumber b < dayNumber a + 30 := by
      apply Nat.lt_of_not_le
      intro hle
      apply hn (dayNumber b - dayNumber a) (by omega)
      rw [daysAfter_iff hs.1, show dayNumber a + (dayNumber b - dayNumber a) = dayNumber b by omega, civil_dayNumber he.1]
    have h1 := monthCount_near hk
    refine ⟨?_, ?_⟩
    · unfold formatEnglishDates
      rw [pe, ps]
      simp only [h1]
      rw [if_pos hne, if_pos (by omega)]
      unfold defaultDate
      rw [if_pos hne]
    · unfold formatSpanishDates
      rw [pe, ps]
      simp only [h1]
      have hd : defaultDate s e = s ++ "/" ++ e := by unfold defaultDate; rw [if_pos hne]
      cases spanish b with
      | none => exact hd
      | some t => simp only; rw [if_pos hne, if_pos (by omega)]; exact hd

theorem iso_example : IsoText "2019-12-31" ⟨2019, 12, 31⟩ ∧ IsoText "2020-02-29" ⟨2020, 2, 29⟩ := by
  simp only [← parseISO_iff]; decide

example : DaysAfter ⟨2019, 12, 31⟩ 60 ⟨2020, 2, 29⟩ ∧ monthsApart ⟨2019, 12, 31⟩ ⟨2020, 2, 29⟩ = 2 ∧
    formatDate (fun _ => none) "en - english" "2019-12-31/2020-02-29" = "3 months ended February 29, 2020" := by
  obtain ⟨h1, h2⟩ := iso_example
  have hd : DaysAfter ⟨2019, 12, 31⟩ 60 ⟨2020, 2, 29⟩ := by
    rw [daysAfter_iff h1.1]
    have : dayNumber ⟨2019, 12, 31⟩ + 60 = dayNumber ⟨2020, 2, 29⟩ := by decide +kernel
    rw [this, civil_dayNumber h2.1]
  refine ⟨hd, by decide, ?_⟩
  obtain ⟨k, hk, _, ht, _⟩ := (C53_months (fun _ => none) h1 h2).2.1 60 (by omega) hd
  have ht := ht _ ((englishText_iff h2.1 h2.2.1 _).2 rfl)
  have hk : k = 3 := by
    have : monthsApart ⟨2019, 12, 31⟩ ⟨2020, 2, 29⟩ = 2 := by decide
    omega
  rw [show "2019-12-31/2020-02-29" = "2019-12-31" ++ "/" ++ "2020-02-29" by decide, ht, hk]
  decide

/-- **C54.** Formatting keeps the number and order of headers. A header with a raw period keeps it, gets for every
offered language the text of that period, and keeps its other entries; a header without raw period is left alone. The
headers of contexts all have a raw period. -/
theorem C54_headers (spanish : Date → Option String) (langs : List Lang) (headers : List LanguagePack) :
    (formatRelevantPeriod spanish headers langs).length = headers.length ∧
    (∀ i (h : i < headers.length), ∃ out, (formatRelevantPeriod spanish headers langs)[i]? = some out ∧
      (∀ pure, mapGet headers[i] "Unlabelled" = some pure →
        mapGet out "Unlabelled" = some pure ∧
        (∀ lang ∈ langs, ∃ t, mapGet out lang = some t ∧ PeriodText spanish lang pure t) ∧
        (∀ lang, lang ∉ langs → mapGet out lang = mapGet headers[i] lang)) ∧
      (mapGet headers[i] "Unlabelled" = none → out = headers[i])) ∧
    (∀ c : Context, ∃ pure, RawPeriod c pure ∧ mapGet (periodString c) "Unlabelled" = some pure) := by
  refine ⟨by simp [formatRelevantPeriod], ?_, ?_⟩
  · intro i h
    refine ⟨formatHeader spanish langs headers[i], by simp [formatRelevantPeriod, h], ?_, ?_⟩
    · intro pure hp
      have hg := formatHeader_get spanish langs headers[i] pure hp
      refine ⟨?_, ?_, ?_⟩
      · rw [hg, if_neg (fun h => h.1 rfl)]; exact hp
      · intro lang hl
        refine ⟨_, ?_, (periodText_iff _ _ _ _).2 rfl⟩
        rw [hg]
        by_cases hx : lang = PureLabel
        · rw [if_neg (fun h => h.1 hx), hx]
          show mapGet headers[i] "Unlabelled" = _
          rw [hp]
          unfold formatDate
          simp
        · rw [if_pos ⟨hx, hl⟩]
      · intro lang hl
        rw [hg, if_neg (fun h => hl h.2)]
    · intro hp
      unfold formatHeader
      rw [show PureLabel = "Unlabelled" from rfl, hp]
  · intro c
    unfold periodString RawPeriod
    split
    · rename_i h; exact ⟨_, .inl ⟨h.2, h.1, rfl⟩, rfl⟩
    · rename_i h
      split
      · exact ⟨_, .inr ⟨fun h' => h ⟨h'.2, h'.1⟩, rfl⟩, rfl⟩
      · rename_i h2; exact ⟨_, .inr ⟨fun h' => h ⟨h'.2, h'.1⟩, (not_not.1 h2).symm⟩, rfl⟩

example : formatRelevantPeriod (fun _ => some "31 enero 2020") [[("Unlabelled", "2020-01-31")], [("x", "y")]]
      ["Unlabelled", "Truncated", "en - english", "es - español"] =
    [[("Unlabelled", "2020-01-31"), ("Truncated", "2020-01-31"), ("en - english", "as of January 31, 2020"),
      ("es - español", "al 31 enero 2020")], [("x", "y")]] := by decide +kernel

/-- **C55.** Two valid ISO dates have the same English text only if they are the same text; text that is not a valid
ISO date is shown unchanged, and so is a duration whose start or end is not one. (In a header the text before the
first `/` is the start: an empty start is dropped together with the `/`.) -/
theorem C55_english (spanish : Date → Option String) :
    (∀ s t a b, IsoText s a → IsoText t b → formatEnglishDates "" s = formatEnglishDates "" t → s = t ∧ a = b) ∧
    (∀ s t a b, IsoText s a → IsoText t b →
      formatDate spanish "en - english" s = formatDate spanish "en - english" t → s = t ∧ a = b) ∧
    (∀ s a, IsoText s a → ∃ d, EnglishText a d ∧ formatDate spanish "en - english" s = "as of " ++ d) ∧
    (∀ s, (∀ a, ¬ IsoText s a) → formatEnglishDates "" s = s) ∧
    (∀ s, (∀ a, ¬ IsoText s a) → '/' ∉ s.toList → formatDate spanish "en - english" s = s) ∧
    (∀ s e, s ≠ "" → '/' ∉ s.toList → ((∀ a, ¬ IsoText s a) ∨ ∀ a, ¬ IsoText e a) →
      formatDate spanish "en - english" (s ++ "/" ++ e) = s ++ "/" ++ e) := by
  have hf : ∀ s a, IsoText s a → formatEnglishDates "" s = "as of " ++ englishDate a := by
    intro s a h
    unfold formatEnglishDates
    rw [(parseISO_iff s a).2 h]
    simp
  have hd : ∀ s, '/' ∉ s.toList → formatDate spanish "en - english" s = formatEnglishDates "" s := by
    intro s h
    unfold formatDate
    rw [cut_eq_none.2 h]
    simp only
    rw [if_neg (by decide), if_pos (by decide)]
  have hn : ∀ s, (∀ a, ¬ IsoText s a) → formatEnglishDates "" s = s := by
    intro s h
    unfold formatEnglishDates
    rw [(parseISO_none s).2 h]
    simp [defaultDate]
  have hi : ∀ s t a b, IsoText s a → IsoText t b → formatEnglishDates "" s = formatEnglishDates "" t → s = t ∧ a = b := by
    intro s t a b hs ht h
    rw [hf s a hs, hf t b ht] at h
    have h : englishDate a = englishDate b := by
      have h := congrArg String.toList h
      simp only [String.toList_append, List.append_cancel_left_eq] at h
      exact String.toList_injective h
    have hab := englishDate_inj hs.1 ht.1 hs.2.1 ht.2.1 h
    refine ⟨?_, hab⟩
    subst hab
    obtain ⟨_, _, y1, y2, y3, y4, m1, m2, d1, d2, _, _, _, _, _, _, _, _, hy, hm, hd, hl⟩ := hs
    obtain ⟨_, _, y1', y2', y3', y4', m1', m2', d1', d2', _, _, _, _, _, _, _, _, hy', hm', hd', hl'⟩ := ht
    apply String.toList_injective
    rw [hl, hl']
    have : y1 = y1' ∧ y2 = y2' ∧ y3 = y3' ∧ y4 = y4' ∧ m1 = m1' ∧ m2 = m2' ∧ d1 = d1' ∧ d2 = d2' := by omega
    obtain ⟨rfl, rfl, rfl, rfl, rfl, rfl, rfl, rfl⟩ := this
    rfl
  refine ⟨hi, ?_, ?_, hn, ?_, ?_⟩
  · intro s t a b hs ht h
    rw [hd s (iso_no_slash hs), hd t (iso_no_slash ht)] at h
    exact hi s t a b hs ht h
  · intro s a h; exact ⟨_, (englishText_iff h.1 h.2.1 _).2 rfl, by rw [hd s (iso_no_slash h)]; exact hf s a h⟩
  · intro s h hsl; rw [hd s hsl]; exact hn s h
  · intro s e hs hsl h
    unfold formatDate
    rw [show cut '/' (s ++ "/" ++ e) = some (s, e) from cut_eq_some.2 ⟨rfl, hsl⟩]
    simp only
    rw [if_neg (by decide), if_pos (by decide)]
    have hdd : defaultDate s e = s ++ "/" ++ e := by unfold defaultDate; rw [if_pos hs]
    unfold formatEnglishDates
    rcases h with h | h
    · rw [(parseISO_none s).2 h]
      cases parseISO e with
      | none => exact hdd
      | some x => simp only; rw [if_pos hs]; exact hdd
    · rw [(parseISO_none e).2 h]; exact hdd

example : formatDate (fun _ => none) "en - english" "2020-02-29" = "as of February 29, 2020" ∧
    formatDate (fun _ => none) "en - english" "2021-02-29" = "2021-02-29" ∧
    formatDate (fun _ => none) "en - english" "forever/2020-02-29" = "forever/2020-02-29" ∧
    formatDate (fun _ => none) "en - english" "/2021-02-29" = "2021-02-29" := by decide +kernel

end Telefacts
