import Verif.Proof.Period
/-! # The text of a period -/
namespace Telefacts.Render
open Telefacts.Instance Telefacts.Spec

theorem day12_eq : ∀ d, d ≤ 31 → day12 d = toString d := by decide +kernel

theorem monthName_names : ∀ m, m < 12 → MonthNames[m]? = some (monthName (m + 1)) := by decide

theorem englishText_iff {a : Date} (ha : ValidDate a) (hy : a.y < 10000) (t : String) : EnglishText a t ↔ t = englishDate a := by
  obtain ⟨h1, h2, h3, h4⟩ := (validDate_iff a).1 ha
  have h5 := daysIn_le a.m a.y
  unfold EnglishText englishDate year4 digitChar
  rw [day12_eq a.d (by omega)]
  constructor
  · rintro ⟨name, y1, y2, y3, y4, ⟨k, hk, hn⟩, g1, g2, g3, g4, hy, rfl⟩
    rw [monthName_names k (by omega), Option.some.injEq] at hn
    rw [← hn, ← hk, show a.y / 1000 = y1 by omega, show a.y / 100 % 10 = y2 by omega, show a.y / 10 % 10 = y3 by omega,
      show a.y % 10 = y4 by omega]
  · intro ht
    exact ⟨_, a.y / 1000, a.y / 100 % 10, a.y / 10 % 10, a.y % 10,
      ⟨a.m - 1, by omega, by rw [monthName_names _ (by omega), show a.m - 1 + 1 = a.m by omega]⟩, by omega, by omega, by omega, by omega,
      by omega, ht⟩

theorem isoText_ne {s : String} {a : Date} (h : IsoText s a) : s ≠ "" := by
  rintro rfl
  obtain ⟨_, _, y1, y2, y3, y4, m1, m2, d1, d2, _, _, _, _, _, _, _, _, _, _, _, hl⟩ := h
  simp at hl

theorem isoText_unique {s : String} {a b : Date} (ha : IsoText s a) (hb : IsoText s b) : a = b := by
  have := (parseISO_iff s a).2 ha
  rw [(parseISO_iff s b).2 hb, Option.some.injEq] at this
  exact this.symm

/-- What english.go and spanish.go have in common. -/
def wordedText (date : Date → Option String) (asOf one many start stop : String) : String :=
  match parseISO stop with
  | none => defaultDate start stop
  | some e =>
    match date e with
    | none => defaultDate start stop
    | some d =>
      if start ≠ "" then
        match parseISO start with
        | none => defaultDate start stop
        | some s =>
          let months := monthCount (dayNumber s) (dayNumber e)
          if months < 1 then defaultDate start stop
          else if months = 1 then one ++ d
          else toString months ++ many ++ d
      else asOf ++ d

theorem english_worded (start stop : String) :
    formatEnglishDates start stop = wordedText (fun a => some (englishDate a)) "as of " "1 month ended " " months ended " start stop := by
  unfold formatEnglishDates wordedText
  cases parseISO stop <;> rfl

theorem spanish_worded (spanish : Date → Option String) (start stop : String) : formatSpanishDates spanish start stop =
    wordedText spanish "al " "un mes terminado al " " meses terminados al " start stop := rfl

theorem far_iff {a b : Date} (ha : ValidDate a) (hb : ValidDate b) :
    (∃ n, 30 ≤ n ∧ DaysAfter a n b) ↔ dayNumber a + 30 ≤ dayNumber b := by
  constructor
  · rintro ⟨n, hn, hd⟩
    rw [daysAfter_iff ha] at hd
    have : dayNumber b = dayNumber a + n := by rw [hd, dayNumber_civil]
    omega
  · intro h
    refine ⟨dayNumber b - dayNumber a, by omega, ?_⟩
    rw [daysAfter_iff ha, show dayNumber a + (dayNumber b - dayNumber a) = dayNumber b by omega, civil_dayNumber hb]

theorem monthCount_apart {a b : Date} (ha : ValidDate a) (hb : ValidDate b) (h : dayNumber a + 30 ≤ dayNumber b) :
    ((monthCount (dayNumber a) (dayNumber b) : Nat) : Int) = monthsApart a b + 1 ∧ 1 ≤ monthCount (dayNumber a) (dayNumber b) := by
  have h1 := monthCount_far h
  rw [civil_dayNumber ha, civil_dayNumber hb] at h1
  exact ⟨h1, monthCount_pos h⟩

theorem worded_iff {DateText : Date → String → Prop} {date : Date → Option String}
    (hd : ∀ s a t, IsoText s a → (DateText a t ↔ date a = some t)) (asOf one many start stop t : String) :
    Worded DateText asOf one many start stop t ↔ t = wordedText date asOf one many start stop := by
  have dflt : (∀ b d, ¬ Telling DateText start stop b d) → (Worded DateText asOf one many start stop t ↔ t = defaultDate start stop) := by
    intro hn
    constructor
    · rintro (⟨b, d, _, h⟩ | ⟨a, b, d, _, h, _⟩ | ⟨a, b, d, k, _, h, _⟩ | ⟨_, h⟩ | ⟨_, h⟩)
      · exact absurd h (hn b d)
      · exact absurd h (hn b d)
      · exact absurd h (hn b d)
      · rw [defaultDate, if_pos h]
      · rw [defaultDate, if_neg (not_not.2 h)]
    · intro h
      by_cases hs : start = ""
      · rw [h, defaultDate, if_neg (not_not.2 hs)]; exact .plain hn hs
      · rw [h, defaultDate, if_pos hs]; exact .duration hn hs
  unfold wordedText
  cases pe : parseISO stop with
  | none => exact dflt fun b d h => (parseISO_none stop).1 pe b h.1
  | some b =>
    have hb := (parseISO_iff _ _).1 pe
    simp only
    cases de : date b with
    | none =>
      refine dflt fun b' d h => ?_
      obtain rfl := isoText_unique hb h.1
      have := (hd _ _ _ hb).1 h.2.1
      rw [de] at this; cases this
    | some d =>
      simp only
      have one' : ∀ b' d', Telling DateText start stop b' d' → b' = b ∧ d' = d := by
        intro b' d' h
        obtain rfl := isoText_unique hb h.1
        have := (hd _ _ _ hb).1 h.2.1
        rw [de, Option.some.injEq] at this
        exact ⟨rfl, this.symm⟩
      by_cases hs : start = ""
      · rw [if_neg (not_not.2 hs)]
        have ht : Telling DateText start stop b d := ⟨hb, (hd _ _ _ hb).2 de, .inl hs⟩
        constructor
        · rintro (⟨b', d', _, h⟩ | ⟨a, b', d', ha, _⟩ | ⟨a, b', d', k, ha, _⟩ | ⟨h, _⟩ | ⟨h, _⟩)
          · rw [(one' _ _ h).2]
          · exact absurd hs (isoText_ne ha)
          · exact absurd hs (isoText_ne ha)
          · exact absurd ht (h b d)
          · exact absurd ht (h b d)
        · rintro rfl; exact .instant b d hs ht
      · rw [if_pos hs]
        cases ps : parseISO start with
        | none =>
          refine dflt fun b' d' h => ?_
          rcases h.2.2 with h | ⟨a, n, ha, _⟩
          · exact hs h
          · exact (parseISO_none start).1 ps a ha
        | some a =>
          have ha := (parseISO_iff _ _).1 ps
          simp only
          by_cases hk : dayNumber a + 30 ≤ dayNumber b
          · obtain ⟨m1, m2⟩ := monthCount_apart ha.1 hb.1 hk
            have ht : Telling DateText start stop b d := by
              obtain ⟨n, h1, h2⟩ := (far_iff ha.1 hb.1).2 hk
              exact ⟨hb, (hd _ _ _ hb).2 de, .inr ⟨a, n, ha, h1, h2⟩⟩
            rw [if_neg (by omega)]
            constructor
            · rintro (⟨b', d', h, _⟩ | ⟨a', b', d', ha', h, hm⟩ | ⟨a', b', d', k, ha', h, hm⟩ | ⟨h, _⟩ | ⟨h, _⟩)
              · exact absurd h hs
              · obtain ⟨rfl, rfl⟩ := one' _ _ h
                obtain rfl := isoText_unique ha ha'
                rw [if_pos (by omega)]
              · obtain ⟨rfl, rfl⟩ := one' _ _ h
                obtain rfl := isoText_unique ha ha'
                rw [if_neg (by omega), show monthCount (dayNumber a) (dayNumber b') = k + 2 by omega]
              · exact absurd ht (h b d)
              · exact absurd ht (h b d)
            · split
              · rintro rfl; exact .one a b d ha ht (by omega)
              · rintro rfl
                rw [show monthCount (dayNumber a) (dayNumber b) = (monthCount (dayNumber a) (dayNumber b) - 2) + 2 by omega]
                exact .many a b d _ ha ht (by omega)
          · rw [monthCount_near (by omega), if_pos (by omega)]
            refine dflt fun b' d' h => ?_
            obtain ⟨rfl, rfl⟩ := one' _ _ h
            rcases h.2.2 with h | ⟨a', n, ha', h1, h2⟩
            · exact hs h
            · obtain rfl := isoText_unique ha ha'
              exact hk ((far_iff ha.1 hb.1).1 ⟨n, h1, h2⟩)

theorem englishPeriod_iff (start stop t : String) : EnglishPeriod start stop t ↔ t = formatEnglishDates start stop := by
  rw [english_worded]
  refine worded_iff (fun s a t h => ?_) _ _ _ _ _ _
  rw [englishText_iff h.1 h.2.1, Option.some.injEq]
  exact eq_comm

theorem spanishPeriod_iff (spanish : Date → Option String) (start stop t : String) :
    SpanishPeriod spanish start stop t ↔ t = formatSpanishDates spanish start stop := by
  rw [spanish_worded]
  exact worded_iff (fun _ _ _ _ => Iff.rfl) _ _ _ _ _ _

theorem halves_iff (s start stop : String) : Halves s start stop ↔
    (start, stop) = (match cut '/' s with | none => ("", s) | some (a, b) => (a, b)) := by
  unfold Halves
  cases h : cut '/' s with
  | none =>
    have hn := cut_eq_none.1 h
    simp only [Prod.mk.injEq]
    constructor
    · rintro (⟨rfl, _⟩ | ⟨h1, h2, _⟩)
      · exact absurd (by simp) hn
      · exact ⟨h1, h2⟩
    · rintro ⟨h1, h2⟩; exact .inr ⟨h1, h2, hn⟩
  | some ab =>
    obtain ⟨a, b⟩ := ab
    obtain ⟨rfl, ha⟩ := cut_eq_some.1 h
    simp only [Prod.mk.injEq]
    constructor
    · rintro (⟨h1, h2⟩ | ⟨_, _, h3⟩)
      · obtain ⟨r1, r2⟩ := cut_unique (c := '/') h1 ha h2
        exact ⟨r1.symm, r2.symm⟩
      · exact absurd (by simp) h3
    · rintro ⟨rfl, rfl⟩; exact .inl ⟨rfl, ha⟩

theorem periodText_iff (spanish : Date → Option String) (lang s t : String) :
    PeriodText spanish lang s t ↔ t = formatDate spanish lang s := by
  have ne : ("en - english" : String) ≠ "es - español" := by decide
  unfold PeriodText formatDate
  simp only [halves_iff, englishPeriod_iff, spanishPeriod_iff]
  have key : ∀ p : String × String, ((lang = "en - english" ∧ ∃ start stop, (start, stop) = p ∧ t = formatEnglishDates start stop) ∨
      (lang = "es - español" ∧ ∃ start stop, (start, stop) = p ∧ t = formatSpanishDates spanish start stop) ∨
      (lang ≠ "en - english" ∧ lang ≠ "es - español" ∧ t = s)) ↔
      t = (if lang = PureLabel then s else if lang = English then formatEnglishDates p.1 p.2
        else if lang = Espanol then formatSpanishDates spanish p.1 p.2 else s) := by
    rintro ⟨x, y⟩
    simp only [Prod.mk.injEq]
    rw [show PureLabel = "Unlabelled" from rfl, show English = "en - english" from rfl, show Espanol = "es - español" from rfl]
    by_cases h1 : lang = "en - english"
    · subst h1
      rw [if_neg (by decide), if_pos rfl]
      simp [ne]
    · by_cases h2 : lang = "es - español"
      · subst h2
        rw [if_neg (by decide), if_neg h1, if_pos rfl]
        simp [h1]
      · rw [if_neg h1, if_neg h2]
        simp [h1, h2]
  exact key _

end Telefacts.Render
