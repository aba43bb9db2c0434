import Verif.Props.PeriodWords
import Verif.Model.Xml
/-! # C161: how the dates of a period are written -/
namespace Telefacts
open Telefacts.Render Telefacts.Instance Telefacts.Spec

/-- White space of XML. -/
def Blank (s : String) : Prop := ∀ c ∈ s.toList, c = ' ' ∨ c = '\t' ∨ c = '\n' ∨ c = '\r'

/-- A time zone of XML Schema: none, `Z`, or a sign, hours and minutes. -/
def Zone (s : String) : Prop :=
  s = "" ∨ s = "Z" ∨ ∃ h1 h2 m1 m2 : Nat, h1 < 10 ∧ h2 < 10 ∧ m1 < 6 ∧ m2 < 10 ∧ ∃ sign, (sign = '+' ∨ sign = '-') ∧
    s.toList = [sign, Char.ofNat (48 + h1), Char.ofNat (48 + h2), ':', Char.ofNat (48 + m1), Char.ofNat (48 + m2)]

/-- The text is a way of writing a date that XML Schema allows: white space around it, and a time zone. -/
def Written (s : String) (a : Date) : Prop := ∃ w1 d z w2, Blank w1 ∧ IsoText d a ∧ Zone z ∧ Blank w2 ∧ s = w1 ++ d ++ z ++ w2

/-- The column of a context shows the text in English. -/
def Shows (spanish : Date → Option String) (c : Context) (t : String) : Prop :=
  ∀ langs, "en - english" ∈ langs → mapGet (formatHeader spanish langs (periodString c)) "en - english" = some t

theorem shows_iff (spanish : Date → Option String) (c : Context) (t p : String) (hp : periodString c = [(PureLabel, p)]) :
    Shows spanish c t ↔ formatDate spanish "en - english" p = t := by
  have key : ∀ langs, "en - english" ∈ langs →
      mapGet (formatHeader spanish langs (periodString c)) "en - english" = some (formatDate spanish "en - english" p) := by
    intro langs hl
    rw [formatHeader_get spanish langs (periodString c) p (by rw [hp]; rfl), if_pos ⟨by decide, hl⟩]
  constructor
  · intro h
    have := h ["en - english"] (by simp)
    rw [key _ (by simp)] at this
    exact Option.some.inj this
  · intro h langs hl
    rw [key langs hl, h]

theorem iso_length {s : String} {a : Date} (h : IsoText s a) : s.toList.length = 10 := by
  obtain ⟨_, _, _, _, _, _, _, _, _, _, _, _, _, _, _, _, _, _, _, _, _, h⟩ := h
  rw [h]
  rfl

theorem written_no_slash {s : String} {a : Date} (h : Written s a) : '/' ∉ s.toList := by
  obtain ⟨w1, d, z, w2, h1, h2, h3, h4, rfl⟩ := h
  have hb : ∀ w, Blank w → '/' ∉ w.toList := by
    intro w hw hm
    rcases hw _ hm with h | h | h | h <;> revert h <;> decide
  have hz : '/' ∉ z.toList := by
    rcases h3 with rfl | rfl | ⟨a, b, c, e, ha, hb, hc, he, sign, hs, hz⟩
    · decide
    · decide
    · rw [hz]
      have n : ∀ k, k < 10 → '/' ≠ Char.ofNat (48 + k) := fun k hk => (digitChar_ne hk '/' (by decide)).symm
      simp only [List.mem_cons, List.not_mem_nil, or_false, not_or]
      refine ⟨?_, n a ha, n b hb, by decide, n c (by omega), n e he⟩
      rcases hs with rfl | rfl <;> decide
  simp only [String.toList_append, List.mem_append, not_or]
  exact ⟨⟨⟨hb _ h1, iso_no_slash h2⟩, hz⟩, hb _ h4⟩

theorem written_iso {s : String} {a b : Date} (h : Written s a) (h' : IsoText s b) : IsoText s a := by
  obtain ⟨w1, d, z, w2, h1, h2, h3, h4, rfl⟩ := h
  have l := iso_length h'
  simp only [String.toList_append, List.length_append, iso_length h2] at l
  have e : w1 = "" ∧ z = "" ∧ w2 = "" := by
    refine ⟨?_, ?_, ?_⟩ <;> (apply String.toList_injective; rw [show "".toList = [] from rfl, ← List.length_eq_zero_iff]; omega)
  obtain ⟨rfl, rfl, rfl⟩ := e
  simpa using h2

theorem written_head {s : String} {a : Date} (h : Written s a) (t : String) : s ≠ "as of " ++ t := by
  intro e
  obtain ⟨w1, d, z, w2, h1, h2, h3, h4, rfl⟩ := h
  have e := congrArg String.toList e
  simp only [String.toList_append, List.append_assoc] at e
  cases hw : w1.toList with
  | nil =>
    obtain ⟨_, _, y1, _, _, _, _, _, _, _, hy, _, _, _, _, _, _, _, _, _, _, h⟩ := h2
    rw [hw, h] at e
    simp only [List.nil_append, List.cons_append] at e
    have := (List.cons.inj e).1
    have key : ∀ k, k < 10 → Char.ofNat (48 + k) ≠ 'a' := by decide
    exact key y1 hy this
  | cons x xs =>
    rw [hw] at e
    have := (List.cons.inj e).1
    rcases h1 x (by rw [hw]; simp) with h | h | h | h <;> rw [this] at h <;> revert h <;> decide

/-- A context read from a period element with an instant that is written so. -/
def InstantOf (c : Context) (s : String) : Prop :=
  s ≠ "" ∧ ∃ x k : Xml, x.kids = [k] ∧ k.name.loc = "instant" ∧ k.chars = s ∧
    (c.instant, c.startDate, c.endDate) = hydratePeriod [Decode.period x]

theorem instantOf_fields {c : Context} {s : String} (h : InstantOf c s) : s ≠ "" ∧ (c.instant, c.startDate, c.endDate) = (s, "", "") := by
  obtain ⟨h0, x, k, h1, h2, h3, h4⟩ := h
  refine ⟨h0, ?_⟩
  rw [h4, hydratePeriod]
  simp [Decode.period, Xml.named, h1, h2, h3]

/-- **C161**, exactly: a context at a date is headed by that date if and only if the date is written without white space around it and without
a time zone; otherwise it is headed by the text as it is written. -/
theorem C161_exact (spanish : Date → Option String) (c : Context) (s : String) (a : Date) (hc : InstantOf c s) (hw : Written s a) :
    ((∃ t, EnglishText a t ∧ Shows spanish c ("as of " ++ t)) ↔ IsoText s a) ∧ (¬ IsoText s a → Shows spanish c s) := by
  obtain ⟨h0, hc⟩ := instantOf_fields hc
  simp only [Prod.mk.injEq] at hc
  obtain ⟨e1, e2, e3⟩ := hc
  have hp : periodString c = [(PureLabel, s)] := by
    unfold periodString
    rw [e1, e2, e3]
    simp [h0]
  have hraw : ¬ IsoText s a → formatDate spanish "en - english" s = s := by
    intro hn
    exact (C55_english spanish).2.2.2.2.1 s (fun b hb => hn (written_iso hw hb)) (written_no_slash hw)
  refine ⟨⟨?_, ?_⟩, ?_⟩
  · rintro ⟨t, _, h⟩
    by_contra hn
    rw [shows_iff spanish c _ s hp, hraw hn] at h
    exact written_head hw t h
  · intro h
    obtain ⟨d, h1, h2⟩ := (C55_english spanish).2.2.1 s a h
    exact ⟨d, h1, (shows_iff spanish c _ s hp).2 h2⟩
  · intro hn
    exact (shows_iff spanish c _ s hp).2 (hraw hn)

/-- **C161**, partially: a date written in the usual way is shown in words. Missing: white space and time zones (`C161_fails`), and periods
without end (`C161_forever_fails`). -/
theorem C161_partial (spanish : Date → Option String) (c : Context) (s : String) (a : Date) (hc : InstantOf c s) (hs : IsoText s a) :
    ∃ t, EnglishText a t ∧ Shows spanish c ("as of " ++ t) :=
  (C161_exact spanish c s a hc ⟨"", s, "", "", by intro c h; simp at h, hs, Or.inl rfl, by intro c h; simp at h, by simp⟩).1.2 hs

/-- **C161 fails** for every date: written on a line of its own it is not shown in words. -/
theorem C161_fails (spanish : Date → Option String) (s : String) (a : Date) (hs : IsoText s a) :
    Written ("\n" ++ s ++ "\n") a ∧ ∀ c, InstantOf c ("\n" ++ s ++ "\n") → Shows spanish c ("\n" ++ s ++ "\n") ∧
      ∀ t, EnglishText a t → ¬ Shows spanish c ("as of " ++ t) := by
  have hn : Blank "\n" := by
    intro c h
    simp at h
    simp [h]
  have hw : Written ("\n" ++ s ++ "\n") a := ⟨"\n", s, "", "\n", hn, hs, Or.inl rfl, hn, by simp⟩
  have hi : ¬ IsoText ("\n" ++ s ++ "\n") a := by
    intro h
    have := iso_length h
    simp [String.toList_append, iso_length hs] at this
  refine ⟨hw, ?_⟩
  intro c hc
  have e := C161_exact spanish c _ a hc hw
  exact ⟨e.2 hi, fun t ht h => hi (e.1.1 ⟨t, ht, h⟩)⟩

/-- **C161 fails** for periods without end: whoever says `forever`, or nothing, gets a column without a header, in English as in every other
language. -/
theorem C161_forever_fails (spanish : Date → Option String) (x : Xml)
    (hx : ∀ k ∈ x.kids, k.name.loc ≠ "instant" ∧ k.name.loc ≠ "startDate") (c : Context)
    (hc : (c.instant, c.startDate, c.endDate) = hydratePeriod [Decode.period x]) (langs : List Lang) (lang : Lang)
    (hl : lang ∈ langs) (hp : lang ≠ "Unlabelled") : mapGet (formatHeader spanish langs (periodString c)) lang = some "" := by
  have hi : (Decode.period x).instants = [] := by
    simp only [Decode.period, Xml.named, List.map_eq_nil_iff, List.filter_eq_nil_iff, decide_eq_true_eq]
    exact fun k hk => (hx k hk).1
  have hs : (Decode.period x).starts = [] := by
    simp only [Decode.period, Xml.named, List.map_eq_nil_iff, List.filter_eq_nil_iff, decide_eq_true_eq]
    exact fun k hk => (hx k hk).2
  rw [hydratePeriod, hi, hs] at hc
  simp only [List.head?_nil, Option.getD_none, Prod.mk.injEq] at hc
  obtain ⟨e1, e2, e3⟩ := hc
  have hpd : periodString c = [(PureLabel, "")] := by
    unfold periodString
    rw [e1, e2, e3]
    simp
  rw [formatHeader_get spanish langs (periodString c) "" (by rw [hpd]; rfl), if_pos ⟨hp, hl⟩]
  congr 1
  unfold formatDate formatEnglishDates formatSpanishDates
  have p : parseISO "" = none := rfl
  have q : cut '/' "" = none := cut_eq_none.2 (by simp)
  rw [q]
  simp only [p, defaultDate]
  split <;> (try split) <;> (try split) <;> first | rfl | simp_all

/-- A period that lasts for ever. -/
def foreverXml : Xml := .mk ⟨"http://www.xbrl.org/2003/instance", "period"⟩ [] "" "<forever/>"
  [.mk ⟨"http://www.xbrl.org/2003/instance", "forever"⟩ [] "" "" []]

example : (∀ k ∈ foreverXml.kids, k.name.loc ≠ "instant" ∧ k.name.loc ≠ "startDate") ∧
    hydratePeriod [Decode.period foreverXml] = ("", "", "") := by
  refine ⟨?_, by decide +kernel⟩
  intro k hk
  simp only [foreverXml, Xml.kids, List.mem_singleton] at hk
  subst hk
  decide

example : Written " 2019-12-31Z" ⟨2019, 12, 31⟩ ∧ InstantOf ⟨"c", "s", "i", ⟨[], []⟩, " 2019-12-31Z", "", "", ⟨[], []⟩⟩ " 2019-12-31Z" :=
  ⟨⟨" ", "2019-12-31", "Z", "", by intro c h; simp at h; exact Or.inl h, iso_example.1, Or.inr (Or.inl rfl), by intro c h; simp at h,
    by decide⟩, by decide, .mk ⟨"x", "period"⟩ [] "" "" [.mk ⟨"x", "instant"⟩ [] " 2019-12-31Z" " 2019-12-31Z" []], _, rfl, rfl, rfl,
    by decide +kernel⟩

end Telefacts
