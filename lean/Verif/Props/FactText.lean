import Verif.Model.FactText
import Verif.Proof.Prelude
import Verif.Proof.Basic
import Verif.Props.TextBlock
/-! # C56, C87: the text of a fact -/
namespace Telefacts
open Telefacts.Render Telefacts.Instance Telefacts.Text Telefacts.Spec

/-- Rendering a fact does not panic. -/
theorem renderFact_total (env : FactEnv) (sep : Char) (f : Fact) : ∃ e, renderFact env sep f = some e := by
  unfold renderFact
  split
  · exact ⟨_, rfl⟩
  · split
    · obtain ⟨out, h⟩ := C57_no_panic env.trim (env.tokens f.inner)
      rw [h]; exact ⟨_, rfl⟩
    · split
      · exact ⟨_, rfl⟩
      · split <;> exact ⟨_, rfl⟩

/-- The separator of a language in which facts are shown. -/
def sepOf (lang : Lang) : Option Char :=
  if lang = English ∨ lang = PureLabel then some ',' else if lang = Espanol then some ' ' else none

theorem renderLang_eq (env : FactEnv) (f : Fact) (lang : Lang) (m : MultilingualFact) :
    renderLang env f lang m = match sepOf lang with
      | some sep => (renderFact env sep f).map (mapSet m lang)
      | none => some m := by
  unfold renderLang sepOf
  by_cases h1 : lang = English
  · simp [h1]
  · by_cases h2 : lang = Espanol
    · subst h2
      rw [if_neg h1, if_pos rfl, if_neg (by decide), if_pos rfl]
    · by_cases h3 : lang = PureLabel
      · subst h3
        rw [if_neg h1, if_neg h2, if_pos rfl, if_pos (.inr rfl)]
      · simp [h1, h2, h3]

theorem renderLangs_spec (env : FactEnv) (f : Fact) (langs : List Lang) (m : MultilingualFact) (hm : MapWF m) :
    ∃ r, renderLangs env f langs m = some r ∧ MapWF r ∧ ∀ lang, mapGet r lang =
      match sepOf lang with
      | some sep => if lang ∈ langs then renderFact env sep f else mapGet m lang
      | none => mapGet m lang := by
  induction langs generalizing m with
  | nil => exact ⟨m, rfl, hm, fun lang => by split <;> simp⟩
  | cons l ls ih =>
    rw [renderLangs, renderLang_eq]
    cases hs : sepOf l with
    | none =>
      obtain ⟨r, h1, h2, h3⟩ := ih m hm
      refine ⟨r, h1, h2, fun lang => ?_⟩
      rw [h3]
      by_cases e : lang = l
      · subst e; rw [hs]
      · simp [e]
    | some sep =>
      obtain ⟨x, hx⟩ := renderFact_total env sep f
      simp only
      rw [hx, Option.map_some, Option.bind_some]
      obtain ⟨r, h1, h2, h3⟩ := ih (mapSet m l x) (hm.mapSet l x)
      refine ⟨r, h1, h2, fun lang => ?_⟩
      rw [h3]
      by_cases e : lang = l
      · subst e
        rw [hs]
        simp only [List.mem_cons, true_or, if_true]
        split
        · rfl
        · rw [mapGet_mapSet]; simp [hx]
      · rw [mapGet_mapSet]
        simp [e, Ne.symm e]

/-- **C56.** A missing fact is an empty unlabelled cell, a nil fact is shown as "nil", whatever the languages. -/
theorem C56_missing_nil (env : FactEnv) (langs : List Lang) (f : Fact) :
    renderCell env none langs = some [("Unlabelled", ⟨"", "", "", ""⟩)] ∧
    (f.isNil = true → renderCell env (some f) langs = some [("Unlabelled", ⟨"", "nil", "", ""⟩)]) :=
  ⟨rfl, fun h => by simp [renderCell, h, PureLabel]⟩

/-- **C56.** Any other fact has exactly one entry for every language that is offered and is English, Spanish or
unlabelled, and no other entry. -/
theorem C56_entries (env : FactEnv) (langs : List Lang) (f : Fact) (hn : f.isNil = false) :
    ∃ m, renderCell env (some f) langs = some m ∧ (m.map Prod.fst).Nodup ∧
      ∀ lang, lang ∈ m.map Prod.fst ↔ lang ∈ langs ∧ (lang = "en - english" ∨ lang = "es - español" ∨ lang = "Unlabelled") := by
  show ∃ m, renderCell env (some f) langs = some m ∧ (m.map Prod.fst).Nodup ∧
      ∀ lang, lang ∈ m.map Prod.fst ↔ lang ∈ langs ∧ (lang = English ∨ lang = Espanol ∨ lang = PureLabel)
  obtain ⟨m, h1, h2, h3⟩ := renderLangs_spec env f langs [] MapWF.nil
  refine ⟨m, by simp [renderCell, hn, h1], h2, fun lang => ?_⟩
  have : lang ∈ m.map Prod.fst ↔ (mapGet m lang).isSome := by
    rw [Option.isSome_iff_exists]; exact (mapGet_isSome m lang).symm
  rw [this, h3]
  unfold sepOf
  by_cases e1 : lang = English ∨ lang = PureLabel
  · rw [if_pos e1]
    simp only
    obtain ⟨x, hx⟩ := renderFact_total env ',' f
    by_cases hl : lang ∈ langs
    · rw [if_pos hl, hx]; simp [hl]; tauto
    · simp [hl, mapGet]
  · rw [if_neg e1]
    by_cases e2 : lang = Espanol
    · rw [if_pos e2]
      simp only
      obtain ⟨x, hx⟩ := renderFact_total env ' ' f
      by_cases hl : lang ∈ langs
      · rw [if_pos hl, hx]; simp [hl]; tauto
      · simp [hl, mapGet]
    · rw [if_neg e2]
      simp [mapGet]
      tauto

/-- **C56.** A fact without decimals of a known concept that is not a text block is shown verbatim in every entry. -/
theorem C56_verbatim (env : FactEnv) (langs : List Lang) (f : Fact) (c : Schema.Concept) (hn : f.isNil = false)
    (hc : env.concept f.href = some c) (ht : c.type.loc ≠ "textBlockItemType") (hp : f.precision = -2147483647)
    (m : MultilingualFact) (hm : renderCell env (some f) langs = some m) :
    ∀ lang e, (lang, e) ∈ m → e = ⟨"", f.inner, "", ""⟩ := by
  replace hp : f.precision = precisionless := hp
  obtain ⟨m', h1, h2, h3⟩ := renderLangs_spec env f langs [] MapWF.nil
  have : m = m' := by
    have := hm.symm.trans (show renderCell env (some f) langs = some m' by simp [renderCell, hn, h1])
    simpa using this
  subst this
  intro lang e he
  have := mapGet_of_mem h2 he
  rw [h3] at this
  have hv : ∀ sep, renderFact env sep f = some ⟨"", f.inner, "", ""⟩ := by
    intro sep
    unfold renderFact
    rw [hc]
    simp only
    rw [if_neg (show ¬ c.type.loc = TextBlockItemType from ht), if_pos hp]
  split at this
  · split at this
    · rw [hv] at this; exact (Option.some.inj this).symm
    · simp [mapGet] at this
  · simp [mapGet] at this

/-- The entries of a fact that is not nil are those of `renderFact`, with the separator of the language. -/
theorem renderCell_entry (env : FactEnv) (langs : List Lang) (f : Fact) (hn : f.isNil = false) (m : MultilingualFact)
    (hm : renderCell env (some f) langs = some m) (lang : Lang) (e : FactExpression) (he : (lang, e) ∈ m) :
    renderFact env (if lang = Espanol then ' ' else ',') f = some e := by
  obtain ⟨m', h1, h2, h3⟩ := renderLangs_spec env f langs [] MapWF.nil
  have : m = m' := by
    have := hm.symm.trans (show renderCell env (some f) langs = some m' by simp [renderCell, hn, h1])
    simpa using this
  subst this
  have := mapGet_of_mem h2 he
  rw [h3] at this
  unfold sepOf at this
  by_cases e1 : lang = English ∨ lang = PureLabel
  · rw [if_pos e1] at this
    simp only at this
    rw [if_neg (by rcases e1 with rfl | rfl <;> decide)]
    split at this
    · exact this
    · simp [mapGet] at this
  · rw [if_neg e1] at this
    by_cases e2 : lang = Espanol
    · rw [if_pos e2] at this ⊢
      simp only at this
      split at this
      · exact this
      · simp [mapGet] at this
    · rw [if_neg e2] at this
      simp [mapGet] at this

/-- **C87.** The text of a numeric fact: the digits of the value, or of the hundredfold value with a percent sign; before them
the symbol of the numerator; after them the name of a numerator without symbol, unless there is a percent sign, and the
symbol or name of the denominator, if the numerator is known. -/
theorem C87_numeric (env : FactEnv) (langs : List Lang) (f : Fact) (c : Schema.Concept) (m : MultilingualFact) (lang : Lang)
    (e : FactExpression) (amount head core tail : String)
    (hn : f.isNil = false) (hc : env.concept f.href = some c) (ht : c.type.loc ≠ "textBlockItemType")
    (hp : f.precision ≠ -2147483647) (hm : renderCell env (some f) langs = some m) (he : (lang, e) ∈ m)
    (percent : Prop) [Decidable percent]
    (hpc : percent ↔ c.type = ⟨"http://www.xbrl.org/dtr/type/numeric", "percentItemType"⟩)
    (ha : (percent ∧ env.hundred f.inner = some amount) ∨ (¬ percent ∧ amount = f.inner))
    (hd : env.digits f.precision amount (if lang = "es - español" then ' ' else ',') = some (head, core, tail)) :
    e.core = core ∧ e.innerHtml = "" ∧
    e.head = (match (env.measure f.unitRef).1 with
      | some n => if n.symbol = "" then "" else n.symbol ++ " "
      | none => "") ++ head ∧
    e.tail = tail ++ (if percent then "%" else "") ++ (match (env.measure f.unitRef).1 with
      | none => ""
      | some n => " " ++ (if n.symbol = "" ∧ ¬ percent then n.unitName else "") ++ (match (env.measure f.unitRef).2 with
        | none => ""
        | some d => "/" ++ (if d.symbol = "" then d.unitName else d.symbol))) := by
  replace hd : env.digits f.precision amount (if lang = Espanol then ' ' else ',') = some (head, core, tail) := hd
  replace hp : f.precision ≠ precisionless := hp
  have h := renderCell_entry env langs f hn m hm lang e he
  unfold renderFact at h
  rw [hc] at h
  simp only at h
  rw [if_neg (show ¬ c.type.loc = TextBlockItemType from ht), if_neg hp] at h
  have hip : isPercent c = decide percent := by
    unfold isPercent
    rw [← Bool.decide_and]
    congr 1
    rw [hpc, eq_iff_iff]
    cases hct : c.type
    simp [NUM, PercentItemType]
  have hsf : sigFigs env f.inner f.precision c (if lang = Espanol then ' ' else ',') = some (head, core, tail) := by
    unfold sigFigs
    rw [hip]
    rcases ha with ⟨h1, h2⟩ | ⟨h1, h2⟩
    · rw [if_pos (by simpa using h1), h2]; exact hd
    · rw [if_neg (by simpa using h1), ← h2]; exact hd
  rw [hsf] at h
  cases h
  refine ⟨rfl, rfl, ?_, ?_⟩
  · unfold unitHead
    cases (env.measure f.unitRef).1 with
    | none => simp
    | some n =>
      simp only
      by_cases hs : n.symbol = "" <;> simp [hs]
  · unfold unitTail
    rw [hip]
    cases (env.measure f.unitRef).1 with
    | none =>
      by_cases hq : percent <;> simp [hq]
    | some n =>
      cases (env.measure f.unitRef).2 with
      | none =>
        by_cases hq : percent <;> by_cases hs : n.symbol = "" <;> simp [hq, hs, String.append_assoc]
      | some d =>
        by_cases hq : percent <;> by_cases hs : n.symbol = "" <;> by_cases hs' : d.symbol = "" <;>
          simp only [hq, hs, hs', String.append_assoc, ne_eq, not_true_eq_false, not_false_eq_true, if_true, if_false, and_true, and_false,
            and_self, decide_true, decide_false, String.empty_append, String.append_empty, reduceCtorEq, Bool.false_eq_true]

/-- **C87.** A value that is not a number is shown verbatim; a fact of an unknown concept is shown as "error". -/
theorem C87_not_a_number (env : FactEnv) (langs : List Lang) (f : Fact) (m : MultilingualFact) (lang : Lang) (e : FactExpression)
    (hn : f.isNil = false) (hm : renderCell env (some f) langs = some m) (he : (lang, e) ∈ m) :
    (env.concept f.href = none → e = ⟨"", "error", "", ""⟩) ∧
    (∀ c, env.concept f.href = some c → c.type.loc ≠ "textBlockItemType" →
      (∀ p v s, env.digits p v s = none) → e = ⟨"", f.inner, "", ""⟩) := by
  have h := renderCell_entry env langs f hn m hm lang e he
  unfold renderFact at h
  constructor
  · intro hc
    rw [hc] at h
    exact (Option.some.inj h).symm
  · intro c hc ht hd
    rw [hc] at h
    simp only at h
    rw [if_neg (show ¬ c.type.loc = TextBlockItemType from ht)] at h
    have : ∀ s, sigFigs env f.inner f.precision c s = none := by
      intro s
      unfold sigFigs
      split
      · split
        · rfl
        · exact hd _ _ _
      · exact hd _ _ _
    rw [this] at h
    split at h <;> exact (Option.some.inj h).symm

/-- **C87.** The English and the unlabelled entry are the same. -/
theorem C87_english_unlabelled (env : FactEnv) (langs : List Lang) (f : Fact) (m : MultilingualFact) (e e' : FactExpression)
    (hn : f.isNil = false) (hm : renderCell env (some f) langs = some m) (he : ("en - english", e) ∈ m) (he' : ("Unlabelled", e') ∈ m) :
    e = e' := by
  have h := renderCell_entry env langs f hn m hm _ e he
  have h' := renderCell_entry env langs f hn m hm _ e' he'
  rw [if_neg (by decide)] at h h'
  exact Option.some.inj (h.symm.trans h')

/-- Earnings per share: a fact with decimals in USD per share, and a text in the same folder. -/
def ftEnv : FactEnv where
  concept h :=
    if h = "x#eps" then some ⟨⟨"x", "eps"⟩, "eps", ⟨"http://www.xbrl.org/dtr/type/numeric", "perShareItemType"⟩, ⟨"", ""⟩, false, "", "", false, ""⟩
    else if h = "x#rate" then some ⟨⟨"x", "rate"⟩, "rate", ⟨"http://www.xbrl.org/dtr/type/numeric", "percentItemType"⟩, ⟨"", ""⟩, false, "", "", false, ""⟩
    else if h = "x#name" then some ⟨⟨"x", "name"⟩, "name", ⟨"http://www.xbrl.org/2003/instance", "stringItemType"⟩, ⟨"", ""⟩, false, "", "", false, ""⟩
    else none
  measure u := if u = "usdPerShare" then (some ⟨"USD", "US Dollar", "", "", "", "", "$", "", "", "", "", "", "", "", "", "", ""⟩, some ⟨"shares", "Share", "", "", "", "", "", "", "", "", "", "", "", "", "", "", ""⟩) else (none, none)
  tokens s := [.text s]
  trim := id
  hundred s := some (s ++ "00")
  digits _ v sep := some ("", v, String.singleton sep)

example : renderCell ftEnv (some ⟨"x#eps", "f", "c", "usdPerShare", 2, false, "1.25"⟩) [PureLabel, English, "fr", Espanol] =
    some [(PureLabel, ⟨"$ ", "1.25", ", /Share", ""⟩), (English, ⟨"$ ", "1.25", ", /Share", ""⟩), (Espanol, ⟨"$ ", "1.25", "  /Share", ""⟩)] := by
  decide +kernel

example : renderCell ftEnv (some ⟨"x#rate", "f", "c", "pure", 2, false, "1"⟩) [PureLabel] = some [(PureLabel, ⟨"", "100", ",%", ""⟩)] := by
  decide +kernel

example : renderCell ftEnv (some ⟨"x#name", "f", "c", "", precisionless, false, " A & B "⟩) [PureLabel, English] =
    some [(PureLabel, ⟨"", " A & B ", "", ""⟩), (English, ⟨"", " A & B ", "", ""⟩)] := by
  decide +kernel

end Telefacts
