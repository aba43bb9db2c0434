import Verif.Spec.XmlText
import Verif.Proof.Prelude
import Mathlib.Data.List.TakeWhile
import Mathlib.Data.List.Induction
import Mathlib.Tactic.Tauto
import Mathlib.Tactic.ByContra
/-! # Proofs about encoding/xml: names, references, character data -/
namespace Telefacts.XmlText

theorem char_le (a b : Char) : a ≤ b ↔ a.toNat ≤ b.toNat := Iff.rfl

theorem isWhite_iff (c : Char) : isWhite c = true ↔ White [c] := by simp [isWhite, White]; tauto

theorem white_all {w : Str} : White w ↔ ∀ c ∈ w, isWhite c = true := by
  simp only [White, isWhite, Bool.or_eq_true, decide_eq_true_eq]
  exact forall₂_congr fun c _ => by tauto

theorem isFirst_iff (e : Env) (c : Char) : isFirst e c = true ↔ StartChar e c := by
  simp only [isFirst, StartChar, isLetter]
  by_cases h : c.toNat < 128
  · have : ¬ 128 ≤ c.toNat := by omega
    simp [h, this]; tauto
  · have h' : 128 ≤ c.toNat := by omega
    have h1 : ¬ c ≤ 'Z' := by rw [char_le]; simp; omega
    have h2 : ¬ c ≤ 'z' := by rw [char_le]; simp; omega
    have h3 : c ≠ '_' := by rintro rfl; simp at h
    have h4 : c ≠ ':' := by rintro rfl; simp at h
    simp [h, h', h1, h2, h3, h4]

theorem nameChar_iff (e : Env) (c : Char) : (isFirst e c || isSecond e c) = true ↔ NameChar e c := by
  rw [Bool.or_eq_true, isFirst_iff]
  simp only [NameChar, isSecond]
  by_cases h : c.toNat < 128
  · have : ¬ 128 ≤ c.toNat := by omega
    simp [h, this]; tauto
  · have h' : 128 ≤ c.toNat := by omega
    have h1 : ¬ c ≤ '9' := by rw [char_le]; simp; omega
    have h3 : c ≠ '.' := by rintro rfl; simp at h
    have h4 : c ≠ '-' := by rintro rfl; simp at h
    simp [h, h', h1, h3, h4]

theorem nameish_of_nameChar {e : Env} {c : Char} (h : NameChar e c) : nameish c = true := by
  simp only [NameChar, StartChar] at h
  simp only [nameish, isLetter, Bool.or_eq_true, Bool.and_eq_true, decide_eq_true_eq]
  tauto

theorem nameish_false (e : Env) (c : Char) : nameish c = false ↔ c.toNat < 128 ∧ ¬ NameChar e c := by
  constructor
  · intro h
    refine ⟨?_, fun hn => ?_⟩
    · by_contra hc
      have : 128 ≤ c.toNat := by omega
      simp [nameish, this] at h
    · rw [nameish_of_nameChar hn] at h; simp at h
  · rintro ⟨h, hn⟩
    by_contra hc
    apply hn
    have h' : ¬ 128 ≤ c.toNat := by omega
    simp only [nameish, isLetter, Bool.not_eq_false, Bool.or_eq_true, Bool.and_eq_true, decide_eq_true_eq] at hc
    simp only [NameChar, StartChar]
    tauto

theorem isName_iff (e : Env) (n : Str) : isName e n = true ↔ IsName e n := by
  cases n with
  | nil => simp [isName, IsName]
  | cons c t =>
    simp only [isName, Bool.and_eq_true, isFirst_iff, List.all_eq_true, nameChar_iff, IsName]
    constructor
    · rintro ⟨h1, h2⟩; exact ⟨c, t, rfl, h1, h2⟩
    · rintro ⟨c', t', h, h1, h2⟩; simp at h; obtain ⟨rfl, rfl⟩ := h; exact ⟨h1, h2⟩

theorem IsName.nameish {e : Env} {n : Str} (h : IsName e n) : ∀ c ∈ n, nameish c = true := by
  obtain ⟨c, t, rfl, h1, h2⟩ := h
  intro d hd
  rcases List.mem_cons.1 hd with rfl | hd
  · exact nameish_of_nameChar (.inl h1)
  · exact nameish_of_nameChar (h2 d hd)

theorem IsName.nameChar {e : Env} {n : Str} (h : IsName e n) : ∀ c ∈ n, NameChar e c := by
  obtain ⟨c, t, rfl, h1, h2⟩ := h
  intro d hd
  rcases List.mem_cons.1 hd with rfl | hd
  · exact .inl h1
  · exact h2 d hd

theorem IsName.ne_nil {e : Env} {n : Str} (h : IsName e n) : n ≠ [] := by obtain ⟨c, t, rfl, _⟩ := h; simp

/-- The longest run. -/
theorem span_eq {p : Char → Bool} {a r : Str} (ha : ∀ c ∈ a, p c = true) (hr : ∀ c, r.head? = some c → p c = false) :
    (a ++ r).takeWhile p = a ∧ (a ++ r).dropWhile p = r := by
  induction a with
  | nil =>
    cases r with
    | nil => simp
    | cons c r => have := hr c rfl; simp [this]
  | cons c a ih =>
    have h := ih fun d hd => ha d (by simp [hd])
    have hc := ha c (by simp)
    simp [hc, h]

theorem head_dropWhile {p : Char → Bool} (s : Str) : ∀ c, (s.dropWhile p).head? = some c → p c = false := by
  intro c hc
  induction s with
  | nil => simp at hc
  | cons d s ih =>
    by_cases h : p d = true
    · rw [List.dropWhile_cons_of_pos h] at hc; exact ih hc
    · rw [List.dropWhile_cons_of_neg h] at hc; simp at hc; subst hc; simpa using h

theorem name_iff (e : Env) (s n r : Str) :
    name e s = some (n, r) ↔ s = n ++ r ∧ IsName e n ∧ ∀ c, r.head? = some c → nameish c = false := by
  simp only [name]
  constructor
  · intro h
    split at h
    · rename_i hn
      simp only [Option.some.injEq, Prod.mk.injEq] at h
      obtain ⟨rfl, rfl⟩ := h
      exact ⟨List.takeWhile_append_dropWhile.symm, (isName_iff e _).1 hn, head_dropWhile s⟩
    · simp at h
  · rintro ⟨rfl, hn, hr⟩
    obtain ⟨h1, h2⟩ := span_eq hn.nameish hr
    rw [h1, h2, if_pos ((isName_iff e n).2 hn)]

theorem takeWhile_colon (n : Str) :
    (':' ∉ n ∧ n.takeWhile (· ≠ ':') = n) ∨
      ∃ p l, n = p ++ ':' :: l ∧ ':' ∉ p ∧ n.takeWhile (· ≠ ':') = p ∧ n.drop (p.length + 1) = l := by
  induction n with
  | nil => left; simp
  | cons c n ih =>
    by_cases hc : c = ':'
    · subst hc
      right; exact ⟨[], n, by simp⟩
    · rcases ih with ⟨h1, h2⟩ | ⟨p, l, h1, h2, h3, h4⟩
      · left; exact ⟨by simp [h1, Ne.symm hc], by rw [List.takeWhile_cons_of_pos (by simpa using hc), h2]⟩
      · right
        refine ⟨c :: p, l, by simp [h1], by simp [h2, Ne.symm hc], by rw [List.takeWhile_cons_of_pos (by simpa using hc), h3], by simpa using h4⟩

theorem nsname_iff (e : Env) (s r : Str) (x : XName) :
    nsname e s = some (x, r) ↔ ∃ n, s = n ++ r ∧ QName e n x ∧ ∀ c, r.head? = some c → nameish c = false := by
  simp only [nsname]
  cases hn : name e s with
  | none =>
    simp only [reduceCtorEq, false_iff]
    rintro ⟨n, h1, h2, h3⟩
    have := (name_iff e s n r).2 ⟨h1, h2.1, h3⟩
    rw [hn] at this; simp at this
  | some q =>
    obtain ⟨n, r'⟩ := q
    obtain ⟨h1, h2, h3⟩ := (name_iff e s n r').1 hn
    have key : (∃ n, s = n ++ r ∧ QName e n x ∧ ∀ c, r.head? = some c → nameish c = false) ↔ QName e n x ∧ r' = r := by
      constructor
      · rintro ⟨m, m1, m2, m3⟩
        have := (name_iff e s m r).2 ⟨m1, m2.1, m3⟩
        rw [hn] at this; simp at this
        obtain ⟨rfl, rfl⟩ := this
        exact ⟨m2, rfl⟩
      · rintro ⟨m1, rfl⟩; exact ⟨n, h1, m1, h3⟩
    rw [key]
    simp only
    rcases takeWhile_colon n with ⟨hc, ht⟩ | ⟨p, l, hnp, hp, ht, hd⟩
    · have hcount : n.count ':' = 0 := List.count_eq_zero.2 hc
      rw [ht, hcount, if_neg (by simp), if_pos (.inl rfl)]
      simp only [Option.some.injEq, Prod.mk.injEq, QName]
      constructor
      · rintro ⟨rfl, rfl⟩; exact ⟨⟨h2, .inr ⟨rfl, .inl hc⟩⟩, rfl⟩
      · rintro ⟨⟨_, ⟨p, l, _, _, _, _, hh, _⟩ | ⟨hx, _⟩⟩, hr⟩
        · exact absurd (by simp [hh]) hc
        · exact ⟨hx.symm, hr⟩
    · rw [ht, hd]
      have hcount : n.count ':' = 1 + l.count ':' := by
        rw [hnp, List.count_append, List.count_eq_zero.2 hp]; simp; omega
      rw [hcount]
      by_cases hl : ':' ∈ l
      · have : 0 < l.count ':' := List.count_pos_iff.2 hl
        rw [if_pos (by omega)]
        simp only [reduceCtorEq, false_iff]
        rintro ⟨⟨_, ⟨p', l', _, _, hp', hl', hh, _⟩ | ⟨_, hx | ⟨m, hm, hx | hx⟩⟩⟩, _⟩
        · have c1 : n.count ':' = 1 := by
            rw [hh, List.count_append, List.count_eq_zero.2 hp']; simp [List.count_eq_zero.2 hl']
          omega
        · exact hx (by simp [hnp])
        · have c1 : n.count ':' = 1 := by rw [hx]; simp [List.count_eq_zero.2 hm]
          omega
        · have c1 : n.count ':' = 1 := by rw [hx]; simp [List.count_eq_zero.2 hm]
          omega
      · rw [if_neg (by rw [List.count_eq_zero.2 hl]; simp)]
        have hpn : p ≠ n := by rw [hnp]; intro h; simpa using congrArg List.length h
        by_cases hb : p = [] ∨ l = []
        · rw [if_pos (by tauto)]
          simp only [Option.some.injEq, Prod.mk.injEq, QName]
          constructor
          · rintro ⟨rfl, rfl⟩
            refine ⟨⟨h2, .inr ⟨rfl, .inr ?_⟩⟩, rfl⟩
            rcases hb with rfl | rfl
            · exact ⟨l, hl, .inl (by simpa using hnp)⟩
            · exact ⟨p, hp, .inr (by simpa using hnp)⟩
          · rintro ⟨⟨_, ⟨p', l', hp0, hl0, hp', hl', hh, _⟩ | ⟨hx, _⟩⟩, hr⟩
            · exfalso
              have e1 : n.takeWhile (· ≠ ':') = p' := by
                rw [hh]; exact (span_eq (p := fun c => decide (c ≠ ':')) (a := p') (r := ':' :: l') (by
                  intro c hc; simp; rintro rfl; exact hp' hc) (by simp)).1
              rw [ht] at e1; subst e1
              rw [hnp] at hh; simp at hh; subst hh
              tauto
            · exact ⟨hx.symm, hr⟩
        · rw [if_neg (by tauto)]
          simp only [Option.some.injEq, Prod.mk.injEq, QName]
          constructor
          · rintro ⟨rfl, rfl⟩
            exact ⟨⟨h2, .inl ⟨p, l, by tauto, by tauto, hp, hl, hnp, rfl⟩⟩, rfl⟩
          · rintro ⟨⟨_, ⟨p', l', hp0, hl0, hp', hl', hh, hx⟩ | ⟨_, hx | ⟨m, hm, hx | hx⟩⟩⟩, hr⟩
            · have e1 : n.takeWhile (· ≠ ':') = p' := by
                rw [hh]; exact (span_eq (p := fun c => decide (c ≠ ':')) (a := p') (r := ':' :: l') (by
                  intro c hc; simp; rintro rfl; exact hp' hc) (by simp)).1
              rw [ht] at e1; subst e1
              rw [hnp] at hh; simp at hh; subst hh
              exact ⟨hx.symm, hr⟩
            · exact absurd (by simp [hnp]) hx
            · exfalso
              cases p with
              | nil => simp at hb
              | cons c p => rw [hnp] at hx; simp at hx; simp [hx.1] at hp
            · exfalso
              rw [hnp] at hx
              have hl0 : l ≠ [] := by tauto
              have e2 := congrArg List.getLast? hx
              rw [List.getLast?_append, List.getLast?_append] at e2
              rw [List.getLast?_cons] at e2
              obtain ⟨y, hy⟩ := Option.ne_none_iff_exists'.1 (by simpa using hl0 : l.getLast? ≠ none)
              rw [hy] at e2
              simp at e2
              subst e2
              exact hl (List.mem_of_getLast? hy)

theorem QName.name {e : Env} {n : Str} {x : XName} (h : QName e n x) : IsName e n := h.1

theorem char_bound (c : Char) : c.toNat < 0xD800 ∨ (0xDFFF < c.toNat ∧ c.toNat < 0x110000) := c.valid

theorem inRange_iff (c : Char) : inRange c = true ↔ XmlChar c := by
  simp only [inRange, XmlChar, Bool.or_eq_true, Bool.and_eq_true, decide_eq_true_eq]
  have := char_bound c
  omega

theorem char_toNat_inj {a b : Char} (h : a.toNat = b.toNat) : a = b :=
  Char.ext (UInt32.toNat_inj.1 h)

theorem toNat_ofNat {n : Nat} (h : n < 0xD800 ∨ (0xDFFF < n ∧ n < 0x110000)) : (Char.ofNat n).toNat = n := by
  have hv : n.isValidChar := h
  simp only [Char.ofNat, dif_pos hv]
  rfl

theorem runeText_iff (n : Nat) (c : Char) :
    (n ≤ 0x10FFFF ∧ runeText n = c) ↔ c.toNat = n ∨ (0xD800 ≤ n ∧ n < 0xE000 ∧ c.toNat = 0xFFFD) := by
  have hb := char_bound c
  simp only [runeText]
  split
  · rename_i h
    constructor
    · rintro ⟨_, rfl⟩; right; exact ⟨h.1, h.2, toNat_ofNat (by omega)⟩
    · rintro (h1 | ⟨_, _, h1⟩)
      · omega
      · refine ⟨by omega, char_toNat_inj ?_⟩
        rw [h1]; exact toNat_ofNat (by omega)
  · rename_i h
    constructor
    · rintro ⟨hn, rfl⟩; left; exact toNat_ofNat (by omega)
    · rintro (h1 | h1)
      · refine ⟨by omega, char_toNat_inj ?_⟩
        rw [h1]; exact toNat_ofNat (by omega)
      · omega

theorem digit_iff {base : Nat} (hb : base = 10 ∨ base = 16) (c : Char) (v : Nat) :
    (DigitOf c v ∧ v < base) ↔ isDigit base c = true ∧ v = digit c := by
  simp only [DigitOf, isDigit, digit, Bool.or_eq_true, Bool.and_eq_true, decide_eq_true_eq, char_le,
    show '0'.toNat = 48 from rfl, show '9'.toNat = 57 from rfl, show 'a'.toNat = 97 from rfl, show 'f'.toNat = 102 from rfl,
    show 'A'.toNat = 65 from rfl, show 'F'.toNat = 70 from rfl]
  generalize c.toNat = k
  rcases hb with rfl | rfl
  · simp only [show ¬ (10 = 16) by decide, false_and, or_false]
    by_cases h1 : k < 58
    · simp only [h1, if_true]; omega
    · simp only [h1, if_false]; omega
  · by_cases h1 : k < 58
    · simp only [h1, if_true]; omega
    · by_cases h2 : k < 71
      · simp only [h1, h2, if_false, if_true]
        exact ⟨by rintro ⟨h | h | h, h'⟩ <;> exact ⟨by first | omega | (simp; omega), by omega⟩, by rintro ⟨h | h | h, rfl⟩ <;> exact ⟨by omega, by omega⟩⟩
      · simp only [h1, h2, if_false]
        exact ⟨by rintro ⟨h | h | h, h'⟩ <;> exact ⟨by first | omega | (simp; omega), by omega⟩, by rintro ⟨h | h | h, rfl⟩ <;> exact ⟨by omega, by omega⟩⟩

theorem numeral_iff {base : Nat} (hb : base = 10 ∨ base = 16) (ds : Str) (n : Nat) :
    Numeral base ds n ↔ ds ≠ [] ∧ (∀ c ∈ ds, isDigit base c = true) ∧ n = ds.foldl (fun a c => base * a + digit c) 0 := by
  constructor
  · intro h
    induction h with
    | one c v h1 h2 =>
      have := (digit_iff hb c v).1 ⟨h1, h2⟩
      simp [this]
    | more s n c v hs h1 h2 ih =>
      have h := (digit_iff hb c v).1 ⟨h1, h2⟩
      refine ⟨by simp, ?_, ?_⟩
      · intro d hd
        rcases List.mem_append.1 hd with hd | hd
        · exact ih.2.1 d hd
        · simp at hd; subst hd; exact h.1
      · rw [List.foldl_append, ← ih.2.2, h.2]; rfl
  · rintro ⟨h0, h1, rfl⟩
    induction ds using List.reverseRecOn with
    | nil => exact absurd rfl h0
    | append_singleton s c ih =>
      have hc := (digit_iff hb c (digit c)).2 ⟨h1 c (by simp), rfl⟩
      by_cases hs : s = []
      · subst hs
        have := Numeral.one c _ hc.1 hc.2
        simpa using this
      · rw [List.foldl_append]
        exact .more s _ c _ (ih hs fun d hd => h1 d (by simp [hd])) hc.1 hc.2

theorem charRef_iff {base : Nat} (hb : base = 10 ∨ base = 16) (s r : Str) (c : Char) :
    charRef base s = some (c, r) ↔
      ∃ ds n, s = ds ++ ';' :: r ∧ Numeral base ds n ∧ (c.toNat = n ∨ (0xD800 ≤ n ∧ n < 0xE000 ∧ c.toNat = 0xFFFD)) := by
  simp only [charRef]
  constructor
  · intro h
    split at h
    · rename_i r' hr
      split at h
      · simp at h
      · rename_i hne
        split at h
        · rename_i hle
          simp only [Option.some.injEq, Prod.mk.injEq] at h
          obtain ⟨hc, rfl⟩ := h
          refine ⟨s.takeWhile (isDigit base), _, ?_, (numeral_iff hb _ _).2 ⟨hne, fun d hd => List.mem_takeWhile_imp hd, rfl⟩,
            (runeText_iff _ _).1 ⟨hle, hc⟩⟩
          rw [← hr, List.takeWhile_append_dropWhile]
        · simp at h
    · simp at h
  · rintro ⟨ds, n, rfl, hn, hc⟩
    obtain ⟨h0, h1, h2⟩ := (numeral_iff hb ds n).1 hn
    have hsemi : isDigit base ';' = false := by rcases hb with rfl | rfl <;> decide
    obtain ⟨e1, e2⟩ := span_eq (r := ';' :: r) h1 (by simp [hsemi])
    rw [e1, e2]
    simp only [if_neg h0, ← h2]
    obtain ⟨h3, h4⟩ := (runeText_iff n c).2 hc
    rw [if_pos h3, h4]

theorem entities_iff (n : Str) (c : Char) : mapGet entities n = some c ↔ Reference ('&' :: n ++ [';']) c ∧ n.head? ≠ some '#' := by
  constructor
  · intro h
    simp only [entities, mapGet] at h
    split at h
    · rename_i h1; subst h1; simp at h; subst h; exact ⟨.lt, by simp⟩
    split at h
    · rename_i h1; subst h1; simp at h; subst h; exact ⟨.gt, by simp⟩
    split at h
    · rename_i h1; subst h1; simp at h; subst h; exact ⟨.amp, by simp⟩
    split at h
    · rename_i h1; subst h1; simp at h; subst h; exact ⟨.apos, by simp⟩
    split at h
    · rename_i h1; subst h1; simp at h; subst h; exact ⟨.quot, by simp⟩
    simp at h
  · rintro ⟨h, hh⟩
    generalize ha : '&' :: n ++ [';'] = a at h
    have cut : ∀ m : Str, '&' :: n ++ [';'] = '&' :: m ++ [';'] → n = m := by
      intro m hm; simpa using hm
    cases h with
    | lt => rw [cut "lt".toList ha]; rfl
    | gt => rw [cut "gt".toList ha]; rfl
    | amp => rw [cut "amp".toList ha]; rfl
    | apos => rw [cut "apos".toList ha]; rfl
    | quot => rw [cut "quot".toList ha]; rfl
    | dec ds => rw [cut ('#' :: ds) ha] at hh; simp at hh
    | hex ds => rw [cut ('#' :: 'x' :: ds) ha] at hh; simp at hh
    | decSurrogate ds => rw [cut ('#' :: ds) ha] at hh; simp at hh
    | hexSurrogate ds => rw [cut ('#' :: 'x' :: ds) ha] at hh; simp at hh

theorem entity_iff (e : Env) (s r : Str) (c : Char) :
    entity e s = some (c, r) ↔ ∃ a, '&' :: s = a ++ r ∧ Reference a c := by
  have hdec : ∀ ds n, Numeral 10 ds n → ∃ d t, ds = d :: t ∧ d ≠ 'x' ∧ d ≠ '#' := by
    intro ds n hn
    obtain ⟨h0, h1, _⟩ := (numeral_iff (.inl rfl) ds n).1 hn
    cases ds with
    | nil => exact absurd rfl h0
    | cons d t =>
      have hd := h1 d (by simp)
      exact ⟨d, t, rfl, by rintro rfl; revert hd; decide, by rintro rfl; revert hd; decide⟩
  unfold entity
  split
  · rename_i r0
    rw [charRef_iff (.inr rfl)]
    constructor
    · rintro ⟨ds, n, rfl, hn, hc | ⟨h1, h2, h3⟩⟩
      · exact ⟨_, by simp, .hex ds n c hn hc⟩
      · exact ⟨_, by simp, .hexSurrogate ds n c hn h1 h2 h3⟩
    · rintro ⟨a, ha, h⟩
      cases h with
      | lt => simp at ha
      | gt => simp at ha
      | amp => simp at ha
      | apos => simp at ha
      | quot => simp at ha
      | dec ds n c hn hc =>
        obtain ⟨d, t, rfl, hx, _⟩ := hdec ds n hn
        simp at ha; exact absurd ha.1.symm hx
      | hex ds n c hn hc => simp at ha; exact ⟨ds, n, by simp [ha], hn, .inl hc⟩
      | decSurrogate ds n c hn h1 h2 h3 =>
        obtain ⟨d, t, rfl, hx, _⟩ := hdec ds n hn
        simp at ha; exact absurd ha.1.symm hx
      | hexSurrogate ds n c hn h1 h2 h3 => simp at ha; exact ⟨ds, n, by simp [ha], hn, .inr ⟨h1, h2, h3⟩⟩
  · rename_i r0 hx
    rw [charRef_iff (.inl rfl)]
    constructor
    · rintro ⟨ds, n, rfl, hn, hc | ⟨h1, h2, h3⟩⟩
      · exact ⟨_, by simp, .dec ds n c hn hc⟩
      · exact ⟨_, by simp, .decSurrogate ds n c hn h1 h2 h3⟩
    · rintro ⟨a, ha, h⟩
      cases h with
      | lt => simp at ha
      | gt => simp at ha
      | amp => simp at ha
      | apos => simp at ha
      | quot => simp at ha
      | dec ds n c hn hc => simp at ha; exact ⟨ds, n, by simp [ha], hn, .inl hc⟩
      | hex ds n c hn hc => simp at ha; exact absurd ha (hx _)
      | decSurrogate ds n c hn h1 h2 h3 => simp at ha; exact ⟨ds, n, by simp [ha], hn, .inr ⟨h1, h2, h3⟩⟩
      | hexSurrogate ds n c hn h1 h2 h3 => simp at ha; exact absurd ha (hx _)
  · rename_i h1 h2
    constructor
    · intro h
      split at h
      · rename_i r0 hr
        split at h
        · rename_i hn
          obtain ⟨d, hd, hp⟩ := Option.map_eq_some_iff.1 h
          simp only [Prod.mk.injEq] at hp
          obtain ⟨rfl, rfl⟩ := hp
          obtain ⟨hR, _⟩ := (entities_iff _ _).1 hd
          refine ⟨_, ?_, hR⟩
          have := (List.takeWhile_append_dropWhile (p := nameish) (l := s)).symm
          rw [hr] at this
          simpa using this
        · simp at h
      · simp at h
    · rintro ⟨a, ha, h⟩
      have done : ∀ m : Str, s = m ++ ';' :: r → (∀ c ∈ m, nameish c = true) → isName e m = true → mapGet entities m = some c →
          (match List.dropWhile nameish s with
            | ';' :: r => if isName e (List.takeWhile nameish s) = true then
                Option.map (fun x => (x, r)) (mapGet entities (List.takeWhile nameish s)) else none
            | x => none) = some (c, r) := by
        rintro m rfl hm hn hg
        obtain ⟨e1, e2⟩ := span_eq (r := ';' :: r) hm (by simp; decide)
        rw [e1, e2]
        simp [hn, hg]
      have ascii : ∀ m : Str, isName ⟨fun _ => false, fun _ => false, fun _ => false⟩ m = true → (∀ c ∈ m, c.toNat < 128) → isName e m = true := by
        intro m hm ha
        rw [isName_iff] at hm ⊢
        obtain ⟨c, t, rfl, hc, ht⟩ := hm
        have st : ∀ d, StartChar ⟨fun _ => false, fun _ => false, fun _ => false⟩ d → StartChar e d := by
          intro d hd; simp [StartChar] at hd ⊢; tauto
        refine ⟨c, t, rfl, st c hc, fun d hd => ?_⟩
        have := ht d hd
        simp only [NameChar] at this ⊢
        rcases this with h | h | h | h | h
        · exact .inl (st d h)
        · tauto
        · tauto
        · tauto
        · simp at h
      cases h with
      | lt => exact done "lt".toList (by simpa using ha) (by decide) (ascii _ (by decide) (by decide)) rfl
      | gt => exact done "gt".toList (by simpa using ha) (by decide) (ascii _ (by decide) (by decide)) rfl
      | amp => exact done "amp".toList (by simpa using ha) (by decide) (ascii _ (by decide) (by decide)) rfl
      | apos => exact done "apos".toList (by simpa using ha) (by decide) (ascii _ (by decide) (by decide)) rfl
      | quot => exact done "quot".toList (by simpa using ha) (by decide) (ascii _ (by decide) (by decide)) rfl
      | dec ds n c hn hc => simp at ha; exact absurd ha (h2 _)
      | hex ds n c hn hc => simp at ha; exact absurd ha (h2 _)
      | decSurrogate ds n c hn h1 h2 h3 => simp at ha; rename_i hh; exact absurd ha (hh _)
      | hexSurrogate ds n c hn h1 h2 h3 => simp at ha; rename_i hh; exact absurd ha (hh _)

end Telefacts.XmlText
