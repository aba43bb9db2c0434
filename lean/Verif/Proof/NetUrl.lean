import Verif.Model.NetUrl
import Verif.Spec.NetUrl
import Verif.Spec.Url
import Verif.Proof.Json
import Mathlib.Tactic.SplitIfs
import Mathlib.Tactic.Tauto
import Mathlib.Tactic.ByContra
import Mathlib.Data.List.TakeWhile
/-! # URLs: the parser and the grammar -/
namespace Telefacts.Url
open Telefacts.Json (unhex Hex unhex_iff)

/-! ## Characters -/

theorem letter_iff (c : Char) : letter c = true ↔ Letter c := by simp [letter, Letter]

theorem digit_iff (c : Char) : digit c = true ↔ Digit c := by simp [digit, Digit]

theorem hostChar_iff (c : Char) : hostChar c = true ↔ HostChar c := by
  simp only [hostChar, HostChar, Bool.or_eq_true, letter_iff, digit_iff, decide_eq_true_eq, or_assoc]

theorem userChar_iff (c : Char) : userChar c = true ↔ UserChar c := by
  simp only [userChar, UserChar, Bool.or_eq_true, letter_iff, digit_iff, decide_eq_true_eq, or_assoc]

theorem schemeChar_iff (c : Char) : schemeChar c = true ↔ Letter c ∨ Digit c ∨ c = '+' ∨ c = '-' ∨ c = '.' := by
  simp only [schemeChar, Bool.or_eq_true, letter_iff, digit_iff, beq_iff_eq, or_assoc]

/-! ## Decoding -/

/-- Characters that stand for themselves. -/
def Plain : Mode → Char → Prop
  | .path, _ | .user, _ => True
  | .host, c | .zone, c => 128 ≤ c.toNat ∨ HostChar c

/-- Numbers that may be written with `%`. -/
def Esc : Mode → Nat → Prop
  | .path, _ | .user, _ => True
  | .host, n => n = 37 ∨ 128 ≤ n
  | .zone, n => n = 37 ∨ n = 32 ∨ HostChar (Char.ofNat n)

theorem hex_lt {c : Char} {v : Nat} (h : Hex c v) : v < 16 := by unfold Hex at h; omega

theorem hex_eq {c : Char} {v : Nat} (h : Hex c v) (hv : v < 10) : c.toNat = 48 + v := by unfold Hex at h; omega

theorem char_toNat {c d : Char} (h : c.toNat = d.toNat) : c = d := by
  rw [← Char.ofNat_toNat c, h, Char.ofNat_toNat]

theorem percent_iff {x y : Char} {a b : Nat} (hx : Hex x a) (hy : Hex y b) : (x = '2' ∧ y = '5') ↔ a * 16 + b = 37 := by
  have h1 := hex_lt hx
  have h2 := hex_lt hy
  constructor
  · rintro ⟨rfl, rfl⟩
    have e1 : ('2' : Char).toNat = 50 := rfl
    have e2 : ('5' : Char).toNat = 53 := rfl
    unfold Hex at hx hy
    omega
  · intro h
    exact ⟨char_toNat (by rw [hex_eq hx (by omega)]; have : ('2' : Char).toNat = 50 := rfl; omega),
      char_toNat (by rw [hex_eq hy (by omega)]; have : ('5' : Char).toNat = 53 := rfl; omega)⟩

theorem unescape_sound (m : Mode) (s : Str) : ∀ d, unescape m s = some d → Decodes (Plain m) (Esc m) s d := by
  fun_induction unescape m s with
  | case1 => intro d h; cases h; exact .nil
  | case2 => intro d h; cases h
  | case3 => intro d h; cases h
  | case4 x y r' a b ha hb h1 h2 ih =>
    intro d h
    obtain ⟨e, he, rfl⟩ := Option.map_eq_some_iff.1 h
    have hx := (unhex_iff _ _).1 hb
    have hy := (unhex_iff _ _).1 ha
    refine .esc _ _ _ _ _ _ hx hy ?_ (ih e he)
    rw [percent_iff hx hy] at h1 h2
    have := hex_lt hy
    cases m with
    | path => trivial
    | user => trivial
    | host =>
      simp only [true_and, not_and, not_not] at h1
      simp only [Esc]
      by_cases h8 : a < 8
      · exact .inl (h1 h8)
      · right; omega
    | zone =>
      simp only [true_and, not_and] at h2
      simp only [Esc, ← hostChar_iff]
      by_cases e1 : a * 16 + b = 37
      · exact .inl e1
      · by_cases e2 : a * 16 + b = 32
        · exact .inr (.inl e2)
        · right; right
          simpa using h2 e1 e2
  | case5 => intro d h; cases h
  | case6 => intro d h; cases h
  | case7 => intro d h; cases h
  | case8 c r hc hn ih =>
    intro d h
    obtain ⟨e, he, rfl⟩ := Option.map_eq_some_iff.1 h
    refine .char _ _ _ hc ?_ (ih e he)
    cases m with
    | path => trivial
    | user => trivial
    | host =>
      simp only [true_or, true_and, not_and] at hn
      simp only [Plain, ← hostChar_iff]
      by_cases h8 : c.toNat < 128
      · right; simpa using hn h8
      · left; omega
    | zone =>
      simp only [or_true, true_and, not_and] at hn
      simp only [Plain, ← hostChar_iff]
      by_cases h8 : c.toNat < 128
      · right; simpa using hn h8
      · left; omega

theorem unescape_complete (m : Mode) {s d : Str} (h : Decodes (Plain m) (Esc m) s d) : unescape m s = some d := by
  induction h with
  | nil => simp [unescape]
  | char c s d hc hp _ ih =>
    rw [unescape.eq_def]
    simp only [if_neg hc, ih, Option.map_some]
    rw [if_neg]
    rintro ⟨hm, h1, h2⟩
    rcases hm with rfl | rfl <;>
    · simp only [Plain, ← hostChar_iff, h2] at hp
      simp at hp
      omega
  | esc x y a b s d hx hy he _ ih =>
    have h16 := hex_lt hy
    rw [unescape.eq_def]
    simp only [if_pos, (unhex_iff _ _).2 hx, (unhex_iff _ _).2 hy, ih, Option.map_some, percent_iff hx hy]
    rw [if_neg, if_neg]
    · rintro ⟨rfl, h1, h2, h3⟩
      simp only [Esc, ← hostChar_iff, h3] at he
      simp at he
      omega
    · rintro ⟨rfl, h1, h2⟩
      simp only [Esc] at he
      omega

theorem unescape_iff (m : Mode) (s d : Str) : unescape m s = some d ↔ Decodes (Plain m) (Esc m) s d :=
  ⟨unescape_sound m s d, unescape_complete m⟩

theorem unescape_path (s d : Str) : unescape .path s = some d ↔ DecodesPath s d := unescape_iff .path s d

theorem unescape_user (s d : Str) : unescape .user s = some d ↔ DecodesPath s d := unescape_iff .user s d

theorem unescape_host (s d : Str) : unescape .host s = some d ↔ DecodesHost s d := unescape_iff .host s d

theorem unescape_zone (s d : Str) : unescape .zone s = some d ↔ DecodesZone s d := unescape_iff .zone s d

theorem decodes_append {P : Char → Prop} {E : Nat → Prop} {s d s' d' : Str} (h : Decodes P E s d) (h' : Decodes P E s' d') :
    Decodes P E (s ++ s') (d ++ d') := by
  induction h with
  | nil => exact h'
  | char c s d hc hp _ ih => exact .char _ _ _ hc hp ih
  | esc x y a b s d hx hy he _ ih => exact .esc _ _ _ _ _ _ hx hy he ih

/-- No escape contains a character that is neither a percent sign nor a hexadecimal digit. -/
theorem decodes_split {P : Char → Prop} {E : Nat → Prop} {c : Char} (hc : c ≠ '%') (hx : ∀ v, ¬ Hex c v) {t d : Str}
    (h : Decodes P E t d) : ∀ a b, t = a ++ c :: b → ∃ d1 d2, Decodes P E a d1 ∧ Decodes P E b d2 := by
  induction h with
  | nil => intro a b h; simp at h
  | char e s d he hp hs ih =>
    intro a b h
    cases a with
    | nil =>
      rw [List.nil_append, List.cons.injEq] at h
      exact ⟨[], d, .nil, h.2 ▸ hs⟩
    | cons x a =>
      rw [List.cons_append, List.cons.injEq] at h
      obtain ⟨d1, d2, h1, h2⟩ := ih a b h.2
      exact ⟨e :: d1, d2, h.1 ▸ .char _ _ _ he hp h1, h2⟩
  | esc x y va vb s d hx' hy he hs ih =>
    intro a b h
    match a with
    | [] => exact absurd (List.cons.inj h).1.symm hc
    | [p] =>
      simp only [List.cons_append, List.nil_append, List.cons.injEq] at h
      exact absurd (h.2.1 ▸ hx') (hx va)
    | [p, q] =>
      simp only [List.cons_append, List.nil_append, List.cons.injEq] at h
      exact absurd (h.2.2.1 ▸ hy) (hx vb)
    | p :: q :: r :: a =>
      simp only [List.cons_append, List.cons.injEq] at h
      obtain ⟨d1, d2, h1, h2⟩ := ih a b h.2.2.2
      obtain ⟨rfl, rfl, rfl, _⟩ := h
      exact ⟨_, d2, .esc _ _ _ _ _ _ hx' hy he h1, h2⟩

/-- Which characters can occur in a text and in what it decodes to. -/
theorem decodes_chars {P : Char → Prop} {E : Nat → Prop} {t d : Str} (h : Decodes P E t d) :
    (∀ c ∈ t, P c ∨ c = '%' ∨ ∃ v, Hex c v) ∧ ∀ c ∈ d, P c ∨ ∃ n, E n ∧ n < 256 ∧ c = Char.ofNat n := by
  induction h with
  | nil => simp
  | char e s d he hp hs ih =>
    refine ⟨?_, ?_⟩
    · intro c hc
      rcases List.mem_cons.1 hc with rfl | hc
      · exact .inl hp
      · exact ih.1 c hc
    · intro c hc
      rcases List.mem_cons.1 hc with rfl | hc
      · exact .inl hp
      · exact ih.2 c hc
  | esc x y va vb s d hx hy he hs ih =>
    refine ⟨?_, ?_⟩
    · intro c hc
      simp only [List.mem_cons] at hc
      rcases hc with rfl | rfl | rfl | hc
      · exact .inr (.inl rfl)
      · exact .inr (.inr ⟨_, hx⟩)
      · exact .inr (.inr ⟨_, hy⟩)
      · exact ih.1 c hc
    · intro c hc
      rcases List.mem_cons.1 hc with rfl | hc
      · exact .inr ⟨_, he, by have := hex_lt hx; have := hex_lt hy; omega, rfl⟩
      · exact ih.2 c hc

/-! ## Splitting -/

theorem splitLast_none (c : Char) (s : Str) : splitLast c s = none ↔ c ∉ s := by
  induction s with
  | nil => simp [splitLast]
  | cons x r ih =>
    rw [splitLast]
    cases h : splitLast c r with
    | some p =>
      have : c ∈ r := by
        by_contra hn
        rw [ih.2 hn] at h
        cases h
      simp [this]
    | none =>
      have := ih.1 h
      split_ifs with hx
      · simp [hx]
      · simp [this, Ne.symm hx]

theorem splitLast_some (c : Char) (s a b : Str) : splitLast c s = some (a, b) ↔ s = a ++ c :: b ∧ c ∉ b := by
  induction s generalizing a b with
  | nil => simp [splitLast]
  | cons x r ih =>
    rw [splitLast]
    cases h : splitLast c r with
    | some p =>
      obtain ⟨a', b'⟩ := p
      obtain ⟨h1, h2⟩ := (ih a' b').1 h
      simp only [Option.some.injEq, Prod.mk.injEq]
      constructor
      · rintro ⟨rfl, rfl⟩
        exact ⟨by rw [h1]; rfl, h2⟩
      · rintro ⟨h3, h4⟩
        cases a with
        | nil =>
          rw [List.nil_append, List.cons.injEq] at h3
          rw [← h3.2, h1] at h4
          simp at h4
        | cons y a =>
          rw [List.cons_append, List.cons.injEq] at h3
          have := (ih a b).2 ⟨h3.2, h4⟩
          rw [h] at this
          simp only [Option.some.injEq, Prod.mk.injEq] at this
          exact ⟨by rw [h3.1, this.1], this.2⟩
    | none =>
      have hn := (splitLast_none c r).1 h
      split_ifs with hx
      · subst hx
        simp only [Option.some.injEq, Prod.mk.injEq]
        constructor
        · rintro ⟨rfl, rfl⟩; exact ⟨rfl, hn⟩
        · rintro ⟨h3, h4⟩
          cases a with
          | nil => exact ⟨rfl, by simpa using h3⟩
          | cons y a =>
            rw [List.cons_append, List.cons.injEq] at h3
            rw [h3.2] at hn
            simp at hn
      · simp only [reduceCtorEq, false_iff, not_and]
        intro h3
        exfalso
        cases a with
        | nil => exact hx (List.cons.inj h3).1
        | cons y a =>
          rw [List.cons_append, List.cons.injEq] at h3
          rw [h3.2] at hn
          simp at hn

theorem prefix_contains {s : Str} (h : ['%', '2', '5'].isPrefixOf s = true) : ∃ r, s = "%25".toList ++ r := by
  obtain ⟨r, hr⟩ := List.isPrefixOf_iff_prefix.1 h
  exact ⟨r, hr.symm⟩

theorem contains_cons {w : Str} {c : Char} {s : Str} : Contains w (c :: s) ↔ (∃ r, c :: s = w ++ r) ∨ Contains w s := by
  constructor
  · rintro ⟨a, b, h⟩
    cases a with
    | nil => exact .inl ⟨b, h⟩
    | cons x a =>
      rw [List.cons_append, List.cons_append, List.cons.injEq] at h
      exact .inr ⟨a, b, h.2⟩
  · rintro (⟨r, h⟩ | ⟨a, b, h⟩)
    · exact ⟨[], r, h⟩
    · exact ⟨c :: a, b, by rw [h]; rfl⟩

theorem splitZone_none (s : Str) : splitZone s = none ↔ ¬ Contains "%25".toList s := by
  induction s with
  | nil =>
    simp only [splitZone, true_iff]
    rintro ⟨a, b, h⟩
    have := congrArg List.length h
    simp at this
  | cons c r ih =>
    rw [splitZone, contains_cons]
    split_ifs with hp
    · simp only [reduceCtorEq, false_iff, not_not]
      exact .inl (prefix_contains hp)
    · rw [Option.map_eq_none_iff, ih]
      have : ¬ ∃ r', c :: r = "%25".toList ++ r' := by
        rintro ⟨r', h⟩
        exact hp (List.isPrefixOf_iff_prefix.2 ⟨r', h.symm⟩)
      tauto

theorem splitZone_some (s a b : Str) : splitZone s = some (a, b) ↔
    s = a ++ b ∧ (∃ z, b = "%25".toList ++ z) ∧ ¬ Contains "%25".toList a := by
  induction s generalizing a b with
  | nil =>
    simp only [splitZone, reduceCtorEq, false_iff]
    rintro ⟨h1, ⟨z, rfl⟩, _⟩
    have := congrArg List.length h1
    simp at this
  | cons c r ih =>
    rw [splitZone]
    have key : ∀ a', (∃ z, b = "%25".toList ++ z) → (c :: a') ++ b = c :: r →
        (['%', '2', '5'].isPrefixOf (c :: r) = true ↔ ∃ r', c :: a' = "%25".toList ++ r') := by
      rintro a' ⟨z, rfl⟩ h
      rw [← h]
      constructor
      · intro hp
        obtain ⟨r', hr'⟩ := prefix_contains hp
        match a' with
        | [] => simp at hr'
        | [x] => simp at hr'
        | x :: y :: a'' =>
          simp only [List.cons_append, String.reduceToList, List.cons.injEq, List.nil_append] at hr'
          exact ⟨a'', by rw [hr'.1, hr'.2.1, hr'.2.2.1]; rfl⟩
      · rintro ⟨r', hr'⟩
        rw [hr']
        exact List.isPrefixOf_iff_prefix.2 ⟨r' ++ ("%25".toList ++ z), by simp⟩
    split_ifs with hp
    · simp only [Option.some.injEq, Prod.mk.injEq]
      constructor
      · rintro ⟨rfl, rfl⟩
        refine ⟨rfl, prefix_contains hp, ?_⟩
        rintro ⟨x, y, h⟩
        have := congrArg List.length h
        simp at this
      · rintro ⟨h1, h2, h3⟩
        cases a with
        | nil => exact ⟨rfl, h1⟩
        | cons x a =>
          exfalso
          rw [List.cons_append, List.cons.injEq] at h1
          obtain ⟨rfl, h1⟩ := h1
          exact h3 (contains_cons.2 (.inl ((key a h2 (by rw [h1]; rfl)).1 hp)))
    · rw [Option.map_eq_some_iff]
      constructor
      · rintro ⟨⟨a', b'⟩, h1, h2⟩
        simp only [Prod.mk.injEq] at h2
        obtain ⟨rfl, rfl⟩ := h2
        obtain ⟨h3, h4, h5⟩ := (ih a' b').1 h1
        refine ⟨by rw [h3]; rfl, h4, ?_⟩
        rw [contains_cons]
        rintro (h | h)
        · exact hp ((key a' h4 (by rw [h3]; rfl)).2 h)
        · exact h5 h
      · rintro ⟨h1, h2, h3⟩
        cases a with
        | nil =>
          obtain ⟨z, rfl⟩ := h2
          exact absurd (List.isPrefixOf_iff_prefix.2 ⟨z, h1.symm⟩) hp
        | cons x a =>
          rw [List.cons_append, List.cons.injEq] at h1
          obtain ⟨rfl, h1⟩ := h1
          refine ⟨(a, b), (ih a b).2 ⟨h1, h2, fun h => h3 (contains_cons.2 (.inr h))⟩, rfl⟩

/-! ## Hosts -/

theorem validPort_iff (p : Str) : validPort p = true ↔ Port p := by
  cases p with
  | nil => simp [validPort, Port]
  | cons c r =>
    simp only [validPort, Port, Bool.and_eq_true, beq_iff_eq, List.all_eq_true, digit_iff, reduceCtorEq, List.cons.injEq, false_or]
    constructor
    · rintro ⟨rfl, h⟩; exact ⟨r, ⟨rfl, rfl⟩, h⟩
    · rintro ⟨ds, ⟨rfl, rfl⟩, h⟩; exact ⟨rfl, h⟩

theorem not_digit {c : Char} (h : ¬ (48 ≤ c.toNat ∧ c.toNat ≤ 57)) (ds : Str) (hd : ∀ x ∈ ds, Digit x) : c ∉ ds :=
  fun hc => h (hd c hc)

theorem port_not_mem {p : Str} (h : Port p) {c : Char} (h1 : ¬ (48 ≤ c.toNat ∧ c.toNat ≤ 57)) (h2 : c ≠ ':') : c ∉ p := by
  rcases h with rfl | ⟨ds, rfl, hd⟩
  · simp
  · simp only [List.mem_cons, not_or]
    exact ⟨h2, not_digit h1 ds hd⟩

theorem parseHost_iff (h d : Str) : parseHost h = some d ↔ Host h d := by
  unfold parseHost
  by_cases hb : h.head? = some '['
  · rw [if_pos hb]
    have notName : ∀ {h' : Str}, h'.head? ≠ some '[' → h' = h → False := fun h1 h2 => h1 (h2 ▸ hb)
    obtain ⟨h0, rfl⟩ : ∃ h0, h = '[' :: h0 := by
      cases h with
      | nil => simp at hb
      | cons c r => simp at hb; exact ⟨r, by rw [hb]⟩
    cases hs : splitLast ']' ('[' :: h0) with
    | none =>
      simp only [reduceCtorEq, false_iff]
      have := (splitLast_none _ _).1 hs
      intro hh
      generalize hg : '[' :: h0 = g at hh
      rcases hh with ⟨_, _, h1, _, _⟩ | ⟨a, p, _, _, _, _⟩ | ⟨a, z, p, _, _, _, _, _, _, _, _⟩
      · exact h1 (by rw [← hg]; rfl)
      · rw [hg] at this; simp at this
      · rw [hg] at this; simp at this
    | some q =>
      obtain ⟨a0, port⟩ := q
      obtain ⟨e, hnp⟩ := (splitLast_some _ _ _ _).1 hs
      obtain ⟨a, rfl⟩ : ∃ a, a0 = '[' :: a := by
        cases a0 with
        | nil => simp at e
        | cons x a => exact ⟨a, by rw [(List.cons.inj e).1]⟩
      have uniq : ∀ a' p', '[' :: h0 = a' ++ ']' :: p' → Port p' → a' = '[' :: a ∧ p' = port := by
        intro a' p' he hp
        have := (splitLast_some ']' ('[' :: h0) a' p').2 ⟨he, port_not_mem hp (by decide) (by decide)⟩
        rw [hs] at this
        simp only [Option.some.injEq, Prod.mk.injEq] at this
        exact ⟨this.1.symm, this.2.symm⟩
      simp only
      by_cases hp : Port port
      · rw [if_pos ((validPort_iff _).2 hp)]
        cases hz : splitZone ('[' :: a) with
        | none =>
          simp only [unescape_host]
          rw [splitZone_none] at hz
          constructor
          · intro hd
            rw [e] at hd ⊢
            exact .literal a port d hp hz hd
          · intro hh
            generalize hg : '[' :: h0 = g at hh
            rcases hh with ⟨_, _, h1, _, hd⟩ | ⟨a', p', _, hp', hz', hd⟩ | ⟨a', z', p', _, _, _, hp', hz', hd, he', hf⟩
            · exact hd
            · exact hd
            · exfalso
              have := (uniq ('[' :: a' ++ ("%25".toList ++ z')) p' (by rw [hg]; simp) hp').1
              exact hz ⟨'[' :: a', z', by rw [← this]; simp⟩
        | some q =>
          obtain ⟨h1, h2⟩ := q
          obtain ⟨e1, ⟨z, rfl⟩, hnc⟩ := (splitZone_some _ _ _).1 hz
          obtain ⟨b, rfl⟩ : ∃ b, h1 = '[' :: b := by
            cases h1 with
            | nil => simp at e1
            | cons x a => exact ⟨a, by rw [(List.cons.inj e1).1]⟩
          constructor
          · intro hd
            simp only at hd
            split at hd
            · rename_i d1 d2 d3 k1 k2 k3
              obtain rfl := Option.some.inj hd
              have := Host.zoned b z port d1 d2 d3 hp hnc ((unescape_host _ _).1 k1) ((unescape_zone _ _).1 k2) ((unescape_host _ _).1 k3)
              rw [e, e1]
              simpa [List.append_assoc] using this
            · cases hd
          · intro hh
            generalize hg : '[' :: h0 = g at hh
            rcases hh with ⟨_, _, h1, _, hd⟩ | ⟨a', p', _, hp', hz', hd⟩ | ⟨a', z', p', d1, d2, d3, hp', hz', hd, he', hf⟩
            · exact absurd (by rw [← hg]; rfl) h1
            · exfalso
              have := (uniq ('[' :: a') p' (by rw [hg]) hp').1
              exact hz' ⟨'[' :: b, z, by rw [this, e1, List.append_assoc]⟩
            · have := uniq ('[' :: a' ++ ("%25".toList ++ z')) p' (by rw [hg]; simp) hp'
              obtain ⟨e2, rfl⟩ := this
              have h3 := (splitZone_some ('[' :: a) ('[' :: a') ("%25".toList ++ z')).2 ⟨e2.symm, ⟨z', rfl⟩, hz'⟩
              have h4 := (splitZone_some ('[' :: a) ('[' :: b) ("%25".toList ++ z)).2 ⟨e1, ⟨z, rfl⟩, hnc⟩
              rw [h4] at h3
              simp only [Option.some.injEq, Prod.mk.injEq] at h3
              simp only [h3.1, h3.2, (unescape_host _ _).2 hd, (unescape_zone _ _).2 he', (unescape_host _ _).2 hf]
      · rw [if_neg (by rw [validPort_iff]; exact hp)]
        simp only [reduceCtorEq, false_iff]
        intro hh
        generalize hg : '[' :: h0 = g at hh
        rcases hh with ⟨_, _, h1, _, hd⟩ | ⟨a', p', _, hp', hz', hd⟩ | ⟨a', z', p', _, _, _, hp', hz', hd, he', hf⟩
        · exact absurd (by rw [← hg]; rfl) h1
        · exact hp ((uniq ('[' :: a') p' (by rw [hg]) hp').2 ▸ hp')
        · exact hp ((uniq ('[' :: a' ++ ("%25".toList ++ z')) p' (by rw [hg]; simp) hp').2 ▸ hp')
  · rw [if_neg hb]
    have key : Host h d ↔ (':' ∈ h → ∃ a p, h = a ++ p ∧ p ≠ [] ∧ Port p) ∧ DecodesHost h d := by
      constructor
      · rintro (⟨_, _, h1, h2, hd⟩ | ⟨a', p', _, hp', hz', hd⟩ | ⟨a', z', p', _, _, _, hp', hz', hd, he', hf⟩)
        · exact ⟨h2, hd⟩
        · simp at hb
        · simp at hb
      · rintro ⟨h1, h2⟩; exact .name h d hb h1 h2
    rw [key]
    cases hs : splitLast ':' h with
    | none =>
      have := (splitLast_none _ _).1 hs
      simp only [unescape_host]
      tauto
    | some q =>
      obtain ⟨a, p⟩ := q
      obtain ⟨e, hn⟩ := (splitLast_some _ _ _ _).1 hs
      have hport : (∃ a p, h = a ++ p ∧ p ≠ [] ∧ Port p) ↔ p.all digit = true := by
        constructor
        · rintro ⟨a', p', e', hne, hp'⟩
          rcases hp' with rfl | ⟨ds, rfl, hd⟩
          · exact absurd rfl hne
          · have := (splitLast_some ':' h a' ds).2 ⟨e', not_digit (by decide) ds hd⟩
            rw [hs] at this
            simp only [Option.some.injEq, Prod.mk.injEq] at this
            simpa [this.2, digit_iff] using hd
        · intro hd
          exact ⟨a, ':' :: p, e, by simp, .inr ⟨p, rfl, by simpa [digit_iff] using hd⟩⟩
      have hm : ':' ∈ h := by rw [e]; simp
      simp only
      rw [hport]
      split_ifs with hd
      · rw [unescape_host]; simp [hd]
      · simp [hd, hm]

theorem parseAuthority_iff (a d : Str) : parseAuthority a = some d ↔ Authority a d := by
  unfold parseAuthority
  cases hs : splitLast '@' a with
  | none =>
    have hn := (splitLast_none _ _).1 hs
    simp only
    rw [parseHost_iff]
    constructor
    · exact .host a d hn
    · rintro (⟨_, _, _, h⟩ | ⟨u, u', h, _, _, _, _, _⟩)
      · exact h
      · simp at hn
  | some q =>
    obtain ⟨user, h⟩ := q
    obtain ⟨e, hn⟩ := (splitLast_some _ _ _ _).1 hs
    have key : Authority a d ↔ Host h d ∧ (∀ c ∈ user, UserChar c) ∧ ∃ u', DecodesPath user u' := by
      constructor
      · rintro (⟨_, _, hn', _⟩ | ⟨u, u', h', _, h1, h2, h3, h4⟩)
        · rw [e] at hn'; simp at hn'
        · have := (splitLast_some '@' _ u h').2 ⟨rfl, h3⟩
          rw [hs] at this
          simp only [Option.some.injEq, Prod.mk.injEq] at this
          obtain ⟨rfl, rfl⟩ := this
          exact ⟨h4, h1, u', h2⟩
      · rintro ⟨h1, h2, u', h3⟩
        rw [e]
        exact .user user u' h d h2 h3 hn h1
    rw [key]
    simp only
    have hesc : ((unescape .user (user.takeWhile (· ≠ ':'))).isSome ∧ (unescape .user (user.dropWhile (· ≠ ':')).tail).isSome) ↔
        ∃ u', DecodesPath user u' := by
      simp only [Option.isSome_iff_exists, unescape_user]
      have hspl := List.takeWhile_append_dropWhile (p := fun c : Char => decide (c ≠ ':')) (l := user)
      constructor
      · rintro ⟨⟨d1, h1⟩, d2, h2⟩
        cases hd : user.dropWhile (· ≠ ':') with
        | nil =>
          rw [hd, List.append_nil] at hspl
          exact ⟨d1, hspl ▸ h1⟩
        | cons c r =>
          have hc : c = ':' := by
            have := List.head?_dropWhile_not (fun c : Char => decide (c ≠ ':')) user
            rw [hd] at this
            simpa using this
          subst hc
          rw [hd] at h2 hspl
          exact ⟨d1 ++ ':' :: d2, hspl ▸ decodes_append h1 (.char _ _ _ (by decide) trivial h2)⟩
      · rintro ⟨u', hu⟩
        cases hd : user.dropWhile (· ≠ ':') with
        | nil =>
          rw [hd, List.append_nil] at hspl
          exact ⟨⟨u', hspl.symm ▸ hu⟩, [], .nil⟩
        | cons c r =>
          have hc : c = ':' := by
            have := List.head?_dropWhile_not (fun c : Char => decide (c ≠ ':')) user
            rw [hd] at this
            simpa using this
          subst hc
          rw [hd] at hspl
          obtain ⟨d1, d2, h1, h2⟩ := decodes_split (c := ':') (by decide) (by intro v; unfold Hex; have : (':' : Char).toNat = 58 := rfl; omega) hu _ _ hspl.symm
          exact ⟨⟨d1, h1⟩, d2, h2⟩
    cases hh : parseHost h with
    | none =>
      simp only [reduceCtorEq, false_iff, not_and]
      intro h1
      rw [(parseHost_iff _ _).2 h1] at hh
      cases hh
    | some host =>
      simp only
      simp only [← parseHost_iff, hh, Option.some.injEq]
      have hall : user.all userChar = true ↔ ∀ c ∈ user, UserChar c := by simp [userChar_iff]
      split_ifs with hc
      · rw [hesc, hall] at hc
        simp only [Option.some.injEq, hc.2, and_true, iff_self_and]
        exact fun _ => hc.1
      · rw [hesc, hall] at hc
        simp only [reduceCtorEq, false_iff]
        tauto

/-! ## Schemes -/

theorem lowered_iff (s d : Str) : Lowered s d ↔ d = s.map lower := by
  unfold Lowered
  induction s generalizing d with
  | nil => simp
  | cons c s ih =>
    rw [List.forall₂_cons_left_iff]
    simp only [ih, List.map_cons, lower]
    constructor
    · rintro ⟨e, d', h1, rfl, rfl⟩
      split_ifs at h1 ⊢ <;> rw [h1]
    · rintro rfl
      refine ⟨_, _, ?_, rfl, rfl⟩
      split_ifs <;> rfl

theorem scheme_chars {s : Str} (h : Scheme s) : ∀ c ∈ s, schemeChar c = true := by
  obtain ⟨c, r, rfl, h1, h2⟩ := h
  intro x hx
  rw [schemeChar_iff]
  rcases List.mem_cons.1 hx with rfl | hx
  · exact .inl h1
  · exact h2 x hx

theorem takeWhile_split {p : Char → Bool} {a b : Str} (ha : ∀ c ∈ a, p c = true) (hb : ∀ c, b.head? = some c → p c = false) :
    (a ++ b).takeWhile p = a ∧ (a ++ b).dropWhile p = b := by
  induction a with
  | nil =>
    cases b with
    | nil => simp
    | cons c b =>
      have := hb c rfl
      simp [List.takeWhile, List.dropWhile, this]
  | cons c a ih =>
    have := ha c (by simp)
    obtain ⟨h1, h2⟩ := ih (fun x hx => ha x (by simp [hx]))
    simp [this, h1, h2]

theorem until_split {x : Char} {a b : Str} (ha : x ∉ a) (hb : b = [] ∨ b.head? = some x) :
    (a ++ b).takeWhile (· ≠ x) = a ∧ (a ++ b).dropWhile (· ≠ x) = b := by
  refine takeWhile_split (fun c hc => ?_) (fun c hc => ?_)
  · simp only [decide_eq_true_eq]; rintro rfl; exact ha hc
  · rcases hb with rfl | hb
    · cases hc
    · rw [hb] at hc; cases hc; simp

theorem getScheme_iff (s sch rest : Str) : (getScheme s = some (sch, rest) ∧ sch ≠ []) ↔ s = sch ++ ':' :: rest ∧ Scheme sch := by
  constructor
  · rintro ⟨h, hne⟩
    have hspl := List.takeWhile_append_dropWhile (p := schemeChar) (l := s)
    unfold getScheme at h
    split at h
    · rename_i c r hd
      split_ifs at h with hc
      · subst hc
        split at h
        · cases h
        · rename_i x n ht
          split_ifs at h with hl
          · simp only [Option.some.injEq, Prod.mk.injEq] at h
            obtain ⟨rfl, rfl⟩ := h
            refine ⟨by rw [← ht, ← hd]; exact hspl.symm, x, n, rfl, (letter_iff _).1 hl, fun y hy => ?_⟩
            rw [← schemeChar_iff]
            exact List.mem_takeWhile_imp (l := s) (by rw [ht]; simp [hy])
          · simp only [Option.some.injEq, Prod.mk.injEq] at h
            exact absurd h.1.symm hne
      · simp only [Option.some.injEq, Prod.mk.injEq] at h
        exact absurd h.1.symm hne
    · simp only [Option.some.injEq, Prod.mk.injEq] at h
      exact absurd h.1.symm hne
  · rintro ⟨rfl, hs⟩
    have h := takeWhile_split (p := schemeChar) (a := sch) (b := ':' :: rest) (scheme_chars hs)
      (by intro c hc; cases hc; decide)
    obtain ⟨c, r, rfl, h1, _⟩ := hs
    refine ⟨?_, by simp⟩
    unfold getScheme
    rw [h.2, h.1]
    simp [(letter_iff c).2 h1]

theorem hex_of {c : Char} {v : Nat} (h : Hex c v) : unhex c = some v := (unhex_iff c v).2 h

theorem host_chars {h d : Str} (hh : Host h d) :
    (∀ c ∈ h, c.toNat ≥ 128 ∨ hostChar c = true ∨ c = '%' ∨ ∃ v, unhex c = some v) ∧
      ∀ c ∈ d, c.toNat ≥ 128 ∨ hostChar c = true ∨ ∃ n, (n = 37 ∨ n = 32 ∨ 128 ≤ n) ∧ n < 256 ∧ c = Char.ofNat n := by
  have host : ∀ {s t}, DecodesHost s t → (∀ c ∈ s, c.toNat ≥ 128 ∨ hostChar c = true ∨ c = '%' ∨ ∃ v, unhex c = some v) ∧
      ∀ c ∈ t, c.toNat ≥ 128 ∨ hostChar c = true ∨ ∃ n, (n = 37 ∨ n = 32 ∨ 128 ≤ n) ∧ n < 256 ∧ c = Char.ofNat n := by
    intro s t h
    obtain ⟨h1, h2⟩ := decodes_chars h
    refine ⟨fun c hc => ?_, fun c hc => ?_⟩
    · rcases h1 c hc with (h | h) | h | ⟨v, h⟩
      · exact .inl h
      · exact .inr (.inl ((hostChar_iff c).2 h))
      · exact .inr (.inr (.inl h))
      · exact .inr (.inr (.inr ⟨v, hex_of h⟩))
    · rcases h2 c hc with (h | h) | ⟨n, h | h, h3, h4⟩
      · exact .inl h
      · exact .inr (.inl ((hostChar_iff c).2 h))
      · exact .inr (.inr ⟨n, .inl h, h3, h4⟩)
      · exact .inr (.inr ⟨n, .inr (.inr h), h3, h4⟩)
  have zone : ∀ {s t}, DecodesZone s t → (∀ c ∈ s, c.toNat ≥ 128 ∨ hostChar c = true ∨ c = '%' ∨ ∃ v, unhex c = some v) ∧
      ∀ c ∈ t, c.toNat ≥ 128 ∨ hostChar c = true ∨ ∃ n, (n = 37 ∨ n = 32 ∨ 128 ≤ n) ∧ n < 256 ∧ c = Char.ofNat n := by
    intro s t h
    obtain ⟨h1, h2⟩ := decodes_chars h
    refine ⟨fun c hc => ?_, fun c hc => ?_⟩
    · rcases h1 c hc with (h | h) | h | ⟨v, h⟩
      · exact .inl h
      · exact .inr (.inl ((hostChar_iff c).2 h))
      · exact .inr (.inr (.inl h))
      · exact .inr (.inr (.inr ⟨v, hex_of h⟩))
    · rcases h2 c hc with (h | h) | ⟨n, h | h | h, h3, h4⟩
      · exact .inl h
      · exact .inr (.inl ((hostChar_iff c).2 h))
      · exact .inr (.inr ⟨n, .inl h, h3, h4⟩)
      · exact .inr (.inr ⟨n, .inr (.inl h), h3, h4⟩)
      · exact .inr (.inl ((hostChar_iff c).2 (h4 ▸ h)))
  rcases hh with ⟨_, _, _, _, hd⟩ | ⟨a, p, _, _, _, hd⟩ | ⟨a, z, p, _, _, _, _, _, hd, he, hf⟩
  · exact host hd
  · exact host hd
  · refine ⟨fun c hc => ?_, fun c hc => ?_⟩
    · rcases List.mem_append.1 hc with hc | hc
      · exact (host hd).1 c hc
      · rcases List.mem_append.1 hc with hc | hc
        · exact (zone he).1 c hc
        · exact (host hf).1 c hc
    · rcases List.mem_append.1 hc with hc | hc
      · rcases List.mem_append.1 hc with hc | hc
        · exact (host hd).2 c hc
        · exact (zone he).2 c hc
      · exact (host hf).2 c hc

theorem host_not_mem {h d : Str} (hh : Host h d) {c : Char} (h1 : c.toNat < 128) (h2 : hostChar c = false) (h3 : c ≠ '%')
    (h4 : unhex c = none) : c ∉ h := by
  intro hc
  rcases (host_chars hh).1 c hc with h | h | h | ⟨v, h⟩
  · omega
  · rw [h2] at h; cases h
  · exact h3 h
  · rw [h4] at h; cases h

theorem host_no_slash {h d : Str} (hh : Host h d) : '/' ∉ d := by
  intro hc
  rcases (host_chars hh).2 _ hc with h | h | ⟨n, h5, h6, h⟩
  · exact absurd h (by decide)
  · revert h; decide
  · have : ∀ n < 256, '/' = Char.ofNat n → n = 47 := by decide +kernel
    have := this n h6 h
    omega

theorem authority_not_mem {a d : Str} (ha : Authority a d) {c : Char} (h1 : c.toNat < 128) (h2 : hostChar c = false) (h3 : c ≠ '%')
    (h4 : unhex c = none) (h5 : userChar c = false) (h6 : c ≠ '@') : c ∉ a := by
  rcases ha with ⟨_, _, _, hh⟩ | ⟨u, u', h, _, hu, _, _, hh⟩
  · exact host_not_mem hh h1 h2 h3 h4
  · simp only [List.mem_append, List.mem_cons, not_or]
    refine ⟨fun hc => ?_, h6, host_not_mem hh h1 h2 h3 h4⟩
    have := (userChar_iff c).2 (hu c hc)
    rw [h5] at this
    cases this

theorem authority_no_slash {a d : Str} (ha : Authority a d) : '/' ∉ d := by
  rcases ha with ⟨_, _, _, hh⟩ | ⟨u, u', h, _, hu, _, _, hh⟩ <;> exact host_no_slash hh

theorem printable_iff (s : Str) : s.any ctl = false ↔ Printable s := by
  simp only [List.any_eq_false, ctl, Bool.or_eq_true, decide_eq_true_eq, beq_iff_eq, Printable]
  constructor <;> intro h c hc <;> have := h c hc <;> omega

/-- The parts of a URL with scheme and host, without regard to a fragment. -/
theorem parseRaw_iff (via : Bool) (s scheme host path : Str) :
    (parseRaw via s = some ⟨scheme, host, path⟩ ∧ scheme ≠ [] ∧ host ≠ []) ↔
    Printable s ∧ ∃ sch auth p q, s = sch ++ "://".toList ++ auth ++ p ++ q ∧ Scheme sch ∧ Lowered sch scheme ∧ Authority auth host ∧
      host ≠ [] ∧ (p = [] ∨ p.head? = some '/') ∧ '?' ∉ p ∧ DecodesPath p path ∧ (q = [] ∨ q.head? = some '?') := by
  rw [← printable_iff]
  constructor
  · rintro ⟨h, h1, h2⟩
    unfold parseRaw at h
    split_ifs at h with c1 c2 c3
    · simp only [Option.some.injEq, Raw.mk.injEq] at h
      exact absurd h.1.symm h1
    · simp only at h
      split at h
      · cases h
      · rename_i sch rest hg
        have hspl := List.takeWhile_append_dropWhile (p := fun c : Char => decide (c ≠ '?')) (l := rest)
        have hq : rest.dropWhile (· ≠ '?') = [] ∨ (rest.dropWhile (· ≠ '?')).head? = some '?' := by
          cases hd : rest.dropWhile (· ≠ '?') with
          | nil => exact .inl rfl
          | cons c r =>
            have := List.head?_dropWhile_not (fun c : Char => decide (c ≠ '?')) rest
            rw [hd] at this
            right
            simpa using this
        have hno : '?' ∉ rest.takeWhile (· ≠ '?') := fun hm => by
          have := List.mem_takeWhile_imp hm
          simp at this
        generalize hr0 : rest.takeWhile (· ≠ '?') = r0 at h hspl hno
        generalize hq0 : rest.dropWhile (· ≠ '?') = q at hspl hq
        split_ifs at h with d1 d2 d3
        · simp only [Option.some.injEq, Raw.mk.injEq] at h
          exact absurd h.2.1.symm h2
        · split at h
          · cases h
          · rename_i host' ha
            obtain ⟨path', hp, he⟩ := Option.map_eq_some_iff.1 h
            simp only [Raw.mk.injEq] at he
            obtain ⟨rfl, rfl, rfl⟩ := he
            have hsch : sch ≠ [] := by rintro rfl; simp at h1
            obtain ⟨e1, e2⟩ := (getScheme_iff s sch rest).1 ⟨hg, hsch⟩
            obtain ⟨t, ht⟩ := List.isPrefixOf_iff_prefix.1 d3.2
            have hdrop : r0.drop 2 = t := by rw [← ht]; rfl
            rw [hdrop] at ha hp
            have ht' := List.takeWhile_append_dropWhile (p := fun c : Char => decide (c ≠ '/')) (l := t)
            refine ⟨by simpa using c1, sch, _, _, q, ?_, e2, (lowered_iff _ _).2 rfl, (parseAuthority_iff _ _).1 ha, h2, ?_, ?_,
              (unescape_path _ _).1 hp, hq⟩
            · rw [e1, ← hspl, ← ht]
              conv => lhs; rw [← ht']
              simp
            · cases hd : t.dropWhile (· ≠ '/') with
              | nil => exact .inl rfl
              | cons c r =>
                have := List.head?_dropWhile_not (fun c : Char => decide (c ≠ '/')) t
                rw [hd] at this
                right
                simpa using this
            · intro hm
              apply hno
              rw [← ht]
              have := (List.dropWhile_sublist (l := t) (fun c : Char => decide (c ≠ '/'))).subset hm
              simp [this]
        · obtain ⟨path', hp, he⟩ := Option.map_eq_some_iff.1 h
          simp only [Raw.mk.injEq] at he
          exact absurd he.2.1.symm h2
  · rintro ⟨hpr, sch, auth, p, q, rfl, h1, h2, h3, h4, h5, h6, h7, h8⟩
    have hsl : '/' ∉ auth := authority_not_mem h3 (by decide) (by decide) (by decide) (by decide) (by decide) (by decide)
    have hqm : '?' ∉ auth := authority_not_mem h3 (by decide) (by decide) (by decide) (by decide) (by decide) (by decide)
    have hne : sch ≠ [] := by obtain ⟨c, r, rfl, _⟩ := h1; simp
    have hl := (lowered_iff _ _).1 h2
    subst hl
    have hne' : sch.map lower ≠ [] := by simpa using hne
    refine ⟨?_, hne', h4⟩
    have e : sch ++ "://".toList ++ auth ++ p ++ q = sch ++ ':' :: ('/' :: '/' :: auth ++ p ++ q) := by simp
    have hg := ((getScheme_iff (sch ++ "://".toList ++ auth ++ p ++ q) sch ('/' :: '/' :: auth ++ p ++ q)).2 ⟨e, h1⟩).1
    unfold parseRaw
    rw [if_neg (by rw [hpr]; simp), if_neg (by simp), if_neg (by
      intro hs
      have := congrArg List.length hs
      simp at this
      omega), hg]
    have ht : ('/' :: '/' :: auth ++ p ++ q).takeWhile (· ≠ '?') = '/' :: '/' :: auth ++ p :=
      (until_split (a := '/' :: '/' :: auth ++ p) (by simp [hqm, h6]) h8).1
    simp only [ht]
    rw [if_neg (by simp), if_neg (by simp), if_pos (by simp [hne, List.isPrefixOf])]
    have hd : ('/' :: '/' :: auth ++ p).drop 2 = auth ++ p := rfl
    obtain ⟨k1, k2⟩ := until_split (a := auth) (b := p) hsl h5
    rw [hd, k1, k2, (parseAuthority_iff _ _).2 h3, (unescape_path _ _).2 h7]
    rfl


theorem not_hex_of {c : Char} (h : unhex c = none) (v : Nat) : ¬ Hex c v := fun hv => by rw [hex_of hv] at h; cases h

/-- What `IsValidUrl` accepts, and what `url.Parse` makes of it. -/
theorem urlText_iff (s scheme host path : Str) :
    (isValidUrl s = true ∧ parseUrl s = some ⟨scheme, host, path⟩) ↔ UrlText s scheme host path := by
  have hspl := List.takeWhile_append_dropWhile (p := fun c : Char => decide (c ≠ '#')) (l := s)
  constructor
  · rintro ⟨hv, hp⟩
    unfold isValidUrl at hv
    rw [hp] at hv
    simp only [ne_eq, Bool.and_eq_true, decide_not, Bool.not_eq_eq_eq_not, Bool.not_true, decide_eq_false_iff_not] at hv
    obtain ⟨hr, h1, h2⟩ := hv
    unfold parseUrl at hp
    split at hp
    · cases hp
    · rename_i u hu
      split_ifs at hp with hf
      obtain rfl := Option.some.inj hp
      obtain ⟨hpr, sch, auth, p, q, e, hs, hl, ha, _, p1, p2, p3, q1⟩ := (parseRaw_iff false _ _ _ _).1 ⟨hu, h1, h2⟩
      have hno : '#' ∉ s.takeWhile (· ≠ '#') := fun hm => by
        have := List.mem_takeWhile_imp hm
        simp at this
      generalize hf0 : s.dropWhile (· ≠ '#') = f at hf hspl
      have hfh : f = [] ∨ f.head? = some '#' := by
        cases hd : s.dropWhile (· ≠ '#') with
        | nil => exact .inl (by rw [← hf0, hd])
        | cons c r =>
          have := List.head?_dropWhile_not (fun c : Char => decide (c ≠ '#')) s
          rw [hd] at this
          right
          rw [← hf0, hd]
          simpa using this
      rw [e] at hno hspl
      simp only [List.mem_append, not_or] at hno
      obtain ⟨w, hw⟩ := Option.isSome_iff_exists.1 hr
      have hpr' : Printable s := by
        rw [← printable_iff]
        unfold parseRaw at hw
        split_ifs at hw with c1 <;> simpa using c1
      obtain ⟨f', hf'⟩ := Option.isSome_iff_exists.1 hf
      refine ⟨hpr', sch, auth, p, q, f, if f = [] then [] else '#' :: f', hspl.symm, hs, hl, ha, h2, p1, p2, hno.1.2, p3, q1,
        hno.2, ?_, ?_⟩
      · rcases hfh with hfh | hfh
        · exact .inl hfh
        · refine .inr ⟨hfh, ?_⟩
          intro hpq
          obtain ⟨rfl, rfl⟩ := List.append_eq_nil_iff.1 hpq
          obtain ⟨f2, rfl⟩ : ∃ f2, f = '#' :: f2 := by
            cases f with
            | nil => cases hfh
            | cons c r => cases hfh; exact ⟨r, rfl⟩
          have hne : sch ≠ [] := by obtain ⟨c, r, rfl, _⟩ := hs; simp
          have e2 : s = sch ++ ':' :: ('/' :: '/' :: auth ++ '#' :: f2) := by rw [← hspl]; simp
          have hg := ((getScheme_iff s sch _).2 ⟨e2, hs⟩).1
          have hqm : '?' ∉ auth := authority_not_mem ha (by decide) (by decide) (by decide) (by decide) (by decide) (by decide)
          have hsl : '/' ∉ auth := authority_not_mem ha (by decide) (by decide) (by decide) (by decide) (by decide) (by decide)
          unfold parseRaw at hw
          have ht : ('/' :: '/' :: auth ++ '#' :: f2).takeWhile (· ≠ '?') = '/' :: '/' :: auth ++ '#' :: f2.takeWhile (· ≠ '?') := by
            rw [List.takeWhile_append_of_pos]
            · simp
            · intro c hc
              simp only [decide_eq_true_eq]
              rintro rfl
              simp [hqm] at hc
          have ht2 : (auth ++ '#' :: f2.takeWhile (· ≠ '?')).takeWhile (· ≠ '/') =
              auth ++ '#' :: (f2.takeWhile (· ≠ '?')).takeWhile (· ≠ '/') := by
            rw [List.takeWhile_append_of_pos]
            · simp
            · intro c hc
              simp only [decide_eq_true_eq]
              rintro rfl
              exact hsl hc
          rw [if_neg (by rw [(printable_iff s).2 hpr']; simp), if_neg (by rw [e2]; simp), if_neg (by
            intro hs
            have := congrArg List.length (e2.symm.trans hs)
            simp at this
            omega), hg] at hw
          simp only [ht] at hw
          rw [if_neg (by simp), if_neg (by simp), if_pos (by simp [hne, List.isPrefixOf])] at hw
          have hd : ('/' :: '/' :: auth ++ '#' :: f2.takeWhile (· ≠ '?')).drop 2 = auth ++ '#' :: f2.takeWhile (· ≠ '?') := rfl
          rw [hd, ht2] at hw
          split at hw
          · cases hw
          · rename_i host2 ha2
            have := authority_not_mem ((parseAuthority_iff _ _).1 ha2) (c := '#') (by decide) (by decide) (by decide) (by decide)
              (by decide) (by decide)
            simp at this
      · rcases hfh with rfl | hfh
        · simp; exact .nil
        · cases f with
          | nil => cases hfh
          | cons c r =>
            cases hfh
            rw [if_neg (by simp)]
            exact .char _ _ _ (by decide) trivial ((unescape_path _ _).1 hf')
  · rintro ⟨hpr, sch, auth, p, q, f, f', e, hs, hl, ha, h2, p1, p2, p3, p4, q1, q2, f1, f2⟩
    have hash : '#' ∉ auth := authority_not_mem ha (by decide) (by decide) (by decide) (by decide) (by decide) (by decide)
    have hsch : '#' ∉ sch := fun hm => absurd (scheme_chars hs _ hm) (by decide)
    have hno : '#' ∉ sch ++ "://".toList ++ auth ++ p ++ q := by
      simp only [List.mem_append, not_or]
      exact ⟨⟨⟨⟨hsch, by decide⟩, hash⟩, p3⟩, q2⟩
    have hne : scheme ≠ [] := by
      rw [(lowered_iff _ _).1 hl]
      obtain ⟨c, r, rfl, _⟩ := hs
      simp
    obtain ⟨k1, k2⟩ := until_split hno (b := f) (f1.imp id And.left)
    have hpu : Printable (sch ++ "://".toList ++ auth ++ p ++ q) := fun c hc => hpr c (by rw [e]; exact List.mem_append_left _ hc)
    have hparse : parseUrl s = some ⟨scheme, host, path⟩ := by
      unfold parseUrl
      rw [e, k1, k2]
      rw [((parseRaw_iff false _ scheme host path).2 ⟨hpu, sch, auth, p, q, rfl, hs, hl, ha, h2, p1, p2, p4, q1⟩).1]
      have : (unescape .path f.tail).isSome = true := by
        rw [Option.isSome_iff_exists]
        cases f with
        | nil => exact ⟨[], rfl⟩
        | cons c r =>
          have hc : c = '#' := by simp at f1; exact f1.1
          subst hc
          rcases f2 with _ | ⟨_, _, d, _, _, hd⟩ | _
          exact ⟨d, (unescape_path _ _).2 hd⟩
      simp [this]
    refine ⟨?_, hparse⟩
    unfold isValidUrl
    rw [hparse]
    simp only [ne_eq, hne, h2, not_false_eq_true, decide_true, Bool.and_true]
    rw [Option.isSome_iff_exists]
    -- the path of the request is everything up to the question mark
    obtain ⟨p', q', path', e', r1, r2, r3, r4⟩ : ∃ p' q' path', p ++ q ++ f = p' ++ q' ∧ (p' = [] ∨ p'.head? = some '/') ∧
        '?' ∉ p' ∧ DecodesPath p' path' ∧ (q' = [] ∨ q'.head? = some '?') := by
      by_cases hq : q = []
      · subst hq
        have hs2 := List.takeWhile_append_dropWhile (p := fun c : Char => decide (c ≠ '?')) (l := f)
        have hd : f.dropWhile (· ≠ '?') = [] ∨ (f.dropWhile (· ≠ '?')).head? = some '?' := by
          cases hd : f.dropWhile (· ≠ '?') with
          | nil => exact .inl rfl
          | cons c r =>
            have := List.head?_dropWhile_not (fun c : Char => decide (c ≠ '?')) f
            rw [hd] at this
            right
            simpa using this
        obtain ⟨d1, hd1⟩ : ∃ d1, DecodesPath (f.takeWhile (· ≠ '?')) d1 := by
          rcases hd with hd | hd
          · rw [hd, List.append_nil] at hs2
            exact ⟨f', by rw [hs2]; exact f2⟩
          · obtain ⟨r, hr⟩ : ∃ r, f.dropWhile (· ≠ '?') = '?' :: r := by
              cases hx : f.dropWhile (· ≠ '?') with
              | nil => rw [hx] at hd; cases hd
              | cons c r => rw [hx] at hd; cases hd; exact ⟨r, rfl⟩
            obtain ⟨d1, _, hd1, _⟩ := decodes_split (c := '?') (by decide) (not_hex_of (by decide)) f2 _ r (by rw [← hr, hs2])
            exact ⟨d1, hd1⟩
        refine ⟨p ++ f.takeWhile (· ≠ '?'), f.dropWhile (· ≠ '?'), path ++ d1, by simp, ?_, ?_, decodes_append p4 hd1, hd⟩
        · rcases p1 with rfl | hp
          · rcases f1 with rfl | ⟨_, hx⟩
            · simp
            · simp at hx
          · right
            cases p with
            | nil => cases hp
            | cons c r => exact hp
        · simp only [List.mem_append, not_or]
          refine ⟨p2, fun hm => ?_⟩
          have := List.mem_takeWhile_imp hm
          simp at this
      · refine ⟨p, q ++ f, path, by simp, p1, p2, p4, .inr ?_⟩
        rcases q1 with q1 | q1
        · exact absurd q1 hq
        · cases q with
          | nil => cases q1
          | cons c r => exact q1
    exact ⟨_, ((parseRaw_iff true s scheme host path').2 ⟨hpr, sch, auth, p', q', by
      rw [e, List.append_assoc, List.append_assoc, ← List.append_assoc p, e', ← List.append_assoc], hs, hl, ha, h2, r1, r2, r3, r4⟩).1⟩

/-! ## Host names -/

theorem brackets_iff (a n : Str) : (if a.head? = some '[' ∧ a.getLast? = some ']' then a.tail.dropLast else a) = n ↔
    (a = '[' :: n ++ [']'] ∨ ((¬ ∃ m, a = '[' :: m ++ [']']) ∧ n = a)) := by
  by_cases hb : ∃ m, a = '[' :: m ++ [']']
  · obtain ⟨m, rfl⟩ := hb
    have h1 : ('[' :: m ++ [']']).getLast? = some ']' := by rw [List.getLast?_append]; rfl
    have h2 : ('[' :: m ++ [']']).tail.dropLast = m := by simp
    rw [if_pos ⟨rfl, h1⟩, h2]
    constructor
    · rintro rfl; exact .inl rfl
    · rintro (h | ⟨h, _⟩)
      · simpa using h
      · exact absurd ⟨m, rfl⟩ h
  · rw [if_neg]
    · constructor
      · rintro rfl; exact .inr ⟨hb, rfl⟩
      · rintro (h | ⟨_, h⟩)
        · exact absurd ⟨n, h⟩ hb
        · exact h.symm
    · rintro ⟨h1, h2⟩
      apply hb
      cases a with
      | nil => cases h1
      | cons c r =>
        cases h1
        rcases List.eq_nil_or_concat r with rfl | ⟨m, x, rfl⟩
        · simp at h2
        · rw [List.concat_eq_append] at h2 ⊢
          rw [← List.cons_append, List.getLast?_append] at h2
          cases h2
          exact ⟨m, rfl⟩

theorem hostname_iff (h n : Str) : hostname h = n ↔ Hostname h n := by
  unfold hostname Hostname
  simp only
  cases hs : splitLast ':' h with
  | none =>
    have hn := (splitLast_none _ _).1 hs
    simp only [brackets_iff]
    constructor
    · intro hb
      refine ⟨h, [], by simp, .inl rfl, fun _ => ?_, hb⟩
      rintro ⟨b, q, e, hq, hp⟩
      rcases hp with rfl | ⟨ds, rfl, _⟩
      · exact hq rfl
      · apply hn; rw [e]; simp
    · rintro ⟨a, p, e, hp, _, hb⟩
      rcases hp with rfl | ⟨ds, rfl, _⟩
      · rw [List.append_nil] at e; rw [e]; exact hb
      · exfalso; apply hn; rw [e]; simp
  | some q =>
    obtain ⟨a0, p0⟩ := q
    obtain ⟨e0, hn0⟩ := (splitLast_some _ _ _ _).1 hs
    have uniq : ∀ a ds, h = a ++ ':' :: ds → (∀ c ∈ ds, Digit c) → a = a0 ∧ ds = p0 := by
      intro a ds e hd
      have := (splitLast_some ':' h a ds).2 ⟨e, not_digit (by decide) ds hd⟩
      rw [hs] at this
      simp only [Option.some.injEq, Prod.mk.injEq] at this
      exact ⟨this.1.symm, this.2.symm⟩
    simp only
    by_cases hd : p0.all digit = true
    · rw [if_pos hd, brackets_iff]
      constructor
      · intro hb
        exact ⟨a0, ':' :: p0, e0, .inr ⟨p0, rfl, by simpa [digit_iff] using hd⟩, by simp, hb⟩
      · rintro ⟨a, p, e, hp, hno, hb⟩
        rcases hp with rfl | ⟨ds, rfl, hds⟩
        · exfalso
          rw [List.append_nil] at e
          exact hno rfl ⟨a0, ':' :: p0, by rw [← e, e0], by simp, .inr ⟨p0, rfl, by simpa [digit_iff] using hd⟩⟩
        · rw [(uniq a ds e hds).1] at hb
          exact hb
    · rw [if_neg hd, brackets_iff]
      constructor
      · intro hb
        refine ⟨h, [], by simp, .inl rfl, fun _ => ?_, hb⟩
        rintro ⟨b, q, e, hq, hp⟩
        rcases hp with rfl | ⟨ds, rfl, hds⟩
        · exact hq rfl
        · apply hd
          rw [← (uniq b ds e hds).2]
          simpa [digit_iff] using hds
      · rintro ⟨a, p, e, hp, _, hb⟩
        rcases hp with rfl | ⟨ds, rfl, hds⟩
        · rw [List.append_nil] at e; rw [e]; exact hb
        · exfalso
          apply hd
          rw [← (uniq a ds e hds).2]
          simpa [digit_iff] using hds

/-! ## What the parser guarantees -/

theorem getScheme_scheme {s sch rest : Str} (h : getScheme s = some (sch, rest)) : sch = [] ∨ Scheme sch := by
  by_cases hn : sch = []
  · exact .inl hn
  · exact .inr ((getScheme_iff s sch rest).1 ⟨h, hn⟩).2

theorem lower_scheme {sch : Str} (h : sch = [] ∨ Scheme sch) :
    '/' ∉ sch.map lower ∧ sch.map lower ≠ ['.'] ∧ sch.map lower ≠ ['.', '.'] := by
  rcases h with rfl | h
  · simp
  · have hu : ∀ n < 91, 65 ≤ n → Char.ofNat (n + 32) ≠ '/' ∧ Char.ofNat (n + 32) ≠ '.' := by decide +kernel
    refine ⟨?_, ?_⟩
    · intro hm
      obtain ⟨c, hc, e⟩ := List.mem_map.1 hm
      have hsc := scheme_chars h c hc
      unfold lower at e
      split_ifs at e with hr
      · exact (hu _ (by omega) hr.1).1 e
      · subst e; revert hsc; decide
    · obtain ⟨c, r, rfl, hl, _⟩ := h
      have : lower c ≠ '.' := by
        unfold lower
        split_ifs with hr
        · exact (hu _ (by omega) hr.1).2
        · rintro rfl
          unfold Letter at hl
          have : ('.' : Char).toNat = 46 := rfl
          omega
      simp [this]

theorem parseRaw_wf {via : Bool} {s : Str} {u : Raw} (h : parseRaw via s = some u) :
    ('/' ∉ u.scheme ∧ u.scheme ≠ ['.'] ∧ u.scheme ≠ ['.', '.']) ∧ '/' ∉ u.host := by
  unfold parseRaw at h
  split_ifs at h with c1 c2 c3
  · cases h; simp
  · simp only at h
    split at h
    · cases h
    · rename_i sch rest hg
      have hs := lower_scheme (getScheme_scheme hg)
      split_ifs at h with d1 d2 d3
      · cases h; exact ⟨hs, by simp⟩
      · split at h
        · cases h
        · rename_i host ha
          obtain ⟨path, hp, rfl⟩ := Option.map_eq_some_iff.1 h
          exact ⟨hs, authority_no_slash ((parseAuthority_iff _ _).1 ha)⟩
      · obtain ⟨path, hp, rfl⟩ := Option.map_eq_some_iff.1 h
        exact ⟨hs, by simp⟩

theorem urlParse_wf {s : Str} {u : Parsed} (h : urlParse s = some u) : u.WF := by
  unfold urlParse at h
  obtain ⟨r, hr, rfl⟩ := Option.map_eq_some_iff.1 h
  unfold parseUrl at hr
  split at hr
  · cases hr
  · rename_i u hu
    split_ifs at hr with hf
    cases hr
    obtain ⟨h1, h2⟩ := parseRaw_wf hu
    refine ⟨h1, ?_⟩
    obtain ⟨a, p, e, _, _, hb⟩ := (hostname_iff r.host _).1 rfl
    intro hm
    apply h2
    rw [e]
    rcases hb with hb | ⟨_, hb⟩
    · rw [hb]; simp [hm]
    · rw [hb] at hm; simp [hm]

end Telefacts.Url
