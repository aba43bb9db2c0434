import Verif.Proof.XmlText
/-! # Proofs about encoding/xml: runs of character data -/
namespace Telefacts.XmlText

theorem Reference.head {a : Str} {c : Char} (h : Reference a c) : ∃ t, a = '&' :: t := by
  cases h <;> exact ⟨_, rfl⟩

/-- No bracket in a reference. -/
theorem Reference.noBracket {a : Str} {c : Char} (h : Reference a c) : ']' ∉ a := by
  have num : ∀ {b ds n}, b = 10 ∨ b = 16 → Numeral b ds n → ']' ∉ ds := by
    intro b ds n hb hn hm
    have := ((numeral_iff hb ds n).1 hn).2.1 _ hm
    revert this; rcases hb with rfl | rfl <;> decide
  cases h with
  | lt => decide
  | gt => decide
  | amp => decide
  | apos => decide
  | quot => decide
  | dec ds n c hn _ => simp [num (.inl rfl) hn]
  | hex ds n c hn _ => simp [num (.inr rfl) hn]
  | decSurrogate ds n c hn _ => simp [num (.inl rfl) hn]
  | hexSurrogate ds n c hn _ => simp [num (.inr rfl) hn]

section
variable {q : Option Char}

theorem pieces_nil (v : Str) : Pieces q [] v ↔ v = [] := by
  constructor
  · intro h
    generalize hs : ([] : Str) = s at h
    cases h with
    | nil => rfl
    | char => simp at hs
    | crlf => simp at hs
    | cr => simp at hs
    | ref a c s v h => obtain ⟨t, rfl⟩ := h.head; simp at hs
  · rintro rfl; exact .nil

theorem pieces_lt (t v : Str) : ¬ Pieces q ('<' :: t) v := by
  intro h
  generalize hs : '<' :: t = s at h
  cases h with
  | nil => simp at hs
  | char c s v h1 => simp at hs; exact h1 hs.1.symm
  | crlf => simp at hs
  | cr => simp at hs
  | ref a c s v h => obtain ⟨t, rfl⟩ := h.head; simp at hs

theorem pieces_quote {b : Char} (hb : b = '"' ∨ b = '\'') (t v : Str) : ¬ Pieces (some b) (b :: t) v := by
  intro h
  generalize hs : b :: t = s at h
  cases h with
  | nil => simp at hs
  | char c s v h1 h2 h3 h4 => simp at hs; exact h4 (by rw [hs.1])
  | crlf => simp at hs; rcases hb with rfl | rfl <;> simp at hs
  | cr => simp at hs; rcases hb with rfl | rfl <;> simp at hs
  | ref a c s v h => obtain ⟨t, rfl⟩ := h.head; simp at hs; rcases hb with rfl | rfl <;> simp at hs

theorem pieces_amp (t v : Str) : Pieces q ('&' :: t) v ↔
    ∃ a c t2 v2, '&' :: t = a ++ t2 ∧ v = c :: v2 ∧ Reference a c ∧ XmlChar c ∧ Pieces q t2 v2 := by
  constructor
  · intro h
    generalize hs : '&' :: t = s at h
    cases h with
    | nil => simp at hs
    | char c s v h1 h2 => simp at hs; exact absurd hs.1.symm h2
    | crlf => simp at hs
    | cr => simp at hs
    | ref a c s v h h1 h2 => exact ⟨a, c, s, v, rfl, rfl, h, h1, h2⟩
  · rintro ⟨a, c, t2, v2, h, rfl, h1, h2, h3⟩
    rw [h]; exact .ref a c t2 v2 h1 h2 h3

theorem pieces_crlf (t v : Str) : Pieces q ('\r' :: '\n' :: t) v ↔ ∃ v', v = '\n' :: v' ∧ Pieces q t v' := by
  constructor
  · intro h
    generalize hs : '\r' :: '\n' :: t = s at h
    cases h with
    | nil => simp at hs
    | char c s v h1 h2 h3 => simp at hs; exact absurd hs.1.symm h3
    | crlf s v h => simp at hs; subst hs; exact ⟨v, rfl, h⟩
    | cr s v h => simp at hs; subst hs; simp at h
    | ref a c s v h => obtain ⟨t, rfl⟩ := h.head; simp at hs
  · rintro ⟨v', rfl, h⟩; exact .crlf t v' h

theorem pieces_cr {t : Str} (ht : t.head? ≠ some '\n') (v : Str) : Pieces q ('\r' :: t) v ↔ ∃ v', v = '\n' :: v' ∧ Pieces q t v' := by
  constructor
  · intro h
    generalize hs : '\r' :: t = s at h
    cases h with
    | nil => simp at hs
    | char c s v h1 h2 h3 => simp at hs; exact absurd hs.1.symm h3
    | crlf s v h => simp at hs; subst hs; simp at ht
    | cr s v h h1 => simp at hs; subst hs; exact ⟨v, rfl, h1⟩
    | ref a c s v h => obtain ⟨t, rfl⟩ := h.head; simp at hs
  · rintro ⟨v', rfl, h⟩; exact .cr t v' ht h

theorem pieces_char {b : Char} (h1 : b ≠ '<') (h2 : b ≠ '&') (h3 : b ≠ '\r') (h4 : q ≠ some b) (t v : Str) :
    Pieces q (b :: t) v ↔ ∃ v', v = b :: v' ∧ XmlChar b ∧ Pieces q t v' := by
  constructor
  · intro h
    generalize hs : b :: t = s at h
    cases h with
    | nil => simp at hs
    | char c s v g1 g2 g3 g4 g5 g6 => simp at hs; obtain ⟨rfl, rfl⟩ := hs; exact ⟨v, rfl, g5, g6⟩
    | crlf s v h => simp at hs; exact absurd hs.1 h3
    | cr s v h => simp at hs; exact absurd hs.1 h3
    | ref a c s v h => obtain ⟨t, rfl⟩ := h.head; simp at hs; exact absurd hs.1 h2
  · rintro ⟨v', rfl, h, h'⟩; exact .char b t v' h1 h2 h3 h4 h h'

/-- The rest of a text after the character `b1`. -/
def After (q : Option Char) (b1 : Char) (t v : Str) : Prop :=
  if b1 = '\r' then Pieces q ('\r' :: t) ('\n' :: v) else Pieces q t v

theorem after_head {b1 : Char} {t : Str} (ht : t.head? ≠ some '\n') (v : Str) : After q b1 t v ↔ Pieces q t v := by
  unfold After
  split
  · rw [pieces_cr ht]; simp
  · rfl

theorem after_crlf (t v : Str) : After q '\r' ('\n' :: t) v ↔ Pieces q t v := by
  simp [After, pieces_crlf]

theorem after_other {b1 : Char} (hb : b1 ≠ '\r') (t v : Str) : After q b1 t v ↔ Pieces q t v := by simp [After, hb]

/-- Where a text ends. -/
def Ends (q : Option Char) (s t r : Str) : Prop :=
  match q with
  | none => s = t ++ r ∧ ∀ c, r.head? = some c → c = '<'
  | some c => s = t ++ c :: r ∨ (s = t ∧ r = [])

theorem infix_cons3 (a b c : Char) (t : Str) :
    "]]>".toList <:+: a :: b :: c :: t ↔ (a = ']' ∧ b = ']' ∧ c = '>') ∨ "]]>".toList <:+: b :: c :: t := by
  rw [List.infix_cons_iff]
  simp [List.cons_prefix_cons, eq_comm]

theorem infix_skip (a t : Str) (ha : ']' ∉ a) : "]]>".toList <:+: a ++ t ↔ "]]>".toList <:+: t := by
  induction a with
  | nil => simp
  | cons c a ih =>
    simp at ha
    rw [List.cons_append, List.infix_cons_iff, ih ha.2]
    simp [List.cons_prefix_cons, ha.1]

theorem infix_two (a b t : Str) (x y : Char) (ha : ']' ∉ a) (h : a = '&' :: b) :
    "]]>".toList <:+: x :: y :: (a ++ t) ↔ "]]>".toList <:+: t := by
  rw [h, List.cons_append, infix_cons3, ← List.cons_append, List.infix_cons_iff, ← h, infix_skip a t ha]
  simp [h, List.cons_prefix_cons]

theorem textLoop_iff (e : Env) (hq : q = none ∨ q = some '"' ∨ q = some '\'') :
    ∀ (n : Nat) (s : Str) (b0 b1 : Char) (v r : Str), s.length < n →
      ((textLoop e n q false b0 b1 s = some (v, r) ∧ ∀ c ∈ v, XmlChar c) ↔
        ∃ t, After q b1 t v ∧ (q = none → ¬ "]]>".toList <:+: b0 :: b1 :: t) ∧ Ends q s t r) := by
  have shift : ∀ {s t r : Str} (b : Char), Ends q (b :: s) (b :: t) r ↔ Ends q s t r := by
    intro s t r b; unfold Ends; split <;> simp
  have hne : ∀ c, q = some c → c = '"' ∨ c = '\'' := by
    rintro c rfl; simpa using hq
  intro n
  induction n with
  | zero => intro s b0 b1 v r h; omega
  | succ n ih =>
    intro s b0 b1 v r hlen
    cases s with
    | nil =>
      simp only [textLoop]
      constructor
      · rintro ⟨h, _⟩
        simp at h; obtain ⟨rfl, rfl⟩ := h
        refine ⟨[], by rw [after_head (by simp)]; exact .nil, ?_, by unfold Ends; split <;> simp⟩
        rintro - h
        have := h.length_le; simp at this
      · rintro ⟨t, h1, h2, h3⟩
        have ht : t = [] ∧ r = [] := by
          unfold Ends at h3; split at h3
          · simpa [and_comm] using h3.1
          · rcases h3 with h3 | h3
            · simp at h3
            · exact ⟨h3.1.symm, h3.2⟩
        obtain ⟨rfl, rfl⟩ := ht
        rw [after_head (by simp), pieces_nil] at h1
        subst h1; simp
    | cons b s =>
      have hlen' : s.length < n := by simpa using hlen
      -- the first character belongs to the text unless the text ends there
      have first : ∀ {t}, Ends q (b :: s) t r → (b ≠ '<') → q ≠ some b → ∃ t', t = b :: t' := by
        intro t h h1 h2
        cases t with
        | nil =>
          exfalso
          unfold Ends at h; split at h
          · have h' : b :: s = r := by simpa using h.1
            exact h1 (h.2 b (by rw [← h']; rfl))
          · rcases h with h | h
            · simp at h; rename_i c; exact h2 (by rw [h.1])
            · simp at h
        | cons c t =>
          refine ⟨t, ?_⟩
          unfold Ends at h; split at h
          · simp at h; rw [h.1.1]
          · rcases h with h | h
            · simp at h; rw [h.1]
            · simp at h; rw [h.1.1]
      simp only [textLoop]
      by_cases c1 : q = none ∧ b0 = ']' ∧ b1 = ']' ∧ b = '>'
      · rw [if_pos c1]
        obtain ⟨rfl, rfl, rfl, rfl⟩ := c1
        simp only [Bool.false_eq_true, if_false, reduceCtorEq, false_and, false_iff]
        rintro ⟨t, _, h2, h3⟩
        obtain ⟨t', rfl⟩ := first h3 (by decide) (by simp)
        exact h2 (by trivial) ((infix_cons3 _ _ _ _).2 (.inl ⟨rfl, rfl, rfl⟩))
      rw [if_neg c1]
      by_cases c2 : b = '<'
      · subst c2
        simp only [true_and, if_true]
        have tnil : ∀ {t}, After q b1 t v → Ends q ('<' :: s) t r → t = [] := by
          intro t h1 h3
          cases t with
          | nil => rfl
          | cons c t =>
            exfalso
            have hc : c = '<' := by
              unfold Ends at h3; split at h3
              · simp at h3; rw [h3.1.1]
              · rcases h3 with h | h
                · simp at h; rw [h.1]
                · simp at h; rw [h.1.1]
            subst hc
            rw [after_head (by simp)] at h1
            exact pieces_lt _ _ h1
        by_cases hqn : q = none
        · subst hqn
          simp only [if_true]
          constructor
          · rintro ⟨h, _⟩
            simp at h; obtain ⟨rfl, rfl⟩ := h
            refine ⟨[], by rw [after_head (by simp)]; exact .nil, ?_, by simp [Ends]⟩
            rintro - h
            have := h.length_le; simp at this
          · rintro ⟨t, h1, h2, h3⟩
            obtain rfl := tnil h1 h3
            rw [after_head (by simp), pieces_nil] at h1
            subst h1
            simp [Ends] at h3
            simp [h3]
        · rw [if_neg hqn]
          simp only [reduceCtorEq, false_and, false_iff]
          rintro ⟨t, h1, h2, h3⟩
          obtain rfl := tnil h1 h3
          unfold Ends at h3; split at h3
          · exact hqn rfl
          · rename_i c
            simp at h3
            rcases hne c rfl with rfl | rfl <;> simp at h3
      rw [if_neg (by simp [c2])]
      by_cases c3 : q = some b
      · rw [if_pos c3]
        have hb := hne b c3
        subst c3
        constructor
        · rintro ⟨h, _⟩
          simp at h; obtain ⟨rfl, rfl⟩ := h
          exact ⟨[], by rw [after_head (by simp)]; exact .nil, by simp, by simp [Ends]⟩
        · rintro ⟨t, h1, h2, h3⟩
          have : t = [] := by
            cases t with
            | nil => rfl
            | cons c t =>
              exfalso
              have hc : c = b := by
                simp [Ends] at h3
                rcases h3 with h | h
                · exact h.1.symm
                · exact h.1.1.symm
              subst hc
              rw [after_head (by rcases hb with rfl | rfl <;> simp)] at h1
              exact pieces_quote hb _ _ h1
          subst this
          rw [after_head (by simp), pieces_nil] at h1
          subst h1
          simp [Ends] at h3
          simp [h3]
      rw [if_neg c3]
      by_cases c4 : b = '&'
      · subst c4
        simp only [true_and, if_true]
        have back : ∀ {t}, After q b1 t v → Ends q ('&' :: s) t r → ∃ a c t2 v2, t = a ++ t2 ∧ v = c :: v2 ∧ Reference a c ∧ XmlChar c ∧
            Pieces q t2 v2 := by
          intro t h1 h3
          obtain ⟨t', rfl⟩ := first h3 (by decide) c3
          rw [after_head (by simp), pieces_amp] at h1
          exact h1
        have move : ∀ {a s' t2 : Str}, '&' :: s = a ++ s' → (Ends q ('&' :: s) (a ++ t2) r ↔ Ends q s' t2 r) := by
          intro a s' t2 h
          unfold Ends; split
          · rw [h]; simp
          · rw [h]; simp
        cases he : entity e s with
        | none =>
          simp only [reduceCtorEq, false_and, false_iff]
          rintro ⟨t, h1, h2, h3⟩
          obtain ⟨a, c, t2, v2, rfl, rfl, ha, _, _⟩ := back h1 h3
          have : ∃ r', '&' :: s = a ++ r' := by
            unfold Ends at h3; split at h3
            · exact ⟨_, by rw [h3.1, List.append_assoc]⟩
            · rcases h3 with h3 | h3
              · exact ⟨_, by rw [h3, List.append_assoc]⟩
              · exact ⟨_, h3.1⟩
          obtain ⟨r', hr'⟩ := this
          have := (entity_iff e s r' c).2 ⟨a, hr', ha⟩
          rw [he] at this; simp at this
        | some p =>
          obtain ⟨c, s'⟩ := p
          obtain ⟨a, ha, hR⟩ := (entity_iff e s s' c).1 he
          obtain ⟨b', hb'⟩ := hR.head
          have hl' : s'.length < n := by
            have := congrArg List.length ha
            rw [hb'] at this
            simp at this
            omega
          simp only
          constructor
          · rintro ⟨h, hv⟩
            obtain ⟨⟨v2, r2⟩, h', hp⟩ := Option.map_eq_some_iff.1 h
            simp at hp
            obtain ⟨rfl, rfl⟩ := hp
            obtain ⟨t, h1, h2, h3⟩ := (ih s' '\x00' '\x00' v2 r2 hl').1 ⟨h', fun d hd => hv d (by simp [hd])⟩
            rw [after_other (by decide)] at h1
            refine ⟨a ++ t, ?_, ?_, (move ha).2 h3⟩
            · rw [after_head (by rw [hb']; simp)]
              exact .ref a c t v2 hR (hv c (by simp)) h1
            · intro hqn hk
              apply h2 hqn
              rw [infix_two a b' t b0 b1 hR.noBracket hb'] at hk
              exact hk.trans ⟨['\x00', '\x00'], [], by simp⟩
          · rintro ⟨t, h1, h2, h3⟩
            obtain ⟨a2, c2', t2, v2, rfl, rfl, ha2, hc2, hp2⟩ := back h1 h3
            have : ∃ r', '&' :: s = a2 ++ r' ∧ Ends q r' t2 r := by
              unfold Ends at h3 ⊢; split at h3
              · exact ⟨t2 ++ r, by rw [h3.1, List.append_assoc], rfl, h3.2⟩
              · rename_i cq
                rcases h3 with h3 | h3
                · exact ⟨t2 ++ cq :: r, by rw [h3, List.append_assoc], .inl rfl⟩
                · exact ⟨t2, h3.1, .inr ⟨rfl, h3.2⟩⟩
            obtain ⟨r', hr', hE⟩ := this
            have h' := (entity_iff e s r' c2').2 ⟨a2, hr', ha2⟩
            rw [he] at h'; simp at h'
            obtain ⟨rfl, rfl⟩ := h'
            obtain ⟨b2, hb2⟩ := ha2.head
            have := (ih s' '\x00' '\x00' v2 r hl').2 ⟨t2, by rw [after_other (by decide)]; exact hp2, ?_, hE⟩
            · refine ⟨by rw [this.1]; rfl, ?_⟩
              intro d hd
              rcases List.mem_cons.1 hd with rfl | hd
              · exact hc2
              · exact this.2 d hd
            · intro hqn hk
              apply h2 hqn
              rw [infix_two a2 b2 t2 b0 b1 ha2.noBracket hb2]
              rw [List.infix_cons_iff, List.infix_cons_iff] at hk
              simpa [List.cons_prefix_cons] using hk
      rw [if_neg (by simp [c4])]
      have noclose : ∀ {t : Str}, (q = none → ¬ "]]>".toList <:+: b0 :: b1 :: b :: t) ↔ (q = none → ¬ "]]>".toList <:+: b1 :: b :: t) := by
        intro t
        refine forall_congr' fun hqn => not_congr ?_
        rw [infix_cons3]
        constructor
        · rintro (h | h)
          · exact absurd ⟨hqn, h⟩ c1
          · exact h
        · exact .inr
      have step : ∀ {v' : Str}, (∃ t, After q b1 t v ∧ (q = none → ¬ "]]>".toList <:+: b0 :: b1 :: t) ∧ Ends q (b :: s) t r) ↔
          ∃ t, After q b1 (b :: t) v ∧ (q = none → ¬ "]]>".toList <:+: b1 :: b :: t) ∧ Ends q s t r := by
        intro _
        constructor
        · rintro ⟨t, h1, h2, h3⟩
          obtain ⟨t', rfl⟩ := first h3 c2 c3
          exact ⟨t', h1, noclose.1 h2, (shift b).1 h3⟩
        · rintro ⟨t, h1, h2, h3⟩
          exact ⟨b :: t, h1, noclose.2 h2, (shift b).2 h3⟩
      rw [step (v' := v)]
      by_cases c5 : b = '\r'
      · subst c5
        rw [if_pos rfl]
        constructor
        · rintro ⟨h, hv⟩
          obtain ⟨⟨v2, r2⟩, h', hp⟩ := Option.map_eq_some_iff.1 h
          simp at hp
          obtain ⟨rfl, rfl⟩ := hp
          obtain ⟨t, h1, h2, h3⟩ := (ih s b1 '\r' v2 r2 hlen').1 ⟨h', fun d hd => hv d (by simp [hd])⟩
          refine ⟨t, ?_, h2, h3⟩
          rw [after_head (by simp)]
          simpa [After] using h1
        · rintro ⟨t, h1, h2, h3⟩
          rw [after_head (by simp)] at h1
          obtain ⟨v', rfl⟩ : ∃ v', v = '\n' :: v' := by
            by_cases hh : t.head? = some '\n'
            · cases t with
              | nil => simp at hh
              | cons c t => simp at hh; subst hh; rw [pieces_crlf] at h1; obtain ⟨v', h, _⟩ := h1; exact ⟨v', h⟩
            · rw [pieces_cr hh] at h1; obtain ⟨v', h, _⟩ := h1; exact ⟨v', h⟩
          have := (ih s b1 '\r' v' r hlen').2 ⟨t, by simpa [After] using h1, h2, h3⟩
          refine ⟨by rw [this.1]; rfl, ?_⟩
          intro d hd
          rcases List.mem_cons.1 hd with rfl | hd
          · simp [XmlChar]
          · exact this.2 d hd
      rw [if_neg c5]
      by_cases c6 : b1 = '\r' ∧ b = '\n'
      · rw [if_pos c6]
        obtain ⟨rfl, rfl⟩ := c6
        rw [ih s '\r' '\n' v r hlen']
        simp only [after_crlf, after_other (show '\n' ≠ '\r' by decide)]
      rw [if_neg c6]
      have hA : ∀ t v, After q b1 (b :: t) v ↔ ∃ v', v = b :: v' ∧ XmlChar b ∧ Pieces q t v' := by
        intro t v
        rw [← pieces_char c2 c4 c5 c3]
        by_cases hb : b = '\n'
        · rw [after_other (fun h => c6 ⟨h, hb⟩)]
        · rw [after_head (by simpa using hb)]
      constructor
      · rintro ⟨h, hv⟩
        obtain ⟨⟨v2, r2⟩, h', hp⟩ := Option.map_eq_some_iff.1 h
        simp at hp
        obtain ⟨rfl, rfl⟩ := hp
        obtain ⟨t, h1, h2, h3⟩ := (ih s b1 b v2 r2 hlen').1 ⟨h', fun d hd => hv d (by simp [hd])⟩
        rw [after_other c5] at h1
        exact ⟨t, (hA _ _).2 ⟨v2, rfl, hv b (by simp), h1⟩, h2, h3⟩
      · rintro ⟨t, h1, h2, h3⟩
        obtain ⟨v', rfl, hx, h1⟩ := (hA _ _).1 h1
        have := (ih s b1 b v' r hlen').2 ⟨t, by rw [after_other c5]; exact h1, h2, h3⟩
        refine ⟨by rw [this.1]; rfl, ?_⟩
        intro d hd
        rcases List.mem_cons.1 hd with rfl | hd
        · exact hx
        · exact this.2 d hd

end

theorem text_plain (e : Env) (q : Option Char) (hq : q = none ∨ q = some '"' ∨ q = some '\'') (s v r : Str) :
    text e q false s = some (v, r) ↔ ∃ t, Pieces q t v ∧ (q = none → ¬ "]]>".toList <:+: t) ∧ Ends q s t r := by
  have h := textLoop_iff e hq (s.length + 1) s '\x00' '\x00' v r (by omega)
  simp only [after_other (show '\x00' ≠ '\r' by decide)] at h
  have hk : ∀ t : Str, "]]>".toList <:+: '\x00' :: '\x00' :: t ↔ "]]>".toList <:+: t := by
    intro t
    rw [List.infix_cons_iff, List.infix_cons_iff]
    simp [List.cons_prefix_cons]
  simp only [hk] at h
  rw [← h]
  simp only [text]
  cases hl : textLoop e (s.length + 1) q false '\x00' '\x00' s with
  | none => simp
  | some p =>
    obtain ⟨v', r'⟩ := p
    simp only [Bool.false_eq_true, if_false]
    split
    · rename_i ha
      simp only [Option.some.injEq, Prod.mk.injEq]
      constructor
      · rintro ⟨rfl, rfl⟩
        exact ⟨⟨rfl, rfl⟩, fun c hc => (inRange_iff c).1 (List.all_eq_true.1 ha c hc)⟩
      · rintro ⟨h, _⟩; exact h
    · rename_i ha
      simp only [reduceCtorEq, Option.some.injEq, Prod.mk.injEq, false_iff]
      rintro ⟨⟨rfl, rfl⟩, hx⟩
      exact ha (List.all_eq_true.2 fun c hc => (inRange_iff c).2 (hx c hc))

/-! ## CDATA sections -/

theorem lines_nil (v : Str) : Lines [] v ↔ v = [] := by
  constructor
  · intro h; cases h; rfl
  · rintro rfl; exact .nil

theorem lines_crlf (t v : Str) : Lines ('\r' :: '\n' :: t) v ↔ ∃ v', v = '\n' :: v' ∧ Lines t v' := by
  constructor
  · intro h
    cases h with
    | char c s v h => exact absurd rfl h
    | crlf s v h => exact ⟨v, rfl, h⟩
    | cr s v h => simp at h
  · rintro ⟨v', rfl, h⟩; exact .crlf t v' h

theorem lines_cr {t : Str} (ht : t.head? ≠ some '\n') (v : Str) : Lines ('\r' :: t) v ↔ ∃ v', v = '\n' :: v' ∧ Lines t v' := by
  constructor
  · intro h
    cases h with
    | char c s v h => exact absurd rfl h
    | crlf s v h => simp at ht
    | cr s v h h1 => exact ⟨v, rfl, h1⟩
  · rintro ⟨v', rfl, h⟩; exact .cr t v' ht h

theorem lines_char {b : Char} (hb : b ≠ '\r') (t v : Str) : Lines (b :: t) v ↔ ∃ v', v = b :: v' ∧ XmlChar b ∧ Lines t v' := by
  constructor
  · intro h
    cases h with
    | char c s v h h1 h2 => exact ⟨v, rfl, h1, h2⟩
    | crlf s v h => exact absurd rfl hb
    | cr s v h => exact absurd rfl hb
  · rintro ⟨v', rfl, h, h1⟩; exact .char b t v' hb h h1

/-- The rest of a CDATA section after the character `b1`. -/
def LAfter (b1 : Char) (t v : Str) : Prop := if b1 = '\r' then Lines ('\r' :: t) ('\n' :: v) else Lines t v

theorem lafter_head {b1 : Char} {t : Str} (ht : t.head? ≠ some '\n') (v : Str) : LAfter b1 t v ↔ Lines t v := by
  unfold LAfter
  split
  · rw [lines_cr ht]; simp
  · rfl

theorem lafter_crlf (t v : Str) : LAfter '\r' ('\n' :: t) v ↔ Lines t v := by simp [LAfter, lines_crlf]

theorem lafter_other {b1 : Char} (hb : b1 ≠ '\r') (t v : Str) : LAfter b1 t v ↔ Lines t v := by simp [LAfter, hb]

theorem suffix_cons2 (a b c : Char) (t : Str) : "]]".toList <:+ a :: b :: c :: t ↔ "]]".toList <:+ b :: c :: t := by
  rw [List.suffix_cons_iff]
  constructor
  · rintro (h | h)
    · have := congrArg List.length h; simp at this
    · exact h
  · exact .inr

theorem cdataLoop_iff (e : Env) :
    ∀ (n : Nat) (s : Str) (b0 b1 : Char) (v r : Str), s.length < n →
      ((textLoop e n none true b0 b1 s = some (v, r) ∧ ∀ c ∈ v, XmlChar c) ↔
        ∃ t, LAfter b1 t v ∧ ¬ "]]>".toList <:+: b0 :: b1 :: t ∧ "]]".toList <:+ b0 :: b1 :: t ∧ s = t ++ '>' :: r) := by
  intro n
  induction n with
  | zero => intro s b0 b1 v r h; omega
  | succ n ih =>
    intro s b0 b1 v r hlen
    cases s with
    | nil => simp [textLoop]
    | cons b s =>
      have hlen' : s.length < n := by simpa using hlen
      simp only [textLoop]
      by_cases c1 : b0 = ']' ∧ b1 = ']' ∧ b = '>'
      · rw [if_pos ⟨trivial, c1⟩]
        obtain ⟨rfl, rfl, rfl⟩ := c1
        simp only [if_true]
        constructor
        · rintro ⟨h, _⟩
          simp at h; obtain ⟨rfl, rfl⟩ := h
          refine ⟨[], by rw [lafter_head (by simp)]; exact .nil, fun h => ?_, by simp, by simp⟩
          have := h.length_le; simp at this
        · rintro ⟨t, h1, h2, h3, h4⟩
          cases t with
          | nil =>
            rw [lafter_head (by simp), lines_nil] at h1
            simp at h4
            simp [h1, h4]
          | cons c t =>
            simp at h4
            exact absurd ((infix_cons3 _ _ _ _).2 (.inl ⟨rfl, rfl, h4.1.symm⟩)) h2
      rw [if_neg (by tauto), if_neg (by simp), if_neg (by simp), if_neg (by simp)]
      have step : (∃ t, LAfter b1 t v ∧ ¬ "]]>".toList <:+: b0 :: b1 :: t ∧ "]]".toList <:+ b0 :: b1 :: t ∧ b :: s = t ++ '>' :: r) ↔
          ∃ t, LAfter b1 (b :: t) v ∧ ¬ "]]>".toList <:+: b1 :: b :: t ∧ "]]".toList <:+ b1 :: b :: t ∧ s = t ++ '>' :: r := by
        constructor
        · rintro ⟨t, h1, h2, h3, h4⟩
          cases t with
          | nil =>
            exfalso
            simp at h4
            rw [List.suffix_cons_iff] at h3
            rcases h3 with h3 | h3
            · simp at h3; exact c1 ⟨h3.1.symm, h3.2.symm, h4.1⟩
            · have := h3.length_le; simp at this
          | cons c t =>
            simp at h4
            obtain ⟨rfl, rfl⟩ := h4
            exact ⟨t, h1, fun h => h2 ((infix_cons3 _ _ _ _).2 (.inr h)), (suffix_cons2 _ _ _ _).1 h3, rfl⟩
        · rintro ⟨t, h1, h2, h3, h4⟩
          refine ⟨b :: t, h1, fun h => ?_, (suffix_cons2 _ _ _ _).2 h3, by simp [h4]⟩
          rcases (infix_cons3 _ _ _ _).1 h with h | h
          · exact c1 h
          · exact h2 h
      rw [step]
      by_cases c5 : b = '\r'
      · subst c5
        rw [if_pos rfl]
        constructor
        · rintro ⟨h, hv⟩
          obtain ⟨⟨v2, r2⟩, h', hp⟩ := Option.map_eq_some_iff.1 h
          simp at hp
          obtain ⟨rfl, rfl⟩ := hp
          obtain ⟨t, h1, h2, h3⟩ := (ih s b1 '\r' v2 r2 hlen').1 ⟨h', fun d hd => hv d (by simp [hd])⟩
          refine ⟨t, ?_, h2, h3⟩
          rw [lafter_head (by simp)]
          simpa [LAfter] using h1
        · rintro ⟨t, h1, h2, h3⟩
          rw [lafter_head (by simp)] at h1
          obtain ⟨v', rfl⟩ : ∃ v', v = '\n' :: v' := by
            by_cases hh : t.head? = some '\n'
            · cases t with
              | nil => simp at hh
              | cons c t => simp at hh; subst hh; rw [lines_crlf] at h1; obtain ⟨v', h, _⟩ := h1; exact ⟨v', h⟩
            · rw [lines_cr hh] at h1; obtain ⟨v', h, _⟩ := h1; exact ⟨v', h⟩
          have := (ih s b1 '\r' v' r hlen').2 ⟨t, by simpa [LAfter] using h1, h2, h3⟩
          refine ⟨by rw [this.1]; rfl, ?_⟩
          intro d hd
          rcases List.mem_cons.1 hd with rfl | hd
          · simp [XmlChar]
          · exact this.2 d hd
      rw [if_neg c5]
      by_cases c6 : b1 = '\r' ∧ b = '\n'
      · rw [if_pos c6]
        obtain ⟨rfl, rfl⟩ := c6
        rw [ih s '\r' '\n' v r hlen']
        simp only [lafter_crlf, lafter_other (show '\n' ≠ '\r' by decide)]
      rw [if_neg c6]
      have hA : ∀ t v, LAfter b1 (b :: t) v ↔ ∃ v', v = b :: v' ∧ XmlChar b ∧ Lines t v' := by
        intro t v
        rw [← lines_char c5]
        by_cases hb : b = '\n'
        · rw [lafter_other (fun h => c6 ⟨h, hb⟩)]
        · rw [lafter_head (by simpa using hb)]
      constructor
      · rintro ⟨h, hv⟩
        obtain ⟨⟨v2, r2⟩, h', hp⟩ := Option.map_eq_some_iff.1 h
        simp at hp
        obtain ⟨rfl, rfl⟩ := hp
        obtain ⟨t, h1, h2, h3⟩ := (ih s b1 b v2 r2 hlen').1 ⟨h', fun d hd => hv d (by simp [hd])⟩
        rw [lafter_other c5] at h1
        exact ⟨t, (hA _ _).2 ⟨v2, rfl, hv b (by simp), h1⟩, h2, h3⟩
      · rintro ⟨t, h1, h2, h3⟩
        obtain ⟨v', rfl, hx, h1⟩ := (hA _ _).1 h1
        have := (ih s b1 b v' r hlen').2 ⟨t, by rw [lafter_other c5]; exact h1, h2, h3⟩
        refine ⟨by rw [this.1]; rfl, ?_⟩
        intro d hd
        rcases List.mem_cons.1 hd with rfl | hd
        · exact hx
        · exact this.2 d hd

theorem lines_bracket (t v : Str) : Lines (t ++ [']']) v ↔ ∃ v', v = v' ++ [']'] ∧ Lines t v' := by
  constructor
  · intro h
    generalize hs : t ++ [']'] = s at h
    induction h generalizing t with
    | nil => simp at hs
    | char c s v h1 h2 h3 ih =>
      cases t with
      | nil =>
        simp at hs; obtain ⟨rfl, rfl⟩ := hs
        rw [lines_nil] at h3; subst h3
        exact ⟨[], rfl, .nil⟩
      | cons d t =>
        simp at hs; obtain ⟨rfl, rfl⟩ := hs
        obtain ⟨v', rfl, h⟩ := ih t rfl
        exact ⟨d :: v', rfl, .char d t v' h1 h2 h⟩
    | crlf s v h1 ih =>
      cases t with
      | nil => simp at hs
      | cons d t =>
        simp at hs; obtain ⟨rfl, hs⟩ := hs
        cases t with
        | nil => simp at hs
        | cons d t =>
          simp at hs; obtain ⟨rfl, rfl⟩ := hs
          obtain ⟨v', rfl, h⟩ := ih t rfl
          exact ⟨'\n' :: v', rfl, .crlf t v' h⟩
    | cr s v h1 h2 ih =>
      cases t with
      | nil => simp at hs
      | cons d t =>
        simp at hs; obtain ⟨rfl, rfl⟩ := hs
        obtain ⟨v', rfl, h⟩ := ih t rfl
        refine ⟨'\n' :: v', rfl, .cr t v' ?_ h⟩
        cases t <;> simp_all
  · rintro ⟨v', rfl, h⟩
    induction h with
    | nil => exact .char ']' [] [] (by decide) (by simp [XmlChar]) .nil
    | char c s v h1 h2 h3 ih => exact .char c _ _ h1 h2 ih
    | crlf s v h1 ih => exact .crlf _ _ ih
    | cr s v h1 h2 ih => exact .cr _ _ (by cases s <;> simp_all) ih

theorem lines_chars {t v : Str} (h : Lines t v) : ∀ c ∈ v, XmlChar c := by
  induction h with
  | nil => simp
  | char c s v h1 h2 h3 ih => intro d hd; rcases List.mem_cons.1 hd with rfl | hd; exacts [h2, ih d hd]
  | crlf s v h1 ih => intro d hd; rcases List.mem_cons.1 hd with rfl | hd; exacts [by simp [XmlChar], ih d hd]
  | cr s v h1 h2 ih => intro d hd; rcases List.mem_cons.1 hd with rfl | hd; exacts [by simp [XmlChar], ih d hd]

theorem text_cdata (e : Env) (s v r : Str) :
    text e none true s = some (v, r) ↔
      ∃ t, s = t ++ ("]]>".toList ++ r) ∧ ¬ "]]>".toList <:+: t ++ "]]".toList ∧ Lines t v := by
  have key : ∀ w r', (textLoop e (s.length + 1) none true '\x00' '\x00' s = some (w, r') ∧ ∀ c ∈ w, XmlChar c) ↔
      ∃ t v, w = v ++ "]]".toList ∧ s = t ++ ("]]>".toList ++ r') ∧ ¬ "]]>".toList <:+: t ++ "]]".toList ∧ Lines t v := by
    intro w r'
    rw [cdataLoop_iff e (s.length + 1) s '\x00' '\x00' w r' (by omega)]
    simp only [lafter_other (show '\x00' ≠ '\r' by decide)]
    constructor
    · rintro ⟨t, h1, h2, h3, h4⟩
      have h3' : "]]".toList <:+ t := by
        rw [List.suffix_cons_iff, List.suffix_cons_iff] at h3
        rcases h3 with h3 | h3 | h3
        · simp at h3
        · simp at h3
        · exact h3
      obtain ⟨t0, rfl⟩ := h3'
      have ht : t0 ++ "]]".toList = (t0 ++ [']']) ++ [']'] := by simp
      rw [ht, lines_bracket] at h1
      obtain ⟨v1, rfl, h1⟩ := h1
      rw [lines_bracket] at h1
      obtain ⟨v0, rfl, h1⟩ := h1
      refine ⟨t0, v0, by simp, by rw [h4]; simp, fun h => h2 ?_, h1⟩
      exact h.trans ⟨['\x00', '\x00'], [], by simp⟩
    · rintro ⟨t, v, rfl, h1, h2, h3⟩
      refine ⟨t ++ "]]".toList, ?_, ?_, ?_, by rw [h1]; simp⟩
      · have ht : t ++ "]]".toList = (t ++ [']']) ++ [']'] := by simp
        rw [ht, lines_bracket]
        exact ⟨v ++ [']'], by simp, (lines_bracket _ _).2 ⟨v, rfl, h3⟩⟩
      · intro h
        apply h2
        rw [List.infix_cons_iff, List.infix_cons_iff] at h
        simpa [List.cons_prefix_cons] using h
      · exact ⟨'\x00' :: '\x00' :: t, by simp⟩
  simp only [text]
  cases hl : textLoop e (s.length + 1) none true '\x00' '\x00' s with
  | none =>
    simp only [reduceCtorEq, false_iff]
    rintro ⟨t, h1, h2, h3⟩
    have := ((key (v ++ "]]".toList) r).2 ⟨t, v, rfl, h1, h2, h3⟩).1
    rw [hl] at this; simp at this
  | some p =>
    obtain ⟨w, r'⟩ := p
    simp only [if_true]
    constructor
    · intro h
      split at h
      · rename_i ha
        simp only [Option.some.injEq, Prod.mk.injEq] at h
        obtain ⟨rfl, rfl⟩ := h
        have hx : ∀ c ∈ w, XmlChar c := by
          -- the last two characters are brackets
          have hnr : ∃ a, w = a ++ "]]".toList := by
            clear ha key
            have : ∀ (n : Nat) (s : Str) (b0 b1 : Char) (w r : Str), textLoop e n none true b0 b1 s = some (w, r) →
                "]]".toList <:+ b0 :: b1 :: w := by
              intro n
              induction n with
              | zero => intro s b0 b1 w r h; simp [textLoop] at h
              | succ n ih =>
                intro s b0 b1 w r h
                cases s with
                | nil => simp [textLoop] at h
                | cons b s =>
                  simp only [textLoop] at h
                  by_cases c1 : b0 = ']' ∧ b1 = ']' ∧ b = '>'
                  · rw [if_pos ⟨trivial, c1⟩] at h
                    simp at h
                    obtain ⟨rfl, rfl, _⟩ := c1
                    simp [← h.1]
                  rw [if_neg (by tauto), if_neg (by simp), if_neg (by simp), if_neg (by simp)] at h
                  by_cases c5 : b = '\r'
                  · rw [if_pos c5] at h
                    obtain ⟨⟨w', r'⟩, h', hp⟩ := Option.map_eq_some_iff.1 h
                    simp at hp
                    obtain ⟨rfl, rfl⟩ := hp
                    have := ih _ _ _ _ _ h'
                    rw [c5] at this
                    rw [List.suffix_cons_iff]
                    right
                    rw [List.suffix_cons_iff] at this ⊢
                    rcases this with h | h
                    · simp at h
                    · right
                      rw [List.suffix_cons_iff] at h ⊢
                      rcases h with h | h
                      · simp at h
                      · exact .inr h
                  rw [if_neg c5] at h
                  by_cases c6 : b1 = '\r' ∧ b = '\n'
                  · rw [if_pos c6] at h
                    have := ih _ _ _ _ _ h
                    obtain ⟨rfl, rfl⟩ := c6
                    rw [List.suffix_cons_iff] at this ⊢
                    rcases this with h | h
                    · simp at h
                    · right
                      rw [List.suffix_cons_iff] at h ⊢
                      rcases h with h | h
                      · simp at h
                      · exact .inr h
                  rw [if_neg c6] at h
                  obtain ⟨⟨w', r'⟩, h', hp⟩ := Option.map_eq_some_iff.1 h
                  simp at hp
                  obtain ⟨rfl, rfl⟩ := hp
                  have := ih _ _ _ _ _ h'
                  exact (suffix_cons2 _ _ _ _).2 this
            have := this _ _ _ _ _ _ hl
            rw [List.suffix_cons_iff, List.suffix_cons_iff] at this
            rcases this with h | h | h
            · simp at h
            · simp at h
            · obtain ⟨a, ha⟩ := h; exact ⟨a, ha.symm⟩
          obtain ⟨a, rfl⟩ := hnr
          intro c hc
          have ha' : (a ++ "]]".toList).take ((a ++ "]]".toList).length - 2) = a := by simp
          rw [ha'] at ha
          rcases List.mem_append.1 hc with hc | hc
          · exact (inRange_iff c).1 (List.all_eq_true.1 ha c hc)
          · simp at hc; subst hc; simp [XmlChar]
        obtain ⟨t, v, hw, h1, h2, h3⟩ := (key w r').1 ⟨hl, hx⟩
        refine ⟨t, h1, h2, ?_⟩
        have : w.take (w.length - 2) = v := by rw [hw]; simp
        rw [this]; exact h3
      · simp at h
    · rintro ⟨t, h1, h2, h3⟩
      have := ((key (v ++ "]]".toList) r).2 ⟨t, v, rfl, h1, h2, h3⟩).1
      rw [hl] at this
      simp only [Option.some.injEq, Prod.mk.injEq] at this
      obtain ⟨rfl, rfl⟩ := this
      have ht : (v ++ "]]".toList).take ((v ++ "]]".toList).length - 2) = v := by simp
      rw [ht, if_pos (List.all_eq_true.2 fun c hc => (inRange_iff c).2 (lines_chars h3 c hc))]

end Telefacts.XmlText
