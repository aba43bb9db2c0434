import Verif.Proof.XmlRuns
/-! # Proofs about encoding/xml: tags, comments, instructions, declarations -/
namespace Telefacts.XmlText

theorem suffix_cons2' (x y a b c : Char) (t : Str) : [x, y] <:+ a :: b :: c :: t ↔ [x, y] <:+ b :: c :: t := by
  rw [List.suffix_cons_iff]
  constructor
  · rintro (h | h)
    · have := congrArg List.length h; simp at this
    · exact h
  · exact .inr

theorem suffix_two (x y a b : Char) : [x, y] <:+ [a, b] ↔ x = a ∧ y = b := by
  constructor
  · intro h; have := h.eq_of_length rfl; simpa using this
  · rintro ⟨rfl, rfl⟩; exact List.suffix_rfl

theorem suffix_drop2 (x y : Char) (t : Str) (hx : x ≠ '\x00') : [x, y] <:+ '\x00' :: '\x00' :: t ↔ [x, y] <:+ t := by
  rw [List.suffix_cons_iff, List.suffix_cons_iff]
  constructor
  · rintro (h | h | h)
    · simp at h; exact absurd h.1 hx
    · simp at h; exact absurd h.1 hx
    · exact h
  · exact fun h => .inr (.inr h)

theorem commentEnd_aux (s r : Str) : ∀ b0 b1, commentEnd b0 b1 s = some r ↔
    ∃ t, s = t ++ '>' :: r ∧ ['-', '-'] <:+ b0 :: b1 :: t ∧ ¬ ['-', '-'] <:+: (b0 :: b1 :: t).dropLast := by
  induction s with
  | nil => simp [commentEnd]
  | cons b s ih =>
    intro b0 b1
    simp only [commentEnd]
    by_cases c1 : b0 = '-' ∧ b1 = '-'
    · obtain ⟨rfl, rfl⟩ := c1
      rw [if_pos ⟨rfl, rfl⟩]
      constructor
      · intro h
        split at h
        · rename_i hb
          simp at h
          subst hb h
          exact ⟨[], by simp, by simp, fun h => by have := h.length_le; simp at this⟩
        · simp at h
      · rintro ⟨t, h1, h2, h3⟩
        cases t with
        | nil => simp at h1; simp [h1]
        | cons c t => exact absurd ⟨[], (c :: t).dropLast, by simp⟩ h3
    · rw [if_neg c1, ih]
      constructor
      · rintro ⟨t, h1, h2, h3⟩
        refine ⟨b :: t, by simp [h1], (suffix_cons2' _ _ _ _ _ _).2 h2, fun h => ?_⟩
        rw [List.dropLast_cons_cons, List.infix_cons_iff] at h
        rcases h with h | h
        · rw [List.dropLast_cons_cons, List.cons_prefix_cons, List.cons_prefix_cons] at h
          exact c1 ⟨h.1.symm, h.2.1.symm⟩
        · exact h3 h
      · rintro ⟨t, h1, h2, h3⟩
        cases t with
        | nil =>
          rw [suffix_two] at h2
          exact absurd ⟨h2.1.symm, h2.2.symm⟩ c1
        | cons c t =>
          simp at h1
          obtain ⟨rfl, rfl⟩ := h1
          refine ⟨t, rfl, (suffix_cons2' _ _ _ _ _ _).1 h2, fun h => h3 ?_⟩
          rw [List.dropLast_cons_cons, List.infix_cons_iff]
          exact .inr h

theorem commentEnd_iff (s r : Str) : commentEnd '\x00' '\x00' s = some r ↔
    ∃ c, s = c ++ ("-->".toList ++ r) ∧ ¬ "--".toList <:+: c ++ ['-'] := by
  rw [commentEnd_aux]
  have hd : ∀ c : Str, ('\x00' :: '\x00' :: (c ++ ['-', '-'])).dropLast = '\x00' :: '\x00' :: (c ++ ['-']) := by
    intro c
    have : '\x00' :: '\x00' :: (c ++ ['-', '-']) = ('\x00' :: '\x00' :: (c ++ ['-'])) ++ ['-'] := by simp
    rw [this, List.dropLast_concat]
  have hi : ∀ c : Str, ['-', '-'] <:+: '\x00' :: '\x00' :: c ↔ ['-', '-'] <:+: c := by
    intro c; rw [List.infix_cons_iff, List.infix_cons_iff]; simp [List.cons_prefix_cons]
  constructor
  · rintro ⟨t, h1, h2, h3⟩
    rw [suffix_drop2 _ _ _ (by decide)] at h2
    obtain ⟨c, rfl⟩ := h2
    rw [hd, hi] at h3
    exact ⟨c, by rw [h1]; simp, h3⟩
  · rintro ⟨c, h1, h2⟩
    refine ⟨c ++ ['-', '-'], by rw [h1]; simp, (suffix_drop2 _ _ _ (by decide)).2 ⟨c, rfl⟩, ?_⟩
    rw [hd, hi]; exact h2

theorem innerComment_aux (s r : Str) : ∀ b0 b1, innerCommentEnd b0 b1 s = some r ↔
    ∃ t, s = t ++ '>' :: r ∧ ['-', '-'] <:+ b0 :: b1 :: t ∧ ¬ ['-', '-', '>'] <:+: b0 :: b1 :: t := by
  have hk : ∀ (a b c : Char) (t : Str), ['-', '-', '>'] <:+: a :: b :: c :: t ↔
      (a = '-' ∧ b = '-' ∧ c = '>') ∨ ['-', '-', '>'] <:+: b :: c :: t := by
    intro a b c t; rw [List.infix_cons_iff]; simp [List.cons_prefix_cons, eq_comm]
  induction s with
  | nil => simp [innerCommentEnd]
  | cons b s ih =>
    intro b0 b1
    simp only [innerCommentEnd]
    by_cases c1 : b0 = '-' ∧ b1 = '-' ∧ b = '>'
    · rw [if_pos c1]
      obtain ⟨rfl, rfl, rfl⟩ := c1
      constructor
      · intro h
        simp at h
        subst h
        exact ⟨[], by simp, by simp, fun h => by have := h.length_le; simp at this⟩
      · rintro ⟨t, h1, h2, h3⟩
        cases t with
        | nil => simp at h1; simp [h1]
        | cons c t => simp at h1; exact absurd ((hk _ _ _ _).2 (.inl ⟨rfl, rfl, h1.1.symm⟩)) h3
    · rw [if_neg c1, ih]
      constructor
      · rintro ⟨t, h1, h2, h3⟩
        refine ⟨b :: t, by simp [h1], (suffix_cons2' _ _ _ _ _ _).2 h2, fun h => ?_⟩
        rcases (hk _ _ _ _).1 h with h | h
        · exact c1 h
        · exact h3 h
      · rintro ⟨t, h1, h2, h3⟩
        cases t with
        | nil =>
          rw [suffix_two] at h2
          simp at h1
          exact absurd ⟨h2.1.symm, h2.2.symm, h1.1⟩ c1
        | cons c t =>
          simp at h1
          obtain ⟨rfl, rfl⟩ := h1
          exact ⟨t, rfl, (suffix_cons2' _ _ _ _ _ _).1 h2, fun h => h3 ((hk _ _ _ _).2 (.inr h))⟩

theorem innerComment_iff (s r : Str) : innerCommentEnd '\x00' '\x00' s = some r ↔
    ∃ t, s = t ++ ("-->".toList ++ r) ∧ ¬ "-->".toList <:+: t ++ "--".toList := by
  rw [innerComment_aux]
  have hi : ∀ c : Str, ['-', '-', '>'] <:+: '\x00' :: '\x00' :: c ↔ ['-', '-', '>'] <:+: c := by
    intro c; rw [List.infix_cons_iff, List.infix_cons_iff]; simp [List.cons_prefix_cons]
  constructor
  · rintro ⟨t, h1, h2, h3⟩
    rw [suffix_drop2 _ _ _ (by decide)] at h2
    obtain ⟨c, rfl⟩ := h2
    rw [hi] at h3
    exact ⟨c, by rw [h1]; simp, h3⟩
  · rintro ⟨c, h1, h2⟩
    refine ⟨c ++ ['-', '-'], by rw [h1]; simp, (suffix_drop2 _ _ _ (by decide)).2 ⟨c, rfl⟩, ?_⟩
    rw [hi]; exact h2

theorem instEnd_aux (s d r : Str) : ∀ b0, instEnd b0 s = some (d, r) ↔
    s = d ++ '>' :: r ∧ ['?'] <:+ b0 :: d ∧ ¬ ['?', '>'] <:+: b0 :: d := by
  have hk : ∀ (a b : Char) (t : Str), ['?', '>'] <:+: a :: b :: t ↔ (a = '?' ∧ b = '>') ∨ ['?', '>'] <:+: b :: t := by
    intro a b t; rw [List.infix_cons_iff]; simp [List.cons_prefix_cons, eq_comm]
  have hs : ∀ (a b : Char) (t : Str), ['?'] <:+ a :: b :: t ↔ ['?'] <:+ b :: t := by
    intro a b t; rw [List.suffix_cons_iff]; simp
  induction s generalizing d with
  | nil => simp [instEnd]
  | cons b s ih =>
    intro b0
    simp only [instEnd]
    by_cases c1 : b0 = '?' ∧ b = '>'
    · rw [if_pos c1]
      obtain ⟨rfl, rfl⟩ := c1
      constructor
      · intro h
        simp at h
        obtain ⟨rfl, rfl⟩ := h
        exact ⟨by simp, by simp, fun h => by have := h.length_le; simp at this⟩
      · rintro ⟨h1, h2, h3⟩
        cases d with
        | nil => simp at h1; simp [h1]
        | cons c t => simp at h1; exact absurd ((hk _ _ _).2 (.inl ⟨rfl, h1.1.symm⟩)) h3
    · rw [if_neg c1]
      constructor
      · intro h
        obtain ⟨⟨d', r'⟩, h', hp⟩ := Option.map_eq_some_iff.1 h
        simp at hp
        obtain ⟨rfl, rfl⟩ := hp
        obtain ⟨h1, h2, h3⟩ := (ih d' b).1 h'
        refine ⟨by simp [h1], (hs _ _ _).2 h2, fun h => ?_⟩
        rcases (hk _ _ _).1 h with h | h
        · exact c1 h
        · exact h3 h
      · rintro ⟨h1, h2, h3⟩
        cases d with
        | nil =>
          have := h2.eq_of_length rfl
          simp at this h1
          exact absurd ⟨this.symm, h1.1⟩ c1
        | cons c t =>
          simp at h1
          obtain ⟨rfl, rfl⟩ := h1
          rw [(ih t b).2 ⟨rfl, (hs _ _ _).1 h2, fun h => h3 ((hk _ _ _).2 (.inr h))⟩]
          rfl

theorem instEnd_iff (s d r : Str) : (∃ d', instEnd '\x00' s = some (d', r) ∧ d'.take (d'.length - 1) = d) ↔
    s = d ++ ("?>".toList ++ r) ∧ ¬ "?>".toList <:+: d ++ ['?'] := by
  have hi : ∀ c : Str, ['?', '>'] <:+: '\x00' :: c ↔ ['?', '>'] <:+: c := by
    intro c; rw [List.infix_cons_iff]; simp [List.cons_prefix_cons]
  constructor
  · rintro ⟨d', h, hd⟩
    obtain ⟨h1, h2, h3⟩ := (instEnd_aux _ _ _ _).1 h
    rw [List.suffix_cons_iff] at h2
    rcases h2 with h2 | h2
    · simp at h2
    · obtain ⟨c, rfl⟩ := h2
      simp at hd
      subst hd
      rw [hi] at h3
      exact ⟨by rw [h1]; simp, h3⟩
  · rintro ⟨h1, h2⟩
    refine ⟨d ++ ['?'], (instEnd_aux _ _ _ _).2 ⟨by rw [h1]; simp, ?_, by rw [hi]; exact h2⟩, by simp⟩
    rw [List.suffix_cons_iff]
    exact .inr ⟨d, rfl⟩

/-- The rest of a declaration, perhaps inside quotes. -/
def DirQ (q : Option Char) (d : Nat) (t : Str) : Prop :=
  match q with
  | none => Declaration d t
  | some c => ∃ a t', t = a ++ c :: t' ∧ c ∉ a ∧ Declaration d t'

theorem declaration_gt (t : Str) : Declaration 0 ('>' :: t) ↔ t = [] := by
  constructor
  · intro h
    generalize hs : '>' :: t = s at h
    generalize hd : 0 = d at h
    cases h with
    | done => simpa using hs
    | up => simp at hd
    | quoted d q a s hq => simp at hs; rcases hq with rfl | rfl <;> simp at hs
    | comment => simp at hs
    | down => simp at hs
    | other d c s h1 h2 => simp at hs; exact absurd hs.1.symm h2
  · rintro rfl; exact .done

theorem declaration_up (d : Nat) (t : Str) : Declaration (d + 1) ('>' :: t) ↔ Declaration d t := by
  constructor
  · intro h
    generalize hs : '>' :: t = s at h
    generalize hd : d + 1 = d' at h
    cases h with
    | done => simp at hd
    | up d' s h => simp at hs hd; subst hs hd; exact h
    | quoted d q a s hq => simp at hs; rcases hq with rfl | rfl <;> simp at hs
    | comment => simp at hs
    | down => simp at hs
    | other d c s h1 h2 => simp at hs; exact absurd hs.1.symm h2
  · exact .up d t

theorem declaration_quote {q : Char} (hq : q = '"' ∨ q = '\'') (d : Nat) (t : Str) :
    Declaration d (q :: t) ↔ DirQ (some q) d t := by
  constructor
  · intro h
    generalize hs : q :: t = s at h
    cases h with
    | done => simp at hs; rcases hq with rfl | rfl <;> simp at hs
    | up => simp at hs; rcases hq with rfl | rfl <;> simp at hs
    | quoted d q' a s hq' h1 h2 => simp at hs; obtain ⟨rfl, rfl⟩ := hs; exact ⟨a, s, rfl, h1, h2⟩
    | comment => simp at hs; rcases hq with rfl | rfl <;> simp at hs
    | down => simp at hs; rcases hq with rfl | rfl <;> simp at hs
    | other d c s h1 h2 h3 h4 =>
      simp at hs
      rcases hq with rfl | rfl
      · exact absurd hs.1.symm h3
      · exact absurd hs.1.symm h4
  · rintro ⟨a, t', rfl, h1, h2⟩
    exact .quoted d q a t' hq h1 h2

theorem declaration_comment (d : Nat) (t : Str) : Declaration d ('<' :: '!' :: '-' :: '-' :: t) ↔
    ∃ a s, t = a ++ ("-->".toList ++ s) ∧ ¬ "-->".toList <:+: a ++ "--".toList ∧ Declaration d s := by
  constructor
  · intro h
    generalize hs : '<' :: '!' :: '-' :: '-' :: t = s at h
    cases h with
    | done => simp at hs
    | up => simp at hs
    | quoted d q a s hq => simp at hs; rcases hq with rfl | rfl <;> simp at hs
    | comment d a s h1 h2 => simp at hs; exact ⟨a, s, by simp [hs], h1, h2⟩
    | down d s h1 h2 => simp at hs; subst hs; exact absurd ⟨t, by simp⟩ h1
    | other d c s h1 => simp at hs; exact absurd hs.1.symm h1
  · rintro ⟨a, s, rfl, h1, h2⟩
    have := Declaration.comment d a s h1 h2
    simpa using this

theorem declaration_down {t : Str} (ht : ¬ "!--".toList <+: t) (d : Nat) : Declaration d ('<' :: t) ↔ Declaration (d + 1) t := by
  constructor
  · intro h
    generalize hs : '<' :: t = s at h
    cases h with
    | done => simp at hs
    | up => simp at hs
    | quoted d q a s hq => simp at hs; rcases hq with rfl | rfl <;> simp at hs
    | comment d a s h1 h2 => simp at hs; exact absurd ⟨_, by rw [hs]; rfl⟩ ht
    | down d s h1 h2 => simp at hs; subst hs; exact h2
    | other d c s h1 => simp at hs; exact absurd hs.1.symm h1
  · exact .down d t ht

theorem declaration_other {c : Char} (h1 : c ≠ '<') (h2 : c ≠ '>') (h3 : c ≠ '"') (h4 : c ≠ '\'') (d : Nat) (t : Str) :
    Declaration d (c :: t) ↔ Declaration d t := by
  constructor
  · intro h
    generalize hs : c :: t = s at h
    cases h with
    | done => simp at hs; exact absurd hs.1 h2
    | up => simp at hs; exact absurd hs.1 h2
    | quoted d q a s hq => simp at hs; rcases hq with rfl | rfl <;> simp_all
    | comment d a s => simp at hs; exact absurd hs.1 h1
    | down d s => simp at hs; exact absurd hs.1 h1
    | other d c s _ _ _ _ h => simp at hs; obtain ⟨rfl, rfl⟩ := hs; exact h
  · exact .other d c t h1 h2 h3 h4

theorem declaration_nil (d : Nat) : ¬ Declaration d [] := by
  intro h
  generalize hs : ([] : Str) = s at h
  cases h <;> simp at hs

theorem directiveEnd_iff : ∀ (n : Nat) (q : Option Char) (d : Nat) (s r : Str),
    (q = none ∨ q = some '"' ∨ q = some '\'') → s.length < n →
      (directiveEnd n q d s = some r ↔ ∃ t, s = t ++ r ∧ DirQ q d t) := by
  intro n
  induction n with
  | zero => intro q d s r _ h; omega
  | succ n ih =>
    intro q d s r hq hlen
    cases s with
    | nil =>
      simp only [directiveEnd, reduceCtorEq, false_iff]
      rintro ⟨t, h1, h2⟩
      simp at h1
      obtain ⟨rfl, rfl⟩ := h1
      unfold DirQ at h2; split at h2
      · exact declaration_nil d h2
      · obtain ⟨a, t', h, _⟩ := h2; simp at h
    | cons b s =>
      have hlen' : s.length < n := by simpa using hlen
      simp only [directiveEnd]
      -- the first character is part of it
      have first : (∃ t, b :: s = t ++ r ∧ DirQ q d t) ↔ ∃ t, s = t ++ r ∧ DirQ q d (b :: t) := by
        constructor
        · rintro ⟨t, h1, h2⟩
          cases t with
          | nil =>
            exfalso
            unfold DirQ at h2; split at h2
            · exact declaration_nil d h2
            · obtain ⟨a, t', h, _⟩ := h2; simp at h
          | cons c t => simp at h1; obtain ⟨rfl, rfl⟩ := h1; exact ⟨t, rfl, h2⟩
        · rintro ⟨t, rfl, h2⟩; exact ⟨b :: t, rfl, h2⟩
      rw [first]
      by_cases hqn : q = none
      · subst hqn
        simp only [DirQ]
        by_cases c1 : b = '>'
        · subst c1
          cases d with
          | zero =>
            simp only [true_and, if_true, declaration_gt, Option.some.injEq]
            constructor
            · rintro rfl; exact ⟨[], by simp, rfl⟩
            · rintro ⟨t, h, rfl⟩; simpa using h
          | succ d =>
            simp only [Nat.succ_ne_zero, and_false, if_false, declaration_up]
            rw [if_neg (by simp), if_neg (by simp), if_neg (by decide), if_pos trivial, ih none _ _ _ (.inl rfl) hlen']
            rfl
        rw [if_neg (by simp [c1]), if_neg (by simp), if_neg (by simp)]
        by_cases c2 : b = '\'' ∨ b = '"'
        · rw [if_pos c2, ih (some b) _ _ _ (by rcases c2 with rfl | rfl <;> simp) hlen']
          simp only [declaration_quote (show b = '"' ∨ b = '\'' by tauto)]
        rw [if_neg c2, if_neg c1]
        by_cases c3 : b = '<'
        · subst c3
          rw [if_pos rfl]
          split
          · rename_i r'
            have hdc := fun t => declaration_comment d t
            cases hc : innerCommentEnd '\x00' '\x00' r' with
            | none =>
              simp only [reduceCtorEq, false_iff]
              rintro ⟨t, h1, h2⟩
              have hpre : ∃ t', t = '!' :: '-' :: '-' :: t' ∧ r' = t' ++ r := by
                match t, h1, h2 with
                | [], h1, h2 => exact absurd ((declaration_down (by simp) d).1 h2) (declaration_nil _)
                | [c], h1, h2 =>
                  simp at h1; obtain ⟨rfl, _⟩ := h1
                  have h2 := (declaration_down (by simp) d).1 h2
                  rw [declaration_other (by decide) (by decide) (by decide) (by decide)] at h2
                  exact absurd h2 (declaration_nil _)
                | [c, c2], h1, h2 =>
                  simp at h1; obtain ⟨rfl, rfl, _⟩ := h1
                  have h2 := (declaration_down (by simp [List.cons_prefix_cons]) d).1 h2
                  rw [declaration_other (by decide) (by decide) (by decide) (by decide),
                    declaration_other (by decide) (by decide) (by decide) (by decide)] at h2
                  exact absurd h2 (declaration_nil _)
                | c :: c2 :: c3 :: t, h1, h2 =>
                  simp at h1; obtain ⟨rfl, rfl, rfl, h1⟩ := h1; exact ⟨t, rfl, h1⟩
              obtain ⟨t', rfl, rfl⟩ := hpre
              obtain ⟨a, s', rfl, h3, h4⟩ := (hdc _).1 h2
              have := (innerComment_iff (a ++ ("-->".toList ++ s') ++ r) (s' ++ r)).2 ⟨a, by simp, h3⟩
              rw [hc] at this; simp at this
            | some r2 =>
              simp only
              obtain ⟨a, ha, hn⟩ := (innerComment_iff r' r2).1 hc
              have hl2 : r2.length < n := by
                have := congrArg List.length ha; simp at this hlen'; omega
              rw [ih none d r2 r (.inl rfl) hl2]
              simp only [DirQ]
              constructor
              · rintro ⟨t, rfl, h⟩
                exact ⟨'!' :: '-' :: '-' :: (a ++ ("-->".toList ++ t)), by simp [ha], (hdc _).2 ⟨a, t, rfl, hn, h⟩⟩
              · rintro ⟨t, h1, h2⟩
                have hpre : ∃ t', t = '!' :: '-' :: '-' :: t' ∧ r' = t' ++ r := by
                  match t, h1, h2 with
                  | [], h1, h2 => exact absurd ((declaration_down (by simp) d).1 h2) (declaration_nil _)
                  | [c], h1, h2 =>
                    simp at h1; obtain ⟨rfl, _⟩ := h1
                    have h2 := (declaration_down (by simp) d).1 h2
                    rw [declaration_other (by decide) (by decide) (by decide) (by decide)] at h2
                    exact absurd h2 (declaration_nil _)
                  | [c, c2], h1, h2 =>
                    simp at h1; obtain ⟨rfl, rfl, _⟩ := h1
                    have h2 := (declaration_down (by simp [List.cons_prefix_cons]) d).1 h2
                    rw [declaration_other (by decide) (by decide) (by decide) (by decide),
                      declaration_other (by decide) (by decide) (by decide) (by decide)] at h2
                    exact absurd h2 (declaration_nil _)
                  | c :: c2 :: c3 :: t, h1, h2 =>
                    simp at h1; obtain ⟨rfl, rfl, rfl, h1⟩ := h1; exact ⟨t, rfl, h1⟩
                obtain ⟨t', rfl, rfl⟩ := hpre
                obtain ⟨a', s', rfl, h3, h4⟩ := (hdc _).1 h2
                have := (innerComment_iff (a' ++ ("-->".toList ++ s') ++ r) (s' ++ r)).2 ⟨a', by simp, h3⟩
                rw [hc] at this; simp at this
                exact ⟨s', this, h4⟩
          · rename_i hns
            have hn : ∀ t, s = t ++ r → ¬ "!--".toList <+: t := by
              rintro t rfl ⟨u, hu⟩
              exact hns (u ++ r) (by rw [← hu]; rfl)
            rw [ih none (d + 1) s r (.inl rfl) hlen']
            simp only [DirQ]
            constructor
            · rintro ⟨t, h, h'⟩; exact ⟨t, h, (declaration_down (hn t h) d).2 h'⟩
            · rintro ⟨t, h, h'⟩; exact ⟨t, h, (declaration_down (hn t h) d).1 h'⟩
        · rw [if_neg c3, ih none d s r (.inl rfl) hlen']
          simp only [DirQ, declaration_other c3 c1 (by tauto) (by tauto)]
      · obtain ⟨c, rfl⟩ := Option.ne_none_iff_exists'.1 hqn
        have hc : c = '"' ∨ c = '\'' := by simpa using hq
        rw [if_neg (by simp)]
        by_cases hb : c = b
        · subst hb
          rw [if_pos rfl, ih none d s r (.inl rfl) hlen']
          simp only [DirQ]
          constructor
          · rintro ⟨t, h, h'⟩; exact ⟨t, h, [], t, rfl, by simp, h'⟩
          · rintro ⟨t, h, a, t', ha, hn, h'⟩
            cases a with
            | nil => simp at ha; subst ha; exact ⟨t, h, h'⟩
            | cons x a => simp at ha; exact absurd (by simp [ha.1]) hn
        · rw [if_neg (by simpa using hb), if_pos (by simp), ih (some c) d s r hq hlen']
          simp only [DirQ]
          constructor
          · rintro ⟨t, h, a, t', rfl, hn, h'⟩; exact ⟨_, h, b :: a, t', by simp, by simp [hn, hb], h'⟩
          · rintro ⟨t, h, a, t', ha, hn, h'⟩
            cases a with
            | nil => simp at ha; exact absurd ha.1.symm hb
            | cons x a => simp at ha hn; obtain ⟨rfl, rfl⟩ := ha; exact ⟨_, h, a, t', rfl, hn.2, h'⟩

/-! ## Tags -/

theorem qname_head {e : Env} {n : Str} {x : XName} (h : QName e n x) : ∃ c t, n = c :: t ∧ nameish c = true := by
  obtain ⟨c, t, rfl, hc, _⟩ := h.1
  exact ⟨c, t, rfl, nameish_of_nameChar (.inl hc)⟩

theorem nameish_not {c : Char} (h : nameish c = true) : isWhite c = false ∧ c ≠ '/' ∧ c ≠ '>' ∧ c ≠ '=' ∧ c ≠ '<' ∧ c ≠ '?' ∧ c ≠ '!' ∧ c ≠ ';' := by
  refine ⟨?_, ?_, ?_, ?_, ?_, ?_, ?_, ?_⟩
  · by_contra hw
    simp only [isWhite, Bool.not_eq_false, Bool.or_eq_true, decide_eq_true_eq] at hw
    rcases hw with ((rfl | rfl) | rfl) | rfl <;> revert h <;> decide
  all_goals rintro rfl; revert h; decide

theorem white_nameish {w : Str} (h : White w) : ∀ c ∈ w, nameish c = false := by
  intro c hc
  by_contra hn
  have := (nameish_not (by simpa using hn)).1
  rw [white_all.1 h c hc] at this
  simp at this

theorem white_span {w r : Str} (hw : White w) (hr : ∀ c, r.head? = some c → isWhite c = false) : (w ++ r).dropWhile isWhite = r :=
  (span_eq (white_all.1 hw) hr).2

theorem white_take (s : Str) : White (s.takeWhile isWhite) := white_all.2 fun _ hc => List.mem_takeWhile_imp hc

theorem white_split (s : Str) : ∃ w, White w ∧ s = w ++ s.dropWhile isWhite :=
  ⟨_, white_take s, List.takeWhile_append_dropWhile.symm⟩

/-- The end of a start tag. -/
def close (c : Bool) : Str := if c then "/>".toList else ['>']

theorem white_head {w : Str} (hw : White w) {r : Str} (hr : ∀ c, r.head? = some c → nameish c = false) :
    ∀ c, (w ++ r).head? = some c → nameish c = false := by
  intro c hc
  cases w with
  | nil => exact hr c hc
  | cons d w => simp at hc; subst hc; exact white_nameish hw d (by simp)

theorem attributes_iff (e : Env) : ∀ (n : Nat) (s : Str) (l : List (XName × Str)) (c : Bool) (r : Str), s.length < n →
    (attributes e n s = some (l, c, r) ↔ ∃ a, Atts e a l ∧ s = a ++ (close c ++ r)) := by
  intro n
  induction n with
  | zero => intro s l c r h; omega
  | succ n ih =>
    intro s l c r hlen
    constructor
    · intro h
      rw [attributes] at h
      obtain ⟨w, hw, hs⟩ := white_split s
      split at h
      · rename_i r0 hd
        simp at h; obtain ⟨rfl, rfl, rfl⟩ := h
        exact ⟨_, .nil _ hw, by rw [hd] at hs; simpa [close] using hs⟩
      · simp at h
      · rename_i r0 hd
        simp at h; obtain ⟨rfl, rfl, rfl⟩ := h
        exact ⟨_, .nil _ hw, by rw [hd] at hs; simpa [close] using hs⟩
      · split at h
        · simp at h
        · rename_i x r1 hn
          obtain ⟨m, hm, hq, hr1⟩ := (nsname_iff e _ r1 x).1 hn
          split at h
          · rename_i r2 hr2
            split at h
            · rename_i q r3 hr3
              split at h
              · rename_i hq'
                split at h
                · simp at h
                · rename_i v r4 ht
                  obtain ⟨⟨l', c', r'⟩, h', hp⟩ := Option.map_eq_some_iff.1 h
                  simp at hp
                  obtain ⟨rfl, rfl, rfl⟩ := hp
                  obtain ⟨t, ht1, _, ht3⟩ := (text_plain e (some q) (by rcases hq' with rfl | rfl <;> simp) r3 v r4).1 ht
                  obtain ⟨w1, hw1, s1⟩ := white_split r1
                  obtain ⟨w2, hw2, s2⟩ := white_split r2
                  rw [hr2] at s1
                  rw [hr3] at s2
                  rw [hm] at hs
                  have hl4 : r4.length < n := by
                    have e1 := congrArg List.length hs
                    have e2 := congrArg List.length s1
                    have e3 := congrArg List.length s2
                    simp at e1 e2 e3
                    simp only [Ends] at ht3
                    rcases ht3 with ht3 | ht3
                    · have e4 := congrArg List.length ht3
                      simp at e4 hlen; omega
                    · obtain ⟨_, rfl⟩ := ht3
                      simp at hlen ⊢; omega
                  obtain ⟨a, ha, hr⟩ := (ih r4 l' c' r' hl4).1 h'
                  simp only [Ends] at ht3
                  rcases ht3 with ht3 | ht3
                  · refine ⟨_, Atts.cons w m w1 w2 q t a x v l' hw hq hw1 hw2 (by tauto) ht1 ha, ?_⟩
                    rw [hs, s1, s2, ht3, hr]
                    simp
                  · obtain ⟨_, rfl⟩ := ht3
                    have := congrArg List.length hr
                    cases c' <;> simp [close] at this
              · simp at h
            · simp at h
          · simp at h
    · rintro ⟨a, ha, rfl⟩
      cases ha with
      | nil w hw =>
        rw [attributes, white_span hw (by cases c <;> simp [close] <;> decide)]
        cases c <;> simp [close]
      | cons w m w1 w2 q t a x v l hw hq hw1 hw2 hq' ht ha =>
        obtain ⟨d, m', rfl, hd⟩ := qname_head hq
        obtain ⟨hd1, hd2, hd3, _⟩ := nameish_not hd
        have hlen' : (a ++ (close c ++ r)).length < n := by simp at hlen ⊢; omega
        have e0 : w ++ d :: m' ++ w1 ++ '=' :: w2 ++ q :: t ++ q :: a ++ (close c ++ r) =
            w ++ ((d :: m') ++ (w1 ++ '=' :: (w2 ++ q :: (t ++ q :: (a ++ (close c ++ r)))))) := by simp
        have e1 : ((d :: m') ++ (w1 ++ '=' :: (w2 ++ q :: (t ++ q :: (a ++ (close c ++ r)))))) =
            d :: (m' ++ (w1 ++ '=' :: (w2 ++ q :: (t ++ q :: (a ++ (close c ++ r)))))) := rfl
        have hns := (nsname_iff e ((d :: m') ++ (w1 ++ '=' :: (w2 ++ q :: (t ++ q :: (a ++ (close c ++ r)))))) _ x).2
          ⟨d :: m', rfl, hq, white_head hw1 (by simp; decide)⟩
        have htx := (text_plain e (some q) (by rcases hq' with rfl | rfl <;> simp) (t ++ q :: (a ++ (close c ++ r))) v (a ++ (close c ++ r))).2
          ⟨t, ht, by simp, .inl rfl⟩
        have hqw : isWhite q = false := by rcases hq' with rfl | rfl <;> decide
        rw [attributes, e0, white_span hw (by rw [e1]; simpa using hd1)]
        rw [e1]
        split
        · rename_i h; simp at h; exact absurd h.1 hd2
        · rename_i h; simp at h; exact absurd h.1 hd2
        · rename_i h; simp at h; exact absurd h.1 hd3
        · rw [← e1, hns]
          simp only
          rw [white_span hw1 (by simp; decide)]
          simp only
          rw [white_span hw2 (by simpa using hqw)]
          simp only
          rw [if_pos (by tauto), htx]
          simp only
          rw [(ih (a ++ (close c ++ r)) l c r hlen').2 ⟨a, ha, rfl⟩]
          rfl

/-! ## Tokens -/

/-- Markup without character data. -/
inductive Other (e : Env) : Str → Prop
  | comment (s : Str) : ¬ "--".toList <:+: s ++ ['-'] → Other e ("<!--".toList ++ s ++ "-->".toList)
  | inst (n w d : Str) : IsName e n → White w → (∀ c, d.head? = some c → ¬ White [c]) →
      (w = [] → ∀ c, d.head? = some c → c.toNat < 128 ∧ ¬ NameChar e c) → ¬ "?>".toList <:+: d ++ ['?'] →
      (n = "xml".toList → e.declOk d = true) → Other e ("<?".toList ++ n ++ w ++ d ++ "?>".toList)
  | decl (c : Char) (s : Str) : c ≠ '-' → c ≠ '[' → Declaration 0 s → Other e ('<' :: '!' :: c :: s)

/-- A CDATA section. -/
def CData (m v : Str) : Prop := ∃ s, m = "<![CDATA[".toList ++ s ++ "]]>".toList ∧ ¬ "]]>".toList <:+: s ++ "]]".toList ∧ Lines s v

theorem markup_iff (e : Env) (m v : Str) : Markup e m v ↔ CData m v ∨ (Other e m ∧ v = []) := by
  constructor
  · intro h
    cases h with
    | cdata s v h1 h2 => exact .inl ⟨s, rfl, h1, h2⟩
    | comment s h => exact .inr ⟨.comment s h, rfl⟩
    | inst n w d h1 h2 h3 h4 h5 h6 => exact .inr ⟨.inst n w d h1 h2 h3 h4 h5 h6, rfl⟩
    | decl c s h1 h2 h3 => exact .inr ⟨.decl c s h1 h2 h3, rfl⟩
  · rintro (⟨s, rfl, h1, h2⟩ | ⟨h, rfl⟩)
    · exact .cdata s v h1 h2
    · cases h with
      | comment s h => exact .comment s h
      | inst n w d h1 h2 h3 h4 h5 h6 => exact .inst n w d h1 h2 h3 h4 h5 h6
      | decl c s h1 h2 h3 => exact .decl c s h1 h2 h3

/-- What a token is read from. -/
def RawIs (e : Env) (s : Str) (tok : Raw) (r : Str) : Prop :=
  match tok with
  | .start x l c => ∃ a n, Tag e a n x l ∧ s = a ++ (close c ++ r)
  | .stop x => ∃ n w, QName e n x ∧ White w ∧ s = "</".toList ++ (n ++ (w ++ '>' :: r))
  | .chars v => (∃ t, t ≠ [] ∧ Pieces none t v ∧ ¬ "]]>".toList <:+: t ∧ (∀ c, r.head? = some c → c = '<') ∧ s = t ++ r) ∨
      ∃ m, CData m v ∧ s = m ++ r
  | .other => ∃ m, Other e m ∧ s = m ++ r

theorem rawToken_sound (e : Env) (s r : Str) (tok : Raw) (h : rawToken e s = some (tok, r)) : RawIs e s tok r := by
  unfold rawToken at h
  split at h
  · simp at h
  · -- end tag
    split at h
    · simp at h
    · rename_i r0 x r1 hn
      obtain ⟨n, rfl, hq, _⟩ := (nsname_iff e _ r1 x).1 hn
      obtain ⟨w, hw, hs⟩ := white_split r1
      split at h
      · rename_i r2 hr2
        simp at h; obtain ⟨rfl, rfl⟩ := h
        rw [hr2] at hs
        exact ⟨n, w, hq, hw, by rw [hs]; simp⟩
      · simp at h
  · -- processing instruction
    split at h
    · simp at h
    · rename_i r0 t r1 hn
      obtain ⟨rfl, hN, hr1⟩ := (name_iff e _ t r1).1 hn
      obtain ⟨w, hw, hs⟩ := white_split r1
      split at h
      · simp at h
      · rename_i d' r2 hi
        obtain ⟨hd, hnd⟩ := (instEnd_iff _ _ r2).1 ⟨d', hi, rfl⟩
        split at h
        · simp at h
        · rename_i hdecl
          simp at h; obtain ⟨rfl, rfl⟩ := h
          generalize d'.take (d'.length - 1) = d at hd hnd hdecl
          refine ⟨_, .inst t w d hN hw ?_ ?_ hnd ?_, ?_⟩
          · intro c hc hwc
            have := head_dropWhile (p := isWhite) r1 c (by
              rw [hd]
              cases d with
              | nil => simp at hc
              | cons d0 d => simpa using hc)
            rw [(isWhite_iff c).2 hwc] at this; simp at this
          · rintro rfl c hc
            rw [← nameish_false e]
            refine hr1 c ?_
            rw [hs, hd]
            cases d with
            | nil => simp at hc
            | cons d0 d => simpa using hc
          · intro ht
            by_contra hf
            exact hdecl ⟨ht, by simpa using hf⟩
          · rw [hd] at hs
            rw [hs]; simp
  · rename_i r0
    obtain ⟨r1, h', hp⟩ := Option.map_eq_some_iff.1 h
    simp at hp; obtain ⟨rfl, rfl⟩ := hp
    obtain ⟨c, rfl, hc⟩ := (commentEnd_iff _ _).1 h'
    exact ⟨_, .comment c hc, by simp⟩
  · simp at h
  · rename_i r0
    obtain ⟨⟨v, r1⟩, h', hp⟩ := Option.map_eq_some_iff.1 h
    simp at hp; obtain ⟨rfl, rfl⟩ := hp
    obtain ⟨t, rfl, h1, h2⟩ := (text_cdata e _ _ _).1 h'
    exact .inr ⟨_, ⟨t, rfl, h1, h2⟩, by simp⟩
  · simp at h
  · rename_i c r0 hc1 hc2 hc3 hc4
    obtain ⟨r1, h', hp⟩ := Option.map_eq_some_iff.1 h
    simp at hp; obtain ⟨rfl, rfl⟩ := hp
    obtain ⟨t, rfl, ht⟩ := (directiveEnd_iff _ _ _ _ _ (.inl rfl) (by omega)).1 h'
    refine ⟨_, .decl c t ?_ ?_ ht, by simp⟩
    · rintro rfl; exact hc2 rfl
    · rintro rfl; exact hc4 rfl
  · split at h
    · simp at h
    · rename_i r0 _ _ _ _ _ _ _ x r1 hn
      obtain ⟨n, rfl, hq, hr1⟩ := (nsname_iff e _ r1 x).1 hn
      obtain ⟨⟨l, c, r2⟩, h', hp⟩ := Option.map_eq_some_iff.1 h
      simp at hp; obtain ⟨rfl, rfl⟩ := hp
      obtain ⟨a, ha, rfl⟩ := (attributes_iff e _ r1 l c r2 (by omega)).1 h'
      refine ⟨'<' :: n ++ a, n, ⟨a, hq, ha, ?_, rfl⟩, by simp⟩
      intro d hd
      have hnd := hr1 d (by cases a <;> simp_all)
      cases ha with
      | nil w hw => rw [← isWhite_iff]; exact white_all.1 hw d (List.mem_of_head? hd)
      | cons w m w1 w2 q t a x v l hw hq' =>
        cases w with
        | nil =>
          obtain ⟨c', t', rfl, hc'⟩ := qname_head hq'
          simp at hd; subst hd
          rw [hc'] at hnd; simp at hnd
        | cons c' w => simp at hd; subst hd; rw [← isWhite_iff]; exact white_all.1 hw _ (by simp)
  · rename_i hs1 _ _ _ _ _ _ _ hs2
    obtain ⟨⟨v, r1⟩, h', hp⟩ := Option.map_eq_some_iff.1 h
    simp at hp; obtain ⟨rfl, rfl⟩ := hp
    obtain ⟨t, ht, hk, hE⟩ := (text_plain e none (.inl rfl) _ _ _).1 h'
    simp only [Ends] at hE
    refine .inl ⟨t, ?_, ht, hk rfl, hE.2, hE.1⟩
    rintro rfl
    have := hE.1
    cases s with
    | nil => exact hs1 rfl
    | cons c s =>
      have := hE.2 c (by rw [← hE.1.trans (List.nil_append _)]; rfl)
      subst this
      exact hs2 s rfl

theorem rawToken_complete (e : Env) (s r : Str) (tok : Raw) (h : RawIs e s tok r) : rawToken e s = some (tok, r) := by
  cases tok with
  | start x l c =>
    obtain ⟨_, n, ⟨a, hq, ha, haw, rfl⟩, rfl⟩ := h
    obtain ⟨d, m, rfl, hd⟩ := qname_head hq
    obtain ⟨_, h1, _, _, _, h2, h3, _⟩ := nameish_not hd
    have hns := (nsname_iff e ((d :: m) ++ (a ++ (close c ++ r))) (a ++ (close c ++ r)) x).2 ⟨_, rfl, hq, by
      intro b hb
      cases a with
      | nil => revert hb; cases c <;> simp [close] <;> rintro rfl <;> decide
      | cons a0 a =>
        simp at hb; subst hb
        exact white_nameish (haw a0 rfl) a0 (by simp)⟩
    have e0 : '<' :: d :: m ++ a ++ (close c ++ r) = '<' :: d :: (m ++ (a ++ (close c ++ r))) := by simp
    rw [e0]
    unfold rawToken
    split
    all_goals first
      | (rename_i heq; simp at heq; done)
      | (rename_i heq; simp only [List.cons.injEq, true_and] at heq; exact absurd heq.1 h1)
      | (rename_i heq; simp only [List.cons.injEq, true_and] at heq; exact absurd heq.1 h2)
      | (rename_i heq; simp only [List.cons.injEq, true_and] at heq; exact absurd heq.1 h3)
      | skip
    · rename_i heq
      simp only [List.cons.injEq, true_and] at heq
      subst heq
      rw [show d :: (m ++ (a ++ (close c ++ r))) = (d :: m) ++ (a ++ (close c ++ r)) from rfl, hns]
      simp only
      rw [(attributes_iff e _ _ l c r (by omega)).2 ⟨a, ha, rfl⟩]
      rfl
  | stop x =>
    obtain ⟨n, w, hq, hw, rfl⟩ := h
    have hns := (nsname_iff e (n ++ (w ++ '>' :: r)) (w ++ '>' :: r) x).2 ⟨n, rfl, hq, white_head hw (by simp; decide)⟩
    have e0 : "</".toList ++ (n ++ (w ++ '>' :: r)) = '<' :: '/' :: (n ++ (w ++ '>' :: r)) := rfl
    rw [e0]
    simp only [rawToken, hns]
    rw [white_span hw (by simp; decide)]
    rfl
  | other =>
    obtain ⟨m, hm, rfl⟩ := h
    cases hm with
    | comment c hc =>
      have e0 : "<!--".toList ++ c ++ "-->".toList ++ r = '<' :: '!' :: '-' :: '-' :: (c ++ ("-->".toList ++ r)) := by simp
      rw [e0]
      simp only [rawToken]
      rw [(commentEnd_iff _ r).2 ⟨c, rfl, hc⟩]
      rfl
    | inst n w d hN hw hd1 hd2 hd3 hd4 =>
      have hname := (name_iff e (n ++ (w ++ (d ++ ("?>".toList ++ r)))) n (w ++ (d ++ ("?>".toList ++ r)))).2 ⟨rfl, hN, by
        intro c hc
        cases w with
        | nil =>
          cases d with
          | nil => simp at hc; subst hc; decide
          | cons d0 d => simp at hc; subst hc; rw [nameish_false e]; exact hd2 rfl d0 rfl
        | cons w0 w => simp at hc; subst hc; exact white_nameish hw w0 (by simp)⟩
      obtain ⟨d', hi, hd'⟩ := (instEnd_iff (d ++ ("?>".toList ++ r)) d r).2 ⟨rfl, hd3⟩
      have e0 : "<?".toList ++ n ++ w ++ d ++ "?>".toList ++ r = '<' :: '?' :: (n ++ (w ++ (d ++ ("?>".toList ++ r)))) := by simp
      rw [e0]
      simp only [rawToken, hname]
      rw [white_span hw (by
        intro c hc
        cases d with
        | nil => simp at hc; subst hc; decide
        | cons d0 d =>
          simp at hc; subst hc
          by_contra hcw
          exact hd1 d0 rfl ((isWhite_iff d0).1 (by simpa using hcw))), hi]
      simp only [hd']
      rw [if_neg]
      rintro ⟨ht, hf⟩
      rw [hd4 ht] at hf; simp at hf
    | decl c t h1 h2 ht =>
      have e0 : '<' :: '!' :: c :: t ++ r = '<' :: '!' :: c :: (t ++ r) := rfl
      rw [e0]
      have hde := (directiveEnd_iff ((t ++ r).length + 1) none 0 (t ++ r) r (.inl rfl) (by omega)).2 ⟨t, rfl, ht⟩
      unfold rawToken
      split
      all_goals first
        | (rename_i heq; simp at heq; done)
        | (rename_i heq; simp only [List.cons.injEq, true_and] at heq; exact absurd heq.1 h1)
        | (rename_i heq; simp only [List.cons.injEq, true_and] at heq; exact absurd heq.1 h2)
        | skip
      · rename_i heq
        simp only [List.cons.injEq, true_and] at heq
        obtain ⟨rfl, rfl⟩ := heq
        rw [hde]; rfl
      · rename_i hno heq
        simp only [List.cons.injEq, true_and] at heq
        exact absurd heq.symm (hno _ _)
  | chars v =>
    rcases h with ⟨t, h0, ht, hk, hr, rfl⟩ | ⟨m, ⟨t, rfl, h1, h2⟩, rfl⟩
    · cases t with
      | nil => exact absurd rfl h0
      | cons c t =>
        have hc : c ≠ '<' := by rintro rfl; exact pieces_lt _ _ ht
        have htx := (text_plain e none (.inl rfl) (c :: t ++ r) v r).2 ⟨c :: t, ht, fun _ => hk, rfl, hr⟩
        unfold rawToken
        split
        all_goals first
          | (rename_i heq; simp at heq; done)
          | (rename_i heq; simp only [List.cons_append, List.cons.injEq] at heq; exact absurd heq.1 hc)
          | skip
        rw [htx]; rfl
    · have e0 : "<![CDATA[".toList ++ t ++ "]]>".toList ++ r =
          '<' :: '!' :: '[' :: 'C' :: 'D' :: 'A' :: 'T' :: 'A' :: '[' :: (t ++ ("]]>".toList ++ r)) := by simp
      rw [e0]
      simp only [rawToken]
      rw [(text_cdata e _ v r).2 ⟨t, rfl, h1, h2⟩]
      rfl

theorem rawToken_iff (e : Env) (s r : Str) (tok : Raw) : rawToken e s = some (tok, r) ↔ RawIs e s tok r :=
  ⟨rawToken_sound e s r tok, rawToken_complete e s r tok⟩

end Telefacts.XmlText
