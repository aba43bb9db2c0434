import Verif.Spec.Json
import Mathlib.Tactic.SplitIfs
import Mathlib.Tactic.Tauto
import Mathlib.Tactic.ByContra
import Mathlib.Data.List.TakeWhile
/-! # Proofs about JSON texts: the reader decides the grammar, and the writer writes texts of the value -/
namespace Telefacts.Json

theorem unhex_iff (c : Char) (v : Nat) : unhex c = some v ↔ Hex c v := by
  unfold unhex Hex
  split_ifs <;> simp only [Option.some.injEq, false_iff] <;> omega

theorem getu4_iff (cs : List Char) (n : Nat) (r : List Char) :
    getu4 cs = some (n, r) ↔ ∃ u, Unit16 u n ∧ cs = u ++ r := by
  constructor
  · intro h
    unfold getu4 at h
    split at h
    · rename_i a b c d r'
      split at h
      · rename_i va vb vc vd ha hb hc hd
        obtain ⟨rfl, rfl⟩ := Prod.mk.inj (Option.some.inj h)
        exact ⟨['\\', 'u', a, b, c, d], ⟨a, b, c, d, va, vb, vc, vd, rfl, (unhex_iff _ _).1 ha, (unhex_iff _ _).1 hb,
          (unhex_iff _ _).1 hc, (unhex_iff _ _).1 hd, rfl⟩, rfl⟩
      · cases h
    · cases h
  · rintro ⟨u, ⟨a, b, c, d, va, vb, vc, vd, rfl, ha, hb, hc, hd, rfl⟩, rfl⟩
    simp only [List.cons_append, List.nil_append, getu4, (unhex_iff _ _).2 ha, (unhex_iff _ _).2 hb, (unhex_iff _ _).2 hc,
      (unhex_iff _ _).2 hd]

theorem unit16_cons (cs : List Char) (n : Nat) (h : Unit16 cs n) : ∃ t, cs = '\\' :: 'u' :: t := by
  obtain ⟨a, b, c, d, _, _, _, _, rfl, _⟩ := h
  exact ⟨_, rfl⟩

theorem piece_iff (cs : List Char) (c : Char) (r : List Char) : piece cs = some (c, r) ↔ ∃ p, Piece p c ∧ cs = p ++ r := by
  constructor
  · intro h
    unfold piece at h
    split at h
    · rename_i e t
      split at h
      · rename_i he
        subst he
        split at h
        · cases h
        · rename_i n r1 hn
          obtain ⟨u, hu, hcs⟩ := (getu4_iff _ _ _).1 hn
          split at h
          · rename_i hr
            obtain ⟨rfl, rfl⟩ := Prod.mk.inj (Option.some.inj h)
            exact ⟨u, .unit u n hu hr, hcs⟩
          · rename_i hr
            split at h
            · cases h
            · rename_i l r2 hl
              obtain ⟨u', hu', hcs'⟩ := (getu4_iff _ _ _).1 hl
              split at h
              · rename_i hb
                obtain ⟨rfl, rfl⟩ := Prod.mk.inj (Option.some.inj h)
                exact ⟨u ++ u', .pair u u' n l hu hu' (by omega) hb.1 hb.2.1 hb.2.2, by rw [hcs, hcs', List.append_assoc]⟩
              · cases h
      · unfold unescape at h
        split_ifs at h with h1 h2 h3 h4 h5 h6
        · obtain ⟨rfl, rfl⟩ := Prod.mk.inj (Option.some.inj h)
          rcases h1 with rfl | rfl | rfl
          · exact ⟨_, .quote, rfl⟩
          · exact ⟨_, .backslash, rfl⟩
          · exact ⟨_, .slash, rfl⟩
        all_goals first | (cases h; done) | (obtain ⟨rfl, rfl⟩ := Prod.mk.inj (Option.some.inj h))
        · subst h2; exact ⟨_, .b, rfl⟩
        · subst h3; exact ⟨_, .f, rfl⟩
        · subst h4; exact ⟨_, .n, rfl⟩
        · subst h5; exact ⟨_, .r, rfl⟩
        · subst h6; exact ⟨_, .t, rfl⟩
    · rename_i e t _
      split at h
      · cases h
      · rename_i hn
        obtain ⟨rfl, rfl⟩ := Prod.mk.inj (Option.some.inj h)
        exact ⟨[e], .plain e (fun h => hn (.inl h)) (fun h => hn (.inr (.inl h))) (by
          by_contra hlt; exact hn (.inr (.inr (by omega)))), rfl⟩
    · cases h
  · rintro ⟨p, hp, rfl⟩
    cases hp with
    | plain _ h1 h2 h3 =>
      show piece (c :: r) = _
      unfold piece
      split
      · rename_i e t heq
        exact absurd (List.cons.inj heq).1 h2
      · rename_i e t _ heq
        obtain ⟨rfl, rfl⟩ := List.cons.inj heq
        rw [if_neg]
        rintro (h | h | h)
        · exact h1 h
        · exact h2 h
        · omega
      · rename_i heq; cases heq
    | quote => rfl
    | backslash => rfl
    | slash => rfl
    | b => rfl
    | f => rfl
    | n => rfl
    | r => rfl
    | t => rfl
    | unit _ n hu hn =>
      have hg := (getu4_iff (p ++ r) n r).2 ⟨p, hu, rfl⟩
      obtain ⟨t, rfl⟩ := unit16_cons _ _ hu
      show piece ('\\' :: 'u' :: (t ++ r)) = _
      have hg' : getu4 ('\\' :: 'u' :: (t ++ r)) = some (n, r) := hg
      unfold piece
      simp only [hg', if_true, if_pos hn]
    | pair u u' n l hu hu' h1 h2 h3 h4 =>
      have hg := (getu4_iff (u ++ (u' ++ r)) n (u' ++ r)).2 ⟨u, hu, rfl⟩
      have hl := (getu4_iff (u' ++ r) l r).2 ⟨u', hu', rfl⟩
      obtain ⟨t, rfl⟩ := unit16_cons _ _ hu
      rw [List.append_assoc]
      show piece ('\\' :: 'u' :: (t ++ (u' ++ r))) = _
      have hg' : getu4 ('\\' :: 'u' :: (t ++ (u' ++ r))) = some (n, u' ++ r) := hg
      unfold piece
      simp only [hg', if_true]
      rw [if_neg (by omega), hl]
      simp only
      rw [if_pos ⟨h2, h3, h4⟩]

theorem piece_head (p : List Char) (c : Char) (h : Piece p c) : ∃ x t, p = x :: t ∧ x ≠ '"' := by
  cases h with
  | plain _ h1 => exact ⟨c, [], rfl, h1⟩
  | unit _ n hu => obtain ⟨t, rfl⟩ := unit16_cons _ _ hu; exact ⟨_, _, rfl, by decide⟩
  | pair u u' n l hu => obtain ⟨t, rfl⟩ := unit16_cons _ _ hu; exact ⟨_, _, rfl, by decide⟩
  | _ => exact ⟨_, _, rfl, by decide⟩

theorem string_sound (n : Nat) : ∀ (cs s r : List Char), string n cs = some (s, r) →
    ∃ ps, Pieces ps s ∧ cs = ps ++ '"' :: r := by
  induction n with
  | zero => intro cs s r h; cases h
  | succ n ih =>
    intro cs s r h
    unfold string at h
    split at h
    · rename_i hq
      obtain ⟨rfl, rfl⟩ := Prod.mk.inj (Option.some.inj h)
      cases cs with
      | nil => cases hq
      | cons x t => cases hq; exact ⟨[], .nil, rfl⟩
    · split at h
      · cases h
      · rename_i c r1 hp
        obtain ⟨p, hpc, rfl⟩ := (piece_iff _ _ _).1 hp
        cases hs : string n r1 with
        | none => rw [hs] at h; cases h
        | some q =>
          rw [hs] at h
          obtain ⟨rfl, rfl⟩ := Prod.mk.inj (Option.some.inj h)
          obtain ⟨ps, hps, rfl⟩ := ih r1 q.1 q.2 hs
          exact ⟨p ++ ps, .cons p ps c q.1 hpc hps, by rw [List.append_assoc]⟩

theorem string_complete (ps s : List Char) (h : Pieces ps s) : ∀ (n : Nat) (r : List Char), ps.length < n →
    string n (ps ++ '"' :: r) = some (s, r) := by
  induction h with
  | nil =>
    intro n r hn
    obtain ⟨m, rfl⟩ : ∃ m, n = m + 1 := ⟨n - 1, by omega⟩
    rfl
  | cons p cs c s hp _ ih =>
    intro n r hn
    obtain ⟨m, rfl⟩ : ∃ m, n = m + 1 := ⟨n - 1, by omega⟩
    obtain ⟨x, t, hx, hq⟩ := piece_head p c hp
    unfold string
    rw [if_neg (by rw [hx]; simpa using hq), List.append_assoc, (piece_iff _ c (cs ++ '"' :: r)).2 ⟨p, hp, rfl⟩]
    simp only
    rw [ih m r (by rw [hx] at hn; simp at hn; omega)]
    rfl

theorem unquote_iff (cs : List Char) (s : String) (r : List Char) :
    unquote cs = some (s, r) ↔ ∃ q, Quoted q s ∧ cs = q ++ r := by
  unfold unquote
  constructor
  · intro h
    split at h
    · rename_i hq
      cases cs with
      | nil => cases hq
      | cons x t =>
        cases hq
        cases hs : string (('"' :: t).length) t with
        | none => simp only [List.tail_cons, hs] at h; cases h
        | some p =>
          simp only [List.tail_cons, hs] at h
          obtain ⟨rfl, rfl⟩ := Prod.mk.inj (Option.some.inj h)
          obtain ⟨ps, hps, rfl⟩ := string_sound _ _ p.1 p.2 hs
          exact ⟨'"' :: ps ++ ['"'], ⟨ps, by simpa using hps, rfl⟩, by simp⟩
    · cases h
  · rintro ⟨q, ⟨ps, hps, rfl⟩, rfl⟩
    rw [if_pos (by simp)]
    have := string_complete ps _ hps (('"' :: ps ++ ['"'] ++ r).length) r (by simp; omega)
    have he : ('"' :: ps ++ ['"'] ++ r).tail = ps ++ '"' :: r := by simp
    rw [he, this]
    simp

/-! ## Numbers -/

theorem isDigit_iff (c : Char) : isDigit c = true ↔ 48 ≤ c.toNat ∧ c.toNat ≤ 57 := by simp [isDigit]

theorem ds_iff (cs : List Char) : (!cs.isEmpty && cs.all isDigit) = true ↔ Ds cs := by
  simp only [Bool.and_eq_true, Bool.not_eq_true', List.isEmpty_eq_false_iff, List.all_eq_true, isDigit_iff, Ds]

theorem isExp_iff (cs : List Char) : isExp cs = true ↔
    (cs = [] ∨ ∃ e s ds, (e = 'e' ∨ e = 'E') ∧ (s = [] ∨ s = ['+'] ∨ s = ['-']) ∧ Ds ds ∧ cs = e :: (s ++ ds)) := by
  cases cs with
  | nil => simp [isExp]
  | cons c r =>
    unfold isExp
    simp only [Bool.and_eq_true, Bool.or_eq_true, decide_eq_true_eq, reduceCtorEq, false_or]
    rw [← Bool.and_eq_true, ds_iff]
    constructor
    · rintro ⟨he, hd⟩
      split at hd
      · rename_i hs
        cases r with
        | nil => rcases hs with h | h <;> cases h
        | cons x t => exact ⟨c, [x], t, he, by simpa using hs, hd, rfl⟩
      · exact ⟨c, [], r, he, .inl rfl, hd, rfl⟩
    · rintro ⟨e, s, ds, he, hs, hd, heq⟩
      obtain ⟨rfl, rfl⟩ := List.cons.inj heq
      refine ⟨he, ?_⟩
      rcases hs with rfl | rfl | rfl
      · rw [if_neg]
        · exact hd
        · obtain ⟨hne, hall⟩ := hd
          cases ds with
          | nil => exact absurd rfl hne
          | cons x t =>
            have := hall x (by simp)
            rintro (h | h) <;> (cases h; revert this; decide)
      · exact hd
      · exact hd

theorem span_ds (ds r : List Char) (hd : ∀ c ∈ ds, 48 ≤ c.toNat ∧ c.toNat ≤ 57) (hr : ∀ c, r.head? = some c → isDigit c = false) :
    (ds ++ r).takeWhile isDigit = ds ∧ (ds ++ r).dropWhile isDigit = r := by
  induction ds with
  | nil =>
    cases r with
    | nil => exact ⟨rfl, rfl⟩
    | cons x t => simp [hr x rfl]
  | cons d ds ih =>
    have h1 : isDigit d = true := (isDigit_iff d).2 (hd d (by simp))
    have := ih (fun c hc => hd c (by simp [hc]))
    simp [h1, this.1, this.2]

theorem exp_head (cs : List Char) (h : isExp cs = true) : ∀ c, cs.head? = some c → isDigit c = false := by
  intro c hc
  rcases (isExp_iff cs).1 h with rfl | ⟨e, s, ds, he, _, _, rfl⟩
  · cases hc
  · cases hc
    rcases he with rfl | rfl <;> decide

theorem takeWhile_ds (cs : List Char) : ∀ c ∈ cs.takeWhile isDigit, 48 ≤ c.toNat ∧ c.toNat ≤ 57 :=
  fun c hc => (isDigit_iff c).1 (List.mem_takeWhile_imp hc)

theorem isFrac_iff (cs : List Char) : isFrac cs = true ↔
    ∃ frac exp, cs = frac ++ exp ∧ (frac = [] ∨ ∃ ds, Ds ds ∧ frac = '.' :: ds) ∧ isExp exp = true := by
  unfold isFrac
  constructor
  · intro h
    split at h
    · rename_i hd
      cases cs with
      | nil => cases hd
      | cons x t =>
        cases hd
        simp only [List.tail_cons, Bool.and_eq_true, Bool.not_eq_true', List.isEmpty_eq_false_iff] at h
        exact ⟨'.' :: t.takeWhile isDigit, t.dropWhile isDigit, by simp, .inr ⟨_, ⟨h.1, takeWhile_ds t⟩, rfl⟩, h.2⟩
    · exact ⟨[], cs, rfl, .inl rfl, h⟩
  · rintro ⟨frac, exp, rfl, rfl | ⟨ds, hds, rfl⟩, he⟩
    · rw [List.nil_append, if_neg]
      · exact he
      · intro hd
        rcases (isExp_iff exp).1 he with rfl | ⟨e, s, ds, h, _, _, rfl⟩
        · cases hd
        · cases hd
          rcases h with h | h <;> cases h
    · rw [if_pos (by simp)]
      have := span_ds ds exp hds.2 (exp_head exp he)
      simp only [List.cons_append, List.tail_cons, this.1, this.2, he, Bool.and_true, Bool.not_eq_true', List.isEmpty_eq_false_iff]
      exact hds.1

theorem frac_head (cs : List Char) (h : isFrac cs = true) : ∀ c, cs.head? = some c → isDigit c = false := by
  intro c hc
  obtain ⟨frac, exp, rfl, rfl | ⟨ds, _, rfl⟩, he⟩ := (isFrac_iff cs).1 h
  · exact exp_head exp he c hc
  · cases hc; decide

theorem isNumber_iff (cs : List Char) : isNumber cs = true ↔ Number cs := by
  have key : ∀ cs : List Char, (!(cs.takeWhile isDigit).isEmpty &&
      ((cs.takeWhile isDigit).head? != some '0' || cs.takeWhile isDigit == ['0']) && isFrac (cs.dropWhile isDigit)) = true ↔
      ∃ int rest, cs = int ++ rest ∧ Ds int ∧ (int.head? = some '0' → int = ['0']) ∧ isFrac rest = true := by
    intro cs
    simp only [Bool.and_eq_true, Bool.not_eq_true', List.isEmpty_eq_false_iff, Bool.or_eq_true, bne_iff_ne, ne_eq, beq_iff_eq]
    constructor
    · rintro ⟨⟨h1, h2⟩, h3⟩
      exact ⟨_, _, (List.takeWhile_append_dropWhile (p := isDigit) (l := cs)).symm, ⟨h1, takeWhile_ds cs⟩,
        fun h => h2.resolve_left (fun hn => hn h), h3⟩
    · rintro ⟨int, rest, rfl, hd, hz, hf⟩
      have := span_ds int rest hd.2 (frac_head rest hf)
      rw [this.1, this.2]
      refine ⟨⟨hd.1, ?_⟩, hf⟩
      by_cases h : int.head? = some '0'
      · exact .inr (hz h)
      · exact .inl h
  unfold isNumber
  simp only
  rw [key]
  constructor
  · rintro ⟨int, rest, h, hd, hz, hf⟩
    obtain ⟨frac, exp, rfl, h1, h2⟩ := (isFrac_iff rest).1 hf
    split at h
    · rename_i hs
      cases cs with
      | nil => cases hs
      | cons x t =>
        cases hs
        exact ⟨['-'], int, frac, exp, by rw [← h]; rfl, .inr rfl, hd, hz, h1, (isExp_iff exp).1 h2⟩
    · exact ⟨[], int, frac, exp, h, .inl rfl, hd, hz, h1, (isExp_iff exp).1 h2⟩
  · rintro ⟨sign, int, frac, exp, rfl, hs, hd, hz, h1, h2⟩
    refine ⟨int, frac ++ exp, ?_, hd, hz, (isFrac_iff _).2 ⟨frac, exp, rfl, h1, (isExp_iff exp).2 h2⟩⟩
    rcases hs with rfl | rfl
    · rw [if_neg]
      · rfl
      · obtain ⟨hne, hall⟩ := hd
        cases int with
        | nil => exact absurd rfl hne
        | cons x t =>
          have := hall x (by simp)
          intro h
          cases h
          revert this; decide
    · rfl

theorem number_numeric (cs : List Char) (h : Number cs) : ∀ c ∈ cs, numeric c = true := by
  obtain ⟨sign, int, frac, exp, rfl, hs, hd, _, hf, he⟩ := h
  have hds : ∀ c : Char, 48 ≤ c.toNat ∧ c.toNat ≤ 57 → numeric c = true := by
    intro c hc
    simp only [numeric, Bool.or_eq_true, Bool.and_eq_true, decide_eq_true_eq]
    tauto
  intro c hc
  simp only [List.mem_append] at hc
  rcases hc with hc | hc | hc | hc
  · rcases hs with rfl | rfl
    · cases hc
    · simp at hc; subst hc; decide
  · exact hds c (hd.2 c hc)
  · rcases hf with rfl | ⟨ds, hds', rfl⟩
    · cases hc
    · rcases List.mem_cons.1 hc with rfl | hc
      · decide
      · exact hds c (hds'.2 c hc)
  · rcases he with rfl | ⟨e, s, ds, he, hs, hds', rfl⟩
    · cases hc
    · rcases List.mem_cons.1 hc with rfl | hc
      · rcases he with rfl | rfl <;> decide
      · rcases List.mem_append.1 hc with hc | hc
        · rcases hs with rfl | rfl | rfl
          · cases hc
          · simp at hc; subst hc; decide
          · simp at hc; subst hc; decide
        · exact hds c (hds'.2 c hc)

theorem number_head (cs : List Char) (h : Number cs) :
    ∃ x t, cs = x :: t ∧ (x = '-' ∨ (48 ≤ x.toNat ∧ x.toNat ≤ 57)) := by
  obtain ⟨sign, int, frac, exp, rfl, hs, hd, _⟩ := h
  rcases hs with rfl | rfl
  · obtain ⟨hne, hall⟩ := hd
    cases int with
    | nil => exact absurd rfl hne
    | cons x t => exact ⟨x, _, rfl, .inr (hall x (by simp))⟩
  · exact ⟨'-', _, rfl, .inl rfl⟩

/-! ## Values -/

theorem isBlank_iff (c : Char) : isBlank c = true ↔ (c = ' ' ∨ c = '\t' ∨ c = '\n' ∨ c = '\r') := by
  simp [isBlank, or_assoc]

theorem skip_blank (a : List Char) (ha : Blank a) (r : List Char) : skip (a ++ r) = skip r := by
  induction a with
  | nil => rfl
  | cons c a ih =>
    have : isBlank c = true := (isBlank_iff c).2 (ha c (by simp))
    simp only [skip, List.cons_append, List.dropWhile_cons, this, if_true]
    exact ih (fun c hc => ha c (by simp [hc]))

theorem skip_spec (cs : List Char) : ∃ a, Blank a ∧ cs = a ++ skip cs :=
  ⟨cs.takeWhile isBlank, fun _ hc => (isBlank_iff _).1 (List.mem_takeWhile_imp hc),
    (List.takeWhile_append_dropWhile (p := isBlank) (l := cs)).symm⟩

theorem skip_cons (c : Char) (r : List Char) (h : isBlank c = false) : skip (c :: r) = c :: r := by
  simp [skip, h]

/-- What may follow a number. -/
def Ends (r : List Char) : Prop := ∀ c, r.head? = some c → numeric c = false

theorem ends_blank (b r : List Char) (hb : Blank b) (hr : Ends r) : Ends (b ++ r) := by
  cases b with
  | nil => exact hr
  | cons x t =>
    intro c hc
    cases hc
    rcases hb x (by simp) with rfl | rfl | rfl | rfl <;> decide

theorem ends_cons (c : Char) (r : List Char) (h : numeric c = false) : Ends (c :: r) := by
  intro d hd; cases hd; exact h

theorem span_numeric (ds r : List Char) (hd : ∀ c ∈ ds, numeric c = true) (hr : Ends r) :
    (ds ++ r).takeWhile numeric = ds ∧ (ds ++ r).dropWhile numeric = r := by
  induction ds with
  | nil =>
    cases r with
    | nil => exact ⟨rfl, rfl⟩
    | cons x t => simp [hr x rfl]
  | cons d ds ih =>
    have := ih (fun c hc => hd c (by simp [hc]))
    simp [hd d (by simp), this.1, this.2]

theorem head_tail (cs : List Char) (c : Char) (h : cs.head? = some c) : cs = c :: cs.tail := by
  cases cs with
  | nil => cases h
  | cons x t => cases h; rfl

theorem strip_some (w cs r : List Char) : strip w cs = some r ↔ cs = w ++ r := by
  unfold strip
  split
  · rename_i h
    obtain ⟨t, rfl⟩ := List.isPrefixOf_iff_prefix.1 h
    simp
  · rename_i h
    simp only [reduceCtorEq, false_iff]
    rintro rfl
    exact h (List.isPrefixOf_iff_prefix.2 ⟨r, rfl⟩)

theorem value_sound (n : Nat) :
    (∀ cs v r, value n cs = some (v, r) → ∃ t, Reads t v ∧ cs = t ++ r) ∧
    (∀ cs l r, elements n cs = some (l, r) → ∃ v l' t, l = v :: l' ∧ Elements t v l' ∧ cs = t ++ ']' :: r) ∧
    (∀ cs l r, pairs n cs = some (l, r) → ∃ k v l' t, l = (k, v) :: l' ∧ Pairs t k v l' ∧ cs = t ++ '}' :: r) := by
  induction n with
  | zero => refine ⟨?_, ?_, ?_⟩ <;> (intro _ _ _ h; cases h)
  | succ n ih =>
    obtain ⟨ihv, ihe, ihp⟩ := ih
    refine ⟨?_, ?_, ?_⟩
    · intro cs v r h
      cases cs with
      | nil => cases h
      | cons c t =>
        unfold value at h
        split at h
        · cases hu : unquote (c :: t) with
          | none => rw [hu] at h; cases h
          | some p =>
            rw [hu] at h
            obtain ⟨rfl, rfl⟩ := Prod.mk.inj (Option.some.inj h)
            obtain ⟨q, hq, he⟩ := (unquote_iff _ p.1 p.2).1 hu
            exact ⟨q, .str q p.1 hq, he⟩
        split at h
        · rename_i hc
          subst hc
          split at h
          · rename_i hb
            obtain ⟨rfl, rfl⟩ := Prod.mk.inj (Option.some.inj h)
            obtain ⟨a, ha, he⟩ := skip_spec t
            refine ⟨'[' :: a ++ [']'], .arr0 a ha, ?_⟩
            have := head_tail _ _ hb
            rw [this] at he
            simp only [List.cons_append, List.append_assoc, List.nil_append, List.cons.injEq, true_and]
            exact he
          · cases hu : elements n t with
            | none => rw [hu] at h; cases h
            | some p =>
              rw [hu] at h
              obtain ⟨rfl, rfl⟩ := Prod.mk.inj (Option.some.inj h)
              obtain ⟨v, l', t', hl, he, rfl⟩ := ihe t p.1 p.2 hu
              rw [hl]
              exact ⟨_, .arr t' v l' he, by simp⟩
        split at h
        · rename_i hc
          subst hc
          split at h
          · rename_i hb
            obtain ⟨rfl, rfl⟩ := Prod.mk.inj (Option.some.inj h)
            obtain ⟨a, ha, he⟩ := skip_spec t
            refine ⟨'{' :: a ++ ['}'], .obj0 a ha, ?_⟩
            have := head_tail _ _ hb
            rw [this] at he
            simp only [List.cons_append, List.append_assoc, List.nil_append, List.cons.injEq, true_and]
            exact he
          · cases hu : pairs n t with
            | none => rw [hu] at h; cases h
            | some p =>
              rw [hu] at h
              obtain ⟨rfl, rfl⟩ := Prod.mk.inj (Option.some.inj h)
              obtain ⟨k, v, l', t', hl, he, rfl⟩ := ihp t p.1 p.2 hu
              rw [hl]
              exact ⟨_, .obj t' k v l' he, by simp⟩
        split at h
        · cases hu : strip "null".toList (c :: t) with
          | none => rw [hu] at h; cases h
          | some p =>
            rw [hu] at h
            obtain ⟨rfl, rfl⟩ := Prod.mk.inj (Option.some.inj h)
            exact ⟨_, .null, (strip_some _ _ _).1 hu⟩
        split at h
        · cases hu : strip "true".toList (c :: t) with
          | none => rw [hu] at h; cases h
          | some p =>
            rw [hu] at h
            obtain ⟨rfl, rfl⟩ := Prod.mk.inj (Option.some.inj h)
            exact ⟨_, .true, (strip_some _ _ _).1 hu⟩
        split at h
        · cases hu : strip "false".toList (c :: t) with
          | none => rw [hu] at h; cases h
          | some p =>
            rw [hu] at h
            obtain ⟨rfl, rfl⟩ := Prod.mk.inj (Option.some.inj h)
            exact ⟨_, .false, (strip_some _ _ _).1 hu⟩
        split at h
        · rename_i hn
          obtain ⟨rfl, rfl⟩ := Prod.mk.inj (Option.some.inj h)
          exact ⟨_, .num _ ((isNumber_iff _).1 hn), (List.takeWhile_append_dropWhile (p := numeric) (l := c :: t)).symm⟩
        · cases h
    · intro cs l r h
      unfold elements at h
      split at h
      · cases h
      · rename_i v r1 hv
        obtain ⟨t, ht, hcs⟩ := ihv _ _ _ hv
        obtain ⟨a, ha, he⟩ := skip_spec cs
        obtain ⟨b, hb, hr⟩ := skip_spec r1
        split at h
        · rename_i hc
          cases hu : elements n (skip r1).tail with
          | none => rw [hu] at h; cases h
          | some p =>
            rw [hu] at h
            obtain ⟨rfl, rfl⟩ := Prod.mk.inj (Option.some.inj h)
            obtain ⟨w, l', t', hl, hel, htl⟩ := ihe _ p.1 p.2 hu
            refine ⟨v, p.1, a ++ (t ++ (b ++ ',' :: t')), rfl, hl ▸ .more a t b t' v w l' ha ht hb hel, ?_⟩
            rw [he, hcs, hr, head_tail _ _ hc, htl]
            simp
        · split at h
          · rename_i hc
            obtain ⟨rfl, rfl⟩ := Prod.mk.inj (Option.some.inj h)
            refine ⟨v, [], a ++ (t ++ b), rfl, .one a t b v ha ht hb, ?_⟩
            conv_lhs => rw [he, hcs, hr, head_tail _ _ hc]
            simp
          · cases h
    · intro cs l r h
      unfold pairs at h
      split at h
      · cases h
      · rename_i k r0 hk
        obtain ⟨q, hq, hq'⟩ := (unquote_iff _ _ _).1 hk
        obtain ⟨a, ha, he⟩ := skip_spec cs
        obtain ⟨b, hb, hr0⟩ := skip_spec r0
        split at h
        · rename_i hcol
          split at h
          · cases h
          · rename_i v r1 hv
            obtain ⟨t, ht, hcs⟩ := ihv _ _ _ hv
            obtain ⟨c, hc, htl0⟩ := skip_spec (skip r0).tail
            obtain ⟨d, hd, hr⟩ := skip_spec r1
            split at h
            · rename_i hcm
              cases hu : pairs n (skip r1).tail with
              | none => rw [hu] at h; cases h
              | some p =>
                rw [hu] at h
                obtain ⟨rfl, rfl⟩ := Prod.mk.inj (Option.some.inj h)
                obtain ⟨k', w, l', t', hl, hel, htl⟩ := ihp _ p.1 p.2 hu
                have := Pairs.more a q b c t d t' k k' v w l' ha hq hb hc ht hd hel
                rw [← hl] at this
                refine ⟨k, v, p.1, _, rfl, this, ?_⟩
                rw [he, hq', hr0, head_tail _ _ hcol, htl0, hcs, hr, head_tail _ _ hcm, htl]
                simp
            · split at h
              · rename_i hcm
                obtain ⟨rfl, rfl⟩ := Prod.mk.inj (Option.some.inj h)
                refine ⟨k, v, [], _, rfl, .one a q b c t d k v ha hq hb hc ht hd, ?_⟩
                conv_lhs => rw [he, hq', hr0, head_tail _ _ hcol, htl0, hcs, hr, head_tail _ _ hcm]
                simp
              · cases h
        · cases h

/-- The first character of a value: not blank, no closing bracket. -/
theorem reads_head (t : List Char) (v : Json) (h : Reads t v) :
    ∃ x u, t = x :: u ∧ isBlank x = false ∧ x ≠ ']' ∧ x ≠ '}' := by
  cases h with
  | num _ hn =>
    obtain ⟨x, u, rfl, hx⟩ := number_head _ hn
    refine ⟨x, u, rfl, ?_, ?_, ?_⟩
    · rw [← Bool.not_eq_true, isBlank_iff]
      rintro (rfl | rfl | rfl | rfl) <;> revert hx <;> decide
    · rintro rfl; revert hx; decide
    · rintro rfl; revert hx; decide
  | str _ s hq => obtain ⟨ps, _, rfl⟩ := hq; exact ⟨_, _, rfl, by decide, by decide, by decide⟩
  | _ => exact ⟨_, _, rfl, by decide, by decide, by decide⟩

theorem quoted_head (t : List Char) (s : String) (h : Quoted t s) : ∃ u, t = '"' :: u := by
  obtain ⟨ps, _, rfl⟩ := h; exact ⟨_, rfl⟩

theorem skip_reads (t : List Char) (v : Json) (h : Reads t v) (r : List Char) : skip (t ++ r) = t ++ r := by
  obtain ⟨x, u, rfl, hx, _⟩ := reads_head t v h
  exact skip_cons x (u ++ r) hx

theorem skip_quoted (t : List Char) (s : String) (h : Quoted t s) (r : List Char) : skip (t ++ r) = t ++ r := by
  obtain ⟨u, rfl⟩ := quoted_head t s h
  exact skip_cons '"' (u ++ r) (by decide)

theorem value_number (n : Nat) (t r : List Char) (hn : Number t) (hr : Ends r) :
    value (n + 1) (t ++ r) = some (.num t, r) := by
  have hs := span_numeric t r (number_numeric t hn) hr
  obtain ⟨x, u, rfl, hx⟩ := number_head _ hn
  have h1 : x ≠ '"' := by rintro rfl; revert hx; decide
  have h2 : x ≠ '[' := by rintro rfl; revert hx; decide
  have h3 : x ≠ '{' := by rintro rfl; revert hx; decide
  have h4 : x ≠ 'n' := by rintro rfl; revert hx; decide
  have h5 : x ≠ 't' := by rintro rfl; revert hx; decide
  have h6 : x ≠ 'f' := by rintro rfl; revert hx; decide
  have hs' : (x :: (u ++ r)).takeWhile numeric = x :: u ∧ (x :: (u ++ r)).dropWhile numeric = r := hs
  show value (n + 1) (x :: (u ++ r)) = _
  unfold value
  rw [if_neg h1, if_neg h2, if_neg h3, if_neg h4, if_neg h5, if_neg h6, hs'.1, hs'.2, if_pos ((isNumber_iff _).2 hn)]

mutual
theorem value_complete : ∀ (t : List Char) (v : Json) (_ : Reads t v) (n : Nat) (r : List Char), t.length ≤ n →
    ((∀ l, v ≠ .num l) ∨ Ends r) → value n (t ++ r) = some (v, r)
  | _, _, .null, n, r, hn, _ => by
    obtain ⟨m, rfl⟩ : ∃ m, n = m + 1 := ⟨n - 1, by simp at hn; omega⟩
    rfl
  | _, _, .true, n, r, hn, _ => by
    obtain ⟨m, rfl⟩ : ∃ m, n = m + 1 := ⟨n - 1, by simp at hn; omega⟩
    rfl
  | _, _, .false, n, r, hn, _ => by
    obtain ⟨m, rfl⟩ : ∃ m, n = m + 1 := ⟨n - 1, by simp at hn; omega⟩
    rfl
  | t, _, .num _ hnum, n, r, hn, hr => by
    obtain ⟨x, u, hx, _⟩ := number_head _ hnum
    obtain ⟨m, rfl⟩ : ∃ m, n = m + 1 := ⟨n - 1, by rw [hx] at hn; simp at hn; omega⟩
    exact value_number m t r hnum (hr.resolve_left (fun h => h t rfl))
  | t, _, .str _ s hq, n, r, hn, _ => by
    have hu := (unquote_iff (t ++ r) s r).2 ⟨t, hq, rfl⟩
    obtain ⟨u, rfl⟩ := quoted_head t s hq
    obtain ⟨m, rfl⟩ : ∃ m, n = m + 1 := ⟨n - 1, by simp at hn; omega⟩
    show value (m + 1) ('"' :: (u ++ r)) = _
    have hu' : unquote ('"' :: (u ++ r)) = some (s, r) := hu
    unfold value
    rw [if_pos rfl, hu']
    rfl
  | _, _, .arr0 ws hb, n, r, hn, _ => by
    obtain ⟨m, rfl⟩ : ∃ m, n = m + 1 := ⟨n - 1, by simp at hn; omega⟩
    have : skip (ws ++ ([']'] ++ r)) = ']' :: r := by rw [skip_blank ws hb]; exact skip_cons ']' r (by decide)
    rw [List.append_assoc]
    show value (m + 1) ('[' :: (ws ++ ([']'] ++ r))) = _
    unfold value
    rw [this]
    rfl
  | _, _, .arr cs v l he, n, r, hn, _ => by
    obtain ⟨m, rfl⟩ : ∃ m, n = m + 1 := ⟨n - 1, by simp at hn; omega⟩
    have hel := elements_complete cs v l he m r (by simp at hn; omega)
    have hne := elements_first cs v l he (']' :: r)
    rw [List.append_assoc]
    show value (m + 1) ('[' :: (cs ++ ']' :: r)) = _
    unfold value
    rw [if_neg (by decide), if_pos rfl, if_neg hne, hel]
    rfl
  | _, _, .obj0 ws hb, n, r, hn, _ => by
    obtain ⟨m, rfl⟩ : ∃ m, n = m + 1 := ⟨n - 1, by simp at hn; omega⟩
    have : skip (ws ++ (['}'] ++ r)) = '}' :: r := by rw [skip_blank ws hb]; exact skip_cons '}' r (by decide)
    rw [List.append_assoc]
    show value (m + 1) ('{' :: (ws ++ (['}'] ++ r))) = _
    unfold value
    rw [this]
    rfl
  | _, _, .obj cs k v l he, n, r, hn, _ => by
    obtain ⟨m, rfl⟩ : ∃ m, n = m + 1 := ⟨n - 1, by simp at hn; omega⟩
    have hel := pairs_complete cs k v l he m r (by simp at hn; omega)
    have hne := pairs_first cs k v l he ('}' :: r)
    rw [List.append_assoc]
    show value (m + 1) ('{' :: (cs ++ '}' :: r)) = _
    unfold value
    rw [if_neg (by decide), if_neg (by decide), if_pos rfl, if_neg hne, hel]
    rfl

theorem elements_first : ∀ (t : List Char) (v : Json) (l : List Json) (_ : Elements t v l) (r : List Char),
    (skip (t ++ r)).head? ≠ some ']'
  | _, _, _, .one a cs b v ha hv hb, r => by
    rw [List.append_assoc, skip_blank a ha, List.append_assoc, skip_reads cs v hv]
    obtain ⟨x, u, rfl, _, hx, _⟩ := reads_head cs v hv
    simpa using hx
  | _, _, _, .more a cs b r' v w l ha hv hb _, r => by
    rw [List.append_assoc, skip_blank a ha, List.append_assoc, skip_reads cs v hv]
    obtain ⟨x, u, rfl, _, hx, _⟩ := reads_head cs v hv
    simpa using hx

theorem elements_complete : ∀ (t : List Char) (v : Json) (l : List Json) (_ : Elements t v l) (n : Nat) (r : List Char),
    t.length < n → elements n (t ++ ']' :: r) = some (v :: l, r)
  | _, _, _, .one a cs b v ha hv hb, n, r, hn => by
    obtain ⟨m, rfl⟩ : ∃ m, n = m + 1 := ⟨n - 1, by omega⟩
    have hval := value_complete cs v hv m (b ++ ']' :: r) (by simp at hn; omega)
      (.inr (ends_blank b _ hb (ends_cons ']' r (by decide))))
    have hs : skip (b ++ ']' :: r) = ']' :: r := by rw [skip_blank b hb]; exact skip_cons ']' r (by decide)
    unfold elements
    rw [List.append_assoc, skip_blank a ha, List.append_assoc, skip_reads cs v hv, hval]
    simp only
    rw [hs]
    rfl
  | _, _, _, .more a cs b r' v w l ha hv hb he, n, r, hn => by
    obtain ⟨m, rfl⟩ : ∃ m, n = m + 1 := ⟨n - 1, by omega⟩
    have hval := value_complete cs v hv m (b ++ ',' :: (r' ++ ']' :: r)) (by simp at hn; omega)
      (.inr (ends_blank b _ hb (ends_cons ',' _ (by decide))))
    have hs : skip (b ++ ',' :: (r' ++ ']' :: r)) = ',' :: (r' ++ ']' :: r) := by
      rw [skip_blank b hb]; exact skip_cons ',' _ (by decide)
    have hel := elements_complete r' w l he m r (by simp at hn; omega)
    unfold elements
    rw [List.append_assoc, skip_blank a ha, List.append_assoc, skip_reads cs v hv, List.append_assoc, List.cons_append, hval]
    simp only
    rw [hs, if_pos (by simp), List.tail_cons, hel]
    rfl

theorem pairs_first : ∀ (t : List Char) (k : String) (v : Json) (l : List (String × Json)) (_ : Pairs t k v l) (r : List Char),
    (skip (t ++ r)).head? ≠ some '}'
  | _, _, _, _, .one a q b c cs d k v ha hq _ _ _ _, r => by
    rw [List.append_assoc, skip_blank a ha, List.append_assoc, skip_quoted q k hq]
    obtain ⟨u, rfl⟩ := quoted_head q k hq
    simp
  | _, _, _, _, .more a q b c cs d r' k k' v w l ha hq _ _ _ _ _, r => by
    rw [List.append_assoc, skip_blank a ha, List.append_assoc, skip_quoted q k hq]
    obtain ⟨u, rfl⟩ := quoted_head q k hq
    simp

theorem pairs_complete : ∀ (t : List Char) (k : String) (v : Json) (l : List (String × Json)) (_ : Pairs t k v l) (n : Nat)
    (r : List Char), t.length < n → pairs n (t ++ '}' :: r) = some ((k, v) :: l, r)
  | _, _, _, _, .one a q b c cs d k v ha hq hb hc hv hd, n, r, hn => by
    obtain ⟨m, rfl⟩ : ∃ m, n = m + 1 := ⟨n - 1, by omega⟩
    have hval := value_complete cs v hv m (d ++ '}' :: r) (by simp at hn; omega)
      (.inr (ends_blank d _ hd (ends_cons '}' r (by decide))))
    have hs : skip (d ++ '}' :: r) = '}' :: r := by rw [skip_blank d hd]; exact skip_cons '}' r (by decide)
    have hcol : skip (b ++ ':' :: (c ++ (cs ++ (d ++ '}' :: r)))) = ':' :: (c ++ (cs ++ (d ++ '}' :: r))) := by
      rw [skip_blank b hb]; exact skip_cons ':' _ (by decide)
    have hu := (unquote_iff (q ++ (b ++ ':' :: (c ++ (cs ++ (d ++ '}' :: r))))) k _).2 ⟨q, hq, rfl⟩
    have hsplit : a ++ (q ++ (b ++ ':' :: (c ++ (cs ++ d)))) ++ '}' :: r =
        a ++ (q ++ (b ++ ':' :: (c ++ (cs ++ (d ++ '}' :: r))))) := by simp
    unfold pairs
    rw [hsplit, skip_blank a ha, skip_quoted q k hq, hu]
    simp only
    rw [hcol, if_pos (by simp), List.tail_cons, skip_blank c hc, skip_reads cs v hv, hval]
    simp only
    rw [hs]
    rfl
  | _, _, _, _, .more a q b c cs d r' k k' v w l ha hq hb hc hv hd he, n, r, hn => by
    obtain ⟨m, rfl⟩ : ∃ m, n = m + 1 := ⟨n - 1, by omega⟩
    have hval := value_complete cs v hv m (d ++ ',' :: (r' ++ '}' :: r)) (by simp at hn; omega)
      (.inr (ends_blank d _ hd (ends_cons ',' _ (by decide))))
    have hs : skip (d ++ ',' :: (r' ++ '}' :: r)) = ',' :: (r' ++ '}' :: r) := by
      rw [skip_blank d hd]; exact skip_cons ',' _ (by decide)
    have hcol : skip (b ++ ':' :: (c ++ (cs ++ (d ++ ',' :: (r' ++ '}' :: r))))) =
        ':' :: (c ++ (cs ++ (d ++ ',' :: (r' ++ '}' :: r)))) := by
      rw [skip_blank b hb]; exact skip_cons ':' _ (by decide)
    have hu := (unquote_iff (q ++ (b ++ ':' :: (c ++ (cs ++ (d ++ ',' :: (r' ++ '}' :: r)))))) k _).2 ⟨q, hq, rfl⟩
    have hel := pairs_complete r' k' w l he m r (by simp at hn; omega)
    have hsplit : a ++ (q ++ (b ++ ':' :: (c ++ (cs ++ (d ++ ',' :: r'))))) ++ '}' :: r =
        a ++ (q ++ (b ++ ':' :: (c ++ (cs ++ (d ++ ',' :: (r' ++ '}' :: r)))))) := by simp
    unfold pairs
    rw [hsplit, skip_blank a ha, skip_quoted q k hq, hu]
    simp only
    rw [hcol, if_pos (by simp), List.tail_cons, skip_blank c hc, skip_reads cs v hv, hval]
    simp only
    rw [hs, if_pos (by simp), List.tail_cons, hel]
    rfl
end

/-- The reader accepts exactly the JSON texts, with their value. -/
theorem parse_iff (cs : List Char) (v : Json) : parse cs = some v ↔ IsText cs v := by
  constructor
  · intro h
    unfold parse at h
    split at h
    · cases h
    · rename_i w r hv
      split at h
      · rename_i he
        cases h
        obtain ⟨t, ht, hcs⟩ := (value_sound _).1 _ _ _ hv
        obtain ⟨a, ha, hea⟩ := skip_spec cs
        obtain ⟨b, hb, heb⟩ := skip_spec r
        rw [List.isEmpty_iff.1 he, List.append_nil] at heb
        exact ⟨a, r, t, ha, heb ▸ hb, ht, by rw [hea, hcs]⟩
      · cases h
  · rintro ⟨a, b, t, ha, hb, ht, rfl⟩
    have hv := value_complete t v ht ((a ++ (t ++ b)).length + 1) b (by simp; omega)
      (.inr (by simpa using ends_blank b [] hb (fun _ h => by cases h)))
    unfold parse
    rw [skip_blank a ha, skip_reads t v ht, hv]
    have : skip b = [] := by simpa [skip] using skip_blank b hb []
    simp only [this, List.isEmpty_nil, if_true]

theorem isText_unique (cs : List Char) (v w : Json) (hv : IsText cs v) (hw : IsText cs w) : v = w :=
  Option.some.inj (((parse_iff cs v).2 hv).symm.trans ((parse_iff cs w).2 hw))

end Telefacts.Json
