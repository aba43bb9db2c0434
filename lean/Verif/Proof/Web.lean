import Verif.Spec.Web
/-! # Lemmas for the web layer -/
namespace Telefacts.Web

theorem unhex_iff (b : Byte) (v : Nat) : unhex b = some v ↔ HexDigit b v := by
  unfold unhex HexDigit
  split_ifs <;> simp only [Option.some.injEq, reduceCtorEq, false_iff] <;> omega

theorem HexDigit.lt {b : Byte} {v : Nat} (h : HexDigit b v) : v < 16 := by
  unfold HexDigit at h; omega

theorem queryUnescape_cons {b : Byte} (h : b ≠ 37) (r : Bytes) :
    queryUnescape (b :: r) = (queryUnescape r).map ((if b.val = 43 then 32 else b) :: ·) := by
  have h : b.val ≠ 37 := fun e => h (Fin.ext e)
  rw [queryUnescape.eq_def]; simp only [if_neg h]

/-- The decoder computes the decoding, and fails exactly when there is none. -/
theorem queryUnescape_iff (s t : Bytes) : queryUnescape s = some t ↔ Dec s t := by
  constructor
  · intro h
    induction s using queryUnescape.induct generalizing t with
    | case1 => simp [queryUnescape] at h; subst h; exact .nil
    | case2 b hb x y r' hi lo hx hy ih =>
      rw [queryUnescape.eq_def] at h
      simp only [if_pos hb, hx, hy] at h
      obtain ⟨u, hu, rfl⟩ := Option.map_eq_some_iff.1 h
      have hb' : b = 37 := Fin.ext hb
      subst hb'
      have h1 := (unhex_iff x _).1 (by assumption)
      have h2 := (unhex_iff y _).1 (by assumption)
      have l1 := h1.lt
      have l2 := h2.lt
      refine .hex h1 h2 ?_ (ih _ hu)
      simp only
      omega
    | case3 b hb x y r' hno =>
      rw [queryUnescape.eq_def] at h
      simp only [if_pos hb] at h
      cases hx : unhex x with
      | none => simp at h
      | some hi =>
        cases hy : unhex y with
        | none => simp at h
        | some lo => exact (hno hi lo hx hy).elim
    | case4 b r hb hno =>
      rw [queryUnescape.eq_def] at h
      simp only [if_pos hb] at h
      cases r with
      | nil => simp at h
      | cons x r =>
        cases r with
        | nil => simp at h
        | cons y r => exact (hno x y r rfl).elim
    | case5 b r hb ih =>
      have hb' : b ≠ 37 := by rintro rfl; exact hb rfl
      rw [queryUnescape_cons hb'] at h
      obtain ⟨u, hu, rfl⟩ := Option.map_eq_some_iff.1 h
      by_cases h43 : b = 43
      · subst h43; exact .plus (ih _ hu)
      · rw [if_neg (show ¬ b.val = 43 from fun e => h43 (Fin.ext e))]; exact .other hb' h43 (ih _ hu)
  · intro h
    induction h with
    | nil => rfl
    | plus _ ih => rw [queryUnescape_cons (by decide), ih]; rfl
    | hex h1 h2 hb _ ih =>
      rw [queryUnescape.eq_def]
      simp only [(unhex_iff _ _).2 h1, (unhex_iff _ _).2 h2, ih]
      have l1 := h1.lt
      have l2 := h2.lt
      simp only [show ((37 : Byte).val = 37) from rfl, if_true, Option.map_some, Option.some.injEq,
        List.cons.injEq, and_true]
      apply Fin.ext
      simp only
      omega
    | other h1 h2 _ ih =>
      rw [queryUnescape_cons h1, ih]
      simp only [Option.map_some, Option.some.injEq, List.cons.injEq, and_true, ite_eq_right_iff]
      exact fun e => absurd (Fin.ext e) h2

theorem queryUnescape_none (s : Bytes) : queryUnescape s = none ↔ ¬ ∃ t, Dec s t := by
  simp only [← queryUnescape_iff]
  cases queryUnescape s <;> simp

theorem Dec.unique {s t u : Bytes} (h : Dec s t) (h' : Dec s u) : t = u :=
  Option.some.inj (((queryUnescape_iff s t).2 h).symm.trans ((queryUnescape_iff s u).2 h'))

theorem Dec.length {s t : Bytes} (h : Dec s t) :
    t.length ≤ s.length ∧ ((37 : Byte) ∈ s → t.length < s.length) := by
  induction h with
  | nil => simp
  | plus _ ih =>
    simp only [List.length_cons, List.mem_cons]
    refine ⟨by omega, ?_⟩
    rintro (h | h)
    · exact absurd h (by decide)
    · have := ih.2 h; omega
  | hex _ _ _ _ ih => simp only [List.length_cons]; omega
  | other h1 _ _ ih =>
    simp only [List.length_cons, List.mem_cons]
    refine ⟨by omega, ?_⟩
    rintro (h | h)
    · exact absurd h.symm h1
    · have := ih.2 h; omega

theorem dec_plain {s : Bytes} (h : Plain s) : Dec s s := by
  induction s with
  | nil => exact .nil
  | cons b r ih =>
    simp only [Plain, List.mem_cons, not_or] at h
    exact .other (Ne.symm h.2.1) (Ne.symm h.1.1) (ih ⟨h.1.2, h.2.2⟩)

/-- A text decodes to itself iff it is plain. -/
theorem dec_self_iff (s : Bytes) : Dec s s ↔ Plain s := by
  refine ⟨fun h => ?_, dec_plain⟩
  have h37 : (37 : Byte) ∉ s := fun hm => absurd (h.length.2 hm) (by omega)
  refine ⟨?_, h37⟩
  induction s with
  | nil => simp
  | cons b r ih =>
    simp only [List.mem_cons, not_or] at h37 ⊢
    cases h with
    | hex => exact absurd rfl h37.1
    | other _ h2 h' => exact ⟨Ne.symm h2, ih h' h37.2⟩

theorem Safe.ne {b : Byte} (h : Safe b) : b ≠ 37 ∧ b ≠ 43 ∧ b ≠ 38 ∧ b ≠ 59 ∧ b ≠ 61 := by
  refine ⟨?_, ?_, ?_, ?_, ?_⟩ <;> rintro rfl <;> revert h <;> unfold Safe <;> decide

theorem HexDigit.ne {b : Byte} {v : Nat} (h : HexDigit b v) : b ≠ 38 ∧ b ≠ 59 ∧ b ≠ 61 := by
  refine ⟨?_, ?_, ?_⟩ <;> rintro rfl <;> unfold HexDigit at h <;>
    simp only [show ((38 : Byte).val = 38) from rfl, show ((59 : Byte).val = 59) from rfl,
      show ((61 : Byte).val = 61) from rfl] at h <;> omega

/-- Decoding inverts encoding. -/
theorem Enc.dec {s e : Bytes} (h : Enc s e) : Dec e s := by
  induction h with
  | nil => exact .nil
  | same h _ ih => exact .other h.ne.1 h.ne.2.1 ih
  | space _ ih => exact .plus ih
  | hex h1 h2 hb _ ih => exact .hex h1 h2 hb ih

/-- Encoded text contains no separator. -/
theorem Enc.clean {s e : Bytes} (h : Enc s e) : (38 : Byte) ∉ e ∧ (59 : Byte) ∉ e ∧ (61 : Byte) ∉ e := by
  induction h with
  | nil => simp
  | same h _ ih =>
    have := h.ne
    simp only [List.mem_cons, not_or]
    exact ⟨⟨this.2.2.1.symm, ih.1⟩, ⟨this.2.2.2.1.symm, ih.2.1⟩, ⟨this.2.2.2.2.symm, ih.2.2⟩⟩
  | space _ ih => simp [ih]
  | hex h1 h2 _ _ ih =>
    simp only [List.mem_cons, not_or]
    exact ⟨⟨by decide, h1.ne.1.symm, h2.ne.1.symm, ih.1⟩,
      ⟨by decide, h1.ne.2.1.symm, h2.ne.2.1.symm, ih.2.1⟩,
      ⟨by decide, h1.ne.2.2.symm, h2.ne.2.2.symm, ih.2.2⟩⟩

theorem splitOn_of_not_mem {c : Byte} {s : Bytes} (h : c ∉ s) : splitOn c s = [s] := by
  induction s with
  | nil => rfl
  | cons b r ih =>
    simp only [List.mem_cons, not_or] at h
    rw [splitOn, if_neg (Ne.symm h.1), ih h.2]

theorem splitOn_append {c : Byte} {a : Bytes} (h : c ∉ a) (b : Bytes) :
    splitOn c (a ++ c :: b) = a :: splitOn c b := by
  induction a with
  | nil => simp [splitOn]
  | cons x r ih =>
    simp only [List.mem_cons, not_or] at h
    rw [List.cons_append, splitOn, if_neg (Ne.symm h.1), ih h.2]

theorem splitOn_ne_nil (c : Byte) (s : Bytes) : splitOn c s ≠ [] := by
  cases s with
  | nil => simp [splitOn]
  | cons b r =>
    rw [splitOn]
    split
    · simp
    · split <;> simp

theorem splitOn_parts (c : Byte) (s : Bytes) : Parts c s (splitOn c s) := by
  refine ⟨splitOn_ne_nil c s, ?_, ?_⟩
  · induction s with
    | nil => simp [splitOn]
    | cons b r ih =>
      rw [splitOn]
      split
      · rename_i h
        subst h
        cases hs : splitOn b r with
        | nil => exact (splitOn_ne_nil b r hs).elim
        | cons p ps => rw [hs] at ih; simp only [List.intercalate_cons_cons, List.nil_append]; rw [← ih]; rfl
      · cases hs : splitOn c r with
        | nil => exact (splitOn_ne_nil c r hs).elim
        | cons p ps =>
          rw [hs] at ih
          cases ps with
          | nil => simp only [List.intercalate_singleton] at ih ⊢; rw [ih]
          | cons q qs => simp only [List.intercalate_cons_cons] at ih ⊢; rw [ih]; simp
  · induction s with
    | nil => simp [splitOn]
    | cons b r ih =>
      rw [splitOn]
      split
      · rintro p (_ | ⟨_, h⟩)
        · simp
        · exact ih p h
      · rename_i hb
        cases hs : splitOn c r with
        | nil => exact (splitOn_ne_nil c r hs).elim
        | cons p ps =>
          rw [hs] at ih
          rintro q (_ | ⟨_, h⟩)
          · simp only [List.mem_cons, not_or]
            exact ⟨Ne.symm hb, ih p (by simp)⟩
          · exact ih q (List.mem_cons_of_mem _ h)

theorem splitOn_unique {c : Byte} {ps : List Bytes} (hne : ps ≠ []) (h : ∀ p ∈ ps, c ∉ p) :
    splitOn c ([c].intercalate ps) = ps := by
  induction ps with
  | nil => exact (hne rfl).elim
  | cons p qs ih =>
    cases qs with
    | nil => rw [List.intercalate_singleton]; exact splitOn_of_not_mem (h p (by simp))
    | cons q rs =>
      rw [List.intercalate_cons_cons, List.append_assoc, List.singleton_append,
        splitOn_append (h p (by simp)), ih (by simp) (fun x hx => h x (by simp [hx]))]

/-- Splitting yields exactly the parts. -/
theorem splitOn_iff (c : Byte) (q : Bytes) (ps : List Bytes) : splitOn c q = ps ↔ Parts c q ps := by
  constructor
  · rintro rfl; exact splitOn_parts c q
  · rintro ⟨h1, rfl, h2⟩; exact splitOn_unique h1 h2

theorem cutAt_append {c : Byte} {a : Bytes} (h : c ∉ a) (b : Bytes) : cutAt c (a ++ c :: b) = (a, b) := by
  induction a with
  | nil => simp [cutAt]
  | cons x r ih =>
    simp only [List.mem_cons, not_or] at h
    rw [List.cons_append, cutAt, if_neg (Ne.symm h.1), ih h.2]

theorem cutAt_none {c : Byte} {a : Bytes} (h : c ∉ a) : cutAt c a = (a, []) := by
  induction a with
  | nil => rfl
  | cons x r ih =>
    simp only [List.mem_cons, not_or] at h
    rw [cutAt, if_neg (Ne.symm h.1), ih h.2]

theorem cutAt_keyVal (p : Bytes) : KeyVal p (cutAt 61 p).1 (cutAt 61 p).2 := by
  induction p with
  | nil => simp [KeyVal, cutAt]
  | cons b r ih =>
    rw [cutAt]
    split
    · rename_i h; subst h; simp [KeyVal]
    · rename_i h
      refine ⟨by simp only [List.mem_cons, not_or]; exact ⟨Ne.symm h, ih.1⟩, ?_⟩
      rcases ih.2 with h' | ⟨h', h''⟩
      · left; simp only [List.cons_append, List.cons.injEq, true_and]; exact h'
      · right; exact ⟨by rw [← h'], h''⟩

theorem keyVal_iff (p k v : Bytes) : KeyVal p k v ↔ cutAt 61 p = (k, v) := by
  constructor
  · rintro ⟨h, rfl | ⟨rfl, rfl⟩⟩
    · exact cutAt_append h v
    · exact cutAt_none h
  · intro h
    have := cutAt_keyVal p
    rwa [h] at this

theorem parsePart_iff (p : Bytes) (l : List (Bytes × Bytes)) : parsePart p = some l ↔ PartOf p l := by
  unfold parsePart PartOf
  by_cases h1 : (59 : Byte) ∈ p
  · simp [h1]
  · by_cases h2 : p = []
    · rw [if_neg h1, if_pos h2, Option.some.injEq]
      exact ⟨fun h => ⟨h1, .inl ⟨h2, h.symm⟩⟩, fun h => h.2.elim (fun h => h.2.symm) (fun h => (h.1 h2).elim)⟩
    · rw [if_neg h1, if_neg h2]
      simp only [h1, h2, not_false_eq_true, true_and, false_and, false_or, ne_eq]
      constructor
      · intro h
        split at h
        · rename_i k v hk hv
          cases h
          exact ⟨_, _, k, v, cutAt_keyVal p, (queryUnescape_iff _ _).1 hk, (queryUnescape_iff _ _).1 hv, rfl⟩
        · cases h
      · rintro ⟨k, v, k', v', hkv, hk, hv, rfl⟩
        rw [(keyVal_iff _ _ _).1 hkv]
        simp only [(queryUnescape_iff _ _).2 hk, (queryUnescape_iff _ _).2 hv]

theorem mapM_some_iff {α β : Type} (f : α → Option β) (l : List α) (r : List β) :
    l.mapM f = some r ↔ List.Forall₂ (fun a b => f a = some b) l r := by
  induction l generalizing r with
  | nil =>
    simp only [List.mapM_nil, Option.pure_def, Option.some.injEq, List.forall₂_nil_left_iff]
    exact eq_comm
  | cons a l ih =>
    rw [List.forall₂_cons_left_iff]
    simp only [List.mapM_cons, Option.pure_def, Option.bind_eq_bind, Option.bind_eq_some_iff,
      Option.some.injEq]
    constructor
    · rintro ⟨b, hb, bs, hbs, rfl⟩; exact ⟨b, bs, hb, (ih _).1 hbs, rfl⟩
    · rintro ⟨b, bs, hb, hbs, rfl⟩; exact ⟨b, hb, bs, (ih _).2 hbs, rfl⟩

/-- The parser computes the parameters of a query, and fails exactly when there are none. -/
theorem parseQuery_iff (q : Bytes) (vs : List (Bytes × Bytes)) : parseQuery q = some vs ↔ Query q vs := by
  unfold parseQuery Query
  rw [Option.map_eq_some_iff]
  constructor
  · rintro ⟨ls, h, rfl⟩
    refine ⟨_, ls, splitOn_parts 38 q, ?_, rfl⟩
    exact List.Forall₂.imp (fun _ _ => (parsePart_iff _ _).1) ((mapM_some_iff _ _ _).1 h)
  · rintro ⟨ps, ls, hp, h, rfl⟩
    refine ⟨ls, ?_, rfl⟩
    rw [(splitOn_iff _ _ _).2 hp, mapM_some_iff]
    exact List.Forall₂.imp (fun _ _ => (parsePart_iff _ _).2) h

theorem parseQuery_none (q : Bytes) : parseQuery q = none ↔ ¬ ∃ vs, Query q vs := by
  simp only [← parseQuery_iff]
  cases parseQuery q <;> simp

theorem getParam_iff (vs : List (Bytes × Bytes)) (k v : Bytes) : getParam vs k = v ↔ ParamOf vs k v := by
  unfold getParam ParamOf
  induction vs with
  | nil =>
    simp only [List.find?_nil]
    constructor
    · rintro rfl; exact .inr ⟨rfl, by simp⟩
    · rintro (⟨pre, post, he, _⟩ | ⟨h, _⟩)
      · simp at he
      · exact h.symm
  | cons p r ih =>
    rw [List.find?_cons]
    by_cases h : p.1 = k
    · simp only [h, decide_true]
      constructor
      · rintro rfl; left; exact ⟨[], r, by simp [← h], by simp⟩
      · rintro (⟨pre, post, he, hp⟩ | ⟨_, hp⟩)
        · cases pre with
          | nil => simp only [List.nil_append, List.cons.injEq] at he; rw [he.1]
          | cons x xs =>
            simp only [List.cons_append, List.cons.injEq] at he
            exact (hp x (by simp) (by rw [← he.1]; exact h)).elim
        · exact (hp p (by simp) h).elim
    · simp only [h, decide_false]
      rw [ih]
      constructor
      · rintro (⟨pre, post, he, hp⟩ | ⟨hv, hp⟩)
        · left
          refine ⟨p :: pre, post, by rw [he]; rfl, ?_⟩
          rintro x (_ | ⟨_, hx⟩)
          · exact h
          · exact hp x hx
        · right
          refine ⟨hv, ?_⟩
          rintro x (_ | ⟨_, hx⟩)
          · exact h
          · exact hp x hx
      · rintro (⟨pre, post, he, hp⟩ | ⟨hv, hp⟩)
        · cases pre with
          | nil => simp only [List.nil_append, List.cons.injEq] at he; exact (h (by rw [he.1])).elim
          | cons x xs =>
            simp only [List.cons_append, List.cons.injEq] at he
            exact .inl ⟨xs, post, he.2, fun y hy => hp y (by simp [hy])⟩
        · exact .inr ⟨hv, fun y hy => hp y (by simp [hy])⟩

theorem factParams_iff (q n c : Bytes) :
    FactParams q n c ↔
      ∃ vs, parseQuery q = some vs ∧ getParam vs (lit "name") = n ∧ getParam vs (lit "contextref") = c := by
  simp only [FactParams, parseQuery_iff, getParam_iff]

theorem FactParams.unique {q n c n' c' : Bytes} (h : FactParams q n c) (h' : FactParams q n' c') :
    n = n' ∧ c = c' := by
  obtain ⟨vs, h1, rfl, rfl⟩ := (factParams_iff _ _ _).1 h
  obtain ⟨vs', h2, rfl, rfl⟩ := (factParams_iff _ _ _).1 h'
  cases h1.symm.trans h2
  exact ⟨rfl, rfl⟩

theorem factQuery_ok (q n c : Bytes) :
    factQuery q = .ok (n, c) ↔ ∃ n₀ c₀, FactParams q n₀ c₀ ∧ Dec n₀ n ∧ Dec c₀ c := by
  simp only [factParams_iff, ← queryUnescape_iff]
  unfold factQuery
  constructor
  · intro h
    cases hq : parseQuery q with
    | none => rw [hq] at h; cases h
    | some vs =>
      simp only [hq] at h
      refine ⟨_, _, ⟨vs, rfl, rfl, rfl⟩, ?_⟩
      cases hn : queryUnescape (getParam vs (lit "name")) <;>
        cases hc : queryUnescape (getParam vs (lit "contextref")) <;> simp_all
  · rintro ⟨_, _, ⟨vs, hq, rfl, rfl⟩, hn, hc⟩
    simp only [hq, hn, hc]

theorem factQuery_400 (q : Bytes) :
    factQuery q = .error 400 ↔
      ∃ n₀ c₀, FactParams q n₀ c₀ ∧ ¬ ((∃ n, Dec n₀ n) ∧ ∃ c, Dec c₀ c) := by
  simp only [factParams_iff, ← queryUnescape_iff]
  unfold factQuery
  constructor
  · intro h
    cases hq : parseQuery q with
    | none => rw [hq] at h; cases h
    | some vs =>
      simp only [hq] at h
      refine ⟨_, _, ⟨vs, rfl, rfl, rfl⟩, ?_⟩
      cases hn : queryUnescape (getParam vs (lit "name")) <;>
        cases hc : queryUnescape (getParam vs (lit "contextref")) <;> simp_all
  · rintro ⟨_, _, ⟨vs, hq, rfl, rfl⟩, h⟩
    simp only [hq]
    revert h
    cases queryUnescape (getParam vs (lit "name")) <;>
      cases queryUnescape (getParam vs (lit "contextref")) <;> simp

theorem factQuery_500 (q : Bytes) : factQuery q = .error 500 ↔ ¬ ∃ vs, Query q vs := by
  rw [← parseQuery_none]
  unfold factQuery
  cases parseQuery q with
  | none => simp
  | some vs =>
    simp only [reduceCtorEq, iff_false]
    cases queryUnescape (getParam vs (lit "name")) <;>
      cases queryUnescape (getParam vs (lit "contextref")) <;> simp

theorem factQuery_cases (q : Bytes) :
    (∃ n c, factQuery q = .ok (n, c)) ∨ factQuery q = .error 400 ∨ factQuery q = .error 500 := by
  unfold factQuery
  cases parseQuery q with
  | none => simp
  | some vs =>
    simp only
    cases queryUnescape (getParam vs (lit "name")) <;>
      cases queryUnescape (getParam vs (lit "contextref")) <;> simp

/-- The query of a fact URL has the two parameters. -/
theorem factParams_url {n c en ec : Bytes} (hn : Enc n en) (hc : Enc c ec) :
    FactParams (lit "name=" ++ en ++ lit "&contextref=" ++ ec) n c := by
  have m1 : (38 : Byte) ∉ lit "name" ∧ (61 : Byte) ∉ lit "name" ∧ (59 : Byte) ∉ lit "name" := by decide
  have m2 : (38 : Byte) ∉ lit "contextref" ∧ (61 : Byte) ∉ lit "contextref" ∧
    (59 : Byte) ∉ lit "contextref" := by decide
  have p1 : ∀ k v e : Bytes, (61 : Byte) ∉ k → (59 : Byte) ∉ k → Plain k → Enc v e →
      PartOf (k ++ 61 :: e) [(k, v)] := by
    intro k v e h1 h2 h3 h4
    refine ⟨by simp [h2, h4.clean.2.1], .inr ⟨by simp, k, e, k, v, ⟨h1, .inl rfl⟩, dec_plain h3, h4.dec, rfl⟩⟩
  refine ⟨[(lit "name", n), (lit "contextref", c)], ⟨[lit "name" ++ 61 :: en, lit "contextref" ++ 61 :: ec],
    [[(lit "name", n)], [(lit "contextref", c)]], ⟨by simp, ?_, ?_⟩, ?_, rfl⟩, ?_, ?_⟩
  · have h1 : lit "name=" = lit "name" ++ [61] := by decide
    have h2 : lit "&contextref=" = 38 :: (lit "contextref" ++ [61]) := by decide
    simp [h1, h2, List.intercalate_cons_cons]
  · intro p hp
    simp only [List.mem_cons, List.not_mem_nil, or_false] at hp
    rcases hp with rfl | rfl
    · simp [m1.1, hn.clean.1]
    · simp [m2.1, hc.clean.1]
  · exact .cons (p1 _ _ _ m1.2.1 m1.2.2 (by unfold Plain; decide) hn)
      (.cons (p1 _ _ _ m2.2.1 m2.2.2 (by unfold Plain; decide) hc) .nil)
  · exact .inl ⟨[], [(lit "contextref", c)], rfl, by simp⟩
  · refine .inl ⟨[(lit "name", n)], [], rfl, ?_⟩
    simp only [List.mem_singleton, forall_eq]
    decide

end Telefacts.Web
