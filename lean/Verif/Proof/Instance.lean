import Verif.Spec.Instance
import Verif.Proof.Schema
/-! # Lemmas about instances -/
namespace Telefacts.Instance
open Telefacts.Spec Telefacts.Linkbase Telefacts.Schema

/-! ## Sorting by a string key -/

theorem keyLess_strictWeak {α : Type} (key : α → String) : StrictWeak (fun a b : α => decide (key a < key b)) where
  asymm a b := strLess_strictWeak.asymm (key a) (key b)
  negTrans a b c := strLess_strictWeak.negTrans (key a) (key b) (key c)

theorem stableSortedBy_stableSort {α : Type} (key : α → String) (l : List α) :
    StableSortedBy key l (stableSort (fun a b => decide (key a < key b)) l) := by
  have hw := keyLess_strictWeak key
  refine ⟨stableSort_perm _ l, (stableSort_sorted hw l).imp (by simp), ?_⟩
  intro k
  by_cases hk : ∃ a ∈ l, key a = k
  · obtain ⟨a, ha, rfl⟩ := hk
    have hs := stableSort_stable hw a l
    have he : ∀ x, equivBy (fun a b : α => decide (key a < key b)) a x = decide (key x = key a) := by
      intro x
      unfold equivBy
      rcases str_trichotomy (key a) (key x) with h | h | h
      · have : key x ≠ key a := fun h2 => String.lt_irrefl _ (h2 ▸ h)
        simp [h, this]
      · simp [h]
      · have : key x ≠ key a := fun h2 => String.lt_irrefl _ (h2 ▸ h)
        simp [h, this]
    rw [funext he] at hs
    exact hs
  · rw [List.filter_eq_nil_iff.2, List.filter_eq_nil_iff.2]
    · intro x hx hx'; exact hk ⟨x, hx, by simpa using hx'⟩
    · intro x hx hx'
      exact hk ⟨x, (stableSort_perm _ l).mem_iff.1 hx, by simpa using hx'⟩

/-- The characterisation determines the result. -/
theorem stableSortedBy_unique {α : Type} {key : α → String} {l o o' : List α}
    (h : StableSortedBy key l o) (h' : StableSortedBy key l o') : o = o' := by
  have gen : ∀ (n : Nat) (o o' : List α), o.length = n → o.Perm o' →
      o.Pairwise (fun a b => ¬ key b < key a) → o'.Pairwise (fun a b => ¬ key b < key a) →
      (∀ k, o.filter (fun a => key a = k) = o'.filter (fun a => key a = k)) → o = o' := by
    intro n
    induction n with
    | zero =>
      intro o o' hn hp _ _ _
      have : o = [] := List.length_eq_zero_iff.1 hn
      subst this; exact (List.nil_perm.1 hp).symm
    | succ n ih =>
      intro o o' hn hp hs hs' hf
      cases o with
      | nil => simp at hn
      | cons a as =>
        cases o' with
        | nil => simp at hp
        | cons b bs =>
          have hk : key a = key b := by
            rcases str_trichotomy (key a) (key b) with h | h | h
            · have ha : a ∈ b :: bs := hp.mem_iff.1 List.mem_cons_self
              rcases List.mem_cons.1 ha with rfl | ha
              · rfl
              · exact absurd h ((List.pairwise_cons.1 hs').1 a ha)
            · exact h
            · have hb : b ∈ a :: as := hp.mem_iff.2 List.mem_cons_self
              rcases List.mem_cons.1 hb with rfl | hb
              · rfl
              · exact absurd h ((List.pairwise_cons.1 hs).1 b hb)
          have hab : a = b := by
            have := hf (key a)
            simp [hk] at this
            exact this.1
          subst hab
          have := ih as bs (by simpa using hn) ((List.perm_cons a).1 hp) (List.pairwise_cons.1 hs).2
            (List.pairwise_cons.1 hs').2 (by
              intro k
              have := hf k
              by_cases hkk : key a = k
              · simpa [List.filter_cons, hkk] using this
              · simpa [List.filter_cons, hkk] using this)
          rw [this]
  exact gen _ o o' rfl (h.1.trans h'.1.symm) h.2.1 h'.2.1 (fun k => (h.2.2 k).trans (h'.2.2 k).symm)

/-! ## Integers -/

theorem digitsVal_append (acc : Nat) (cs : List Char) (c : Char) :
    digitsVal acc (cs ++ [c]) = (digitsVal acc cs).bind fun n =>
      if 48 ≤ c.toNat ∧ c.toNat ≤ 57 then some (n * 10 + (c.toNat - 48)) else none := by
  induction cs generalizing acc with
  | nil => simp [digitsVal]
  | cons x xs ih =>
    simp only [List.cons_append, digitsVal]
    split
    · exact ih _
    · simp

theorem digit_toNat {d : Nat} (hd : d < 10) : (Char.ofNat (48 + d)).toNat = 48 + d := by
  revert d; decide

theorem char_digit (c : Char) : (48 ≤ c.toNat ∧ c.toNat ≤ 57) ↔ ∃ d < 10, c = Char.ofNat (48 + d) := by
  constructor
  · rintro ⟨h1, h2⟩
    refine ⟨c.toNat - 48, by omega, ?_⟩
    have : 48 + (c.toNat - 48) = c.toNat := by omega
    rw [this, Char.ofNat_toNat]
  · rintro ⟨d, hd, rfl⟩
    have := digit_toNat hd
    omega

theorem digits_iff (cs : List Char) (n : Nat) : unsignedVal cs = some n ↔ Digits cs n := by
  constructor
  · intro h
    unfold unsignedVal at h
    by_cases hc : cs = []
    · simp [hc] at h
    · rw [if_neg hc] at h
      induction hl : cs.length generalizing cs n with
      | zero => exact absurd (List.length_eq_zero_iff.1 hl) hc
      | succ m ih =>
        rcases List.eq_nil_or_concat cs with rfl | ⟨cs', c, rfl⟩
        · exact absurd rfl hc
        · rw [List.concat_eq_append] at h hl ⊢
          rw [digitsVal_append] at h
          simp only [List.length_append, List.length_singleton, Nat.add_right_cancel_iff] at hl
          cases hv : digitsVal 0 cs' with
          | none => simp [hv] at h
          | some k =>
            rw [hv, Option.bind_some] at h
            split at h
            · rename_i hd
              obtain ⟨d, hd10, rfl⟩ := (char_digit c).1 hd
              simp only [Option.some.injEq] at h
              rw [digit_toNat hd10] at h
              by_cases hc' : cs' = []
              · subst hc'
                simp [digitsVal] at hv
                subst hv
                have : n = d := by omega
                subst this
                exact Digits.one n hd10
              · have hdig := ih cs' k hv hc' hl
                have hn : n = 10 * k + d := by omega
                rw [hn]
                exact Digits.more cs' k d hd10 hdig
            · simp at h
  · intro h
    have key : cs ≠ [] ∧ digitsVal 0 cs = some n := by
      induction h with
      | one d hd =>
        have h1 := digit_toNat hd
        refine ⟨by simp, ?_⟩
        simp only [digitsVal, h1]
        rw [if_pos (by omega)]
        simp
      | more cs n d hd _ ih =>
        have h1 := digit_toNat hd
        refine ⟨by simp, ?_⟩
        rw [digitsVal_append, ih.2, Option.bind_some, h1, if_pos (by omega)]
        simp only [Option.some.injEq]; omega
    simp [unsignedVal, key.1, key.2]

theorem digits_head {cs : List Char} {n : Nat} (h : Digits cs n) : ∃ c r, cs = c :: r ∧ 48 ≤ c.toNat ∧ c.toNat ≤ 57 := by
  induction h with
  | one d hd => exact ⟨_, [], rfl, (char_digit _).2 ⟨d, hd, rfl⟩⟩
  | more cs n d _ _ ih => obtain ⟨c, r, rfl, hc⟩ := ih; exact ⟨c, _, rfl, hc⟩

theorem intLit_iff (s : String) (z : Int) : IntLit s z ↔ signedVal s.toList = some z := by
  unfold signedVal
  constructor
  · rintro ⟨cs, n, hd, h⟩
    rcases h with ⟨rfl, rfl⟩ | ⟨rfl, rfl⟩ | ⟨rfl, rfl⟩
    · obtain ⟨c, r, rfl, hc⟩ := digits_head hd
      have hu := (digits_iff _ _).2 hd
      rw [String.toList_ofList]
      split
      · rename_i heq; injection heq with h1 h2; subst h1; simp at hc
      · rename_i heq; injection heq with h1 h2; subst h1; simp at hc
      · simp [hu]
    · have hu := (digits_iff _ _).2 hd
      have : ("+" ++ String.ofList cs).toList = '+' :: cs := by simp
      rw [this]; simp [hu]
    · have hu := (digits_iff _ _).2 hd
      have : ("-" ++ String.ofList cs).toList = '-' :: cs := by simp
      rw [this]; simp [hu]
  · intro h
    split at h
    · rename_i cs heq
      obtain ⟨n, hn, rfl⟩ := Option.map_eq_some_iff.1 h
      refine ⟨cs, n, (digits_iff _ _).1 hn, .inr (.inr ⟨?_, rfl⟩)⟩
      apply String.ext; simp [heq]
    · rename_i cs heq
      obtain ⟨n, hn, rfl⟩ := Option.map_eq_some_iff.1 h
      refine ⟨cs, n, (digits_iff _ _).1 hn, .inr (.inl ⟨?_, rfl⟩)⟩
      apply String.ext; simp [heq]
    · obtain ⟨n, hn, rfl⟩ := Option.map_eq_some_iff.1 h
      exact ⟨s.toList, n, (digits_iff _ _).1 hn, .inl ⟨by simp, rfl⟩⟩

theorem atoi_iff (s : String) (z : Int) : atoi s = some z ↔ IntLit s z ∧ -(2 ^ 63) ≤ z ∧ z < 2 ^ 63 := by
  rw [intLit_iff]
  unfold atoi
  cases signedVal s.toList with
  | none => simp
  | some y =>
    simp only [Option.some.injEq]
    split
    · rename_i h
      constructor
      · rintro h'; injection h' with h'; subst h'; exact ⟨rfl, h⟩
      · rintro ⟨rfl, _⟩; rfl
    · rename_i h
      constructor
      · simp
      · rintro ⟨rfl, h'⟩; exact absurd h' h

theorem intLit_ne_INF (z : Int) : ¬ IntLit "INF" z := by
  rw [intLit_iff]
  have : signedVal "INF".toList = none := by decide
  rw [this]; simp

theorem precisionOf_iff (attrs : List Attr) (p : Int) :
    precisionOf attrs = p ↔ ∃ a, Declared attrs a ∧ p = stored a := by
  have fwd : ∃ a, Declared attrs a ∧ precisionOf attrs = stored a := by
    unfold precisionOf
    cases hf : findAttr attrs "decimals" with
    | none => exact ⟨.none, by simp [Declared, attrVal_iff, hf], rfl⟩
    | some a =>
      by_cases hi : a.value = "INF"
      · refine ⟨.exact, ?_, by simp [hi, stored, exact]⟩
        simp [Declared, attrVal_iff, hf, hi]
      · cases hz : atoi a.value with
        | none =>
          refine ⟨.none, ?_, by simp [hi, hz, stored, precisionless, exact]⟩
          intro s hs
          obtain ⟨a', ha', rfl⟩ := (attrVal_iff _ _ _).1 hs
          rw [hf] at ha'; injection ha' with ha'; subst ha'
          refine ⟨hi, ?_⟩
          intro z hl
          by_cases hr : -(2 ^ 63) ≤ z ∧ z < 2 ^ 63
          · rw [(atoi_iff _ _).2 ⟨hl, hr⟩] at hz; simp at hz
          · omega
        | some z =>
          refine ⟨.decimals z, ?_, by simp [hi, hz, stored]⟩
          exact ⟨a.value, (attrVal_iff _ _ _).2 ⟨a, hf, rfl⟩, (atoi_iff _ _).1 hz⟩
  have uniq : ∀ a a', Declared attrs a → Declared attrs a' → stored a = stored a' := by
    have uv : ∀ s s', AttrVal attrs "decimals" s → AttrVal attrs "decimals" s' → s = s' := by
      rintro s s' ⟨a, ha, rfl⟩ ⟨b, hb, rfl⟩
      rw [firstWith_unique ha hb]
    have uz : ∀ s z z', IntLit s z → IntLit s z' → z = z' := by
      intro s z z' h h'
      rw [intLit_iff] at h h'
      rw [h] at h'
      exact Option.some.inj h'
    intro a a' h h'
    cases a with
    | exact =>
      cases a' with
      | exact => rfl
      | none => exact absurd rfl (h' _ h).1
      | decimals z =>
        obtain ⟨s, hs, hl, _⟩ := h'
        rw [uv _ _ hs h] at hl
        exact absurd hl (intLit_ne_INF z)
    | none =>
      cases a' with
      | exact => exact absurd rfl (h _ h').1
      | none => rfl
      | decimals z =>
        obtain ⟨s, hs, hl, hr⟩ := h'
        have := (h _ hs).2 z hl
        omega
    | decimals z =>
      obtain ⟨s, hs, hl, hr⟩ := h
      cases a' with
      | exact =>
        rw [uv _ _ hs h'] at hl
        exact absurd hl (intLit_ne_INF z)
      | none =>
        have := (h' _ hs).2 z hl
        omega
      | decimals z' =>
        obtain ⟨s', hs', hl', _⟩ := h'
        rw [uv _ _ hs' hs] at hl'
        exact uz _ _ _ hl hl'
  obtain ⟨a, ha, hp⟩ := fwd
  constructor
  · rintro rfl; exact ⟨a, ha, hp⟩
  · rintro ⟨a', ha', rfl⟩; rw [hp]; exact uniq _ _ ha ha'

/-! ## Facts -/

theorem nameQuery_ref_ne {h : Env} {ns loc href : String} {c : Concept}
    (hq : nameQuery h ns loc = .ok (some (href, c))) : href ≠ "" ∧ loc ≠ "" := by
  obtain ⟨l, _, hl, rfl, hd, hn⟩ := nameQuery_some hq
  refine ⟨?_, ?_⟩
  · intro h
    have := congrArg String.toList h
    simp at this
  · have := hd.id_ne.2
    rw [hn] at this; exact this

theorem hydrateFact_iff (w : World) (e : FactElem) (f : Fact) :
    hydrateFact w e = some f ↔ FactOf w e f := by
  constructor
  · intro h
    unfold hydrateFact at h
    split at h
    · simp at h
    · rename_i h0
      simp only [not_or] at h0
      split at h
      · rename_i ref c hq
        split at h
        · simp at h
        · split at h
          · simp at h
          · rename_i ctx hctx
            split at h
            · simp at h
            · rename_i hne
              simp only [Option.some.injEq] at h
              subst h
              exact {
                concept := ⟨c, (nameQuery_iff _ _ _ _).1 hq⟩
                nspace := h0.2
                ctx := ⟨(plainAttr_iff _ _ _).1 hctx, hne⟩
                id := (optAttr_iff _ _ _).1 rfl
                unit := (optAttr_iff _ _ _).1 rfl
                isNil := boolAttr_iff _ _
                inner := rfl
                precision := (precisionOf_iff _ _).1 rfl }
      · simp at h
  · intro h
    obtain ⟨c, hq⟩ := h.concept
    replace hq := (nameQuery_iff _ _ _ _).2 hq
    have hne := nameQuery_ref_ne hq
    have hctx := (plainAttr_iff _ _ _).2 h.ctx.1
    unfold hydrateFact
    rw [if_neg (by simp [h.nspace, hne.2])]
    simp only [hq, if_neg hne.1, hctx, if_neg h.ctx.2]
    have e1 := (optAttr_iff _ _ _).2 h.id
    have e2 := (optAttr_iff _ _ _).2 h.unit
    have e3 := (precisionOf_iff _ _).2 h.precision
    have e4 : boolAttr e.attrs "nil" = f.isNil := Bool.eq_iff_iff.2 ((boolAttr_iff _ _).trans h.isNil.symm)
    rw [e1, e2, e3, e4, ← h.inner]

/-! ## Contexts -/

theorem resolves_iff (w : World) (q href : String) (c : Concept) : Resolves w q href c ↔
    (xmlns w.tl q).space ≠ "" ∧ nameQuery w.env (xmlns w.tl q).space (xmlns w.tl q).loc = .ok (some (href, c)) := by
  constructor
  · rintro ⟨n, h1, h2, h3⟩
    rw [(C01_xmlns_resolves _ _ _).2 h1]
    exact ⟨h2, (nameQuery_iff _ _ _ _).2 h3⟩
  · rintro ⟨h1, h2⟩
    exact ⟨_, (C01_xmlns_resolves _ _ _).1 rfl, h1, (nameQuery_iff _ _ _ _).1 h2⟩

theorem lookup_iff (w : World) (q : String) (p : String × Concept) :
    lookup w q = some p ↔ Resolves w q p.1 p.2 := by
  rw [resolves_iff]
  unfold lookup
  by_cases hs : (xmlns w.tl q).space = ""
  · simp [hs]
  · simp only [ne_eq, hs, not_false_eq_true, true_and]
    cases hq : nameQuery w.env (xmlns w.tl q).space (xmlns w.tl q).loc with
    | err m => simp
    | panic => simp
    | ok r =>
      cases r with
      | none => simp
      | some p' =>
        obtain ⟨r, c⟩ := p'
        have hne := (nameQuery_ref_ne hq).1
        obtain ⟨p1, p2⟩ := p
        simp [hne]

/-- An empty dimension attribute never resolves, so the additional check for scenarios is redundant. -/
theorem not_resolves_empty (w : World) (href : String) (c : Concept) : ¬ Resolves w "" href c := by
  rw [resolves_iff]
  rintro ⟨_, hq⟩
  have := (nameQuery_ref_ne hq).2
  apply this
  have hc : cut ':' "" = none := by decide
  simp [xmlns, hc]

theorem dimAttr_lookup (w : World) (strict : Bool) (attrs : List Attr) (dim : String) (p : String × Concept) :
    (dimAttr strict attrs = some dim ∧ lookup w dim = some p) ↔
      AttrVal attrs "dimension" dim ∧ Resolves w dim p.1 p.2 := by
  rw [lookup_iff, ← plainAttr_iff]
  simp only [dimAttr, Option.bind_eq_bind, Option.bind_eq_some_iff, guard_some, Option.pure_def, Option.some.injEq]
  constructor
  · rintro ⟨⟨v, h1, _, _, rfl⟩, h3⟩; exact ⟨h1, h3⟩
  · rintro ⟨h1, h3⟩
    refine ⟨⟨dim, h1, (), ?_, rfl⟩, h3⟩
    rintro _ rfl
    exact not_resolves_empty _ _ _ h3

theorem explicitMember_iff (w : World) (strict : Bool) (m : MemberElem) (x : ExplicitMember) :
    explicitMember w strict m = some x ↔ ExplicitOf w m x := by
  obtain ⟨dh, dv, mh, mv⟩ := x
  simp only [explicitMember, ExplicitOf, Option.bind_eq_bind, Option.bind_eq_some_iff, Option.pure_def,
    Option.some.injEq, ExplicitMember.mk.injEq]
  constructor
  · rintro ⟨dim, hd, p, hp, v, hv, rfl, rfl, rfl, rfl⟩
    have h1 := (dimAttr_lookup w strict m.attrs dim p).1 ⟨hd, hp⟩
    exact ⟨h1.1, ⟨_, h1.2⟩, rfl, ⟨_, (lookup_iff _ _ _).1 hv⟩⟩
  · rintro ⟨h1, ⟨c, h2⟩, rfl, ⟨c', h3⟩⟩
    have h4 := (dimAttr_lookup w strict m.attrs dv (dh, c)).2 ⟨h1, h2⟩
    exact ⟨dv, h4.1, (dh, c), h4.2, (mh, c'), (lookup_iff _ _ _).2 h3, rfl, rfl, rfl, rfl⟩

/-- The outcomes of one typed member. -/
theorem typedMember_some (w : World) (strict : Bool) (m : MemberElem) (x : TypedMember) :
    typedMember w strict m = .done (some x) ↔ TypedOf w m x := by
  unfold typedMember TypedOf
  constructor
  · intro h
    cases hd : dimAttr strict m.attrs with
    | none => simp [hd] at h
    | some dim =>
      cases hl : lookup w dim with
      | none => simp [hd, hl] at h
      | some d =>
        simp only [hd, hl] at h
        have h1 := (dimAttr_lookup w strict m.attrs dim d).1 ⟨hd, hl⟩
        cases ht : hydrateTypedMembers w d.1 m.chars with
        | panic => simp [ht, Run.andThen] at h
        | loop => simp [ht, Run.andThen] at h
        | done r =>
          simp only [ht, Run.andThen, Run.done.injEq, Option.some.injEq] at h
          subst h
          exact ⟨h1.1, ⟨d.2, h1.2, rfl⟩, ht⟩
  · rintro ⟨h1, ⟨c, h2, h3⟩, h4⟩
    have h5 := (dimAttr_lookup w strict m.attrs x.dimValue (x.dimHref, c)).2 ⟨h1, h2⟩
    simp only [h5.1, h5.2, h4, Run.andThen, ← h3]

theorem typedMember_stuck (w : World) (strict : Bool) (m : MemberElem) :
    (∀ r, typedMember w strict m ≠ .done r) ↔ ∃ dim href c, AttrVal m.attrs "dimension" dim ∧ Resolves w dim href c ∧
      ∀ r, hydrateTypedMembers w href m.chars ≠ .done r := by
  unfold typedMember
  constructor
  · intro h
    cases hd : dimAttr strict m.attrs with
    | none => simp [hd] at h
    | some dim =>
      cases hl : lookup w dim with
      | none => simp [hd, hl] at h
      | some d =>
        simp only [hd, hl] at h
        have h1 := (dimAttr_lookup w strict m.attrs dim d).1 ⟨hd, hl⟩
        refine ⟨dim, d.1, d.2, h1.1, h1.2, ?_⟩
        intro r hr
        simp [hr, Run.andThen] at h
  · rintro ⟨dim, href, c, h1, h2, h3⟩ r
    have h5 := (dimAttr_lookup w strict m.attrs dim (href, c)).2 ⟨h1, h2⟩
    simp only [h5.1, h5.2]
    cases ht : hydrateTypedMembers w href m.chars with
    | done r => exact absurd ht (h3 r)
    | panic => simp [Run.andThen]
    | loop => simp [Run.andThen]

/-- `collectRun` returns iff every call returns, and then collects. -/
theorem collectRun_iff {α β : Type} {f : α → Run (Option β)} {R : α → β → Prop}
    (h : ∀ x y, f x = .done (some y) ↔ R x y) (l : List α) (out : List β) :
    collectRun f l = .done out ↔ (∀ x ∈ l, ∃ r, f x = .done r) ∧ Collected R l out := by
  induction l generalizing out with
  | nil =>
    simp only [collectRun, Run.done.injEq, List.not_mem_nil, false_implies, implies_true, true_and]
    constructor
    · rintro rfl; exact .nil
    · intro hc; cases hc; rfl
  | cons x xs ih =>
    simp only [collectRun, List.forall_mem_cons]
    cases hx : f x with
    | panic => simp [Run.andThen]
    | loop => simp [Run.andThen]
    | done r =>
      simp only [Run.andThen, Run.done.injEq, exists_eq', true_and]
      constructor
      · intro hc
        cases hxs : collectRun f xs with
        | panic => simp [hxs] at hc
        | loop => simp [hxs] at hc
        | done ys =>
          obtain ⟨h1, h2⟩ := (ih ys).1 hxs
          simp only [hxs, Run.done.injEq] at hc
          cases r with
          | none =>
            simp only at hc; subst hc
            refine ⟨h1, .skip _ _ _ ?_ h2⟩
            intro y hy
            rw [← h, hx] at hy; simp at hy
          | some y =>
            simp only at hc; subst hc
            exact ⟨h1, .keep _ _ _ _ ((h _ _).1 hx) h2⟩
      · rintro ⟨h1, h2⟩
        cases h2 with
        | keep _ y _ ys hr h2 =>
          rw [(ih ys).2 ⟨h1, h2⟩]
          have := (h _ _).2 hr
          rw [hx] at this
          injection this with this; subst this
          rfl
        | skip _ _ ys hr h2 =>
          rw [(ih _).2 ⟨h1, h2⟩]
          cases r with
          | none => rfl
          | some y => exact absurd ((h _ _).1 hx) (hr y)

theorem collectRun_done {α β : Type} {f : α → Run (Option β)} (l : List α) :
    (∃ out, collectRun f l = .done out) ↔ ∀ x ∈ l, ∃ r, f x = .done r := by
  induction l with
  | nil => simp [collectRun]
  | cons x xs ih =>
    simp only [collectRun, List.forall_mem_cons, ← ih]
    cases hx : f x with
    | panic => simp [Run.andThen]
    | loop => simp [Run.andThen]
    | done r =>
      cases hxs : collectRun f xs with
      | panic => simp [Run.andThen]
      | loop => simp [Run.andThen]
      | done r => simp [Run.andThen]

/-- If no call loops, the collection does not loop either. -/
theorem collectRun_panic {α β : Type} {f : α → Run (Option β)} (l : List α) (hl : ∀ x ∈ l, f x ≠ .loop) :
    collectRun f l = .panic ↔ ∃ x ∈ l, f x = .panic := by
  induction l with
  | nil => simp [collectRun]
  | cons x xs ih =>
    have ih := ih (fun y hy => hl y (List.mem_cons_of_mem _ hy))
    simp only [collectRun]
    cases hx : f x with
    | panic => simp [Run.andThen, hx]
    | loop => exact absurd hx (hl x List.mem_cons_self)
    | done r =>
      cases hxs : collectRun f xs with
      | panic => simp [Run.andThen, hx, ← ih, hxs]
      | loop => simp [Run.andThen, hx, ← ih, hxs]
      | done r => simp [Run.andThen, hx, ← ih, hxs]

theorem hydrateDims_iff (w : World) (strict : Bool) (es : List DimElem) (d : DimCtx) :
    hydrateDims w strict es = .done d ↔ ¬ StuckDims w es ∧ DimsOf w es d := by
  cases es with
  | nil => simp [hydrateDims, StuckDims, DimsOf, eq_comm]
  | cons e rest =>
    have hs : StuckDims w (e :: rest) ↔ ¬ ∀ m ∈ e.typed, ∃ r, typedMember w strict m = .done r := by
      simp only [StuckDims, List.cons.injEq]
      constructor
      · rintro ⟨e', rest', ⟨rfl, rfl⟩, m, hm, hst⟩ hall
        obtain ⟨r, hr⟩ := hall m hm
        exact (typedMember_stuck w strict m).2 hst r hr
      · intro hn
        by_contra hc
        apply hn
        intro m hm
        by_contra hr
        apply hc
        refine ⟨e, rest, ⟨rfl, rfl⟩, m, hm, (typedMember_stuck w strict m).1 ?_⟩
        intro r hr'; exact hr ⟨r, hr'⟩
    have hd : DimsOf w (e :: rest) d ↔ Collected (ExplicitOf w) e.explicit d.explicit ∧
        Collected (TypedOf w) e.typed d.typed := by
      simp [DimsOf]
    rw [hs, hd, not_not, collected_iff (explicitMember_iff w strict)]
    simp only [hydrateDims]
    obtain ⟨de, dt⟩ := d
    constructor
    · intro h
      cases hc : collectRun (typedMember w strict) e.typed with
      | panic => simp [hc, Run.andThen] at h
      | loop => simp [hc, Run.andThen] at h
      | done ts =>
        simp only [hc, Run.andThen, Run.done.injEq, DimCtx.mk.injEq] at h
        obtain ⟨rfl, rfl⟩ := h
        obtain ⟨h1, h2⟩ := (collectRun_iff (typedMember_some w strict) _ _).1 hc
        exact ⟨h1, rfl, h2⟩
    · rintro ⟨h1, h2, h3⟩
      rw [(collectRun_iff (typedMember_some w strict) _ _).2 ⟨h1, h3⟩]
      simp only [Run.andThen]; rw [← h2]

theorem hydrateDims_stuck (w : World) (strict : Bool) (es : List DimElem) :
    (∃ d, hydrateDims w strict es = .done d) ↔ ¬ StuckDims w es := by
  cases es with
  | nil => simp [hydrateDims, StuckDims]
  | cons e rest =>
    constructor
    · rintro ⟨d, hd⟩; exact ((hydrateDims_iff w strict _ d).1 hd).1
    · intro hn
      have hall : ∀ m ∈ e.typed, ∃ r, typedMember w strict m = .done r := by
        intro m hm
        by_contra hc
        apply hn
        exact ⟨e, rest, rfl, m, hm, (typedMember_stuck w strict m).1 (fun r hr => hc ⟨r, hr⟩)⟩
      obtain ⟨ts, hts⟩ := (collectRun_done e.typed).2 hall
      exact ⟨⟨_, ts⟩, by simp only [hydrateDims, hts, Run.andThen]; rfl⟩

theorem hydratePeriod_iff (ps : List PeriodElem) (i s e : String) :
    hydratePeriod ps = (i, s, e) ↔ PeriodOf ps i s e := by
  cases ps with
  | nil =>
    simp only [hydratePeriod, PeriodOf, Prod.mk.injEq, true_and, reduceCtorEq, false_and, exists_false, or_false]
    simp [eq_comm]
  | cons p rest =>
    have : PeriodOf (p :: rest) i s e ↔ ((p.instants = [] ∧ i = "") ∨ ∃ r, p.instants = i :: r) ∧
      (((p.starts = [] ∨ p.ends = []) ∧ s = "" ∧ e = "") ∨ ∃ r r', p.starts = s :: r ∧ p.ends = e :: r') := by
      simp [PeriodOf]
    rw [this]
    simp only [hydratePeriod]
    cases p.instants <;> cases p.starts <;> cases p.ends <;> simp [eq_comm]

/-- The context built from its parts. -/
def mkContext (id scheme ident : String) (ps : List PeriodElem) (seg sc : DimCtx) : Context :=
  { id := id, scheme := scheme, ident := ident, segment := seg, instant := (hydratePeriod ps).1,
    startDate := (hydratePeriod ps).2.1, endDate := (hydratePeriod ps).2.2, scenario := sc }

theorem hydrateContext_cases (w : World) (e : CtxElem) :
    (NoEntity e ∧ hydrateContext w e = .panic) ∨
    (¬ NoEntity e ∧ (∀ ent id scheme ident, ¬ Identified e ent id scheme ident) ∧ hydrateContext w e = .done none) ∨
    (¬ NoEntity e ∧ ∃ ent id scheme ident, Identified e ent id scheme ident ∧
      hydrateContext w e = (hydrateDims w false ent.segments).andThen fun seg =>
        (hydrateDims w true e.scenarios).andThen fun sc => .done (some (mkContext id scheme ident e.periods seg sc))) := by
  unfold hydrateContext
  by_cases hs : e.space = XBRLI
  · have hs' : e.space = "http://www.xbrl.org/2003/instance" := hs
    rw [if_neg (by simp [hs])]
    cases hid : plainAttr e.attrs "id" with
    | none =>
      have hno : ∀ id, ¬ HasId e id := by
        rintro id ⟨_, h, _⟩; rw [← plainAttr_iff, hid] at h; simp at h
      exact .inr (.inl ⟨fun h => h.1.elim hno, fun _ _ _ _ h => hno _ h.1, rfl⟩)
    | some id =>
      have hu : ∀ id', HasId e id' → id' = id := by
        rintro id' ⟨_, h, _⟩; rw [← plainAttr_iff, hid] at h; exact (Option.some.inj h).symm
      by_cases h0 : id = ""
      · have hno : ∀ id, ¬ HasId e id := by
          intro id' h; exact h.2.2 ((hu _ h).trans h0)
        simp only [if_pos h0]
        exact .inr (.inl ⟨fun h => h.1.elim hno, fun _ _ _ _ h => hno _ h.1, trivial⟩)
      · have hh : HasId e id := ⟨hs', (plainAttr_iff _ _ _).1 hid, h0⟩
        simp only [if_neg h0]
        cases hent : e.entities with
        | nil => exact .inl ⟨⟨⟨id, hh⟩, hent⟩, rfl⟩
        | cons ent rest =>
          have hne : ¬ NoEntity e := by rintro ⟨_, h⟩; simp [hent] at h
          right
          simp only [hne, not_false_eq_true, true_and]
          have hent' : ∀ ent' id s i, Identified e ent' id s i → ent' = ent := by
            rintro ent' _ _ _ ⟨_, ⟨r, h⟩, _⟩; rw [hent] at h; injection h with h; exact h.symm
          cases hi : ent.identifiers with
          | nil =>
            left
            refine ⟨?_, rfl⟩
            intro ent' id s i h
            have := hent' _ _ _ _ h; subst this
            obtain ⟨_, _, ⟨_, _, h, _⟩, _⟩ := h
            simp [hi] at h
          | cons i irest =>
            obtain ⟨ia, ic⟩ := i
            by_cases hc : ic = ""
            · left
              refine ⟨?_, by simp [hc]⟩
              intro ent' id s i h
              have := hent' _ _ _ _ h; subst this
              obtain ⟨_, _, ⟨_, _, h, _⟩, h'⟩ := h
              simp [hi] at h
              exact h' (h.1.2 ▸ hc)
            · simp only [if_neg hc]
              cases hsch : plainAttr ia "scheme" with
              | none =>
                left
                refine ⟨?_, rfl⟩
                intro ent' id s i h
                have := hent' _ _ _ _ h; subst this
                obtain ⟨_, _, ⟨_, _, h, h2⟩, h'⟩ := h
                simp [hi] at h
                rw [← h.1.1, ← plainAttr_iff, hsch] at h2; simp at h2
              | some scheme =>
                right
                exact ⟨ent, id, scheme, ic, ⟨hh, ⟨rest, hent⟩, ⟨ia, irest, hi, (plainAttr_iff _ _ _).1 hsch⟩, hc⟩, rfl⟩
  · rw [if_pos (by simpa using hs)]
    have hno : ∀ id, ¬ HasId e id := by
      rintro id ⟨h, _⟩; exact hs h
    exact .inr (.inl ⟨fun h => h.1.elim hno, fun _ _ _ _ h => hno _ h.1, rfl⟩)

theorem Identified.unique {e : CtxElem} {ent ent' : EntityElem} {id id' s s' i i' : String}
    (h : Identified e ent id s i) (h' : Identified e ent' id' s' i') : ent = ent' ∧ id = id' ∧ s = s' ∧ i = i' := by
  obtain ⟨⟨_, h1, _⟩, ⟨r, h2⟩, ⟨a, q, h3, h4⟩, _⟩ := h
  obtain ⟨⟨_, h1', _⟩, ⟨r', h2'⟩, ⟨a', q', h3', h4'⟩, _⟩ := h'
  rw [h2] at h2'; injection h2' with h2' _; subst h2'
  rw [h3] at h3'; injection h3' with h3' _; injection h3' with h5 h6; subst h5; subst h6
  rw [← plainAttr_iff] at h1 h1' h4 h4'
  rw [h1] at h1'; rw [h4] at h4'
  exact ⟨rfl, Option.some.inj h1', Option.some.inj h4', rfl⟩

theorem hydrateContext_some (w : World) (e : CtxElem) (c : Context) :
    hydrateContext w e = .done (some c) ↔ ¬ Stuck w e ∧ ContextOf w e c := by
  rcases hydrateContext_cases w e with ⟨hn, h⟩ | ⟨_, hn, h⟩ | ⟨_, ent, id, s, i, hi, h⟩
  · rw [h]
    simp only [reduceCtorEq, false_iff, not_and]
    rintro _ ⟨ent, ⟨_, ⟨r, hr⟩, _⟩, _⟩
    rw [hn.2] at hr; simp at hr
  · rw [h]
    simp only [Run.done.injEq, reduceCtorEq, false_iff, not_and]
    rintro _ ⟨ent, hid, _⟩
    exact hn _ _ _ _ hid
  · rw [h]
    have hst : Stuck w e ↔ StuckDims w ent.segments ∨ StuckDims w e.scenarios := by
      constructor
      · rintro ⟨ent', _, _, _, hi', hs⟩
        rw [(hi.unique hi').1]; exact hs
      · intro hs; exact ⟨ent, id, s, i, hi, hs⟩
    rw [hst]
    constructor
    · intro h
      cases hseg : hydrateDims w false ent.segments with
      | panic => simp [hseg, Run.andThen] at h
      | loop => simp [hseg, Run.andThen] at h
      | done seg =>
        cases hsc : hydrateDims w true e.scenarios with
        | panic => simp [hseg, hsc, Run.andThen] at h
        | loop => simp [hseg, hsc, Run.andThen] at h
        | done sc =>
          simp only [hseg, hsc, Run.andThen, Run.done.injEq, Option.some.injEq] at h
          subst h
          have h1 := (hydrateDims_iff _ _ _ _).1 hseg
          have h2 := (hydrateDims_iff _ _ _ _).1 hsc
          exact ⟨by simp [h1.1, h2.1], ent, hi, h1.2, h2.2, (hydratePeriod_iff _ _ _ _).1 rfl⟩
    · rintro ⟨h1, ent', hi', h2, h3, h4⟩
      obtain ⟨rfl, rfl, rfl, rfl⟩ := hi.unique hi'
      simp only [not_or] at h1
      rw [(hydrateDims_iff w false _ _).2 ⟨h1.1, h2⟩, (hydrateDims_iff w true _ _).2 ⟨h1.2, h3⟩]
      have h5 := (hydratePeriod_iff _ _ _ _).2 h4
      simp [Run.andThen, mkContext, h5]

theorem hydrateContext_done (w : World) (e : CtxElem) :
    (∃ r, hydrateContext w e = .done r) ↔ ¬ NoEntity e ∧ ¬ Stuck w e := by
  rcases hydrateContext_cases w e with ⟨hn, h⟩ | ⟨hne, hn, h⟩ | ⟨hne, ent, id, s, i, hi, h⟩
  · simp [h, hn]
  · rw [h]
    simp only [Run.done.injEq, exists_eq', hne, not_false_eq_true, true_and, true_iff]
    rintro ⟨_, _, _, _, hid, _⟩; exact hn _ _ _ _ hid
  · have hst : Stuck w e ↔ StuckDims w ent.segments ∨ StuckDims w e.scenarios := by
      constructor
      · rintro ⟨ent', _, _, _, hi', hs⟩
        rw [(hi.unique hi').1]; exact hs
      · intro hs; exact ⟨ent, id, s, i, hi, hs⟩
    rw [hst, h, not_or, ← hydrateDims_stuck w false, ← hydrateDims_stuck w true]
    simp only [hne, not_false_eq_true, true_and]
    cases hydrateDims w false ent.segments <;> cases hydrateDims w true e.scenarios <;> simp [Run.andThen]

theorem hydrateContext_noEntity (w : World) (e : CtxElem) (hs : ¬ Stuck w e) :
    hydrateContext w e ≠ .loop ∧ (hydrateContext w e = .panic ↔ NoEntity e) := by
  by_cases hn : NoEntity e
  · rcases hydrateContext_cases w e with ⟨_, h⟩ | ⟨hne, _, _⟩ | ⟨hne, _⟩
    · simp [h, hn]
    · exact absurd hn hne
    · exact absurd hn hne
  · obtain ⟨r, hr⟩ := (hydrateContext_done w e).2 ⟨hn, hs⟩
    simp [hr, hn]

/-! ## Units and footnote links -/

theorem measureOf_iff (tl : List Attr) (s : String) (m : UnitMeasure) : MeasureOf tl s m ↔ m = ⟨xmlns tl s, s⟩ := by
  obtain ⟨n, c⟩ := m
  rw [MeasureOf, ← C01_xmlns_resolves, UnitMeasure.mk.injEq, eq_comm (a := n)]

theorem hydrateUnit_iff (tl : List Attr) (e : UnitElem) (u : HUnit) :
    hydrateUnit tl e = some u ↔ UnitOf tl e u := by
  obtain ⟨id, m, num, den⟩ := u
  simp only [UnitOf, measureOf_iff]
  unfold hydrateUnit
  by_cases hs : e.space = XBRLI
  · have hs' : e.space = "http://www.xbrl.org/2003/instance" := hs
    rw [if_neg (by simp [hs])]
    simp only [hs', true_and, ← plainAttr_iff]
    cases hid : plainAttr e.attrs "id" with
    | none => simp
    | some id' =>
      simp only [Option.some.injEq]
      by_cases h0 : id' = ""
      · simp only [if_pos h0, reduceCtorEq, false_iff]
        rintro ⟨rfl, h, _⟩; exact h h0
      · simp only [if_neg h0]
        obtain ⟨sp, at', ms, ds⟩ := e
        simp only
        cases ms with
        | cons a as =>
          simp only [Option.some.injEq, HUnit.mk.injEq, mkMeasure, UnitMeasure.zero, reduceCtorEq,
            false_and, or_false]
          constructor
          · rintro ⟨rfl, rfl, rfl, rfl⟩; exact ⟨rfl, h0, a, as, rfl, rfl, rfl, rfl⟩
          · rintro ⟨rfl, _, t, _, h, rfl, rfl, rfl⟩
            injection h with h _; subst h
            exact ⟨rfl, rfl, rfl, rfl⟩
        | nil =>
          cases ds with
          | nil => simp
          | cons d ds =>
            obtain ⟨ns, dens⟩ := d
            rcases dens with _ | ⟨_ | ⟨b, bs⟩, dens⟩ <;> rcases ns with _ | ⟨_ | ⟨a, as⟩, nums⟩ <;>
              simp [UnitMeasure.zero, mkMeasure]
            rintro rfl
            simp only [h0, not_false_eq_true, true_and, eq_comm]
  · rw [if_pos (by simpa using hs)]
    simp only [reduceCtorEq, false_iff]
    rintro ⟨h, _⟩; exact hs h

theorem hydrateFootnoteLoc_iff (attrs : List Attr) (l : FootnoteLoc) :
    hydrateFootnoteLoc attrs = some l ↔ FootnoteLocOf attrs l := by
  obtain ⟨h, l⟩ := l
  simp only [hydrateFootnoteLoc, FootnoteLocOf, ← plainAttr_iff, Option.bind_eq_bind, Option.bind_eq_some_iff,
    guard_some, Option.pure_def, Option.some.injEq, FootnoteLoc.mk.injEq]
  constructor
  · rintro ⟨_, h1, _, rfl, _, h2, _, h3, _, h4, _, h5, rfl, rfl⟩; exact ⟨h1, h2, h3, h4, h5⟩
  · rintro ⟨h1, h2, h3, h4, h5⟩; exact ⟨_, h1, (), rfl, _, h2, (), h3, _, h4, (), h5, rfl, rfl⟩

theorem hydrateFootnote_iff (e : List Attr × String) (f : Footnote) :
    hydrateFootnote e = some f ↔ FootnoteOf e f := by
  obtain ⟨i, n, g, l⟩ := f
  simp only [hydrateFootnote, FootnoteOf, ← plainAttr_iff, Option.bind_eq_bind, Option.bind_eq_some_iff,
    guard_some, Option.pure_def, Option.some.injEq, Footnote.mk.injEq]
  constructor
  · rintro ⟨_, h1, _, rfl, _, h2, _, h3, _, h4, _, h5, _, h6, _, h7, rfl, rfl, rfl, rfl⟩
    exact ⟨h1, h2, h3, h4, h5, h6, h7, rfl⟩
  · rintro ⟨h1, h2, h3, h4, h5, h6, h7, rfl⟩
    exact ⟨_, h1, (), rfl, _, h2, (), h3, _, h4, (), h5, _, h6, (), h7, rfl, rfl, rfl, rfl⟩

theorem hydrateFootnoteArc_iff (attrs : List Attr) (a : FootnoteArc) :
    hydrateFootnoteArc attrs = some a ↔ FootnoteArcOf attrs a := by
  obtain ⟨f, t, r⟩ := a
  simp only [hydrateFootnoteArc, FootnoteArcOf, ← plainAttr_iff, Option.bind_eq_bind, Option.bind_eq_some_iff,
    guard_some, Option.pure_def, Option.some.injEq, FootnoteArc.mk.injEq]
  constructor
  · rintro ⟨_, h1, _, h2, _, h3, _, rfl, _, h4, _, h5, _, h6, _, h7, rfl, rfl, rfl⟩
    exact ⟨h1, h2, h3, h4, h5, h6, h7⟩
  · rintro ⟨h1, h2, h3, h4, h5, h6, h7⟩
    exact ⟨_, h1, (), h2, _, h3, (), rfl, _, h4, (), h5, _, h6, (), h7, rfl, rfl, rfl⟩

theorem hydrateFootnoteLink_iff (e : FootnoteLinkElem) (l : FootnoteLink) :
    hydrateFootnoteLink e = some l ↔ FootnoteLinkOf e l := by
  obtain ⟨t, f, ls, as⟩ := l
  simp only [hydrateFootnoteLink, FootnoteLinkOf, ← plainAttr_iff, ← optAttr_iff, Option.bind_eq_bind, Option.bind_eq_some_iff,
    guard_some, Option.pure_def, Option.some.injEq, FootnoteLink.mk.injEq,
    collected_iff hydrateFootnote_iff, collected_iff hydrateFootnoteLoc_iff, collected_iff hydrateFootnoteArc_iff]
  constructor
  · rintro ⟨_, h1, _, rfl, _, h2, _, rfl, rfl, rfl, rfl, rfl⟩; exact ⟨h1, h2, rfl, rfl, rfl, rfl⟩
  · rintro ⟨h1, h2, rfl, rfl, rfl, rfl⟩; exact ⟨_, h1, (), rfl, _, h2, (), rfl, rfl, rfl, rfl, rfl⟩

/-! ## Typed members -/

/-- Arcs numbered from `k + 1`. -/
def arcsFrom (k : Nat) : List (String × String) → List TypedArc
  | [] => []
  | p :: l => ⟨k + 1, p.1, p.2⟩ :: arcsFrom (k + 1) l

theorem arcsFrom_append (k : Nat) (l l' : List (String × String)) :
    arcsFrom k (l ++ l') = arcsFrom k l ++ arcsFrom (k + l.length) l' := by
  induction l generalizing k with
  | nil => simp [arcsFrom]
  | cons p l ih =>
    simp only [List.cons_append, arcsFrom, ih, List.length_cons]
    rw [Nat.add_assoc, Nat.add_comm 1]

theorem arcsFrom_ends (k : Nat) (l : List (String × String)) :
    (arcsFrom k l).map (fun a => (a.frm, a.to)) = l ∧
    (arcsFrom k l).map TypedArc.order = List.range' (k + 1) l.length := by
  induction l generalizing k with
  | nil => simp [arcsFrom]
  | cons p l ih => simp [arcsFrom, ih, List.range'_succ]

/-- The last of `a :: l`. -/
def lastOf (a : String) : List String → String
  | [] => a
  | b :: l => lastOf b l

theorem lastOf_append (a : String) (l l' : List String) : lastOf a (l ++ l') = lastOf (lastOf a l) l' := by
  induction l generalizing a with
  | nil => rfl
  | cons b l ih => exact ih b

theorem steps_append (a : String) (l l' : List String) : steps a (l ++ l') = steps a l ++ steps (lastOf a l) l' := by
  induction l generalizing a with
  | nil => rfl
  | cons b l ih => simp [steps, lastOf, ih]

theorem steps_length (a : String) (l : List String) : (steps a l).length = l.length := by
  induction l generalizing a with
  | nil => rfl
  | cons b l ih => simp [steps, ih]

/-- The map after writing some entries in order. -/
def addAll (m : GoMap String String) (l : List (String × String)) : GoMap String String :=
  l.foldl (fun m p => mapSet m p.1 p.2) m

theorem addAll_append (m : GoMap String String) (l l' : List (String × String)) :
    addAll m (l ++ l') = addAll (addAll m l) l' := by simp [addAll]

/-- The last write wins. -/
theorem mapGet_addAll (l : List (String × String)) (k v : String) :
    mapGet (addAll [] l) k = some v ↔ LastWith (fun p : String × String => p.1 = k) l (k, v) := by
  have key : ∀ (r : List (String × String)), mapGet (addAll [] r.reverse) k = some v ↔
      LastWith (fun p : String × String => p.1 = k) r.reverse (k, v) := by
    intro r
    induction r with
    | nil => simp [addAll, not_lastWith_nil]
    | cons p r ih =>
      rw [List.reverse_cons, addAll_append, lastWith_append_singleton, ← ih]
      simp only [addAll, List.foldl_cons, List.foldl_nil]
      rw [mapGet_mapSet]
      obtain ⟨a, b⟩ := p
      by_cases h : a = k
      · simp [h, eq_comm]
      · simp [h]
  have := key l.reverse
  rwa [List.reverse_reverse] at this

theorem walk_forest (w : World) (dim : Concept) (eof : Bool) (ref : XName → String) (f : Forest) :
    ∀ (st : WalkState) (rest : List Tok) (par : String) (pc : Concept),
    (st.prev = match st.stack with | [] => some dim | p :: _ => p) →
    st.prev = some pc → nameQuery w.env pc.name.space pc.name.loc = .ok (some (par, pc)) →
    (∀ n ∈ f.names, ∃ c, Resolves w (n.space ++ ":" ++ n.loc) (ref n) c) →
    walk w dim st eof (f.toks ++ rest) = walk w dim
      { members := addAll st.members (f.texts ref w.trim par)
        arcs := st.arcs ++ arcsFrom st.order (steps st.prevHref (f.hrefs ref))
        order := st.order + (f.hrefs ref).length
        stack := st.stack
        prevHref := lastOf st.prevHref (f.hrefs ref)
        prev := st.prev } eof rest := by
  induction f with
  | nil =>
    intro st rest par pc _ _ _ _
    simp [Forest.toks, Forest.texts, Forest.hrefs, addAll, arcsFrom, steps, lastOf]
  | text s r ih =>
    intro st rest par pc htop hprev hpar hres
    simp only [Forest.toks, List.cons_append, walk, walkStep]
    by_cases hs : w.trim s = ""
    · simp only [if_pos hs]
      rw [ih st rest par pc htop hprev hpar hres]
      simp [Forest.texts, Forest.hrefs, hs]
    · simp only [if_neg hs, hprev, hpar]
      rw [ih _ rest par pc (by exact hprev.symm.trans htop) rfl hpar hres]
      simp [Forest.texts, Forest.hrefs, hs, addAll]
  | elem n k r ihk ihr =>
    intro st rest par pc htop hprev hpar hres
    obtain ⟨c, hcn⟩ := hres n (by simp [Forest.names])
    obtain ⟨hs, hq⟩ := (resolves_iff _ _ _ _).1 hcn
    have hcn : c.name = ⟨(xmlns w.tl (n.space ++ ":" ++ n.loc)).space, (xmlns w.tl (n.space ++ ":" ++ n.loc)).loc⟩ := by
      obtain ⟨_, _, _, _, _, h⟩ := nameQuery_some hq; exact h
    have hk : ∀ m ∈ k.names, ∃ c, Resolves w (m.space ++ ":" ++ m.loc) (ref m) c :=
      fun m hm => hres m (by simp [Forest.names, hm])
    have hr : ∀ m ∈ r.names, ∃ c, Resolves w (m.space ++ ":" ++ m.loc) (ref m) c :=
      fun m hm => hres m (by simp [Forest.names, hm])
    simp only [Forest.toks, List.cons_append, List.append_assoc]
    rw [walk]
    simp only [walkStep, if_neg hs, hq]
    rw [ihk _ _ (ref n) c rfl rfl (by rw [hcn]; exact hq) hk]
    rw [walk]
    simp only [walkStep, hcn, ne_eq, not_true_eq_false, and_self, if_false]
    rw [ihr _ rest par pc rfl (by exact htop.symm.trans hprev) hpar hr]
    simp only [Forest.texts, Forest.hrefs, steps, lastOf, steps_append, lastOf_append, arcsFrom, arcsFrom_append,
      addAll_append, List.length_cons, List.length_append, List.append_assoc, steps_length,
      Nat.add_assoc, List.cons_append]
    have e1 : 1 + ((Forest.hrefs ref k).length + (Forest.hrefs ref r).length) =
      (Forest.hrefs ref k).length + ((Forest.hrefs ref r).length + 1) := by omega
    simp only [e1, List.nil_append]
    congr 2
    exact htop.symm

/-- Without siblings the consecutive pairs are the parent relation. -/
theorem path_parents (ref : XName → String) (f : Forest) (a : String) (h : f.Path) :
    steps a (f.hrefs ref) = f.parents ref a := by
  have hno : ∀ (g : Forest) (b : String), g.NoElem → g.hrefs ref = [] ∧ g.parents ref b = [] := by
    intro g
    induction g with
    | nil => intro b _; exact ⟨rfl, rfl⟩
    | elem => intro b h; exact absurd h (by simp [Forest.NoElem])
    | text s r ih => intro b h; exact ih b h
  induction f generalizing a with
  | nil => rfl
  | text s r ih => exact ih a h
  | elem n k r ihk ihr =>
    obtain ⟨hk, hr⟩ := h
    simp only [Forest.hrefs, Forest.parents, steps, (hno r a hr).1, (hno r a hr).2, List.append_nil, ihk (ref n) hk]

end Telefacts.Instance
