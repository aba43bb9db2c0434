import Verif.Proof.XmlMarkup
/-! # Proofs about encoding/xml: name spaces and the tree -/
namespace Telefacts.XmlText

/-! ## Name spaces -/

abbrev Scope := List (List (XName × Str))

/-- The map holds what is declared. -/
def Agree (ns : GoMap String String) (sc : Scope) : Prop := ∀ p u, mapGet ns p = some u ↔ Bound sc p u

theorem agree_nil : Agree [] [] := by
  intro p u
  simp only [mapGet, reduceCtorEq, false_iff]
  rintro ⟨i, l, o, a, v, b, x, h, _⟩
  simp at h

theorem declare_get (l : List (XName × Str)) (p : String) : ∀ ns,
    (∃ a v b x, l = a ++ (x, v) :: b ∧ Declares x p ∧ (∀ y ∈ b, ¬ Declares y.1 p) ∧ mapGet (declare ns l) p = some (String.ofList v)) ∨
      ((∀ y ∈ l, ¬ Declares y.1 p) ∧ mapGet (declare ns l) p = mapGet ns p) := by
  induction l with
  | nil => intro ns; right; simp [declare]
  | cons q l ih =>
    intro ns
    obtain ⟨x, v⟩ := q
    rw [declare]
    rcases ih (if x.space = "" ∧ x.loc = "xmlns" then
        mapSet (if x.space = "xmlns" then mapSet ns x.loc (String.ofList v) else ns) "" (String.ofList v)
      else if x.space = "xmlns" then mapSet ns x.loc (String.ofList v) else ns) with ⟨a, v', b, x', h1, h2, h3, h4⟩ | ⟨h1, h2⟩
    · left; exact ⟨(x, v) :: a, v', b, x', by simp [h1], h2, h3, h4⟩
    · by_cases hd : Declares x p
      · left
        refine ⟨[], v, l, x, rfl, hd, h1, ?_⟩
        rw [h2]
        rcases hd with ⟨d1, d2⟩ | ⟨d1, d2, d3⟩
        · have : ¬ (x.space = "" ∧ x.loc = "xmlns") := by rw [d1]; simp
          rw [if_neg this, if_pos d1, d2, mapGet_mapSet_self]
        · rw [if_pos ⟨d1, d2⟩, d3, mapGet_mapSet_self]
      · right
        refine ⟨?_, ?_⟩
        · intro y hy
          rcases List.mem_cons.1 hy with rfl | hy
          · exact hd
          · exact h1 y hy
        · rw [h2]
          simp only [Declares, not_or] at hd
          have key : mapGet (if x.space = "xmlns" then mapSet ns x.loc (String.ofList v) else ns) p = mapGet ns p := by
            split
            · rw [mapGet_mapSet, if_neg]
              intro h; exact hd.1 ⟨by assumption, h⟩
            · rfl
          split
          · rename_i hc
            rw [mapGet_mapSet, if_neg, key]
            intro h; exact hd.2 ⟨hc.1, hc.2, h.symm⟩
          · exact key

theorem bound_cons (l : List (XName × Str)) (sc : Scope) (p u : String) :
    Bound (l :: sc) p u ↔ (∃ a v b x, l = a ++ (x, v) :: b ∧ Declares x p ∧ (∀ y ∈ b, ¬ Declares y.1 p) ∧ u = String.ofList v) ∨
      ((∀ y ∈ l, ¬ Declares y.1 p) ∧ Bound sc p u) := by
  constructor
  · rintro ⟨i, m, o, a, v, b, x, h1, h2, h3, h4, h5, h6⟩
    cases i with
    | nil => simp at h1; obtain ⟨rfl, rfl⟩ := h1; exact .inl ⟨a, v, b, x, h2, h3, h5, h4⟩
    | cons m' i =>
      simp at h1; obtain ⟨rfl, rfl⟩ := h1
      exact .inr ⟨h6 l (by simp), i, m, o, a, v, b, x, rfl, h2, h3, h4, h5, fun l' hl' => h6 l' (by simp [hl'])⟩
  · rintro (⟨a, v, b, x, h2, h3, h5, h4⟩ | ⟨h, i, m, o, a, v, b, x, h1, h2, h3, h4, h5, h6⟩)
    · exact ⟨[], l, sc, a, v, b, x, rfl, h2, h3, h4, h5, by simp⟩
    · refine ⟨l :: i, m, o, a, v, b, x, by simp [h1], h2, h3, h4, h5, ?_⟩
      intro l' hl'
      rcases List.mem_cons.1 hl' with rfl | hl'
      · exact h
      · exact h6 l' hl'

theorem last_unique {l a a' b b' : List (XName × Str)} {v v' : Str} {x x' : XName} {p : String} (h : l = a ++ (x, v) :: b)
    (h' : l = a' ++ (x', v') :: b') (hx : Declares x p) (hx' : Declares x' p) (hb : ∀ y ∈ b, ¬ Declares y.1 p)
    (hb' : ∀ y ∈ b', ¬ Declares y.1 p) : v = v' := by
  rw [h] at h'
  rcases List.append_eq_append_iff.1 h' with ⟨c, h1, h2⟩ | ⟨c, h1, h2⟩
  · cases c with
    | nil => simp at h2; exact h2.1.2
    | cons d c => simp at h2; exact absurd hx' (hb (x', v') (by simp [h2.2]))
  · cases c with
    | nil => simp at h2; exact h2.1.2.symm
    | cons d c => simp at h2; exact absurd hx (hb' (x, v) (by simp [h2.2]))

theorem agree_declare {ns : GoMap String String} {sc : Scope} (h : Agree ns sc) (l : List (XName × Str)) :
    Agree (declare ns l) (l :: sc) := by
  intro p u
  rw [bound_cons]
  rcases declare_get l p ns with ⟨a, v, b, x, h1, h2, h3, h4⟩ | ⟨h1, h2⟩
  · rw [h4]
    constructor
    · intro hu; simp at hu; exact .inl ⟨a, v, b, x, h1, h2, h3, hu.symm⟩
    · rintro (⟨a', v', b', x', h1', h2', h3', h4'⟩ | ⟨hn, _⟩)
      · rw [h4', last_unique h1 h1' h2 h2' h3 h3']
      · exact absurd h2 (hn (x, v) (by simp [h1]))
  · rw [h2, h]
    constructor
    · exact fun hb => .inr ⟨h1, hb⟩
    · rintro (⟨a', v', b', x', h1', h2', _, _⟩ | ⟨_, hb⟩)
      · exact absurd h2' (h1 (x', v') (by simp [h1']))
      · exact hb

/-- All attribute names have been read. -/
def Clean (e : Env) (sc : Scope) : Prop := ∀ l ∈ sc, ∀ y ∈ l, ∃ n, QName e n y.1

theorem atts_names {e : Env} {a : Str} {l : List (XName × Str)} (h : Atts e a l) : ∀ y ∈ l, ∃ n, QName e n y.1 := by
  induction h with
  | nil => simp
  | cons w n w1 w2 q t r x v l hw hq _ _ _ _ _ ih =>
    intro y hy
    rcases List.mem_cons.1 hy with rfl | hy
    · exact ⟨n, hq⟩
    · exact ih y hy

theorem tag_names {e : Env} {s n : Str} {x : XName} {l : List (XName × Str)} (h : Tag e s n x l) : ∀ y ∈ l, ∃ n, QName e n y.1 := by
  obtain ⟨a, _, ha, _⟩ := h; exact atts_names ha

theorem clean_cons {e : Env} {sc : Scope} (h : Clean e sc) {l : List (XName × Str)} (hl : ∀ y ∈ l, ∃ n, QName e n y.1) :
    Clean e (l :: sc) := by
  intro l' hl'
  rcases List.mem_cons.1 hl' with rfl | hl'
  · exact hl
  · exact h l' hl'

theorem qname_text {e : Env} {n : Str} {x : XName} (h : QName e n x) :
    (x.space = "" ∧ x.loc.toList = n) ∨ (x.space ≠ "" ∧ x.space.toList ++ ':' :: x.loc.toList = n) := by
  obtain ⟨_, ⟨p, l, h1, _, _, _, h3, rfl⟩ | ⟨rfl, _⟩⟩ := h
  · right
    refine ⟨?_, by simp [h3]⟩
    intro hp
    have := congrArg String.toList hp
    simp at this
    exact h1 this
  · left; simp

theorem qname_inj {e : Env} {n m : Str} {x : XName} (h : QName e n x) (h' : QName e m x) : n = m := by
  rcases qname_text h with ⟨h1, h2⟩ | ⟨h1, h2⟩ <;> rcases qname_text h' with ⟨g1, g2⟩ | ⟨g1, g2⟩
  · rw [← h2, g2]
  · exact absurd h1 g1
  · exact absurd g1 h1
  · rw [← h2, g2]

theorem loc_nameChar {e : Env} {n : Str} {x : XName} (h : QName e n x) : ∀ c ∈ x.loc.toList, NameChar e c := by
  intro c hc
  apply h.1.nameChar c
  rcases qname_text h with ⟨_, h2⟩ | ⟨_, h2⟩
  · rw [← h2]; exact hc
  · rw [← h2]; simp [hc]

theorem not_bound_url {e : Env} {sc : Scope} (h : Clean e sc) (u : String) : ¬ Bound sc xmlURL u := by
  rintro ⟨i, l, o, a, v, b, x, h1, h2, h3, _⟩
  rcases h3 with ⟨_, h3⟩ | ⟨_, _, h3⟩
  · obtain ⟨n, hn⟩ := h l (by simp [h1]) (x, v) (by simp [h2])
    have hs : '/' ∈ x.loc.toList := by rw [h3]; decide
    have := nameish_of_nameChar (loc_nameChar hn _ hs)
    revert this; decide
  · revert h3; decide

theorem translate_iff {e : Env} {ns : GoMap String String} {sc : Scope} (ha : Agree ns sc) (hc : Clean e sc) (elem : Bool) (x y : XName) :
    Resolved sc elem x y ↔ translate ns elem x = y := by
  have hu : mapGet ns xmlURL = none := by
    cases h : mapGet ns xmlURL with
    | none => rfl
    | some u => exact absurd ((ha _ _).1 h) (not_bound_url hc u)
  unfold translate
  by_cases c1 : x.space = "xmlns"
  · rw [if_pos c1]
    constructor
    · intro h
      cases h with
      | declaration => rfl
      | unprefixed => rfl
      | xml h => rw [c1] at h; simp at h
      | bound _ h => exact absurd c1 h
      | unbound => rfl
    · rintro rfl; exact .declaration x (.inl c1)
  rw [if_neg c1]
  by_cases c2 : x.space = "" ∧ elem = false
  · rw [if_pos c2]
    constructor
    · intro h
      cases h with
      | declaration => rfl
      | unprefixed => rfl
      | xml h => rw [c2.1] at h; simp at h
      | bound _ _ _ h => have := (h c2.1).1; rw [c2.2] at this; simp at this
      | unbound => rfl
    · rintro rfl; exact .unprefixed x c2.1 c2.2
  rw [if_neg c2]
  by_cases c3 : x.space = "" ∧ x.loc = "xmlns"
  · rw [if_pos c3]
    constructor
    · intro h
      cases h with
      | declaration => rfl
      | unprefixed => rfl
      | xml h => rw [c3.1] at h; simp at h
      | bound _ _ _ h => exact absurd c3.2 (h c3.1).2
      | unbound => rfl
    · rintro rfl; exact .declaration x (.inr c3)
  rw [if_neg c3]
  simp only
  by_cases c4 : x.space = "xml"
  · rw [if_pos c4, hu]
    constructor
    · intro h
      cases h with
      | declaration h => tauto
      | unprefixed => tauto
      | xml h => rfl
      | bound _ _ h => exact absurd c4 h
      | unbound _ h => exact absurd c4 h
    · rintro rfl; exact .xml x c4
  rw [if_neg c4]
  have hx : x.space = "" → elem = true ∧ x.loc ≠ "xmlns" := by
    intro h
    refine ⟨?_, fun h' => c3 ⟨h, h'⟩⟩
    cases elem
    · exact absurd ⟨h, rfl⟩ c2
    · rfl
  cases hg : mapGet ns x.space with
  | none =>
    have hn : ∀ u, ¬ Bound sc x.space u := fun u hb => by
      have := (ha _ _).2 hb; rw [hg] at this; simp at this
    constructor
    · intro h
      cases h with
      | declaration h => tauto
      | unprefixed => tauto
      | xml h => exact absurd h c4
      | bound u _ _ _ h => exact absurd h (hn u)
      | unbound => rfl
    · rintro rfl; exact .unbound x c1 c4 hx hn
  | some u =>
    have hb := (ha _ _).1 hg
    constructor
    · intro h
      cases h with
      | declaration h => tauto
      | unprefixed => tauto
      | xml h => exact absurd h c4
      | bound u' _ _ _ h =>
        have := (ha _ _).2 h; rw [hg] at this; simp at this; rw [this]
      | unbound _ _ _ h => exact absurd hb (h u)
    · rintro rfl; exact .bound x u c1 c4 hx hb

theorem attrsOf_iff {e : Env} {ns : GoMap String String} {sc : Scope} (ha : Agree ns sc) (hc : Clean e sc) (l : List (XName × Str))
    (as : List Attr) : ResolvedAtts sc l as ↔ attrsOf ns l = as := by
  unfold ResolvedAtts attrsOf
  induction l generalizing as with
  | nil => cases as <;> simp
  | cons p l ih =>
    cases as with
    | nil => simp
    | cons a as =>
      rw [List.forall₂_cons, ih]
      simp only [translate_iff ha hc, List.map_cons, List.cons.injEq]
      obtain ⟨n, v⟩ := a
      simp [eq_comm]

/-! ## The tree -/

theorem take_inner (b r : Str) : (b ++ r).take ((b ++ r).length - r.length) = b := by simp

theorem content_sound (e : Env) : ∀ (n : Nat) (ns : GoMap String String) (sc : Scope) (s cs s1 r : Str) (ks : List Xml) (x : XName),
    Agree ns sc → Clean e sc → content e n ns s = some (cs, ks, s1, x, r) →
      ∃ b m w, s = b ++ s1 ∧ s1 = "</".toList ++ (m ++ (w ++ '>' :: r)) ∧ QName e m x ∧ White w ∧ Content e sc b cs ks := by
  intro n
  induction n with
  | zero => intro ns sc s cs s1 r ks x _ _ h; simp [content] at h
  | succ n ih =>
    intro ns sc s cs s1 r ks x ha hc h
    rw [content] at h
    split at h
    · simp at h
    · rename_i y r0 hr
      simp at h
      obtain ⟨rfl, rfl, rfl, rfl, rfl⟩ := h
      obtain ⟨m, w, hq, hw, hs⟩ := (rawToken_iff e _ _ _).1 hr
      exact ⟨[], m, w, rfl, hs, hq, hw, .nil sc⟩
    · rename_i v r0 hr
      obtain ⟨⟨cs', ks', s1', x', r'⟩, h', hp⟩ := Option.map_eq_some_iff.1 h
      simp at hp
      obtain ⟨rfl, rfl, rfl, rfl, rfl⟩ := hp
      obtain ⟨b, m, w, h1, h2, h3, h4, h5⟩ := ih ns sc r0 _ _ _ _ _ ha hc h'
      rcases (rawToken_iff e _ _ _).1 hr with ⟨t, t0, t1, t2, t3, rfl⟩ | ⟨m0, hm, rfl⟩
      · refine ⟨t ++ b, m, w, by rw [h1]; simp, h2, h3, h4, .text sc t v b cs' ks' t0 t1 t2 ?_ h5⟩
        intro c hcc
        apply t3 c
        rw [h1]
        cases b with
        | nil => simp at hcc
        | cons b0 b => simpa using hcc
      · exact ⟨m0 ++ b, m, w, by rw [h1]; simp, h2, h3, h4, .markup sc m0 v b cs' ks' ((markup_iff e _ _).2 (.inl hm)) h5⟩
    · rename_i r0 hr
      obtain ⟨b, m, w, h1, h2, h3, h4, h5⟩ := ih ns sc r0 _ _ _ _ _ ha hc h
      obtain ⟨m0, hm, rfl⟩ := (rawToken_iff e _ _ _).1 hr
      have := Content.markup sc m0 [] b cs ks ((markup_iff e _ _).2 (.inr ⟨hm, rfl⟩)) h5
      exact ⟨m0 ++ b, m, w, by rw [h1]; simp, h2, h3, h4, by simpa using this⟩
    · rename_i y l r0 hr
      obtain ⟨⟨cs', ks', s1', x', r'⟩, h', hp⟩ := Option.map_eq_some_iff.1 h
      simp at hp
      obtain ⟨rfl, rfl, rfl, rfl, rfl⟩ := hp
      obtain ⟨b, m, w, h1, h2, h3, h4, h5⟩ := ih ns sc r0 _ _ _ _ _ ha hc h'
      obtain ⟨a, n', ht, rfl⟩ := (rawToken_iff e _ _ _).1 hr
      have ha' := agree_declare ha l
      have hc' := clean_cons hc (tag_names ht)
      refine ⟨(a ++ "/>".toList) ++ b, m, w, by rw [h1]; simp [close], h2, h3, h4, .elem sc _ b cs' _ ks' (.empty sc a n' y _ l _ ht
        ((translate_iff ha' hc' true _ _).2 rfl) ((attrsOf_iff ha' hc' _ _).2 rfl)) h5⟩
    · rename_i y l r0 hr
      split at h
      · simp at h
      · rename_i cs0 ks0 r1 y' r2 h0
        split at h
        · rename_i hy
          subst hy
          obtain ⟨⟨cs', ks', s1', x', r'⟩, h', hp⟩ := Option.map_eq_some_iff.1 h
          simp at hp
          obtain ⟨rfl, rfl, rfl, rfl, rfl⟩ := hp
          obtain ⟨b, m, w, h1, h2, h3, h4, h5⟩ := ih ns sc r2 _ _ _ _ _ ha hc h'
          obtain ⟨a, n', ht, rfl⟩ := (rawToken_iff e _ _ _).1 hr
          have ha' := agree_declare ha l
          have hc' := clean_cons hc (tag_names ht)
          obtain ⟨b0, m0, w0, g1, g2, g3, g4, g5⟩ := ih _ _ r0 _ _ _ _ _ ha' hc' h0
          have hmn : n' = m0 := qname_inj (by obtain ⟨_, hq, _⟩ := ht; exact hq) g3
          subst hmn
          have hin : List.take (r0.length - r1.length) r0 = b0 := by rw [g1]; exact take_inner b0 r1
          rw [hin]
          refine ⟨(a ++ '>' :: (b0 ++ ("</".toList ++ (n' ++ (w0 ++ ['>']))))) ++ b, m, w, ?_, h2, h3, h4,
            .elem sc _ b cs' _ ks' (.full sc a n' b0 w0 cs0 y' _ l _ ks0 ht ((translate_iff ha' hc' true _ _).2 rfl)
              ((attrsOf_iff ha' hc' _ _).2 rfl) g5 g4) h5⟩
          rw [g1, g2, h1]
          simp [close]
        · simp at h

theorem tag_ne_nil {e : Env} {s n : Str} {x : XName} {l : List (XName × Str)} (h : Tag e s n x l) : ∃ t, s = '<' :: t := by
  obtain ⟨a, _, _, _, rfl⟩ := h; exact ⟨_, rfl⟩

theorem cdata_head {m v : Str} (h : CData m v) : ∃ t, m = '<' :: t := by
  obtain ⟨s, rfl, _⟩ := h; exact ⟨_, rfl⟩

theorem other_head {e : Env} {m : Str} (h : Other e m) : ∃ t, m = '<' :: t := by
  cases h <;> exact ⟨_, rfl⟩

theorem content_complete (e : Env) : ∀ (n : Nat) (ns : GoMap String String) (sc : Scope) (b m w cs r : Str) (ks : List Xml) (x : XName),
    Agree ns sc → Clean e sc → (b ++ ("</".toList ++ (m ++ (w ++ '>' :: r)))).length < n → QName e m x → White w → Content e sc b cs ks →
      content e n ns (b ++ ("</".toList ++ (m ++ (w ++ '>' :: r)))) = some (cs, ks, "</".toList ++ (m ++ (w ++ '>' :: r)), x, r) := by
  intro n
  induction n with
  | zero => intro ns sc b m w cs r ks x _ _ h; omega
  | succ n ih =>
    intro ns sc b m w cs r ks x ha hc hlen hq hw h
    cases h with
    | nil =>
      rw [content, List.nil_append, (rawToken_iff e _ r (.stop x)).2 ⟨m, w, hq, hw, rfl⟩]
    | text _ t v s cs ks t0 t1 t2 t3 h =>
      have hl : (s ++ ("</".toList ++ (m ++ (w ++ '>' :: r)))).length < n := by
        have : 0 < t.length := List.length_pos_iff.2 t0
        simp at hlen ⊢; omega
      have hr := (rawToken_iff e (t ++ (s ++ ("</".toList ++ (m ++ (w ++ '>' :: r))))) _ (.chars v)).2 (.inl ⟨t, t0, t1, t2, by
        intro c hcc
        cases s with
        | nil => simp at hcc; exact hcc.symm
        | cons s0 s => exact t3 c (by simpa using hcc), rfl⟩)
      rw [content, List.append_assoc, hr]
      simp only
      rw [ih ns sc s m w cs r ks x ha hc hl hq hw h]
      rfl
    | markup _ m0 v s cs ks hm h =>
      rcases (markup_iff e _ _).1 hm with hm | ⟨ho, rfl⟩
      · obtain ⟨t, ht⟩ := cdata_head hm
        have hl : (s ++ ("</".toList ++ (m ++ (w ++ '>' :: r)))).length < n := by
          rw [ht] at hlen; simp at hlen ⊢; omega
        have hr := (rawToken_iff e (m0 ++ (s ++ ("</".toList ++ (m ++ (w ++ '>' :: r))))) _ (.chars v)).2 (.inr ⟨m0, hm, rfl⟩)
        rw [content, List.append_assoc, hr]
        simp only
        rw [ih ns sc s m w cs r ks x ha hc hl hq hw h]
        rfl
      · obtain ⟨t, ht⟩ := other_head ho
        have hl : (s ++ ("</".toList ++ (m ++ (w ++ '>' :: r)))).length < n := by
          rw [ht] at hlen; simp at hlen ⊢; omega
        have hr := (rawToken_iff e (m0 ++ (s ++ ("</".toList ++ (m ++ (w ++ '>' :: r))))) _ .other).2 ⟨m0, ho, rfl⟩
        rw [content, List.append_assoc, hr]
        simp only
        rw [ih ns sc s m w cs r ks x ha hc hl hq hw h]
        rfl
    | elem _ a s cs y ks he h =>
      cases he with
      | empty _ t n' z y l as ht hz has =>
        obtain ⟨t', ht'⟩ := tag_ne_nil ht
        have hl : (s ++ ("</".toList ++ (m ++ (w ++ '>' :: r)))).length < n := by
          rw [ht'] at hlen; simp at hlen ⊢; omega
        have hr := (rawToken_iff e (t ++ (close true ++ (s ++ ("</".toList ++ (m ++ (w ++ '>' :: r)))))) _ (.start z l true)).2 ⟨t, n', ht, rfl⟩
        have e0 : t ++ "/>".toList ++ s ++ ("</".toList ++ (m ++ (w ++ '>' :: r))) =
            t ++ (close true ++ (s ++ ("</".toList ++ (m ++ (w ++ '>' :: r))))) := by simp [close]
        have ha' := agree_declare ha l
        have hc' := clean_cons hc (tag_names ht)
        rw [content, e0, hr]
        simp only
        rw [ih ns sc s m w cs r ks x ha hc hl hq hw h, (translate_iff ha' hc' true _ _).1 hz, (attrsOf_iff ha' hc' _ _).1 has]
        rfl
      | full _ t n' b0 w0 cs0 z y l as ks0 ht hz has h0 hw0 =>
        obtain ⟨t', ht'⟩ := tag_ne_nil ht
        have hl : (s ++ ("</".toList ++ (m ++ (w ++ '>' :: r)))).length < n := by
          rw [ht'] at hlen; simp at hlen ⊢; omega
        have hl0 : (b0 ++ ("</".toList ++ (n' ++ (w0 ++ '>' :: (s ++ ("</".toList ++ (m ++ (w ++ '>' :: r)))))))).length < n := by
          rw [ht'] at hlen; simp at hlen ⊢; omega
        have hr := (rawToken_iff e (t ++ (close false ++ (b0 ++ ("</".toList ++ (n' ++ (w0 ++ '>' :: (s ++ ("</".toList ++ (m ++ (w ++ '>' :: r)))))))))) _
          (.start z l false)).2 ⟨t, n', ht, rfl⟩
        have e0 : t ++ '>' :: (b0 ++ ("</".toList ++ (n' ++ (w0 ++ ['>'])))) ++ s ++ ("</".toList ++ (m ++ (w ++ '>' :: r))) =
            t ++ (close false ++ (b0 ++ ("</".toList ++ (n' ++ (w0 ++ '>' :: (s ++ ("</".toList ++ (m ++ (w ++ '>' :: r))))))))) := by
          simp [close]
        have ha' := agree_declare ha l
        have hc' := clean_cons hc (tag_names ht)
        have hqn : QName e n' z := by obtain ⟨_, hq, _⟩ := ht; exact hq
        rw [content, e0, hr]
        simp only
        rw [ih _ _ b0 n' w0 cs0 _ ks0 z ha' hc' hl0 hqn hw0 h0]
        simp only
        rw [if_pos trivial, ih ns sc s m w cs r ks x ha hc hl hq hw h, (translate_iff ha' hc' true _ _).1 hz, (attrsOf_iff ha' hc' _ _).1 has,
          take_inner]
        rfl

theorem document_sound (e : Env) : ∀ (n : Nat) (s : Str) (x : Xml), document e n s = some x → IsDocument e s x := by
  intro n
  induction n with
  | zero => intro s x h; simp [document] at h
  | succ n ih =>
    intro s x h
    rw [document] at h
    split at h
    · simp at h
    · simp at h
    · rename_i v r0 hr
      obtain ⟨a, b, c, hs, hp, hx⟩ := ih r0 x h
      rcases (rawToken_iff e _ _ _).1 hr with ⟨t, t0, t1, t2, t3, rfl⟩ | ⟨m0, hm, rfl⟩
      · refine ⟨t ++ a, b, c, by rw [hs]; simp, .text t v a t0 t1 t2 ?_ hp, hx⟩
        intro d hd
        apply t3 d
        rw [hs]
        cases a with
        | nil => simp at hd
        | cons a0 a => simpa using hd
      · exact ⟨m0 ++ a, b, c, by rw [hs]; simp, .markup m0 v a ((markup_iff e _ _).2 (.inl hm)) hp, hx⟩
    · rename_i r0 hr
      obtain ⟨a, b, c, hs, hp, hx⟩ := ih r0 x h
      obtain ⟨m0, hm, rfl⟩ := (rawToken_iff e _ _ _).1 hr
      exact ⟨m0 ++ a, b, c, by rw [hs]; simp, .markup m0 [] a ((markup_iff e _ _).2 (.inr ⟨hm, rfl⟩)) hp, hx⟩
    · rename_i y l r0 hr
      simp at h; subst h
      obtain ⟨a, n', ht, rfl⟩ := (rawToken_iff e _ _ _).1 hr
      have ha' := agree_declare agree_nil l
      have hc' := clean_cons (e := e) (sc := []) (by intro l hl; simp at hl) (tag_names ht)
      exact ⟨[], a ++ "/>".toList, r0, by simp [close], .nil, .empty [] a n' y _ l _ ht ((translate_iff ha' hc' true _ _).2 rfl)
        ((attrsOf_iff ha' hc' _ _).2 rfl)⟩
    · rename_i y l r0 hr
      split at h
      · simp at h
      · rename_i cs0 ks0 r1 y' r2 h0
        split at h
        · rename_i hy
          subst hy
          simp at h; subst h
          obtain ⟨a, n', ht, rfl⟩ := (rawToken_iff e _ _ _).1 hr
          have ha' := agree_declare agree_nil l
          have hc' := clean_cons (e := e) (sc := []) (by intro l hl; simp at hl) (tag_names ht)
          obtain ⟨b0, m0, w0, g1, g2, g3, g4, g5⟩ := content_sound e _ _ _ r0 _ _ _ _ _ ha' hc' h0
          have hmn : n' = m0 := qname_inj (by obtain ⟨_, hq, _⟩ := ht; exact hq) g3
          subst hmn
          have hin : List.take (r0.length - r1.length) r0 = b0 := by rw [g1]; exact take_inner b0 r1
          rw [hin]
          refine ⟨[], a ++ '>' :: (b0 ++ ("</".toList ++ (n' ++ (w0 ++ ['>'])))), r2, ?_, .nil,
            .full [] a n' b0 w0 cs0 y' _ l _ ks0 ht ((translate_iff ha' hc' true _ _).2 rfl) ((attrsOf_iff ha' hc' _ _).2 rfl) g5 g4⟩
          rw [g1, g2]
          simp [close]
        · simp at h

theorem document_complete (e : Env) : ∀ (n : Nat) (a b c : Str) (x : Xml), (a ++ (b ++ c)).length < n → Prolog e a → Element e [] b x →
    document e n (a ++ (b ++ c)) = some x := by
  intro n
  induction n with
  | zero => intro a b c x h; omega
  | succ n ih =>
    intro a b c x hlen hp hx
    cases hp with
    | nil =>
      cases hx with
      | empty _ t n' z y l as ht hz has =>
        have hr := (rawToken_iff e (t ++ (close true ++ c)) _ (.start z l true)).2 ⟨t, n', ht, rfl⟩
        have e0 : [] ++ (t ++ "/>".toList ++ c) = t ++ (close true ++ c) := by simp [close]
        have ha' := agree_declare agree_nil l
        have hc' := clean_cons (e := e) (sc := []) (by intro l hl; simp at hl) (tag_names ht)
        rw [document, e0, hr]
        simp only
        rw [(translate_iff ha' hc' true _ _).1 hz, (attrsOf_iff ha' hc' _ _).1 has]
      | full _ t n' b0 w0 cs0 z y l as ks0 ht hz has h0 hw0 =>
        have hr := (rawToken_iff e (t ++ (close false ++ (b0 ++ ("</".toList ++ (n' ++ (w0 ++ '>' :: c)))))) _
          (.start z l false)).2 ⟨t, n', ht, rfl⟩
        have e0 : [] ++ (t ++ '>' :: (b0 ++ ("</".toList ++ (n' ++ (w0 ++ ['>'])))) ++ c) =
            t ++ (close false ++ (b0 ++ ("</".toList ++ (n' ++ (w0 ++ '>' :: c))))) := by
          simp [close]
        have ha' := agree_declare agree_nil l
        have hc' := clean_cons (e := e) (sc := []) (by intro l hl; simp at hl) (tag_names ht)
        have hqn : QName e n' z := by obtain ⟨_, hq, _⟩ := ht; exact hq
        rw [document, e0, hr]
        simp only
        rw [content_complete e _ _ _ b0 n' w0 cs0 _ ks0 z ha' hc' (by omega) hqn hw0 h0]
        simp only
        rw [if_pos trivial, (translate_iff ha' hc' true _ _).1 hz, (attrsOf_iff ha' hc' _ _).1 has, take_inner]
    | text t v s t0 t1 t2 t3 h =>
      have hl : (s ++ (b ++ c)).length < n := by
        have : 0 < t.length := List.length_pos_iff.2 t0
        simp at hlen ⊢; omega
      have hb : ∃ b', b = '<' :: b' := by
        cases hx with
        | empty _ t n' z y l as ht => obtain ⟨t', rfl⟩ := tag_ne_nil ht; exact ⟨_, rfl⟩
        | full _ t n' b0 w0 cs0 z y l as ks0 ht => obtain ⟨t', rfl⟩ := tag_ne_nil ht; exact ⟨_, rfl⟩
      have hr := (rawToken_iff e (t ++ (s ++ (b ++ c))) _ (.chars v)).2 (.inl ⟨t, t0, t1, t2, by
        intro d hd
        cases s with
        | nil => obtain ⟨b', rfl⟩ := hb; simp at hd; exact hd.symm
        | cons s0 s => exact t3 d (by simpa using hd), rfl⟩)
      rw [document, List.append_assoc, hr]
      exact ih s b c x hl h hx
    | markup m0 v s hm h =>
      rcases (markup_iff e _ _).1 hm with hm | ⟨ho, rfl⟩
      · obtain ⟨t, ht⟩ := cdata_head hm
        have hl : (s ++ (b ++ c)).length < n := by rw [ht] at hlen; simp at hlen ⊢; omega
        have hr := (rawToken_iff e (m0 ++ (s ++ (b ++ c))) _ (.chars v)).2 (.inr ⟨m0, hm, rfl⟩)
        rw [document, List.append_assoc, hr]
        exact ih s b c x hl h hx
      · obtain ⟨t, ht⟩ := other_head ho
        have hl : (s ++ (b ++ c)).length < n := by rw [ht] at hlen; simp at hlen ⊢; omega
        have hr := (rawToken_iff e (m0 ++ (s ++ (b ++ c))) _ .other).2 ⟨m0, ho, rfl⟩
        rw [document, List.append_assoc, hr]
        exact ih s b c x hl h hx

theorem parse_iff (e : Env) (s : Str) (x : Xml) : parse e s = some x ↔ IsDocument e s x := by
  constructor
  · exact document_sound e _ s x
  · rintro ⟨a, b, c, rfl, hp, hx⟩
    exact document_complete e _ a b c x (by omega) hp hx

end Telefacts.XmlText
