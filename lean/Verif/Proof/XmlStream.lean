import Verif.Proof.XmlTree
/-! # Proofs about encoding/xml: the stream of tokens -/
namespace Telefacts.XmlText
open Telefacts.Instance (Tok Stream)

theorem raw_lt {e : Env} {s r : Str} {tok : Raw} (h : rawToken e s = some (tok, r)) : r.length < s.length := by
  have h := (rawToken_iff e s r tok).1 h
  cases tok with
  | start x l c =>
    obtain ⟨a, n, ht, rfl⟩ := h
    obtain ⟨t, rfl⟩ := tag_ne_nil ht
    simp; omega
  | stop x => obtain ⟨n, w, _, _, rfl⟩ := h; simp; omega
  | chars v =>
    rcases h with ⟨t, t0, _, _, _, rfl⟩ | ⟨m, hm, rfl⟩
    · have := List.length_pos_iff.2 t0; simp; omega
    · obtain ⟨t, rfl⟩ := cdata_head hm; simp; omega
  | other =>
    obtain ⟨m, hm, rfl⟩ := h
    obtain ⟨t, rfl⟩ := other_head hm; simp; omega

theorem stream_fuel (e : Env) : ∀ (n m : Nat) (ns : GoMap String String) (st : List (XName × GoMap String String)) (s : Str),
    s.length < n → s.length < m → stream e n ns st s = stream e m ns st s := by
  intro n
  induction n with
  | zero => intro m ns st s h; omega
  | succ n ih =>
    intro m ns st s h1 h2
    cases m with
    | zero => omega
    | succ m =>
      cases s with
      | nil => rfl
      | cons c s =>
        rw [stream, stream]
        · have ih' : ∀ {tok r}, rawToken e (c :: s) = some (tok, r) → ∀ ns st, stream e n ns st r = stream e m ns st r := by
            intro tok r hr ns st
            have := raw_lt hr
            exact ih m ns st r (by omega) (by omega)
          cases hr : rawToken e (c :: s) with
          | none => rfl
          | some p =>
            obtain ⟨tok, r⟩ := p
            cases tok with
            | start x l b => cases b <;> simp only [ih' hr]
            | stop x => cases st with
              | nil => rfl
              | cons q st => simp only [ih' hr]
            | chars v => simp only [ih' hr]
            | other => simp only [ih' hr]
        · simp
        · simp

theorem other_not_cdata {e : Env} {m : Str} (h : Other e m) : ¬ "<![".toList <+: m := by
  intro hp
  cases h with
  | comment s => simp at hp
  | inst n w d => simp at hp
  | decl c s _ hc => simp at hp; exact hc hp.symm

theorem other_of_markup {e : Env} {m : Str} (h : Markup e m []) (hn : ¬ "<![".toList <+: m) : Other e m := by
  rcases (markup_iff e _ _).1 h with ⟨s, rfl, _⟩ | ⟨h, _⟩
  · exact absurd (by simp) hn
  · exact h

/-- More tokens in front. -/
def more (ts : List Tok) (t : Stream) : Stream := ⟨ts ++ t.toks, t.eof⟩

theorem stream_complete {e : Env} {sc : Scope} {b : Str} {ts : List Tok} (h : Tokens e sc b ts) :
    ∀ (n m : Nat) (ns : GoMap String String) (st : List (XName × GoMap String String)) (rest : Str), Agree ns sc → Clean e sc →
      (∀ c, rest.head? = some c → c = '<') → (b ++ rest).length < n → rest.length < m →
      stream e n ns st (b ++ rest) = more ts (stream e m ns st rest) := by
  have step : ∀ {n : Nat} {s r : Str} {tok : Raw} (ns : GoMap String String) (st : List (XName × GoMap String String)), rawToken e s = some (tok, r) → s.length < n + 1 →
      r.length < n ∧ s ≠ [] := by
    intro n s r tok ns st hr hn
    have := raw_lt hr
    exact ⟨by omega, by rintro rfl; simp at this⟩
  induction h with
  | nil sc => intro n m ns st rest _ _ _ h1 h2; simp only [List.nil_append] at h1 ⊢; rw [stream_fuel e n m _ _ _ h1 h2]; rfl
  | text sc t v s ts t0 t1 t2 t3 _ ih =>
    intro n m ns st rest ha hc hh h1 h2
    cases n with
    | zero => omega
    | succ n =>
      have hr := (rawToken_iff e (t ++ (s ++ rest)) _ (.chars v)).2 (.inl ⟨t, t0, t1, t2, by
        intro d hd
        cases s with
        | nil => exact hh d (by simpa using hd)
        | cons s0 s => exact t3 d (by simpa using hd), rfl⟩)
      rw [List.append_assoc] at h1 ⊢
      obtain ⟨hl, hne⟩ := step ns st hr h1
      rw [stream, hr]
      · simp only
        rw [ih n m ns st rest ha hc hh hl h2]
        rfl
      · exact hne
  | cdata sc t v s ts t1 t2 _ ih =>
    intro n m ns st rest ha hc hh h1 h2
    cases n with
    | zero => omega
    | succ n =>
      have hr := (rawToken_iff e ("<![CDATA[".toList ++ t ++ "]]>".toList ++ (s ++ rest)) _ (.chars v)).2 (.inr ⟨_, ⟨t, rfl, t1, t2⟩, rfl⟩)
      rw [List.append_assoc] at h1 ⊢
      obtain ⟨hl, hne⟩ := step ns st hr h1
      rw [stream, hr]
      · simp only
        rw [ih n m ns st rest ha hc hh hl h2]
        rfl
      · exact hne
  | markup sc m0 s ts hm hn _ ih =>
    intro n m ns st rest ha hc hh h1 h2
    cases n with
    | zero => omega
    | succ n =>
      have hr := (rawToken_iff e (m0 ++ (s ++ rest)) _ .other).2 ⟨_, other_of_markup hm hn, rfl⟩
      rw [List.append_assoc] at h1 ⊢
      obtain ⟨hl, hne⟩ := step ns st hr h1
      rw [stream, hr]
      · simp only
        rw [ih n m ns st rest ha hc hh hl h2]
        rfl
      · exact hne
  | empty sc t n' s z y l ts ht hz _ ih =>
    intro n m ns st rest ha hc hh h1 h2
    cases n with
    | zero => omega
    | succ n =>
      have hr := (rawToken_iff e (t ++ (close true ++ (s ++ rest))) _ (.start z l true)).2 ⟨_, n', ht, rfl⟩
      have e0 : t ++ "/>".toList ++ s ++ rest = t ++ (close true ++ (s ++ rest)) := by simp [close]
      rw [e0] at h1 ⊢
      obtain ⟨hl, hne⟩ := step ns st hr h1
      rw [stream, hr]
      · simp only
        rw [ih n m ns st rest ha hc hh hl h2, (translate_iff (agree_declare ha l) (clean_cons hc (tag_names ht)) true _ _).1 hz]
        rfl
      · exact hne
  | full sc t n' b w s z y l ts ts' ht hz _ hw _ ih ih' =>
    intro n m ns st rest ha hc hh h1 h2
    cases n with
    | zero => omega
    | succ n =>
      have hr := (rawToken_iff e (t ++ (close false ++ (b ++ ("</".toList ++ (n' ++ (w ++ '>' :: (s ++ rest))))))) _
        (.start z l false)).2 ⟨_, n', ht, rfl⟩
      have e0 : t ++ '>' :: (b ++ ("</".toList ++ (n' ++ (w ++ ['>'])))) ++ s ++ rest =
          t ++ (close false ++ (b ++ ("</".toList ++ (n' ++ (w ++ '>' :: (s ++ rest)))))) := by simp [close]
      rw [e0] at h1 ⊢
      obtain ⟨hl, hne⟩ := step ns st hr h1
      have ha' := agree_declare ha l
      have hc' := clean_cons hc (tag_names ht)
      have hqn : QName e n' z := by obtain ⟨_, hq, _⟩ := ht; exact hq
      have hr2 := (rawToken_iff e ("</".toList ++ (n' ++ (w ++ '>' :: (s ++ rest)))) _ (.stop z)).2 ⟨n', w, hqn, hw, rfl⟩
      rw [stream, hr]
      · simp only
        rw [ih n (("</".toList ++ (n' ++ (w ++ '>' :: (s ++ rest)))).length + 1) (declare ns l) ((z, ns) :: st) _ ha' hc' (by simp) hl (by omega)]
        rw [stream, hr2]
        · simp only
          rw [if_pos trivial, ih' _ m ns st rest ha hc hh (raw_lt hr2) h2, (translate_iff ha' hc' true _ _).1 hz]
          simp [more]
        · simp
      · exact hne

/-- What is left closes all open elements. -/
def Closes (e : Env) : List (XName × GoMap String String) → Scope → Str → List Tok → Prop
  | [], sc, s, ts => sc = [] ∧ Tokens e sc s ts
  | (x, ns) :: st, sc, s, ts => ∃ l sc' b m w r y ts1 ts2, sc = l :: sc' ∧ Agree ns sc' ∧ Clean e sc' ∧
      s = b ++ ("</".toList ++ (m ++ (w ++ '>' :: r))) ∧ QName e m x ∧ White w ∧ Tokens e sc b ts1 ∧ Resolved sc true x y ∧
      Closes e st sc' r ts2 ∧ ts = ts1 ++ .stop y :: ts2

theorem closes_prefix {e : Env} {st : List (XName × GoMap String String)} {sc : Scope} {s p : Str} {ts ts0 : List Tok}
    (h : Closes e st sc s ts)
    (hp : ∀ b ts, Tokens e sc b ts → ((∀ c, s.head? = some c → c = '<') → ∀ c, b.head? = some c → c = '<') → Tokens e sc (p ++ b) (ts0 ++ ts)) :
    Closes e st sc (p ++ s) (ts0 ++ ts) := by
  cases st with
  | nil => exact ⟨h.1, hp _ _ h.2 id⟩
  | cons q st =>
    obtain ⟨x, ns⟩ := q
    obtain ⟨l, sc', b, m, w, r, y, ts1, ts2, h1, h2, h3, h4, h5, h6, h7, h8, h9, h10⟩ := h
    refine ⟨l, sc', p ++ b, m, w, r, y, ts0 ++ ts1, ts2, h1, h2, h3, by rw [h4]; simp, h5, h6, ?_, h8, h9, by rw [h10]; simp⟩
    apply hp _ _ h7
    intro hh c hc
    apply hh
    rw [h4]
    cases b with
    | nil => simp at hc
    | cons b0 b => simpa using hc

/-- The name spaces outside. -/
def Frames (e : Env) : List (XName × GoMap String String) → Scope → Prop
  | [], sc => sc = []
  | (_, ns) :: st, sc => ∃ l sc', sc = l :: sc' ∧ Agree ns sc' ∧ Clean e sc' ∧ Frames e st sc'

theorem stream_sound (e : Env) : ∀ (n : Nat) (ns : GoMap String String) (sc : Scope) (st : List (XName × GoMap String String)) (s : Str) (ts : List Tok),
    Agree ns sc → Clean e sc → Frames e st sc → stream e n ns st s = ⟨ts, true⟩ → Closes e st sc s ts := by
  intro n
  induction n with
  | zero => intro ns sc st s ts _ _ _ h; simp [stream] at h
  | succ n ih =>
    intro ns sc st s ts ha hc hf h
    cases s with
    | nil =>
      rw [stream] at h
      simp only [Stream.mk.injEq, List.isEmpty_iff] at h
      obtain ⟨rfl, rfl⟩ := h
      have : sc = [] := hf
      subst this
      exact ⟨rfl, .nil []⟩
    | cons c s =>
      rw [stream] at h
      · cases hr : rawToken e (c :: s) with
        | none => rw [hr] at h; simp at h
        | some p =>
          obtain ⟨tok, r⟩ := p
          rw [hr] at h
          have hraw := (rawToken_iff e _ _ _).1 hr
          cases tok with
          | chars v =>
            simp only [Stream.mk.injEq] at h
            obtain ⟨rfl, he⟩ := h
            have := ih ns sc st r _ ha hc hf (by rw [← he])
            rcases hraw with ⟨t, t0, t1, t2, t3, hs⟩ | ⟨m0, ⟨t, rfl, t1, t2⟩, hs⟩
            · rw [hs]
              exact closes_prefix (ts0 := [_]) this (fun b ts hb hh => .text sc t v b ts t0 t1 t2 (hh t3) hb)
            · rw [hs]
              exact closes_prefix (ts0 := [_]) this (fun b ts hb _ => .cdata sc t v b ts t1 t2 hb)
          | other =>
            simp only [Stream.mk.injEq] at h
            obtain ⟨rfl, he⟩ := h
            have := ih ns sc st r _ ha hc hf (by rw [← he])
            obtain ⟨m0, hm, hs⟩ := hraw
            rw [hs]
            exact closes_prefix (ts0 := [_]) this (fun b ts hb _ => .markup sc m0 b ts ((markup_iff e _ _).2 (.inr ⟨hm, rfl⟩)) (other_not_cdata hm) hb)
          | start x l closed =>
            obtain ⟨a, n', ht, hs⟩ := hraw
            have ha' := agree_declare ha l
            have hc' := clean_cons hc (tag_names ht)
            have hz := (translate_iff ha' hc' true x _).2 rfl
            cases closed with
            | true =>
              simp only [Stream.mk.injEq] at h
              obtain ⟨rfl, he⟩ := h
              have := ih ns sc st r _ ha hc hf (by rw [← he])
              rw [hs, ← List.append_assoc]
              exact closes_prefix (ts0 := [_, _]) this (fun b ts hb _ => .empty sc a n' b x _ l ts ht hz hb)
            | false =>
              simp only [Stream.mk.injEq] at h
              obtain ⟨rfl, he⟩ := h
              obtain ⟨l', sc', b, m, w, r', y, ts1, ts2, h1, h2, h3, h4, h5, h6, h7, h8, h9, h10⟩ :=
                ih (declare ns l) (l :: sc) ((x, ns) :: st) r _ ha' hc' ⟨l, sc, rfl, ha, hc, hf⟩ (by rw [← he])
              simp only [List.cons.injEq] at h1
              obtain ⟨rfl, rfl⟩ := h1
              have hmn : n' = m := qname_inj (by obtain ⟨_, hq, _⟩ := ht; exact hq) h5
              subst hmn
              have hy := (translate_iff ha' hc' true _ _).1 h8
              subst hy
              have e1 : c :: s = (a ++ '>' :: (b ++ ("</".toList ++ (n' ++ (w ++ ['>']))))) ++ r' := by rw [hs, h4]; simp [close]
              rw [e1, h10]
              have := closes_prefix (p := a ++ '>' :: (b ++ ("</".toList ++ (n' ++ (w ++ ['>'])))))
                (ts0 := .start (translate (declare ns l) true x) :: (ts1 ++ [.stop (translate (declare ns l) true x)])) h9
                (fun b' ts hb _ => by
                  have := Tokens.full sc a n' b w b' x _ l ts1 ts ht hz h7 h6 hb
                  simpa using this)
              simpa using this
          | stop x =>
            cases st with
            | nil => simp at h
            | cons q st =>
              obtain ⟨y, ns'⟩ := q
              simp only at h
              split at h
              · rename_i hxy
                subst hxy
                simp only [Stream.mk.injEq] at h
                obtain ⟨rfl, he⟩ := h
                obtain ⟨l, sc', rfl, ha', hc', hf'⟩ := hf
                have := ih ns' sc' st r _ ha' hc' hf' (by rw [← he])
                obtain ⟨m, w, hq, hw, hs⟩ := hraw
                exact ⟨l, sc', [], m, w, r, _, [], _, rfl, ha', hc', by simpa using hs, hq, hw, .nil _, (translate_iff ha hc true _ _).2 rfl, this, rfl⟩
              · simp at h
      · simp

theorem clean_nil (e : Env) : Clean e [] := by intro l hl; simp at hl

/-- The tokens are those of the text, if it is content. -/
theorem tokens_iff (e : Env) (inner : String) (ts : List Tok) : tokens e inner = ⟨ts, true⟩ ↔ Tokens e [] inner.toList ts := by
  constructor
  · intro h
    exact (stream_sound e _ [] [] [] _ _ agree_nil (clean_nil e) rfl h).2
  · intro h
    have := stream_complete h (inner.length + 1) 1 [] [] [] agree_nil (clean_nil e) (by simp) (by rw [List.append_nil, String.length_toList]; omega) (by simp)
    rw [List.append_nil] at this
    rw [tokens, this]
    simp [stream, more]

/-! ## Content has tokens -/

theorem resolved_exists {e : Env} {ns : GoMap String String} {sc : Scope} (ha : Agree ns sc) (hc : Clean e sc) (elem : Bool) (x : XName) :
    ∃ y, Resolved sc elem x y := ⟨_, (translate_iff ha hc elem x _).2 rfl⟩

theorem tokens_of_content (e : Env) : ∀ (n : Nat) (ns : GoMap String String) (sc sc' : Scope) (s cs : Str) (ks : List Xml),
    s.length < n → Agree ns sc' → Clean e sc' → Content e sc s cs ks → ∃ ts, Tokens e sc' s ts := by
  intro n
  induction n with
  | zero => intro ns sc sc' s cs ks h; omega
  | succ n ih =>
    intro ns sc sc' s cs ks hl ha hc h
    cases h with
    | nil => exact ⟨[], .nil _⟩
    | text _ t v s cs ks t0 t1 t2 t3 h =>
      have : 0 < t.length := List.length_pos_iff.2 t0
      obtain ⟨ts, hts⟩ := ih ns sc sc' s cs ks (by simp at hl; omega) ha hc h
      exact ⟨_, .text _ t v s ts t0 t1 t2 t3 hts⟩
    | markup _ m0 v s cs ks hm h =>
      rcases (markup_iff e _ _).1 hm with hd | ⟨ho, rfl⟩
      · obtain ⟨t, ht⟩ := cdata_head hd
        obtain ⟨ts, hts⟩ := ih ns sc sc' s cs ks (by rw [ht] at hl; simp at hl; omega) ha hc h
        obtain ⟨t, rfl, t1, t2⟩ := hd
        exact ⟨_, .cdata _ t v s ts t1 t2 hts⟩
      · obtain ⟨t, ht⟩ := other_head ho
        obtain ⟨ts, hts⟩ := ih ns sc sc' s cs ks (by rw [ht] at hl; simp at hl; omega) ha hc h
        exact ⟨_, .markup _ m0 s ts hm (other_not_cdata ho) hts⟩
    | elem _ a s cs y ks he h =>
      cases he with
      | empty _ t n' z y l as ht hz has =>
        obtain ⟨t', ht'⟩ := tag_ne_nil ht
        obtain ⟨ts, hts⟩ := ih ns sc sc' s cs ks (by rw [ht'] at hl; simp at hl; omega) ha hc h
        obtain ⟨y', hy'⟩ := resolved_exists (agree_declare ha l) (clean_cons hc (tag_names ht)) true z
        exact ⟨_, .empty _ t n' s z y' l ts ht hy' hts⟩
      | full _ t n' b0 w0 cs0 z y l as ks0 ht hz has h0 hw0 =>
        obtain ⟨t', ht'⟩ := tag_ne_nil ht
        obtain ⟨ts, hts⟩ := ih ns sc sc' s cs ks (by rw [ht'] at hl; simp at hl; omega) ha hc h
        have ha' := agree_declare ha l
        have hc' := clean_cons hc (tag_names ht)
        obtain ⟨ts0, hts0⟩ := ih (declare ns l) (l :: sc) (l :: sc') b0 cs0 ks0 (by rw [ht'] at hl; simp at hl; omega) ha' hc' h0
        obtain ⟨y', hy'⟩ := resolved_exists ha' hc' true z
        exact ⟨_, .full _ t n' b0 w0 s z y' l ts0 ts ht hy' hts0 hw0 hts⟩

theorem content_of_tokens {e : Env} {sc : Scope} {s : Str} {ts : List Tok} (h : Tokens e sc s ts) :
    ∀ (ns : GoMap String String) (sc' : Scope), Agree ns sc' → Clean e sc' → ∃ cs ks, Content e sc' s cs ks := by
  induction h with
  | nil sc => intro ns sc' _ _; exact ⟨_, _, .nil _⟩
  | text sc t v s ts t0 t1 t2 t3 _ ih => intro ns sc' ha hc; obtain ⟨cs, ks, h⟩ := ih ns sc' ha hc; exact ⟨_, _, .text _ t v s cs ks t0 t1 t2 t3 h⟩
  | cdata sc t v s ts t1 t2 _ ih => intro ns sc' ha hc; obtain ⟨cs, ks, h⟩ := ih ns sc' ha hc; exact ⟨_, _, .markup _ _ v s cs ks (.cdata t v t1 t2) h⟩
  | markup sc m0 s ts hm hn _ ih => intro ns sc' ha hc; obtain ⟨cs, ks, h⟩ := ih ns sc' ha hc; exact ⟨_, _, .markup _ _ _ s cs ks hm h⟩
  | empty sc t n' s z y l ts ht hz _ ih =>
    intro ns sc' ha hc; obtain ⟨cs, ks, h⟩ := ih ns sc' ha hc
    have ha' := agree_declare ha l
    have hc' := clean_cons hc (tag_names ht)
    exact ⟨_, _, .elem _ _ s cs _ ks (.empty _ t n' z _ l _ ht ((translate_iff ha' hc' true _ _).2 rfl) ((attrsOf_iff ha' hc' _ _).2 rfl)) h⟩
  | full sc t n' b w s z y l ts ts' ht hz _ hw _ ih ih' =>
    intro ns sc' ha hc; obtain ⟨cs, ks, h⟩ := ih' ns sc' ha hc
    have ha' := agree_declare ha l
    have hc' := clean_cons hc (tag_names ht)
    obtain ⟨cs0, ks0, h0⟩ := ih _ _ ha' hc'
    exact ⟨_, _, .elem _ _ s cs _ ks (.full _ t n' b w cs0 z _ l _ ks0 ht ((translate_iff ha' hc' true _ _).2 rfl) ((attrsOf_iff ha' hc' _ _).2 rfl) h0 hw) h⟩

theorem tokens_eof (e : Env) (inner : String) : (tokens e inner).eof = true ↔ ∃ cs ks, Content e [] inner.toList cs ks := by
  constructor
  · intro h
    have h' := (tokens_iff e inner (tokens e inner).toks).1 (by rw [← h])
    exact content_of_tokens h' [] [] agree_nil (clean_nil e)
  · rintro ⟨cs, ks, h⟩
    obtain ⟨ts, hts⟩ := tokens_of_content e _ [] [] [] _ cs ks (Nat.lt_succ_self _) agree_nil (clean_nil e) h
    rw [(tokens_iff e inner ts).2 hts]

end Telefacts.XmlText
