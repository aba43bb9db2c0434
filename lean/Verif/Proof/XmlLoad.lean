import Verif.Proof.XmlStream
import Verif.Props.EndToEnd
/-! # Proofs: what loading makes of XML texts -/
namespace Telefacts.XmlText
open Telefacts.Instance Telefacts.Hydrate Telefacts.Decode

/-! ## Elements inside a document -/

/-- The element is written as an element. -/
def Good (e : Env) (x : Xml) : Prop := ∃ sc cs, Content e sc x.inner.toList cs x.kids ∧ x.chars = String.ofList cs

theorem good_kids (e : Env) : ∀ (n : Nat) (sc : Scope) (s cs : Str) (ks : List Xml), s.length < n → Content e sc s cs ks →
    ∀ k ∈ ks, ∃ sc a, Element e sc a k ∧ a.length ≤ s.length := by
  intro n
  induction n with
  | zero => intro sc s cs ks h; omega
  | succ n ih =>
    intro sc s cs ks hl h k hk
    cases h with
    | nil => simp at hk
    | text _ t v s cs ks t0 t1 t2 t3 h =>
      have : 0 < t.length := List.length_pos_iff.2 t0
      obtain ⟨sc', a, h1, h2⟩ := ih sc s cs ks (by simp at hl; omega) h k hk
      exact ⟨sc', a, h1, by simp; omega⟩
    | markup _ m0 v s cs ks hm h =>
      have : 0 < m0.length := by
        rcases (markup_iff e _ _).1 hm with hd | ⟨ho, _⟩
        · obtain ⟨t, rfl⟩ := cdata_head hd; simp
        · obtain ⟨t, rfl⟩ := other_head ho; simp
      obtain ⟨sc', a, h1, h2⟩ := ih sc s cs ks (by simp at hl; omega) h k hk
      exact ⟨sc', a, h1, by simp; omega⟩
    | elem _ a s cs y ks he h =>
      rcases List.mem_cons.1 hk with rfl | hk
      · exact ⟨sc, a, he, by simp⟩
      · have : 0 < a.length := by
          cases he with
          | empty _ t n' z y l as ht => obtain ⟨t', rfl⟩ := tag_ne_nil ht; simp
          | full _ t n' b0 w0 cs0 z y l as ks0 ht => obtain ⟨t', rfl⟩ := tag_ne_nil ht; simp
        obtain ⟨sc', a', h1, h2⟩ := ih sc s cs ks (by simp at hl; omega) h k hk
        exact ⟨sc', a', h1, by simp; omega⟩

theorem good_of_element {e : Env} {sc : Scope} {a : Str} {x : Xml} (h : Element e sc a x) : Good e x := by
  cases h with
  | empty => exact ⟨[], [], .nil _, rfl⟩
  | full _ t n' b0 w0 cs0 z y l as ks0 ht hz has h0 => exact ⟨l :: sc, cs0, by simpa [Xml.inner, Xml.kids] using h0, rfl⟩

theorem element_within {e : Env} {x y : Xml} (h : Within x y) : ∀ {sc : Scope} {a : Str}, Element e sc a x → ∃ sc' a', Element e sc' a' y := by
  induction h with
  | self x => intro sc a h; exact ⟨sc, a, h⟩
  | kid x k y hk _ ih =>
    intro sc a h
    obtain ⟨sc', cs, hc, _⟩ := good_of_element h
    obtain ⟨sc'', a', h', _⟩ := good_kids e _ _ _ _ _ (Nat.lt_succ_self _) hc k hk
    exact ih h'

theorem good_within {e : Env} {s : Str} {x y : Xml} (hp : IsDocument e s x) (h : Within x y) : Good e y := by
  obtain ⟨a, b, c, _, _, hx⟩ := hp
  obtain ⟨sc, a', h'⟩ := element_within h hx
  exact good_of_element h'

theorem kid_infix {e : Env} : ∀ (n : Nat) (sc : Scope) (s cs : Str) (ks : List Xml), s.length < n → Content e sc s cs ks →
    ∀ k ∈ ks, ∃ sc a, Element e sc a k ∧ a <:+: s := by
  intro n
  induction n with
  | zero => intro sc s cs ks h; omega
  | succ n ih =>
    intro sc s cs ks hl h k hk
    cases h with
    | nil => simp at hk
    | text _ t v s cs ks t0 t1 t2 t3 h =>
      have : 0 < t.length := List.length_pos_iff.2 t0
      obtain ⟨sc', a, h1, h2⟩ := ih sc s cs ks (by simp at hl; omega) h k hk
      exact ⟨sc', a, h1, h2.trans ⟨t, [], by simp⟩⟩
    | markup _ m0 v s cs ks hm h =>
      have : 0 < m0.length := by
        rcases (markup_iff e _ _).1 hm with hd | ⟨ho, _⟩
        · obtain ⟨t, rfl⟩ := cdata_head hd; simp
        · obtain ⟨t, rfl⟩ := other_head ho; simp
      obtain ⟨sc', a, h1, h2⟩ := ih sc s cs ks (by simp at hl; omega) h k hk
      exact ⟨sc', a, h1, h2.trans ⟨m0, [], by simp⟩⟩
    | elem _ a s cs y ks he h =>
      rcases List.mem_cons.1 hk with rfl | hk
      · exact ⟨sc, a, he, ⟨[], s, by simp⟩⟩
      · have : 0 < a.length := by
          cases he with
          | empty _ t n' z y l as ht => obtain ⟨t', rfl⟩ := tag_ne_nil ht; simp
          | full _ t n' b0 w0 cs0 z y l as ks0 ht => obtain ⟨t', rfl⟩ := tag_ne_nil ht; simp
        obtain ⟨sc', a', h1, h2⟩ := ih sc s cs ks (by simp at hl; omega) h k hk
        exact ⟨sc', a', h1, h2.trans ⟨a, [], by simp⟩⟩

theorem inner_infix {e : Env} {sc : Scope} {a : Str} {x : Xml} (h : Element e sc a x) : x.inner.toList <:+: a := by
  cases h with
  | empty => exact List.nil_infix
  | full _ t n' b0 w0 cs0 z y l as ks0 ht hz has h0 =>
    exact ⟨t ++ ['>'], "</".toList ++ (n' ++ (w0 ++ ['>'])), by simp [Xml.inner]⟩

theorem within_infix {e : Env} {x y : Xml} (h : Within x y) : ∀ {sc : Scope} {a : Str}, Element e sc a x → y.inner.toList <:+: a := by
  induction h with
  | self x => intro sc a h; exact inner_infix h
  | kid x k y hk _ ih =>
    intro sc a h
    obtain ⟨sc', cs, hc, _⟩ := good_of_element h
    obtain ⟨sc'', a', h', hi⟩ := kid_infix _ _ _ _ _ (Nat.lt_succ_self _) hc k hk
    exact (ih h').trans (hi.trans (inner_infix h))

/-- The source text of an element is part of the document. -/
theorem document_infix {e : Env} {s : Str} {x y : Xml} (hp : IsDocument e s x) (h : Within x y) : y.inner.toList <:+: s := by
  obtain ⟨a, b, c, rfl, _, hx⟩ := hp
  exact (within_infix h hx).trans ⟨a, c, by simp⟩

/-! ## Text and value -/

theorem pieces_length {s v : Str} (h : Pieces none s v) : v.length ≤ s.length ∧ (v = s → '<' ∉ s ∧ '&' ∉ s ∧ '\r' ∉ s) := by
  induction h with
  | nil => simp
  | char c s v h1 h2 h3 h4 h5 _ ih =>
    refine ⟨by simp; exact ih.1, fun he => ?_⟩
    simp only [List.cons.injEq, true_and] at he
    obtain ⟨i1, i2, i3⟩ := ih.2 he
    simp only [List.mem_cons, not_or]
    exact ⟨⟨h1.symm, i1⟩, ⟨h2.symm, i2⟩, h3.symm, i3⟩
  | crlf s v _ ih =>
    refine ⟨by simp; omega, fun he => ?_⟩
    simp at he
  | cr s v h _ ih =>
    refine ⟨by simp; exact ih.1, fun he => ?_⟩
    simp at he
  | ref a c s v ha hx _ ih =>
    have hl : 1 < a.length := by cases ha <;> simp
    refine ⟨by simp; omega, fun he => ?_⟩
    have := congrArg List.length he
    simp at this
    omega

theorem lines_length {s v : Str} (h : Lines s v) : v.length ≤ s.length := by
  induction h with
  | nil => simp
  | char c s v h1 h2 _ ih => simp; exact ih
  | crlf s v _ ih => simp; omega
  | cr s v h _ ih => simp; exact ih

theorem markup_length {e : Env} {m v : Str} (h : Markup e m v) : v.length < m.length := by
  cases h with
  | cdata s v _ h => have := lines_length h; simp; omega
  | comment s => simp
  | inst n w d => simp
  | decl c s => simp

theorem content_length (e : Env) : ∀ (n : Nat) (sc : Scope) (s cs : Str) (ks : List Xml), s.length < n → Content e sc s cs ks →
    cs.length ≤ s.length ∧ (cs = s → '<' ∉ s ∧ '&' ∉ s ∧ '\r' ∉ s) := by
  intro n
  induction n with
  | zero => intro sc s cs ks h; omega
  | succ n ih =>
    intro sc s cs ks hl h
    cases h with
    | nil => simp
    | text _ t v s cs ks t0 t1 t2 t3 h =>
      have : 0 < t.length := List.length_pos_iff.2 t0
      obtain ⟨i1, i2⟩ := ih sc s cs ks (by simp at hl; omega) h
      obtain ⟨p1, p2⟩ := pieces_length t1
      refine ⟨by simp; omega, fun he => ?_⟩
      have hlen := congrArg List.length he
      simp at hlen
      obtain ⟨e1, e2⟩ := List.append_inj he (by omega)
      obtain ⟨a1, a2, a3⟩ := p2 e1
      obtain ⟨b1, b2, b3⟩ := i2 e2
      simp [a1, a2, a3, b1, b2, b3]
    | markup _ m0 v s cs ks hm h =>
      have hm' := markup_length hm
      obtain ⟨i1, i2⟩ := ih sc s cs ks (by simp at hl; omega) h
      refine ⟨by simp; omega, fun he => ?_⟩
      have hlen := congrArg List.length he
      simp at hlen; omega
    | elem _ a s cs y ks he h =>
      have : 0 < a.length := by
        cases he with
        | empty _ t n' z y l as ht => obtain ⟨t', rfl⟩ := tag_ne_nil ht; simp
        | full _ t n' b0 w0 cs0 z y l as ks0 ht => obtain ⟨t', rfl⟩ := tag_ne_nil ht; simp
      obtain ⟨i1, i2⟩ := ih sc s cs ks (by simp at hl; omega) h
      refine ⟨by simp; omega, fun he => ?_⟩
      have hlen := congrArg List.length he
      simp at hlen; omega

theorem element_pos {e : Env} {sc : Scope} {a : Str} {x : Xml} (h : Element e sc a x) : 0 < a.length := by
  cases h with
  | empty _ t n' z y l as ht => obtain ⟨t', rfl⟩ := tag_ne_nil ht; simp
  | full _ t n' b0 w0 cs0 z y l as ks0 ht => obtain ⟨t', rfl⟩ := tag_ne_nil ht; simp

theorem content_nil {e : Env} {sc : Scope} {cs : Str} {ks : List Xml} (h : Content e sc [] cs ks) : cs = [] ∧ ks = [] := by
  refine ⟨by simpa using (content_length e _ _ _ _ _ (Nat.lt_succ_self _) h).1, ?_⟩
  cases ks with
  | nil => rfl
  | cons k ks =>
    obtain ⟨_, a, h1, h2⟩ := good_kids e _ _ _ _ _ (Nat.lt_succ_self _) h k (by simp)
    have := element_pos h1
    simp at h2
    simp [h2] at this

theorem content_plain {e : Env} {sc : Scope} {s cs : Str} {ks : List Xml} (h : Content e sc s cs ks) (h1 : '<' ∉ s) (h2 : '&' ∉ s) (h3 : '\r' ∉ s) :
    cs = s ∧ ks = [] := by
  have pp : ∀ {s v : Str}, Pieces none s v → '&' ∉ s → '\r' ∉ s → v = s := by
    intro s v h
    induction h with
    | nil => simp
    | char c s v _ _ _ _ _ _ ih => intro g1 g2; simp at g1 g2; rw [ih g1.2 g2.2]
    | crlf s v _ ih => intro _ g2; simp at g2
    | cr s v _ _ ih => intro _ g2; simp at g2
    | ref a c s v ha _ _ ih =>
      intro g1 _
      exfalso; apply g1
      cases ha <;> simp
  cases h with
  | nil => simp
  | text _ t v s cs ks t0 t1 t2 t3 h =>
    have hv := pp t1 (by simp at h2; exact h2.1) (by simp at h3; exact h3.1)
    cases s with
    | nil => obtain ⟨rfl, rfl⟩ := content_nil h; simp [hv]
    | cons c s =>
      have := t3 c rfl
      subst this
      simp at h1
  | markup _ m v s cs ks hm =>
    exfalso; apply h1
    rcases (markup_iff e _ _).1 hm with hd | ⟨ho, _⟩
    · obtain ⟨t, rfl⟩ := cdata_head hd; simp
    · obtain ⟨t, rfl⟩ := other_head ho; simp
  | elem _ a s cs y ks hel =>
    exfalso; apply h1
    cases hel with
    | empty _ t n' z y l as ht => obtain ⟨t', rfl⟩ := tag_ne_nil ht; simp
    | full _ t n' b0 w0 cs0 z y l as ks0 ht => obtain ⟨t', rfl⟩ := tag_ne_nil ht; simp

theorem kids_lt {e : Env} {s : Str} : ∀ {sc : Scope} {cs : Str} {k : Xml} {ks : List Xml}, Content e sc s cs (k :: ks) → '<' ∈ s := by
  induction hn : s.length using Nat.strong_induction_on generalizing s with
  | _ n ih =>
    intro sc cs k ks h
    cases h with
    | text _ t v s cs ks t0 t1 t2 t3 h =>
      have : 0 < t.length := List.length_pos_iff.2 t0
      simp [ih s.length (by simp at hn; omega) rfl h]
    | markup _ m v s cs ks hm h =>
      have := markup_length hm
      simp [ih s.length (by simp at hn; omega) rfl h]
    | elem _ a s cs y ks hel =>
      cases hel with
      | empty _ t n' z y l as ht => obtain ⟨t', rfl⟩ := tag_ne_nil ht; simp
      | full _ t n' b0 w0 cs0 z y l as ks0 ht => obtain ⟨t', rfl⟩ := tag_ne_nil ht; simp

/-! ## Another decoder -/

theorem atts_env {e : Env} (f : Str → Bool) {a : Str} {l : List (XName × Str)} (h : Atts e a l) : Atts { e with declOk := f } a l := by
  induction h with
  | nil w h => exact .nil w h
  | cons w n w1 w2 q t r x v l h1 h2 h3 h4 h5 h6 _ ih => exact .cons w n w1 w2 q t r x v l h1 h2 h3 h4 h5 h6 ih

theorem tag_env {e : Env} (f : Str → Bool) {s n : Str} {x : XName} {l : List (XName × Str)} (h : Tag e s n x l) : Tag { e with declOk := f } s n x l := by
  obtain ⟨a, h1, h2, h3⟩ := h
  exact ⟨a, h1, atts_env f h2, h3⟩

theorem markup_env {e : Env} (f : Str → Bool) {m v : Str} (h : Markup e m v) (hn : ¬ "<?xml".toList <+: m) : Markup { e with declOk := f } m v := by
  cases h with
  | cdata s v h1 h2 => exact .cdata s v h1 h2
  | comment s h => exact .comment s h
  | inst n w d h1 h2 h3 h4 h5 h6 =>
    refine .inst n w d h1 h2 h3 h4 h5 ?_
    rintro rfl
    exact absurd (by simp) hn
  | decl c s h1 h2 h3 => exact .decl c s h1 h2 h3

theorem infix_left {p a b : Str} (h : ¬ p <:+: a ++ b) : ¬ p <:+: a := fun h' => h (h'.trans ⟨[], b, by simp⟩)
theorem infix_right {p a b : Str} (h : ¬ p <:+: a ++ b) : ¬ p <:+: b := fun h' => h (h'.trans ⟨a, [], by simp⟩)

theorem content_env {e : Env} (f : Str → Bool) : ∀ (n : Nat) (sc : Scope) (s cs : Str) (ks : List Xml), s.length < n → Content e sc s cs ks →
    ¬ "<?xml".toList <:+: s → Content { e with declOk := f } sc s cs ks := by
  intro n
  induction n with
  | zero => intro sc s cs ks h; omega
  | succ n ih =>
    intro sc s cs ks hl h hn
    cases h with
    | nil => exact .nil _
    | text _ t v s cs ks t0 t1 t2 t3 h =>
      have : 0 < t.length := List.length_pos_iff.2 t0
      exact .text _ t v s cs ks t0 t1 t2 t3 (ih sc s cs ks (by simp at hl; omega) h (infix_right hn))
    | markup _ m0 v s cs ks hm h =>
      have hm' := markup_length hm
      exact .markup _ m0 v s cs ks (markup_env f hm fun hp => infix_left hn hp.isInfix) (ih sc s cs ks (by simp at hl; omega) h (infix_right hn))
    | elem _ a s cs y ks he h =>
      cases he with
      | empty _ t n' z y l as ht hz has =>
        exact .elem _ _ s cs _ ks (.empty _ t n' z y l as (tag_env f ht) hz has) (ih sc s cs ks (by simp at hl; omega) h (infix_right hn))
      | full _ t n' b0 w0 cs0 z y l as ks0 ht hz has h0 hw0 =>
        refine .elem _ _ s cs _ ks (.full _ t n' b0 w0 cs0 z y l as ks0 (tag_env f ht) hz has ?_ hw0) (ih sc s cs ks (by simp at hl; omega) h (infix_right hn))
        refine ih _ b0 cs0 ks0 (by simp at hl; omega) h0 ?_
        have h1 := infix_left hn
        intro h2
        exact h1 (h2.trans ⟨t ++ ['>'], "</".toList ++ (n' ++ (w0 ++ ['>'])), by simp⟩)

/-! ## Loops -/

theorem walkStep_loop (w : Instance.World) (dim : Schema.Concept) (st : WalkState) (t : Tok) : walkStep w dim st t ≠ .loop := by
  unfold walkStep
  cases t with
  | start n =>
    simp only
    split
    · simp
    · split <;> simp
  | stop n =>
    simp only
    split
    · simp
    · simp
    · split <;> simp
  | text s =>
    simp only
    split
    · simp
    · split
      · simp
      · split <;> simp
  | other => simp

theorem walk_loop (w : Instance.World) (dim : Schema.Concept) (ts : List Tok) : ∀ st, walk w dim st true ts ≠ .loop := by
  induction ts with
  | nil => intro st; simp [walk]
  | cons t ts ih =>
    intro st
    rw [walk]
    have := walkStep_loop w dim st t
    split
    · simp
    · contradiction
    · simp
    · exact ih _

theorem typedMembers_loop {w : Instance.World} {dimHref inner : String} (h : hydrateTypedMembers w dimHref inner = .loop) : (w.tokens inner).eof = false := by
  cases he : (w.tokens inner).eof with
  | false => rfl
  | true =>
    unfold hydrateTypedMembers at h
    rw [he] at h
    split at h
    · exact absurd h (walk_loop _ _ _ _)
    · simp at h
    · simp at h

theorem andThen_loop {α β : Type} {r : Run α} {f : α → Run β} (h : r.andThen f = .loop) : r = .loop ∨ ∃ a, r = .done a ∧ f a = .loop := by
  cases r with
  | done a => exact .inr ⟨a, rfl, h⟩
  | panic => simp [Run.andThen] at h
  | loop => exact .inl rfl

theorem collectRun_loop {α β : Type} {f : α → Run (Option β)} {l : List α} (h : collectRun f l = .loop) : ∃ x ∈ l, f x = .loop := by
  induction l with
  | nil => simp [collectRun] at h
  | cons x xs ih =>
    rw [collectRun] at h
    rcases andThen_loop h with h | ⟨a, _, h⟩
    · exact ⟨x, by simp, h⟩
    · rcases andThen_loop h with h | ⟨a, _, h⟩
      · obtain ⟨y, hy, h⟩ := ih h; exact ⟨y, by simp [hy], h⟩
      · simp at h

theorem hydrateDims_loop {w : Instance.World} {strict : Bool} {es : List DimElem} (h : hydrateDims w strict es = .loop) :
    ∃ e ∈ es, ∃ m ∈ e.typed, (w.tokens m.chars).eof = false := by
  cases es with
  | nil => simp [hydrateDims] at h
  | cons e es =>
    rw [hydrateDims] at h
    rcases andThen_loop h with h | ⟨a, _, h⟩
    · obtain ⟨m, hm, h⟩ := collectRun_loop h
      refine ⟨e, by simp, m, hm, ?_⟩
      unfold typedMember at h
      split at h
      · simp at h
      · split at h
        · simp at h
        · rcases andThen_loop h with h | ⟨a, _, h⟩
          · exact typedMembers_loop h
          · simp at h
    · simp at h

theorem hydrateContexts_loop {w : Instance.World} {es : List CtxElem} (h : hydrateContexts w es = .loop) :
    ∃ e ∈ es, ∃ d, (d ∈ e.scenarios ∨ ∃ ent ∈ e.entities, d ∈ ent.segments) ∧ ∃ m ∈ d.typed, (w.tokens m.chars).eof = false := by
  unfold hydrateContexts at h
  rcases andThen_loop h with h | ⟨a, _, h⟩
  · obtain ⟨e, he, h⟩ := collectRun_loop h
    refine ⟨e, he, ?_⟩
    unfold hydrateContext at h
    split at h
    · simp at h
    · split at h
      · simp at h
      · split at h
        · simp at h
        · split at h
          · simp at h
          · rename_i ent rest hent
            split at h
            · simp at h
            · split at h
              · simp at h
              · split at h
                · simp at h
                · rcases andThen_loop h with h | ⟨a, _, h⟩
                  · obtain ⟨d, hd, h⟩ := hydrateDims_loop h
                    exact ⟨d, .inr ⟨ent, by rw [hent]; simp, hd⟩, h⟩
                  · rcases andThen_loop h with h | ⟨a, _, h⟩
                    · obtain ⟨d, hd, h⟩ := hydrateDims_loop h
                      exact ⟨d, .inl hd, h⟩
                    · simp at h
  · simp at h

theorem named_within {n : String} {x y : Xml} (h : y ∈ x.named n) : y ∈ x.kids ∧ y.name.loc = n := by
  unfold Xml.named at h
  simpa using h

theorem within_kid {x q y : Xml} (h : Within x q) (hy : y ∈ q.kids) : Within x y := by
  induction h with
  | self x => exact .kid _ y _ hy (.self y)
  | kid x k q hk _ ih => exact .kid _ k _ hk (ih hy)

theorem typed_within {x : Xml} {file : InstFile} (hf : instanceFile x = some file) {e : CtxElem} (he : e ∈ file.contexts) {d : DimElem}
    (hd : d ∈ e.scenarios ∨ ∃ ent ∈ e.entities, d ∈ ent.segments) {m : MemberElem} (hm : m ∈ d.typed) :
    ∃ y, Within x y ∧ y.name.loc = "typedMember" ∧ y.inner = m.chars := by
  unfold instanceFile at hf
  split at hf
  · cases hf
    obtain ⟨k, hk, rfl⟩ := List.mem_map.1 he
    obtain ⟨hk, _⟩ := named_within hk
    have key : ∀ q, Within x q → m ∈ (dims q).typed → ∃ y, Within x y ∧ y.name.loc = "typedMember" ∧ y.inner = m.chars := by
      intro q hq hm
      obtain ⟨y, hy, rfl⟩ := List.mem_map.1 hm
      obtain ⟨hy, hn⟩ := named_within hy
      refine ⟨y, ?_, hn, rfl⟩
      exact within_kid hq hy
    rcases hd with hd | ⟨ent, hent, hd⟩
    · obtain ⟨q, hq, rfl⟩ := List.mem_map.1 hd
      exact key q (.kid _ k _ hk (.kid _ q _ (named_within hq).1 (.self q))) hm
    · obtain ⟨t, ht, rfl⟩ := List.mem_map.1 hent
      obtain ⟨q, hq, rfl⟩ := List.mem_map.1 hd
      exact key q (.kid _ k _ hk (.kid _ t _ (named_within ht).1 (.kid _ q _ (named_within hq).1 (.self q)))) hm
  · cases hf

theorem bindRun_loop {α β : Type} {r : Run (Option α)} {f : α → Run (Option β)} (h : bindRun r f = .loop) :
    r = .loop ∨ ∃ a, f a = .loop := by
  rcases andThen_loop h with h | ⟨a, _, h⟩
  · exact .inl h
  · cases a with
    | none => simp at h
    | some a => exact .inr ⟨a, h⟩

theorem hydrateMap_loop {A B : Type} {f : String → A → Run (Option B)} {m : GoMap String A} {acc : GoMap String B}
    (h : hydrateMap f m acc = .loop) : ∃ k a, (k, a) ∈ m ∧ f k a = .loop := by
  induction m generalizing acc with
  | nil => simp [hydrateMap] at h
  | cons p m ih =>
    obtain ⟨k, a⟩ := p
    rw [hydrateMap] at h
    rcases andThen_loop h with h | ⟨b, _, h⟩
    · exact ⟨k, a, by simp, h⟩
    · cases b with
      | none => simp at h
      | some b =>
        obtain ⟨k', a', hm, h⟩ := ih h
        exact ⟨k', a', by simp [hm], h⟩

theorem ofRes_loop {α : Type} (r : Res α) : ofRes r ≠ .loop := by cases r <;> simp [ofRes]

theorem keyed_loop {A B : Type} (f : String → A → B) (k : String) (a : A) : keyed f k a ≠ .loop := by
  unfold keyed; split <;> simp

theorem hydrate_loop {w : Hydrate.World} {fo : Files} (h : hydrate w fo = .loop) :
    ∃ k x, (k, x) ∈ fo.instances ∧ hydrateInstance w fo k x = .loop := by
  unfold hydrate at h
  rcases bindRun_loop h with h | ⟨_, h⟩
  · obtain ⟨k, a, _, h⟩ := hydrateMap_loop h; exact absurd h (ofRes_loop _)
  rcases bindRun_loop h with h | ⟨_, h⟩
  · obtain ⟨k, a, _, h⟩ := hydrateMap_loop h; exact absurd h (keyed_loop _ _ _)
  rcases bindRun_loop h with h | ⟨_, h⟩
  · obtain ⟨k, a, _, h⟩ := hydrateMap_loop h; exact absurd h (keyed_loop _ _ _)
  rcases bindRun_loop h with h | ⟨_, h⟩
  · obtain ⟨k, a, _, h⟩ := hydrateMap_loop h; exact absurd h (keyed_loop _ _ _)
  rcases bindRun_loop h with h | ⟨_, h⟩
  · obtain ⟨k, a, _, h⟩ := hydrateMap_loop h; exact absurd h (keyed_loop _ _ _)
  rcases bindRun_loop h with h | ⟨_, h⟩
  · exact hydrateMap_loop h
  split at h
  · simp at h
  · rcases bindRun_loop h with h | ⟨_, h⟩
    · unfold hydrateDoc at h
      split at h
      · simp at h
      · rcases bindRun_loop h with h | ⟨_, h⟩
        · exact absurd h (ofRes_loop _)
        · simp at h
    · simp at h

theorem load_loop {d : Disk} {w : Hydrate.World} {fuel : Nat} {sched : List (Disc.Write LinkbaseFile) → List (Disc.Write LinkbaseFile)}
    (h : load d w fuel sched = some .loop) :
    ∃ name x y, d.read name = some x ∧ x.name.loc = "xbrl" ∧ Within x y ∧ y.name.loc = "typedMember" ∧ (w.tokens y.inner).eof = false := by
  unfold load at h
  split at h
  · simp at h
  · simp at h
  · simp at h
  · rename_i fo hfo
    simp only [Option.some.injEq] at h
    rcases bindRun_loop h with h | ⟨_, h⟩
    · obtain ⟨k, file, hm, h⟩ := hydrate_loop h
      simp only [filesOf, List.mem_filterMap, Option.map_eq_some_iff, Prod.mk.injEq] at hm
      obtain ⟨q, _, f', hf', rfl, rfl⟩ := hm
      obtain ⟨x, hx, hf⟩ := Option.bind_eq_some_iff.1 hf'
      unfold hydrateInstance at h
      split at h
      · simp at h
      · rcases andThen_loop h with h | ⟨_, _, h⟩
        · obtain ⟨e, he, dd, hd, m, hm, ht⟩ := hydrateContexts_loop h
          obtain ⟨y, hy, hn, hi⟩ := typed_within hf he hd hm
          refine ⟨q.1, x, y, hx, ?_, hy, hn, by rw [hi]; exact ht⟩
          unfold instanceFile at hf
          split at hf
          · assumption
          · cases hf
        · simp at h
    · simp at h

end Telefacts.XmlText
