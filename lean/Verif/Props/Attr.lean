import Verif.Proof.Attr
/-!
# C01-C07: names and namespaces (pkg/attr)
-/
namespace Telefacts
open Spec

/-- C01: `Xmlns` computes exactly the specified meaning of a name, for all attribute lists and all
strings. -/
theorem C01_xmlns_resolves (attrs : List Attr) (s : String) (n : XName) :
    xmlns attrs s = n ↔ QName attrs s n := by
  have fwd : QName attrs s (xmlns attrs s) := by
    unfold xmlns
    cases hc : cut ':' s with
    | none =>
      exact QName.unprefixed s _ (cut_eq_none.1 hc) (default_ns attrs)
    | some pl =>
      obtain ⟨p, l⟩ := pl
      obtain ⟨hs, hp⟩ := cut_eq_some.1 hc
      rw [singleton_colon] at hs
      subst hs
      by_cases hl : l = ""
      · subst hl
        simpa using QName.noLocal (attrs := attrs) p hp
      · simp only [hl, if_false]
        by_cases hn : ns attrs p = ""
        · have hb := ns_bound attrs p
          rw [hn] at hb
          have hd := default_ns attrs
          simp only [hn, if_true]
          exact QName.unbound p l _ hp hl hb hd
        · simp only [hn, if_false]
          exact QName.bound p l _ hp hl (ns_bound attrs p) hn
  have uniq : ∀ m, QName attrs s m → m = xmlns attrs s := by
    intro m hm
    unfold xmlns
    cases hm with
    | unprefixed _ u h1 h2 =>
      rw [cut_eq_none.2 h1]
      simp only
      rw [defaultNs_unique h2 (default_ns attrs)]
      rfl
    | noLocal p h1 =>
      have := cut_colon (l := "") h1
      rw [String.append_empty] at this
      rw [this]; simp
    | bound p l u h1 h2 h3 h4 =>
      rw [cut_colon h1]
      have := boundTo_unique h3 (ns_bound attrs p)
      subst this
      simp [h2, h4]
    | unbound p l d h1 h2 h3 h4 =>
      rw [cut_colon h1]
      have hn := boundTo_unique h3 (ns_bound attrs p)
      have hd := defaultNs_unique h4 (default_ns attrs)
      subst hd
      simp only [h2, if_false, ← hn, if_true]
      rfl
  constructor
  · rintro rfl; exact fwd
  · intro h; exact (uniq n h).symm

example : xmlns [⟨⟨"xmlns", "us"⟩, "http://us"⟩, ⟨⟨"", "xmlns"⟩, "http://d"⟩] "us:Cash" = ⟨"http://us", "Cash"⟩ := by decide
example : xmlns [⟨⟨"xmlns", "us"⟩, "http://us"⟩, ⟨⟨"", "xmlns"⟩, "http://d"⟩] "zz:Cash" = ⟨"http://d", "Cash"⟩ := by decide
example : xmlns [⟨⟨"xmlns", "us"⟩, "http://us"⟩] "us:a:b" = ⟨"http://us", "a:b"⟩ := by decide

theorem conceptName_of {np : NameProvider} {p n t : String} (hp : ':' ∉ p.toList)
    (ho : mapGet np.originPrefixes p = some n) (ht : mapGet np.targetPrefixes p = some t) :
    OutputPrefix np p t := by
  intro l
  simp [NameProvider.provideConceptName, cut_colon hp, ho, ht]

/-- C02: whenever the provider is built, prefixes bound to the same namespace get the same output
prefix, and well-known namespaces get their fixed one. -/
theorem C02_one_prefix_per_namespace (attrs : List XpathAttr) (np : NameProvider)
    (h : newNameProvider attrs = .ok np) (n : String) :
    ∃ t, (∀ p, ':' ∉ p.toList → Bound attrs p n → OutputPrefix np p t) ∧
      (∀ t', (n, t') ∈ wellKnown → t = t') := by
  obtain ⟨st, _, hi, rfl⟩ := newNameProvider_ok h
  refine ⟨(mapGet st.nameMap n).getD "", ?_, ?_⟩
  · intro p hp hb
    have ho := (hi.origin p n).2 hb
    obtain ⟨t, h1, h2⟩ := hi.target p n ho
    rw [h2]
    exact conceptName_of hp ho h1
  · intro t' ht'
    rw [hi.known _ ht']; rfl

example : ∃ np, newNameProvider [⟨⟨"", "a"⟩, "http://x", "xmlns"⟩, ⟨⟨"", "b"⟩, "http://x", "xmlns"⟩] = .ok np ∧
    np.provideConceptName "a:C" = .ok "a:C" ∧ np.provideConceptName "b:C" = .ok "a:C" := by
  refine ⟨_, rfl, ?_, ?_⟩ <;> decide

/-- Two namespaces end up with one output prefix: `xmlns:link="A"` is renamed `link-a`, then
`xmlns:link-a="B"` is kept. -/
def collidingAttrs : List XpathAttr :=
  [⟨⟨"", "link"⟩, "http://a", "xmlns"⟩, ⟨⟨"", "link-a"⟩, "http://b", "xmlns"⟩]

/-- C03 is false of the code: a document whose two prefixes are bound to different namespaces and
get the same output prefix. -/
theorem C03_injective_fails : ∃ np, newNameProvider collidingAttrs = .ok np ∧
    Bound collidingAttrs "link" "http://a" ∧ Bound collidingAttrs "link-a" "http://b" ∧
    OutputPrefix np "link" "link-a" ∧ OutputPrefix np "link-a" "link-a" := by
  have : newNameProvider collidingAttrs =
      .ok ⟨[("link", "http://a"), ("link-a", "http://b")], [("link", "link-a"), ("link-a", "link-a")]⟩ := by
    decide
  refine ⟨_, this, ?_, ?_, ?_, ?_⟩
  · exact ⟨[], [("link-a", "http://b")], by decide, rfl, by decide⟩
  · exact ⟨[("link", "http://a")], [], by decide, rfl, by decide⟩
  · exact conceptName_of (by decide) (n := "http://a") (by decide) (by decide)
  · exact conceptName_of (by decide) (n := "http://b") (by decide) (by decide)

/-- Invariant for C03: every entry of the name map is well known, kept, or a renamed reserved
prefix; entries are injective. -/
structure JInv (pre : List XpathAttr) (st : PrefixState) : Prop where
  base : PInv pre st
  shape : ∀ n t, mapGet st.nameMap n = some t →
    (n, t) ∈ wellKnown ∨ ∃ o, (o, n) ∈ declarations pre ∧
      ((t = o ∧ o ∉ wellKnown.map Prod.snd) ∨
       (o ∈ wellKnown.map Prod.snd ∧ ∃ c ∈ letters, t = o ++ "-" ++ String.singleton c))
  inj : ∀ n n' t, mapGet st.nameMap n = some t → mapGet st.nameMap n' = some t → n = n'

theorem gen_inj {r r' : String} {c c' : Char}
    (h : r ++ "-" ++ String.singleton c = r' ++ "-" ++ String.singleton c') : r = r' := by
  rw [← String.toList_inj] at h ⊢
  simp at h
  have := List.append_inj' h rfl
  simpa using this.1

theorem jinv_step {attrs pre rest : List XpathAttr} {a : XpathAttr}
    (hsplit : attrs = pre ++ a :: rest)
    (hnd : ((declarations attrs).map Prod.fst).Nodup)
    (hgen : ∀ p ∈ (declarations attrs).map Prod.fst, ∀ r ∈ wellKnown.map Prod.snd, ∀ c ∈ letters,
      p ≠ r ++ "-" ++ String.singleton c)
    {st st' : PrefixState} (hi : JInv pre st) (h : prefixStep st a = .ok st') :
    JInv (pre ++ [a]) st' := by
  have hb := pinv_step hi.base h
  rcases prefixStep_ok h with ⟨hx, rfl⟩ | ⟨hx, t, ht, rfl⟩
  · have hd : declarations (pre ++ [a]) = declarations pre := by simp [declarations_append, hx]
    refine ⟨hb, ?_, hi.inj⟩
    rw [hd]; exact hi.shape
  · have hd : declarations (pre ++ [a]) = declarations pre ++ [(a.name.loc, a.value)] := by
      simp [declarations_append, hx]
    have hfull : declarations attrs = declarations pre ++ (a.name.loc, a.value) :: declarations rest := by
      rw [hsplit]; simp [declarations, List.filter_append, hx]
    have hao : a.name.loc ∈ (declarations attrs).map Prod.fst := by rw [hfull]; simp
    have hpre : ∀ o n, (o, n) ∈ declarations pre → o ∈ (declarations attrs).map Prod.fst := by
      intro o n hm; rw [hfull]; simp; exact .inl ⟨n, hm⟩
    have hnew : a.name.loc ∉ (declarations pre).map Prod.fst := by
      rw [hfull] at hnd
      simp only [List.map_append, List.map_cons, List.nodup_append, List.nodup_cons] at hnd
      intro hm
      exact hnd.2.2 _ hm _ (by simp) rfl
    cases hg : mapGet st.nameMap a.value with
    | some prev =>
      have : t = prev := by simp [targetPrefix, hg] at ht; exact ht.symm
      subst this
      have hsame : ∀ n, mapGet (mapSet st.nameMap a.value t) n = mapGet st.nameMap n := by
        intro n; rw [mapGet_mapSet]; split
        · rename_i he; rw [← he, hg]
        · rfl
      refine ⟨hb, ?_, ?_⟩
      · intro n t' hn
        simp only [hsame] at hn
        rcases hi.shape n t' hn with h1 | ⟨o, h1, h2⟩
        · exact .inl h1
        · exact .inr ⟨o, by rw [hd]; simp [h1], h2⟩
      · intro n n' t' h1 h2
        simp only [hsame] at h1 h2
        exact hi.inj n n' t' h1 h2
    | none =>
      have htn : newPrefix a.name.loc (mapKeys st.prefixes) = .ok t := by
        simpa [targetPrefix, hg] using ht
      obtain ⟨hfresh, hcand⟩ := newPrefix_ok htn
      have hf1 : t ∉ wellKnown.map Prod.snd := fun hm => hfresh ((hi.base.taken t).2 (.inl hm))
      have hf2 : t ∉ (declarations pre).map Prod.fst := fun hm => hfresh ((hi.base.taken t).2 (.inr hm))
      -- shape of the new target
      have hshape : (t = a.name.loc ∧ a.name.loc ∉ wellKnown.map Prod.snd) ∨
          (a.name.loc ∈ wellKnown.map Prod.snd ∧ ∃ c ∈ letters, t = a.name.loc ++ "-" ++ String.singleton c) := by
        by_cases hw : a.name.loc ∈ wellKnown.map Prod.snd
        · right
          refine ⟨hw, ?_⟩
          simp only [candidates, List.mem_cons, List.mem_map] at hcand
          rcases hcand with h1 | ⟨c, hc, h1⟩
          · exact absurd (h1 ▸ hw) hf1
          · exact ⟨c, hc, h1.symm⟩
        · left
          refine ⟨?_, hw⟩
          have hnt : a.name.loc ∉ mapKeys st.prefixes := by
            rw [hi.base.taken]; simp only [not_or]; exact ⟨hw, hnew⟩
          rw [newPrefix_eq] at htn
          rw [candidates, List.find?_cons_of_pos (by simpa using hnt)] at htn
          simpa using htn.symm
      have hne : ∀ n t', mapGet st.nameMap n = some t' → t' ≠ t := by
        intro n t' hn he
        subst he
        rcases hi.shape n t' hn with h1 | ⟨o, h1, ⟨h2, _⟩ | ⟨h2, c, hc, h3⟩⟩
        · exact hf1 (List.mem_map.2 ⟨_, h1, rfl⟩)
        · exact hf2 (h2 ▸ List.mem_map.2 ⟨_, h1, rfl⟩)
        · rcases hshape with ⟨h4, _⟩ | ⟨h4, c', hc', h5⟩
          · exact hgen _ hao o h2 c hc (h4 ▸ h3)
          · have := gen_inj (h3.symm.trans h5)
            exact hnew (this ▸ List.mem_map.2 ⟨_, h1, rfl⟩)
      refine ⟨hb, ?_, ?_⟩
      · intro n t' hn
        simp only [mapGet_mapSet] at hn
        split at hn
        · rename_i he
          cases hn; subst he
          exact .inr ⟨a.name.loc, by rw [hd]; simp, hshape⟩
        · rcases hi.shape n t' hn with h1 | ⟨o, h1, h2⟩
          · exact .inl h1
          · exact .inr ⟨o, by rw [hd]; simp [h1], h2⟩
      · intro n n' t' h1 h2
        simp only [mapGet_mapSet] at h1 h2
        split at h1 <;> split at h2
        · rename_i e1 e2; rw [← e1, ← e2]
        · cases h1; exact absurd rfl (hne n' _ h2)
        · cases h2; exact absurd rfl (hne n _ h1)
        · exact hi.inj n n' t' h1 h2

theorem jinv_init : JInv [] initPrefixState where
  base := pinv_init
  shape n t h := by
    left
    have := mem_of_mapGet h
    simpa [initPrefixState, wellKnown, XBRLI, XBRLDI, XLINK, XSI, ISO4217, LINK] using this
  inj n n' t h1 h2 := by
    have h1 := mem_of_mapGet h1
    have h2 := mem_of_mapGet h2
    simp only [initPrefixState, List.mem_cons, Prod.mk.injEq, List.not_mem_nil, or_false] at h1 h2
    rcases h1 with h1 | h1 | h1 | h1 | h1 | h1 <;> rcases h2 with h2 | h2 | h2 | h2 | h2 | h2 <;>
      obtain ⟨rfl, rfl⟩ := h1 <;> obtain ⟨rfl, h2⟩ := h2 <;> first | rfl | exact absurd h2 (by decide)

/-- C03, the part that holds: if each prefix is declared once and no declared prefix has the shape
`<reserved>-<letter>` that the provider generates itself, then different namespaces get different
output prefixes. Missing: documents that declare such a prefix (see `C03_injective_fails`). -/
theorem C03_injective_partial (attrs : List XpathAttr) (np : NameProvider)
    (h : newNameProvider attrs = .ok np)
    (hnd : ((declarations attrs).map Prod.fst).Nodup)
    (hgen : ∀ p ∈ (declarations attrs).map Prod.fst, ∀ r ∈ wellKnown.map Prod.snd, ∀ c ∈ letters,
      p ≠ r ++ "-" ++ String.singleton c)
    (p q n m t : String) (hp : ':' ∉ p.toList) (hq : ':' ∉ q.toList)
    (hpn : Bound attrs p n) (hqm : Bound attrs q m)
    (hpt : OutputPrefix np p t) (hqt : OutputPrefix np q t) : n = m := by
  obtain ⟨st, hf, hi, rfl⟩ := newNameProvider_ok h
  have hj : JInv attrs st := foldRes_inv_split JInv jinv_init
    (fun b pre x rest b' hsp hb hx => jinv_step hsp hnd hgen hb hx) hf
  have get : ∀ p n t, ':' ∉ p.toList → Bound attrs p n →
      OutputPrefix ⟨st.origin, st.target⟩ p t → mapGet st.nameMap n = some t := by
    intro p n t hp hb ho
    have h1 := (hi.origin p n).2 hb
    obtain ⟨t', h2, h3⟩ := hi.target p n h1
    have h4 := ho ""
    rw [conceptName_of (np := ⟨st.origin, st.target⟩) hp h1 h2 ""] at h4
    simp only [String.append_empty, Res.ok.injEq] at h4
    rw [← String.toList_inj] at h4
    simp [String.toList_inj] at h4
    rw [← h4]; exact h3
  exact hj.inj n m t (get p n t hp hpn hpt) (get q m t hq hqm hqt)

/-- A document that meets the hypotheses of `C03_injective_partial` and needs a renaming. -/
def renamedAttrs : List XpathAttr :=
  [⟨⟨"", "link"⟩, "http://a", "xmlns"⟩, ⟨⟨"", "us"⟩, "http://b", "xmlns"⟩]

example : ((declarations renamedAttrs).map Prod.fst).Nodup ∧
    (∀ p ∈ (declarations renamedAttrs).map Prod.fst, ∀ r ∈ wellKnown.map Prod.snd, ∀ c ∈ letters,
      p ≠ r ++ "-" ++ String.singleton c) ∧
    newNameProvider renamedAttrs =
      .ok ⟨[("link", "http://a"), ("us", "http://b")], [("link", "link-a"), ("us", "us")]⟩ := by
  refine ⟨by decide, by decide, by decide⟩

/-- C04: the prefix chosen for a new namespace is the first unused candidate; allocation panics
exactly when all 27 candidates are in use; it never runs forever and never returns an error. -/
theorem C04_fresh_prefix (p : String) (taken : List String) :
    (∃ r, newPrefixLoop p taken 27 0 p = some r) ∧
    (∀ t, newPrefix p taken = .ok t ↔ FirstWith (fun c => c ∉ taken) (candidates p) t) ∧
    (newPrefix p taken = .panic ↔ ∀ c ∈ candidates p, c ∈ taken) ∧
    (∀ m, newPrefix p taken ≠ .err m) := by
  refine ⟨newPrefix_total p taken, ?_, newPrefix_panic_iff, fun m => newPrefix_ne_err⟩
  intro t
  have := firstWith_iff_find (fun c => decide (c ∉ taken)) (candidates p) t
  simp only [decide_eq_true_eq] at this
  rw [this, newPrefix_eq]
  cases hf : (candidates p).find? (fun c => decide (c ∉ taken)) <;> simp

example : newPrefix "us" ["us", "us-a", "link"] = .ok "us-b" := by decide
example : newPrefix "us" ("us" :: letters.map (fun c => "us-" ++ String.singleton c)) = .panic := by decide

/-- C04 at the level of documents: building the provider panics exactly when some declaration
introduces a new namespace while its prefix and all lettered variants are already declared or
reserved. -/
theorem C04_provider_panics_iff (attrs : List XpathAttr) :
    newNameProvider attrs = .panic ↔
      ∃ pre a post, attrs = pre ++ a :: post ∧ (newNameProvider pre).isOk = true ∧
        a.namespaceURI = "xmlns" ∧
        a.value ∉ wellKnown.map Prod.fst ∧ a.value ∉ (declarations pre).map Prod.snd ∧
        ∀ c ∈ candidates a.name.loc, c ∈ wellKnown.map Prod.snd ∨ c ∈ (declarations pre).map Prod.fst := by
  have hok : ∀ l, (newNameProvider l).isOk = true ↔ ∃ st, foldRes prefixStep initPrefixState l = .ok st := by
    intro l
    unfold newNameProvider
    cases foldRes prefixStep initPrefixState l <;> simp [Res.isOk]
  have hpan : ∀ l, newNameProvider l = .panic ↔ foldRes prefixStep initPrefixState l = .panic := by
    intro l
    unfold newNameProvider
    cases foldRes prefixStep initPrefixState l <;> simp
  have hstep : ∀ pre st, foldRes prefixStep initPrefixState pre = .ok st → ∀ a,
      (prefixStep st a = .panic ↔ a.namespaceURI = "xmlns" ∧ a.value ∉ wellKnown.map Prod.fst ∧
        a.value ∉ (declarations pre).map Prod.snd ∧
        ∀ c ∈ candidates a.name.loc, c ∈ wellKnown.map Prod.snd ∨ c ∈ (declarations pre).map Prod.fst) := by
    intro pre st hst a
    have hi : PInv pre st :=
      foldRes_inv_split PInv pinv_init (fun b p x rest b' _ hp hx => pinv_step hp hx) hst
    unfold prefixStep
    by_cases hx : a.namespaceURI = "xmlns"
    · simp only [hx, ne_eq, not_true_eq_false, if_false, true_and]
      have hn := hi.names a.value
      rw [← and_assoc, ← not_or, ← hn]
      have ht : (∀ c ∈ candidates a.name.loc, c ∈ wellKnown.map Prod.snd ∨ c ∈ (declarations pre).map Prod.fst) ↔
          ∀ c ∈ candidates a.name.loc, c ∈ mapKeys st.prefixes := by
        constructor
        · intro h c hc; exact (hi.taken c).2 (h c hc)
        · intro h c hc; exact (hi.taken c).1 (h c hc)
      rw [ht, ← newPrefix_panic_iff, ← mapGet_eq_none]
      unfold targetPrefix
      cases hg : mapGet st.nameMap a.value with
      | none =>
        simp only [true_and]
        cases newPrefix a.name.loc (mapKeys st.prefixes) <;> simp
      | some v => simp
    · simp [hx]
  rw [hpan]
  constructor
  · intro h
    have key : ∀ (post pre : List XpathAttr) (st : PrefixState), attrs = pre ++ post →
        foldRes prefixStep initPrefixState pre = .ok st → foldRes prefixStep st post = .panic →
        ∃ pre a post, attrs = pre ++ a :: post ∧
          ∃ st, foldRes prefixStep initPrefixState pre = .ok st ∧ prefixStep st a = .panic := by
      intro post
      induction post with
      | nil => intro pre st _ _ h; simp [foldRes] at h
      | cons x xs ih =>
        intro pre st he hst h
        simp only [foldRes] at h
        cases hx : prefixStep st x with
        | ok st' =>
          rw [hx] at h
          exact ih (pre ++ [x]) st' (by simp [he]) (by rw [foldRes_append, hst]; simp [foldRes, hx]) h
        | err m => rw [hx] at h; simp at h
        | panic => exact ⟨pre, x, xs, he, st, hst, hx⟩
    obtain ⟨pre, a, post, he, st, hst, hp⟩ := key attrs [] initPrefixState rfl rfl h
    exact ⟨pre, a, post, he, (hok pre).2 ⟨st, hst⟩, (hstep pre st hst a).1 hp⟩
  · rintro ⟨pre, a, post, rfl, hpre, hrest⟩
    obtain ⟨st, hst⟩ := (hok pre).1 hpre
    rw [foldRes_append, hst]
    simp [foldRes, (hstep pre st hst a).2 hrest]

/-- C05: with a declared prefix the name is split exactly, an undeclared prefix is an error, and
every name without a colon panics. -/
theorem C05_provideXmlName (attrs : List XpathAttr) (np : NameProvider)
    (h : newNameProvider attrs = .ok np) (p l : String) (hp : ':' ∉ p.toList) :
    (∀ n, Bound attrs p n → np.provideXmlName (p ++ ":" ++ l) = .ok ⟨n, l⟩) ∧
    (p ∉ (declarations attrs).map Prod.fst → ∃ m, np.provideXmlName (p ++ ":" ++ l) = .err m) ∧
    np.provideXmlName p = .panic := by
  obtain ⟨st, _, hi, rfl⟩ := newNameProvider_ok h
  refine ⟨?_, ?_, ?_⟩
  · intro n hb
    have ho := (hi.origin p n).2 hb
    simp [NameProvider.provideXmlName, cut_colon hp, ho]
  · intro hnd
    have ho : mapGet st.origin p = none := by
      cases hg : mapGet st.origin p with
      | none => rfl
      | some n => exact absurd (List.mem_map.2 ⟨_, bound_mem ((hi.origin p n).1 hg), rfl⟩) hnd
    simp [NameProvider.provideXmlName, cut_colon hp, ho]
  · simp [NameProvider.provideXmlName, cut_eq_none.2 hp]

example : ∃ np, newNameProvider renamedAttrs = .ok np ∧ Bound renamedAttrs "us" "http://b" ∧
    np.provideXmlName "us:Cash" = .ok ⟨"http://b", "Cash"⟩ ∧ np.provideXmlName "Cash" = .panic :=
  ⟨_, rfl, ⟨[("link", "http://a")], [], by decide, rfl, by decide⟩, by decide, by decide⟩

/-- C06: for every order in which the runtime may iterate the prefix map, `ProvideName` returns the
same value, never panics, and returns the bare name for undeclared namespaces; for a declared one it
uses the output prefix of any of its declared prefixes. -/
theorem C06_provideName (attrs : List XpathAttr) (np : NameProvider)
    (h : newNameProvider attrs = .ok np) (n l : String) :
    (∀ o₁ o₂ : GoMap String String, o₁.Perm np.originPrefixes → o₂.Perm np.originPrefixes →
      np.provideName o₁ n l = np.provideName o₂ n l) ∧
    (∀ o : GoMap String String, o.Perm np.originPrefixes → ∃ s, np.provideName o n l = .ok s) ∧
    (∀ o : GoMap String String, o.Perm np.originPrefixes → (∀ p, ¬ Bound attrs p n) →
      np.provideName o n l = .ok l) ∧
    (∀ o : GoMap String String, o.Perm np.originPrefixes → ∀ p t, ':' ∉ p.toList → Bound attrs p n →
      OutputPrefix np p t → np.provideName o n l = .ok (if t = "" then l else t ++ ":" ++ l)) := by
  classical
  obtain ⟨st, _, hi, rfl⟩ := newNameProvider_ok h
  have key : ∀ o : GoMap String String, o.Perm st.origin →
      (NameProvider.mk st.origin st.target).provideName o n l =
        if ∃ p, Bound attrs p n then
          (if (mapGet st.nameMap n).getD "" = "" then .ok l
           else .ok ((mapGet st.nameMap n).getD "" ++ ":" ++ l))
        else .ok l := by
    intro o ho
    have hget : ∀ e ∈ o, mapGet st.origin e.1 = some e.2 := fun e he =>
      mapGet_of_mem hi.wfOrigin (ho.mem_iff.1 he)
    unfold NameProvider.provideName
    cases hf : o.find? (fun e => e.2 = n) with
    | none =>
      have : ¬ ∃ p, Bound attrs p n := by
        rintro ⟨p, hb⟩
        have hm := ho.mem_iff.2 (mem_of_mapGet ((hi.origin p n).2 hb))
        have := (List.find?_eq_none.1 hf) _ hm
        simp at this
      simp [this]
    | some e =>
      have hm := List.mem_of_find?_eq_some hf
      have he : e.2 = n := by have := List.find?_some hf; simpa using this
      have hb : Bound attrs e.1 n := (hi.origin e.1 n).1 (he ▸ hget e hm)
      obtain ⟨t, h1, h2⟩ := hi.target e.1 n ((hi.origin _ _).2 hb)
      have : ∃ p, Bound attrs p n := ⟨_, hb⟩
      simp only [this, if_true, h1, h2, Option.getD_some, Option.isSome_some, and_true]
      by_cases ht : t = "" <;> simp [ht]
  refine ⟨?_, ?_, ?_, ?_⟩
  · intro o₁ o₂ h1 h2; rw [key o₁ h1, key o₂ h2]
  · intro o ho; rw [key o ho]; split
    · split <;> exact ⟨_, rfl⟩
    · exact ⟨_, rfl⟩
  · intro o ho hnb
    rw [key o ho, if_neg (fun ⟨p, hp⟩ => hnb p hp)]
  · intro o ho p t hp hb hot
    rw [key o ho, if_pos ⟨p, hb⟩]
    have h1 := (hi.origin p n).2 hb
    obtain ⟨t', h2, h3⟩ := hi.target p n h1
    have h4 := hot ""
    rw [conceptName_of (np := ⟨st.origin, st.target⟩) hp h1 h2 ""] at h4
    simp only [String.append_empty, Res.ok.injEq] at h4
    rw [← String.toList_inj] at h4
    simp [String.toList_inj] at h4
    subst h4
    rw [h3]
    by_cases ht : t' = "" <;> simp [ht]

example : ∃ np, newNameProvider renamedAttrs = .ok np ∧
    np.provideName np.originPrefixes "http://a" "Cash" = .ok "link-a:Cash" ∧
    np.provideName np.originPrefixes.reverse "http://a" "Cash" = .ok "link-a:Cash" ∧
    np.provideName np.originPrefixes "http://none" "Cash" = .ok "Cash" :=
  ⟨_, rfl, by decide, by decide, by decide⟩

/-- C07: for a declared prefix, `ProvideConceptName` and `ProvideName` agree exactly when the prefix
is not bound to the XBRL instance namespace; in that case the former yields `:l`, the latter `l`. -/
theorem C07_names_agree_iff (attrs : List XpathAttr) (np : NameProvider)
    (h : newNameProvider attrs = .ok np) (o : GoMap String String) (ho : o.Perm np.originPrefixes)
    (p n l : String) (hp : ':' ∉ p.toList) (hb : Bound attrs p n) :
    (np.provideConceptName (p ++ ":" ++ l) = np.provideName o n l ↔
      n ≠ "http://www.xbrl.org/2003/instance") ∧
    (n = "http://www.xbrl.org/2003/instance" →
      np.provideConceptName (p ++ ":" ++ l) = .ok (":" ++ l) ∧ np.provideName o n l = .ok l) := by
  obtain ⟨st, hf, hi, hnp⟩ := newNameProvider_ok h
  obtain ⟨t, h1, h2⟩ := hi.target p n ((hi.origin p n).2 hb)
  have hot : OutputPrefix np p t := hnp ▸ conceptName_of hp ((hi.origin p n).2 hb) h1
  have hpn := (C06_provideName attrs np h n l).2.2.2 o ho p t hp hb hot
  rw [hot l, hpn]
  have hlen : ∀ s : String, ":" ++ s ≠ s := by
    intro s hs
    rw [← String.toList_inj] at hs
    have := congrArg List.length hs
    simp at this
  -- the empty output prefix belongs to the instance namespace only
  have hempty : t = "" ↔ n = "http://www.xbrl.org/2003/instance" := by
    constructor
    · intro ht
      subst ht
      have inv : PInv attrs st ∧ ∀ m, mapGet st.nameMap m = some "" → m = "http://www.xbrl.org/2003/instance" := by
        refine foldRes_inv_split (fun pre st => PInv pre st ∧
          ∀ m, mapGet st.nameMap m = some "" → m = "http://www.xbrl.org/2003/instance") ⟨pinv_init, ?_⟩ ?_ hf
        · intro m hm
          have := mem_of_mapGet hm
          simp only [initPrefixState, List.mem_cons, Prod.mk.injEq, List.not_mem_nil, or_false] at this
          rcases this with h | h | h | h | h | h
          · exact h.1
          all_goals exact absurd h.2 (by decide)
        · rintro b pre x rest b' _ ⟨hpi, hb⟩ hx
          refine ⟨pinv_step hpi hx, ?_⟩
          rcases prefixStep_ok hx with ⟨_, rfl⟩ | ⟨_, t, ht, rfl⟩
          · exact hb
          · intro m hm
            simp only [mapGet_mapSet] at hm
            split at hm
            · rename_i he
              cases hm
              cases hg : mapGet b.nameMap x.value with
              | some prev =>
                simp [targetPrefix, hg] at ht
                subst ht
                exact he ▸ hb _ hg
              | none =>
                simp [targetPrefix, hg] at ht
                exact absurd ((hpi.taken "").2 (.inl (by decide))) (newPrefix_ok ht).1
            · exact hb m hm
      exact inv.2 n h2
    · rintro rfl
      have := hi.known ("http://www.xbrl.org/2003/instance", "") (by decide)
      rw [h2] at this
      simpa using this
  constructor
  · rw [ne_eq, ← hempty]
    by_cases ht : t = ""
    · subst ht; simp [hlen]
    · simp [ht]
  · intro hn
    have ht := hempty.2 hn
    subst ht
    simp

example : ∃ np, newNameProvider [⟨⟨"", "xbrli"⟩, XBRLI, "xmlns"⟩, ⟨⟨"", "us"⟩, "http://b", "xmlns"⟩] = .ok np ∧
    np.provideConceptName "xbrli:x" = .ok ":x" ∧ np.provideName np.originPrefixes XBRLI "x" = .ok "x" ∧
    np.provideConceptName "us:x" = .ok "us:x" ∧ np.provideName np.originPrefixes "http://b" "x" = .ok "us:x" :=
  ⟨_, rfl, by decide, by decide, by decide, by decide⟩

end Telefacts
