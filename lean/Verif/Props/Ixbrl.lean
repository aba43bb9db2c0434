import Verif.Proof.Ixbrl
/-! # C107: the facts of an inline document -/
namespace Telefacts
open Telefacts.Ixbrl Telefacts.Document Telefacts.Hydrate Telefacts.Spec

/-- A file is an inline document iff it is well-formed and has an html element, in whatever namespace; names
are looked up in the declarations of the first one. -/
theorem C107_decodes (file : Option (List Dom)) :
    (decodeIxbrlFile file = none ↔ ∀ ds, file = some ds → ∀ e, Elem ds e → e.name.loc ≠ "html") ∧
    ∀ d, decodeIxbrlFile file = some d → ∃ ds h, file = some ds ∧ First ds h ∧ d.html = h.attrs ∧
      ∀ f, (f ∈ d.nonNumerics ∨ f ∈ d.nonFractions) ↔ ∃ x, Elem ds x ∧ Simple x ∧ x.attrs = f := by
  cases file with
  | none => simp [decodeIxbrlFile]
  | some ds =>
    unfold decodeIxbrlFile
    cases hh : html ds with
    | none => simpa [hh] using (html_none ds).1 hh
    | some h =>
      simp only [hh, reduceCtorEq, false_iff, Option.some.injEq, forall_eq']
      refine ⟨fun hn => ?_, ds, h, rfl, (html_iff ds h).1 hh, rfl, fun f => mem_facts ds f⟩
      rw [(html_none ds).2 hn] at hh
      cases hh

/-- What holds: when the prefix of every text and number fact is declared on the html element, the names and
contexts known after hydration are exactly those of these facts. Missing: `ix:fraction` facts and prefixes
declared further inside, see `C107_fails`. -/
theorem C107_known_partial (ds : List Dom) (h : Dom) (hh : First ds h) (np : NameProvider)
    (hnp : newNameProvider h.attrs = .ok np)
    (hok : ∀ x, Elem ds x → Simple x → ¬ Malformed h.attrs x.attrs ∧ ¬ Undeclared h.attrs x.attrs) :
    ∃ d, decodeIxbrlFile (some ds) = some d ∧
      ∀ s₁ s₂, Complete d.nonNumerics s₁ → Complete d.nonFractions s₂ →
        ∃ doc, hydrateDocument d.html d.nonNumerics d.nonFractions s₁ s₂ = .ok doc ∧
          (∀ s q, mapGet doc.names s = some q ↔ ∃ x c, Elem ds x ∧ Simple x ∧ Uses h.attrs x.attrs s q c) ∧
          ∀ c b, mapGet doc.ctxs c = some b ↔ b = true ∧ ∃ x s q, Elem ds x ∧ Simple x ∧ Uses h.attrs x.attrs s q c := by
  refine ⟨⟨h.attrs, inlines "nonNumeric" ds, inlines "nonFraction" ds⟩, ?_, fun s₁ s₂ h1 h2 => ?_⟩
  · simp only [decodeIxbrlFile, (html_iff ds h).2 hh]
  · have hf : ∀ f, (f ∈ inlines "nonNumeric" ds ∨ f ∈ inlines "nonFraction" ds) → ¬ Malformed h.attrs f ∧ ¬ Undeclared h.attrs f := by
      intro f hf
      obtain ⟨x, hx, hs, rfl⟩ := (mem_facts ds f).1 hf
      exact hok x hx hs
    obtain ⟨doc, hd, hn, hc⟩ := (C31_document_partial h.attrs np hnp _ _ (fun f hm => (hf f hm).1) s₁ s₂ h1 h2).2
      fun f hm => (hf f hm).2
    refine ⟨doc, hd, fun s q => ?_, fun c b => ?_⟩
    · rw [hn]
      simp only [mem_facts]
      constructor
      · rintro ⟨f, c, ⟨x, h1, h2, rfl⟩, hu⟩; exact ⟨x, c, h1, h2, hu⟩
      · rintro ⟨x, c, h1, h2, hu⟩; exact ⟨_, c, ⟨x, h1, h2, rfl⟩, hu⟩
    · rw [hc]
      simp only [mem_facts]
      constructor
      · rintro ⟨hb, f, s, q, ⟨x, h1, h2, rfl⟩, hu⟩; exact ⟨hb, x, s, q, h1, h2, hu⟩
      · rintro ⟨hb, x, s, q, h1, h2, hu⟩; exact ⟨hb, _, s, q, ⟨x, h1, h2, rfl⟩, hu⟩

/-- The fact element has name `s`, which by the declarations in scope at the element means `q`, and context `c`. -/
def Means (ds : List Dom) (x : Dom) (s : String) (q : XName) (c : String) : Prop :=
  HasVal x.attrs "name" s ∧ HasVal x.attrs "contextRef" c ∧ ∃ p, ':' ∉ p.toList ∧ s = p ++ ":" ++ q.loc ∧ InScope ds x p q.space

theorem uses_fine {ht : List XpathAttr} {f : InlineFact} {s : String} {x : XName} {c : String} (hu : Uses ht f s x c) :
    ¬ Malformed ht f ∧ ¬ Undeclared ht f := by
  refine ⟨fun hmal => ?_, not_uses_undeclared hu⟩
  obtain ⟨h1, h2, p, hp, he, hb⟩ := hu
  rcases hmal with h | ⟨s', h, hc⟩ | ⟨h, _⟩
  · exact h s h1
  · have := hasVal_unique h h1
    subst this
    rw [he] at hc
    simp at hc
  · exact h c h2

/-- **C107**, exactly, for every schedule: a document is hydrated and all its inline facts are known if and only if the names of the html
element can be read, every text and number fact has a context and a prefix that the html element declares, and the name and the context of
every inline fact, as they are meant where it stands, are those of text or number facts as the html element declares them. -/
theorem C107_exact (ds : List Dom) (h : Dom) (hh : First ds h) :
    ∃ d, decodeIxbrlFile (some ds) = some d ∧ ∀ s₁ s₂, Complete d.nonNumerics s₁ → Complete d.nonFractions s₂ →
      ((∃ doc, hydrateDocument d.html d.nonNumerics d.nonFractions s₁ s₂ = .ok doc ∧
          ∀ x s q c, Elem ds x → Inline x → Means ds x s q c → mapGet doc.names s = some q ∧ mapGet doc.ctxs c = some true) ↔
        (∃ np, newNameProvider h.attrs = .ok np) ∧ (∀ x, Elem ds x → Simple x → ∃ s q c, Uses h.attrs x.attrs s q c) ∧
        ∀ x s q c, Elem ds x → Inline x → Means ds x s q c →
          (∃ y c', Elem ds y ∧ Simple y ∧ Uses h.attrs y.attrs s q c') ∧ ∃ y s' q', Elem ds y ∧ Simple y ∧ Uses h.attrs y.attrs s' q' c) := by
  have hdec : decodeIxbrlFile (some ds) = some ⟨h.attrs, inlines "nonNumeric" ds, inlines "nonFraction" ds⟩ := by
    simp only [decodeIxbrlFile, (html_iff ds h).2 hh]
  refine ⟨_, hdec, fun s₁ s₂ h1 h2 => ?_⟩
  have all : (∀ f, f ∈ inlines "nonNumeric" ds ∨ f ∈ inlines "nonFraction" ds → ∃ s x c, Uses h.attrs f s x c) ↔
      ∀ x, Elem ds x → Simple x → ∃ s q c, Uses h.attrs x.attrs s q c := by
    simp only [mem_facts]
    constructor
    · exact fun hf x hx hs => hf _ ⟨x, hx, hs, rfl⟩
    · rintro hf f ⟨x, hx, hs, rfl⟩
      exact hf x hx hs
  have known : ∀ np, newNameProvider h.attrs = .ok np → (∀ x, Elem ds x → Simple x → ∃ s q c, Uses h.attrs x.attrs s q c) →
      ∃ doc, hydrateDocument h.attrs (inlines "nonNumeric" ds) (inlines "nonFraction" ds) s₁ s₂ = .ok doc ∧
        ∀ s q c, (mapGet doc.names s = some q ∧ mapGet doc.ctxs c = some true) ↔
          (∃ y c', Elem ds y ∧ Simple y ∧ Uses h.attrs y.attrs s q c') ∧ ∃ y s' q', Elem ds y ∧ Simple y ∧ Uses h.attrs y.attrs s' q' c := by
    intro np hnp hu
    obtain ⟨d, hd, hk⟩ := C107_known_partial ds h hh np hnp fun x hx hs => by
      obtain ⟨s, q, c, hu⟩ := hu x hx hs
      exact uses_fine hu
    rw [hdec] at hd
    cases hd
    obtain ⟨doc, e, hn, hc⟩ := hk s₁ s₂ h1 h2
    refine ⟨doc, e, fun s q c => ?_⟩
    rw [hn, hc]
    simp
  constructor
  · rintro ⟨doc, e, hk⟩
    obtain ⟨⟨np, hnp⟩, hu⟩ := (C31_succeeds _ _ _ s₁ s₂ h1 h2).1 ⟨doc, e⟩
    have hu := all.1 hu
    refine ⟨⟨np, hnp⟩, hu, fun x s q c hx hi hm => ?_⟩
    obtain ⟨doc', e', hk'⟩ := known np hnp hu
    cases e.symm.trans e'
    exact (hk' s q c).1 (hk x s q c hx hi hm)
  · rintro ⟨⟨np, hnp⟩, hu, hm⟩
    obtain ⟨doc', e', hk'⟩ := known np hnp hu
    exact ⟨doc', e', fun x s q c hx hi hx' => (hk' s q c).2 (hm x s q c hx hi hx')⟩

/-- An inline fact element of the given kind. -/
def ixFact (kind name : String) (extra : List XpathAttr) : Dom :=
  .mk ⟨"http://www.xbrl.org/2013/inlineXBRL", kind⟩ (extra ++ docFact name "c1") []

/-- A file with one declaration on the html element and the given elements in its body. -/
def ixFile (body : List Dom) : List Dom :=
  [.mk ⟨"http://www.w3.org/1999/xhtml", "html"⟩ docHtml [.mk ⟨"http://www.w3.org/1999/xhtml", "body"⟩ [] body]]

theorem ixFile_elem {body : List Dom} {x : Dom} (h : x ∈ body) : Elem (ixFile body) x := by
  have h1 : Elem (ixFile body) (.mk ⟨"http://www.w3.org/1999/xhtml", "html"⟩ docHtml
    [.mk ⟨"http://www.w3.org/1999/xhtml", "body"⟩ [] body]) := .root (List.mem_singleton.2 rfl)
  have h2 : Elem (ixFile body) (.mk ⟨"http://www.w3.org/1999/xhtml", "body"⟩ [] body) := h1.child (List.mem_singleton.2 rfl)
  exact h2.child h

/-- A file with a number in the body meets the hypotheses: decoded and hydrated, the name is known. -/
example : First (ixFile [ixFact "nonFraction" "x:A" []]) (.mk ⟨"http://www.w3.org/1999/xhtml", "html"⟩ docHtml
      [.mk ⟨"http://www.w3.org/1999/xhtml", "body"⟩ [] [ixFact "nonFraction" "x:A" []]]) ∧
    (decodeIxbrlFile (some (ixFile [ixFact "nonFraction" "x:A" []]))).map
      (fun d => hydrateDocument d.html d.nonNumerics d.nonFractions [] [0, 0]) =
      some (.ok ⟨[("x:A", ⟨"http://x", "A"⟩)], [("c1", true)]⟩) ∧
    Uses docHtml (docFact "x:A" "c1") "x:A" ⟨"http://x", "A"⟩ "c1" := by
  refine ⟨.here rfl, ?_, ?_, ?_, "x", by decide, by decide, [], [], rfl, rfl, by simp⟩
  · have : decodeIxbrlFile (some (ixFile [ixFact "nonFraction" "x:A" []])) = some ⟨docHtml, [], [docFact "x:A" "c1"]⟩ := by
      simp [decodeIxbrlFile, html, forest, nodes, ixFile, ixFact, Dom.name, Dom.attrs, inlines, ix]
    rw [this]
    decide +kernel
  · rw [hasVal_iff]; exact ⟨_, rfl, by decide⟩
  · rw [hasVal_iff]; exact ⟨_, rfl, by decide⟩

/-- The claim is false: a fraction is not read, and a fact whose prefix is declared on the fact itself makes
hydration fail. -/
theorem C107_fails :
    (∃ ds x d, Elem ds x ∧ Inline x ∧ HasVal x.attrs "name" "x:A" ∧ decodeIxbrlFile (some ds) = some d ∧
      ∀ s₁ s₂, hydrateDocument d.html d.nonNumerics d.nonFractions s₁ s₂ = .ok ⟨[], []⟩) ∧
    (∃ ds x d, Elem ds x ∧ Simple x ∧ HasVal x.attrs "name" "y:A" ∧ InScope ds x "y" "http://y" ∧
      decodeIxbrlFile (some ds) = some d ∧
      Complete d.nonNumerics [0, 0] ∧ Complete d.nonFractions [] ∧
      ∃ m, hydrateDocument d.html d.nonNumerics d.nonFractions [0, 0] [] = .err m) := by
  constructor
  · refine ⟨ixFile [ixFact "fraction" "x:A" []], ixFact "fraction" "x:A" [], ⟨docHtml, [], []⟩,
      ixFile_elem (List.mem_singleton.2 rfl), .inr ⟨rfl, rfl⟩, ?_, ?_, ?_⟩
    · rw [hasVal_iff]; exact ⟨_, rfl, by decide⟩
    · simp [decodeIxbrlFile, html, forest, nodes, ixFile, ixFact, Dom.name, Dom.attrs, inlines]
    · have hnp : newNameProvider docHtml = .ok ⟨[("x", "http://x")], [("x", "x")]⟩ := by decide +kernel
      have hrun : ∀ (np : NameProvider) (doc : Doc) (s : List Nat), runGroup np [] doc s = ⟨[], none, false, doc⟩ := by
        intro np doc s
        unfold runGroup
        induction s with
        | nil => rfl
        | cons i s ih => rw [List.foldl_cons]; simpa [step] using ih
      intro s₁ s₂
      simp only [hydrateDocument, hnp, hrun, afterGroup]
      rfl
  · refine ⟨ixFile [ixFact "nonNumeric" "y:A" [⟨⟨"xmlns", "y"⟩, "http://y", "xmlns"⟩]],
      ixFact "nonNumeric" "y:A" [⟨⟨"xmlns", "y"⟩, "http://y", "xmlns"⟩],
      ⟨docHtml, [⟨⟨"xmlns", "y"⟩, "http://y", "xmlns"⟩ :: docFact "y:A" "c1"], []⟩,
      ixFile_elem (List.mem_singleton.2 rfl), ⟨.inl rfl, rfl⟩, ?_,
      .own (ixFile_elem (List.mem_singleton.2 rfl)) ?_, ?_, ?_, ?_,
      "prefix does not match a namespace", ?_⟩
    · rw [hasVal_iff]; exact ⟨_, rfl, by decide⟩
    · exact ⟨[], [], rfl, rfl, by simp⟩
    · simp [decodeIxbrlFile, html, forest, nodes, ixFile, ixFact, Dom.name, Dom.attrs, inlines, ix]
    · unfold Complete; decide
    · unfold Complete; decide
    · decide +kernel

end Telefacts
