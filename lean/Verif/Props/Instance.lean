import Verif.Proof.Instance
/-! # C22 - C25, C77, C78: instances -/
namespace Telefacts
open Telefacts.Instance Telefacts.Schema Telefacts.Linkbase Telefacts.Spec

/-- **C22.** The facts of a hydrated instance are exactly those of the fact elements that have one, one
for each, stably sorted by id. -/
theorem C22_facts (w : World) (es : List FactElem) :
    ∃ l, Collected (FactOf w) es l ∧ StableSortedBy Fact.id l (hydrateFacts w es) :=
  ⟨_, (collected_iff (hydrateFact_iff w) es _).2 rfl, stableSortedBy_stableSort Fact.id _⟩

def instFile : SchemaFile where
  attrs := [⟨⟨"", "targetNamespace"⟩, "http://x"⟩]
  elements := ["Cash", "Dim", "A", "B"].map fun n =>
    ⟨XSD, [⟨⟨"", "id"⟩, "x_" ++ n⟩, ⟨⟨"", "name"⟩, n⟩, ⟨⟨"", "type"⟩, "t"⟩]⟩
  annotations := []

def instWorld : World where
  env := ⟨[("http://x", "x.xsd")], [("x.xsd", instFile)], fun _ => false, fun _ => none⟩
  tl := [⟨⟨"xmlns", "x"⟩, "http://x"⟩]
  tokens := fun s =>
    if s = "<x:A>1</x:A><x:B>2</x:B>" then
      ⟨(Forest.elem ⟨"x", "A"⟩ (.text "1" .nil) (.elem ⟨"x", "B"⟩ (.text "2" .nil) .nil)).toks, true⟩
    else if s = "<x:A><x:B>2</x:B></x:A>" then
      ⟨(Forest.elem ⟨"x", "A"⟩ (.elem ⟨"x", "B"⟩ (.text "2" .nil) .nil) .nil).toks, true⟩
    else if s = "<x:Unknown/>" then ⟨[.start ⟨"x", "Unknown"⟩, .stop ⟨"x", "Unknown"⟩], true⟩
    else if s = "<x:A" then ⟨[], false⟩
    else ⟨[.text s], true⟩
  trim := fun s => s

example : hydrateFacts instWorld
    [⟨⟨"http://x", "Cash"⟩, [⟨⟨"", "id"⟩, "b"⟩, ⟨⟨"", "contextRef"⟩, "c1"⟩, ⟨⟨"", "decimals"⟩, "-3"⟩, ⟨⟨"", "unitRef"⟩, "usd"⟩], "100"⟩,
     ⟨⟨"http://x", "Unknown"⟩, [⟨⟨"", "id"⟩, "c"⟩, ⟨⟨"", "contextRef"⟩, "c1"⟩], "1"⟩,
     ⟨⟨"http://x", "A"⟩, [⟨⟨"", "id"⟩, "a"⟩, ⟨⟨"", "contextRef"⟩, "c2"⟩, ⟨⟨XSI, "nil"⟩, "true"⟩], ""⟩] =
    [⟨"x.xsd#x_A", "a", "c2", "", precisionless, true, ""⟩, ⟨"x.xsd#x_Cash", "b", "c1", "usd", -3, false, "100"⟩] := by
  decide +kernel

/-- **C23 (partial).** The precision of a fact: the largest negative 32-bit number stands for `INF` and its
successor for "no usable decimals attribute", any other number for itself. Missing: a decimals attribute
equal to one of the two sentinels is not distinguished from them (`C23_fails`). -/
theorem C23_precision_partial (w : World) (e : FactElem) (f : Fact) (h : hydrateFact w e = some f) :
    (f.precision = -2147483648 ↔ Declared e.attrs .exact ∨ Declared e.attrs (.decimals (-2147483648))) ∧
    (f.precision = -2147483647 ↔ Declared e.attrs .none ∨ Declared e.attrs (.decimals (-2147483647))) ∧
    ∀ z, z ≠ -2147483648 → z ≠ -2147483647 → (f.precision = z ↔ Declared e.attrs (.decimals z)) := by
  obtain ⟨a, ha, hp⟩ := ((hydrateFact_iff w e f).1 h).precision
  have hall : ∀ a', Declared e.attrs a' → f.precision = stored a' := by
    intro a' ha'
    rw [hp, ← (precisionOf_iff _ _).2 ⟨a, ha, rfl⟩, (precisionOf_iff _ _).2 ⟨a', ha', rfl⟩]
  refine ⟨⟨?_, ?_⟩, ⟨?_, ?_⟩, ?_⟩
  · intro he
    cases a with
    | exact => exact .inl ha
    | none => rw [hp] at he; simp [stored] at he
    | decimals z => rw [hp] at he; simp only [stored] at he; subst he; exact .inr ha
  · rintro (h | h) <;> exact hall _ h
  · intro he
    cases a with
    | exact => rw [hp] at he; simp [stored] at he
    | none => exact .inl ha
    | decimals z => rw [hp] at he; simp only [stored] at he; subst he; exact .inr ha
  · rintro (h | h) <;> exact hall _ h
  · intro z h1 h2
    constructor
    · intro he
      cases a with
      | exact => rw [hp] at he; exact absurd he.symm h1
      | none => rw [hp] at he; exact absurd he.symm h2
      | decimals z' => rw [hp] at he; simp only [stored] at he; subst he; exact ha
    · intro h; exact hall _ h

/-- **C23 (exact).** The precision of a fact tells what was declared unless the declared number is one of the two sentinels. -/
theorem C23_exact (w : World) (e : FactElem) (f : Fact) (h : hydrateFact w e = some f) :
    ((f.precision = -2147483648 ↔ Declared e.attrs .exact) ∧ (f.precision = -2147483647 ↔ Declared e.attrs .none) ∧
      ∀ z, z ≠ -2147483648 → z ≠ -2147483647 → (f.precision = z ↔ Declared e.attrs (.decimals z))) ↔
    ¬ Declared e.attrs (.decimals (-2147483648)) ∧ ¬ Declared e.attrs (.decimals (-2147483647)) := by
  obtain ⟨h1, h2, h3⟩ := C23_precision_partial w e f h
  have uv : ∀ s s', AttrVal e.attrs "decimals" s → AttrVal e.attrs "decimals" s' → s = s' := by
    rintro _ _ ⟨a, ha, rfl⟩ ⟨b, hb, rfl⟩
    rw [firstWith_unique ha hb]
  constructor
  · rintro ⟨g1, g2, _⟩
    refine ⟨fun hd => ?_, fun hd => ?_⟩
    · have hx := g1.1 (h1.2 (.inr hd))
      obtain ⟨s, hs, hl, _⟩ := hd
      rw [uv _ _ hs hx] at hl
      exact intLit_ne_INF _ hl
    · have hx := g2.1 (h2.2 (.inr hd))
      obtain ⟨s, hs, hl, _, _⟩ := hd
      have := (hx s hs).2 _ hl
      omega
  · rintro ⟨n1, n2⟩
    exact ⟨by rw [h1]; simp [n1], by rw [h2]; simp [n2], h3⟩

example : hydrateFact instWorld ⟨⟨"http://x", "A"⟩, [⟨⟨"", "contextRef"⟩, "c"⟩, ⟨⟨"", "decimals"⟩, "INF"⟩], "1"⟩ =
    some ⟨"x.xsd#x_A", "", "c", "", -2147483648, false, "1"⟩ := by decide +kernel

/-- Facts with a finite and an infinite decimals attribute, or with and without one, are hydrated alike. -/
theorem C23_fails : ∃ (w : World) (e e' e'' : FactElem) (f f' f'' : Fact),
    hydrateFact w e = some f ∧ hydrateFact w e' = some f' ∧ hydrateFact w e'' = some f'' ∧
    AttrVal e.attrs "decimals" "-2147483648" ∧ AttrVal e'.attrs "decimals" "INF" ∧ f = f' ∧
    ∃ e₃ : FactElem, AttrVal e₃.attrs "decimals" "-2147483647" ∧ (∀ a ∈ e''.attrs, a.name.loc ≠ "decimals") ∧
      hydrateFact w e₃ = some f'' := by
  refine ⟨instWorld,
    ⟨⟨"http://x", "A"⟩, [⟨⟨"", "contextRef"⟩, "c"⟩, ⟨⟨"", "decimals"⟩, "-2147483648"⟩], "1"⟩,
    ⟨⟨"http://x", "A"⟩, [⟨⟨"", "contextRef"⟩, "c"⟩, ⟨⟨"", "decimals"⟩, "INF"⟩], "1"⟩,
    ⟨⟨"http://x", "A"⟩, [⟨⟨"", "contextRef"⟩, "c"⟩], "1"⟩,
    ⟨"x.xsd#x_A", "", "c", "", -2147483648, false, "1"⟩, ⟨"x.xsd#x_A", "", "c", "", -2147483648, false, "1"⟩,
    ⟨"x.xsd#x_A", "", "c", "", -2147483647, false, "1"⟩, by decide +kernel, by decide +kernel, by decide +kernel,
    ?_, ?_, rfl, ⟨⟨"http://x", "A"⟩, [⟨⟨"", "contextRef"⟩, "c"⟩, ⟨⟨"", "decimals"⟩, "-2147483647"⟩], "1"⟩, ?_,
    by decide, by decide +kernel⟩ <;>
  · rw [← plainAttr_iff]; decide

/-- **C24.** Hydrating contexts returns iff no context element with an id lacks an entity and no typed
member is stuck; then the result is exactly the contexts of the elements that have one, stably sorted by id.
When no typed member is stuck, it panics iff a context element with an id lacks an entity. -/
theorem C24_contexts (w : World) (es : List CtxElem) :
    ((∃ out, hydrateContexts w es = .done out) ↔ ∀ e ∈ es, ¬ NoEntity e ∧ ¬ Stuck w e) ∧
    (∀ out, hydrateContexts w es = .done out →
      ∃ l, Collected (ContextOf w) es l ∧ StableSortedBy Context.id l out) ∧
    ((∀ e ∈ es, ¬ Stuck w e) → (hydrateContexts w es = .panic ↔ ∃ e ∈ es, NoEntity e)) := by
  refine ⟨?_, ?_, ?_⟩
  · have : (∃ out, hydrateContexts w es = .done out) ↔ ∃ out, collectRun (hydrateContext w) es = .done out := by
      unfold hydrateContexts
      cases collectRun (hydrateContext w) es <;> simp [Run.andThen]
    rw [this, collectRun_done]
    simp only [hydrateContext_done]
  · intro out h
    unfold hydrateContexts at h
    cases hc : collectRun (hydrateContext w) es with
    | panic => simp [hc, Run.andThen] at h
    | loop => simp [hc, Run.andThen] at h
    | done l =>
      simp only [hc, Run.andThen, Run.done.injEq] at h
      subst h
      obtain ⟨h1, h2⟩ := (collectRun_iff (hydrateContext_some w) _ _).1 hc
      refine ⟨l, ?_, stableSortedBy_stableSort Context.id l⟩
      have hst : ∀ e ∈ es, ¬ Stuck w e := fun e he => ((hydrateContext_done w e).1 (h1 e he)).2
      clear hc h1
      induction h2 with
      | nil => exact .nil
      | keep x y xs ys hr _ ih =>
        exact .keep _ _ _ _ hr.2 (ih (fun e he => hst e (List.mem_cons_of_mem _ he)))
      | skip x xs ys hr _ ih =>
        refine .skip _ _ _ ?_ (ih (fun e he => hst e (List.mem_cons_of_mem _ he)))
        intro y hy
        exact hr y ⟨hst x List.mem_cons_self, hy⟩
  · intro hst
    have hp : hydrateContexts w es = .panic ↔ collectRun (hydrateContext w) es = .panic := by
      unfold hydrateContexts
      cases collectRun (hydrateContext w) es <;> simp [Run.andThen]
    rw [hp, collectRun_panic es (fun e he => (hydrateContext_noEntity w e (hst e he)).1)]
    constructor
    · rintro ⟨e, he, h⟩; exact ⟨e, he, (hydrateContext_noEntity w e (hst e he)).2.1 h⟩
    · rintro ⟨e, he, h⟩; exact ⟨e, he, (hydrateContext_noEntity w e (hst e he)).2.2 h⟩

def ctxElem (id : String) (typed : List MemberElem) : CtxElem :=
  ⟨XBRLI, [⟨⟨"", "id"⟩, id⟩], [⟨[([⟨⟨"", "scheme"⟩, "s"⟩], "1")],
    [⟨[⟨[⟨⟨"", "dimension"⟩, "x:Dim"⟩], "x:A"⟩, ⟨[⟨⟨"", "dimension"⟩, "x:Unknown"⟩], "x:A"⟩], typed⟩]⟩],
    [⟨[], ["2020-01-01"], ["2020-12-31"]⟩], []⟩

example : hydrateContexts instWorld [ctxElem "b" [], ctxElem "a" [⟨[⟨⟨"", "dimension"⟩, "x:Dim"⟩], "<x:A><x:B>2</x:B></x:A>"⟩]] =
    .done [⟨"a", "s", "1", ⟨[⟨"x.xsd#x_Dim", "x:Dim", "x.xsd#x_A", "x:A"⟩],
        [⟨"x.xsd#x_Dim", "x:Dim", "", [("x.xsd#x_B", "2")], [⟨1, "x.xsd#x_Dim", "x.xsd#x_A"⟩, ⟨2, "x.xsd#x_A", "x.xsd#x_B"⟩]⟩]⟩,
        "", "2020-01-01", "2020-12-31", ⟨[], []⟩⟩,
      ⟨"b", "s", "1", ⟨[⟨"x.xsd#x_Dim", "x:Dim", "x.xsd#x_A", "x:A"⟩], []⟩, "", "2020-01-01", "2020-12-31", ⟨[], []⟩⟩] := by
  decide +kernel

example : hydrateContexts instWorld [⟨XBRLI, [⟨⟨"", "id"⟩, "c"⟩], [], [], []⟩] = .panic := by decide +kernel

/-- A typed member with an undeclared element panics, one with malformed XML is never finished. -/
theorem C24_typed_fails :
    hydrateContexts instWorld [ctxElem "c" [⟨[⟨⟨"", "dimension"⟩, "x:Dim"⟩], "<x:Unknown/>"⟩]] = .panic ∧
    hydrateContexts instWorld [ctxElem "c" [⟨[⟨⟨"", "dimension"⟩, "x:Dim"⟩], "<x:A"⟩]] = .loop := by
  decide +kernel

/-- The situation of C25: a typed member with content `f` whose element names `n` all resolve to `ref n`,
for a dimension whose reference and name agree. -/
structure Resolved (w : World) (dimHref inner : String) (ref : XName → String) (f : Forest) : Prop where
  content : w.tokens inner = ⟨f.toks, true⟩
  dim : ∃ ns c, hashQuery w.env w.env.namespaces dimHref = .ok (ns, c) ∧
    NameOf w.env c.name dimHref c
  names : ∀ n ∈ f.names, ∃ c, Resolves w (n.space ++ ":" ++ n.loc) (ref n) c

theorem walk_resolved {w : World} {dimHref inner : String} {ref : XName → String} {f : Forest}
    (h : Resolved w dimHref inner ref f) :
    hydrateTypedMembers w dimHref inner =
      .done (addAll [] (f.texts ref w.trim dimHref), arcsFrom 0 (steps dimHref (f.hrefs ref))) := by
  obtain ⟨ns, c, h1, h2⟩ := h.dim
  unfold hydrateTypedMembers
  simp only [h1, h.content]
  have := walk_forest w c true ref f ⟨[], [], 0, [], dimHref, some c⟩ [] dimHref c rfl rfl ((nameQuery_iff _ _ _ _).2 h2) h.names
  rw [List.append_nil] at this
  rw [this]
  simp [walk]

/-- **C25 (partial).** For every resolved typed member: the text of an element is recorded under that
element (the last one wins), the arcs are numbered from 1 and connect the elements to one another in document
order starting at the dimension; when no element has a sibling these are exactly the arcs from each element's
parent. Missing: elements with siblings (`C25_fails`). -/
theorem C25_arcs_partial (w : World) (dimHref inner : String) (ref : XName → String) (f : Forest)
    (h : Resolved w dimHref inner ref f) :
    ∃ members arcs, hydrateTypedMembers w dimHref inner = .done (members, arcs) ∧
      (∀ k v, mapGet members k = some v ↔
        LastWith (fun p : String × String => p.1 = k) (f.texts ref w.trim dimHref) (k, v)) ∧
      arcs.map (fun a => (a.frm, a.to)) = steps dimHref (f.hrefs ref) ∧
      arcs.map TypedArc.order = List.range' 1 arcs.length ∧
      (f.Path → arcs.map (fun a => (a.frm, a.to)) = f.parents ref dimHref) := by
  have hw := walk_resolved h
  refine ⟨_, _, hw, mapGet_addAll _, (arcsFrom_ends 0 _).1, ?_, ?_⟩
  · have h1 := arcsFrom_ends 0 (steps dimHref (f.hrefs ref))
    have hl : (arcsFrom 0 (steps dimHref (f.hrefs ref))).length = (steps dimHref (f.hrefs ref)).length := by
      have := congrArg List.length h1.1
      simpa using this
    rw [hl]; simpa using h1.2
  · intro hp
    rw [(arcsFrom_ends 0 _).1, path_parents ref f dimHref hp]

theorem instWorld_resolved (inner : String) (f : Forest) (hc : instWorld.tokens inner = ⟨f.toks, true⟩)
    (hn : ∀ n ∈ f.names, n = ⟨"x", "A"⟩ ∨ n = ⟨"x", "B"⟩) :
    Resolved instWorld "x.xsd#x_Dim" inner (fun n => "x.xsd#x_" ++ n.loc) f where
  content := hc
  dim := ⟨"http://x", ⟨⟨"http://x", "Dim"⟩, "x_Dim", ⟨"", "t"⟩, ⟨"", ""⟩, false, "", "", false, ""⟩,
    by decide +kernel, (nameQuery_iff _ _ _ _).1 (by decide +kernel)⟩
  names := by
    intro n hn'
    rcases hn n hn' with rfl | rfl
    · exact ⟨⟨⟨"http://x", "A"⟩, "x_A", ⟨"", "t"⟩, ⟨"", ""⟩, false, "", "", false, ""⟩, by
        rw [resolves_iff]; decide +kernel⟩
    · exact ⟨⟨⟨"http://x", "B"⟩, "x_B", ⟨"", "t"⟩, ⟨"", ""⟩, false, "", "", false, ""⟩, by
        rw [resolves_iff]; decide +kernel⟩

example : Resolved instWorld "x.xsd#x_Dim" "<x:A><x:B>2</x:B></x:A>" (fun n => "x.xsd#x_" ++ n.loc)
    (.elem ⟨"x", "A"⟩ (.elem ⟨"x", "B"⟩ (.text "2" .nil) .nil) .nil) ∧
    (Forest.elem ⟨"x", "A"⟩ (.elem ⟨"x", "B"⟩ (.text "2" .nil) .nil) .nil).Path :=
  ⟨instWorld_resolved _ _ (by decide +kernel) (by decide), by simp [Forest.Path, Forest.NoElem]⟩

/-- With two sibling elements the second is connected to the first instead of to the dimension. -/
theorem C25_fails : ∃ (w : World) (dimHref inner : String) (ref : XName → String) (f : Forest) (members : GoMap String String)
    (arcs : List TypedArc), Resolved w dimHref inner ref f ∧ hydrateTypedMembers w dimHref inner = .done (members, arcs) ∧
      arcs.map (fun a => (a.frm, a.to)) ≠ f.parents ref dimHref ∧
      (dimHref, "x.xsd#x_B") ∈ f.parents ref dimHref ∧ ∀ a ∈ arcs, (a.frm, a.to) ≠ (dimHref, "x.xsd#x_B") :=
  ⟨instWorld, "x.xsd#x_Dim", "<x:A>1</x:A><x:B>2</x:B>", fun n => "x.xsd#x_" ++ n.loc,
    .elem ⟨"x", "A"⟩ (.text "1" .nil) (.elem ⟨"x", "B"⟩ (.text "2" .nil) .nil),
    [("x.xsd#x_A", "1"), ("x.xsd#x_B", "2")],
    [⟨1, "x.xsd#x_Dim", "x.xsd#x_A"⟩, ⟨2, "x.xsd#x_A", "x.xsd#x_B"⟩],
    instWorld_resolved _ _ (by decide +kernel) (by decide), by decide +kernel, by decide +kernel, by decide +kernel,
    by decide +kernel⟩

/-- **C77.** The units of a hydrated instance are exactly those of the unit elements that have one, stably
sorted by id. -/
theorem C77_units (tl : List Attr) (es : List UnitElem) :
    ∃ l, Collected (UnitOf tl) es l ∧ StableSortedBy HUnit.id l (hydrateUnits tl es) :=
  ⟨_, (collected_iff (hydrateUnit_iff tl) es _).2 rfl, stableSortedBy_stableSort HUnit.id _⟩

example : hydrateUnits [⟨⟨"xmlns", "iso"⟩, ISO4217⟩, ⟨⟨"xmlns", ""⟩, ""⟩]
    [⟨XBRLI, [⟨⟨"", "id"⟩, "usdPerShare"⟩], [], [⟨[["iso:USD"]], [["xbrli:shares"]]⟩]⟩,
     ⟨XBRLI, [⟨⟨"", "id"⟩, "usd"⟩], ["iso:USD"], []⟩, ⟨XBRLI, [⟨⟨"", "id"⟩, "bad"⟩], [], []⟩] =
    [⟨"usd", ⟨⟨ISO4217, "USD"⟩, "iso:USD"⟩, .zero, .zero⟩,
     ⟨"usdPerShare", .zero, ⟨⟨ISO4217, "USD"⟩, "iso:USD"⟩, ⟨⟨"", "shares"⟩, "xbrli:shares"⟩⟩] := by decide +kernel

/-- **C78.** The footnote links of a hydrated instance are exactly the extended footnote links in the
default role, each with exactly its well-formed locators, footnotes and fact-footnote arcs in document order,
stably sorted by title. -/
theorem C78_footnote_links (es : List FootnoteLinkElem) :
    ∃ l, Collected FootnoteLinkOf es l ∧ StableSortedBy FootnoteLink.title l (hydrateFootnoteLinks es) :=
  ⟨_, (collected_iff hydrateFootnoteLink_iff es _).2 rfl, stableSortedBy_stableSort FootnoteLink.title _⟩

example : hydrateFootnoteLinks
    [⟨[⟨⟨XLINK, "type"⟩, "extended"⟩, ⟨⟨XLINK, "role"⟩, ROLELINK⟩], [[⟨⟨XLINK, "type"⟩, "locator"⟩, ⟨⟨XLINK, "href"⟩, "#f1"⟩, ⟨⟨XLINK, "label"⟩, "l1"⟩]],
      [([⟨⟨XLINK, "type"⟩, "resource"⟩, ⟨⟨"", "id"⟩, "n1"⟩, ⟨⟨XLINK, "label"⟩, "n1"⟩, ⟨⟨"xml", "lang"⟩, "en-US"⟩], "<p>note</p>")],
      [[⟨⟨XLINK, "type"⟩, "arc"⟩, ⟨⟨XLINK, "arcrole"⟩, FactFootnoteArcrole⟩, ⟨⟨XLINK, "from"⟩, "l1"⟩, ⟨⟨XLINK, "to"⟩, "n1"⟩]]⟩] =
    [⟨"", [⟨"n1", "<p>note</p>", "en-US", "n1"⟩], [⟨"#f1", "l1"⟩], [⟨"l1", "n1", FactFootnoteArcrole⟩]⟩] := by decide +kernel

end Telefacts
