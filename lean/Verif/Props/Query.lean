import Verif.Proof.Query
/-! # C26, C27, C29, C30: units, facts and footnotes of a folder -/
namespace Telefacts
open Telefacts.Query Telefacts.Instance Telefacts.Linkbase Telefacts.Spec

/-- **C27.** The registry has an entry for a namespace and an id iff the (first `units` element of the)
registry file has a complete unit with them; it is that of the last such unit. -/
theorem C27_registry (us : List UtrUnit) (rest : List (List UtrUnit)) (n : XName) :
    ((∃ m, queryUTR (some (mapMeasurements (us :: rest))) n.space n.loc = some m) ↔
      ∃ u ∈ us, ∃ m, MeasurementOf u m ∧ m.nsUnit = n.space ∧ m.unitID = n.loc) ∧
    ∀ m, queryUTR (some (mapMeasurements (us :: rest))) n.space n.loc = some m ↔ EntryOf us n m := by
  refine ⟨?_, fun m => queryUTR_iff us rest n m⟩
  simp only [queryUTR_iff, EntryOf]
  have hc := (collected_iff newItem_iff us _).2 rfl
  constructor
  · rintro ⟨m, l, hl, hm⟩
    obtain ⟨u, hu, hr⟩ := collected_mem hl m (lastWith_mem hm).1
    exact ⟨u, hu, m, hr, (lastWith_mem hm).2⟩
  · rintro ⟨u, hu, m, hr, hn⟩
    have hm : m ∈ us.filterMap newItem := List.mem_filterMap.2 ⟨u, hu, (newItem_iff u m).2 hr⟩
    obtain ⟨m', hm'⟩ := lastWith_exists (fun m : Measurement => m.nsUnit = n.space ∧ m.unitID = n.loc) ⟨m, hm, hn⟩
    exact ⟨m', _, hc, hm'⟩

def utrUnit (ns id name : String) : UtrUnit :=
  ⟨[id], [name], [ns], [], [], [], [], [], [], [], [], [], [], [], [], [], []⟩
def measurement (ns id name : String) : Measurement :=
  ⟨id, name, ns, "", "", "", "", "", "", "", "", "", "", "", "", "", ""⟩

def sampleUtr : Registry :=
  mapMeasurements [[utrUnit "iso" "USD" "Dollar", utrUnit "xbrli" "shares" "Share", utrUnit "iso" "USD" "US Dollar",
    utrUnit "iso" "" "No id"]]

example : queryUTR (some sampleUtr) "iso" "USD" = some (measurement "iso" "USD" "US Dollar") ∧
    queryUTR (some sampleUtr) "xbrli" "shares" = some (measurement "xbrli" "shares" "Share") ∧
    queryUTR (some sampleUtr) "iso" "" = none := by decide +kernel

/-- **C26 (partial).** For the first unit with that id: a simple unit gives the entry of its measure, a divide
unit gives the entry of its numerator and the entry with the namespace of the denominator and the *local name
of the numerator*; this is the entry of the denominator when both have the same local name. No unit, no
measurement. Missing: the entry of the denominator in general (`C26_fails`). -/
theorem C26_measurement_partial (us : List UtrUnit) (rest : List (List UtrUnit)) (insts : List HInstance)
    (unitRef : String) :
    ((∀ i ∈ insts, ∀ u ∈ i.units, u.id ≠ unitRef) →
      findMeasurement (some (mapMeasurements (us :: rest))) insts unitRef = (none, none)) ∧
    ∀ u : HUnit, FirstWith (fun u : HUnit => u.id = unitRef) (insts.flatMap HInstance.units) u →
      ∀ a b, findMeasurement (some (mapMeasurements (us :: rest))) insts unitRef = (a, b) →
      (u.measure.chars ≠ "" → b = none ∧ ∀ m, a = some m ↔ EntryOf us u.measure.name m) ∧
      (u.measure.chars = "" → u.numerator.chars ≠ "" → u.denominator.chars ≠ "" →
        (∀ m, a = some m ↔ EntryOf us u.numerator.name m) ∧
        (∀ m, b = some m ↔ EntryOf us ⟨u.denominator.name.space, u.numerator.name.loc⟩ m) ∧
        (u.numerator.name.loc = u.denominator.name.loc → ∀ m, b = some m ↔ EntryOf us u.denominator.name m)) := by
  constructor
  · intro h
    unfold findMeasurement
    have : (insts.flatMap HInstance.units).find? (fun u => decide (u.id = unitRef)) = none := by
      rw [List.find?_eq_none]
      intro u hu
      obtain ⟨i, hi, hu⟩ := List.mem_flatMap.1 hu
      simpa using h i hi u hu
    rw [this]
  · intro u hu a b hab
    unfold findMeasurement at hab
    have hf := (firstWith_iff_find (fun u : HUnit => decide (u.id = unitRef)) (insts.flatMap HInstance.units) u).1
      (by simpa only [decide_eq_true_eq] using hu)
    rw [hf] at hab
    simp only [measurementsOf] at hab
    constructor
    · intro hc
      rw [if_neg hc] at hab
      simp only [Prod.mk.injEq] at hab
      obtain ⟨rfl, rfl⟩ := hab
      exact ⟨rfl, fun m => queryUTR_iff us rest _ m⟩
    · intro hc hn hd
      rw [if_pos hc, if_neg (by simp [hn, hd])] at hab
      simp only [Prod.mk.injEq] at hab
      obtain ⟨rfl, rfl⟩ := hab
      have h2 := fun m => queryUTR_iff us rest ⟨u.denominator.name.space, u.numerator.name.loc⟩ m
      refine ⟨fun m => queryUTR_iff us rest _ m, h2, ?_⟩
      intro he m
      rw [h2 m, he]

def perShare : HInstance :=
  ⟨"i.xml", [], [⟨"usdPerShare", .zero, ⟨⟨"iso", "USD"⟩, "iso4217:USD"⟩, ⟨⟨"xbrli", "shares"⟩, "xbrli:shares"⟩⟩,
    ⟨"usd", ⟨⟨"iso", "USD"⟩, "iso4217:USD"⟩, .zero, .zero⟩], [], []⟩

example : findMeasurement (some sampleUtr) [perShare] "usd" = (some (measurement "iso" "USD" "US Dollar"), none) := by
  decide +kernel

/-- The denominator of dollars per share is registered, but not found. -/
theorem C26_fails : ∃ (us : List UtrUnit) (insts : List HInstance) (u : HUnit) (m : Measurement),
    FirstWith (fun u : HUnit => u.id = "usdPerShare") (insts.flatMap HInstance.units) u ∧
    u.measure.chars = "" ∧ u.numerator.chars ≠ "" ∧ u.denominator.chars ≠ "" ∧
    EntryOf us u.denominator.name m ∧ (findMeasurement (some (mapMeasurements [us])) insts "usdPerShare").2 = none := by
  refine ⟨[utrUnit "iso" "USD" "Dollar", utrUnit "xbrli" "shares" "Share"], [perShare],
    ⟨"usdPerShare", .zero, ⟨⟨"iso", "USD"⟩, "iso4217:USD"⟩, ⟨⟨"xbrli", "shares"⟩, "xbrli:shares"⟩⟩,
    measurement "xbrli" "shares" "Share", ⟨[], _, rfl, rfl, by simp⟩, rfl, by decide, by decide, ?_, by decide +kernel⟩
  rw [← queryUTR_iff _ []]
  decide +kernel

/-- **C29.** For every iteration order of the instances, `FindFact` finds a fact iff the folder has one with
that href and context, and then such a fact; with one instance it is the first one, which has the least id. -/
theorem C29_find_fact (insts order : List HInstance) (ho : order.Perm insts) (href ctx : String) :
    (findFact order href ctx = none ↔ ∀ i ∈ insts, ∀ f ∈ i.facts, ¬ (f.href = href ∧ f.contextRef = ctx)) ∧
    (∀ f, findFact order href ctx = some f → (∃ i ∈ insts, f ∈ i.facts) ∧ f.href = href ∧ f.contextRef = ctx) ∧
    (∀ i f, insts = [i] → findFact order href ctx = some f →
      FirstWith (fun f : Fact => f.href = href ∧ f.contextRef = ctx) i.facts f ∧
      ∀ w es, i.facts = hydrateFacts w es →
        ∀ g ∈ i.facts, g.href = href → g.contextRef = ctx → ¬ g.id < f.id) := by
  unfold findFact
  refine ⟨?_, ?_, ?_⟩
  · rw [List.find?_eq_none]
    constructor
    · intro h i hi f hf
      simpa using h f (List.mem_flatMap.2 ⟨i, ho.mem_iff.2 hi, hf⟩)
    · intro h f hf
      obtain ⟨i, hi, hf⟩ := List.mem_flatMap.1 hf
      simpa using h i (ho.mem_iff.1 hi) f hf
  · intro f h
    have h1 := List.find?_some h
    simp only [decide_eq_true_eq] at h1
    obtain ⟨i, hi, hf⟩ := List.mem_flatMap.1 (List.mem_of_find?_eq_some h)
    exact ⟨⟨i, ho.mem_iff.1 hi, hf⟩, h1⟩
  · intro i f hi h
    subst hi
    rw [List.perm_singleton.1 ho] at h
    simp only [List.flatMap_cons, List.flatMap_nil, List.append_nil] at h
    have hw := (firstWith_iff_find _ _ _).2 h
    simp only [decide_eq_true_eq] at hw
    refine ⟨hw, ?_⟩
    intro w es he g hg h1 h2
    have hs := (stableSortedBy_stableSort Fact.id (es.filterMap (hydrateFact w))).2.1
    have hs' : i.facts.Pairwise (fun a b => ¬ b.id < a.id) := by rw [he]; exact hs
    obtain ⟨pre, post, hp, _, hno⟩ := hw
    rw [hp] at hg hs'
    rcases List.mem_append.1 hg with hg | hg
    · exact absurd ⟨h1, h2⟩ (hno g hg)
    · rcases List.mem_cons.1 hg with rfl | hg
      · exact String.lt_irrefl _
      · exact (List.pairwise_cons.1 (List.pairwise_append.1 hs').2.1).1 g hg

def factOf (href id ctx : String) : Fact := ⟨href, id, ctx, "", 0, false, ""⟩

example : findFact [⟨"i", [], [], [], [factOf "a" "1" "c", factOf "b" "2" "c", factOf "b" "3" "c"]⟩] "b" "c" =
    some (factOf "b" "2" "c") := by decide +kernel

/-- **C30 (partial).** A footnote connected to the fact is returned if every footnote link has an arc, only
the arcs from one label of one link start at the fact, the footnote's id is its label and no other footnote
of the folder has that id. Everything returned is connected to the fact, by id. Missing: other folders
(`C30_fails`). Assumes of the `arcs` library only `Faithful`. -/
theorem C30_footnotes_partial (tree : List FootnoteArc → RTree) (ht : Faithful tree) (insts : List HInstance) (f : Fact)
    (hid : '#' ∉ f.id.toList)
    (hlab : ∀ i ∈ insts, ∀ link ∈ i.footnoteLinks, ∀ a ∈ link.arcs, a.frm ≠ "" ∧ a.to ≠ "" ∧ '#' ∉ a.frm.toList ∧ '#' ∉ a.to.toList)
    (hb : ∀ i ∈ insts, ∀ link ∈ i.footnoteLinks, Bipartite link.arcs) :
    (∀ i ∈ insts, ∀ link ∈ i.footnoteLinks, ∀ fn label, Connects i link f.id fn →
      (∀ i ∈ insts, ∀ link ∈ i.footnoteLinks, link.arcs ≠ []) →
      (∀ i' ∈ insts, ∀ link' ∈ i'.footnoteLinks, ∀ a ∈ link'.arcs, Refers i' a.frm f.id →
        i' = i ∧ link' = link ∧ a.frm = label) →
      fn.id = fn.label → (∀ l ∈ i.footnoteLinks.flatMap FootnoteLink.locs, l.label ≠ fn.label) →
      (∀ i ∈ insts, ∀ link ∈ i.footnoteLinks, ∀ fn' ∈ link.footnotes, fn'.id = fn.id → fn' = fn) →
      fn ∈ getFootnotes tree insts (some f)) ∧
    (∀ fn ∈ getFootnotes tree insts (some f), (∃ i ∈ insts, ∃ link ∈ i.footnoteLinks, fn ∈ link.footnotes) ∧
      ∃ i ∈ insts, ∃ link ∈ i.footnoteLinks, ∃ a ∈ link.arcs, Refers i a.frm f.id ∧
        ('#' ∉ fn.id.toList → Refers i a.to fn.id)) := by
  constructor
  · rintro i hi link hlink fn label ⟨hfn, a, ha, hr, hto⟩ hne hu hidl hloc huniq
    have hbl := hb i hi link hlink
    have hlk := hlab i hi link hlink
    obtain ⟨c, hc, hca⟩ := (ht.sources link.arcs hbl a.frm).2 ⟨a, ha, rfl⟩
    have hmem : (i, link) ∈ (insts.flatMap fun i => i.footnoteLinks.map fun l => (i, l)) :=
      (mem_links _ _).2 ⟨hi, hlink⟩
    obtain ⟨c', hc', hres⟩ := footnotesLoop_hit tree insts f.id _ i link hmem
      ⟨c, hc, by rw [hca]; exact (refers_iff i a.frm f.id (hlk a ha).2.2.1 (hlk a ha).1 hid).2 hr⟩
      (by
        rintro ⟨i', link'⟩ hp
        obtain ⟨h1, h2⟩ := (mem_links _ _).1 hp
        simp only at h1 h2 ⊢
        intro h0
        cases hal : link'.arcs with
        | nil => exact hne i' h1 link' h2 hal
        | cons b bs =>
          obtain ⟨c, hc, _⟩ := (ht.sources link'.arcs (hb i' h1 link' h2) b.frm).2 ⟨b, by simp [hal], rfl⟩
          rw [h0] at hc; simp at hc)
      (by
        rintro ⟨i', link'⟩ hp c' hc' he
        obtain ⟨h1, h2⟩ := (mem_links _ _).1 hp
        simp only at h1 h2 hc' he
        obtain ⟨b, hbm, hbf⟩ := (ht.sources link'.arcs (hb i' h1 link' h2) c'.locator).1 ⟨c', hc', rfl⟩
        have hlb := hlab i' h1 link' h2 b hbm
        rw [← hbf] at he
        obtain ⟨e1, e2, _⟩ := hu i' h1 link' h2 b hbm ((refers_iff i' b.frm f.id hlb.2.2.1 hlb.1 hid).1 he)
        rw [e1, e2])
    show fn ∈ footnotesLoop tree insts f.id _
    rw [hres]
    obtain ⟨hc'm, hc'r⟩ := firstWith_mem hc'
    obtain ⟨b, hbm, hbf⟩ := (ht.sources link.arcs hbl c'.locator).1 ⟨c', hc'm, rfl⟩
    have hlb := hlk b hbm
    rw [← hbf] at hc'r
    have hbl' := (hu i hi link hlink b hbm ((refers_iff i b.frm f.id hlb.2.2.1 hlb.1 hid).1 hc'r)).2.2
    have hal := (hu i hi link hlink a ha hr).2.2
    obtain ⟨g, hg, hgl⟩ := (ht.targets link.arcs hbl c' hc'm a.to).2 ⟨a, ha, by rw [hal, ← hbl', hbf], rfl⟩
    unfold footnotesBelow
    rw [List.mem_filterMap]
    refine ⟨g, hg, ?_⟩
    rw [hgl, ← hto, locatedID_label i fn.label (by rw [hto]; exact (hlk a ha).2.2.2) (by rw [hto]; exact (hlk a ha).2.1) hloc]
    unfold findFootnote
    rw [← hidl]
    cases hf : ((insts.flatMap HInstance.footnoteLinks).flatMap FootnoteLink.footnotes).find?
        (fun f => decide (f.id = fn.id)) with
    | none =>
      have := List.find?_eq_none.1 hf fn (by
        simp only [List.mem_flatMap]
        exact ⟨link, ⟨i, hi, hlink⟩, hfn⟩)
      simp at this
    | some fn' =>
      have h1 := List.find?_some hf
      have h2 := List.mem_of_find?_eq_some hf
      simp only [decide_eq_true_eq] at h1
      simp only [List.mem_flatMap] at h2
      obtain ⟨link', ⟨i', hi', hl'⟩, hm'⟩ := h2
      rw [huniq i' hi' link' hl' fn' hm' h1]
  · intro fn hfn
    replace hfn : fn ∈ footnotesLoop tree insts f.id _ := hfn
    obtain ⟨⟨i, link⟩, hp, c, hc, he, g, hg, hq⟩ := footnotesLoop_mem hfn
    obtain ⟨h1, h2⟩ := (mem_links _ _).1 hp
    simp only at h1 h2 hc he hq
    obtain ⟨a, ha, haf, hat⟩ := (ht.targets link.arcs (hb i h1 link h2) c hc g.locator).1 ⟨g, hg, rfl⟩
    have hla := hlab i h1 link h2 a ha
    have e1 := List.find?_some hq
    have e2 := List.mem_of_find?_eq_some hq
    simp only [decide_eq_true_eq] at e1
    simp only [List.mem_flatMap] at e2
    obtain ⟨link', ⟨i', hi', hl'⟩, hm'⟩ := e2
    refine ⟨⟨i', hi', link', hl', hm'⟩, i, h1, link, h2, a, ha, ?_, ?_⟩
    · rw [← refers_iff i a.frm f.id hla.2.2.1 hla.1 hid, haf]; exact he
    · intro hfid
      rw [← refers_iff i a.to fn.id hla.2.2.2 hla.2.1 hfid, hat]; exact e1.symm

def noteLink (arcs : List FootnoteArc) (fn : List Footnote) : FootnoteLink := ⟨"", fn, [⟨"#f1", "l1"⟩], arcs⟩

example : Faithful groupTree ∧
    getFootnotes groupTree [⟨"i", [], [], [noteLink [⟨"l1", "n1", FactFootnoteArcrole⟩, ⟨"l1", "n2", FactFootnoteArcrole⟩]
      [⟨"n1", "one", "en", "n1"⟩, ⟨"n2", "two", "en", "n2"⟩]], []⟩] (some (factOf "a" "f1" "c")) =
    [⟨"n1", "one", "en", "n1"⟩, ⟨"n2", "two", "en", "n2"⟩] := ⟨groupTree_faithful, by decide +kernel⟩

/-- A connected footnote is not returned when a link without arcs comes first, when its id differs from its
label, when the fact is connected by two links, or by two locators of one link. -/
theorem C30_fails : ∃ (tree : List FootnoteArc → RTree) (f : Fact), Faithful tree ∧
    (∃ i link fn, link ∈ i.footnoteLinks ∧ Connects i link f.id fn ∧ fn.id = fn.label ∧
      getFootnotes tree [i] (some f) = [] ∧ (∃ l ∈ i.footnoteLinks, l.arcs = [])) ∧
    (∃ i link fn, i.footnoteLinks = [link] ∧ Connects i link f.id fn ∧ fn.id ≠ fn.label ∧
      getFootnotes tree [i] (some f) = []) ∧
    (∃ i link fn, link ∈ i.footnoteLinks ∧ Connects i link f.id fn ∧ fn.id = fn.label ∧
      fn ∉ getFootnotes tree [i] (some f) ∧ ∀ l ∈ i.footnoteLinks, l.arcs ≠ []) ∧
    (∃ i link fn, i.footnoteLinks = [link] ∧ Connects i link f.id fn ∧ fn.id = fn.label ∧
      fn ∉ getFootnotes tree [i] (some f)) := by
  refine ⟨groupTree, factOf "a" "f1" "c", groupTree_faithful, ?_, ?_, ?_, ?_⟩
  · refine ⟨⟨"i", [], [], [noteLink [] [], noteLink [⟨"l1", "n1", FactFootnoteArcrole⟩] [⟨"n1", "one", "en", "n1"⟩]], []⟩,
      noteLink [⟨"l1", "n1", FactFootnoteArcrole⟩] [⟨"n1", "one", "en", "n1"⟩], ⟨"n1", "one", "en", "n1"⟩, by simp,
      ⟨by simp [noteLink], ⟨"l1", "n1", FactFootnoteArcrole⟩, by simp [noteLink], ?_, rfl⟩, rfl, by decide +kernel,
      ⟨noteLink [] [], by simp, rfl⟩⟩
    rw [← refers_iff _ _ _ (by decide) (by decide) (by decide)]; decide +kernel
  · refine ⟨⟨"i", [], [], [noteLink [⟨"l1", "n1", FactFootnoteArcrole⟩] [⟨"x1", "one", "en", "n1"⟩]], []⟩,
      noteLink [⟨"l1", "n1", FactFootnoteArcrole⟩] [⟨"x1", "one", "en", "n1"⟩], ⟨"x1", "one", "en", "n1"⟩, by simp,
      ⟨by simp [noteLink], ⟨"l1", "n1", FactFootnoteArcrole⟩, by simp [noteLink], ?_, rfl⟩, by decide, by decide +kernel⟩
    rw [← refers_iff _ _ _ (by decide) (by decide) (by decide)]; decide +kernel
  · refine ⟨⟨"i", [], [], [noteLink [⟨"l1", "n1", FactFootnoteArcrole⟩] [⟨"n1", "one", "en", "n1"⟩],
        noteLink [⟨"l1", "n2", FactFootnoteArcrole⟩] [⟨"n2", "two", "en", "n2"⟩]], []⟩,
      noteLink [⟨"l1", "n2", FactFootnoteArcrole⟩] [⟨"n2", "two", "en", "n2"⟩], ⟨"n2", "two", "en", "n2"⟩, by simp,
      ⟨by simp [noteLink], ⟨"l1", "n2", FactFootnoteArcrole⟩, by simp [noteLink], ?_, rfl⟩, rfl, by decide +kernel,
      by simp [noteLink]⟩
    rw [← refers_iff _ _ _ (by decide) (by decide) (by decide)]; decide +kernel
  · refine ⟨⟨"i", [], [], [⟨"", [⟨"n1", "one", "en", "n1"⟩, ⟨"n2", "two", "en", "n2"⟩], [⟨"#f1", "l1"⟩, ⟨"#f1", "l2"⟩],
        [⟨"l1", "n1", FactFootnoteArcrole⟩, ⟨"l2", "n2", FactFootnoteArcrole⟩]⟩], []⟩,
      ⟨"", [⟨"n1", "one", "en", "n1"⟩, ⟨"n2", "two", "en", "n2"⟩], [⟨"#f1", "l1"⟩, ⟨"#f1", "l2"⟩],
        [⟨"l1", "n1", FactFootnoteArcrole⟩, ⟨"l2", "n2", FactFootnoteArcrole⟩]⟩, ⟨"n2", "two", "en", "n2"⟩, by simp,
      ⟨by simp, ⟨"l2", "n2", FactFootnoteArcrole⟩, by simp, ?_, rfl⟩, rfl, by decide +kernel⟩
    rw [← refers_iff _ _ _ (by decide) (by decide) (by decide)]; decide +kernel

end Telefacts
