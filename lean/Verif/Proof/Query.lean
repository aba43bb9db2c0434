import Verif.Spec.Query
import Verif.Proof.Instance
/-! # Proofs about the unit registry, fact lookup and footnotes -/
namespace Telefacts.Query
open Telefacts.Spec Telefacts.Linkbase Telefacts.Instance

theorem firstOr_iff (l : List String) (s : String) : firstOr l = s ↔ FirstText l s := by
  cases l with
  | nil => simp [firstOr, FirstText, eq_comm]
  | cons a r => simp [firstOr, FirstText]

theorem newItem_iff (u : UtrUnit) (m : Measurement) : newItem u = some m ↔ MeasurementOf u m := by
  obtain ⟨u1, u2, u3, u4, u5, u6, u7, u8, u9, u10, u11, u12, u13, u14, u15, u16, u17⟩ := u
  obtain ⟨m1, m2, m3, m4, m5, m6, m7, m8, m9, m10, m11, m12, m13, m14, m15, m16, m17⟩ := m
  constructor
  · intro h
    unfold newItem at h
    rcases u1 with _ | ⟨a, u1⟩
    · simp at h
    rcases u2 with _ | ⟨b, u2⟩
    · simp at h
    rcases u3 with _ | ⟨c, u3⟩
    · simp at h
    simp only at h
    split at h
    · simp at h
    rename_i hne
    simp only [not_or] at hne
    simp only [Option.some.injEq, Measurement.mk.injEq, firstOr_iff] at h
    obtain ⟨rfl, rfl, rfl, h4, h5, h6, h7, h8, h9, h10, h11, h12, h13, h14, h15, h16, h17⟩ := h
    exact ⟨⟨.inr ⟨_, rfl⟩, hne.1⟩, ⟨.inr ⟨_, rfl⟩, hne.2.1⟩, ⟨.inr ⟨_, rfl⟩, hne.2.2⟩, h4, h5, h6, h7, h8, h9, h10, h11,
      h12, h13, h14, h15, h16, h17⟩
  · rintro ⟨⟨h1, n1⟩, ⟨h2, n2⟩, ⟨h3, n3⟩, h4, h5, h6, h7, h8, h9, h10, h11, h12, h13, h14, h15, h16, h17⟩
    simp only at h1 n1 h2 n2 h3 n3
    rcases h1 with ⟨_, h1⟩ | ⟨r1, rfl⟩
    · exact absurd h1 n1
    rcases h2 with ⟨_, h2⟩ | ⟨r2, rfl⟩
    · exact absurd h2 n2
    rcases h3 with ⟨_, h3⟩ | ⟨r3, rfl⟩
    · exact absurd h3 n3
    unfold newItem
    simp only [n1, n2, n3, or_self, if_false, Option.some.injEq, Measurement.mk.injEq, firstOr_iff]
    exact ⟨trivial, trivial, trivial, h4, h5, h6, h7, h8, h9, h10, h11, h12, h13, h14, h15, h16, h17⟩

theorem foldl_measureStep (us : List UtrUnit) (m : Registry) :
    us.foldl measureStep m = (us.filterMap newItem).foldl register m := by
  induction us generalizing m with
  | nil => rfl
  | cons u us ih =>
    simp only [List.foldl_cons, List.filterMap_cons, measureStep]
    cases newItem u with
    | none => exact ih m
    | some x => simp only [List.foldl_cons]; exact ih _

theorem queryUTR_register (m : Registry) (x : Measurement) (ns id : String) :
    queryUTR (some (register m x)) ns id =
      if x.nsUnit = ns ∧ x.unitID = id then some x else queryUTR (some m) ns id := by
  simp only [queryUTR, register, mapGet_mapSet]
  by_cases h1 : x.nsUnit = ns
  · subst h1
    simp only [if_pos, true_and, mapGet_mapSet]
    by_cases h2 : x.unitID = id
    · simp [h2]
    · simp only [h2, if_false]
      cases mapGet m x.nsUnit <;> rfl
  · simp [h1]

theorem queryUTR_registered (l : List Measurement) (ns id : String) (m : Measurement) :
    queryUTR (some (l.foldl register [])) ns id = some m ↔
      LastWith (fun m => m.nsUnit = ns ∧ m.unitID = id) l m := by
  induction l using snocInd with
  | nil => simp [queryUTR, not_lastWith_nil]
  | snoc l x ih =>
    rw [List.foldl_append, List.foldl_cons, List.foldl_nil, queryUTR_register, lastWith_append_singleton, ← ih]
    by_cases h : x.nsUnit = ns ∧ x.unitID = id
    · simp [h, eq_comm]
    · simp [h]

theorem queryUTR_iff (us : List UtrUnit) (rest : List (List UtrUnit)) (n : XName) (m : Measurement) :
    queryUTR (some (mapMeasurements (us :: rest))) n.space n.loc = some m ↔ EntryOf us n m := by
  show queryUTR (some (us.foldl measureStep [])) n.space n.loc = some m ↔ _
  unfold EntryOf
  rw [foldl_measureStep, queryUTR_registered]
  constructor
  · intro h; exact ⟨_, (collected_iff newItem_iff us _).2 rfl, h⟩
  · rintro ⟨l, hl, h⟩; rw [(collected_iff newItem_iff us l).1 hl] at h; exact h

/-! ## Footnotes -/

theorem lastFragment_none (cs : List Char) : lastFragment cs = none ↔ '#' ∉ cs := by
  induction cs with
  | nil => simp [lastFragment]
  | cons c cs ih =>
    unfold lastFragment
    cases h : lastFragment cs with
    | some r =>
      have : '#' ∈ cs := by
        by_contra hn; rw [ih.2 hn] at h; simp at h
      simp [this]
    | none =>
      have := ih.1 h
      by_cases hc : c = '#'
      · simp [hc]
      · simp [hc, this, Ne.symm hc]

theorem lastFragment_some (cs r : List Char) :
    lastFragment cs = some r ↔ ∃ pre, cs = pre ++ '#' :: r ∧ '#' ∉ r := by
  induction cs generalizing r with
  | nil => simp [lastFragment]
  | cons c cs ih =>
    unfold lastFragment
    cases h : lastFragment cs with
    | some r' =>
      obtain ⟨pre, rfl, hr⟩ := (ih r').1 h
      simp only [Option.some.injEq]
      constructor
      · rintro rfl; exact ⟨c :: pre, by simp, hr⟩
      · rintro ⟨pre', he, hr'⟩
        cases pre' with
        | nil =>
          simp only [List.nil_append, List.cons.injEq] at he
          exact absurd (by rw [← he.2]; simp) hr'
        | cons d pre' =>
          simp only [List.cons_append, List.cons.injEq] at he
          have := (ih r).2 ⟨pre', he.2, hr'⟩
          rw [h] at this; exact Option.some.inj this
    | none =>
      have hcs := (lastFragment_none cs).1 h
      by_cases hc : c = '#'
      · subst hc
        simp only [if_true, Option.some.injEq]
        constructor
        · rintro rfl; exact ⟨[], rfl, hcs⟩
        · rintro ⟨pre', he, hr'⟩
          cases pre' with
          | nil => simpa using he
          | cons d pre' =>
            simp only [List.cons_append, List.cons.injEq] at he
            exact absurd (by rw [he.2]; simp) hcs
      · simp only [if_neg hc]
        constructor
        · simp
        · rintro ⟨pre', he, hr'⟩
          cases pre' with
          | nil => simp only [List.nil_append, List.cons.injEq] at he; exact absurd he.1 hc
          | cons d pre' =>
            simp only [List.cons_append, List.cons.injEq] at he
            exact absurd (by rw [he.2]; simp) hcs

theorem locatedID_iff (href id : String) (hh : '#' ∈ href.toList) (hid : '#' ∉ id.toList) :
    locatedID href = id ↔ ∃ pre, href = pre ++ "#" ++ id ∧ id ≠ "" := by
  unfold locatedID
  cases h : lastFragment href.toList with
  | none => exact absurd hh ((lastFragment_none _).1 h)
  | some r =>
    obtain ⟨pre, he, hr⟩ := (lastFragment_some _ _).1 h
    have hhref : href = String.ofList (pre ++ '#' :: r) := by rw [← he, String.ofList_toList]
    constructor
    · intro hl
      cases r with
      | nil => simp only at hl; rw [← hl] at hid; exact absurd hh hid
      | cons c r =>
        simp only at hl
        subst hl
        refine ⟨String.ofList pre, ?_, ?_⟩
        · rw [hhref]; apply String.toList_inj.1; simp
        · intro h0; have := congrArg String.toList h0; simp at this
    · rintro ⟨pre', hp, hne⟩
      have h2 : lastFragment href.toList = some id.toList :=
        (lastFragment_some _ _).2 ⟨pre'.toList, by rw [hp]; simp, hid⟩
      rw [h] at h2
      have h3 : r = id.toList := Option.some.inj h2
      cases r with
      | nil =>
        exfalso; apply hne
        apply String.toList_inj.1; rw [← h3]; rfl
      | cons c r => simp only; rw [h3, String.ofList_toList]

theorem refers_iff (i : HInstance) (label id : String) (hl : '#' ∉ label.toList) (hn : label ≠ "")
    (hid : '#' ∉ id.toList) : locatedID (locatorToHref i label) = id ↔ Refers i label id := by
  unfold locatorToHref Refers RefersIn
  cases h : (i.footnoteLinks.flatMap FootnoteLink.locs).find? (fun l => decide (l.label = label ∧ '#' ∈ l.href.toList)) with
  | some l =>
    have hf := (firstWith_iff_find _ _ _).2 h
    simp only [decide_eq_true_eq] at hf
    simp only
    have hm : '#' ∈ l.href.toList := by obtain ⟨_, _, _, h, _⟩ := hf; exact h.2
    rw [locatedID_iff _ _ hm hid]
    constructor
    · rintro ⟨pre, he, hne⟩; exact .inl ⟨l, pre, hf, he, hne, hid⟩
    · rintro (⟨l', pre, hf', he, hne, _⟩ | ⟨hno, _⟩)
      · rw [firstWith_unique hf' hf] at he; exact ⟨pre, he, hne⟩
      · exact absurd (firstWith_mem hf).2 (hno l (firstWith_mem hf).1)
  | none =>
    have hno := List.find?_eq_none.1 h
    simp only [decide_eq_true_eq] at hno
    simp only
    rw [locatedID_iff _ _ (by simp) hid]
    constructor
    · rintro ⟨pre, he, _⟩
      refine .inr ⟨hno, ?_⟩
      have e1 := (lastFragment_some ("#" ++ label).toList label.toList).2 ⟨[], by simp, hl⟩
      rw [(lastFragment_some ("#" ++ label).toList id.toList).2 ⟨pre.toList, by rw [he]; simp, hid⟩] at e1
      exact String.toList_inj.1 (Option.some.inj e1)
    · rintro (⟨l', pre, hf', _⟩ | ⟨_, rfl⟩)
      · exact absurd (firstWith_mem hf').2 (hno l' (firstWith_mem hf').1)
      · exact ⟨"", by simp, hn⟩

theorem locatedID_label (i : HInstance) (label : String) (hl : '#' ∉ label.toList) (hn : label ≠ "")
    (h : ∀ l ∈ i.footnoteLinks.flatMap FootnoteLink.locs, l.label ≠ label) :
    locatedID (locatorToHref i label) = label := by
  rw [refers_iff i label label hl hn hl]
  exact .inr ⟨fun l hm hc => h l hm hc.1, rfl⟩

theorem mem_links (insts : List HInstance) (p : HInstance × FootnoteLink) :
    p ∈ (insts.flatMap fun i => i.footnoteLinks.map fun l => (i, l)) ↔ p.1 ∈ insts ∧ p.2 ∈ p.1.footnoteLinks := by
  obtain ⟨i, l⟩ := p
  simp only [List.mem_flatMap, List.mem_map, Prod.mk.injEq]
  constructor
  · rintro ⟨j, hj, k, hk, rfl, rfl⟩; exact ⟨hj, hk⟩
  · rintro ⟨h1, h2⟩; exact ⟨i, h1, l, h2, rfl, rfl⟩

/-- Which footnotes the loop returns, for any tree. -/
theorem footnotesLoop_hit (tree : List FootnoteArc → RTree) (insts : List HInstance) (id : String)
    (l : List (HInstance × FootnoteLink)) (i : HInstance) (link : FootnoteLink) (hm : (i, link) ∈ l)
    (hc : ∃ c ∈ (tree link.arcs).children, locatedID (locatorToHref i c.locator) = id)
    (hne : ∀ p ∈ l, (tree p.2.arcs).children ≠ [])
    (hu : ∀ p ∈ l, ∀ c ∈ (tree p.2.arcs).children, locatedID (locatorToHref p.1 c.locator) = id → p = (i, link)) :
    ∃ c, FirstWith (fun c : RTree => locatedID (locatorToHref i c.locator) = id) (tree link.arcs).children c ∧
      footnotesLoop tree insts id l = footnotesBelow insts i c := by
  induction l with
  | nil => simp at hm
  | cons p l ih =>
    obtain ⟨i', link'⟩ := p
    unfold footnotesLoop footnotesIn
    have h0 : (tree link'.arcs).children.isEmpty = false := by
      have := hne (i', link') (by simp)
      simpa using this
    simp only [h0]
    cases hf : (tree link'.arcs).children.find? (fun c => decide (locatedID (locatorToHref i' c.locator) = id)) with
    | some c =>
      have hw := (firstWith_iff_find _ _ _).2 hf
      simp only [decide_eq_true_eq] at hw
      have := hu (i', link') (by simp) c (firstWith_mem hw).1 (firstWith_mem hw).2
      simp only [Prod.mk.injEq] at this
      obtain ⟨rfl, rfl⟩ := this
      exact ⟨c, hw, by simp⟩
    | none =>
      have hno := List.find?_eq_none.1 hf
      simp only [decide_eq_true_eq] at hno
      simp only [Bool.false_eq_true, if_false]
      refine ih ?_ (fun p hp => hne p (List.mem_cons_of_mem _ hp)) (fun p hp => hu p (List.mem_cons_of_mem _ hp))
      rcases List.mem_cons.1 hm with h | h
      · simp only [Prod.mk.injEq] at h
        obtain ⟨rfl, rfl⟩ := h
        obtain ⟨c, hc, he⟩ := hc
        exact absurd he (hno c hc)
      · exact h

/-- Whatever the loop returns comes from some link. -/
theorem footnotesLoop_mem {tree : List FootnoteArc → RTree} {insts : List HInstance} {id : String}
    {l : List (HInstance × FootnoteLink)} {fn : Footnote} (h : fn ∈ footnotesLoop tree insts id l) :
    ∃ p ∈ l, ∃ c ∈ (tree p.2.arcs).children, locatedID (locatorToHref p.1 c.locator) = id ∧
      ∃ g ∈ c.children, findFootnote insts (locatedID (locatorToHref p.1 g.locator)) = some fn := by
  induction l with
  | nil => simp [footnotesLoop] at h
  | cons p l ih =>
    obtain ⟨i, link⟩ := p
    unfold footnotesLoop footnotesIn at h
    by_cases h0 : (tree link.arcs).children.isEmpty = true
    · simp [h0] at h
    simp only [h0] at h
    cases hf : (tree link.arcs).children.find? (fun c => decide (locatedID (locatorToHref i c.locator) = id)) with
    | some c =>
      have hw := (firstWith_iff_find _ _ _).2 hf
      simp only [decide_eq_true_eq] at hw
      simp only [hf, Bool.false_eq_true, if_false, footnotesBelow, List.mem_filterMap] at h
      exact ⟨(i, link), by simp, c, (firstWith_mem hw).1, (firstWith_mem hw).2, h⟩
    | none =>
      simp only [hf, Bool.false_eq_true, if_false] at h
      obtain ⟨p, hp, hr⟩ := ih h
      exact ⟨p, List.mem_cons_of_mem _ hp, hr⟩

/-- A tree of depth two, one node for every source. -/
def groupTree (arcs : List FootnoteArc) : RTree :=
  .node "" ((dedup (arcs.map FootnoteArc.frm)).map fun l =>
    .node l ((arcs.filter fun a => decide (a.frm = l)).map fun a => .node a.to []))

theorem groupTree_faithful : Faithful groupTree where
  sources := by
    intro arcs _ l
    simp only [groupTree, RTree.children, List.mem_map, mem_dedup]
    constructor
    · rintro ⟨c, ⟨l', ⟨a, ha, rfl⟩, rfl⟩, hl⟩; exact ⟨a, ha, hl⟩
    · rintro ⟨a, ha, rfl⟩; exact ⟨_, ⟨a.frm, ⟨a, ha, rfl⟩, rfl⟩, rfl⟩
  targets := by
    intro arcs _ c hc l
    simp only [groupTree, RTree.children, List.mem_map, mem_dedup] at hc
    obtain ⟨l', ⟨a, ha, rfl⟩, rfl⟩ := hc
    simp only [RTree.children, List.mem_map, List.mem_filter, decide_eq_true_eq, RTree.locator]
    constructor
    · rintro ⟨g, ⟨b, ⟨hb, he⟩, rfl⟩, hl⟩; exact ⟨b, hb, he, hl⟩
    · rintro ⟨b, hb, he, rfl⟩; exact ⟨_, ⟨b, ⟨hb, he⟩, rfl⟩, rfl⟩

end Telefacts.Query
