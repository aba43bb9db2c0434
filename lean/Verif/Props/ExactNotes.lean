import Verif.Props.Query
/-! # C30: exactly which footnotes are returned -/
namespace Telefacts
open Telefacts.Instance Telefacts.Query Telefacts.Spec

/-- The footnote links of all instances, in order. -/
def linksInOrder (insts : List HInstance) : List (HInstance × FootnoteLink) :=
  insts.flatMap fun i => i.footnoteLinks.map fun l => (i, l)

/-- A link that ends the search for footnotes of a fact: it has no arcs, or an arc from the fact. -/
def EndsSearch (id : String) (p : HInstance × FootnoteLink) : Prop :=
  p.2.arcs = [] ∨ ∃ a ∈ p.2.arcs, Refers p.1 a.frm id

/-- The first footnote of the folder whose id is what the label refers to. -/
def NotedAt (insts : List HInstance) (i : HInstance) (label : String) (fn : Footnote) : Prop :=
  ∃ id, Refers i label id ∧
    FirstWith (fun g : Footnote => g.id = id) ((insts.flatMap HInstance.footnoteLinks).flatMap FootnoteLink.footnotes) fn

/-- **C30.** The first link that has no arcs, or has one from the fact, decides: without arcs there are no footnotes, and otherwise they
are the first footnotes of the folder with the ids to which the arcs from one label of the fact lead. -/
theorem C30_exact (tree : List FootnoteArc → RTree) (ht : Faithful tree) (insts : List HInstance) (f : Fact)
    (hid : '#' ∉ f.id.toList)
    (hlab : ∀ i ∈ insts, ∀ link ∈ i.footnoteLinks, ∀ a ∈ link.arcs, a.frm ≠ "" ∧ a.to ≠ "" ∧ '#' ∉ a.frm.toList ∧ '#' ∉ a.to.toList)
    (hb : ∀ i ∈ insts, ∀ link ∈ i.footnoteLinks, Bipartite link.arcs)
    (hfn : ∀ i ∈ insts, ∀ link ∈ i.footnoteLinks, ∀ fn ∈ link.footnotes, '#' ∉ fn.id.toList) :
    ((∀ p ∈ linksInOrder insts, ¬ EndsSearch f.id p) → getFootnotes tree insts (some f) = []) ∧
    ∀ p, FirstWith (EndsSearch f.id) (linksInOrder insts) p →
      (p.2.arcs = [] → getFootnotes tree insts (some f) = []) ∧
      (p.2.arcs ≠ [] → ∃ label, (∃ a ∈ p.2.arcs, a.frm = label) ∧ Refers p.1 label f.id ∧
        ∀ fn, fn ∈ getFootnotes tree insts (some f) ↔ ∃ a ∈ p.2.arcs, a.frm = label ∧ NotedAt insts p.1 a.to fn) := by
  have hmem : ∀ p ∈ linksInOrder insts, p.1 ∈ insts ∧ p.2 ∈ p.1.footnoteLinks := fun p hp => (mem_links insts p).1 hp
  have hempty : ∀ p ∈ linksInOrder insts, p.2.arcs = [] → (tree p.2.arcs).children = [] := by
    intro p hp h0
    obtain ⟨h1, h2⟩ := hmem p hp
    rw [List.eq_nil_iff_forall_not_mem]
    intro c hc
    obtain ⟨a, ha, _⟩ := (ht.sources p.2.arcs (hb _ h1 _ h2) c.locator).1 ⟨c, hc, rfl⟩
    rw [h0] at ha
    cases ha
  have hfull : ∀ p ∈ linksInOrder insts, p.2.arcs ≠ [] → (tree p.2.arcs).children.isEmpty = false := by
    intro p hp h0
    obtain ⟨h1, h2⟩ := hmem p hp
    obtain ⟨a, ha⟩ := List.exists_mem_of_ne_nil _ h0
    obtain ⟨c, hc, _⟩ := (ht.sources p.2.arcs (hb _ h1 _ h2) a.frm).2 ⟨a, ha, rfl⟩
    cases h : (tree p.2.arcs).children with
    | nil => rw [h] at hc; cases hc
    | cons => rfl
  have hfrom : ∀ p ∈ linksInOrder insts, ∀ c ∈ (tree p.2.arcs).children, locatedID (locatorToHref p.1 c.locator) = f.id →
      (∃ a ∈ p.2.arcs, a.frm = c.locator) ∧ Refers p.1 c.locator f.id := by
    intro p hp c hc he
    obtain ⟨h1, h2⟩ := hmem p hp
    obtain ⟨a, ha, hac⟩ := (ht.sources p.2.arcs (hb _ h1 _ h2) c.locator).1 ⟨c, hc, rfl⟩
    have hla := hlab _ h1 _ h2 a ha
    rw [← hac] at he ⊢
    exact ⟨⟨a, ha, rfl⟩, (refers_iff p.1 a.frm f.id hla.2.2.1 hla.1 hid).1 he⟩
  have hskip : ∀ p ∈ linksInOrder insts, ¬ EndsSearch f.id p → footnotesIn tree insts f.id p.1 p.2 = none := by
    intro p hp hn
    unfold EndsSearch at hn
    rw [not_or] at hn
    unfold footnotesIn
    simp only [hfull p hp hn.1, Bool.false_eq_true, if_false]
    cases hfd : (tree p.2.arcs).children.find? (fun c => decide (locatedID (locatorToHref p.1 c.locator) = f.id)) with
    | none => rfl
    | some c =>
      exfalso
      obtain ⟨⟨a, ha, hac⟩, hr⟩ := hfrom p hp c (List.mem_of_find?_eq_some hfd) (by simpa using List.find?_some hfd)
      exact hn.2 ⟨a, ha, hac ▸ hr⟩
  have hloop : ∀ pre post : List (HInstance × FootnoteLink), (∀ p ∈ pre, footnotesIn tree insts f.id p.1 p.2 = none) →
      footnotesLoop tree insts f.id (pre ++ post) = footnotesLoop tree insts f.id post := by
    intro pre post
    induction pre with
    | nil => intro _; rfl
    | cons p pre ih =>
      intro h
      rw [List.cons_append]
      obtain ⟨i, link⟩ := p
      rw [footnotesLoop, h (i, link) (by simp)]
      exact ih fun p hp => h p (by simp [hp])
  have hget : getFootnotes tree insts (some f) = footnotesLoop tree insts f.id (linksInOrder insts) := rfl
  constructor
  · intro hno
    rw [hget, ← List.append_nil (linksInOrder insts), hloop _ _ fun p hp => hskip p hp (hno p hp)]
    rfl
  · rintro ⟨i, link⟩ ⟨pre, post, hsplit, hends, hpre⟩
    have hp : (i, link) ∈ linksInOrder insts := by rw [hsplit]; simp
    obtain ⟨h1, h2⟩ := hmem _ hp
    have hres : getFootnotes tree insts (some f) = footnotesLoop tree insts f.id ((i, link) :: post) := by
      rw [hget, hsplit, hloop _ _ fun p hp => hskip p (by rw [hsplit]; simp [hp]) (hpre p hp)]
    rw [hres]
    constructor
    · intro h0
      rw [footnotesLoop]
      unfold footnotesIn
      have := hempty _ hp h0
      simp only at this
      rw [this]
      rfl
    · intro h0
      have hne := hfull _ hp h0
      rcases hends with h | ⟨a, ha, hr⟩
      · exact absurd h h0
      obtain ⟨c0, hc0, hca⟩ := (ht.sources link.arcs (hb _ h1 _ h2) a.frm).2 ⟨a, ha, rfl⟩
      have hla := hlab _ h1 _ h2 a ha
      cases hfd : (tree link.arcs).children.find? (fun c => decide (locatedID (locatorToHref i c.locator) = f.id)) with
      | none =>
        have := List.find?_eq_none.1 hfd c0 hc0
        rw [hca] at this
        exact absurd ((refers_iff i a.frm f.id hla.2.2.1 hla.1 hid).2 hr) (by simpa using this)
      | some c =>
        have hc := List.mem_of_find?_eq_some hfd
        obtain ⟨hsrc, hrc⟩ := hfrom _ hp c hc (by simpa using List.find?_some hfd)
        refine ⟨c.locator, hsrc, hrc, fun fn => ?_⟩
        have hbelow : footnotesLoop tree insts f.id ((i, link) :: post) = footnotesBelow insts i c := by
          rw [footnotesLoop]
          unfold footnotesIn
          simp only at hne
          simp only [hne, hfd, Bool.false_eq_true, if_false]
        rw [hbelow]
        unfold footnotesBelow
        rw [List.mem_filterMap]
        have hfound : ∀ b ∈ link.arcs, findFootnote insts (locatedID (locatorToHref i b.to)) = some fn ↔ NotedAt insts i b.to fn := by
          intro b hbm
          have hlb := hlab _ h1 _ h2 b hbm
          unfold findFootnote NotedAt
          constructor
          · intro h
            have hf := (firstWith_iff_find _ _ _).2 h
            simp only [decide_eq_true_eq] at hf
            obtain ⟨hfm, hfe⟩ := firstWith_mem hf
            simp only [List.mem_flatMap] at hfm
            obtain ⟨l', ⟨i', hi', hl'⟩, hm'⟩ := hfm
            have hsharp := hfn i' hi' l' hl' fn hm'
            rw [hfe] at hsharp
            exact ⟨_, (refers_iff i b.to _ hlb.2.2.2 hlb.2.1 hsharp).1 rfl, hf⟩
          · rintro ⟨id, hr, hf⟩
            obtain ⟨hfm, hfe⟩ := firstWith_mem hf
            simp only [List.mem_flatMap] at hfm
            obtain ⟨l', ⟨i', hi', hl'⟩, hm'⟩ := hfm
            have hsharp := hfn i' hi' l' hl' fn hm'
            rw [hfe] at hsharp
            rw [(refers_iff i b.to id hlb.2.2.2 hlb.2.1 hsharp).2 hr]
            apply (firstWith_iff_find _ _ _).1
            simpa using hf
        constructor
        · rintro ⟨g, hg, hfg⟩
          obtain ⟨b, hbm, hbf, hbt⟩ := (ht.targets link.arcs (hb _ h1 _ h2) c hc g.locator).1 ⟨g, hg, rfl⟩
          rw [← hbt] at hfg
          exact ⟨b, hbm, hbf, (hfound b hbm).1 hfg⟩
        · rintro ⟨b, hbm, hbf, hnb⟩
          obtain ⟨g, hg, hgl⟩ := (ht.targets link.arcs (hb _ h1 _ h2) c hc b.to).2 ⟨b, hbm, hbf, rfl⟩
          refine ⟨g, hg, ?_⟩
          rw [hgl]
          exact (hfound b hbm).2 hnb

/-- Two links; the first decides. -/
example : FirstWith (EndsSearch "f1") (linksInOrder [⟨"i", [], [],
      [noteLink [⟨"l1", "n1", FactFootnoteArcrole⟩] [⟨"n1", "one", "en", "n1"⟩],
       noteLink [⟨"l1", "n2", FactFootnoteArcrole⟩] [⟨"n2", "two", "en", "n2"⟩]], []⟩])
    (⟨"i", [], [], [noteLink [⟨"l1", "n1", FactFootnoteArcrole⟩] [⟨"n1", "one", "en", "n1"⟩],
       noteLink [⟨"l1", "n2", FactFootnoteArcrole⟩] [⟨"n2", "two", "en", "n2"⟩]], []⟩,
      noteLink [⟨"l1", "n1", FactFootnoteArcrole⟩] [⟨"n1", "one", "en", "n1"⟩]) ∧
    Bipartite [⟨"l1", "n1", FactFootnoteArcrole⟩] := by
  refine ⟨⟨[], [_], rfl, .inr ⟨_, List.mem_singleton.2 rfl, ?_⟩, by simp⟩, by simp [Bipartite]⟩
  rw [← refers_iff _ _ _ (by decide) (by decide) (by decide)]
  decide +kernel

end Telefacts
