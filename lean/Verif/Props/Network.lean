import Verif.Proof.Network
import Verif.Props.Label
import Verif.Props.Member
/-! # C45 - C48, C80, C81: presentation and calculation rows, the dimensional relationship set -/
namespace Telefacts
open Telefacts.Render Telefacts.Instance Telefacts.Linkbase Telefacts.Spec

/-- **C80.** A locator label stands for the href of the first locator with that label and a `#` in its href among the
links of the role, if the linkbase has a roleRef for the role; otherwise for `#` followed by the label. -/
theorem C80_locator {A : Type} (role : String) (lb : Lb A) (locator href : String) :
    mapLocator role lb locator = href ↔
      LocatorHref role lb locator href ∨ ((¬ ∃ h, LocatorHref role lb locator h) ∧ href = "#" ++ locator) :=
  mapLocator_iff role lb locator href

def locExample : Lb PArc :=
  ⟨[⟨"r", "x.xsd#r"⟩], [⟨"other", [⟨"o.xsd#a", "a"⟩], []⟩, ⟨"r", [⟨"plain", "a"⟩, ⟨"s.xsd#a", "a"⟩, ⟨"t.xsd#a", "a"⟩],
    [⟨F64.ofInt 2, PresentationArcrole, "a", "b", ""⟩]⟩]⟩

example : mapLocator "r" locExample "a" = "s.xsd#a" ∧ mapLocator "r" locExample "b" = "#b" ∧
    mapLocator "other" locExample "a" = "#a" := by decide +kernel

/-- **C45.** The rows of a presentation are those of the first link of the role (in the order in which the linkbases are
ranged over). They are the outline of its tree: every node, then what is below it, with siblings in stable order of
their order attribute; the indentation is the depth. There is one row for every node. -/
theorem C45_rows (f : Folder) (lbs : List (Lb PArc)) (role : String) (lb : Lb PArc) (k : Link PArc)
    (hf : FirstWith (fun lb => ∃ k, HoldsLink role lb k) lbs lb) (hk : HoldsLink role lb k) (root : Node)
    (hroot : root = f.tree (k.arcs.map fun a => ⟨a.arcrole, a.order, a.frm, a.to⟩)
      "http://www.xbrl.org/2003/arcrole/parent-child")
    (hn : NoNaN root) :
    ∃ tops out, ByOrder root.children tops ∧ Outline 0 tops out ∧
      getIndentedLabels f lbs role = out.map (fun p => ⟨mapLocator role lb p.2, f.label (mapLocator role lb p.2), p.1⟩) ∧
      (getIndentedLabels f lbs role).length = sizeAll root.children := by
  subst hroot
  have hl := (firstLink_some role lbs lb k).2 ⟨hf, hk⟩
  unfold getIndentedLabels
  rw [hl]
  simp only
  change ∃ tops out, _ ∧ _ ∧ walkTree _ (f.tree (pArcs k.arcs) PresentationArcrole) = _ ∧
    (walkTree _ (f.tree (pArcs k.arcs) PresentationArcrole)).length = _
  change NoNaN (f.tree (pArcs k.arcs) PresentationArcrole) at hn
  change ∃ tops out, ByOrder (f.tree (pArcs k.arcs) PresentationArcrole).children tops ∧ _ ∧ _ ∧ _ = sizeAll (f.tree (pArcs k.arcs) PresentationArcrole).children
  generalize f.tree (pArcs k.arcs) PresentationArcrole = root at hn
  unfold walkTree
  rw [sorted_children]
  obtain ⟨out, ho, e⟩ := walk_outline (fun loc level => (⟨mapLocator role lb loc, f.label (mapLocator role lb loc), level⟩ : IndentedLabel))
    _ (sortNodes root.children) 0 (Nat.le_refl _) (by
      obtain ⟨l, o, cs⟩ := root
      intro c hc x hx
      exact hn x (.deeper l o cs c x ((mem_sortNodes _ _).1 hc) hx))
  refine ⟨sortNodes root.children, out, ?_, ho, e, ?_⟩
  · obtain ⟨l, o, cs⟩ := root
    exact stableSortedOn_f64 Node.order cs fun c hc => hn c (.child l o cs c hc)
  · rw [e, List.length_map, outline_length ho, sizeAll_sortNodes]

/-- **C45.** Without a link of the role there are no rows. -/
theorem C45_none (f : Folder) (lbs : List (Lb PArc)) (role : String) (h : ∀ lb ∈ lbs, ¬ ∃ k, HoldsLink role lb k) :
    getIndentedLabels f lbs role = [] := by
  unfold getIndentedLabels
  rw [(firstLink_none role lbs).2 h]

/-- A tree with siblings out of order and two of the same order. -/
def treeExample : Node := .mk "" F64.zero [.mk "b" (F64.ofInt 2) [.mk "b2" (F64.ofInt 5) [], .mk "b1" (F64.ofInt 4) []],
  .mk "a" (F64.ofInt 1) [], .mk "c" (F64.ofInt 2) []]

def presExample : Folder := ⟨[], fun _ => none, fun h => [(h, [])], fun _ _ => treeExample⟩

/-- Non-vacuity of `C45_rows`: a folder with the tree. -/
example : (getIndentedLabels presExample [locExample] "r").map (fun r => (r.href, r.indentation)) =
    [("s.xsd#a", 0), ("#b", 0), ("#b1", 1), ("#b2", 1), ("#c", 0)] := by decide +kernel

example : HoldsLink "r" locExample ⟨"r", [⟨"plain", "a"⟩, ⟨"s.xsd#a", "a"⟩, ⟨"t.xsd#a", "a"⟩],
    [⟨F64.ofInt 2, PresentationArcrole, "a", "b", ""⟩]⟩ ∧ NoNaN treeExample := by
  refine ⟨⟨⟨_, List.mem_singleton.2 rfl, rfl⟩, [⟨"other", [⟨"o.xsd#a", "a"⟩], []⟩], [], rfl, rfl, by simp⟩, ?_⟩
  intro x hx
  unfold treeExample at hx
  cases hx with
  | child _ _ _ _ hc =>
    simp at hc
    rcases hc with rfl | rfl | rfl <;> simp [Node.order, F64.ofInt]
  | deeper _ _ _ c _ hc hb =>
    simp at hc
    rcases hc with rfl | rfl | rfl
    · cases hb with
      | child _ _ _ _ hc =>
        simp at hc
        rcases hc with rfl | rfl <;> simp [Node.order, F64.ofInt]
      | deeper _ _ _ c _ hc hb =>
        simp at hc
        rcases hc with rfl | rfl <;> cases hb <;> simp_all
    · cases hb <;> simp_all
    · cases hb <;> simp_all

/-- **C81 (partial).** When only one linkbase holds the role, in one link, the rows are the outline of the tree of that
link, which has all arcs of the role. Missing: two linkbases that hold the role (`C81_fails`). -/
theorem C81_all_partial (f : Folder) (lbs : List (Lb PArc)) (role : String) (lb : Lb PArc) (k : Link PArc)
    (hone : ∀ lb' ∈ lbs, (∃ r ∈ lb'.roleRefs, r.roleURI = role) → lb' = lb)
    (hk : ∀ k' ∈ lb.links, k'.role = role → k' = k) (h1 : lb ∈ lbs) (h2 : ∃ r ∈ lb.roleRefs, r.roleURI = role) (h3 : k ∈ lb.links)
    (h4 : k.role = role) (root : Node)
    (hroot : root = f.tree (k.arcs.map fun a => ⟨a.arcrole, a.order, a.frm, a.to⟩) "http://www.xbrl.org/2003/arcrole/parent-child")
    (hn : NoNaN root) :
    (∀ lb' ∈ lbs, (∃ r ∈ lb'.roleRefs, r.roleURI = role) → ∀ k' ∈ lb'.links, k'.role = role → ∀ a ∈ k'.arcs, a ∈ k.arcs) ∧
    ∃ tops out, ByOrder root.children tops ∧ Outline 0 tops out ∧
      getIndentedLabels f lbs role = out.map (fun p => ⟨mapLocator role lb p.2, f.label (mapLocator role lb p.2), p.1⟩) := by
  refine ⟨?_, ?_⟩
  · intro lb' h5 h6 k' h7 h8 a ha
    have e := hone lb' h5 h6
    subst e
    rw [← hk k' h7 h8]
    exact ha
  · obtain ⟨k0, hk0⟩ : ∃ k, FirstWith (fun k : Link PArc => k.role = role) lb.links k := firstWith_exists ⟨k, h3, h4⟩
    obtain ⟨lb0, hlb0⟩ : ∃ lb, FirstWith (fun lb : Lb PArc => ∃ k, HoldsLink role lb k) lbs lb :=
      firstWith_exists ⟨lb, h1, k0, h2, hk0⟩
    obtain ⟨hm, k1, hk1⟩ := firstWith_mem hlb0
    have e0 := hone lb0 hm hk1.1
    subst e0
    have e1 := hk k1 (firstWith_mem hk1.2).1 (firstWith_mem hk1.2).2
    subst e1
    obtain ⟨tops, out, a1, a2, a3, _⟩ := C45_rows f lbs role lb0 k1 hlb0 hk1 root hroot hn
    exact ⟨tops, out, a1, a2, a3⟩

/-- A folder whose trees are flat. -/
def flatFolder : Folder where
  insts := []
  concept := fun _ => none
  label := fun h => [(Default, [(PureLabel, h)])]
  tree := fun arcs _ => .mk "" .zero (arcs.map fun a => .mk a.to a.order [])

def flatLb (child : String) : Lb PArc :=
  ⟨[⟨"r", ""⟩], [⟨"r", [⟨"x#Root", "root"⟩, ⟨"x#" ++ child, child⟩], [⟨F64.zero, PresentationArcrole, "root", child, ""⟩]⟩]⟩

/-- The hypotheses of `C81_all_partial` hold of a linkbase next to one of another role. -/
example : (∀ lb' ∈ [flatLb "a", ⟨[⟨"q", ""⟩], []⟩], (∃ r ∈ lb'.roleRefs, r.roleURI = "r") → lb' = flatLb "a") ∧
    (∀ k' ∈ (flatLb "a").links, k'.role = "r" → k' = (flatLb "a").links[0]) ∧
    (getIndentedLabels flatFolder [flatLb "a", ⟨[⟨"q", ""⟩], []⟩] "r").map IndentedLabel.href = ["x#a"] := by
  refine ⟨?_, ?_, by decide +kernel⟩
  · intro lb h
    simp only [List.mem_cons, List.not_mem_nil, or_false] at h
    rcases h with rfl | rfl
    · simp
    · rintro ⟨r, hr, h⟩
      simp only [List.mem_singleton] at hr
      subst hr
      exact absurd h (by decide)
  · intro k hk _
    simpa [flatLb] using hk

/-- **C81 (fails).** Two linkbases hold arcs of the role: only the rows of the one that is ranged over first are shown. -/
theorem C81_fails : ∃ (f : Folder) (a b : Lb PArc),
    (getIndentedLabels f [a] "r").map IndentedLabel.href = ["x#a"] ∧ (getIndentedLabels f [b] "r").map IndentedLabel.href = ["x#b"] ∧
    (getIndentedLabels f [a, b] "r").map IndentedLabel.href = ["x#a"] ∧ (getIndentedLabels f [b, a] "r").map IndentedLabel.href = ["x#b"] :=
  ⟨flatFolder, flatLb "a", flatLb "b", by decide +kernel⟩

theorem getPureLabel_of_shown {p : LabelPack} {h : String} (hs : Shown p "Default" "Unlabelled" h) : getPureLabel p = h := by
  rw [shown_iff] at hs
  unfold getPureLabel
  change (getText p "Default" "Unlabelled").getD "" = h
  rw [hs]
  rfl

/-- For an integral weight the scale is the integer with `.0`. -/
theorem fixed1_whole (n : Int) : fixed1 (F64.abs (.fin (n * 2 ^ 1074))) = toString n.natAbs ++ ".0" := by
  unfold F64.abs fixed1
  simp only
  have hz : ((n * 2 ^ 1074 : Int).natAbs : Int).natAbs = n.natAbs * 2 ^ 1074 := by
    rw [Int.natAbs_natCast, Int.natAbs_mul]
    congr 1
  have ht : tenths (n.natAbs * 2 ^ 1074) = 10 * n.natAbs := by
    unfold tenths
    rw [show 10 * (n.natAbs * 2 ^ 1074) = (10 * n.natAbs) * 2 ^ 1074 from by rw [Nat.mul_assoc]]
    rw [Nat.mul_div_cancel _ (Nat.two_pow_pos _), Nat.mul_mod_left]
    simp only
    rw [if_pos (by simpa using Nat.two_pow_pos 1074)]
  rw [hz, ht]
  rw [Nat.mul_div_cancel_left _ (by omega), Nat.mul_mod_right, String.append_assoc]
  rfl

/-- **C46 (partial).** The summation items of a link are the concepts with a summation-item arc whose concept is known, in
strictly increasing order of their hrefs. The contributions of an item are those of its arcs whose target is known, in
stable order of the order attribute; the sign is `-` iff the weight is negative, and the scale is the absolute value of
the weight, to the nearest tenth (for an integer, the integer with `.0`). Missing: the scale is rounded (`C46_fails`). -/
theorem C46_items_partial {Φ : Type} (f : Folder) (env : GridEnv Φ) (entity role : String) (lb : Lb CArc) (k : Link CArc)
    (items : List (SummationItem Φ)) (roles : List LabelRole) (langs : List Lang)
    (hl : ∀ h, Shown (f.label h) "Default" "Unlabelled" h) (hord : ∀ m, (env.mapOrder m).Perm m) (hn : ∀ a ∈ k.arcs, a.order ≠ .nan)
    (h : summationItems f env entity role lb k = .done (items, roles, langs)) :
    (items.map fun i => i.href).Pairwise (· < ·) ∧
    (∀ href, (∃ i ∈ items, i.href = href) ↔ (f.concept href).isSome ∧ ∃ a ∈ k.arcs, IsCalcArc role lb href a) ∧
    (∀ i ∈ items, i.label = f.label i.href ∧ (∃ c, f.concept i.href = some c ∧ i.balance = c.balance) ∧
      ∃ arcs out : List CArc, (∀ a, a ∈ arcs ↔ a ∈ k.arcs ∧ IsCalcArc role lb i.href a ∧ (f.concept (mapLocator role lb a.to)).isSome) ∧
        arcs.Sublist k.arcs ∧
        StableSortedOn Less CArc.order arcs out ∧
        List.Forall₂ (Contributes f role lb k.arcs) out i.contributing) := by
  obtain ⟨hw, hsome, hget⟩ := calcMap_spec role lb k.arcs
  have hcore := summationItems_core (fun h => getPureLabel_of_shown (hl h)) h
  generalize hm : calcMap role lb k.arcs = m at *
  have hkeys : (mapKeys (env.mapOrder m)).Nodup := ((hord m).map Prod.fst).nodup_iff.2 hw
  have hh : ∀ i ∈ items, ∃ e ∈ m, coreOf f m e = some (itemCore i) := by
    intro i hi
    have : itemCore i ∈ items.map itemCore := List.mem_map_of_mem hi
    rw [hcore, mem_stableSort, List.mem_filterMap] at this
    obtain ⟨e, he, hc⟩ := this
    exact ⟨e, (hord m).mem_iff.1 he, hc⟩
  refine ⟨?_, ?_, ?_⟩
  · have e : (items.map fun i => i.href) = (items.map itemCore).map Prod.fst := by rw [List.map_map]; rfl
    rw [e, hcore]
    have hs := stableSort_sorted coreLess_strictWeak ((env.mapOrder m).filterMap (coreOf f m))
    have hnd : ((stableSort (fun a b => decide (a.1 < b.1)) ((env.mapOrder m).filterMap (coreOf f m))).map Prod.fst).Nodup :=
      ((stableSort_perm _ _).map Prod.fst).nodup_iff.2 (nodup_cores f m _ hkeys)
    unfold SortedBy at hs
    have hs' : ((stableSort (fun a b => decide (a.1 < b.1)) ((env.mapOrder m).filterMap (coreOf f m))).map Prod.fst).Pairwise
        (fun a b => ¬ b < a) := by
      rw [List.pairwise_map]
      exact hs.imp (by simp)
    refine (hs'.and hnd).imp ?_
    rintro a b ⟨h1, h2⟩
    rcases str_trichotomy a b with h3 | h3 | h3
    · exact h3
    · exact absurd h3 h2
    · exact absurd h3 h1
  · intro href
    rw [← hsome href]
    constructor
    · rintro ⟨i, hi, rfl⟩
      obtain ⟨e, he, hc⟩ := hh i hi
      have h1 : i.href = e.1 := coreOf_href hc
      unfold coreOf at hc
      split at hc
      · simp at hc
      · rename_i c hcon
        rw [h1]
        exact ⟨by rw [hcon]; rfl, by rw [mapGet_of_mem hw he]; rfl⟩
    · rintro ⟨hc, hm'⟩
      obtain ⟨cs, hcs⟩ := Option.isSome_iff_exists.1 hm'
      obtain ⟨c, hc⟩ := Option.isSome_iff_exists.1 hc
      have he := mem_of_mapGet hcs
      have : (href, f.label href, c.balance, cs.filterMap (contributing f m)) ∈ items.map itemCore := by
        rw [hcore, mem_stableSort, List.mem_filterMap]
        refine ⟨(href, cs), (hord m).mem_iff.2 he, ?_⟩
        unfold coreOf
        simp only [hc]
      obtain ⟨i, hi, e⟩ := List.mem_map.1 this
      exact ⟨i, hi, congrArg Prod.fst e⟩
  · intro i hi
    obtain ⟨⟨eh, cs⟩, he, hc⟩ := hh i hi
    have hcs := hget _ _ (mapGet_of_mem hw he)
    unfold coreOf at hc
    split at hc
    · simp at hc
    rename_i c hcon
    unfold itemCore at hc
    simp only [Option.some.injEq, Prod.mk.injEq] at hc
    obtain ⟨rfl, h2, h3, h4⟩ := hc
    refine ⟨h2.symm, ⟨c, hcon, h3.symm⟩, ?_⟩
    refine ⟨(k.arcs.filter fun a => decide (a.arcrole = CalculationArcrole ∧ mapLocator role lb a.frm = i.href)).filter
        (fun a => (f.concept (mapLocator role lb a.to)).isSome),
      (stableSort (fun a b => F64.lt a.order b.order)
        (k.arcs.filter fun a => decide (a.arcrole = CalculationArcrole ∧ mapLocator role lb a.frm = i.href))).filter
        (fun a => (f.concept (mapLocator role lb a.to)).isSome), ?_, ?_, ?_, ?_⟩
    · intro a
      simp only [List.mem_filter, decide_eq_true_iff, IsCalcArc, and_assoc]
      rfl
    · exact (List.filter_sublist).trans List.filter_sublist
    · apply stableSortedOn_filter
      apply stableSortedOn_f64
      intro a ha
      exact hn a (List.mem_filter.1 ha).1
    · rw [← h4, hcs]
      clear hcs h4
      generalize stableSort (fun a b : CArc => F64.lt a.order b.order) _ = l
      induction l with
      | nil => exact .nil
      | cons a l ih =>
        rw [List.map_cons, List.filterMap_cons, List.filter_cons]
        cases hca : f.concept (mapLocator role lb a.to) with
        | none =>
          have : contributing f m (cStruct role lb a) = none := by
            unfold contributing cStruct
            simp only [hca]
          rw [this]
          simpa using ih
        | some ca =>
          have : contributing f m (cStruct role lb a) = some ⟨String.singleton (if F64.lt a.weight F64.zero then '-' else '+'),
              fixed1 (F64.abs a.weight), ca.balance, mapLocator role lb a.to, f.label (mapLocator role lb a.to),
              (mapGet m (mapLocator role lb a.to)).isSome⟩ := by
            unfold contributing cStruct
            simp only [hca]
          rw [this]
          refine .cons ⟨rfl, rfl, ?_, ?_, fixed1_nearest a.weight, fun n hw => by rw [hw]; exact fixed1_whole n, ⟨ca, hca, rfl⟩, ?_⟩ ih
          · rw [← negative_iff]
            simp only
            split <;> simp_all
          · rw [← negative_iff]
            simp only
            split <;> simp_all
          · exact hsome _

/-- **C46.** Items and contributions (all but contexts and facts) do not depend on the order in which maps are ranged
over. -/
theorem C46_order_partial {Φ Ψ : Type} (f : Folder) (env : GridEnv Φ) (env' : GridEnv Ψ) (entity role : String) (lb : Lb CArc)
    (k : Link CArc) (items : List (SummationItem Φ)) (items' : List (SummationItem Ψ)) (r r' : List LabelRole) (l l' : List Lang)
    (hl : ∀ h, Shown (f.label h) "Default" "Unlabelled" h) (hord : ∀ m, (env.mapOrder m).Perm m) (hord' : ∀ m, (env'.mapOrder m).Perm m)
    (h : summationItems f env entity role lb k = .done (items, r, l))
    (h' : summationItems f env' entity role lb k = .done (items', r', l')) :
    (items.map fun i => (i.href, i.label, i.balance, i.contributing)) =
      items'.map fun i => (i.href, i.label, i.balance, i.contributing) := by
  have e := summationItems_core (fun h => getPureLabel_of_shown (hl h)) h
  have e' := summationItems_core (fun h => getPureLabel_of_shown (hl h)) h'
  change items.map itemCore = items'.map itemCore
  rw [e, e']
  obtain ⟨hw, _, _⟩ := calcMap_spec role lb k.arcs
  generalize calcMap role lb k.arcs = m at *
  apply stableSort_perm_eq coreLess_strictWeak
  · exact ((hord m).trans (hord' m).symm).filterMap _
  · intro a ha b hb h1 h2
    have hnd := nodup_cores f m _ (((hord m).map Prod.fst).nodup_iff.2 hw)
    have hab : a.1 = b.1 := by
      simp only [decide_eq_false_iff_not] at h1 h2
      rcases str_trichotomy a.1 b.1 with h3 | h3 | h3
      · exact absurd h3 h1
      · exact h3
      · exact absurd h3 h2
    obtain ⟨x, hx, hx'⟩ := List.mem_filterMap.1 ha
    obtain ⟨y, hy, hy'⟩ := List.mem_filterMap.1 hb
    have hxy : x = y := by
      have h3 : x.1 = y.1 := by rw [← coreOf_href hx', ← coreOf_href hy', hab]
      have hwf : MapWF (env.mapOrder m) := ((hord m).map Prod.fst).nodup_iff.2 hw
      have e1 := mapGet_of_mem hwf (k := x.1) (v := x.2) hx
      have e2 := mapGet_of_mem hwf (k := y.1) (v := y.2) hy
      rw [h3, e2] at e1
      exact Prod.ext h3 (Option.some.inj e1).symm
    rw [hxy, hy'] at hx'
    exact (Option.some.inj hx').symm

/-- **C46.** The items shown are those of the first link of the role, in the order in which linkbases are ranged over. -/
theorem C46_link_partial {Φ : Type} (f : Folder) (env : GridEnv Φ) (entity role : String) (lbs : List (Lb CArc)) :
    (∀ lb k, FirstWith (fun lb => ∃ k, HoldsLink role lb k) lbs lb → HoldsLink role lb k →
      getSummationItems f env entity role [] lbs = summationItems f env entity role lb k) ∧
    ((∀ lb ∈ lbs, ¬ ∃ k, HoldsLink role lb k) → getSummationItems f env entity role [] lbs = .done ([], [], [])) := by
  have key : ∀ links : List (Link CArc), (∀ k ∈ links, k.role ≠ role) → getSummationItems f env entity role links lbs =
      match firstLink role lbs with
      | none => .done ([], [], [])
      | some (lb, k) => summationItems f env entity role lb k := by
    induction lbs with
    | nil => intro links _; rfl
    | cons lb lbs ih =>
      intro links hl
      unfold getSummationItems firstLink refLinks
      by_cases hr : lb.roleRefs.any (fun r => decide (role = r.roleURI)) = true
      · simp only [hr, if_true]
        cases hf : lb.links.find? (fun k => decide (k.role = role)) with
        | some k => rfl
        | none =>
          simp only
          exact ih lb.links (by simpa using hf)
      · simp only [hr]
        have hf : links.find? (fun k => decide (k.role = role)) = none := by simpa using hl
        simp only [Bool.false_eq_true, if_false, hf, List.find?_nil]
        exact ih links hl
  rw [key [] (by simp)]
  refine ⟨?_, ?_⟩
  · intro lb k h1 h2
    rw [(firstLink_some role lbs lb k).2 ⟨h1, h2⟩]
  · intro h
    rw [(firstLink_none role lbs).2 h]

/-- A folder with the facts `x#T1`, `x#T2`, `x#A` in one context; `x#T1` has an English label, nothing else has. -/
def calcFolder : Folder where
  insts := [⟨"i", [ctxExample "c" "s" "1" "2020-12-31" []], [], [],
    [factExample "x#T1" "c", factExample "x#T2" "c", factExample "x#A" "c"]⟩]
  concept := fun h => if h = "x#T1" ∨ h = "x#T2" ∨ h = "x#A" then some (conceptExample h false) else none
  label := fun h => if h = "x#T1" then [(Default, [(PureLabel, h), (English, "Total")])] else [(Default, [(PureLabel, h)])]
  tree := fun _ _ => .mk "" .zero []

def sourceExample (langs : List Lang) : FactSource (List Lang) :=
  ⟨fun _ _ => none, fun _ => [], fun _ => langs, fun _ _ m => m, fun m => m⟩

def calcEnv : GridEnv (List Lang) := ⟨id, id, sourceExample⟩

def calcLb : Lb CArc := ⟨[⟨"r", ""⟩], [⟨"r", [⟨"x#T1", "t1"⟩, ⟨"x#T2", "t2"⟩, ⟨"x#A", "a"⟩, ⟨"x#Unknown", "u"⟩],
  [⟨F64.ofInt 2, CalculationArcrole, "t1", "a", F64.ofInt (-1)⟩, ⟨F64.ofInt 1, CalculationArcrole, "t1", "t2", F64.ofInt 1⟩,
   ⟨F64.ofInt 1, CalculationArcrole, "t1", "u", F64.ofInt 1⟩,
   ⟨F64.ofInt 1, CalculationArcrole, "t2", "a", F64.ofInt 1⟩]⟩]⟩

def calcResult : Run (List (SummationItem (List Lang)) × List LabelRole × List Lang) :=
  getSummationItems calcFolder calcEnv "s/1" "r" [] [calcLb]

/-- Every item shown, with the sign, scale and kind of each contributing concept. -/
def calcItems : List (String × List (String × String × String × Bool)) :=
  match calcResult with
  | .done (items, _, _) => items.map fun i => (i.href, i.contributing.map fun c => (c.href, c.sign, c.scale, c.isSummationItem))
  | _ => []

/-- The languages in which each fact was rendered. -/
def calcFacts : List (List (List (List Lang))) :=
  match calcResult with
  | .done (items, _, _) => items.map fun i => i.quadrant.facts
  | _ => []

def calcLangs : List Lang :=
  match calcResult with
  | .done (_, _, langs) => langs
  | _ => []

/-- Non-vacuity of `C46_items_partial`: a run that ends, with two items. -/
example : calcItems = [("x#T1", [("x#T2", "+", "1.0", true), ("x#A", "-", "1.0", false)]),
    ("x#T2", [("x#A", "+", "1.0", false)])] := by
  decide +kernel

/-- **C82 (fails).** The item ranged over first is rendered in English, which is not among the languages offered. -/
theorem C82_fails : calcFacts = [[[["Unlabelled", "en - english"]], [["Unlabelled", "en - english"]], [["Unlabelled", "en - english"]]],
      [[["Unlabelled"]], [["Unlabelled"]]]] ∧ calcLangs = ["Unlabelled"] := by
  decide +kernel

example : ∀ h, Shown (calcFolder.label h) "Default" "Unlabelled" h := by
  intro h
  unfold calcFolder Shown
  simp only
  split
  · exact ⟨_, rfl, rfl⟩
  · exact ⟨_, rfl, rfl⟩

/-- A link with the weights 1/4 and 3/16. -/
def quarterLink : Link CArc := ⟨"r", [], [⟨F64.ofInt 1, CalculationArcrole, "t1", "a", .fin (2 ^ 1072)⟩,
  ⟨F64.ofInt 2, CalculationArcrole, "t1", "t2", .fin (3 * 2 ^ 1070)⟩]⟩

def runScales (r : Run (List (SummationItem (List Lang)) × List LabelRole × List Lang)) : List (List (String × String)) :=
  match r with
  | .done (items, _, _) => items.map fun i => i.contributing.map fun c => (c.sign, c.scale)
  | _ => []

theorem run_items (r : Run (List (SummationItem (List Lang)) × List LabelRole × List Lang)) {x : List (List (String × String))}
    (h : runScales r = x) (hx : x ≠ []) : ∃ items roles langs, r = .done (items, roles, langs) ∧
      items.map (fun i => i.contributing.map fun c => (c.sign, c.scale)) = x := by
  cases r with
  | done r => exact ⟨r.1, r.2.1, r.2.2, rfl, h⟩
  | panic => exact absurd h.symm hx
  | loop => exact absurd h.symm hx

/-- **C46 (fails).** The contributions with weights 1/4 and 3/16 are shown with the same scale `0.2`: the scale is not the
absolute value of the weight. -/
theorem C46_fails : ∃ (f : Folder) (env : GridEnv (List Lang)) (lb : Lb CArc) (k : Link CArc) (items : List (SummationItem (List Lang)))
    (roles : List LabelRole) (langs : List Lang),
    (∀ h, Shown (f.label h) "Default" "Unlabelled" h) ∧ summationItems f env "s/1" "r" lb k = .done (items, roles, langs) ∧
    k.arcs.map CArc.weight = [.fin (2 ^ 1072), .fin (3 * 2 ^ 1070)] ∧
    items.map (fun i => i.contributing.map fun c => (c.sign, c.scale)) = [[("+", "0.2"), ("+", "0.2")]] := by
  obtain ⟨items, roles, langs, h1, h2⟩ := run_items (summationItems calcFolder calcEnv "s/1" "r" calcLb quarterLink)
    (by decide +kernel : runScales (summationItems calcFolder calcEnv "s/1" "r" calcLb quarterLink) = [[("+", "0.2"), ("+", "0.2")]]) (by simp)
  refine ⟨_, _, _, quarterLink, items, roles, langs, ?_, h1, by decide +kernel, h2⟩
  intro h
  unfold calcFolder Shown
  simp only
  split
  · exact ⟨_, rfl, rfl⟩
  · exact ⟨_, rfl, rfl⟩

/-- The facts of the item ranged over last are rendered in the languages offered. -/
theorem last_item {Φ : Type} (f : Folder) (env : GridEnv Φ) (entity role : String) (lb : Lb CArc) (k : Link CArc)
    (items : List (SummationItem Φ)) (roles : List LabelRole) (langs : List Lang)
    (h : summationItems f env entity role lb k = .done (items, roles, langs))
    (es : GoMap String (List CStruct)) (e : String × List CStruct) (he : env.mapOrder (calcMap role lb k.arcs) = es ++ [e])
    (hc : (f.concept e.1).isSome) :
    ∃ i ∈ items, i.href = e.1 ∧ ∃ rel, getRelevantContexts f entity (i.contributing.map Contributing.href ++ [i.href]) = .done rel ∧
      i.quadrant = getFactualQuadrant (env.source langs) (i.contributing.map Contributing.href ++ [i.href]) rel.contexts := by
  have loop : ∀ (es : GoMap String (List CStruct)) (st st' : CalcState Φ),
      summationLoop f env entity (calcMap role lb k.arcs) st (es ++ [e]) = .done st' →
      ∃ st1, summationStep f env entity (calcMap role lb k.arcs) st1 e = .done st' := by
    intro es
    induction es with
    | nil =>
      intro st st' h
      rw [List.nil_append, summationLoop] at h
      cases hs : summationStep f env entity (calcMap role lb k.arcs) st e with
      | panic => rw [hs] at h; simp [Run.andThen] at h
      | loop => rw [hs] at h; simp [Run.andThen] at h
      | done st1 => rw [hs] at h; simp only [Run.andThen, summationLoop] at h; cases h; exact ⟨st, hs⟩
    | cons x xs ih =>
      intro st st' h
      rw [List.cons_append, summationLoop] at h
      cases hs : summationStep f env entity (calcMap role lb k.arcs) st x with
      | panic => rw [hs] at h; simp [Run.andThen] at h
      | loop => rw [hs] at h; simp [Run.andThen] at h
      | done st1 => rw [hs] at h; simp only [Run.andThen] at h; exact ih st1 st' h
  unfold summationItems at h
  simp only at h
  rw [he] at h
  cases hs : summationLoop f env entity (calcMap role lb k.arcs) ⟨[], [], [], []⟩ (es ++ [e]) with
  | panic => rw [hs] at h; simp [Run.andThen] at h
  | loop => rw [hs] at h; simp [Run.andThen] at h
  | done st =>
    rw [hs] at h
    simp only [Run.andThen] at h
    cases h
    obtain ⟨st1, h1⟩ := loop es _ _ hs
    obtain ⟨c, hc⟩ := Option.isSome_iff_exists.1 hc
    unfold summationStep at h1
    simp only at h1
    cases hr : getRelevantContexts f entity (List.map Contributing.href (e.2.filterMap (contributing f (calcMap role lb k.arcs))) ++ [e.1]) with
    | panic => rw [hr] at h1; simp [Run.andThen] at h1
    | loop => rw [hr] at h1; simp [Run.andThen] at h1
    | done rel =>
      rw [hr] at h1
      simp only [Run.andThen, hc] at h1
      cases hg : getMemberGrid env.memberOrder rel.contexts rel.segmentTrees rel.scenarioTrees with
      | panic => rw [hg] at h1; simp at h1
      | loop => rw [hg] at h1; simp at h1
      | done g =>
        rw [hg] at h1
        cases h1
        refine ⟨_, (mem_stableSort _).2 (List.mem_append_right _ (List.mem_singleton.2 rfl)), rfl, rel, hr, rfl⟩

/-- **C82 (partial).** The facts of the item ranged over last are rendered in the languages offered: of any item with a known
concept, if maps are ranged over such that it comes last. Missing: the others (`C82_fails`). -/
theorem C82_last_partial {Φ : Type} (f : Folder) (env : GridEnv Φ) (entity role : String) (lb : Lb CArc) (k : Link CArc)
    (items : List (SummationItem Φ)) (roles : List LabelRole) (langs : List Lang)
    (h : summationItems f env entity role lb k = .done (items, roles, langs)) (href : String)
    (hlast : ∀ m, MapWF m → (∃ v, (href, v) ∈ m) → ∃ es v, env.mapOrder m = es ++ [(href, v)])
    (hc : (f.concept href).isSome) (ha : ∃ a ∈ k.arcs, IsCalcArc role lb href a) :
    ∃ i ∈ items, i.href = href ∧ ∃ rel, getRelevantContexts f entity (i.contributing.map Contributing.href ++ [i.href]) = .done rel ∧
      i.quadrant = getFactualQuadrant (env.source langs) (i.contributing.map Contributing.href ++ [i.href]) rel.contexts := by
  obtain ⟨hw, hsome, _⟩ := calcMap_spec role lb k.arcs
  obtain ⟨v, hv⟩ := Option.isSome_iff_exists.1 ((hsome href).2 ha)
  obtain ⟨es, v', he⟩ := hlast _ hw ⟨v, mem_of_mapGet hv⟩
  exact last_item f env entity role lb k items roles langs h es (href, v') he hc

/-- An order of maps in which `x#T1` comes last. -/
def t1Last (m : GoMap String (List CStruct)) : GoMap String (List CStruct) :=
  (m.filter fun e => decide (e.1 ≠ "x#T1")) ++ m.filter fun e => decide (e.1 = "x#T1")

/-- Non-vacuity of `C82_last_partial`. -/
example : (∀ m, (t1Last m).Perm m) ∧ t1Last (calcMap "r" calcLb (calcLb.links.flatMap Link.arcs)) ≠ [] ∧
    ∀ m, MapWF m → (∃ v, ("x#T1", v) ∈ m) → ∃ es v, t1Last m = es ++ [("x#T1", v)] := by
  refine ⟨fun m => ?_, by decide +kernel, ?_⟩
  · unfold t1Last
    have := List.filter_append_perm (fun e : String × List CStruct => decide (e.1 ≠ "x#T1")) m
    simpa using this
  · rintro m hm ⟨v, hv⟩
    refine ⟨m.filter fun e => decide (e.1 ≠ "x#T1"), v, ?_⟩
    unfold t1Last
    congr 1
    induction m with
    | nil => simp at hv
    | cons e m ih =>
      have hnd : e.1 ∉ m.map Prod.fst ∧ (m.map Prod.fst).Nodup := List.nodup_cons.1 hm
      rcases List.mem_cons.1 hv with rfl | hv
      · rw [List.filter_cons_of_pos (by simp)]
        congr 1
        rw [List.filter_eq_nil_iff]
        rintro x hx
        simp only [decide_eq_true_eq]
        intro h
        exact hnd.1 (List.mem_map.2 ⟨x, hx, h⟩)
      · have : e.1 ≠ "x#T1" := fun h => hnd.1 (h ▸ List.mem_map_of_mem (f := Prod.fst) hv)
        rw [List.filter_cons_of_neg (by simpa using this)]
        exact ih hnd.2 hv

/-! ## The dimensional relationship set -/

theorem mem_roleArcs (role : String) (lbs : List (Lb DArc)) (lb : Lb DArc) (a : DArc) :
    (lb, a) ∈ roleArcs role lbs ↔ DefinitionArcOf role lbs lb a := by
  unfold roleArcs DefinitionArcOf refLinks
  simp only [List.mem_flatMap, List.mem_filter, List.mem_map, decide_eq_true_iff, Prod.mk.injEq]
  constructor
  · rintro ⟨lb', h1, k, ⟨h2, h3⟩, a', h4, rfl, rfl⟩
    split at h2
    · rename_i hr
      rw [List.any_eq_true] at hr
      obtain ⟨r, hr1, hr2⟩ := hr
      exact ⟨h1, ⟨r, hr1, by simpa [eq_comm] using hr2⟩, k, h2, h3, h4⟩
    · simp at h2
  · rintro ⟨h1, ⟨r, hr1, hr2⟩, k, h2, h3, h4⟩
    refine ⟨lb, h1, k, ⟨?_, h3⟩, a, h4, rfl, rfl⟩
    rw [if_pos (List.any_eq_true.2 ⟨r, hr1, by simp [hr2]⟩)]
    exact h2

theorem countHrefs_spec (role : String) (arcs : List (Lb DArc × DArc)) :
    MapWF (countHrefs role arcs) ∧ ∀ h, h ∈ mapKeys (countHrefs role arcs) ↔
      ∃ e ∈ arcs, h = targetHref role e.1 e.2 ∨ h = mapLocator role e.1 e.2.frm := by
  induction arcs using snocInd with
  | nil => exact ⟨MapWF.nil, by simp [countHrefs, mapKeys]⟩
  | snoc l e ih =>
    unfold countHrefs at ih ⊢
    rw [List.foldl_append, List.foldl_cons, List.foldl_nil]
    generalize l.foldl _ [] = m at ih
    obtain ⟨hw, hk⟩ := ih
    unfold incr
    refine ⟨(hw.mapSet _ _).mapSet _ _, ?_⟩
    intro h
    rw [mem_mapKeys_mapSet, mem_mapKeys_mapSet, hk]
    constructor
    · rintro (h1 | h1 | ⟨x, hx, h1⟩)
      · exact ⟨e, by simp, .inr h1⟩
      · exact ⟨e, by simp, .inl h1⟩
      · exact ⟨x, by simp [hx], h1⟩
    · rintro ⟨x, hx, h1⟩
      rcases List.mem_append.1 hx with hx | hx
      · exact .inr (.inr ⟨x, hx, h1⟩)
      · rw [List.mem_singleton.1 hx] at h1
        rcases h1 with h1 | h1
        · exact .inr (.inl h1)
        · exact .inl h1

theorem drsLink_ends (fmt : F64 → String) (role : String) (lb : Lb DArc) (a : DArc) :
    (drsLink fmt role lb a).source = mapLocator role lb a.frm ∧ (drsLink fmt role lb a).target = targetHref role lb a ∧
      kinds (drsLink fmt role lb a) ≤ 1 := by
  unfold drsLink kinds
  simp only
  split
  · simp
  · split
    · simp
    · split
      · simp
      · split
        · simp
        · split
          · simp
          · split <;> simp

theorem drsLink_connects (fmt : F64 → String) (role : String) (lb : Lb DArc) (a : DArc) :
    Connects fmt a (drsLink fmt role lb a) := by
  unfold drsLink
  simp only
  have e1 : DomainMemberArcrole = "http://xbrl.org/int/dim/arcrole/domain-member" := rfl
  have e2 : HypercubeDimensionArcrole = "http://xbrl.org/int/dim/arcrole/hypercube-dimension" := rfl
  have e3 : DimensionDefaultArcrole = "http://xbrl.org/int/dim/arcrole/dimension-default" := rfl
  have e4 : DimensionDomainArcrole = "http://xbrl.org/int/dim/arcrole/dimension-domain" := rfl
  have e5 : HasInclusiveHypercubeArcrole = "http://xbrl.org/int/dim/arcrole/all" := rfl
  have e6 : HasExclusiveHypercubeArcrole = "http://xbrl.org/int/dim/arcrole/notAll" := rfl
  have cubeExt : ∀ (b : Bool) (c : HypercubeConnection), (⟨a.closed, a.contextElement, b, a.targetRole⟩ : HypercubeConnection) = c ↔
      c.isInclusive = b ∧ c.isClosed = a.closed ∧ c.contextElement = a.contextElement ∧ c.external = a.targetRole := by
    rintro b ⟨c1, c2, c3, c4⟩
    simp only [HypercubeConnection.mk.injEq]
    constructor
    · rintro ⟨rfl, rfl, rfl, rfl⟩; exact ⟨rfl, rfl, rfl, rfl⟩
    · rintro ⟨rfl, rfl, rfl, rfl⟩; exact ⟨rfl, rfl, rfl, rfl⟩
  rw [e1, e2, e3, e4, e5, e6]
  by_cases h1 : a.arcrole = "http://xbrl.org/int/dim/arcrole/domain-member"
  · rw [if_pos h1]
    constructor <;> first | (simp [h1]; done) | (intro c; simp only [h1, Option.some.injEq, true_and]; exact eq_comm)
  rw [if_neg h1]
  by_cases h2 : a.arcrole = "http://xbrl.org/int/dim/arcrole/hypercube-dimension"
  · rw [if_pos h2]
    constructor <;> first | (simp [h2]; done) | (intro c; simp only [h2, Option.some.injEq, true_and]; exact eq_comm)
  rw [if_neg h2]
  by_cases h3 : a.arcrole = "http://xbrl.org/int/dim/arcrole/dimension-default"
  · rw [if_pos h3]
    constructor <;> simp [h3]
  rw [if_neg h3]
  by_cases h4 : a.arcrole = "http://xbrl.org/int/dim/arcrole/dimension-domain"
  · rw [if_pos h4]
    constructor <;> simp [h4]
  rw [if_neg h4]
  by_cases h5 : a.arcrole = "http://xbrl.org/int/dim/arcrole/all"
  · rw [if_pos h5]
    constructor <;> simp [h5, cubeExt]
  rw [if_neg h5]
  by_cases h6 : a.arcrole = "http://xbrl.org/int/dim/arcrole/notAll"
  · rw [if_pos h6]
    constructor <;> simp [h6, cubeExt]
  rw [if_neg h6]
  constructor <;> simp [h1, h2, h3, h4, h5, h6]

theorem refLinks_filter (role : String) (lb : Lb DArc) :
    ((refLinks role lb).filter fun k => decide (k.role = role)).map (fun k => (lb, k)) =
      (lb.links.map fun k => (lb, k)).filter fun e => decide (e.2.role = role ∧ ∃ r ∈ e.1.roleRefs, r.roleURI = role) := by
  rw [List.filter_map]
  congr 1
  unfold refLinks
  split
  · rename_i h
    rw [List.any_eq_true] at h
    obtain ⟨r, hr, h⟩ := h
    have : ∃ r ∈ lb.roleRefs, r.roleURI = role := ⟨r, hr, by simpa [eq_comm] using h⟩
    apply List.filter_congr
    intro k _
    simp only [Function.comp, this, and_true]
  · rename_i h
    have : ¬ ∃ r ∈ lb.roleRefs, r.roleURI = role := by
      rintro ⟨r, hr, e⟩
      exact h (List.any_eq_true.2 ⟨r, hr, by simp [e]⟩)
    simp only [List.filter_nil, Function.comp_def, this, and_false, decide_false, List.filter_false]

theorem definitionLinks_eq (role : String) (lbs : List (Lb DArc)) : definitionLinks role lbs =
    lbs.flatMap fun lb => ((refLinks role lb).filter fun k => decide (k.role = role)).map fun k => (lb, k) := by
  unfold definitionLinks
  rw [List.filter_flatMap]
  congr 1
  funext lb
  exact (refLinks_filter role lb).symm

theorem roleArcs_eq (role : String) (lbs : List (Lb DArc)) : roleArcs role lbs = definitionArcs role lbs := by
  unfold definitionArcs
  rw [definitionLinks_eq, List.flatMap_assoc]
  unfold roleArcs
  congr 1
  funext lb
  rw [List.flatMap_map]

/-- **C47.** The links of the relationship set correspond to the definition arcs of the role, in order; each has at most
one kind of connection, which says what the arc says. The nodes are strictly sorted by href; they are exactly the sources and targets of the links. -/
theorem C47_graph (f : Folder) (fmt : F64 → String) (ord : GoMap String Nat → GoMap String Nat) (hord : ∀ m, (ord m).Perm m)
    (lbs : List (Lb DArc)) (role : String) :
    let drs := getDRS f fmt ord lbs role
    (drs.1.map DRSNode.href).Pairwise (· < ·) ∧
    (∀ h, h ∈ drs.1.map DRSNode.href ↔ ∃ l ∈ drs.2, l.source = h ∨ l.target = h) ∧
    (∀ n ∈ drs.1, n.label = f.label n.href) ∧
    List.Forall₂ (fun (e : Lb DArc × DArc) (l : DRSLink) => l.source = mapLocator role e.1 e.2.frm ∧
        l.target = mapLocator (if e.2.targetRole = "" then role else e.2.targetRole) e.1 e.2.to ∧ kinds l ≤ 1 ∧
        Connects fmt e.2 l) (definitionArcs role lbs) drs.2 := by
  intro drs
  have hdrs : drs = getDRS f fmt ord lbs role := rfl
  obtain ⟨hw, hk⟩ := countHrefs_spec role (roleArcs role lbs)
  have hp : drs.1.map DRSNode.href = sortStrings (mapKeys (ord (countHrefs role (roleArcs role lbs)))) := by
    rw [hdrs]
    unfold getDRS
    simp only
    unfold mapKeys sortStrings
    rw [show (List.map Prod.fst (ord (countHrefs role (roleArcs role lbs)))) =
      ((ord (countHrefs role (roleArcs role lbs))).map fun e => (⟨e.1, f.label e.1⟩ : DRSNode)).map DRSNode.href by
        rw [List.map_map]; rfl]
    rw [stableSort_map DRSNode.href (fun a b : String => decide (a < b))]
  have hperm : (mapKeys (ord (countHrefs role (roleArcs role lbs)))).Perm (mapKeys (countHrefs role (roleArcs role lbs))) :=
    (hord _).map Prod.fst
  refine ⟨?_, ?_, ?_, ?_⟩
  · rw [hp]
    exact sortStrings_strict (hperm.nodup_iff.2 hw)
  · intro h
    rw [hp, mem_sortStrings, hperm.mem_iff, hk, hdrs]
    unfold getDRS
    simp only [List.mem_map]
    constructor
    · rintro ⟨e, he, h1 | h1⟩
      · exact ⟨_, ⟨e, he, rfl⟩, .inr ((drsLink_ends fmt role e.1 e.2).2.1.trans h1.symm)⟩
      · exact ⟨_, ⟨e, he, rfl⟩, .inl ((drsLink_ends fmt role e.1 e.2).1.trans h1.symm)⟩
    · rintro ⟨_, ⟨e, he, rfl⟩, h1 | h1⟩
      · exact ⟨e, he, .inr (h1.symm.trans (drsLink_ends fmt role e.1 e.2).1)⟩
      · exact ⟨e, he, .inl (h1.symm.trans (drsLink_ends fmt role e.1 e.2).2.1)⟩
  · intro n hn
    rw [hdrs] at hn
    unfold getDRS at hn
    simp only [mem_stableSort, List.mem_map] at hn
    obtain ⟨e, _, rfl⟩ := hn
    rfl
  · rw [hdrs, ← roleArcs_eq]
    unfold getDRS
    simp only
    generalize roleArcs role lbs = l
    induction l with
    | nil => exact .nil
    | cons e l ih =>
      rw [List.map_cons]
      refine .cons ⟨(drsLink_ends fmt role e.1 e.2).1, ?_, (drsLink_ends fmt role e.1 e.2).2.2, drsLink_connects ..⟩ ih
      rw [(drsLink_ends fmt role e.1 e.2).2.1]
      unfold targetHref
      by_cases h : e.2.targetRole = "" <;> simp [h]

/-- **C47.** The graph does not depend on the order in which the map of hrefs is ranged over. -/
theorem C47_order (f : Folder) (fmt : F64 → String) (ord ord' : GoMap String Nat → GoMap String Nat)
    (hord : ∀ m, (ord m).Perm m) (hord' : ∀ m, (ord' m).Perm m) (lbs : List (Lb DArc)) (role : String) :
    getDRS f fmt ord lbs role = getDRS f fmt ord' lbs role := by
  unfold getDRS
  simp only [Prod.mk.injEq, and_true]
  have hnode : StrictWeak (fun a b : DRSNode => decide (a.href < b.href)) :=
    strictWeak_of_key (key := DRSNode.href) strictTotal_string (by simp)
  apply stableSort_perm_eq hnode
  · exact ((hord _).trans (hord' _).symm).map _
  · intro a ha b hb h1 h2
    obtain ⟨x, _, rfl⟩ := List.mem_map.1 ha
    obtain ⟨y, _, rfl⟩ := List.mem_map.1 hb
    simp only [decide_eq_false_iff_not] at h1 h2
    rcases str_trichotomy x.1 y.1 with h3 | h3 | h3
    · exact absurd h3 h1
    · simp only [h3]
    · exact absurd h3 h2

def drsLb : Lb DArc := ⟨[⟨"r", ""⟩], [⟨"r", [⟨"x#Cube", "c"⟩, ⟨"x#Dim", "d"⟩, ⟨"x#Dom", "m"⟩],
  [⟨F64.ofInt 1, HypercubeDimensionArcrole, "c", "d", false, false, "", ""⟩,
   ⟨F64.ofInt 1, DimensionDomainArcrole, "d", "m", false, true, "", ""⟩]⟩]⟩

example : ((getDRS presExample (fun _ => "1") id [drsLb] "r").1.map DRSNode.href,
    (getDRS presExample (fun _ => "1") id [drsLb] "r").2) =
    (["x#Cube", "x#Dim", "x#Dom"], [⟨"x#Cube", "x#Dim", none, some ⟨"1", ""⟩, none, none⟩,
      ⟨"x#Dim", "x#Dom", none, none, some ⟨"1", true, true, ""⟩, none⟩]) := by decide +kernel

/-- What `drsLink` says about dimension-default and dimension-domain arcs. -/
theorem drsLink_default (fmt : F64 → String) (role : String) (lb : Lb DArc) (a : DArc) :
    ((∃ c, (drsLink fmt role lb a).dimensionDomain = some c) ↔
      a.arcrole = "http://xbrl.org/int/dim/arcrole/dimension-default" ∨ a.arcrole = "http://xbrl.org/int/dim/arcrole/dimension-domain") ∧
    (∀ c, (drsLink fmt role lb a).dimensionDomain = some c → c.default = true ∧ c.order = fmt a.order ∧ c.external = a.targetRole) := by
  unfold drsLink
  simp only
  by_cases h1 : a.arcrole = DomainMemberArcrole
  · rw [if_pos h1, h1]; simp [DomainMemberArcrole]
  rw [if_neg h1]
  by_cases h2 : a.arcrole = HypercubeDimensionArcrole
  · rw [if_pos h2, h2]; simp [HypercubeDimensionArcrole]
  rw [if_neg h2]
  by_cases h3 : a.arcrole = DimensionDefaultArcrole
  · rw [if_pos h3, h3]; simp [DimensionDefaultArcrole]
  rw [if_neg h3]
  by_cases h4 : a.arcrole = DimensionDomainArcrole
  · rw [if_pos h4, h4]; simp [DimensionDomainArcrole]
  rw [if_neg h4]
  have h3' : ¬ a.arcrole = "http://xbrl.org/int/dim/arcrole/dimension-default" := h3
  have h4' : ¬ a.arcrole = "http://xbrl.org/int/dim/arcrole/dimension-domain" := h4
  split
  · simp [h3', h4']
  · split <;> simp [h3', h4']

/-- **C48 (partial).** The link of a definition arc has a dimension-domain connection iff the arc is a dimension-default or
a dimension-domain arc; it is then marked default. Links of other arcs have no such connection, so none of them is marked
default. Missing: dimension-domain arcs are marked default too (`C48_fails`). -/
theorem C48_default_partial (f : Folder) (fmt : F64 → String) (ord : GoMap String Nat → GoMap String Nat) (lbs : List (Lb DArc))
    (role : String) :
    List.Forall₂ (fun (e : Lb DArc × DArc) (l : DRSLink) =>
      ((∃ c, l.dimensionDomain = some c) ↔ e.2.arcrole = "http://xbrl.org/int/dim/arcrole/dimension-default" ∨
        e.2.arcrole = "http://xbrl.org/int/dim/arcrole/dimension-domain") ∧
      (∀ c, l.dimensionDomain = some c → c.default = true ∧ c.order = fmt e.2.order ∧ c.external = e.2.targetRole))
      (definitionArcs role lbs) (getDRS f fmt ord lbs role).2 := by
  rw [← roleArcs_eq]
  unfold getDRS
  simp only
  generalize roleArcs role lbs = l
  induction l with
  | nil => exact .nil
  | cons e l ih =>
    rw [List.map_cons]
    exact .cons (drsLink_default fmt role e.1 e.2) ih

/-- **C48 (fails).** A dimension-domain arc is marked default. -/
theorem C48_fails : ∃ l ∈ (getDRS presExample (fun _ => "1") id [drsLb] "r").2, ∃ c, l.dimensionDomain = some c ∧
    c.default = true ∧ ∀ lb a, DefinitionArcOf "r" [drsLb] lb a → a.arcrole ≠ "http://xbrl.org/int/dim/arcrole/dimension-default" := by
  refine ⟨⟨"x#Dim", "x#Dom", none, none, some ⟨"1", true, true, ""⟩, none⟩, by decide +kernel, _, rfl, rfl, ?_⟩
  rintro lb a ⟨h1, _, k, h2, h3, h4⟩
  rw [List.mem_singleton.1 h1] at h2
  simp only [drsLb, List.mem_singleton] at h2
  subst h2
  simp only [List.mem_cons, List.not_mem_nil, or_false] at h4
  rcases h4 with rfl | rfl <;> decide

end Telefacts
