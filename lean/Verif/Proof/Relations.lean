import Verif.Spec.Relations
import Verif.Proof.Network
import Verif.Proof.Linkbase
import Verif.Proof.AttrVal
/-! # Rows of a forest -/
namespace Telefacts.Render
open Telefacts.Spec Telefacts.Linkbase

/-- Levels and locators of the rows. -/
def rowsOf (k : Nat) (cs : List Node) : List (Nat × String) := walkNodes (fun l level => (level, l)) k cs

theorem rowsOf_nil (k : Nat) : rowsOf k [] = [] := by unfold rowsOf; rw [walkNodes]
theorem rowsOf_cons (k : Nat) (l : String) (o : F64) (ds cs : List Node) :
    rowsOf k (.mk l o ds :: cs) = (k, l) :: (rowsOf (k + 1) ds ++ rowsOf k cs) := by
  unfold rowsOf; rw [walkNodes, walkNode]; rfl

/-- Induction on lists of trees. -/
theorem forestInd {P : List Node → Prop} (h0 : P []) (h1 : ∀ l o ds cs, P ds → P cs → P (.mk l o ds :: cs)) : ∀ cs, P cs := by
  have : ∀ n cs, sizeAll cs ≤ n → P cs := by
    intro n
    induction n with
    | zero =>
      intro cs h
      cases cs with
      | nil => exact h0
      | cons c cs => obtain ⟨l, o, ds⟩ := c; simp only [sizeAll, Node.size] at h; omega
    | succ n ih =>
      intro cs h
      cases cs with
      | nil => exact h0
      | cons c cs =>
        obtain ⟨l, o, ds⟩ := c
        simp only [sizeAll, Node.size] at h
        exact h1 l o ds cs (ih ds (by omega)) (ih cs (by omega))
  exact fun cs => this _ cs (Nat.le_refl _)

theorem walk_rows {α : Type} (row : String → Nat → α) : ∀ (cs : List Node) (k : Nat),
    walkNodes row k cs = (rowsOf k cs).map fun p => row p.2 p.1 := by
  refine forestInd (fun k => by rw [rowsOf_nil, walkNodes]; rfl) ?_
  intro l o ds cs h1 h2 k
  rw [rowsOf_cons, walkNodes, walkNode, h1, h2]
  simp

theorem rowsOf_ge : ∀ (cs : List Node) (k : Nat), ∀ p ∈ rowsOf k cs, k ≤ p.1 := by
  refine forestInd (fun k p hp => by rw [rowsOf_nil] at hp; cases hp) ?_
  intro l o ds cs h1 h2 k p hp
  rw [rowsOf_cons, List.mem_cons, List.mem_append] at hp
  rcases hp with rfl | hp | hp
  · exact Nat.le_refl _
  · have := h1 _ p hp; omega
  · exact h2 _ p hp

theorem childRow_shift {α : Type} {level : α → Nat} {ys : List α} {i j : Nat} (xs zs : List α) (h : ChildRow level ys i j) :
    ChildRow level (xs ++ (ys ++ zs)) (xs.length + i) (xs.length + j) := by
  obtain ⟨h1, ⟨x, y, hx, hy, e⟩, h3⟩ := h
  have hj : j < ys.length := (List.getElem?_eq_some_iff.1 hy).1
  have key : ∀ m, m ≤ j → (xs ++ (ys ++ zs))[xs.length + m]? = ys[m]? := by
    intro m hm
    rw [List.getElem?_append_right (by omega), List.getElem?_append_left (by omega)]
    congr 1
    omega
  refine ⟨by omega, ⟨x, y, by rw [key i (by omega)]; exact hx, by rw [key j (Nat.le_refl _)]; exact hy, e⟩, ?_⟩
  intro m x' z hm1 hm2 hx' hz
  obtain ⟨m', rfl⟩ : ∃ m', m = xs.length + m' := ⟨m - xs.length, by omega⟩
  rw [key i (by omega)] at hx'
  rw [key m' (by omega)] at hz
  exact h3 m' x' z (by omega) (by omega) hx' hz

/-- A node of the forest. -/
def InForest (cs : List Node) (x : Node) : Prop := ∃ t ∈ cs, x = t ∨ Below t x

theorem InForest.head {l : String} {o : F64} {ds cs : List Node} {x : Node} (h : InForest ds x) : InForest (.mk l o ds :: cs) x := by
  obtain ⟨t, ht, h⟩ := h
  refine ⟨_, List.mem_cons_self, .inr ?_⟩
  rcases h with rfl | h
  · exact .child l o ds _ ht
  · exact .deeper l o ds t x ht h

theorem InForest.tail {c : Node} {cs : List Node} {x : Node} (h : InForest cs x) : InForest (c :: cs) x := by
  obtain ⟨t, ht, h⟩ := h
  exact ⟨t, List.mem_cons_of_mem _ ht, h⟩

theorem rowsOf_top : ∀ (cs : List Node) (k : Nat) (c : Node), c ∈ cs → ∃ j : Nat, (rowsOf k cs)[j]? = some (k, c.locator) := by
  intro cs k c hc
  obtain ⟨a, b, rfl⟩ := List.append_of_mem hc
  induction a with
  | nil =>
    obtain ⟨l, o, ds⟩ := c
    exact ⟨0, by rw [List.nil_append, rowsOf_cons]; rfl⟩
  | cons d a ih =>
    obtain ⟨j, hj⟩ := ih (by simp)
    obtain ⟨l, o, ds⟩ := d
    refine ⟨(rowsOf (k + 1) ds).length + j + 1, ?_⟩
    rw [List.cons_append, rowsOf_cons, List.getElem?_cons_succ, List.getElem?_append_right (by omega)]
    rw [show (rowsOf (k + 1) ds).length + j - (rowsOf (k + 1) ds).length = j by omega]
    exact hj

/-- Every row is that of a node, and has the rows of its children below it. -/
theorem rowsOf_children : ∀ (cs : List Node) (k i : Nat) (p : Nat × String), (rowsOf k cs)[i]? = some p →
    ∃ x, InForest cs x ∧ x.locator = p.2 ∧ ∀ c ∈ x.children, ∃ j, ChildRow Prod.fst (rowsOf k cs) i j ∧
      (rowsOf k cs)[j]? = some (p.1 + 1, c.locator) := by
  refine forestInd (fun k i p hp => by rw [rowsOf_nil] at hp; cases hp) ?_
  intro l o ds cs h1 h2 k i p hp
  rw [rowsOf_cons] at hp ⊢
  cases i with
  | zero =>
    rw [List.getElem?_cons_zero, Option.some.injEq] at hp
    subst hp
    refine ⟨.mk l o ds, ⟨_, List.mem_cons_self, .inl rfl⟩, rfl, ?_⟩
    intro c hc
    obtain ⟨j, hj⟩ := rowsOf_top ds (k + 1) c hc
    have hlt := (List.getElem?_eq_some_iff.1 hj).1
    have hj' : ((k, l) :: (rowsOf (k + 1) ds ++ rowsOf k cs))[j + 1]? = some (k + 1, c.locator) := by
      rw [List.getElem?_cons_succ, List.getElem?_append_left hlt]; exact hj
    refine ⟨j + 1, ⟨by omega, ⟨(k, l), _, rfl, hj', rfl⟩, ?_⟩, hj'⟩
    intro m x z hm1 hm2 hx hz
    cases hx
    obtain ⟨m', rfl⟩ : ∃ m', m = m' + 1 := ⟨m - 1, by omega⟩
    rw [List.getElem?_cons_succ, List.getElem?_append_left (by omega)] at hz
    exact rowsOf_ge _ _ _ (List.mem_of_getElem? hz)
  | succ i =>
    rw [List.getElem?_cons_succ] at hp
    by_cases hi : i < (rowsOf (k + 1) ds).length
    · rw [List.getElem?_append_left hi] at hp
      obtain ⟨x, hx1, hx2, hx3⟩ := h1 _ _ _ hp
      refine ⟨x, hx1.head, hx2, ?_⟩
      intro c hc
      obtain ⟨j, hj1, hj2⟩ := hx3 c hc
      have hlt := (List.getElem?_eq_some_iff.1 hj2).1
      refine ⟨j + 1, ?_, ?_⟩
      · have := childRow_shift [(k, l)] (rowsOf k cs) hj1
        simpa [Nat.add_comm] using this
      · rw [List.getElem?_cons_succ, List.getElem?_append_left hlt]; exact hj2
    · rw [List.getElem?_append_right (by omega)] at hp
      obtain ⟨x, hx1, hx2, hx3⟩ := h2 _ _ _ hp
      refine ⟨x, hx1.tail, hx2, ?_⟩
      intro c hc
      obtain ⟨j, hj1, hj2⟩ := hx3 c hc
      refine ⟨(rowsOf (k + 1) ds).length + j + 1, ?_, ?_⟩
      · have := childRow_shift ((k, l) :: rowsOf (k + 1) ds) [] hj1
        rw [List.append_nil, List.length_cons, List.cons_append] at this
        rw [show i + 1 = (rowsOf (k + 1) ds).length + 1 + (i - (rowsOf (k + 1) ds).length) by omega,
          show (rowsOf (k + 1) ds).length + j + 1 = (rowsOf (k + 1) ds).length + 1 + j by omega]
        exact this
      · rw [List.getElem?_cons_succ, List.getElem?_append_right (by omega),
          show (rowsOf (k + 1) ds).length + j - (rowsOf (k + 1) ds).length = j by omega]
        exact hj2

/-- Every row is that of a root or is below the row of its parent. -/
theorem rowsOf_parent : ∀ (cs : List Node) (k j : Nat) (p : Nat × String), (rowsOf k cs)[j]? = some p →
    (p.1 = k ∧ ∃ t ∈ cs, t.locator = p.2) ∨ ∃ i q x c, InForest cs x ∧ (rowsOf k cs)[i]? = some q ∧ x.locator = q.2 ∧
      ChildRow Prod.fst (rowsOf k cs) i j ∧ c ∈ x.children ∧ c.locator = p.2 := by
  refine forestInd (fun k i p hp => by rw [rowsOf_nil] at hp; cases hp) ?_
  intro l o ds cs h1 h2 k j p hp
  rw [rowsOf_cons] at hp ⊢
  cases j with
  | zero =>
    rw [List.getElem?_cons_zero, Option.some.injEq] at hp
    subst hp
    exact .inl ⟨rfl, _, List.mem_cons_self, rfl⟩
  | succ j =>
    rw [List.getElem?_cons_succ] at hp
    by_cases hi : j < (rowsOf (k + 1) ds).length
    · have hp0 := hp
      rw [List.getElem?_append_left hi] at hp
      right
      rcases h1 _ _ _ hp with ⟨hk, t, ht, e⟩ | ⟨i, q, x, c, hx, hq, e, hc, hm, e'⟩
      · refine ⟨0, (k, l), .mk l o ds, t, ⟨_, List.mem_cons_self, .inl rfl⟩, rfl, rfl, ⟨by omega, ⟨_, p, rfl, ?_, by rw [hk]⟩, ?_⟩, ht, e⟩
        · rw [List.getElem?_cons_succ]; exact hp0
        · intro m x z hm1 hm2 hx hz
          cases hx
          obtain ⟨m', rfl⟩ : ∃ m', m = m' + 1 := ⟨m - 1, by omega⟩
          rw [List.getElem?_cons_succ, List.getElem?_append_left (by omega)] at hz
          exact rowsOf_ge _ _ _ (List.mem_of_getElem? hz)
      · have hlt := (List.getElem?_eq_some_iff.1 hq).1
        refine ⟨i + 1, q, x, c, hx.head, ?_, e, ?_, hm, e'⟩
        · rw [List.getElem?_cons_succ, List.getElem?_append_left hlt]; exact hq
        · have := childRow_shift [(k, l)] (rowsOf k cs) hc
          simpa [Nat.add_comm] using this
    · rw [List.getElem?_append_right (by omega)] at hp
      rcases h2 _ _ _ hp with ⟨hk, t, ht, e⟩ | ⟨i, q, x, c, hx, hq, e, hc, hm, e'⟩
      · exact .inl ⟨hk, t, List.mem_cons_of_mem _ ht, e⟩
      · right
        refine ⟨(rowsOf (k + 1) ds).length + i + 1, q, x, c, hx.tail, ?_, e, ?_, hm, e'⟩
        · rw [List.getElem?_cons_succ, List.getElem?_append_right (by omega),
            show (rowsOf (k + 1) ds).length + i - (rowsOf (k + 1) ds).length = i by omega]
          exact hq
        · have := childRow_shift ((k, l) :: rowsOf (k + 1) ds) [] hc
          rw [List.append_nil, List.length_cons, List.cons_append] at this
          rw [show j + 1 = (rowsOf (k + 1) ds).length + 1 + (j - (rowsOf (k + 1) ds).length) by omega,
            show (rowsOf (k + 1) ds).length + i + 1 = (rowsOf (k + 1) ds).length + 1 + i by omega]
          exact this

/-! ## Sorting -/

theorem locator_sorted (n : Node) : n.sorted.locator = n.locator := by obtain ⟨l, o, cs⟩ := n; rw [Node.sorted]; rfl

theorem mem_sorted_children (n c : Node) : c ∈ n.sorted.children ↔ ∃ d ∈ n.children, c = d.sorted := by
  rw [sorted_children, List.mem_map]
  constructor
  · rintro ⟨d, hd, rfl⟩; exact ⟨d, (mem_sortNodes _ _).1 hd, rfl⟩
  · rintro ⟨d, hd, rfl⟩; exact ⟨d, (mem_sortNodes _ _).2 hd, rfl⟩

theorem below_iff (n x : Node) : Below n x ↔ ∃ c ∈ n.children, x = c ∨ Below c x := by
  constructor
  · rintro (⟨l, o, cs, _, hc⟩ | ⟨l, o, cs, c, _, hc, h⟩)
    · exact ⟨_, hc, .inl rfl⟩
    · exact ⟨c, hc, .inr h⟩
  · obtain ⟨l, o, cs⟩ := n
    rintro ⟨c, hc, rfl | h⟩
    · exact .child l o cs _ hc
    · exact .deeper l o cs c x hc h

theorem below_sorted {n x : Node} (h : Below n.sorted x) : ∃ y, Below n y ∧ x = y.sorted := by
  generalize hn : n.sorted = m at h
  induction h generalizing n with
  | child l o cs c hc =>
    have : c ∈ n.sorted.children := by rw [hn]; exact hc
    obtain ⟨d, hd, rfl⟩ := (mem_sorted_children n c).1 this
    exact ⟨d, (below_iff n d).2 ⟨d, hd, .inl rfl⟩, rfl⟩
  | deeper l o cs c x hc _ ih =>
    have : c ∈ n.sorted.children := by rw [hn]; exact hc
    obtain ⟨d, hd, rfl⟩ := (mem_sorted_children n c).1 this
    obtain ⟨y, hy, rfl⟩ := ih rfl
    exact ⟨y, (below_iff n y).2 ⟨d, hd, .inr hy⟩, rfl⟩

theorem IsForest.sorted {arcs : List Arc} {arcrole : String} {root : Node} (h : IsForest arcs arcrole root) :
    IsForest arcs arcrole root.sorted := by
  constructor
  · intro l
    rw [← h.tops l]
    constructor
    · rintro ⟨c, hc, rfl⟩
      obtain ⟨d, hd, rfl⟩ := (mem_sorted_children root c).1 hc
      exact ⟨d, hd, (locator_sorted d).symm⟩
    · rintro ⟨d, hd, rfl⟩
      exact ⟨_, (mem_sorted_children root _).2 ⟨d, hd, rfl⟩, locator_sorted d⟩
  · intro x hx l o
    obtain ⟨y, hy, rfl⟩ := below_sorted hx
    rw [locator_sorted, ← h.kids y hy l o]
    constructor
    · rintro ⟨c, hc, rfl, rfl⟩
      obtain ⟨d, hd, rfl⟩ := (mem_sorted_children y c).1 hc
      exact ⟨d, hd, (locator_sorted d).symm, (order_sorted d).symm⟩
    · rintro ⟨d, hd, rfl, rfl⟩
      exact ⟨_, (mem_sorted_children y _).2 ⟨d, hd, rfl⟩, locator_sorted d, order_sorted d⟩

theorem inForest_below {root x : Node} (h : InForest root.children x) : Below root x :=
  (below_iff root x).2 h

/-! ## The rows of arcs -/

theorem forest_child {arcs : List Arc} {arcrole : String} {root : Node} (h : IsForest arcs arcrole root) {a : Arc} (ha : a ∈ arcs)
    (hr : a.arcrole = arcrole) {i : Nat} {p : Nat × String} (hp : (rowsOf 0 root.children)[i]? = some p) (e : p.2 = a.frm) :
    ∃ j, ChildRow Prod.fst (rowsOf 0 root.children) i j ∧ (rowsOf 0 root.children)[j]? = some (p.1 + 1, a.to) := by
  obtain ⟨x, hx, e1, hc⟩ := rowsOf_children _ _ _ _ hp
  obtain ⟨c, hc1, hc2, _⟩ := (h.kids x (inForest_below hx) a.to a.order).2 ⟨a, ha, hr, by rw [e1, e], rfl, rfl⟩
  obtain ⟨j, hj1, hj2⟩ := hc c hc1
  exact ⟨j, hj1, by rw [hj2, hc2]⟩

theorem forest_shown {arcs : List Arc} {arcrole : String} {root : Node} (h : IsForest arcs arcrole root) (hac : Acyclic arcs arcrole)
    {a : Arc} (ha : a ∈ arcs) (hr : a.arcrole = arcrole) : ∃ (i : Nat) (p : Nat × String), (rowsOf 0 root.children)[i]? = some p ∧ p.2 = a.frm := by
  obtain ⟨rank, hrank⟩ := hac
  generalize hn : rank a.frm = n
  induction n using Nat.strongRecOn generalizing a with
  | ind n ih =>
    by_cases ht : ∃ b ∈ arcs, b.arcrole = arcrole ∧ b.to = a.frm
    · obtain ⟨b, hb, hbr, hbt⟩ := ht
      obtain ⟨i, p, hp, e⟩ := ih (rank b.frm) (by have := hrank b hb hbr; rw [hbt, hn] at this; exact this) hb hbr rfl
      obtain ⟨j, _, hj⟩ := forest_child h hb hbr hp e
      exact ⟨j, _, hj, hbt⟩
    · obtain ⟨c, hc, e⟩ := (h.tops a.frm).2 ⟨⟨a, ha, hr, rfl⟩, ht⟩
      obtain ⟨j, hj⟩ := rowsOf_top _ 0 c hc
      exact ⟨j, _, hj, e⟩

theorem forest_parent {arcs : List Arc} {arcrole : String} {root : Node} (h : IsForest arcs arcrole root) {j : Nat} {p : Nat × String}
    (hp : (rowsOf 0 root.children)[j]? = some p) :
    (p.1 = 0 ∧ (∃ a ∈ arcs, a.arcrole = arcrole ∧ a.frm = p.2) ∧ ¬ ∃ a ∈ arcs, a.arcrole = arcrole ∧ a.to = p.2) ∨
      ∃ i q, (rowsOf 0 root.children)[i]? = some q ∧ ChildRow Prod.fst (rowsOf 0 root.children) i j ∧
        ∃ a ∈ arcs, a.arcrole = arcrole ∧ a.frm = q.2 ∧ a.to = p.2 := by
  rcases rowsOf_parent _ _ _ _ hp with ⟨h0, t, ht, e⟩ | ⟨i, q, x, c, hx, hq, e, hc, hm, e'⟩
  · exact .inl ⟨h0, (h.tops p.2).1 ⟨t, ht, e⟩⟩
  · obtain ⟨a, ha, h1, h2, h3, _⟩ := (h.kids x (inForest_below hx) c.locator c.order).1 ⟨c, hm, rfl, rfl⟩
    exact .inr ⟨i, q, hq, hc, a, ha, h1, by rw [h2, e], by rw [h3, e']⟩

end Telefacts.Render
