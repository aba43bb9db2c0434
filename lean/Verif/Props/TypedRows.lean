import Verif.Props.Express
import Verif.Props.Relations
/-! # C145: the values of a typed dimension are shown -/
namespace Telefacts.Render
open Telefacts.Spec Telefacts.Instance

/-- The arcs of a typed member as they are given to the tree builder. -/
def arcsOfTyped (m : TypedMember) : List Arc :=
  m.arcs.map fun a => ⟨"http://ecksbee.com/arc-role/typed-domain", F64.ofInt a.order, a.frm, a.to⟩

/-- A typed member of the dimension `dim` whose elements all have a text. -/
structure TextTyped (dim : String) (m : TypedMember) : Prop where
  dimension : m.dimHref = dim
  named : dim ≠ ""
  some_arc : m.arcs ≠ []
  rank : Acyclic (arcsOfTyped m) "http://ecksbee.com/arc-role/typed-domain"
  sources : ∀ a ∈ m.arcs, a.frm = dim ∨ ∃ b ∈ m.arcs, b.to = a.frm
  texts : ∀ a ∈ m.arcs, ∃ t, (a.to, t) ∈ m.members
  elements : ∀ e ∈ m.members, e.1 ≠ "" ∧ ∃ a ∈ m.arcs, a.to = e.1

/-- The tree builder does what it has to for the typed member: an unnamed root above the tree of the arcs. -/
def Built (f : Folder) (m : TypedMember) : Prop :=
  IsForest (arcsOfTyped m) "http://ecksbee.com/arc-role/typed-domain" (f.tree (arcsOfTyped m) "http://ecksbee.com/arc-role/typed-domain") ∧
    (f.tree (arcsOfTyped m) "http://ecksbee.com/arc-role/typed-domain").locator = ""

/-- The nodes at a depth. -/
def level : Nat → List Node → List Node
  | 0, cs => cs
  | k + 1, cs => level k (cs.flatMap Node.children)

theorem someAt_level (k : Nat) (cs : List Node) (x : String) : SomeAt cs k x ↔ ∃ y ∈ level k cs, y.locator = x := by
  induction k generalizing cs with
  | zero => rw [someAt_zero, List.mem_map, level]
  | succ k ih => rw [someAt_succ, ih, level]

theorem level_succ (k : Nat) (cs : List Node) : level (k + 1) cs = (level k cs).flatMap Node.children := by
  induction k generalizing cs with
  | zero => rfl
  | succ k ih => rw [level, ih, level]

theorem below_child {root y c : Node} (h : y = root ∨ Below root y) (hc : c ∈ y.children) : Below root c := by
  rcases h with rfl | h
  · obtain ⟨l, o, cs⟩ := y
    exact .child _ _ _ _ hc
  · induction h with
    | child l o cs d hd => exact .deeper _ _ _ _ _ hd ((below_iff _ _).2 ⟨c, hc, .inl rfl⟩)
    | deeper l o cs d x hd _ ih => exact .deeper _ _ _ _ _ hd (ih hc)

theorem level_below {root : Node} (k : Nat) {y : Node} (h : y ∈ level (k + 1) [root]) : Below root y := by
  induction k generalizing y with
  | zero =>
    rw [level_succ] at h
    obtain ⟨r, hr, hy⟩ := List.mem_flatMap.1 h
    rw [List.mem_singleton.1 hr] at hy
    exact below_child (.inl rfl) hy
  | succ k ih =>
    rw [level_succ] at h
    obtain ⟨z, hz, hy⟩ := List.mem_flatMap.1 h
    exact below_child (.inr (ih hz)) hy

theorem nodeAt_level (root : Node) (k : Nat) (x : String) : NodeAt root k x ↔ ∃ y ∈ level k [root], y.locator = x := by
  rw [← someAt_level]
  unfold SomeAt
  simp

/-- The nodes under the dimensions are targets of arcs. -/
theorem forest_target {arcs : List Arc} {arcrole : String} {root : Node} (h : IsForest arcs arcrole root) {k : Nat} {x : String}
    (hx : NodeAt root (k + 2) x) : ∃ a ∈ arcs, a.arcrole = arcrole ∧ a.to = x := by
  obtain ⟨y, hy, rfl⟩ := (nodeAt_level _ _ _).1 hx
  rw [level_succ] at hy
  obtain ⟨z, hz, hy⟩ := List.mem_flatMap.1 hy
  obtain ⟨a, h1, h2, _, h4, _⟩ := (h.kids z (level_below k hz) y.locator y.order).1 ⟨y, hy, rfl, rfl⟩
  exact ⟨a, h1, h2, h4⟩

/-- Every target is under a dimension. -/
theorem forest_has {arcs : List Arc} {arcrole : String} {root : Node} (h : IsForest arcs arcrole root) (hac : Acyclic arcs arcrole)
    {a : Arc} (ha : a ∈ arcs) (hr : a.arcrole = arcrole) : ∃ k, NodeAt root (k + 2) a.to := by
  obtain ⟨rank, hrank⟩ := hac
  suffices key : ∀ n, ∀ a ∈ arcs, a.arcrole = arcrole → rank a.frm ≤ n → ∃ k, ∃ y ∈ level (k + 1) [root], y.locator = a.frm by
    obtain ⟨k, y, hy, e⟩ := key _ a ha hr (Nat.le_refl _)
    obtain ⟨c, hc, hcl, _⟩ := (h.kids y (level_below k hy) a.to a.order).2 ⟨a, ha, hr, e.symm, rfl, rfl⟩
    exact ⟨k, (nodeAt_level _ _ _).2 ⟨c, by rw [level_succ]; exact List.mem_flatMap.2 ⟨y, hy, hc⟩, hcl⟩⟩
  intro n
  induction n with
  | zero =>
    intro a ha hr hn
    by_cases ht : ∃ b ∈ arcs, b.arcrole = arcrole ∧ b.to = a.frm
    · obtain ⟨b, hb, hbr, e⟩ := ht
      have := hrank b hb hbr
      rw [e] at this
      omega
    · obtain ⟨c, hc, e⟩ := (h.tops a.frm).2 ⟨⟨a, ha, hr, rfl⟩, ht⟩
      exact ⟨0, c, by rw [level_succ]; exact List.mem_flatMap.2 ⟨root, List.mem_singleton.2 rfl, hc⟩, e⟩
  | succ n ih =>
    intro a ha hr hn
    by_cases ht : ∃ b ∈ arcs, b.arcrole = arcrole ∧ b.to = a.frm
    · obtain ⟨b, hb, hbr, e⟩ := ht
      have := hrank b hb hbr
      rw [e] at this
      obtain ⟨k, y, hy, e'⟩ := ih b hb hbr (by omega)
      obtain ⟨c, hc, hcl, _⟩ := (h.kids y (level_below k hy) b.to b.order).2 ⟨b, hb, hbr, e'.symm, rfl, rfl⟩
      exact ⟨k + 1, c, by rw [level_succ]; exact List.mem_flatMap.2 ⟨y, hy, hc⟩, hcl.trans e⟩
    · obtain ⟨c, hc, e⟩ := (h.tops a.frm).2 ⟨⟨a, ha, hr, rfl⟩, ht⟩
      exact ⟨0, c, by rw [level_succ]; exact List.mem_flatMap.2 ⟨root, List.mem_singleton.2 rfl, hc⟩, e⟩

/-- The walked tree has everything, if no tree is empty. -/
theorem reduced_full (trees : List Node) (h : ∀ t ∈ trees, t.locator = "" ∧ t.children ≠ []) :
    ∃ o cs, (reduceTrees trees).sorted = .mk "" o cs ∧ ∀ k x, SomeAt cs k x ↔ SomeAt trees (k + 1) x := by
  unfold reduceTrees
  rw [if_neg]
  · refine ⟨_, _, rfl, ?_⟩
    intro k x
    rw [someAt_succ]
    have h2 : SomeAt (sortNodes (sortedAll (dedupNodes (trees.flatMap Node.children) 0))) k x ↔
        NodeAt (Node.mk "" F64.zero (dedupNodes (trees.flatMap Node.children) 0)).sorted (k + 1) x := by
      rw [Node.sorted, nodeAt_succ]
    rw [h2, nodeAt_sorted, nodeAt_succ, someAt_dedup]
  · intro hany
    rw [List.any_eq_true] at hany
    obtain ⟨t, ht, hb⟩ := hany
    obtain ⟨h1, h2⟩ := h t ht
    simp [h1, h2] at hb

/-- There is a typed row for the element. -/
def HasTypedRow (s : DimMaps) (rows : List VoidCell) (x : String) : Prop :=
  ∃ v ∈ rows, 1 ≤ v.indentation ∧ ∃ t, v.typedDomain = some t ∧ mapGet s.typedDomains x = some t

theorem HasTypedRow.mono {s : DimMaps} {rows rows' : List VoidCell} {x : String} (h : HasTypedRow s rows x) (hs : ∀ r ∈ rows, r ∈ rows') :
    HasTypedRow s rows' x := by
  obtain ⟨v, hv, h⟩ := h
  exact ⟨v, hs v hv, h⟩

mutual
theorem indentNode_has (s : DimMaps) (paren : Bool) (d : Labelled) (level : Nat) (hl : 2 ≤ level) (st : IndentState)
    (hd : st.dimension = some d) : ∀ n : Node, (∀ k x, NodeAt n k x → x = "" ∨ (mapGet s.typedDomains x).isSome) →
      ∃ st', indentNode s paren level st n = .done st' ∧ st'.dimension = some d ∧ (∀ r ∈ st.rows, r ∈ st'.rows) ∧
        ∀ k x, NodeAt n k x → x ≠ "" → HasTypedRow s st'.rows x
  | .mk loc o cs => by
    intro hk
    unfold indentNode
    rw [enter_of_some hd]
    simp only
    unfold nodeRow
    rw [if_neg (by omega)]
    have hk' : ∀ k x, SomeAt cs k x → x = "" ∨ (mapGet s.typedDomains x).isSome :=
      fun k x hx => hk (k + 1) x ((nodeAt_succ _ _ _ _ _).2 hx)
    by_cases hloc : loc = ""
    · rw [if_neg (by simp [hloc])]
      obtain ⟨st', e, h1, h2, h3⟩ := indentNodes_has s paren d (level + 1) (by omega) st hd cs hk'
      refine ⟨st', e, h1, h2, ?_⟩
      intro k x hx hne
      cases k with
      | zero => rw [nodeAt_zero] at hx; exact absurd (hx.trans hloc) hne
      | succ k => exact h3 k x ((nodeAt_succ _ _ _ _ _).1 hx) hne
    · rw [if_pos ⟨by omega, hloc⟩]
      rcases hk 0 loc (.here _ _ _) with h | h
      · exact absurd h hloc
      obtain ⟨t, ht⟩ := Option.isSome_iff_exists.1 h
      rw [ht]
      simp only [appendRow_of_some hd, Run.andThen]
      obtain ⟨st', e, h1, h2, h3⟩ := indentNodes_has s paren d (level + 1) (by omega)
        { st with rows := st.rows ++ [⟨paren, level, d, some t⟩] } hd cs hk'
      refine ⟨st', e, h1, fun r hr => h2 r (List.mem_append.2 (.inl hr)), ?_⟩
      intro k x hx hne
      cases k with
      | zero =>
        rw [nodeAt_zero] at hx
        subst hx
        refine ⟨_, h2 _ (List.mem_append.2 (.inr (List.mem_singleton.2 rfl))), ?_, t, rfl, ht⟩
        show 1 ≤ level
        omega
      | succ k => exact h3 k x ((nodeAt_succ _ _ _ _ _).1 hx) hne
theorem indentNodes_has (s : DimMaps) (paren : Bool) (d : Labelled) (level : Nat) (hl : 2 ≤ level) (st : IndentState)
    (hd : st.dimension = some d) : ∀ cs : List Node, (∀ k x, SomeAt cs k x → x = "" ∨ (mapGet s.typedDomains x).isSome) →
      ∃ st', indentNodes s paren level st cs = .done st' ∧ st'.dimension = some d ∧ (∀ r ∈ st.rows, r ∈ st'.rows) ∧
        ∀ k x, SomeAt cs k x → x ≠ "" → HasTypedRow s st'.rows x
  | [] => by
    intro _
    unfold indentNodes
    exact ⟨st, rfl, hd, fun r hr => hr, fun k x hx => by obtain ⟨t, ht, _⟩ := hx; cases ht⟩
  | c :: cs => by
    intro hk
    unfold indentNodes
    obtain ⟨st1, e1, h1, h2, h3⟩ := indentNode_has s paren d level hl st hd c
      fun k x hx => hk k x ((someAt_cons _ _ _ _).2 (.inl hx))
    obtain ⟨st2, e2, h1', h2', h3'⟩ := indentNodes_has s paren d level hl st1 h1 cs
      fun k x hx => hk k x ((someAt_cons _ _ _ _).2 (.inr hx))
    rw [e1]
    simp only [e2]
    refine ⟨st2, rfl, h1', fun r hr => h2' r (h2 r hr), ?_⟩
    intro k x hx hne
    rcases (someAt_cons _ _ _ _).1 hx with h | h
    · exact (h3 k x h hne).mono h2'
    · exact h3' k x h hne
end

theorem indentTops_has (s : DimMaps) (paren : Bool) (cs : List Node)
    (h0 : ∀ x, SomeAt cs 0 x → x ≠ "" ∧ (mapGet s.dimensions x).isSome)
    (h1 : ∀ k x, SomeAt cs (k + 1) x → x = "" ∨ (mapGet s.typedDomains x).isSome) (st : IndentState) :
    ∃ st', indentNodes s paren 1 st cs = .done st' ∧ (∀ r ∈ st.rows, r ∈ st'.rows) ∧
      ∀ k x, SomeAt cs (k + 1) x → x ≠ "" → HasTypedRow s st'.rows x := by
  induction cs generalizing st with
  | nil => exact ⟨st, by unfold indentNodes; rfl, fun r hr => hr, fun k x hx => by obtain ⟨t, ht, _⟩ := hx; cases ht⟩
  | cons c cs ih =>
    obtain ⟨loc, o, ds⟩ := c
    obtain ⟨hne, hdim⟩ := h0 loc ((someAt_cons _ _ _ _).2 (.inl (.here _ _ _)))
    have hent : ∃ st1 d, enterNode s loc st = some st1 ∧ st1.dimension = some d ∧ st1.rows = st.rows := by
      unfold enterNode
      split
      · cases hm : mapGet s.dimensions loc with
        | none => rw [hm] at hdim; simp at hdim
        | some d => exact ⟨_, d, rfl, rfl, rfl⟩
      · rename_i hc
        cases hd : st.dimension with
        | none => exact absurd ⟨hd, hne⟩ hc
        | some d => exact ⟨st, d, rfl, hd, rfl⟩
    obtain ⟨st1, d, e1, hd, hr⟩ := hent
    obtain ⟨st2, e2, _, h4, h5⟩ := indentNodes_has s paren d 2 (by omega)
      { st1 with rows := st1.rows ++ [⟨paren, 1, d, none⟩] } hd ds
      fun k x hx => h1 k x ((someAt_cons _ _ _ _).2 (.inl ((nodeAt_succ _ _ _ _ _).2 hx)))
    obtain ⟨st3, e3, h6, h7⟩ := ih (fun x hx => h0 x ((someAt_cons _ _ _ _).2 (.inr hx)))
      (fun k x hx => h1 k x ((someAt_cons _ _ _ _).2 (.inr hx))) st2
    refine ⟨st3, ?_, ?_, ?_⟩
    · unfold indentNodes indentNode
      rw [e1]
      simp only [nodeRow, if_true, appendRow_of_some hd, Run.andThen, e2, e3]
    · intro r hr'
      exact h6 r (h4 r (List.mem_append.2 (.inl (by rw [hr]; exact hr'))))
    · intro k x hx hne'
      rcases (someAt_cons _ _ _ _).1 hx with h | h
      · exact (h5 k x ((nodeAt_succ _ _ _ _ _).1 h) hne').mono h6
      · exact h7 k x h hne'

/-- The contexts of the columns are those of the folder. -/
theorem relevant_from {f : Folder} {entity : String} {hrefs : List String} {rel : Relevant}
    (h : getRelevantContexts f entity hrefs = .done rel) : ∃ cs : List Context, (∀ c ∈ cs, ∃ i ∈ f.insts, c ∈ i.contexts) ∧
      rel.contexts = sortContexts (cs.map (newItem f)) ∧ rel.segmentTrees = cs.flatMap (fun c => typedTrees f c.segment) ∧
      rel.scenarioTrees = cs.flatMap (fun c => typedTrees f c.scenario) := by
  rw [getRelevantContexts_eq] at h
  cases hc : allContexts entity (factualHrefs f hrefs) f.insts with
  | panic => rw [hc] at h; simp [Run.andThen] at h
  | loop => rw [hc] at h; simp [Run.andThen] at h
  | done cs =>
    rw [hc] at h
    simp only [Run.andThen, Run.done.injEq] at h
    subst h
    obtain ⟨css, rfl, hf⟩ := allContexts_done hc
    refine ⟨_, ?_, rfl, rfl, rfl⟩
    intro c hc
    obtain ⟨l, hl, hcl⟩ := List.mem_flatten.1 hc
    obtain ⟨i, hi, hrel⟩ : ∃ i ∈ f.insts, ∀ c, c ∈ l ↔ OfEntity entity c ∧ HasFactFor f hrefs i c := by
      revert hl
      clear * - hf
      revert hf
      generalize f.insts = is
      intro hf
      induction hf with
      | nil => simp
      | cons h1 _ ih =>
        intro hl
        rcases List.mem_cons.1 hl with rfl | hl
        · exact ⟨_, List.mem_cons_self, h1.2⟩
        · obtain ⟨i, hi, h⟩ := ih hl
          exact ⟨i, List.mem_cons_of_mem _ hi, h⟩
    obtain ⟨_, fact, _, _, hco⟩ := (hrel c).1 hcl
    exact ⟨i, hi, (firstWith_mem hco).1⟩

end Telefacts.Render

namespace Telefacts
open Telefacts.Render Telefacts.Instance Telefacts.Spec

/-- **C145 (partial).** If the folder has one typed dimension and all elements of its typed members have a text, the rows and cells
of the members can be computed, and for every element of a typed member of the context of a column there is a row of the dimension and the
element, in which the column has the text of the element. Missing: several typed dimensions, elements without text, and typed
members that were not understood (`C145_fails`). -/
theorem C145_shown_partial (f : Folder) (ord : GoMap String RelevantMember → GoMap String RelevantMember) (hord : ∀ m, (ord m).Perm m)
    (entity : String) (hrefs : List String) (rel : Relevant) (h : getRelevantContexts f entity hrefs = .done rel) (dim : String)
    (hf : ∀ i ∈ f.insts, ∀ c ∈ i.contexts, ∀ m, m ∈ c.segment.typed ∨ m ∈ c.scenario.typed → TextTyped dim m ∧ Built f m) :
    ∃ grid rows, getMemberGrid ord rel.contexts rel.segmentTrees rel.scenarioTrees = .done (grid, rows) ∧
      ∀ (j : Nat) (col : RelevantContext), rel.contexts[j]? = some col → ∀ c, ColumnOf f c col →
        ∀ m, m ∈ c.segment.typed ∨ m ∈ c.scenario.typed → ∀ e t, (e, t) ∈ m.members →
          (∀ m', m' ∈ c.segment.typed ∨ m' ∈ c.scenario.typed → ∀ t', (e, t') ∈ m'.members → t' = t) →
          ∃ k v d, rows[k]? = some v ∧ v.dimension.href = dim ∧ v.typedDomain = some d ∧ d.href = e ∧ CellAt grid k j ⟨none, t⟩ := by
  obtain ⟨cs, hcs, e1, e2, e3⟩ := relevant_from h
  have inv := dimMaps_inv rel.contexts
  have hcol : ∀ col, col ∈ rel.contexts ↔ ∃ c ∈ cs, col = newItem f c := by
    intro col
    rw [e1]
    unfold sortContexts
    rw [(stableSort_perm _ _).mem_iff, List.mem_map]
    exact exists_congr fun c => and_congr_right fun _ => eq_comm
  -- the trees
  have htree : ∀ (side : Context → DimCtx), (∀ c, ∀ m ∈ (side c).typed, m ∈ c.segment.typed ∨ m ∈ c.scenario.typed) →
      ∀ t ∈ sortTrees (cs.flatMap fun c => typedTrees f (side c)), ∃ c ∈ cs, ∃ m, m ∈ (side c).typed ∧ TextTyped dim m ∧
        IsForest (arcsOfTyped m) "http://ecksbee.com/arc-role/typed-domain" t ∧ t.locator = "" ∧
        t = f.tree (arcsOfTyped m) "http://ecksbee.com/arc-role/typed-domain" := by
    intro side hside t ht
    unfold sortTrees at ht
    rw [(stableSort_perm _ _).mem_iff] at ht
    obtain ⟨c, hc, ht⟩ := List.mem_flatMap.1 ht
    unfold typedTrees at ht
    obtain ⟨m, hm, rfl⟩ := List.mem_map.1 ht
    obtain ⟨i, hi, hci⟩ := hcs c hc
    obtain ⟨h1, h2, h3⟩ := hf i hi c hci m (hside c m hm)
    exact ⟨c, hc, m, hm, h1, h2, h3, rfl⟩
  have harc : ∀ (m : TypedMember) (a : Arc), a ∈ arcsOfTyped m → ∃ b ∈ m.arcs, a = ⟨"http://ecksbee.com/arc-role/typed-domain", F64.ofInt b.order, b.frm, b.to⟩ := by
    intro m a ha
    obtain ⟨b, hb, rfl⟩ := List.mem_map.1 ha
    exact ⟨b, hb, rfl⟩
  -- members of columns
  have hmem : ∀ c ∈ cs, ∀ m, m ∈ c.segment.typed ∨ m ∈ c.scenario.typed → ∀ e ∈ m.members,
      ∃ col ∈ rel.contexts, ∃ r ∈ col.members, r.dimension.href = m.dimHref ∧ ∃ t, r.typedDomain = some t ∧ t.href = e.1 := by
    intro c hc m hm e he
    refine ⟨newItem f c, (hcol _).2 ⟨c, hc, rfl⟩, ⟨⟨m.dimHref, f.label m.dimHref⟩, none, e.2, some ⟨e.1, f.label e.1⟩, false⟩, ?_, rfl, _, rfl, rfl⟩
    exact (contextualMembers_iff f c _).2 (.inr (.inr ⟨m, hm, e.1, e.2, he, rfl, rfl, rfl, rfl, rfl⟩))
  have hknown : ∀ (side : Context → DimCtx), (∀ c, ∀ m ∈ (side c).typed, m ∈ c.segment.typed ∨ m ∈ c.scenario.typed) →
      (∀ t ∈ sortTrees (cs.flatMap fun c => typedTrees f (side c)), t.locator = "" ∧ t.children ≠ []) ∧
      (∀ x, SomeAt (sortTrees (cs.flatMap fun c => typedTrees f (side c))) 1 x → x = dim ∧ x ≠ "" ∧ (mapGet (dimMaps rel.contexts).dimensions x).isSome) ∧
      (∀ k x, SomeAt (sortTrees (cs.flatMap fun c => typedTrees f (side c))) (k + 2) x → x = "" ∨ (mapGet (dimMaps rel.contexts).typedDomains x).isSome) := by
    intro side hside
    refine ⟨?_, ?_, ?_⟩
    · intro t ht
      obtain ⟨c, hc, m, hm, w, hfo, hl, _⟩ := htree side hside t ht
      refine ⟨hl, ?_⟩
      obtain ⟨a, ha⟩ := List.exists_mem_of_ne_nil _ w.some_arc
      obtain ⟨k, hk⟩ := forest_has hfo w.rank (List.mem_map_of_mem ha) rfl
      obtain ⟨l, o, ch⟩ := t
      rw [nodeAt_succ] at hk
      rintro hnil
      have hnil : ch = [] := hnil
      subst hnil
      obtain ⟨t, ht, _⟩ := hk
      cases ht
    · rintro x ⟨t, ht, hx⟩
      obtain ⟨c, hc, m, hm, w, hfo, hl, _⟩ := htree side hside t ht
      obtain ⟨l, o, ch⟩ := t
      rw [nodeAt_succ, someAt_zero, List.mem_map] at hx
      obtain ⟨⟨a, ha, _, e⟩, hno⟩ := (hfo.tops x).1 hx
      obtain ⟨b, hb, rfl⟩ := harc m a ha
      have hxd : x = dim := by
        rcases w.sources b hb with h | ⟨b', hb', h⟩
        · exact e.symm.trans h
        · exact absurd ⟨_, List.mem_map_of_mem hb', rfl, h.trans e⟩ hno
      refine ⟨hxd, by rw [hxd]; exact w.named, ?_⟩
      obtain ⟨t, ht⟩ := w.texts b hb
      obtain ⟨col, hcc, r, hr, hrd, _⟩ := hmem c hc m (hside c m hm) _ ht
      exact (inv.dim_has x).2 ⟨by rw [hxd]; exact w.named, r, List.mem_flatMap.2 ⟨col, hcc, hr⟩, by rw [hrd, w.dimension, hxd]⟩
    · rintro k x ⟨t, ht, hx⟩
      obtain ⟨c, hc, m, hm, w, hfo, hl, _⟩ := htree side hside t ht
      obtain ⟨a, ha, _, e⟩ := forest_target hfo hx
      obtain ⟨b, hb, rfl⟩ := harc m a ha
      obtain ⟨t, ht⟩ := w.texts b hb
      obtain ⟨col, hcc, r, hr, hrd, u, hu, hue⟩ := hmem c hc m (hside c m hm) _ ht
      exact .inr ((inv.typed_has x).2 ⟨r, List.mem_flatMap.2 ⟨col, hcc, hr⟩, by rw [hrd, w.dimension]; exact w.named, u, hu, hue.trans e⟩)
  have s1 := hknown (fun c => c.segment) (fun c m hm => .inl hm)
  have s2 := hknown (fun c => c.scenario) (fun c m hm => .inr hm)
  -- the walk
  have step : ∀ (paren : Bool) (trees : List Node), (∀ t ∈ trees, t.locator = "" ∧ t.children ≠ []) →
      (∀ x, SomeAt trees 1 x → x = dim ∧ x ≠ "" ∧ (mapGet (dimMaps rel.contexts).dimensions x).isSome) →
      (∀ k x, SomeAt trees (k + 2) x → x = "" ∨ (mapGet (dimMaps rel.contexts).typedDomains x).isSome) → ∀ st : IndentState,
      ∃ st', indentNode (dimMaps rel.contexts) paren 0 st (reduceTrees trees).sorted = .done st' ∧ (∀ r ∈ st.rows, r ∈ st'.rows) ∧
        ∀ k x, SomeAt trees (k + 2) x → x ≠ "" → HasTypedRow (dimMaps rel.contexts) st'.rows x := by
    intro paren trees h1 h2 h3 st
    obtain ⟨o, ns, e, hns⟩ := reduced_full trees h1
    rw [e, indent_root]
    obtain ⟨st', g1, g2, g3⟩ := indentTops_has (dimMaps rel.contexts) paren ns (fun x hx => (h2 x ((hns 0 x).1 hx)).2)
      (fun k x hx => h3 k x ((hns (k + 1) x).1 hx)) st
    exact ⟨st', g1, g2, fun k x hx hne => g3 k x ((hns (k + 1) x).2 hx) hne⟩
  obtain ⟨st1, g1, g2, g3⟩ := step false _ s1.1 s1.2.1 s1.2.2 ⟨explicitRows ord (dimMaps rel.contexts), none⟩
  obtain ⟨st2, g4, g5, g6⟩ := step true _ s2.1 s2.2.1 s2.2.2 st1
  have hvoid : getVoidQuadrant ord rel.contexts (sortTrees rel.segmentTrees) (sortTrees rel.scenarioTrees) = .done st2.rows := by
    unfold getVoidQuadrant
    rw [e2, e3]
    simp only [g1, g4, Run.andThen]
  have hgrid : ∃ grid rows, getMemberGrid ord rel.contexts rel.segmentTrees rel.scenarioTrees = .done (grid, rows) ∧
      (rel.contexts ≠ [] → rows = st2.rows) := by
    unfold getMemberGrid
    split
    · rename_i hnil; exact ⟨_, _, rfl, fun h => absurd hnil h⟩
    · rw [hvoid]
      simp only [Run.andThen]
      split
      · rename_i hnil; exact ⟨_, _, rfl, fun _ => hnil.symm⟩
      · exact ⟨_, _, rfl, fun _ => rfl⟩
  obtain ⟨grid, rows, hg, hrows⟩ := hgrid
  refine ⟨grid, rows, hg, ?_⟩
  intro j col hj c hcc m hm e t het huniq
  have hjm := List.mem_of_getElem? hj
  have hrows := hrows (by intro h; rw [h] at hjm; cases hjm)
  subst hrows
  -- the element in the context that the column came from
  obtain ⟨c0, hc0, rfl⟩ := (hcol col).1 hjm
  have hcc0 := newItem_column f c0
  have hin : (⟨⟨m.dimHref, f.label m.dimHref⟩, none, t, some ⟨e, f.label e⟩, false⟩ : RelevantMember) ∈ (newItem f c0).members :=
    (hcc.2.2 _).2 (.inr (.inr ⟨m, hm, e, t, het, rfl, rfl, rfl, rfl, rfl⟩))
  rcases (hcc0.2.2 _).1 hin with ⟨_, _, _, _, hx, _⟩ | ⟨_, _, _, _, hx, _⟩ | ⟨m0, hm0, e0, t0, het0, _, hd0, _, he0, ht0⟩
  · cases hx
  · cases hx
  simp only [Option.some.injEq, Labelled.mk.injEq] at he0 hd0
  obtain ⟨he0, _⟩ := he0
  obtain ⟨hd0, _⟩ := hd0
  subst he0
  obtain ⟨i0, hi0, hci0⟩ := hcs c0 hc0
  obtain ⟨w0, b0⟩ := hf i0 hi0 c0 hci0 m0 hm0
  obtain ⟨hne, a, ha, hae⟩ := w0.elements _ het0
  obtain ⟨k, hk⟩ := forest_has b0.1 w0.rank (List.mem_map_of_mem ha) rfl
  have hk : NodeAt (f.tree (arcsOfTyped m0) "http://ecksbee.com/arc-role/typed-domain") (k + 2) e := by
    have : a.to = e := hae
    rw [← this]; exact hk
  have hrow : HasTypedRow (dimMaps rel.contexts) st2.rows e := by
    rcases hm0 with hs | hs
    · refine (g3 k e ⟨_, ?_, hk⟩ hne).mono g5
      unfold sortTrees
      rw [(stableSort_perm _ _).mem_iff]
      exact List.mem_flatMap.2 ⟨c0, hc0, List.mem_map.2 ⟨m0, hs, rfl⟩⟩
    · refine g6 k e ⟨_, ?_, hk⟩ hne
      unfold sortTrees
      rw [(stableSort_perm _ _).mem_iff]
      exact List.mem_flatMap.2 ⟨c0, hc0, List.mem_map.2 ⟨m0, hs, rfl⟩⟩
  obtain ⟨v, hv, hind, d, hvd, hmd⟩ := hrow
  have hde := inv.typed_key _ _ hmd
  have hvdim : v.dimension.href = dim := by
    rcases (C44_one_partial ord hord rel.contexts _ _ _ hvoid).1 v hv with h | ⟨t, ht, hx⟩
    · omega
    · rw [e2, e3] at ht
      rcases List.mem_append.1 ht with ht | ht
      · exact (s1.2.1 _ ⟨t, ht, hx⟩).1
      · exact (s2.2.1 _ ⟨t, ht, hx⟩).1
  obtain ⟨n, hn⟩ := List.getElem?_of_mem hv
  refine ⟨n, v, d, hn, hvdim, hvd, hde, ?_⟩
  rw [(C42_grid ord _ _ _ _ _ hg).2.2]
  have hmatch : Matches v ⟨⟨m.dimHref, f.label m.dimHref⟩, none, t, some ⟨e, f.label e⟩, false⟩ :=
    ⟨by rw [hvdim]; exact hd0.trans w0.dimension, .inr ⟨_, d, rfl, hvd, hde.symm⟩⟩
  obtain ⟨x, hx⟩ := firstWith_exists ⟨_, hin, hmatch⟩
  refine ⟨v, _, hn, hj, .inl ⟨x, hx, ?_⟩⟩
  obtain ⟨hxm, hxv⟩ := firstWith_mem hx
  rcases hxv.2 with ⟨_, h2⟩ | ⟨a', b', ha', hb', hab⟩
  · rw [hvd] at h2; cases h2
  rw [hvd] at hb'
  cases hb'
  rcases (hcc.2.2 x).1 hxm with ⟨_, _, _, _, _, h5, _⟩ | ⟨_, _, _, _, _, h5, _⟩ | ⟨mx, hmx, ex, tx, hex, _, _, _, h5, h6⟩
  · rw [h5] at ha'; cases ha'
  · rw [h5] at ha'; cases ha'
  · rw [h5] at ha'
    cases ha'
    have hexe : ex = e := hab.trans hde
    subst hexe
    refine .inr ⟨by rw [h5]; simp, rfl, ?_⟩
    rw [h6]
    exact (huniq mx hmx tx hex).symm

/-- A context with a typed member in its scenario. -/
def typedCtx (id : String) (typed : List TypedMember) : Context := ⟨id, "s", "1", ⟨[], []⟩, "2020-12-31", "", "", ⟨[], typed⟩⟩

def typedFolder (ctxs : List Context) : Folder where
  insts := [⟨"i", ctxs, [], [], ctxs.map fun c => factExample "x#Cash" c.id⟩]
  concept := fun h => if h = "x#Cash" then some (conceptExample h false) else none
  label := fun _ => []
  tree := forest 6

/-- `<e>text</e>` of the dimension `d`. -/
def typedEx (d e text : String) : TypedMember := ⟨d, "", "", [(e, text)], [⟨1, d, e⟩]⟩

def typedRowsShown (ctxs : List Context) : Option (List (String × List String)) :=
  match getRelevantContexts (typedFolder ctxs) "s/1" ["x#Cash"] with
  | .done rel =>
    match getMemberGrid id rel.contexts rel.segmentTrees rel.scenarioTrees with
    | .done (grid, rows) => some ((rows.zip grid).map fun r =>
        (r.1.dimension.href ++ ((r.1.typedDomain.map fun d => " " ++ d.href).getD ""), r.2.map MemberCell.typedMember))
    | _ => none
  | _ => none

theorem typedEx_text (d e text : String) (hd : d ≠ "") (he : e ≠ "") (hne : e ≠ d) : TextTyped d (typedEx d e text) where
  dimension := rfl
  named := hd
  some_arc := by simp [typedEx]
  rank := ⟨fun x => if x = d then 0 else 1, by
    intro a ha _
    rw [List.mem_singleton.1 ha]
    simp [hne]⟩
  sources := fun a ha => .inl (by rw [List.mem_singleton.1 ha])
  texts := fun a ha => ⟨text, by rw [List.mem_singleton.1 ha]; exact List.mem_singleton.2 rfl⟩
  elements := fun x hx => by
    rw [List.mem_singleton.1 hx]
    exact ⟨he, _, List.mem_singleton.2 rfl, rfl⟩

theorem typedEx_built (ctxs : List Context) (d e text : String) (hne : e ≠ d) : Built (typedFolder ctxs) (typedEx d e text) := by
  refine ⟨forest_isForest _ _ (fun x => if x = d then 0 else 1) 5 ?_, rfl⟩
  intro a ha _
  rw [List.mem_singleton.1 ha]
  simp [hne]

/-- The hypotheses of `C145_shown_partial` can be met: two columns with different values of a typed dimension. -/
example : (∀ i ∈ (typedFolder [typedCtx "a" [typedEx "d" "e" "1"], typedCtx "b" [typedEx "d" "e" "2"]]).insts, ∀ c ∈ i.contexts,
      ∀ m, m ∈ c.segment.typed ∨ m ∈ c.scenario.typed → TextTyped "d" m ∧
        Built (typedFolder [typedCtx "a" [typedEx "d" "e" "1"], typedCtx "b" [typedEx "d" "e" "2"]]) m) ∧
    typedRowsShown [typedCtx "a" [typedEx "d" "e" "1"], typedCtx "b" [typedEx "d" "e" "2"]] =
      some [("d", ["", ""]), ("d e", ["1", "2"])] := by
  refine ⟨?_, by decide +kernel⟩
  intro i hi c hc m hm
  rw [List.mem_singleton.1 hi] at hc
  simp only [List.mem_cons, List.not_mem_nil, or_false] at hc
  rcases hc with rfl | rfl <;> rcases hm with hm | hm <;> simp only [typedCtx, List.not_mem_nil, List.mem_singleton] at hm
  · subst hm; exact ⟨typedEx_text _ _ _ (by decide) (by decide) (by decide), typedEx_built _ _ _ _ (by decide)⟩
  · subst hm; exact ⟨typedEx_text _ _ _ (by decide) (by decide) (by decide), typedEx_built _ _ _ _ (by decide)⟩

/-- **C145 (fails).** A third column has a typed member without content, and the values of the first two are not shown any more: both
columns look the same. With a second typed dimension, its value is not shown. -/
theorem C145_fails :
    typedRowsShown [typedCtx "a" [typedEx "d" "e" "1"], typedCtx "b" [typedEx "d" "e" "2"], typedCtx "c" [⟨"d", "", "", [], []⟩]] = some [] ∧
    typedRowsShown [typedCtx "a" [typedEx "d" "e" "1", typedEx "d2" "e2" "2"]] =
      some [("d", [""]), ("d e", ["1"]), ("d", [""]), ("d e2", [""])] := by
  refine ⟨by decide +kernel, by decide +kernel⟩

end Telefacts
