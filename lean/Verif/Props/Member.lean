import Verif.Proof.Member
import Verif.Props.Context
/-! # C42, C43, C44: dimension rows and member cells -/
namespace Telefacts
open Telefacts.Render Telefacts.Instance Telefacts.Spec

/-- **C42.** The grid of members has a row for every dimension row and a column for every context, or is empty when
there are no dimension rows. The cell at row `i` and column `j` shows the first member of the context that belongs to
the row, and is empty when there is none. -/
theorem C42_grid (ord : GoMap String RelevantMember → GoMap String RelevantMember) (ctxs : List RelevantContext)
    (segTrees scenTrees : List Node) (grid : List (List MemberCell)) (rows : List VoidCell)
    (h : getMemberGrid ord ctxs segTrees scenTrees = .done (grid, rows)) :
    HasShape grid rows.length ctxs.length ∧
    (ctxs = [] → rows = []) ∧
    ∀ i j x, CellAt grid i j x ↔ ∃ v c, rows[i]? = some v ∧ ctxs[j]? = some c ∧
      ((∃ m, FirstWith (Matches v) c.members m ∧ Shows x m) ∨ ((∀ m ∈ c.members, ¬ Matches v m) ∧ x = ⟨none, ""⟩)) := by
  have hg : grid = rows.map (fun v => ctxs.map fun c => cellOf v c) ∧ (ctxs = [] → rows = []) := by
    unfold getMemberGrid at h
    split at h
    · cases h; exact ⟨rfl, fun _ => rfl⟩
    · rename_i hne
      cases hv : getVoidQuadrant ord ctxs (sortTrees segTrees) (sortTrees scenTrees) with
      | panic => rw [hv] at h; simp [Run.andThen] at h
      | loop => rw [hv] at h; simp [Run.andThen] at h
      | done rows' =>
        rw [hv] at h
        simp only [Run.andThen] at h
        split at h
        · cases h; exact ⟨rfl, fun _ => rfl⟩
        · cases h; exact ⟨rfl, fun e => absurd e hne⟩
  obtain ⟨rfl, h0⟩ := hg
  refine ⟨⟨by simp, ?_⟩, h0, ?_⟩
  · intro row hrow
    obtain ⟨v, _, rfl⟩ := List.mem_map.1 hrow
    simp
  · intro i j x
    rw [cellAt_map2 cellOf rows ctxs i j x]
    simp only [cellOf_iff]

/-- **C42.** When every member of every context has something to show, a cell is empty iff no member of the context
belongs to the row. -/
theorem C42_empty (ord : GoMap String RelevantMember → GoMap String RelevantMember) (ctxs : List RelevantContext)
    (segTrees scenTrees : List Node) (grid : List (List MemberCell)) (rows : List VoidCell)
    (h : getMemberGrid ord ctxs segTrees scenTrees = .done (grid, rows))
    (hs : ∀ c ∈ ctxs, ∀ m ∈ c.members, Showable m) (i j : Nat) (v : VoidCell) (c : RelevantContext)
    (hv : rows[i]? = some v) (hc : ctxs[j]? = some c) :
    CellAt grid i j ⟨none, ""⟩ ↔ ∀ m ∈ c.members, ¬ Matches v m := by
  rw [(C42_grid ord ctxs segTrees scenTrees grid rows h).2.2]
  constructor
  · rintro ⟨v', c', hv', hc', h | h⟩
    · obtain ⟨m, hm, hx⟩ := h
      rw [hc] at hc'; cases hc'
      have hmem := (firstWith_mem hm)
      have hc0 : c ∈ ctxs := List.mem_of_getElem? hc
      rcases hs c hc0 m hmem.1 with ⟨h1, h2⟩ | ⟨h1, h2⟩
      · rcases hx with ⟨h3, h4, h5⟩ | ⟨h3, h4, h5⟩
        · exact absurd h4.symm h2
        · exact absurd h1 h3
      · rcases hx with ⟨h3, h4, h5⟩ | ⟨h3, h4, h5⟩
        · exact absurd h3 h1
        · exact absurd h5.symm h2
    · rw [hv] at hv'; rw [hc] at hc'; cases hv'; cases hc'
      exact h.1
  · intro hno
    exact ⟨v, c, hv, hc, .inr ⟨hno, rfl⟩⟩

/-- **C43 (partial).** When every dimension and element of the typed domain trees is known, the rows are: first, in
order of their hrefs, one for each dimension with an explicit member in a segment and one for each with an explicit
member in a scenario; then the typed rows. In particular so when there are no typed members. Missing: typed domain trees
with an element that is not known, i.e. has no text of its own (`C43_fails`). -/
theorem C43_explicit_partial (ord : GoMap String RelevantMember → GoMap String RelevantMember) (hord : ∀ m, (ord m).Perm m)
    (ctxs : List RelevantContext) (segTrees scenTrees : List Node)
    (hseg : AllKnown ctxs segTrees) (hscen : AllKnown ctxs scenTrees) :
    ∃ E T, getVoidQuadrant ord ctxs segTrees scenTrees = .done (E ++ T) ∧ ExplicitPart ctxs E ∧
      ∀ r ∈ T, 1 ≤ r.indentation := by
  have inv := dimMaps_inv ctxs
  have hdim : ∀ x, IsDimension ctxs x → x ≠ "" ∧ (mapGet (dimMaps ctxs).dimensions x).isSome := by
    rintro x ⟨h1, c, hc, m, hm, h2⟩
    exact ⟨h1, (inv.dim_has x).2 ⟨h1, m, List.mem_flatMap.2 ⟨c, hc, hm⟩, h2⟩⟩
  have htyp : ∀ x, IsTypedDomain ctxs x → (mapGet (dimMaps ctxs).typedDomains x).isSome := by
    rintro x ⟨c, hc, m, hm, h2⟩
    exact (inv.typed_has x).2 ⟨m, List.mem_flatMap.2 ⟨c, hc, hm⟩, h2⟩
  have step : ∀ (paren : Bool) (trees : List Node), AllKnown ctxs trees → ∀ st : IndentState,
      ∃ st' T, indentNode (dimMaps ctxs) paren 0 st (reduceTrees trees).sorted = .done st' ∧
        st'.rows = st.rows ++ T ∧ ∀ r ∈ T, 1 ≤ r.indentation := by
    intro paren trees hk st
    obtain ⟨o, cs, e, hcs⟩ := reduced_spec trees
    rw [e, indent_root]
    exact indentNodes_known _ _ cs (fun x hx => hdim x (hk.1 x (hcs 0 x hx)))
      (fun k x hx => (hk.2 k x (hcs (k + 1) x hx)).imp id (htyp x)) st
  obtain ⟨st1, T1, e1, hr1, hi1⟩ := step false segTrees hseg ⟨explicitRows ord (dimMaps ctxs), none⟩
  obtain ⟨st2, T2, e2, hr2, hi2⟩ := step true scenTrees hscen st1
  refine ⟨explicitRows ord (dimMaps ctxs), T1 ++ T2, ?_, explicitPart_rows ctxs ord hord, ?_⟩
  · unfold getVoidQuadrant
    simp only [e1, e2, Run.andThen]
    rw [hr2, hr1]
    simp
  · intro r hr
    rcases List.mem_append.1 hr with h | h
    · exact hi1 r h
    · exact hi2 r h

/-- **C43 (partial).** The explicit rows are determined by the contexts: any two lists that meet the description are
equal, when members of the same dimension have the same labels for it. So they do not depend on the order in which maps
are ranged over. -/
theorem C43_order_partial (ctxs : List RelevantContext) (hco : CoherentDims ctxs) (a b : List VoidCell)
    (ha : ExplicitPart ctxs a) (hb : ExplicitPart ctxs b) : a = b := explicitPart_unique hco ha hb

/-- A member of a typed dimension. -/
def typExample (dim domain text : String) : RelevantMember := ⟨⟨dim, []⟩, none, text, some ⟨domain, []⟩, false⟩

/-- A context with a member `m` of `a` and with `<e><f>text</f></e>` of the typed dimension `d`, where `e` has no text of
its own. -/
def nestedExample : List RelevantContext := [colExample "c" "2020" [memExample "a" "m" true, typExample "d" "f" "text"]]

def nestedTree : Node := .mk "" F64.zero [.mk "d" F64.zero [.mk "e" F64.zero [.mk "f" F64.zero []]]]

/-- **C43 (fails).** An element without text of its own in a typed domain: there is an explicit member of dimension `a`,
and there is no row at all. -/
theorem C43_fails : HasExplicit nestedExample true "a" ∧
    getVoidQuadrant id nestedExample [] [nestedTree] = .done [] :=
  ⟨⟨by decide, _, List.mem_singleton.2 rfl, memExample "a" "m" true, List.mem_cons_self, rfl, rfl, by simp [memExample]⟩,
    by decide +kernel⟩

/-- Non-vacuity of `C43_explicit_partial`: a segment and a scenario member of `a`, a member of `b`, a typed member. -/
def rowsExample : List RelevantContext := [
  colExample "c1" "2020" [memExample "b" "m" true, typExample "d" "f" "text"],
  colExample "c2" "2020" [memExample "a" "m" true], colExample "c3" "2020" [memExample "a" "m" false]]

def typedTree (dim domain : String) : Node := .mk "" F64.zero [.mk dim F64.zero [.mk domain F64.zero []]]

theorem someAt_typedTree (dim domain : String) (k : Nat) (x : String) :
    SomeAt [typedTree dim domain] k x ↔ (k = 0 ∧ x = "") ∨ (k = 1 ∧ x = dim) ∨ (k = 2 ∧ x = domain) := by
  unfold SomeAt typedTree
  simp only [List.mem_singleton, exists_eq_left]
  rcases k with _ | _ | _ | k
  · simp [nodeAt_zero]
  · rw [nodeAt_succ]; simp [SomeAt, nodeAt_zero]
  · rw [nodeAt_succ]; simp [SomeAt, nodeAt_succ, nodeAt_zero]
  · rw [nodeAt_succ]; simp [SomeAt, nodeAt_succ]

example : AllKnown rowsExample [typedTree "d" "f"] ∧ AllKnown rowsExample [] ∧
    getVoidQuadrant id rowsExample [] [typedTree "d" "f"] = .done [⟨false, 0, ⟨"a", []⟩, none⟩, ⟨false, 0, ⟨"a", []⟩, none⟩,
      ⟨false, 0, ⟨"b", []⟩, none⟩, ⟨true, 1, ⟨"d", []⟩, none⟩, ⟨true, 2, ⟨"d", []⟩, some ⟨"f", []⟩⟩] := by
  refine ⟨⟨?_, ?_⟩, ⟨?_, ?_⟩, by decide +kernel⟩
  · intro x hx
    rw [someAt_typedTree] at hx
    rcases hx with ⟨h, _⟩ | ⟨_, rfl⟩ | ⟨h, _⟩
    · omega
    · exact ⟨by decide, _, List.mem_cons_self, typExample "d" "f" "text", by simp [colExample], rfl⟩
    · omega
  · intro k x hx
    rw [someAt_typedTree] at hx
    rcases hx with ⟨h, _⟩ | ⟨h, _⟩ | ⟨_, rfl⟩
    · omega
    · omega
    · exact .inr ⟨_, List.mem_cons_self, typExample "d" "f" "text", by simp [colExample], by simp [typExample], _, rfl, rfl⟩
  · rintro x ⟨t, ht, _⟩; simp at ht
  · rintro k x ⟨t, ht, _⟩; simp at ht

/-- **C44 (partial).** All typed rows carry one and the same dimension, and it is the dimension of a typed domain tree.
So a typed row shows the dimension it belongs to when there is only one typed dimension. Missing: two or more typed
dimensions (`C44_fails`). -/
theorem C44_one_partial (ord : GoMap String RelevantMember → GoMap String RelevantMember) (hord : ∀ m, (ord m).Perm m)
    (ctxs : List RelevantContext) (segTrees scenTrees : List Node) (rows : List VoidCell)
    (h : getVoidQuadrant ord ctxs segTrees scenTrees = .done rows) :
    (∀ r ∈ rows, r.indentation = 0 ∨ SomeAt (segTrees ++ scenTrees) 1 r.dimension.href) ∧
    (∀ r ∈ rows, ∀ r' ∈ rows, 1 ≤ r.indentation → 1 ≤ r'.indentation → r.dimension = r'.dimension) := by
  have inv := dimMaps_inv ctxs
  have step : ∀ (paren : Bool) (trees : List Node) (st st' : IndentState), (∀ x, SomeAt trees 1 x → SomeAt (segTrees ++ scenTrees) 1 x) →
      WalkInv (dimMaps ctxs) (SomeAt (segTrees ++ scenTrees) 1) st →
      indentNode (dimMaps ctxs) paren 0 st (reduceTrees trees).sorted = .done st' →
      WalkInv (dimMaps ctxs) (SomeAt (segTrees ++ scenTrees) 1) st' := by
    intro paren trees st st' ht hst e
    obtain ⟨o, cs, er, hcs⟩ := reduced_spec trees
    rw [er, indent_root] at e
    refine indentNodes_dim _ _ _ hst cs ?_ e
    intro c hc
    exact ht _ (hcs 0 _ ((someAt_zero _ _).2 (List.mem_map_of_mem hc)))
  unfold getVoidQuadrant at h
  simp only at h
  cases h1 : indentNode (dimMaps ctxs) false 0 ⟨explicitRows ord (dimMaps ctxs), none⟩ (reduceTrees segTrees).sorted with
  | panic => rw [h1] at h; simp [Run.andThen] at h
  | loop => rw [h1] at h; simp [Run.andThen] at h
  | done st1 =>
    rw [h1] at h
    simp only [Run.andThen] at h
    cases h2 : indentNode (dimMaps ctxs) true 0 st1 (reduceTrees scenTrees).sorted with
    | panic => rw [h2] at h; simp at h
    | loop => rw [h2] at h; simp at h
    | done st2 =>
      rw [h2] at h
      cases h
      have w0 : WalkInv (dimMaps ctxs) (SomeAt (segTrees ++ scenTrees) 1) ⟨explicitRows ord (dimMaps ctxs), none⟩ := by
        refine ⟨?_, by simp⟩
        intro r hr hi
        have := ((explicitPart_rows ctxs ord hord).plain r hr).1
        omega
      have w1 := step false segTrees _ _ (fun x ⟨t, ht, hx⟩ => ⟨t, by simp [ht], hx⟩) w0 h1
      have w2 := step true scenTrees _ _ (fun x ⟨t, ht, hx⟩ => ⟨t, by simp [ht], hx⟩) w1 h2
      refine ⟨?_, ?_⟩
      · intro r hr
        by_cases hi : r.indentation = 0
        · exact .inl hi
        · obtain ⟨x, hx, hd⟩ := w2.dimension _ (w2.rows r hr (by omega))
          rw [(inv.dim_key x _ hd).1]
          exact .inr hx
      · intro r hr r' hr' hi hi'
        have e1 := w2.rows r hr hi
        rw [w2.rows r' hr' hi'] at e1
        exact (Option.some.inj e1).symm

/-- **C44 (fails).** With the typed dimensions `d1` (domain `f1`) and `d2` (domain `f2`), the row of domain `f2` shows
dimension `d1`, and the cell of that row in the context that has the member of `d2` is empty. -/
theorem C44_fails :
    getMemberGrid id [colExample "c" "2020" [typExample "d1" "f1" "x", typExample "d2" "f2" "y"]] []
      [typedTree "d1" "f1", typedTree "d2" "f2"] = .done
      ([[⟨none, ""⟩], [⟨none, "x"⟩], [⟨none, ""⟩], [⟨none, ""⟩]],
        [⟨true, 1, ⟨"d1", []⟩, none⟩, ⟨true, 2, ⟨"d1", []⟩, some ⟨"f1", []⟩⟩,
         ⟨true, 1, ⟨"d1", []⟩, none⟩, ⟨true, 2, ⟨"d1", []⟩, some ⟨"f2", []⟩⟩]) := by decide +kernel

/-- Non-vacuity of `C42_grid` and `C42_empty`: three contexts, with cells that show an explicit member, a typed member,
and nothing. -/
example : getMemberGrid id rowsExample [] [typedTree "d" "f"] = .done
    ([[⟨none, ""⟩, ⟨some ⟨"m", []⟩, ""⟩, ⟨some ⟨"m", []⟩, ""⟩], [⟨none, ""⟩, ⟨some ⟨"m", []⟩, ""⟩, ⟨some ⟨"m", []⟩, ""⟩],
      [⟨some ⟨"m", []⟩, ""⟩, ⟨none, ""⟩, ⟨none, ""⟩], [⟨none, ""⟩, ⟨none, ""⟩, ⟨none, ""⟩],
      [⟨none, "text"⟩, ⟨none, ""⟩, ⟨none, ""⟩]],
     [⟨false, 0, ⟨"a", []⟩, none⟩, ⟨false, 0, ⟨"a", []⟩, none⟩,
      ⟨false, 0, ⟨"b", []⟩, none⟩, ⟨true, 1, ⟨"d", []⟩, none⟩, ⟨true, 2, ⟨"d", []⟩, some ⟨"f", []⟩⟩]) := by decide +kernel

example : ∀ c ∈ rowsExample, ∀ m ∈ c.members, Showable m := by
  intro c hc m hm
  simp only [rowsExample, List.mem_cons, List.not_mem_nil, or_false] at hc
  rcases hc with rfl | rfl | rfl <;>
    simp only [colExample, List.mem_cons, List.not_mem_nil, or_false] at hm
  · rcases hm with rfl | rfl
    · exact .inl ⟨rfl, by simp [memExample]⟩
    · exact .inr ⟨by simp [typExample], by simp [typExample]⟩
  · subst hm; exact .inl ⟨rfl, by simp [memExample]⟩
  · subst hm; exact .inl ⟨rfl, by simp [memExample]⟩

end Telefacts
