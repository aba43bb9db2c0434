import Verif.Props.Member
/-! # C43, C44: what happens to rows in general -/
namespace Telefacts
open Telefacts.Render Telefacts.Instance Telefacts.Spec

/-- All rows belong to typed dimensions. -/
def OnlyTyped (rows : List VoidCell) : Prop := ∀ r ∈ rows, 1 ≤ r.indentation

theorem nodeRow_typed {s : DimMaps} {paren : Bool} {level : Nat} {loc : String} {st st' : IndentState}
    (h : nodeRow s paren level loc st = .done (some st')) (ho : OnlyTyped st.rows) : OnlyTyped st'.rows := by
  have happ : ∀ td, 1 ≤ level → (appendRow paren level td st).andThen (fun st => .done (some st)) = .done (some st') → OnlyTyped st'.rows := by
    intro td hl ha
    unfold appendRow at ha
    split at ha
    · simp [Run.andThen] at ha
    · simp only [Run.andThen, Run.done.injEq, Option.some.injEq] at ha
      subst ha
      intro r hr
      rcases List.mem_append.1 hr with hr | hr
      · exact ho r hr
      · rw [List.mem_singleton.1 hr]; exact hl
  unfold nodeRow at h
  split at h
  · exact happ _ (by omega) h
  · split at h
    · split at h
      · cases h
      · exact happ _ (by omega) h
    · cases h; exact ho

theorem enter_rows {s : DimMaps} {loc : String} {st st' : IndentState} (h : enterNode s loc st = some st') : st'.rows = st.rows := by
  unfold enterNode at h
  split at h
  · split at h
    · cases h
    · cases h; rfl
  · cases h; rfl

mutual
theorem indentNode_typed (s : DimMaps) (paren : Bool) (level : Nat) (st st' : IndentState) (n : Node)
    (h : indentNode s paren level st n = .done st') (ho : OnlyTyped st.rows) : OnlyTyped st'.rows := by
  cases n with
  | mk loc o cs =>
    unfold indentNode at h
    split at h
    · cases h; intro r hr; cases hr
    · rename_i st1 he
      have h1 : OnlyTyped st1.rows := by rw [enter_rows he]; exact ho
      split at h
      · cases h
      · cases h
      · cases h; intro r hr; cases hr
      · rename_i st2 hr
        exact indentNodes_typed s paren (level + 1) st2 st' cs h (nodeRow_typed hr h1)
theorem indentNodes_typed (s : DimMaps) (paren : Bool) (level : Nat) (st st' : IndentState) (ns : List Node)
    (h : indentNodes s paren level st ns = .done st') (ho : OnlyTyped st.rows) : OnlyTyped st'.rows := by
  cases ns with
  | nil => unfold indentNodes at h; cases h; exact ho
  | cons c cs =>
    unfold indentNodes at h
    split at h
    · cases h
    · cases h
    · rename_i st1 h1
      exact indentNodes_typed s paren level st1 st' cs h (indentNode_typed s paren level st st1 c h1 ho)
end

mutual
theorem indentNode_unknown (s : DimMaps) (paren : Bool) (level : Nat) (st st' : IndentState) (n : Node)
    (h : indentNode s paren level st n = .done st') (k : Nat) (x : String) (hx : x ≠ "") (hk : 2 ≤ level + k) (hat : NodeAt n k x)
    (hun : mapGet s.typedDomains x = none) : OnlyTyped st'.rows := by
  cases n with
  | mk loc o cs =>
    unfold indentNode at h
    split at h
    · cases h; intro r hr; cases hr
    · rename_i st1 he
      split at h
      · cases h
      · cases h
      · cases h; intro r hr; cases hr
      · rename_i st2 hr
        cases k with
        | zero =>
          rw [nodeAt_zero] at hat
          subst hat
          exfalso
          unfold nodeRow at hr
          rw [if_neg (by omega), if_pos ⟨by omega, hx⟩, hun] at hr
          cases hr
        | succ k =>
          rw [nodeAt_succ] at hat
          exact indentNodes_unknown s paren (level + 1) st2 st' cs h k x hx (by omega) hat hun
theorem indentNodes_unknown (s : DimMaps) (paren : Bool) (level : Nat) (st st' : IndentState) (ns : List Node)
    (h : indentNodes s paren level st ns = .done st') (k : Nat) (x : String) (hx : x ≠ "") (hk : 2 ≤ level + k) (hat : SomeAt ns k x)
    (hun : mapGet s.typedDomains x = none) : OnlyTyped st'.rows := by
  cases ns with
  | nil => obtain ⟨_, h0, _⟩ := hat; cases h0
  | cons c cs =>
    unfold indentNodes at h
    split at h
    · cases h
    · cases h
    · rename_i st1 h1
      rcases (someAt_cons c cs k x).1 hat with hc | hc
      · exact indentNodes_typed s paren level st1 st' cs h (indentNode_unknown s paren level st st1 c h1 k x hx hk hc hun)
      · exact indentNodes_unknown s paren level st1 st' cs h k x hx hk hc hun
end

theorem reduced_all {trees : List Node} (ht : ∀ t ∈ trees, t.locator = "" ∧ t.children ≠ []) :
    ∃ o cs, (reduceTrees trees).sorted = .mk "" o cs ∧ ∀ k x, SomeAt trees (k + 1) x → SomeAt cs k x := by
  unfold reduceTrees
  rw [if_neg (by
    rw [Bool.not_eq_true, List.any_eq_false]
    intro t h
    obtain ⟨h1, h2⟩ := ht t h
    simp [h1, h2])]
  refine ⟨_, _, rfl, ?_⟩
  intro k x h
  rw [someAt_succ] at h
  have h2 : NodeAt (Node.mk "" F64.zero (dedupNodes (trees.flatMap Node.children) 0)).sorted (k + 1) x := by
    rw [nodeAt_sorted, nodeAt_succ, someAt_dedup]
    exact h
  exact (nodeAt_succ _ _ _ _ _).1 h2

/-- **C43 (fails).** Whenever an element of a typed domain has no text of its own in any of the contexts, there is no row for any
explicit dimension. -/
theorem C43_unknown_fails (ord : GoMap String RelevantMember → GoMap String RelevantMember) (ctxs : List RelevantContext)
    (segTrees scenTrees : List Node) (hs : ∀ t ∈ segTrees ++ scenTrees, t.locator = "" ∧ t.children ≠ []) (k : Nat) (x : String)
    (hx : x ≠ "") (hat : SomeAt (segTrees ++ scenTrees) (k + 2) x) (hun : ¬ IsTypedDomain ctxs x) (rows : List VoidCell)
    (h : getVoidQuadrant ord ctxs segTrees scenTrees = .done rows) : ∀ r ∈ rows, r.indentation ≠ 0 := by
  have hget : mapGet (dimMaps ctxs).typedDomains x = none := by
    rw [← Option.not_isSome_iff_eq_none, (dimMaps_inv ctxs).typed_has]
    rintro ⟨m, hm, h2⟩
    obtain ⟨c, hc, hm⟩ := List.mem_flatMap.1 hm
    exact hun ⟨c, hc, m, hm, h2⟩
  suffices ho : OnlyTyped rows from fun r hr => by have := ho r hr; omega
  unfold getVoidQuadrant at h
  simp only at h
  cases h1 : indentNode (dimMaps ctxs) false 0 ⟨explicitRows ord (dimMaps ctxs), none⟩ (reduceTrees segTrees).sorted with
  | panic => rw [h1] at h; cases h
  | loop => rw [h1] at h; cases h
  | done st1 =>
    rw [h1] at h
    simp only [Run.andThen] at h
    cases h2 : indentNode (dimMaps ctxs) true 0 st1 (reduceTrees scenTrees).sorted with
    | panic => rw [h2] at h; cases h
    | loop => rw [h2] at h; cases h
    | done st2 =>
      rw [h2] at h
      cases h
      obtain ⟨t, ht, hn⟩ := hat
      rcases List.mem_append.1 ht with ht | ht
      · obtain ⟨o, cs, e, hcs⟩ := reduced_all (trees := segTrees) fun t ht => hs t (List.mem_append.2 (.inl ht))
        refine indentNode_typed _ _ _ _ _ _ h2 ?_
        rw [e, indent_root] at h1
        exact indentNodes_unknown _ _ _ _ _ _ h1 (k + 1) x hx (by omega) (hcs (k + 1) x ⟨t, ht, hn⟩) hget
      · obtain ⟨o, cs, e, hcs⟩ := reduced_all (trees := scenTrees) fun t ht => hs t (List.mem_append.2 (.inr ht))
        rw [e, indent_root] at h2
        exact indentNodes_unknown _ _ _ _ _ _ h2 (k + 1) x hx (by omega) (hcs (k + 1) x ⟨t, ht, hn⟩) hget

example : SomeAt ([] ++ [nestedTree]) (0 + 2) "e" ∧ ¬ IsTypedDomain nestedExample "e" ∧
    ∀ t ∈ [] ++ [nestedTree], t.locator = "" ∧ t.children ≠ [] := by
  refine ⟨⟨nestedTree, by simp, .under _ _ _ _ _ _ (List.mem_singleton.2 rfl) (.under _ _ _ _ _ _ (List.mem_singleton.2 rfl) (.here _ _ _))⟩,
    ?_, ?_⟩
  · rintro ⟨c, hc, m, hm, -, t, ht, e⟩
    simp only [nestedExample, List.mem_singleton] at hc
    subst hc
    simp only [colExample, List.mem_cons, List.not_mem_nil, or_false] at hm
    rcases hm with rfl | rfl
    · simp [memExample] at ht
    · simp [typExample] at ht
      subst ht
      exact absurd e (by decide)
  · intro t ht
    simp only [List.nil_append, List.mem_singleton] at ht
    subst ht
    exact ⟨rfl, by simp [nestedTree, Node.children]⟩

/-- **C44 (fails).** Of two typed dimensions at least one is named by no typed row. -/
theorem C44_two_fails (ord : GoMap String RelevantMember → GoMap String RelevantMember) (hord : ∀ m, (ord m).Perm m)
    (ctxs : List RelevantContext) (segTrees scenTrees : List Node) (rows : List VoidCell)
    (h : getVoidQuadrant ord ctxs segTrees scenTrees = .done rows) (d d' : String) (hne : d ≠ d') :
    (∀ r ∈ rows, 1 ≤ r.indentation → r.dimension.href ≠ d) ∨ ∀ r ∈ rows, 1 ≤ r.indentation → r.dimension.href ≠ d' := by
  by_cases hd : ∃ r ∈ rows, 1 ≤ r.indentation ∧ r.dimension.href = d
  · obtain ⟨r, hr, hi, rfl⟩ := hd
    right
    intro r' hr' hi' he
    rw [(C44_one_partial ord hord ctxs segTrees scenTrees rows h).2 r hr r' hr' hi hi'] at hne
    exact hne he
  · left
    intro r hr hi he
    exact hd ⟨r, hr, hi, he⟩

/-- Two typed dimensions, of which only the first is named. -/
example : getVoidQuadrant id [colExample "c" "2020" [typExample "d1" "f1" "x", typExample "d2" "f2" "y"]] []
    [typedTree "d1" "f1", typedTree "d2" "f2"] = .done
      [⟨true, 1, ⟨"d1", []⟩, none⟩, ⟨true, 2, ⟨"d1", []⟩, some ⟨"f1", []⟩⟩,
       ⟨true, 1, ⟨"d1", []⟩, none⟩, ⟨true, 2, ⟨"d1", []⟩, some ⟨"f2", []⟩⟩] := by decide +kernel

end Telefacts
