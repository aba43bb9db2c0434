import Verif.Props.ExactRows
import Verif.Props.Express
import Verif.Props.TypedContent
import Verif.Props.ColumnOrder
/-! # Exactly when further claims hold (C25, C43, C91, C139) -/
namespace Telefacts
open Telefacts.Instance Telefacts.Render Telefacts.Spec

theorem steps_append (a : String) (l r : List String) :
    ∃ b, b ∈ a :: l ∧ steps a (l ++ r) = steps a l ++ steps b r := by
  induction l generalizing a with
  | nil => exact ⟨a, by simp, rfl⟩
  | cons x l ih =>
    obtain ⟨b, hb, e⟩ := ih x
    exact ⟨b, List.mem_cons_of_mem _ hb, by simp [steps, e]⟩

theorem steps_length (a : String) (l : List String) : (steps a l).length = l.length := by
  induction l generalizing a with
  | nil => rfl
  | cons x l ih => simp [steps, ih]

theorem parents_length (ref : XName → String) (f : Forest) (a : String) : (f.parents ref a).length = (f.hrefs ref).length := by
  induction f generalizing a with
  | nil => rfl
  | text s r ih => exact ih a
  | elem n k r ihk ihr => simp [Forest.parents, Forest.hrefs, ihk, ihr]

theorem parents_first (ref : XName → String) (f : Forest) (a : String) (h : ¬ f.NoElem) :
    ∃ b l l', f.parents ref a = (a, b) :: l ∧ f.hrefs ref = b :: l' := by
  induction f with
  | nil => exact absurd trivial h
  | text s r ih => exact ih h
  | elem n k r _ _ => exact ⟨_, _, _, rfl, rfl⟩

/-- If the consecutive pairs are the parent relation, no element has a sibling. -/
theorem parents_path (ref : XName → String) (f : Forest) (a : String) (hd : (a :: f.hrefs ref).Nodup)
    (h : steps a (f.hrefs ref) = f.parents ref a) : f.Path := by
  induction f generalizing a with
  | nil => trivial
  | text s r ih => exact ih a hd h
  | elem n k r ihk ihr =>
    simp only [Forest.hrefs, Forest.parents, steps, List.cons.injEq, true_and] at h hd
    obtain ⟨b, hb, e⟩ := steps_append (ref n) (k.hrefs ref) (r.hrefs ref)
    rw [e] at h
    obtain ⟨h1, h2⟩ := List.append_inj h (by rw [steps_length, parents_length])
    rw [List.nodup_cons, List.nodup_cons, List.nodup_append] at hd
    refine ⟨ihk (ref n) ?_ h1, ?_⟩
    · rw [List.nodup_cons]
      exact ⟨fun hx => hd.2.1 (List.mem_append.2 (.inl hx)), hd.2.2.1⟩
    · by_cases hr : r.NoElem
      · exact hr
      · exfalso
        obtain ⟨c, l, l', e1, e2⟩ := parents_first ref r a hr
        rw [e1, e2, steps] at h2
        have : b = a := congrArg Prod.fst (List.cons.inj h2).1
        subst this
        apply hd.1
        rcases List.mem_cons.1 hb with hb | hb
        · exact List.mem_cons.2 (.inl hb)
        · exact List.mem_cons_of_mem _ (List.mem_append.2 (.inl hb))

/-- **C25.** If the elements of a typed member and the dimension are different, the arcs are those from the parents exactly if no
element has a sibling. -/
theorem C25_exact (w : World) (dimHref inner : String) (ref : XName → String) (f : Forest) (h : Resolved w dimHref inner ref f)
    (hd : (dimHref :: f.hrefs ref).Nodup) (members : GoMap String String) (arcs : List TypedArc)
    (hm : hydrateTypedMembers w dimHref inner = .done (members, arcs)) :
    arcs.map (fun a => (a.frm, a.to)) = f.parents ref dimHref ↔ f.Path := by
  obtain ⟨members', arcs', hm', _, h1, _, h2⟩ := C25_arcs_partial w dimHref inner ref f h
  rw [hm] at hm'
  cases hm'
  refine ⟨fun e => parents_path ref f dimHref hd (h1 ▸ e), h2⟩

/-- Two siblings. -/
example : Resolved instWorld "x.xsd#x_Dim" "<x:A>1</x:A><x:B>2</x:B>" (fun n => "x.xsd#x_" ++ n.loc)
      (.elem ⟨"x", "A"⟩ (.text "1" .nil) (.elem ⟨"x", "B"⟩ (.text "2" .nil) .nil)) ∧
    ("x.xsd#x_Dim" :: (Forest.elem ⟨"x", "A"⟩ (.text "1" .nil) (.elem ⟨"x", "B"⟩ (.text "2" .nil) .nil)).hrefs
      (fun n => "x.xsd#x_" ++ n.loc)).Nodup :=
  ⟨instWorld_resolved _ _ (by decide +kernel) (by decide), by decide +kernel⟩

/-- **C43.** If there is an explicit member, and the trees are those of typed members whose dimensions are those of members, then the
explicit dimensions have their rows exactly if every element of a typed member has a text of its own in some context. -/
theorem C43_exact (ord : GoMap String RelevantMember → GoMap String RelevantMember) (hord : ∀ m, (ord m).Perm m)
    (ctxs : List RelevantContext) (segTrees scenTrees : List Node)
    (hs : ∀ t ∈ segTrees ++ scenTrees, t.locator = "" ∧ t.children ≠ [])
    (hd : ∀ x, SomeAt (segTrees ++ scenTrees) 1 x → IsDimension ctxs x) (he : ∃ seg dim, HasExplicit ctxs seg dim) :
    (∃ E T, getVoidQuadrant ord ctxs segTrees scenTrees = .done (E ++ T) ∧ ExplicitPart ctxs E ∧ ∀ r ∈ T, 1 ≤ r.indentation) ↔
      ∀ k x, SomeAt (segTrees ++ scenTrees) (k + 2) x → x = "" ∨ IsTypedDomain ctxs x := by
  constructor
  · rintro ⟨E, T, h, hE, _⟩ k x hx
    by_contra hn
    rw [not_or] at hn
    have hno := C43_unknown_fails ord ctxs segTrees scenTrees hs k x hn.1 hx hn.2 _ h
    obtain ⟨seg, dim, hdim⟩ := he
    have hpos : 0 < (E.map fun r => r.dimension.href).count dim := by
      rw [hE.count]
      unfold explicitCount
      cases seg <;> simp only [hdim, if_true] <;> omega
    rw [List.count_pos_iff] at hpos
    obtain ⟨r, hr, _⟩ := List.mem_map.1 hpos
    exact hno r (List.mem_append.2 (.inl hr)) (hE.plain r hr).1
  · intro h
    have part : ∀ {l l' : List Node} {k x}, (∀ t ∈ l, t ∈ l') → SomeAt l k x → SomeAt l' k x := by
      rintro l l' k x hl ⟨t, ht, hn⟩
      exact ⟨t, hl t ht, hn⟩
    exact C43_explicit_partial ord hord ctxs segTrees scenTrees
      ⟨fun x hx => hd x (part (fun t ht => List.mem_append.2 (.inl ht)) hx), fun k x hx => h k x (part (fun t ht => List.mem_append.2 (.inl ht)) hx)⟩
      ⟨fun x hx => hd x (part (fun t ht => List.mem_append.2 (.inr ht)) hx), fun k x hx => h k x (part (fun t ht => List.mem_append.2 (.inr ht)) hx)⟩

/-- **C91 (fails).** Whenever some context of the concept and entity has a typed member with an element of which the context asked for
has none, the expression has no row for any explicit dimension. -/
theorem C91_other_fails (env : ExpressEnv) (name ref : String) (e : Expressable) (h : express env name ref = .done (.expr e))
    (i : HInstance) (rest : List HInstance) (c : Context) (rel : Relevant) (hi : env.order = i :: rest) (hc : ContextOf i ref c)
    (hr : getRelevantContexts env.folder (c.scheme ++ "/" ++ c.ident) [e.href] = .done rel)
    (hs : ∀ t ∈ rel.segmentTrees ++ rel.scenarioTrees, t.locator = "" ∧ t.children ≠ [])
    (k : Nat) (x : String) (hx : x ≠ "") (hat : SomeAt (rel.segmentTrees ++ rel.scenarioTrees) (k + 2) x)
    (hun : ∀ col ∈ rel.contexts, col.contextRef = ref → ¬ IsTypedDomain [col] x) : ∀ r ∈ e.rows, r.indentation ≠ 0 := by
  unfold express at h
  split at h
  · simp at h
  · split at h
    · simp at h
    · split at h
      · simp at h
      · split at h
        · simp at h
        · simp at h
        · rename_i href hq
          split at h
          · simp at h
          · rename_i fact hf
            obtain ⟨i', rest', c', rel', grid, m, hi', hc', hr', hg, hm, ha⟩ := expressFact_done h
            cases ha
            rw [hi] at hi'
            cases hi'
            have hc := (getContext_iff _ _ _).2 hc
            rw [hc'] at hc
            cases hc
            rw [hr'] at hr
            cases hr
            cases hcol : rel.contexts.find? (fun x => decide (x.contextRef = ref)) with
            | none =>
              rw [hcol] at hg
              cases hg
              intro r hr
              cases hr
            | some col =>
              rw [hcol] at hg
              have hmem := List.mem_of_find?_eq_some hcol
              have hcr : col.contextRef = ref := by simpa using List.find?_some hcol
              unfold getMemberGrid at hg
              rw [Option.toList_some, if_neg (by simp)] at hg
              cases hv : getVoidQuadrant env.memberOrder [col] (sortTrees rel.segmentTrees) (sortTrees rel.scenarioTrees) with
              | panic => rw [hv] at hg; cases hg
              | loop => rw [hv] at hg; cases hg
              | done rows =>
                rw [hv] at hg
                have hmt : ∀ t l, t ∈ sortTrees l ↔ t ∈ l := fun t l => by unfold sortTrees; exact mem_stableSort _
                have hrows : grid.2 = rows := by
                  simp only [Run.andThen] at hg
                  split at hg
                  · rename_i h0; cases hg; exact h0.symm
                  · cases hg; rfl
                have := C43_unknown_fails env.memberOrder [col] _ _ (by
                  intro t ht
                  simp only [List.mem_append, hmt] at ht
                  exact hs t (List.mem_append.2 ht)) k x hx (by
                  obtain ⟨t, ht, hn⟩ := hat
                  refine ⟨t, ?_, hn⟩
                  simp only [List.mem_append, hmt] at ht ⊢
                  exact ht) (hun col hmem hcr) rows hv
                intro r hr
                exact this r (hrows ▸ hr)

/-- The expression of `C91_fails`: `x#domain` is an element of the other context. -/
example : (match getRelevantContexts (exprEnv [exprInst] (some exprDoc)).folder "s/1" ["x#Cash"] with
    | .done rel => ((rel.segmentTrees ++ rel.scenarioTrees).map fun t => (t.locator, t.children.map Node.locator,
        (t.children.flatMap Node.children).map Node.locator),
        rel.contexts.map fun c => (c.contextRef, c.members.map fun m => m.typedDomain.map Labelled.href))
    | _ => ([], [])) =
    ([("", ["x#Typed"], ["x#domain"])], [("c1", [none]), ("c2", [some "x#domain"])]) := by decide +kernel

/-- Of a single instance any column can be brought to the front of those that agree with it. -/
theorem column_front (f : Folder) (i : HInstance) (hi : f.insts = [i]) (entity : String) (hrefs : List String) (r : Relevant)
    (h : getRelevantContexts f entity hrefs = .done r) (a : RelevantContext) (ha : a ∈ r.contexts) :
    ∃ f' hrefs', FactsReordered f f' ∧ (∀ h, h ∈ hrefs' ↔ h ∈ hrefs) ∧
      ∀ r', getRelevantContexts f' entity hrefs' = .done r' →
        ∃ l, r'.contexts.filter (fun x => decide (columnKey x = columnKey a)) = a :: l := by
  rw [getRelevantContexts_eq] at h
  cases hc : allContexts entity (factualHrefs f hrefs) f.insts with
  | panic => rw [hc] at h; cases h
  | loop => rw [hc] at h; cases h
  | done cs =>
    rw [hc] at h
    simp only [Run.andThen, Run.done.injEq] at h
    obtain ⟨css, rfl, hcss⟩ := allContexts_done hc
    rw [← h] at ha
    have ha : a ∈ css.flatten.map (newItem f) := (stableSort_perm _ _).mem_iff.1 ha
    obtain ⟨c, hcm, rfl⟩ := List.mem_map.1 ha
    rw [hi] at hcss
    cases hcss with
    | cons h1 h2 =>
      cases h2
      rw [List.flatten_cons, List.flatten_nil, List.append_nil] at hcm
      obtain ⟨he, fact, hf, hrow, hctx⟩ := (h1.2 c).1 hcm
      obtain ⟨pre, post, hsplit⟩ := List.append_of_mem hf
      refine ⟨{ f with insts := [{ i with facts := fact :: (pre ++ post) }] }, fact.href :: hrefs, ⟨rfl, rfl, ?_⟩, ?_, ?_⟩
      · rw [hi]
        refine .cons ⟨rfl, ?_⟩ .nil
        rw [hsplit]
        exact List.perm_middle.symm
      · intro x
        rw [List.mem_cons]
        exact ⟨fun hx => hx.elim (fun e => e ▸ hrow.1) (fun hx => hx), .inr⟩
      · intro r' hr'
        rw [getRelevantContexts_eq] at hr'
        have hfh : factualHrefs { f with insts := [{ i with facts := fact :: (pre ++ post) }] } (fact.href :: hrefs)
            = fact.href :: factualHrefs f hrefs := by
          have := (mem_factualHrefs f hrefs fact.href).2 hrow
          unfold factualHrefs at this ⊢
          rw [List.mem_filter] at this
          rw [List.filter_cons, if_pos this.2]
        have hctx' := (getContext_iff i fact.contextRef c).2 hctx
        have hget : getContext { i with facts := fact :: (pre ++ post) } fact.contextRef = some c := hctx'
        rw [hfh] at hr'
        simp only [allContexts, instanceContexts, List.flatMap_cons, List.map_cons, List.cons_append, takeContexts,
          List.not_mem_nil, if_false, if_true, hget] at hr'
        unfold OfEntity at he
        rw [if_pos he] at hr'
        generalize takeContexts _ _ _ _ = t at hr'
        cases t with
        | panic => cases hr'
        | loop => cases hr'
        | done t =>
          simp only [Run.andThen, Run.done.injEq] at hr'
          rw [← hr']
          simp only
          rw [(C39_sorted _).2.2]
          rw [List.append_nil, List.map_cons, List.filter_cons, if_pos (by simp; rfl)]
          exact ⟨_, rfl⟩

/-- **C139.** Of a single instance the columns depend only on what they are exactly if no two that differ agree in period, number of
members and first member. -/
theorem C139_exact (f : Folder) (i : HInstance) (hi : f.insts = [i]) (entity : String) (hrefs : List String) (r : Relevant)
    (h : getRelevantContexts f entity hrefs = .done r) :
    (∀ f' hrefs', FactsReordered f f' → (∀ h, h ∈ hrefs' ↔ h ∈ hrefs) →
      ∃ r', getRelevantContexts f' entity hrefs' = .done r' ∧ r'.contexts = r.contexts) ↔
    ∀ a ∈ r.contexts, ∀ b ∈ r.contexts, columnKey a = columnKey b → a = b := by
  refine ⟨fun hall a ha b hb hk => ?_, fun hk f' hrefs' hf hh => C139_order_partial f f' hf entity hrefs hrefs' hh r h hk⟩
  obtain ⟨f1, h1, p1, q1, k1⟩ := column_front f i hi entity hrefs r h a ha
  obtain ⟨f2, h2, p2, q2, k2⟩ := column_front f i hi entity hrefs r h b hb
  obtain ⟨r1, e1, c1⟩ := hall f1 h1 p1 q1
  obtain ⟨r2, e2, c2⟩ := hall f2 h2 p2 q2
  obtain ⟨l1, d1⟩ := k1 r1 e1
  obtain ⟨l2, d2⟩ := k2 r2 e2
  rw [c1] at d1
  rw [c2, ← hk, d1] at d2
  exact (List.cons.inj d2).1

/-- The folder of `C139_witness`. -/
example : ∃ r, getRelevantContexts (twoColumns [factExample "x#Cash" "a", factExample "x#Cash" "b"]) "s/1" ["x#Cash"] = .done r ∧
    ¬ ∀ a ∈ r.contexts, ∀ b ∈ r.contexts, columnKey a = columnKey b → a = b :=
  ⟨_, rfl, by decide +kernel⟩

end Telefacts
