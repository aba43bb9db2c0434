import Verif.Props.Context
/-! # C139: the order of columns -/
namespace Telefacts
open Telefacts.Render Telefacts.Instance Telefacts.Schema Telefacts.Spec

/-- The same folder with the facts of every instance in another order. -/
structure FactsReordered (f f' : Folder) : Prop where
  concept : f'.concept = f.concept
  label : f'.label = f.label
  insts : List.Forall₂ (fun i i' : HInstance => i'.contexts = i.contexts ∧ i'.facts.Perm i.facts) f.insts f'.insts

/-- **C139 (fails).** Columns that agree in period, number of members and first member stay in the order in which their facts are
found, whatever their other members are. -/
theorem C139_fails (ref ref' : String) (p : LanguagePack) (m : RelevantMember) (x y : List RelevantMember) (hl : x.length = y.length) :
    sortContexts [⟨ref, p, m :: x⟩, ⟨ref', p, m :: y⟩] = [⟨ref, p, m :: x⟩, ⟨ref', p, m :: y⟩] ∧
    sortContexts [⟨ref', p, m :: y⟩, ⟨ref, p, m :: x⟩] = [⟨ref', p, m :: y⟩, ⟨ref, p, m :: x⟩] := by
  have hm : memberLess m m = false := by
    cases h : memberLess m m with
    | false => rfl
    | true =>
      have := (contextLess_iff ⟨ref, p, [m]⟩ ⟨ref, p, [m]⟩).1 (by simp [contextLess, h])
      exact absurd this (columnBefore_total.irrefl _)
  have e1 : contextLess ⟨ref, p, m :: x⟩ ⟨ref', p, m :: y⟩ = false := by simp [contextLess, hl, hm]
  have e2 : contextLess ⟨ref', p, m :: y⟩ ⟨ref, p, m :: x⟩ = false := by simp [contextLess, hl, hm]
  constructor <;> simp [sortContexts, stableSort, insertStable, e1, e2]

/-- Contexts `a` and `b` have the same first member. -/
def twoColumns (facts : List Fact) : Folder := { folderExample with
  insts := [⟨"i", [ctxExample "a" "s" "1" "2020-12-31" [⟨"x#D", "", "x#M", ""⟩, ⟨"x#E", "", "x#N", ""⟩],
    ctxExample "b" "s" "1" "2020-12-31" [⟨"x#D", "", "x#M", ""⟩, ⟨"x#E", "", "x#O", ""⟩]], [], [], facts⟩] }

/-- Exchanging two facts of a folder exchanges the columns. -/
theorem C139_witness :
    FactsReordered (twoColumns [factExample "x#Cash" "a", factExample "x#Cash" "b"]) (twoColumns [factExample "x#Cash" "b", factExample "x#Cash" "a"]) ∧
    columnRefs (getRelevantContexts (twoColumns [factExample "x#Cash" "a", factExample "x#Cash" "b"]) "s/1" ["x#Cash"]) =
      some [("a", "2020-12-31", 2), ("b", "2020-12-31", 2)] ∧
    columnRefs (getRelevantContexts (twoColumns [factExample "x#Cash" "b", factExample "x#Cash" "a"]) "s/1" ["x#Cash"]) =
      some [("b", "2020-12-31", 2), ("a", "2020-12-31", 2)] :=
  ⟨⟨rfl, rfl, .cons ⟨rfl, .swap ..⟩ .nil⟩, by decide +kernel, by decide +kernel⟩

/-- **C139 (partial).** If columns that agree in period, number of members and first member are the same, the columns do not depend on
the order of facts and rows. Missing: columns that differ in later members only (`C139_fails`). -/
theorem C139_order_partial (f f' : Folder) (hf : FactsReordered f f') (entity : String) (hrefs hrefs' : List String)
    (hh : ∀ h, h ∈ hrefs' ↔ h ∈ hrefs) (r : Relevant) (h : getRelevantContexts f entity hrefs = .done r)
    (hk : ∀ a ∈ r.contexts, ∀ b ∈ r.contexts, columnKey a = columnKey b → a = b) :
    ∃ r', getRelevantContexts f' entity hrefs' = .done r' ∧ r'.contexts = r.contexts := by
  have row : ∀ x, ConcreteRow f' hrefs' x ↔ ConcreteRow f hrefs x := by
    intro x
    unfold ConcreteRow
    rw [hh, hf.concept]
  have back : ∀ i' ∈ f'.insts, ∃ i ∈ f.insts, i'.contexts = i.contexts ∧ i'.facts.Perm i.facts := by
    have := hf.insts
    generalize f.insts = l at this
    generalize f'.insts = l' at this
    induction this with
    | nil => intro i' hi; cases hi
    | cons hab _ ih =>
      intro i' hi
      rcases List.mem_cons.1 hi with rfl | hi
      · exact ⟨_, List.mem_cons_self .., hab⟩
      · obtain ⟨i, h1, h2⟩ := ih i' hi
        exact ⟨i, List.mem_cons_of_mem _ h1, h2⟩
  have nopanic : getRelevantContexts f' entity hrefs' ≠ .panic := by
    rw [Ne, (C38_no_panic_partial f' entity hrefs').1]
    rintro ⟨i', hi', fact, h1, h2, h3⟩
    obtain ⟨i, hi, e1, e2⟩ := back i' hi'
    have := (C38_no_panic_partial f entity hrefs).1.2 ⟨i, hi, fact, e2.mem_iff.1 h1, (row _).1 h2, e1 ▸ h3⟩
    rw [h] at this
    cases this
  cases h' : getRelevantContexts f' entity hrefs' with
  | panic => exact absurd h' nopanic
  | loop => exact absurd h' (C38_no_panic_partial f' entity hrefs').2
  | done r' =>
    refine ⟨r', rfl, ?_⟩
    have s := C39_columns f entity hrefs r h
    have s' := C39_columns f' entity hrefs' r' h'
    rw [getRelevantContexts_eq] at h h'
    cases hc : allContexts entity (factualHrefs f hrefs) f.insts with
    | panic => rw [hc] at h; cases h
    | loop => rw [hc] at h; cases h
    | done cs =>
      cases hc' : allContexts entity (factualHrefs f' hrefs') f'.insts with
      | panic => rw [hc'] at h'; cases h'
      | loop => rw [hc'] at h'; cases h'
      | done cs' =>
        rw [hc] at h
        rw [hc'] at h'
        simp only [Run.andThen, Run.done.injEq] at h h'
        obtain ⟨css, rfl, hcss⟩ := allContexts_done hc
        obtain ⟨css', rfl, hcss'⟩ := allContexts_done hc'
        have perm : css'.flatten.Perm css.flatten := by
          have hi := hf.insts
          clear hc hc' h h' back
          generalize f.insts = l at hi hcss
          generalize f'.insts = l' at hi hcss'
          induction hi generalizing css css' with
          | nil => cases hcss; cases hcss'; exact .refl _
          | cons hab _ ih =>
            cases hcss with
            | cons h1 h2 =>
              cases hcss' with
              | cons h1' h2' =>
                simp only [List.flatten_cons]
                refine List.Perm.append ?_ (ih _ _ h2 h2')
                rw [List.perm_ext_iff_of_nodup (.of_map _ h1'.1) (.of_map _ h1.1)]
                intro c
                rw [h1.2, h1'.2]
                refine and_congr_right fun _ => ?_
                constructor
                · rintro ⟨fact, a1, a2, a3⟩
                  exact ⟨fact, hab.2.mem_iff.1 a1, (row _).1 a2, by unfold Render.ContextOf at *; rw [← hab.1]; exact a3⟩
                · rintro ⟨fact, a1, a2, a3⟩
                  exact ⟨fact, hab.2.mem_iff.2 a1, (row _).2 a2, by unfold Render.ContextOf at *; rw [hab.1]; exact a3⟩
        have items : newItem f' = newItem f := by
          funext c
          simp only [newItem, contextualMembers, explicitMembers, RelevantContext.mk.injEq, true_and]
          have : typedMembers f' = typedMembers f := by
            funext m
            simp only [typedMembers, hf.label]
          rw [this, hf.label]
        have p1 : r.contexts.Perm (css.flatten.map (newItem f)) := by rw [← h]; exact stableSort_perm _ _
        have p2 : r'.contexts.Perm (css'.flatten.map (newItem f)) := by rw [← h', items]; exact stableSort_perm _ _
        have p : r'.contexts.Perm r.contexts := p2.trans ((perm.map _).trans p1.symm)
        refine List.Perm.eq_of_pairwise (fun a b ha hb h1 h2 => ?_) s' s p
        refine hk a (p.mem_iff.1 ha) b hb ?_
        rcases columnBefore_total.tri (columnKey a) (columnKey b) with h | h | h
        · exact absurd h h2
        · exact h
        · exact absurd h h1

/-- Non-vacuity of `C139_order_partial`. -/
example : ∃ r, getRelevantContexts folderExample "s/1" ["x#Head", "x#Cash", "x#Debt"] = .done r ∧ r.contexts.length = 3 ∧
    ∀ a ∈ r.contexts, ∀ b ∈ r.contexts, columnKey a = columnKey b → a = b := by
  refine ⟨_, rfl, by decide +kernel, by decide +kernel⟩

end Telefacts
