import Verif.Spec.Context
import Verif.Proof.Order
import Verif.Proof.Period
/-! # Lemmas on the columns of a grid -/
namespace Telefacts.Render
open Telefacts.Instance Telefacts.Schema Telefacts.Spec

theorem getContext_iff (i : HInstance) (ref : String) (c : Context) : getContext i ref = some c ↔ ContextOf i ref c := by
  unfold getContext ContextOf
  rw [← firstWith_iff_find]
  simp

theorem getContext_none (i : HInstance) (ref : String) : getContext i ref = none ↔ ∀ c ∈ i.contexts, c.id ≠ ref := by
  unfold getContext
  simp

theorem getContext_id {i : HInstance} {ref : String} {c : Context} (h : getContext i ref = some c) : c.id = ref := by
  unfold getContext at h
  have := List.find?_some h
  simpa using this

theorem mem_factualHrefs (f : Folder) (hrefs : List String) (h : String) :
    h ∈ factualHrefs f hrefs ↔ ConcreteRow f hrefs h := by
  unfold factualHrefs ConcreteRow
  rw [List.mem_filter]
  cases f.concept h <;> simp

theorem takeContexts_done (i : HInstance) (entity : String) (pairs : List (String × Fact)) (taken : List String)
    (cs : List Context) (h : takeContexts i entity taken pairs = .done cs) :
    (cs.map Context.id).Nodup ∧
    ∀ c, c ∈ cs ↔ OfEntity entity c ∧ c.id ∉ taken ∧ ∃ p ∈ pairs, p.1 = p.2.href ∧ getContext i p.2.contextRef = some c := by
  induction pairs generalizing taken cs with
  | nil => cases h; simp
  | cons p rest ih =>
    obtain ⟨href, fact⟩ := p
    rw [takeContexts] at h
    split at h
    · rename_i ht
      obtain ⟨h1, h2⟩ := ih _ _ h
      refine ⟨h1, fun c => ?_⟩
      rw [h2]
      constructor
      · rintro ⟨a, b, p, hp, q⟩; exact ⟨a, b, p, by simp [hp], q⟩
      · rintro ⟨a, b, p, hp, q1, q2⟩
        rcases List.mem_cons.1 hp with rfl | hp
        · exact absurd ht (getContext_id q2 ▸ b)
        · exact ⟨a, b, p, hp, q1, q2⟩
    · rename_i ht
      split at h
      · rename_i he
        split at h
        · simp at h
        · rename_i c0 hc0
          split at h
          · rename_i hent
            cases hrec : takeContexts i entity (fact.contextRef :: taken) rest with
            | panic => rw [hrec] at h; simp [Run.andThen] at h
            | loop => rw [hrec] at h; simp [Run.andThen] at h
            | done cs' =>
              rw [hrec] at h
              simp only [Run.andThen, Run.done.injEq] at h
              subst h
              obtain ⟨h1, h2⟩ := ih _ _ hrec
              have hid := getContext_id hc0
              refine ⟨?_, fun c => ?_⟩
              · rw [List.map_cons, List.nodup_cons]
                refine ⟨?_, h1⟩
                rw [List.mem_map]
                rintro ⟨c, hc, e⟩
                exact ((h2 c).1 hc).2.1 (by rw [e, hid]; simp)
              · rw [List.mem_cons, h2]
                constructor
                · rintro (rfl | ⟨a, b, p, hp, q⟩)
                  · exact ⟨hent, by rw [hid]; exact ht, (href, fact), by simp, he, hc0⟩
                  · exact ⟨a, fun hn => b (by simp [hn]), p, by simp [hp], q⟩
                · rintro ⟨a, b, p, hp, q1, q2⟩
                  by_cases hcid : c.id = fact.contextRef
                  · left
                    have := getContext_id q2
                    rw [← this, hcid, hc0] at q2
                    exact (Option.some.inj q2).symm
                  · right
                    rcases List.mem_cons.1 hp with rfl | hp
                    · exact absurd (getContext_id q2) hcid
                    · exact ⟨a, by simp [hcid, b], p, hp, q1, q2⟩
          · rename_i hent
            obtain ⟨h1, h2⟩ := ih _ _ h
            refine ⟨h1, fun c => ?_⟩
            rw [h2]
            constructor
            · rintro ⟨a, b, p, hp, q⟩; exact ⟨a, b, p, by simp [hp], q⟩
            · rintro ⟨a, b, p, hp, q1, q2⟩
              rcases List.mem_cons.1 hp with rfl | hp
              · simp only [hc0, Option.some.injEq] at q2
                exact absurd (q2 ▸ a) hent
              · exact ⟨a, b, p, hp, q1, q2⟩
      · rename_i he
        obtain ⟨h1, h2⟩ := ih _ _ h
        refine ⟨h1, fun c => ?_⟩
        rw [h2]
        constructor
        · rintro ⟨a, b, p, hp, q⟩; exact ⟨a, b, p, by simp [hp], q⟩
        · rintro ⟨a, b, p, hp, q1, q2⟩
          rcases List.mem_cons.1 hp with rfl | hp
          · exact absurd q1 he
          · exact ⟨a, b, p, hp, q1, q2⟩

theorem takeContexts_panic (i : HInstance) (entity : String) (pairs : List (String × Fact)) (taken : List String)
    (hk : ∀ t ∈ taken, getContext i t ≠ none) :
    (takeContexts i entity taken pairs = .panic ↔ ∃ p ∈ pairs, p.1 = p.2.href ∧ getContext i p.2.contextRef = none) ∧
    takeContexts i entity taken pairs ≠ .loop := by
  induction pairs generalizing taken with
  | nil => simp [takeContexts]
  | cons p rest ih =>
    obtain ⟨href, fact⟩ := p
    rw [takeContexts]
    have skip : ∀ taken', (∀ t ∈ taken', getContext i t ≠ none) → ¬ (href = fact.href ∧ getContext i fact.contextRef = none) →
        (takeContexts i entity taken' rest = .panic ↔
          ∃ p ∈ (href, fact) :: rest, p.1 = p.2.href ∧ getContext i p.2.contextRef = none) ∧
        takeContexts i entity taken' rest ≠ .loop := by
      intro taken' ht hn
      refine ⟨?_, (ih taken' ht).2⟩
      rw [(ih taken' ht).1]
      constructor
      · rintro ⟨p, hp, q⟩; exact ⟨p, by simp [hp], q⟩
      · rintro ⟨p, hp, q⟩
        rcases List.mem_cons.1 hp with rfl | hp
        · exact absurd q hn
        · exact ⟨p, hp, q⟩
    split
    · rename_i ht
      exact skip _ hk (fun h => hk _ ht h.2)
    · split
      · rename_i he
        split
        · rename_i hn
          refine ⟨⟨fun _ => ⟨(href, fact), by simp, he, hn⟩, fun _ => rfl⟩, by simp⟩
        · rename_i c hc
          split
          · have := skip (fact.contextRef :: taken) (by
              intro t ht
              rcases List.mem_cons.1 ht with rfl | ht
              · rw [hc]; simp
              · exact hk t ht) (fun h => by rw [hc] at h; simp at h)
            rw [← this.1]
            cases h : takeContexts i entity (fact.contextRef :: taken) rest with
            | done cs => simp [Run.andThen]
            | panic => simp [Run.andThen]
            | loop => exact absurd h this.2
          · exact skip _ hk (fun h => by rw [hc] at h; simp at h)
      · rename_i he
        exact skip _ hk (fun h => he h.1)

theorem instanceContexts_done {f : Folder} {hrefs : List String} {entity : String} {i : HInstance} {cs : List Context}
    (h : instanceContexts entity (factualHrefs f hrefs) i = .done cs) :
    (cs.map Context.id).Nodup ∧ ∀ c, c ∈ cs ↔ OfEntity entity c ∧ HasFactFor f hrefs i c := by
  obtain ⟨h1, h2⟩ := takeContexts_done _ _ _ _ _ h
  refine ⟨h1, fun c => ?_⟩
  rw [h2]
  simp only [List.not_mem_nil, not_false_eq_true, true_and, HasFactFor, ← getContext_iff, ← mem_factualHrefs,
    List.mem_flatMap, List.mem_map]
  constructor
  · rintro ⟨a, p, ⟨hr, h1, fct, h2, rfl⟩, q1, q2⟩
    simp only at q1 q2
    exact ⟨a, fct, h2, q1 ▸ h1, q2⟩
  · rintro ⟨a, fct, h1, h2, h3⟩
    exact ⟨a, (fct.href, fct), ⟨fct.href, h2, fct, h1, rfl⟩, rfl, h3⟩

theorem instanceContexts_panic (f : Folder) (hrefs : List String) (entity : String) (i : HInstance) :
    (instanceContexts entity (factualHrefs f hrefs) i = .panic ↔ Dangling f hrefs i) ∧
    instanceContexts entity (factualHrefs f hrefs) i ≠ .loop := by
  have h := takeContexts_panic i entity ((factualHrefs f hrefs).flatMap fun h => i.facts.map fun f => (h, f)) [] (by simp)
  refine ⟨?_, h.2⟩
  unfold instanceContexts
  rw [h.1]
  simp only [Dangling, ← getContext_none, ← mem_factualHrefs, List.mem_flatMap, List.mem_map]
  constructor
  · rintro ⟨p, ⟨hr, h1, fct, h2, rfl⟩, q1, q2⟩
    simp only at q1 q2
    exact ⟨fct, h2, q1 ▸ h1, q2⟩
  · rintro ⟨fct, h1, h2, h3⟩
    exact ⟨(fct.href, fct), ⟨fct.href, h2, fct, h1, rfl⟩, rfl, h3⟩

theorem allContexts_done {f : Folder} {hrefs : List String} {entity : String} {insts : List HInstance} {cs : List Context}
    (h : allContexts entity (factualHrefs f hrefs) insts = .done cs) :
    ∃ css : List (List Context), cs = css.flatten ∧
      List.Forall₂ (fun i cs => (cs.map Context.id).Nodup ∧ ∀ c, c ∈ cs ↔ OfEntity entity c ∧ HasFactFor f hrefs i c)
        insts css := by
  induction insts generalizing cs with
  | nil => cases h; exact ⟨[], rfl, .nil⟩
  | cons i is ih =>
    rw [allContexts] at h
    cases h1 : instanceContexts entity (factualHrefs f hrefs) i with
    | panic => rw [h1] at h; simp [Run.andThen] at h
    | loop => rw [h1] at h; simp [Run.andThen] at h
    | done c1 =>
      cases h2 : allContexts entity (factualHrefs f hrefs) is with
      | panic => rw [h1, h2] at h; simp [Run.andThen] at h
      | loop => rw [h1, h2] at h; simp [Run.andThen] at h
      | done c2 =>
        rw [h1, h2] at h
        simp only [Run.andThen, Run.done.injEq] at h
        obtain ⟨css, rfl, hf⟩ := ih h2
        exact ⟨c1 :: css, by simp [← h], .cons (instanceContexts_done h1) hf⟩

theorem allContexts_panic (f : Folder) (hrefs : List String) (entity : String) (insts : List HInstance) :
    (allContexts entity (factualHrefs f hrefs) insts = .panic ↔ ∃ i ∈ insts, Dangling f hrefs i) ∧
    allContexts entity (factualHrefs f hrefs) insts ≠ .loop := by
  induction insts with
  | nil => simp [allContexts]
  | cons i is ih =>
    have h := instanceContexts_panic f hrefs entity i
    rw [allContexts]
    cases h1 : instanceContexts entity (factualHrefs f hrefs) i with
    | panic => simp [Run.andThen, h.1.1 h1]
    | loop => exact absurd h1 h.2
    | done c1 =>
      have hn : ¬ Dangling f hrefs i := by rw [← h.1, h1]; simp
      simp only [List.mem_cons, exists_eq_or_imp, hn, false_or, ← ih.1]
      cases h2 : allContexts entity (factualHrefs f hrefs) is with
      | panic => simp [Run.andThen]
      | loop => exact absurd h2 ih.2
      | done c2 => simp [Run.andThen]

/-- No concrete rows, no columns: the early return changes nothing. -/
theorem allContexts_nil (entity : String) (insts : List HInstance) : allContexts entity [] insts = .done [] := by
  induction insts with
  | nil => rfl
  | cons i is ih => rw [allContexts, ih]; rfl

theorem getRelevantContexts_eq (f : Folder) (entity : String) (hrefs : List String) :
    getRelevantContexts f entity hrefs = (allContexts entity (factualHrefs f hrefs) f.insts).andThen fun cs =>
      .done ⟨sortContexts (cs.map (newItem f)), cs.flatMap (fun c => typedTrees f c.segment),
        cs.flatMap (fun c => typedTrees f c.scenario), cs.flatMap (contextualLabels f)⟩ := by
  unfold getRelevantContexts
  by_cases h : factualHrefs f hrefs = []
  · simp only [h, if_true]
    rw [allContexts_nil]
    rfl
  · simp only [h, if_false]

theorem periodString_raw (c : Context) : ∃ t, RawPeriod c t ∧ periodString c = [("Unlabelled", t)] := by
  unfold periodString RawPeriod
  split
  · rename_i h; exact ⟨_, .inl ⟨h.2, h.1, rfl⟩, rfl⟩
  · rename_i h
    refine ⟨c.instant, .inr ⟨fun h' => h ⟨h'.2, h'.1⟩, rfl⟩, ?_⟩
    split
    · rfl
    · rename_i h2; simp at h2; rw [h2]; rfl

theorem contextualMembers_iff (f : Folder) (c : Context) (m : RelevantMember) :
    m ∈ contextualMembers f c ↔ MemberOf f c m := by
  have he : ∀ b l, m ∈ explicitMembers f b l ↔ ∃ e ∈ l, m.isSegment = b ∧ m.dimension = ⟨e.dimHref, f.label e.dimHref⟩ ∧
      m.explicit = some ⟨e.memHref, f.label e.memHref⟩ ∧ m.typedDomain = none ∧ m.typedMember = "" := by
    intro b l
    unfold explicitMembers
    rw [List.mem_map]
    constructor
    · rintro ⟨e, h, rfl⟩; exact ⟨e, h, rfl, rfl, rfl, rfl, rfl⟩
    · rintro ⟨e, h, h1, h2, h3, h4, h5⟩
      refine ⟨e, h, ?_⟩
      cases m
      simp_all
  have ht : ∀ l : List TypedMember, m ∈ l.flatMap (typedMembers f) ↔ ∃ t ∈ l, ∃ d v, (d, v) ∈ t.members ∧ m.isSegment = false ∧
      m.dimension = ⟨t.dimHref, f.label t.dimHref⟩ ∧ m.explicit = none ∧ m.typedDomain = some ⟨d, f.label d⟩ ∧
      m.typedMember = v := by
    intro l
    rw [List.mem_flatMap]
    unfold typedMembers
    simp only [List.mem_map]
    constructor
    · rintro ⟨t, h, e, hm, rfl⟩; exact ⟨t, h, e.1, e.2, hm, rfl, rfl, rfl, rfl, rfl⟩
    · rintro ⟨t, h, d, v, h0, h1, h2, h3, h4, h5⟩
      refine ⟨t, h, (d, v), h0, ?_⟩
      cases m
      simp_all
  unfold contextualMembers MemberOf
  simp only [List.mem_append, he, ht]
  constructor
  · rintro (((h | ⟨t, h, r⟩) | h) | ⟨t, h, r⟩)
    · exact .inl h
    · exact .inr (.inr ⟨t, .inl h, r⟩)
    · exact .inr (.inl h)
    · exact .inr (.inr ⟨t, .inr h, r⟩)
  · rintro (h | h | ⟨t, h | h, r⟩)
    · exact .inl (.inl (.inl h))
    · exact .inl (.inr h)
    · exact .inl (.inl (.inr ⟨t, h, r⟩))
    · exact .inr ⟨t, h, r⟩

theorem newItem_column (f : Folder) (c : Context) : ColumnOf f c (newItem f c) :=
  ⟨rfl, periodString_raw c, contextualMembers_iff f c⟩

/-! ## The order of columns -/

theorem columnBefore_total : StrictTotal ColumnBefore :=
  strictTotal_string.lexi (strictTotal_nat.lexi (strictTotal_nat.lexi (strictTotal_nat.lexi
    (strictTotal_string.lexi strictTotal_string))))

theorem memberLess_iff (a b : RelevantMember) : memberLess a b = true ↔
    Lexi (· < ·) (Lexi (· < ·) (Lexi (· < ·) (· < ·))) (memberKey a) (memberKey b) := by
  obtain ⟨d, e, t, td, s⟩ := a
  obtain ⟨d', e', t', td', s'⟩ := b
  unfold memberLess memberKey Lexi
  cases s <;> cases s' <;> simp only [Bool.and_false, Bool.and_true, Bool.not_true, Bool.not_false, Bool.and_self,
    if_true, if_false, Bool.false_eq_true, Nat.lt_irrefl, false_or, true_and, Nat.zero_lt_one,
    Nat.not_lt_zero, Nat.one_ne_zero, Nat.zero_ne_one, false_and, or_false]
  all_goals
    cases td <;> cases td' <;> cases e <;> cases e' <;>
      simp [String.lt_irrefl]
  all_goals
    split
    · rename_i h; simp [h, String.lt_irrefl]
    · rename_i h; simp [h]

theorem pureText_eq (p : LanguagePack) : pureText p = rawText p := by
  unfold pureText rawText
  have : mapGet p PureLabel = (p.find? (fun e => decide (e.1 = "Unlabelled"))).map Prod.snd := by
    induction p with
    | nil => rfl
    | cons x xs ih =>
      obtain ⟨k, v⟩ := x
      rw [mapGet, List.find?_cons]
      by_cases h : k = PureLabel
      · rw [if_pos h]
        simp [show k = "Unlabelled" from h]
      · rw [if_neg h, ih]
        have : ¬ k = "Unlabelled" := h
        simp [this]
  rw [this]
  cases p.find? (fun e => decide (e.1 = "Unlabelled")) <;> rfl

theorem contextLess_iff (a b : RelevantContext) : contextLess a b = true ↔ ColumnBefore (columnKey a) (columnKey b) := by
  unfold contextLess ColumnBefore columnKey
  rw [← pureText_eq, ← pureText_eq]
  generalize pureText a.period = p
  generalize pureText b.period = q
  obtain ⟨_, _, am⟩ := a
  obtain ⟨_, _, bm⟩ := b
  by_cases hp : p = q
  · subst hp
    simp only [if_true]
    by_cases hl : am.length = bm.length
    · rw [if_pos hl]
      cases am with
      | nil =>
        cases bm with
        | nil => simp [Lexi, String.lt_irrefl]
        | cons y ys => simp at hl
      | cons x xs =>
        cases bm with
        | nil => simp at hl
        | cons y ys =>
          simp only
          rw [memberLess_iff]
          simp only [Lexi, String.lt_irrefl, false_or, true_and, hl, Nat.lt_irrefl]
    · rw [if_neg hl]
      simp [Lexi, String.lt_irrefl, hl]
  · rw [if_neg hp]
    simp [Lexi, hp]

theorem sortContexts_sorted (l : List RelevantContext) : StableSortedOn ColumnBefore columnKey l (sortContexts l) :=
  stableSortedOn_stableSort columnBefore_total contextLess_iff l

end Telefacts.Render
