import Verif.Spec.Grid
import Verif.Props.Quadrant
import Verif.Props.Domain
import Verif.Props.FactText
import Verif.Props.Period
/-! # C92 - C97: grids -/
namespace Telefacts
open Telefacts.Render Telefacts.Instance Telefacts.Linkbase Telefacts.Spec

theorem columnsFor_of {f : Folder} {entity : String} {hrefs : List String} {r : Relevant}
    (h : getRelevantContexts f entity hrefs = .done r) : ColumnsFor f entity hrefs r.contexts := by
  rw [getRelevantContexts_eq] at h
  cases hc : allContexts entity (factualHrefs f hrefs) f.insts with
  | panic => rw [hc] at h; simp [Run.andThen] at h
  | loop => rw [hc] at h; simp [Run.andThen] at h
  | done cs =>
    rw [hc] at h
    simp only [Run.andThen, Run.done.injEq] at h
    obtain ⟨css, rfl, hf⟩ := allContexts_done hc
    refine ⟨css, css.flatten.map (newItem f), hf, ?_, ?_⟩
    · generalize css.flatten = l
      induction l with
      | nil => exact .nil
      | cons c cs ih => exact .cons (newItem_column f c) ih
    · rw [← h]; exact sortContexts_sorted _

theorem aligned_of {Φ : Type} {f : Folder} {entity : String} {hrefs : List String} {rel : Relevant}
    {mo : GoMap String RelevantMember → GoMap String RelevantMember} {m : List (List MemberCell)} {v : List VoidCell}
    (s : FactSource Φ) (hr : getRelevantContexts f entity hrefs = .done rel)
    (hg : getMemberGrid mo rel.contexts rel.segmentTrees rel.scenarioTrees = .done (m, v)) :
    Aligned f entity s hrefs (rel.contexts.map RelevantContext.period) m v (getFactualQuadrant s hrefs rel.contexts) := by
  obtain ⟨h1, _, h2⟩ := C42_grid mo _ _ _ _ _ hg
  obtain ⟨h3, _, h4⟩ := C40_quadrant s hrefs rel.contexts
  exact ⟨rel.contexts, columnsFor_of hr, rfl, h1, h2, h3, h4, C41_noted_partial s hrefs rel.contexts⟩

/-! Labels come from the folder, so that a language of all labels is offered. -/

def FromFolder (f : Folder) (packs : List LabelPack) : Prop := ∀ p ∈ packs, ∃ h, p = f.label h

theorem FromFolder.append {f : Folder} {a b : List LabelPack} (ha : FromFolder f a) (hb : FromFolder f b) : FromFolder f (a ++ b) := by
  intro p hp
  rcases List.mem_append.1 hp with hp | hp
  · exact ha p hp
  · exact hb p hp

theorem fromFolder_one (f : Folder) (h : String) : FromFolder f [f.label h] := by
  intro p hp; rw [List.mem_singleton] at hp; exact ⟨h, hp⟩

theorem offers_of {f : Folder} {packs : List LabelPack} (hne : packs ≠ []) (hf : FromFolder f packs) :
    Offers f (offered packs).2 := by
  intro hw role lang ht
  have hpw : ∀ p ∈ packs, PackWF p := by
    intro p hp
    obtain ⟨h, rfl⟩ := hf p hp
    exact hw h
  rw [offered_langs packs hpw]
  have htext : ∀ p ∈ packs, HasText p role lang := by
    intro p hp
    obtain ⟨h, rfl⟩ := hf p hp
    exact ht h
  obtain ⟨p0, hp0⟩ := List.exists_mem_of_ne_nil _ hne
  have hrole : ∀ p ∈ packs, Render.HasRole p role := by
    intro p hp
    obtain ⟨l, hl, _⟩ := htext p hp
    exact ⟨l, hl⟩
  obtain ⟨p, hp⟩ := lastWith_exists (fun p => Render.HasRole p role) ⟨p0, hp0, hrole p0 hp0⟩
  exact ⟨role, p, hp, htext p (lastWith_mem hp).1⟩

theorem relevant_labels {f : Folder} {entity : String} {hrefs : List String} {r : Relevant}
    (h : getRelevantContexts f entity hrefs = .done r) : FromFolder f r.labels := by
  rw [getRelevantContexts_eq] at h
  cases hc : allContexts entity (factualHrefs f hrefs) f.insts with
  | panic => rw [hc] at h; simp [Run.andThen] at h
  | loop => rw [hc] at h; simp [Run.andThen] at h
  | done cs =>
    rw [hc] at h
    simp only [Run.andThen, Run.done.injEq] at h
    rw [← h]
    intro p hp
    simp only [List.mem_flatMap, contextualLabels, explicitLabels, typedLabels, List.mem_append] at hp
    obtain ⟨c, _, hp⟩ := hp
    rcases hp with ((⟨m, _, hp⟩ | ⟨m, _, hp⟩) | ⟨m, _, hp⟩) | ⟨m, _, hp⟩
    all_goals
      simp only [List.mem_cons, List.not_mem_nil, or_false] at hp
      rcases hp with rfl | rfl <;> exact ⟨_, rfl⟩

theorem pGrid_done {Φ : Type} {f : Folder} {env : GridEnv Φ} {entity role : String} {lbs : List (Lb PArc)} {g : PGrid Φ}
    {roles : List LabelRole} {langs : List Lang} (h : pGrid f env entity role lbs = .done (g, roles, langs)) :
    ∃ rel, getRelevantContexts f entity (g.rows.map IndentedLabel.href) = .done rel ∧
      getMemberGrid env.memberOrder rel.contexts rel.segmentTrees rel.scenarioTrees = .done (g.members, g.voids) ∧
      g.rows = getIndentedLabels f lbs role ∧ g.periods = rel.contexts.map RelevantContext.period ∧
      g.quadrant = getFactualQuadrant (env.source langs) (g.rows.map IndentedLabel.href) rel.contexts ∧
      offered (g.rows.map IndentedLabel.label ++ rel.labels) = (roles, langs) := by
  unfold pGrid at h
  simp only at h
  cases hr : getRelevantContexts f entity ((getIndentedLabels f lbs role).map IndentedLabel.href) with
  | panic => rw [hr] at h; simp [Run.andThen] at h
  | loop => rw [hr] at h; simp [Run.andThen] at h
  | done rel =>
    rw [hr] at h
    simp only [Run.andThen] at h
    cases hg : getMemberGrid env.memberOrder rel.contexts rel.segmentTrees rel.scenarioTrees with
    | panic => rw [hg] at h; simp at h
    | loop => rw [hg] at h; simp at h
    | done mv =>
      rw [hg] at h
      simp only [Run.done.injEq, Prod.mk.injEq] at h
      obtain ⟨rfl, rfl, rfl⟩ := h
      exact ⟨rel, hr, hg, rfl, rfl, rfl, rfl⟩

mutual
theorem mem_walkNode' {α : Type} (row : String → Nat → α) (P : α → Prop) (hP : ∀ l k, P (row l k)) :
    ∀ (n : Node) (k : Nat), ∀ a ∈ walkNode row k n, P a
  | .mk l o cs, k, a, ha => by
    rw [walkNode] at ha
    rcases List.mem_cons.1 ha with rfl | ha
    · exact hP l k
    · exact mem_walkNodes' row P hP cs (k + 1) a ha
theorem mem_walkNodes' {α : Type} (row : String → Nat → α) (P : α → Prop) (hP : ∀ l k, P (row l k)) :
    ∀ (ns : List Node) (k : Nat), ∀ a ∈ walkNodes row k ns, P a
  | [], k, a, ha => by simp [walkNodes] at ha
  | n :: ns, k, a, ha => by
    rw [walkNodes] at ha
    rcases List.mem_append.1 ha with ha | ha
    · exact mem_walkNode' row P hP n k a ha
    · exact mem_walkNodes' row P hP ns k a ha
end

theorem mem_walk {α : Type} (row : String → Nat → α) (P : α → Prop) (hP : ∀ l k, P (row l k)) (root : Node) :
    ∀ a ∈ walkTree row root, P a := mem_walkNodes' row P hP _ 0

theorem rows_label (f : Folder) (lbs : List (Lb PArc)) (role : String) :
    ∀ r ∈ getIndentedLabels f lbs role, ∃ h, r.label = f.label h := by
  unfold getIndentedLabels
  split
  · simp
  · exact mem_walk _ _ (fun l k => ⟨_, rfl⟩) _

/-- **C92.** The rows of a presentation grid are those of C45. Its period headers, member cells, facts and footnote numbers
share one list of columns, that of C37 in the order of C39; facts and footnote numbers have the rows of the presentation;
every cell is the fact of its row and column, rendered in the languages offered; a language that every label has is
offered. -/
theorem C92_presentation {Φ : Type} (f : Folder) (env : GridEnv Φ) (entity role : String) (lbs : List (Lb PArc)) (g : PGrid Φ)
    (roles : List LabelRole) (langs : List Lang) (h : pGrid f env entity role lbs = .done (g, roles, langs)) :
    g.rows = getIndentedLabels f lbs role ∧
    Aligned f entity (env.source langs) (g.rows.map IndentedLabel.href) g.periods g.members g.voids g.quadrant ∧
    (g.rows ≠ [] → Offers f langs) := by
  obtain ⟨rel, hr, hg, h1, h2, h3, h4⟩ := pGrid_done h
  refine ⟨h1, ?_, ?_⟩
  · rw [h2, h3]
    exact aligned_of _ hr hg
  · intro hne
    have := offers_of (f := f) (packs := g.rows.map IndentedLabel.label ++ rel.labels) (by simp [hne])
      (FromFolder.append ?_ (relevant_labels hr))
    · rw [h4] at this; exact this
    · intro p hp
      obtain ⟨r, hrm, rfl⟩ := List.mem_map.1 hp
      rw [h1] at hrm
      exact rows_label f lbs role r hrm

/-- A summation item whose parts share their columns. -/
def ItemAligned {Φ : Type} (f : Folder) (env : GridEnv Φ) (entity : String) (i : SummationItem Φ) : Prop :=
  ∃ langs, Aligned f entity (env.source langs) (i.contributing.map Contributing.href ++ [i.href]) i.periods i.members i.voids
    i.quadrant ∧ Offers f langs

theorem contributing_label {f : Folder} {m : GoMap String (List CStruct)} {cs : List CStruct} :
    FromFolder f ((cs.filterMap (contributing f m)).map Contributing.label) := by
  intro p hp
  obtain ⟨c, hc, rfl⟩ := List.mem_map.1 hp
  obtain ⟨x, _, hx⟩ := List.mem_filterMap.1 hc
  unfold contributing at hx
  split at hx
  · simp at hx
  · simp only [Option.some.injEq] at hx
    rw [← hx]
    exact ⟨_, rfl⟩

theorem reoffer_eq {packs : List LabelPack} (hne : packs ≠ []) (roles : List LabelRole) (langs : List Lang) :
    reoffer packs roles langs = offered packs := by
  unfold reoffer offered
  cases h : reduce packs with
  | none => unfold reduce at h; split at h <;> simp_all
  | some p => rfl

theorem summationStep_aligned {Φ : Type} {f : Folder} {env : GridEnv Φ} {entity : String} {m : GoMap String (List CStruct)}
    {st st' : CalcState Φ} {e : String × List CStruct} (h : summationStep f env entity m st e = .done st')
    (hpk : FromFolder f st.packs) (ha : ∀ i ∈ st.items, ItemAligned f env entity i) :
    FromFolder f st'.packs ∧ ∀ i ∈ st'.items, ItemAligned f env entity i := by
  unfold summationStep at h
  simp only at h
  have hcl : FromFolder f ((e.2.filterMap (contributing f m)).map Contributing.label) := contributing_label
  generalize hcs : e.2.filterMap (contributing f m) = cs at h hcl
  cases hr : getRelevantContexts f entity (cs.map Contributing.href ++ [e.1]) with
  | panic => rw [hr] at h; simp [Run.andThen] at h
  | loop => rw [hr] at h; simp [Run.andThen] at h
  | done rel =>
    rw [hr] at h
    simp only [Run.andThen] at h
    have hall : FromFolder f (st.packs ++ cs.map Contributing.label ++ [f.label e.1] ++ rel.labels) :=
      ((hpk.append hcl).append (fromFolder_one f e.1)).append (relevant_labels hr)
    cases hc : f.concept e.1 with
    | none =>
      rw [hc] at h
      simp only [Run.done.injEq] at h
      subst h
      exact ⟨hall, ha⟩
    | some concept =>
      rw [hc] at h
      simp only at h
      cases hg : getMemberGrid env.memberOrder rel.contexts rel.segmentTrees rel.scenarioTrees with
      | panic => rw [hg] at h; simp at h
      | loop => rw [hg] at h; simp at h
      | done mv =>
        rw [hg] at h
        simp only [Run.done.injEq] at h
        subst h
        refine ⟨hall, ?_⟩
        intro i hi
        rcases List.mem_append.1 hi with hi | hi
        · exact ha i hi
        · rw [List.mem_singleton] at hi
          subst hi
          refine ⟨_, aligned_of _ hr hg, ?_⟩
          rw [reoffer_eq (by simp)]
          exact offers_of (by simp) hall

theorem summationLoop_aligned {Φ : Type} {f : Folder} {env : GridEnv Φ} {entity : String} {m : GoMap String (List CStruct)}
    (es : GoMap String (List CStruct)) : ∀ {st st' : CalcState Φ}, summationLoop f env entity m st es = .done st' →
    FromFolder f st.packs → (∀ i ∈ st.items, ItemAligned f env entity i) → ∀ i ∈ st'.items, ItemAligned f env entity i := by
  induction es with
  | nil => intro st st' h _ ha; cases h; exact ha
  | cons e es ih =>
    intro st st' h hpk ha
    rw [summationLoop] at h
    cases hs : summationStep f env entity m st e with
    | panic => rw [hs] at h; simp [Run.andThen] at h
    | loop => rw [hs] at h; simp [Run.andThen] at h
    | done st1 =>
      rw [hs] at h
      simp only [Run.andThen] at h
      obtain ⟨h1, h2⟩ := summationStep_aligned hs hpk ha
      exact ih h h1 h2

/-- **C93.** The parts of every summation item share their columns; the rows of its facts are the contributing concepts and
then the item. -/
theorem C93_calculation {Φ : Type} (f : Folder) (env : GridEnv Φ) (entity role : String) (b : Books)
    (items : List (SummationItem Φ)) (roles : List LabelRole) (langs : List Lang)
    (h : cGrid f env entity role b = .done (items, roles, langs)) : ∀ i ∈ items, ItemAligned f env entity i := by
  have key : ∀ (lbs : List (Lb CArc)) (links : List (Link CArc)),
      getSummationItems f env entity role links lbs = .done (items, roles, langs) → ∀ i ∈ items, ItemAligned f env entity i := by
    intro lbs
    induction lbs with
    | nil => intro links h; cases h; simp
    | cons lb lbs ih =>
      intro links h
      rw [getSummationItems] at h
      split at h
      · rename_i k _
        unfold summationItems at h
        simp only at h
        cases hs : summationLoop f env entity (calcMap role lb k.arcs) ⟨[], [], [], []⟩ (env.mapOrder (calcMap role lb k.arcs)) with
        | panic => rw [hs] at h; simp [Run.andThen] at h
        | loop => rw [hs] at h; simp [Run.andThen] at h
        | done st =>
          rw [hs] at h
          simp only [Run.andThen, Run.done.injEq, Prod.mk.injEq] at h
          obtain ⟨rfl, _, _⟩ := h
          intro i hi
          rw [mem_stableSort] at hi
          exact summationLoop_aligned _ hs (by simp [FromFolder]) (by simp) i hi
      · exact ih _ h
  exact key _ _ h

/-- A root domain whose parts share their columns. -/
def RootAligned {Φ : Type} (f : Folder) (source : List Lang → FactSource Φ) (entity : String) (r : RootDomain Φ) : Prop :=
  ∃ langs, Aligned f entity (source langs) (r.href :: r.primaryItems.map PrimaryItem.href) r.periods r.members r.voids r.quadrant ∧
    Offers f langs

theorem addDefaults_packs {f : Folder} {w : Networks} (hw : w.label = f.label) (s : Bool) (ns : List Node) :
    ∀ {st st' : DomainState}, addDefaults w s ns st = some st' → FromFolder f st.packs → FromFolder f st'.packs := by
  induction ns with
  | nil => intro st st' h hp; cases h; exact hp
  | cons n ns ih =>
    intro st st' h hp
    rw [addDefaults] at h
    split at h
    · simp at h
    · exact ih h (hp.append (hw ▸ fromFolder_one f _))

theorem includeDefaults_packs {f : Folder} {w : Networks} (hw : w.label = f.label) (dim : String) (ns : List Node) :
    ∀ {st st' : DomainState}, includeDefaults w dim ns st = some st' → FromFolder f st.packs → FromFolder f st'.packs := by
  induction ns with
  | nil => intro st st' h hp; cases h; exact hp
  | cons n ns ih =>
    intro st st' h hp
    rw [includeDefaults] at h
    split at h
    · exact ih h hp
    · rw [Option.bind_eq_some_iff] at h
      obtain ⟨st1, h1, h2⟩ := h
      exact ih h2 (addDefaults_packs hw _ _ h1 hp)

theorem includeCubes_packs {f : Folder} {w : Networks} (hw : w.label = f.label) (dim : String) (ns : List Node) :
    ∀ {st st' : DomainState}, includeCubes w dim ns st = some st' → FromFolder f st.packs → FromFolder f st'.packs := by
  induction ns with
  | nil => intro st st' h hp; cases h; exact hp
  | cons n ns ih =>
    intro st st' h hp
    rw [includeCubes, Option.bind_eq_some_iff] at h
    obtain ⟨st1, h1, h2⟩ := h
    exact ih h2 (includeDefaults_packs hw _ _ h1 hp)

theorem excludeDefaults_packs {f : Folder} {w : Networks} (hw : w.label = f.label) (ns : List Node) :
    ∀ {st st' : DomainState}, excludeDefaults w ns st = some st' → FromFolder f st.packs → FromFolder f st'.packs := by
  induction ns with
  | nil => intro st st' h hp; cases h; exact hp
  | cons n ns ih =>
    intro st st' h hp
    rw [excludeDefaults] at h
    split at h
    · exact ih h hp
    · rw [Option.bind_eq_some_iff] at h
      obtain ⟨st1, h1, h2⟩ := h
      exact ih h2 (addDefaults_packs hw _ _ h1 hp)

theorem excludeCubes_packs {f : Folder} {w : Networks} (hw : w.label = f.label) (ns : List Node) :
    ∀ {st st' : DomainState}, excludeCubes w ns st = some st' → FromFolder f st.packs → FromFolder f st'.packs := by
  induction ns with
  | nil => intro st st' h hp; cases h; exact hp
  | cons n ns ih =>
    intro st st' h hp
    rw [excludeCubes, Option.bind_eq_some_iff] at h
    obtain ⟨st1, h1, h2⟩ := h
    exact ih h2 (excludeDefaults_packs hw _ h1 hp)

mutual
theorem traverse_packs {f : Folder} {w : Networks} (s : Bool) : ∀ (n : Node) (st : DomainState), FromFolder f st.packs →
    FromFolder f (traverse w s n st).packs
  | .mk l o cs, st, hp => by
    rw [traverse]
    split
    · simp [FromFolder]
    · exact traverseAll_packs s cs _ hp
theorem traverseAll_packs {f : Folder} {w : Networks} (s : Bool) : ∀ (ns : List Node) (st : DomainState), FromFolder f st.packs →
    FromFolder f (traverseAll w s ns st).packs
  | [], st, hp => by rw [traverseAll]; exact hp
  | n :: ns, st, hp => by
    rw [traverseAll]
    exact traverseAll_packs s ns _ (traverse_packs s n st hp)
end

theorem effectiveDomain_packs {f : Folder} {w : Networks} (hw : w.label = f.label) (primary dim : String) :
    FromFolder f (getEffectiveDomain w primary dim).2 := by
  have fold : ∀ (us : List Unit) (s : Bool) (st : DomainState), FromFolder f st.packs →
      FromFolder f (us.foldl (fun st _ => traverseAll w s w.explicitDomain st) st).packs := by
    intro us s
    induction us with
    | nil => intro st h; exact h
    | cons u us ih => intro st h; exact ih _ (traverseAll_packs s _ _ h)
  unfold getEffectiveDomain
  simp only
  split
  · simp [FromFolder]
  · split
    · simp [FromFolder]
    · rename_i st hst
      split
      · simp [FromFolder]
      · rename_i st' hst'
        have h1 := includeCubes_packs hw _ _ hst (by simp [FromFolder])
        have h2 := excludeCubes_packs hw _ hst' h1
        exact fold _ _ _ (fold _ _ _ h2)

theorem grid_packs {f : Folder} {w : Networks} (hw : w.label = f.label) (hrefs dims : List String) :
    FromFolder f (getEffectiveDomainGrid w hrefs dims).2 := by
  intro p hp
  simp only [getEffectiveDomainGrid, List.mem_flatMap] at hp
  obtain ⟨h, _, d, _, hp⟩ := hp
  exact effectiveDomain_packs hw h d p hp

theorem rootStep_aligned {Φ : Type} {f : Folder} {mo : GoMap String RelevantMember → GoMap String RelevantMember}
    {source : List Lang → FactSource Φ} {entity : String} {w : Networks} {dims : List String} {st st' : RootState Φ} {root : Node}
    (hw : w.label = f.label) (hpk : FromFolder f st.packs) (h : rootStep f mo source entity w dims st root = .done st') :
    FromFolder f st'.packs ∧ ∃ r, st'.domains = st.domains ++ [r] ∧ RootAligned f source entity r := by
  unfold rootStep at h
  simp only at h
  have hit : ∀ a ∈ walkTree (fun l level => (⟨w.loc l, f.label (w.loc l), level⟩ : PrimaryItem)) root, ∃ h, a.label = f.label h :=
    mem_walk _ _ (fun l k => ⟨_, rfl⟩) root
  generalize walkTree (fun l level => (⟨w.loc l, f.label (w.loc l), level⟩ : PrimaryItem)) root = items at h hit
  cases hr : getRelevantContexts f entity (w.href root :: items.map PrimaryItem.href) with
  | panic => rw [hr] at h; simp [Run.andThen] at h
  | loop => rw [hr] at h; simp [Run.andThen] at h
  | done rel =>
    rw [hr] at h
    simp only [Run.andThen] at h
    cases hg : getMemberGrid mo rel.contexts rel.segmentTrees rel.scenarioTrees with
    | panic => rw [hg] at h; simp at h
    | loop => rw [hg] at h; simp at h
    | done g =>
      rw [hg] at h
      simp only [Run.done.injEq] at h
      have hall : FromFolder f (st.packs ++ items.map PrimaryItem.label ++
          (getEffectiveDomainGrid w (w.href root :: items.map PrimaryItem.href) dims).2 ++ rel.labels ++ [f.label (w.href root)]) := by
        refine (((hpk.append ?_).append (grid_packs hw _ _)).append (relevant_labels hr)).append (fromFolder_one f _)
        intro p hp
        obtain ⟨a, ha, rfl⟩ := List.mem_map.1 hp
        exact hit a ha
      subst h
      refine ⟨hall, _, rfl, _, aligned_of _ hr hg, ?_⟩
      have ho := offers_of (by simp) hall
      unfold offered at ho
      intro h1 role lang h2
      have := ho h1 role lang h2
      split
      · rename_i hred; rw [hred] at this; simp at this
      · rename_i p hred
        rw [hred] at this
        exact List.mem_append_right _ this

theorem rootLoop_aligned {Φ : Type} {f : Folder} {mo : GoMap String RelevantMember → GoMap String RelevantMember}
    {source : List Lang → FactSource Φ} {entity : String} {w : Networks} {dims : List String} (hw : w.label = f.label)
    (ns : List Node) : ∀ {st st' : RootState Φ}, rootLoop (rootStep f mo source entity w dims) st ns = .done st' →
    FromFolder f st.packs → (∀ r ∈ st.domains, RootAligned f source entity r) →
    FromFolder f st'.packs ∧ ∀ r ∈ st'.domains, RootAligned f source entity r := by
  induction ns with
  | nil => intro st st' h hpk ha; cases h; exact ⟨hpk, ha⟩
  | cons n ns ih =>
    intro st st' h hpk ha
    rw [rootLoop] at h
    cases hs : rootStep f mo source entity w dims st n with
    | panic => rw [hs] at h; simp [Run.andThen] at h
    | loop => rw [hs] at h; simp [Run.andThen] at h
    | done st1 =>
      rw [hs] at h
      simp only [Run.andThen] at h
      obtain ⟨h1, r, h2, h3⟩ := rootStep_aligned hw hpk hs
      refine ih h h1 ?_
      rw [h2]
      intro x hx
      rcases List.mem_append.1 hx with hx | hx
      · exact ha x hx
      · rw [List.mem_singleton] at hx; subst hx; exact h3

/-- **C93.** The parts of every root domain share their columns; the rows of its facts are the root and then its primary
items. -/
theorem C93_definition {Φ : Type} (f : Folder) (env : GridEnv Φ) (entity role : String) (b : Books)
    (g : DGrid Φ) (roles : List LabelRole) (langs : List Lang)
    (h : dGrid f env entity role b = .done (g, roles, langs)) : ∀ r ∈ g.domains, RootAligned f env.source entity r := by
  have key : ∀ (links : List ((Lb DArc × Link DArc) × Nat)) (st st' : RootState Φ),
      linkLoop (linkStep f env.memberOrder env.source entity role b.dimensionOrder) st links = .done st' →
      FromFolder f st.packs → (∀ r ∈ st.domains, RootAligned f env.source entity r) →
      ∀ r ∈ st'.domains, RootAligned f env.source entity r := by
    intro links
    induction links with
    | nil => intro st st' h _ ha; cases h; exact ha
    | cons e links ih =>
      intro st st' h hpk ha
      rw [linkLoop] at h
      cases hs : linkStep f env.memberOrder env.source entity role b.dimensionOrder st e with
      | panic => rw [hs] at h; simp [Run.andThen] at h
      | loop => rw [hs] at h; simp [Run.andThen] at h
      | done st1 =>
        rw [hs] at h
        simp only [Run.andThen] at h
        unfold linkStep at hs
        simp only at hs
        obtain ⟨h1, h2⟩ := rootLoop_aligned rfl _ hs hpk ha
        exact ih st1 st' h h1 h2
  unfold dGrid getRootDomains at h
  cases hl : linkLoop (linkStep f env.memberOrder env.source entity role b.dimensionOrder) ⟨[], [], [], []⟩ (roleLinks role b.definition).zipIdx with
  | panic => rw [hl] at h; simp [Run.andThen] at h
  | loop => rw [hl] at h; simp [Run.andThen] at h
  | done st =>
    rw [hl] at h
    simp only [Run.andThen, Run.done.injEq, Prod.mk.injEq] at h
    obtain ⟨rfl, _, _⟩ := h
    exact key _ _ _ hl (by simp [FromFolder]) (by simp)

/-- The column of a context of an instance. -/
theorem column_exists {f : Folder} {entity : String} {hrefs : List String} {cols : List RelevantContext}
    (h : ColumnsFor f entity hrefs cols) {i : HInstance} (hi : i ∈ f.insts) {c : Context} (he : OfEntity entity c)
    (hf : HasFactFor f hrefs i c) : ∃ (j : Nat) (col : RelevantContext), cols[j]? = some col ∧ ColumnOf f c col := by
  obtain ⟨css, cols', h1, h2, h3⟩ := h
  have hc : c ∈ css.flatten := by
    clear h2
    generalize f.insts = insts at h1 hi
    induction h1 with
    | nil => simp at hi
    | cons p _ ih =>
      rw [List.flatten_cons, List.mem_append]
      rcases List.mem_cons.1 hi with rfl | hi
      · exact .inl ((p.2 c).2 ⟨he, hf⟩)
      · exact .inr (ih hi)
  obtain ⟨col, hcol, hco⟩ : ∃ col ∈ cols', ColumnOf f c col := by
    clear h1 h3
    generalize css.flatten = l at h2 hc
    induction h2 with
    | nil => simp at hc
    | cons p _ ih =>
      rcases List.mem_cons.1 hc with rfl | hc
      · exact ⟨_, List.mem_cons_self, p⟩
      · obtain ⟨col, h1, h2⟩ := ih hc
        exact ⟨col, List.mem_cons_of_mem _ h1, h2⟩
  obtain ⟨j, hj⟩ := List.mem_iff_getElem?.1 (h3.1.mem_iff.2 hcol)
  exact ⟨j, col, hj, hco⟩

/-- A column is that of a context. -/
theorem column_context {f : Folder} {entity : String} {hrefs : List String} {cols : List RelevantContext}
    (h : ColumnsFor f entity hrefs cols) {col : RelevantContext} (hc : col ∈ cols) :
    ∃ i ∈ f.insts, ∃ c, OfEntity entity c ∧ HasFactFor f hrefs i c ∧ ColumnOf f c col := by
  obtain ⟨css, cols', h1, h2, h3⟩ := h
  have hcol := h3.1.mem_iff.1 hc
  obtain ⟨c, hc, hco⟩ : ∃ c ∈ css.flatten, ColumnOf f c col := by
    clear h1 h3
    generalize css.flatten = l at h2
    induction h2 with
    | nil => simp at hcol
    | cons p _ ih =>
      rcases List.mem_cons.1 hcol with rfl | hc
      · exact ⟨_, List.mem_cons_self, p⟩
      · obtain ⟨col, h1, h2⟩ := ih hc
        exact ⟨col, List.mem_cons_of_mem _ h1, h2⟩
  have : ∃ i ∈ f.insts, OfEntity entity c ∧ HasFactFor f hrefs i c := by
    clear h2
    generalize f.insts = insts at h1
    induction h1 with
    | nil => simp at hc
    | cons p _ ih =>
      rw [List.flatten_cons, List.mem_append] at hc
      rcases hc with hc | hc
      · exact ⟨_, List.mem_cons_self, (p.2 c).1 hc⟩
      · obtain ⟨i, h1, h2⟩ := ih hc
        exact ⟨i, List.mem_cons_of_mem _ h1, h2⟩
  obtain ⟨i, hi, h4, h5⟩ := this
  exact ⟨i, hi, c, h4, h5, hco⟩

/-- **C94 (partial).** A fact of a concrete row in a context of the entity is shown, in every row with its concept, in the
same column, which has the period and the members of its context, with as many numbers as it has footnotes, unless another fact has the same concept and context identifier. Missing: facts that are reported
twice, say in two units (`C94_fails`). -/
theorem C94_shown_partial {Φ : Type} (f : Folder) (entity : String) (s : FactSource Φ) (hrefs : List String)
    (periods : List LanguagePack) (members : List (List MemberCell)) (voids : List VoidCell) (q : Quadrant Φ)
    (hs : s.find = Query.findFact f.insts) (ha : Aligned f entity s hrefs periods members voids q)
    (i : HInstance) (hi : i ∈ f.insts) (x : Fact) (hx : x ∈ i.facts) (hd : Unrivalled f x) (hrow : ConcreteRow f hrefs x.href)
    (c : Context) (hc : ContextOf i x.contextRef c) (he : OfEntity entity c) :
    ∃ (j : Nat) (col : RelevantContext), periods[j]? = some col.period ∧ ColumnOf f c col ∧ MemberColumn members voids j col ∧
      (∀ n, hrefs[n]? = some x.href → CellAt q.facts n j (s.render (some x))) ∧
      ∀ n, hrefs[n]? = some x.href → GoodOrders s → ∃ ks, CellAt q.numbers n j ks ∧ Keyed (s.notes (some x)) ks q.footnotes ∧
        NotesListed s.notes (s.notes (some x)) q.footnotes := by
  obtain ⟨cols, h1, h2, _, hmem, hshape, h3, hnotes⟩ := ha
  obtain ⟨j, col, hj, hco⟩ := column_exists h1 hi he ⟨x, hx, hrow, hc⟩
  have hid : col.contextRef = x.contextRef := by
    rw [hco.1]
    exact (firstWith_mem hc).2
  have : s.find x.href col.contextRef = some x := by
    rw [hs, hid]
    cases hf : Query.findFact f.insts x.href x.contextRef with
    | none =>
      exfalso
      unfold Query.findFact at hf
      rw [List.find?_eq_none] at hf
      exact hf x (List.mem_flatMap.2 ⟨i, hi, hx⟩) (by simp)
    | some y =>
      rw [C40_found] at hf
      obtain ⟨hm, hy1, hy2⟩ := firstWith_mem hf
      obtain ⟨i', hi', hy⟩ := List.mem_flatMap.1 hm
      rw [hd i' hi' y hy hy1 hy2]
  refine ⟨j, col, by rw [h2, List.getElem?_map, hj]; rfl, hco, ?_, fun n hn => ?_, fun n hn ho => ?_⟩
  · intro i x
    rw [hmem]
    exact ⟨fun ⟨v, c, h1, h2, h⟩ => by rw [hj] at h2; cases h2; exact ⟨v, h1, h⟩, fun ⟨v, h1, h⟩ => ⟨v, col, h1, hj, h⟩⟩
  · rw [h3]
    exact ⟨x.href, col, hn, hj, by rw [this]⟩
  · have hq := hnotes ho
    obtain ⟨_, hs2⟩ := hshape (by rintro rfl; simp at hn) (by rintro rfl; simp at hj)
    obtain ⟨ks, hks⟩ : ∃ ks, CellAt q.numbers n j ks := by
      have hlt : n < q.numbers.length := by rw [hs2.1]; exact (List.getElem?_eq_some_iff.1 hn).1
      have hlt' : j < q.numbers[n].length := by rw [hs2.2 _ (List.getElem_mem hlt)]; exact (List.getElem?_eq_some_iff.1 hj).1
      exact ⟨_, _, List.getElem?_eq_getElem hlt, List.getElem?_eq_getElem hlt'⟩
    have hk := hq.keyed n j ks _ _ hks hn hj
    rw [this] at hk
    refine ⟨ks, hks, hk, fun hsame m hm => hq.listed ?_ n j m ⟨_, _, hn, hj, by rw [this]; exact hm⟩, fun t ht => ?_, ?_⟩
    · rintro _ _ _ _ _ _ ⟨_, _, _, _, a⟩ ⟨_, _, _, _, b⟩ e
      exact hsame _ _ _ _ a b e
    · obtain ⟨_, _, m, ⟨_, _, _, _, hm⟩, e⟩ := hq.only t ht
      exact ⟨_, m, hm, e⟩
    · obtain ⟨ids, h1, h2, h3⟩ := hq.total
      refine ⟨ids, h1, fun id hid => ?_, h3⟩
      obtain ⟨_, _, m, ⟨_, _, _, _, hm⟩, e⟩ := (h2 id).1 hid
      exact ⟨_, m, hm, e⟩

/-- Two instances report the same concept under the same context identifier, for different dates. -/
def twoFolder : Folder where
  insts := [⟨"i", [ctxExample "a" "s" "1" "2019-12-31" []], [], [], [⟨"x#Cash", "1", "a", "", 0, false, "one"⟩]⟩,
    ⟨"j", [ctxExample "a" "s" "1" "2020-12-31" []], [], [], [⟨"x#Cash", "2", "a", "", 0, false, "two"⟩]⟩]
  concept := fun h => if h = "x#Cash" then some (conceptExample "Cash" false) else none
  label := fun h => [(Default, [(PureLabel, h)])]
  tree := fun _ _ => .mk "" .zero [.mk "cash" F64.zero []]

/-- Cells are the facts themselves. -/
def plainSource (insts : List HInstance) (_ : List Lang) : FactSource (Option Fact) :=
  ⟨Query.findFact insts, fun _ => [], id, fun _ _ m => m, fun m => m⟩

def cashLb : Lb PArc := ⟨[⟨"r", ""⟩], [⟨"r", [⟨"x#Cash", "cash"⟩], [⟨F64.zero, PresentationArcrole, "root", "cash", ""⟩]⟩]⟩

def twoGrid : Run (PGrid (Option Fact) × List LabelRole × List Lang) :=
  pGrid twoFolder ⟨id, id, plainSource twoFolder.insts⟩ "s/1" "r" [cashLb]

def periodsAndFacts {Φ : Type} (r : Run (PGrid Φ × List LabelRole × List Lang)) : List String × List (List Φ) :=
  match r with
  | .done (g, _, _) => (g.periods.map pureText, g.quadrant.facts)
  | _ => ([], [])

/-- An instance reports the same concept for the same context in two currencies. -/
def currencyFolder : Folder :=
  { twoFolder with insts := [⟨"i", [ctxExample "a" "s" "1" "2019-12-31" []], [], [],
    [⟨"x#Cash", "1", "a", "usd", 0, false, "100"⟩, ⟨"x#Cash", "2", "a", "eur", 0, false, "90"⟩]⟩] }

def currencyGrid : Run (PGrid (Option Fact) × List LabelRole × List Lang) :=
  pGrid currencyFolder ⟨id, id, plainSource currencyFolder.insts⟩ "s/1" "r" [cashLb]

/-- **C94 (fails).** The amount in the other currency is shown nowhere. -/
theorem C94_fails : ∃ i, currencyFolder.insts = [i] ∧ ∃ x ∈ i.facts, ∃ c, ConcreteRow currencyFolder ["x#Cash"] x.href ∧
    ContextOf i x.contextRef c ∧ OfEntity "s/1" c ∧ (periodsAndFacts currencyGrid).1.length = 1 ∧
    ∀ n j, ¬ CellAt (periodsAndFacts currencyGrid).2 n j (some x) := by
  refine ⟨_, rfl, _, List.mem_cons_of_mem _ (List.mem_singleton.2 rfl), ctxExample "a" "s" "1" "2019-12-31" [],
    ⟨by decide, _, rfl, rfl⟩, ⟨[], [], rfl, rfl, by simp⟩, by unfold OfEntity; decide, by decide +kernel, ?_⟩
  intro n j ⟨row, h1, h2⟩
  have e : (periodsAndFacts currencyGrid).2 = [[some ⟨"x#Cash", "1", "a", "usd", 0, false, "100"⟩]] := by
    decide +kernel
  rw [e] at h1
  have h1 := List.mem_singleton.1 (List.mem_of_getElem? h1)
  subst h1
  have h2 := List.mem_of_getElem? h2
  revert h2
  decide

/-- **C95.** When no fact refers to a context identifier of another instance, every cell that shows a fact shows a
fact of its row's concept and of its column's context. In discovered folders, which have one instance, this is
`C95_discovered`. -/
theorem C95_right {Φ : Type} (f : Folder) (entity : String) (s : FactSource Φ) (hrefs : List String)
    (periods : List LanguagePack) (members : List (List MemberCell)) (voids : List VoidCell) (q : Quadrant Φ)
    (hs : s.find = Query.findFact f.insts) (ha : Aligned f entity s hrefs periods members voids q) (ho : OwnContexts f)
    (n j : Nat) (y : Φ) (hy : CellAt q.facts n j y) :
    y = s.render none ∨ ∃ i ∈ f.insts, ∃ x ∈ i.facts, ∃ c col, y = s.render (some x) ∧ hrefs[n]? = some x.href ∧
      periods[j]? = some col.period ∧ ColumnOf f c col ∧ ContextOf i x.contextRef c ∧ OfEntity entity c := by
  obtain ⟨cols, h1, h2, _, _, _, h3, _⟩ := ha
  obtain ⟨h, col, hh, hcol, rfl⟩ := (h3 n j y).1 hy
  cases hf : s.find h col.contextRef with
  | none => exact .inl rfl
  | some x =>
    right
    rw [hs, C40_found] at hf
    obtain ⟨hm, hx1, hx2⟩ := firstWith_mem hf
    obtain ⟨i', hi', hx⟩ := List.mem_flatMap.1 hm
    obtain ⟨i, hi, c, h4, ⟨z, hz, _, hzc⟩, h6⟩ := column_context h1 (List.mem_of_getElem? hcol)
    obtain ⟨hc1, hc2⟩ := firstWith_mem hzc
    have e : i = i' := ho i hi c hc1 i' hi' x hx (by rw [hx2, h6.1])
    subst e
    refine ⟨i, hi, x, hx, c, col, rfl, by rw [hx1]; exact hh, by rw [h2, List.getElem?_map, hcol]; rfl, h6, ?_, h4⟩
    rw [show x.contextRef = z.contextRef by rw [hx2, h6.1, hc2]]
    exact hzc

/-- With two instances the amount for 2019 is shown under 2020, too. -/
theorem C95_two_instances : periodsAndFacts twoGrid = (["2019-12-31", "2020-12-31"],
    [[some ⟨"x#Cash", "1", "a", "", 0, false, "one"⟩, some ⟨"x#Cash", "1", "a", "", 0, false, "one"⟩]]) := by decide +kernel

theorem renderGrids_done {Φ : Type} {f : Folder} {env : GridEnv Φ} {spanish : Date → Option String} {sched : Schedule} {b : Books}
    {entity role : String} {g : Grids Φ} (h : renderGrids f env spanish sched b entity role = .done g) :
    ∃ p d c, pGrid f env entity role b.presentation = .done p ∧ dGrid f env entity role b = .done d ∧
      cGrid f env entity role b = .done c ∧ g = formatPeriod spanish ⟨p.1, d.1, c.1,
      langsAfter (sched.lists p.2.2 d.2.2 c.2.2) sched.grow 8 sched.langs,
      langsAfter (sched.lists p.2.1 d.2.1 c.2.1) sched.grow 20 sched.roles⟩ := by
  unfold renderGrids at h
  cases hp : pGrid f env entity role b.presentation with
  | panic => rw [hp] at h; simp [Run.andThen] at h
  | loop => rw [hp] at h; simp [Run.andThen] at h
  | done p =>
    cases hd : dGrid f env entity role b with
    | panic => rw [hp, hd] at h; simp [Run.andThen] at h
    | loop => rw [hp, hd] at h; simp [Run.andThen] at h
    | done d =>
      cases hc : cGrid f env entity role b with
      | panic => rw [hp, hd, hc] at h; simp [Run.andThen] at h
      | loop => rw [hp, hd, hc] at h; simp [Run.andThen] at h
      | done c =>
        rw [hp, hd, hc] at h
        simp only [Run.andThen, Run.done.injEq] at h
        exact ⟨p, d, c, rfl, rfl, rfl, h.symm⟩

theorem headed_of {f : Folder} {entity : String} {hrefs : List String} {cols : List RelevantContext}
    (h : ColumnsFor f entity hrefs cols) (spanish : Date → Option String) (langs : List Lang) :
    Headed spanish langs cols (formatRelevantPeriod spanish (cols.map RelevantContext.period) langs) := by
  unfold Headed formatRelevantPeriod
  rw [List.map_map]
  have : ∀ col ∈ cols, ∃ raw, col.period = [("Unlabelled", raw)] := by
    intro col hc
    obtain ⟨_, _, _, _, _, _, ⟨t, _, ht⟩, _⟩ := column_context h hc
    exact ⟨t, ht⟩
  clear h
  induction cols with
  | nil => exact .nil
  | cons col cols ih =>
    refine .cons ?_ (ih fun c hc => this c (List.mem_cons_of_mem _ hc))
    obtain ⟨raw, hraw⟩ := this col List.mem_cons_self
    obtain ⟨_, h2, _⟩ := C54_headers spanish langs [col.period]
    obtain ⟨out, ho, h3, _⟩ := h2 0 (by simp)
    simp only [formatRelevantPeriod, List.map_cons, List.map_nil, List.getElem?_cons_zero, Option.some.injEq,
      List.getElem_cons_zero] at ho h3
    obtain ⟨h4, h5, h6⟩ := h3 raw (by rw [hraw]; rfl)
    refine ⟨raw, hraw, ?_, ?_, ?_⟩
    · simp only [Function.comp]; rw [ho]; exact h4
    · intro lang hl; simp only [Function.comp]; rw [ho]; exact h5 lang hl
    · intro lang hne hl
      simp only [Function.comp]
      rw [ho, h6 lang hl, hraw]
      simp [mapGet, Ne.symm hne]

/-- **C97.** In a renderable every column of every grid has a header: the raw period under `Unlabelled`, the text of that
period for every language the renderable offers, and nothing else. -/
theorem C97_headers {Φ : Type} (f : Folder) (env : GridEnv Φ) (spanish : Date → Option String) (sched : Schedule) (b : Books)
    (entity role : String) (g : Grids Φ) (h : renderGrids f env spanish sched b entity role = .done g) :
    (∃ cols, ColumnsFor f entity (g.p.rows.map IndentedLabel.href) cols ∧ Headed spanish g.langs cols g.p.periods) ∧
    (∀ r ∈ g.d.domains, ∃ cols, ColumnsFor f entity (r.href :: r.primaryItems.map PrimaryItem.href) cols ∧
      Headed spanish g.langs cols r.periods) ∧
    (∀ i ∈ g.c, ∃ cols, ColumnsFor f entity (i.contributing.map Contributing.href ++ [i.href]) cols ∧
      Headed spanish g.langs cols i.periods) := by
  obtain ⟨⟨p, pr, pl⟩, ⟨d, dr, dl⟩, ⟨c, cr, cl⟩, hp, hd, hc, rfl⟩ := renderGrids_done h
  simp only [formatPeriod]
  refine ⟨?_, ?_, ?_⟩
  · obtain ⟨_, ⟨cols, h1, h2, _⟩, _⟩ := C92_presentation f env entity role _ p pr pl hp
    rw [h2]
    exact ⟨cols, h1, headed_of h1 _ _⟩
  · intro r hr
    obtain ⟨r', hr', rfl⟩ := List.mem_map.1 hr
    obtain ⟨_, ⟨cols, h1, h2, _⟩, _⟩ := C93_definition f env entity role b d dr dl hd r' hr'
    simp only
    rw [h2]
    exact ⟨cols, h1, headed_of h1 _ _⟩
  · intro i hi
    obtain ⟨i', hi', rfl⟩ := List.mem_map.1 hi
    obtain ⟨_, ⟨cols, h1, h2, _⟩, _⟩ := C93_calculation f env entity role b c cr cl hc i' hi'
    simp only
    rw [h2]
    exact ⟨cols, h1, headed_of h1 _ _⟩

theorem cell_unlabelled (fe : FactEnv) (x : Option Fact) (langs : List Lang) (h : "Unlabelled" ∈ langs) :
    CellHas (renderCell fe x langs) "Unlabelled" := by
  cases x with
  | none => exact ⟨_, _, rfl, List.mem_singleton.2 rfl⟩
  | some x =>
    cases hn : x.isNil with
    | true => exact ⟨_, _, (C56_missing_nil fe langs x).2 hn, List.mem_singleton.2 rfl⟩
    | false =>
      obtain ⟨m, h1, _, h2⟩ := C56_entries fe langs x hn
      obtain ⟨e, he, h3⟩ := List.mem_map.1 ((h2 "Unlabelled").2 ⟨h, .inr (.inr rfl)⟩)
      exact ⟨m, e.2, h1, by rw [← h3]; exact he⟩

theorem label_unlabelled {f : Folder} (hl : ∀ href, ∃ labels, f.label href = getLabel labels href) {langs : List Lang}
    (ho : Offers f langs) : "Unlabelled" ∈ langs := by
  refine ho (fun h => ?_) "Default" "Unlabelled" (fun h => ?_)
  · obtain ⟨labels, e⟩ := hl h; rw [e]; exact getLabel_wf _ _
  · obtain ⟨labels, e⟩ := hl h
    rw [e, hasText_iff (getLabel_wf _ _)]
    obtain ⟨l, h1, h2⟩ := (C49_labels labels h).2.2
    exact ⟨_, by unfold getText; rw [h1]; exact h2⟩

theorem aligned_unlabelled {f : Folder} {entity : String} {fe : FactEnv} {notes : Option Fact → List Footnote}
    {co : Nat → Nat → GoMap String Footnote → GoMap String Footnote} {lo : GoMap String Footnote → GoMap String Footnote}
    {hrefs : List String} {periods : List LanguagePack} {members : List (List MemberCell)} {voids : List VoidCell}
    {q : Quadrant (Option MultilingualFact)} {langs : List Lang} (h : "Unlabelled" ∈ langs)
    (ha : Aligned f entity (folderSource f.insts fe notes co lo langs) hrefs periods members voids q) :
    ∀ n j x, CellAt q.facts n j x → CellHas x "Unlabelled" := by
  obtain ⟨cols, _, _, _, _, _, h3, _⟩ := ha
  intro n j x hx
  obtain ⟨_, _, _, _, rfl⟩ := (h3 n j x).1 hx
  exact cell_unlabelled fe _ langs h

/-- **C98.** Every cell of the facts of every grid has an `Unlabelled` text. -/
theorem C98_unlabelled (f : Folder) (hl : ∀ href, ∃ labels, f.label href = getLabel labels href) (fe : FactEnv)
    (notes : Option Fact → List Footnote) (co : Nat → Nat → GoMap String Footnote → GoMap String Footnote)
    (lo : GoMap String Footnote → GoMap String Footnote) (env : GridEnv (Option MultilingualFact))
    (hs : env.source = folderSource f.insts fe notes co lo) (spanish : Date → Option String) (sched : Schedule) (b : Books)
    (entity role : String) (g : Grids (Option MultilingualFact))
    (h : renderGrids f env spanish sched b entity role = .done g) :
    (∀ n j x, CellAt g.p.quadrant.facts n j x → CellHas x "Unlabelled") ∧
    (∀ r ∈ g.d.domains, ∀ n j x, CellAt r.quadrant.facts n j x → CellHas x "Unlabelled") ∧
    (∀ i ∈ g.c, ∀ n j x, CellAt i.quadrant.facts n j x → CellHas x "Unlabelled") := by
  obtain ⟨⟨p, pr, pl⟩, ⟨d, dr, dl⟩, ⟨c, cr, cl⟩, hp, hd, hc, rfl⟩ := renderGrids_done h
  simp only [formatPeriod]
  refine ⟨?_, ?_, ?_⟩
  · obtain ⟨_, ha, ho⟩ := C92_presentation f env entity role _ p pr pl hp
    intro n j x hx
    have hne : p.rows ≠ [] := by
      intro e
      obtain ⟨cols, _, _, _, _, _, h3, _⟩ := ha
      obtain ⟨_, _, h4, _⟩ := (h3 n j x).1 hx
      rw [e] at h4
      simp at h4
    rw [hs] at ha
    exact aligned_unlabelled (label_unlabelled hl (ho hne)) ha n j x hx
  · intro r hr
    obtain ⟨r', hr', rfl⟩ := List.mem_map.1 hr
    obtain ⟨langs, ha, ho⟩ := C93_definition f env entity role b d dr dl hd r' hr'
    rw [hs] at ha
    exact aligned_unlabelled (label_unlabelled hl ho) ha
  · intro i hi
    obtain ⟨i', hi', rfl⟩ := List.mem_map.1 hi
    obtain ⟨langs, ha, ho⟩ := C93_calculation f env entity role b c cr cl hc i' hi'
    rw [hs] at ha
    exact aligned_unlabelled (label_unlabelled hl ho) ha

/-- **C96 (partial).** The facts of the presentation grid that are not nil are rendered in exactly those languages that the
presentation grid itself offers (English, Spanish and `Unlabelled` only). Missing: languages offered by the renderable
because another grid offers them (`C96_fails`). -/
theorem C96_languages_partial (f : Folder) (fe : FactEnv)
    (notes : Option Fact → List Footnote) (co : Nat → Nat → GoMap String Footnote → GoMap String Footnote)
    (lo : GoMap String Footnote → GoMap String Footnote) (env : GridEnv (Option MultilingualFact))
    (hs : env.source = folderSource f.insts fe notes co lo) (spanish : Date → Option String) (sched : Schedule) (b : Books)
    (entity role : String) (g : Grids (Option MultilingualFact))
    (h : renderGrids f env spanish sched b entity role = .done g) :
    ∃ own, (∀ order : List Nat, order.Perm [0, 1, 2] → sched.langs = order.flatMap (fun g => [g, g, g]) → ∀ l ∈ own, l ∈ g.langs) ∧
      ∀ n j x, CellAt g.p.quadrant.facts n j x → ∃ fact, x = renderCell fe fact own ∧
        ((∃ y, fact = some y ∧ y.isNil = false) →
          ∀ lang, CellHas x lang ↔ lang ∈ own ∧ (lang = "en - english" ∨ lang = "es - español" ∨ lang = "Unlabelled")) := by
  obtain ⟨⟨p, pr, pl⟩, ⟨d, dr, dl⟩, ⟨c, cr, cl⟩, hp, hd, hc, rfl⟩ := renderGrids_done h
  simp only [formatPeriod]
  refine ⟨pl, ?_, ?_⟩
  · intro order ho e l hl
    rw [e]
    exact ((C52_languages_partial (sched.lists pl dl cl) sched.grow 8).1 order ho l).2.2 (.inl ((sched.fair 0 _).mem_iff.2 hl))
  · obtain ⟨_, ⟨cols, _, _, _, _, _, h3, _⟩, _⟩ := C92_presentation f env entity role _ p pr pl hp
    intro n j x hx
    obtain ⟨hr, col, _, _, rfl⟩ := (h3 n j x).1 hx
    rw [hs]
    refine ⟨_, rfl, ?_⟩
    rintro ⟨y, hy, hn⟩ lang
    simp only [folderSource] at hy ⊢
    rw [hy]
    obtain ⟨m, h1, _, h2⟩ := C56_entries fe pl y hn
    rw [h1, ← h2]
    constructor
    · rintro ⟨m', e, hm, he⟩
      cases hm
      exact List.mem_map.2 ⟨_, he, rfl⟩
    · intro hm
      obtain ⟨e, he, rfl⟩ := List.mem_map.1 hm
      exact ⟨m, e.2, rfl, he⟩

/-- A folder with facts of `x#T1` and `x#A` in two contexts, one of them with an explicit member; `x#T1` has an English
label, `x#A` has none. The presentation has the rows `x#T1`, `x#A`, the definition has the root `x#T1` with `x#A` below, the
calculation has `x#A` as a part of `x#T1`. -/
def fullFolder : Folder where
  insts := [⟨"i", [ctxExample "c" "s" "1" "2020-12-31" [], ctxExample "d" "s" "1" "2020-12-31" [⟨"x#Dim", "", "x#Mem", ""⟩]], [], [],
    [⟨"x#T1", "1", "c", "", 0, false, "one"⟩, ⟨"x#A", "2", "c", "", 0, false, "two"⟩, ⟨"x#A", "3", "d", "", 0, true, ""⟩]⟩]
  concept := fun h => if h = "x#T1" ∨ h = "x#A" then some (conceptExample h false) else none
  label := getLabel [[⟨"r", [⟨"x#T1", "loc"⟩], [⟨"lab", LabelRoleURI, "en-US", "Total"⟩], [⟨.zero, LabelArcrole, "loc", "lab"⟩]⟩]]
  tree := fun _ role =>
    if role = PresentationArcrole then .mk "" .zero [.mk "t1" .zero [], .mk "a" .zero []]
    else if role = DomainMemberArcrole then .mk "" .zero [.mk "t1" .zero [.mk "a" .zero []]]
    else .mk "" .zero []

def fullFacts : FactEnv := ⟨fullFolder.concept, fun _ => (none, none), fun _ => [], id, fun _ => none, fun _ _ _ => none⟩

def fullEnv : GridEnv (Option MultilingualFact) :=
  ⟨id, id, folderSource fullFolder.insts fullFacts (fun _ => []) (fun _ _ m => m) (fun m => m)⟩

def fullLocs : List Loc := [⟨"x#T1", "t1"⟩, ⟨"x#A", "a"⟩]

def fullBooks : Books where
  presentation := [⟨[⟨"r", ""⟩], [⟨"r", fullLocs, []⟩]⟩]
  definition := [⟨[⟨"r", ""⟩], [⟨"r", fullLocs, []⟩]⟩]
  definitionAgain := [⟨[⟨"r", ""⟩], [⟨"r", fullLocs, []⟩]⟩]
  dimensionOrder := fun _ => [⟨[⟨"r", ""⟩], [⟨"r", fullLocs, []⟩]⟩]
  calculation := [⟨[⟨"r", ""⟩], [⟨"r", fullLocs, [⟨F64.zero, CalculationArcrole, "t1", "a", F64.ofInt 1⟩]⟩]⟩]
  fmt := fun _ => ""
  drsOrder := id

def fullGrids : Run (Grids (Option MultilingualFact)) :=
  renderGrids fullFolder fullEnv (fun _ => none) { langs := [0, 0, 0, 1, 1, 1, 2, 2, 2], roles := [0, 0, 0, 1, 1, 1, 2, 2, 2], grow := fun _ => 0 } fullBooks "s/1" "r"

/-- The texts of cells by language. -/
def cellTexts (facts : List (List (Option MultilingualFact))) : List (List (List (String × String))) :=
  facts.map fun row => row.map fun x => (x.getD []).map fun e => (e.1, e.2.core)

/-- Something of the grids above. -/
def fullGet {α : Type} (get : Grids (Option MultilingualFact) → α) : Option α :=
  match fullGrids with
  | .done g => some (get g)
  | _ => none

/-- Non-vacuity of `C92_presentation`, `C93_*`, `C96_languages_partial`, `C97_headers`, `C98_unlabelled`. -/
example : fullGet (fun g => g.langs) = some ["Unlabelled", "Truncated", "en - english"] ∧
    fullGet (fun g => g.p.periods) = some
      [[("Unlabelled", "2020-12-31"), ("Truncated", "2020-12-31"), ("en - english", "as of December 31, 2020")],
      [("Unlabelled", "2020-12-31"), ("Truncated", "2020-12-31"), ("en - english", "as of December 31, 2020")]] ∧
    fullGet (fun g => g.p.voids.map fun v => v.dimension.href) = some ["x#Dim"] ∧
    fullGet (fun g => g.p.members.map fun row => row.map fun x => x.explicit.isSome) = some [[false, true]] := by decide +kernel

example : fullGet (fun g => g.d.domains.map fun r => r.href) = some ["x#T1"] ∧
    fullGet (fun g => (g.d.domains.map fun r => cellTexts r.quadrant.facts).flatten.flatten) = some
      [[("Unlabelled", "one"), ("en - english", "one")], [("Unlabelled", "")],
        [("Unlabelled", "two"), ("en - english", "two")], [("Unlabelled", "nil")]] := by decide +kernel

example : fullGet (fun g => g.c.map fun r => r.href) = some ["x#T1"] ∧
    fullGet (fun g => (g.c.map fun r => cellTexts r.quadrant.facts).flatten.flatten) = some
      [[("Unlabelled", "two")], [("Unlabelled", "nil")], [("Unlabelled", "one")], [("Unlabelled", "")]] := by decide +kernel

/-- **C96 (fails).** English is offered because the definition grid offers it; the facts of the presentation grid have no
English text. -/
theorem C96_fails : fullGet (fun g => g.langs) = some ["Unlabelled", "Truncated", "en - english"] ∧
    fullGet (fun g => cellTexts g.p.quadrant.facts) =
      some [[[("Unlabelled", "one")], [("Unlabelled", "")]], [[("Unlabelled", "two")], [("Unlabelled", "nil")]]] := by decide +kernel

/-- Non-vacuity of `C94_shown_partial` and `C95_right`. -/
example : (∀ i ∈ fullFolder.insts, ∀ x ∈ i.facts, Unrivalled fullFolder x) ∧ OwnContexts fullFolder := by
  constructor
  · intro i hi x hx i' hi' y hy h1 h2
    have hi := List.mem_singleton.1 hi
    have hi' := List.mem_singleton.1 hi'
    subst hi hi'
    simp only [List.mem_cons, List.not_mem_nil, or_false] at hx hy
    rcases hx with rfl | rfl | rfl <;> rcases hy with rfl | rfl | rfl <;> simp_all
  · intro i hi c hc i' hi' y hy _
    rw [List.mem_singleton.1 hi, List.mem_singleton.1 hi']

end Telefacts
