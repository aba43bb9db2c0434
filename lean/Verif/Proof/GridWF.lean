import Verif.Proof.GridJson
import Verif.Props.Grid
import Verif.Props.Express
/-! # The maps of a grid have no key twice -/
namespace Telefacts.Json
open Telefacts.Render Telefacts.Catalog Telefacts.Instance Telefacts.Linkbase

theorem labelWF_of {p : LabelPack} (h : PackWF p) : LabelWF p := ⟨h.1, fun _ _ hq => h.2 _ hq⟩

/-! ## Headers of the member grid -/

section
variable (P : Labelled → Prop)

def MemberGood (m : RelevantMember) : Prop :=
  P m.dimension ∧ (∀ t, m.typedDomain = some t → P t) ∧ ∀ e, m.explicit = some e → P e

def RowGood (v : VoidCell) : Prop := P v.dimension ∧ ∀ t, v.typedDomain = some t → P t

def StateGood (st : IndentState) : Prop := (∀ r ∈ st.rows, RowGood P r) ∧ ∀ d, st.dimension = some d → P d

def MapsGood (s : DimMaps) : Prop :=
  (∀ h d, mapGet s.dimensions h = some d → P d) ∧ ∀ h t, mapGet s.typedDomains h = some t → P t

theorem addDimension_good {s : DimMaps} {m : RelevantMember} (hs : MapsGood P s) (hm : MemberGood P m) : MapsGood P (addDimension s m) := by
  have hd : ∀ h d, mapGet (mapSet s.dimensions m.dimension.href m.dimension) h = some d → P d := by
    intro h d hd
    rw [mapGet_mapSet] at hd
    split_ifs at hd
    · cases hd; exact hm.1
    · exact hs.1 h d hd
  have ht : ∀ h t, mapGet (match m.typedDomain with | some t => mapSet s.typedDomains t.href t | none => s.typedDomains) h = some t → P t := by
    intro h t ht
    split at ht
    · rename_i x hx
      rw [mapGet_mapSet] at ht
      split_ifs at ht
      · cases ht; exact hm.2.1 _ hx
      · exact hs.2 h t ht
    · exact hs.2 h t ht
  unfold addDimension
  by_cases h1 : m.dimension.href = ""
  · rw [if_pos h1]; exact hs
  · rw [if_neg h1]
    cases he : m.explicit with
    | none => exact ⟨hd, ht⟩
    | some e =>
      simp only
      split_ifs
      · exact ⟨hd, ht⟩
      · exact ⟨hd, ht⟩

theorem dimMaps_good {ctxs : List RelevantContext} (h : ∀ c ∈ ctxs, ∀ m ∈ c.members, MemberGood P m) : MapsGood P (dimMaps ctxs) := by
  unfold dimMaps
  have h' : ∀ m ∈ ctxs.flatMap RelevantContext.members, MemberGood P m := by
    intro m hm
    obtain ⟨c, hc, hm⟩ := List.mem_flatMap.1 hm
    exact h c hc m hm
  generalize ctxs.flatMap RelevantContext.members = ms at h'
  have key : ∀ s, MapsGood P s → MapsGood P (ms.foldl addDimension s) := by
    induction ms with
    | nil => intro s hs; exact hs
    | cons m ms ih =>
      intro s hs
      exact ih (fun x hx => h' x (by simp [hx])) _ (addDimension_good P hs (h' m (by simp)))
  exact key _ ⟨by simp [mapGet], by simp [mapGet]⟩

theorem enterNode_good {s : DimMaps} (hs : MapsGood P s) {loc : String} {st st' : IndentState} (hst : StateGood P st)
    (h : enterNode s loc st = some st') : StateGood P st' := by
  unfold enterNode at h
  split_ifs at h
  · split at h
    · simp at h
    · rename_i d hd
      cases h
      exact ⟨hst.1, fun x hx => by cases hx; exact hs.1 _ _ hd⟩
  · cases h; exact hst

theorem appendRow_good {paren : Bool} {level : Nat} {td : Option Labelled} (htd : ∀ t, td = some t → P t) {st st' : IndentState}
    (hst : StateGood P st) (h : appendRow paren level td st = .done st') : StateGood P st' := by
  unfold appendRow at h
  split at h
  · simp at h
  · rename_i d hd
    cases h
    refine ⟨?_, fun x hx => hst.2 x hx⟩
    intro r hr
    rcases List.mem_append.1 hr with hr | hr
    · exact hst.1 r hr
    · rw [List.mem_singleton] at hr; subst hr
      exact ⟨hst.2 d hd, htd⟩

theorem nodeRow_good {s : DimMaps} (hs : MapsGood P s) {paren : Bool} {level : Nat} {loc : String} {st st' : IndentState}
    (hst : StateGood P st) (h : nodeRow s paren level loc st = .done (some st')) : StateGood P st' := by
  unfold nodeRow at h
  split_ifs at h
  · cases ha : appendRow paren level none st with
    | panic => rw [ha] at h; simp [Run.andThen] at h
    | loop => rw [ha] at h; simp [Run.andThen] at h
    | done x =>
      rw [ha] at h
      simp only [Run.andThen, Run.done.injEq, Option.some.injEq] at h
      subst h
      exact appendRow_good P (by simp) hst ha
  · split at h
    · simp at h
    · rename_i t ht
      cases ha : appendRow paren level (some t) st with
      | panic => rw [ha] at h; simp [Run.andThen] at h
      | loop => rw [ha] at h; simp [Run.andThen] at h
      | done x =>
        rw [ha] at h
        simp only [Run.andThen, Run.done.injEq, Option.some.injEq] at h
        subst h
        exact appendRow_good P (fun y hy => by cases hy; exact hs.2 _ _ ht) hst ha
  · cases h; exact hst

mutual
theorem indentNode_good {s : DimMaps} (hs : MapsGood P s) (paren : Bool) : ∀ (n : Node) (level : Nat) (st st' : IndentState),
    StateGood P st → indentNode s paren level st n = .done st' → StateGood P st'
  | .mk loc o cs, level, st, st', hst, h => by
    rw [indentNode] at h
    cases he : enterNode s loc st with
    | none => rw [he] at h; cases h; exact ⟨by simp, hst.2⟩
    | some st1 =>
      rw [he] at h
      simp only at h
      have h1 := enterNode_good P hs hst he
      cases hn : nodeRow s paren level loc st1 with
      | panic => rw [hn] at h; simp at h
      | loop => rw [hn] at h; simp at h
      | done o =>
        rw [hn] at h
        cases o with
        | none => cases h; exact ⟨by simp, h1.2⟩
        | some st2 => exact indentNodes_good hs paren cs _ st2 st' (nodeRow_good P hs h1 hn) h
theorem indentNodes_good {s : DimMaps} (hs : MapsGood P s) (paren : Bool) : ∀ (ns : List Node) (level : Nat) (st st' : IndentState),
    StateGood P st → indentNodes s paren level st ns = .done st' → StateGood P st'
  | [], level, st, st', hst, h => by rw [indentNodes] at h; cases h; exact hst
  | n :: ns, level, st, st', hst, h => by
    rw [indentNodes] at h
    cases hn : indentNode s paren level st n with
    | panic => rw [hn] at h; simp at h
    | loop => rw [hn] at h; simp at h
    | done st1 =>
      rw [hn] at h
      exact indentNodes_good hs paren ns level st1 st' (indentNode_good hs paren n level st st1 hst hn) h
end

theorem memberGrid_good {ord : GoMap String RelevantMember → GoMap String RelevantMember} (hord : ∀ m, (ord m).Perm m)
    {ctxs : List RelevantContext} {seg scen : List Node} {grid : List (List MemberCell)} {rows : List VoidCell}
    (hc : ∀ c ∈ ctxs, ∀ m ∈ c.members, MemberGood P m) (h : getMemberGrid ord ctxs seg scen = .done (grid, rows)) :
    (∀ r ∈ rows, RowGood P r) ∧ ∀ row ∈ grid, ∀ x ∈ row, ∀ e, x.explicit = some e → P e := by
  unfold getMemberGrid at h
  split at h
  · cases h; simp
  · cases hv : getVoidQuadrant ord ctxs (sortTrees seg) (sortTrees scen) with
    | panic => rw [hv] at h; simp [Run.andThen] at h
    | loop => rw [hv] at h; simp [Run.andThen] at h
    | done vs =>
      rw [hv] at h
      simp only [Run.andThen] at h
      split at h
      · cases h; simp
      · cases h
        constructor
        · unfold getVoidQuadrant at hv
          simp only at hv
          have hs := dimMaps_good P hc
          have h0 : StateGood P ⟨explicitRows ord (dimMaps ctxs), none⟩ := by
            refine ⟨?_, by simp⟩
            intro r hr
            unfold explicitRows at hr
            obtain ⟨x, _, hr⟩ := List.mem_flatMap.1 hr
            have key : ∀ x ∈ ctxs.flatMap RelevantContext.members, RowGood P ⟨false, 0, x.dimension, none⟩ := by
              intro x hx
              obtain ⟨c, hc', hx⟩ := List.mem_flatMap.1 hx
              exact ⟨(hc c hc' x hx).1, by simp⟩
            rcases List.mem_append.1 hr with hr | hr
            · obtain ⟨y, hy, _, rfl⟩ := explicitRow_row true ord hord x hr
              exact key y hy
            · obtain ⟨y, hy, _, rfl⟩ := explicitRow_row (ctxs := ctxs) false ord hord x hr
              exact key y hy
          cases h1 : indentNode (dimMaps ctxs) false 0 ⟨explicitRows ord (dimMaps ctxs), none⟩ (reduceTrees (sortTrees seg)).sorted with
          | panic => rw [h1] at hv; simp [Run.andThen] at hv
          | loop => rw [h1] at hv; simp [Run.andThen] at hv
          | done st1 =>
            rw [h1] at hv
            simp only [Run.andThen] at hv
            cases h2 : indentNode (dimMaps ctxs) true 0 st1 (reduceTrees (sortTrees scen)).sorted with
            | panic => rw [h2] at hv; simp at hv
            | loop => rw [h2] at hv; simp at hv
            | done st2 =>
              rw [h2] at hv
              simp only [Run.done.injEq] at hv
              subst hv
              exact (indentNode_good P hs true _ _ _ _ (indentNode_good P hs false _ _ _ _ h0 h1) h2).1
        · intro row hrow x hx e he
          obtain ⟨v, _, rfl⟩ := List.mem_map.1 hrow
          obtain ⟨c, hcm, rfl⟩ := List.mem_map.1 hx
          unfold cellOf at he
          split at he
          · rename_i y hy
            obtain ⟨m, hm, hcell⟩ := List.exists_of_findSome?_eq_some hy
            have : y.explicit = none ∨ y.explicit = m.explicit := by
              unfold memberCell at hcell
              split_ifs at hcell
              all_goals
                split at hcell
                · split_ifs at hcell
                  cases hcell
                  exact .inl rfl
                · cases hcell; exact .inr rfl
                · simp at hcell
            rcases this with h' | h'
            · rw [h'] at he; simp at he
            · rw [h'] at he
              exact (hc c hcm m hm).2.2 e he
          · simp at he

end

theorem relevant_good {f : Folder} (hl : ∀ h, LabelWF (f.label h)) {entity : String} {hrefs : List String} {rel : Relevant}
    (h : getRelevantContexts f entity hrefs = .done rel) :
    ∀ c ∈ rel.contexts, MapWF c.period ∧ ∀ m ∈ c.members, MemberGood (fun x => LabelWF x.label) m := by
  rw [getRelevantContexts_eq] at h
  cases ha : allContexts entity (factualHrefs f hrefs) f.insts with
  | panic => rw [ha] at h; simp [Run.andThen] at h
  | loop => rw [ha] at h; simp [Run.andThen] at h
  | done cs =>
    rw [ha] at h
    simp only [Run.andThen, Run.done.injEq] at h
    subst h
    intro c hc
    simp only [sortContexts, mem_stableSort, List.mem_map] at hc
    obtain ⟨x, _, rfl⟩ := hc
    refine ⟨?_, ?_⟩
    · obtain ⟨t, _, ht⟩ := periodString_raw x
      simp only [newItem, ht]
      simp [MapWF, mapKeys]
    · intro m hm
      simp only [newItem, contextualMembers, List.mem_append, explicitMembers, List.mem_map, List.mem_flatMap, typedMembers] at hm
      rcases hm with ((⟨y, _, rfl⟩ | ⟨y, _, z, _, rfl⟩) | ⟨y, _, rfl⟩) | ⟨y, _, z, _, rfl⟩
      all_goals
        refine ⟨hl _, ?_, ?_⟩
        · intro t ht; cases ht <;> exact hl _
        · intro t ht; cases ht <;> exact hl _

theorem columns_good {f : Folder} (hl : ∀ h, LabelWF (f.label h)) {entity : String} {hrefs : List String} {rel : Relevant}
    (h : getRelevantContexts f entity hrefs = .done rel) {ord : GoMap String RelevantMember → GoMap String RelevantMember}
    (hord : ∀ m, (ord m).Perm m) {grid : List (List MemberCell)} {rows : List VoidCell}
    (hg : getMemberGrid ord rel.contexts rel.segmentTrees rel.scenarioTrees = .done (grid, rows)) :
    ColumnsWF (rel.contexts.map RelevantContext.period) grid rows := by
  have hr := relevant_good hl h
  obtain ⟨h1, h2⟩ := memberGrid_good (fun x => LabelWF x.label) hord (fun c hc => (hr c hc).2) hg
  refine ⟨?_, h2, h1⟩
  intro p hp
  obtain ⟨c, hc, rfl⟩ := List.mem_map.1 hp
  exact (hr c hc).1

theorem renderCell_wf (env : FactEnv) (langs : List Lang) (fact : Option Fact) : ∃ m, renderCell env fact langs = some m ∧ MapWF m := by
  unfold renderCell
  split
  · exact ⟨_, rfl, by simp [MapWF, mapKeys]⟩
  · split_ifs
    · exact ⟨_, rfl, by simp [MapWF, mapKeys]⟩
    · rename_i f _
      obtain ⟨r, h1, h2, _⟩ := renderLangs_spec env f langs [] MapWF.nil
      exact ⟨r, h1, h2⟩

theorem quadrant_good {s : FactSource (Option MultilingualFact)} (hs : ∀ fact, ∃ m, s.render fact = some m ∧ MapWF m) (hrefs : List String)
    (ctxs : List RelevantContext) : QuadrantWF (getFactualQuadrant s hrefs ctxs) := by
  unfold getFactualQuadrant
  split_ifs
  · intro row hr; simp at hr
  · intro row hr m hm
    simp only [List.mem_map] at hr
    obtain ⟨h, _, rfl⟩ := hr
    obtain ⟨c, _, rfl⟩ := List.mem_map.1 hm
    exact hs _

theorem period_good {spanish : Date → Option String} {langs : List Lang} {p : LanguagePack} (h : MapWF p) : MapWF (formatHeader spanish langs p) := by
  unfold formatHeader
  split
  · exact h
  · rename_i pure _
    clear * - h
    induction langs generalizing p with
    | nil => exact h
    | cons l ls ih =>
      rw [List.foldl_cons]
      apply ih
      split_ifs
      · exact h
      · exact h.mapSet _ _

theorem formatted_good {spanish : Date → Option String} {langs : List Lang} {ps : List LanguagePack} {ms : List (List MemberCell)}
    {vs : List VoidCell} (h : ColumnsWF ps ms vs) : ColumnsWF (formatRelevantPeriod spanish ps langs) ms vs := by
  refine ⟨?_, h.2⟩
  intro p hp
  obtain ⟨q, hq, rfl⟩ := List.mem_map.1 hp
  exact period_good (h.1 q hq)

/-! ## Summation items -/

def ItemWF (i : SummationItem (Option MultilingualFact)) : Prop :=
  LabelWF i.label ∧ ColumnsWF i.periods i.members i.voids ∧ (∀ c ∈ i.contributing, LabelWF c.label) ∧ QuadrantWF i.quadrant

section
variable {f : Folder} (hl : ∀ h, LabelWF (f.label h)) {env : GridEnv (Option MultilingualFact)} (hord : ∀ m, (env.memberOrder m).Perm m)
  (hs : ∀ langs fact, ∃ m, (env.source langs).render fact = some m ∧ MapWF m) {entity role : String}
include hl hord hs

theorem summationStep_wf {m : GoMap String (List CStruct)} {st st' : CalcState (Option MultilingualFact)} {e : String × List CStruct}
    (h : summationStep f env entity m st e = .done st') (ha : ∀ i ∈ st.items, ItemWF i) : ∀ i ∈ st'.items, ItemWF i := by
  unfold summationStep at h
  simp only at h
  have hcl : ∀ c ∈ e.2.filterMap (contributing f m), LabelWF c.label := by
    intro c hc
    obtain ⟨p, hp⟩ := (contributing_label (f := f) (m := m) (cs := e.2)) c.label (List.mem_map_of_mem hc)
    rw [hp]; exact hl _
  generalize e.2.filterMap (contributing f m) = cs at h hcl
  cases hr : getRelevantContexts f entity (cs.map Contributing.href ++ [e.1]) with
  | panic => rw [hr] at h; simp [Run.andThen] at h
  | loop => rw [hr] at h; simp [Run.andThen] at h
  | done rel =>
    rw [hr] at h
    simp only [Run.andThen] at h
    cases hc : f.concept e.1 with
    | none =>
      rw [hc] at h
      simp only [Run.done.injEq] at h
      subst h
      exact ha
    | some concept =>
      rw [hc] at h
      simp only at h
      cases hg : getMemberGrid env.memberOrder rel.contexts rel.segmentTrees rel.scenarioTrees with
      | panic => rw [hg] at h; simp at h
      | loop => rw [hg] at h; simp at h
      | done mv =>
        rw [hg] at h
        simp only [Run.done.injEq] at h
        subst h
        intro i hi
        rcases List.mem_append.1 hi with hi | hi
        · exact ha i hi
        · rw [List.mem_singleton] at hi
          subst hi
          exact ⟨hl _, columns_good hl hr hord hg, hcl, quadrant_good (hs _) _ _⟩

theorem summationLoop_wf {m : GoMap String (List CStruct)} (es : GoMap String (List CStruct)) :
    ∀ {st st' : CalcState (Option MultilingualFact)}, summationLoop f env entity m st es = .done st' →
      (∀ i ∈ st.items, ItemWF i) → ∀ i ∈ st'.items, ItemWF i := by
  induction es with
  | nil => intro st st' h ha; cases h; exact ha
  | cons e es ih =>
    intro st st' h ha
    rw [summationLoop] at h
    cases hs' : summationStep f env entity m st e with
    | panic => rw [hs'] at h; simp [Run.andThen] at h
    | loop => rw [hs'] at h; simp [Run.andThen] at h
    | done st1 =>
      rw [hs'] at h
      simp only [Run.andThen] at h
      exact ih h (summationStep_wf hl hord hs hs' ha)

theorem items_wf (lbs : List (Lb CArc)) : ∀ (links : List (Link CArc)) {r : List (SummationItem (Option MultilingualFact)) × List LabelRole × List Lang},
    getSummationItems f env entity role links lbs = .done r → (∀ i ∈ r.1, ItemWF i) ∧ (calcFound role links lbs = false → r.1 = []) := by
  induction lbs with
  | nil => intro links r h; cases h; simp
  | cons lb lbs ih =>
    intro links r h
    rw [getSummationItems] at h
    rw [calcFound]
    split at h
    · rename_i k hk
      rw [hk]
      refine ⟨?_, by simp⟩
      unfold summationItems at h
      simp only at h
      cases hs' : summationLoop f env entity (calcMap role lb k.arcs) ⟨[], [], [], []⟩ (env.mapOrder (calcMap role lb k.arcs)) with
      | panic => rw [hs'] at h; simp [Run.andThen] at h
      | loop => rw [hs'] at h; simp [Run.andThen] at h
      | done st =>
        rw [hs'] at h
        simp only [Run.andThen, Run.done.injEq] at h
        subst h
        intro i hi
        simp only [mem_stableSort] at hi
        exact summationLoop_wf hl hord hs _ hs' (by simp) i hi
    · rename_i hk
      rw [hk]
      simp only [Option.isSome_none, Bool.false_eq_true, if_false]
      exact ih _ h

end

/-! ## Root domains -/

section
variable {f : Folder} {w : Networks} {Q : String → LabelPack → Prop} (hl : ∀ h, Q h (w.label h))
include hl

theorem addDefaults_ret (s : Bool) (ns : List Node) : ∀ {st st' : DomainState}, addDefaults w s ns st = some st' →
    (∀ m ∈ st.ret, Q m.href m.label) → ∀ m ∈ st'.ret, Q m.href m.label := by
  induction ns with
  | nil => intro st st' h hp; cases h; exact hp
  | cons n ns ih =>
    intro st st' h hp
    rw [addDefaults] at h
    split at h
    · simp at h
    · refine ih h ?_
      intro m hm
      rcases List.mem_append.1 hm with hm | hm
      · exact hp m hm
      · rw [List.mem_singleton] at hm; subst hm; exact hl _

theorem includeDefaults_ret (dim : String) (ns : List Node) : ∀ {st st' : DomainState}, includeDefaults w dim ns st = some st' →
    (∀ m ∈ st.ret, Q m.href m.label) → ∀ m ∈ st'.ret, Q m.href m.label := by
  induction ns with
  | nil => intro st st' h hp; cases h; exact hp
  | cons n ns ih =>
    intro st st' h hp
    rw [includeDefaults] at h
    split at h
    · exact ih h hp
    · rw [Option.bind_eq_some_iff] at h
      obtain ⟨st1, h1, h2⟩ := h
      exact ih h2 (addDefaults_ret hl _ _ h1 hp)

theorem includeCubes_ret (dim : String) (ns : List Node) : ∀ {st st' : DomainState}, includeCubes w dim ns st = some st' →
    (∀ m ∈ st.ret, Q m.href m.label) → ∀ m ∈ st'.ret, Q m.href m.label := by
  induction ns with
  | nil => intro st st' h hp; cases h; exact hp
  | cons n ns ih =>
    intro st st' h hp
    rw [includeCubes, Option.bind_eq_some_iff] at h
    obtain ⟨st1, h1, h2⟩ := h
    exact ih h2 (includeDefaults_ret hl _ _ h1 hp)

theorem excludeDefaults_ret (ns : List Node) : ∀ {st st' : DomainState}, excludeDefaults w ns st = some st' →
    (∀ m ∈ st.ret, Q m.href m.label) → ∀ m ∈ st'.ret, Q m.href m.label := by
  induction ns with
  | nil => intro st st' h hp; cases h; exact hp
  | cons n ns ih =>
    intro st st' h hp
    rw [excludeDefaults] at h
    split at h
    · exact ih h hp
    · rw [Option.bind_eq_some_iff] at h
      obtain ⟨st1, h1, h2⟩ := h
      exact ih h2 (addDefaults_ret hl _ _ h1 hp)

theorem excludeCubes_ret (ns : List Node) : ∀ {st st' : DomainState}, excludeCubes w ns st = some st' →
    (∀ m ∈ st.ret, Q m.href m.label) → ∀ m ∈ st'.ret, Q m.href m.label := by
  induction ns with
  | nil => intro st st' h hp; cases h; exact hp
  | cons n ns ih =>
    intro st st' h hp
    rw [excludeCubes, Option.bind_eq_some_iff] at h
    obtain ⟨st1, h1, h2⟩ := h
    exact ih h2 (excludeDefaults_ret hl _ h1 hp)

mutual
theorem traverse_ret (s : Bool) : ∀ (n : Node) (st : DomainState), (∀ m ∈ st.ret, Q m.href m.label) →
    ∀ m ∈ (traverse w s n st).ret, Q m.href m.label
  | .mk l o cs, st, hp => by
    rw [traverse]
    split
    · simp
    · refine traverseAll_ret s cs _ ?_
      intro m hm
      rcases List.mem_append.1 hm with hm | hm
      · exact hp m hm
      · rw [List.mem_singleton] at hm; subst hm; exact hl _
theorem traverseAll_ret (s : Bool) : ∀ (ns : List Node) (st : DomainState), (∀ m ∈ st.ret, Q m.href m.label) →
    ∀ m ∈ (traverseAll w s ns st).ret, Q m.href m.label
  | [], st, hp => by rw [traverseAll]; exact hp
  | n :: ns, st, hp => by
    rw [traverseAll]
    exact traverseAll_ret s ns _ (traverse_ret s n st hp)
end

theorem effectiveDomain_ret (primary dim : String) : ∀ m ∈ (getEffectiveDomain w primary dim).1, Q m.href m.label := by
  have fold : ∀ (us : List Unit) (s : Bool) (st : DomainState), (∀ m ∈ st.ret, Q m.href m.label) →
      ∀ m ∈ (us.foldl (fun st _ => traverseAll w s w.explicitDomain st) st).ret, Q m.href m.label := by
    intro us s
    induction us with
    | nil => intro st h; exact h
    | cons u us ih => intro st h; exact ih _ (traverseAll_ret hl s _ _ h)
  unfold getEffectiveDomain
  simp only
  split
  · simp
  · split
    · simp
    · rename_i st hst
      split
      · simp
      · rename_i st' hst'
        have h1 := includeCubes_ret hl _ _ hst (by simp)
        have h2 := excludeCubes_ret hl _ hst' h1
        intro m hm
        simp only [mem_stableSort] at hm
        refine fold _ _ _ ?_ m hm
        exact fold _ _ _ h2

end

def RootWF (r : RootDomain (Option MultilingualFact)) : Prop :=
  LabelWF r.label ∧ (∀ i ∈ r.primaryItems, LabelWF i.label) ∧ ColumnsWF r.periods r.members r.voids ∧
    QuadrantWF r.quadrant ∧ (∀ row ∈ r.domains, ∀ dom ∈ row, ∀ m ∈ dom, LabelWF m.label) ∧ ∀ d ∈ r.dimensions, LabelWF d.label

section
variable {f : Folder} (hl : ∀ h, LabelWF (f.label h)) {mo : GoMap String RelevantMember → GoMap String RelevantMember}
  (hord : ∀ m, (mo m).Perm m) {source : List Lang → FactSource (Option MultilingualFact)}
  (hs : ∀ langs fact, ∃ m, (source langs).render fact = some m ∧ MapWF m) {entity role : String}
include hl hord hs

theorem rootStep_wf {w : Networks} {dims : List String} {st st' : RootState (Option MultilingualFact)} {root : Node}
    (hw : w.label = f.label) (h : rootStep f mo source entity w dims st root = .done st') (ha : ∀ r ∈ st.domains, RootWF r) :
    ∀ r ∈ st'.domains, RootWF r := by
  unfold rootStep at h
  simp only at h
  have hit : ∀ a ∈ walkTree (fun l level => (⟨w.loc l, f.label (w.loc l), level⟩ : PrimaryItem)) root, LabelWF a.label :=
    mem_walk _ (fun a : PrimaryItem => LabelWF a.label) (fun l k => hl _) root
  generalize walkTree (fun l level => (⟨w.loc l, f.label (w.loc l), level⟩ : PrimaryItem)) root = items at h hit
  cases hr : getRelevantContexts f entity (w.href root :: items.map PrimaryItem.href) with
  | panic => rw [hr] at h; simp [Run.andThen] at h
  | loop => rw [hr] at h; simp [Run.andThen] at h
  | done rel =>
    rw [hr] at h
    simp only [Run.andThen] at h
    cases hg : getMemberGrid mo rel.contexts rel.segmentTrees rel.scenarioTrees with
    | panic => rw [hg] at h; simp at h
    | loop => rw [hg] at h; simp at h
    | done g =>
      rw [hg] at h
      simp only [Run.done.injEq] at h
      subst h
      intro r hr'
      rcases List.mem_append.1 hr' with hr' | hr'
      · exact ha r hr'
      · rw [List.mem_singleton] at hr'
        subst hr'
        refine ⟨hl _, hit, columns_good hl hr hord hg, quadrant_good (hs _) _ _, ?_, ?_⟩
        · intro row hrow dom hdom
          simp only [getEffectiveDomainGrid, List.mem_map] at hrow
          obtain ⟨x, _, rfl⟩ := hrow
          obtain ⟨d, _, rfl⟩ := List.mem_map.1 hdom
          exact effectiveDomain_ret (Q := fun _ p => LabelWF p) (by rw [hw]; exact hl) _ _
        · intro d hd
          obtain ⟨x, _, rfl⟩ := List.mem_map.1 hd
          exact hl _

theorem rootLoop_wf {w : Networks} {dims : List String} (hw : w.label = f.label) (ns : List Node) :
    ∀ {st st' : RootState (Option MultilingualFact)}, rootLoop (rootStep f mo source entity w dims) st ns = .done st' →
      (∀ r ∈ st.domains, RootWF r) → ∀ r ∈ st'.domains, RootWF r := by
  induction ns with
  | nil => intro st st' h ha; cases h; exact ha
  | cons n ns ih =>
    intro st st' h ha
    rw [rootLoop] at h
    cases hs' : rootStep f mo source entity w dims st n with
    | panic => rw [hs'] at h; simp [Run.andThen] at h
    | loop => rw [hs'] at h; simp [Run.andThen] at h
    | done st1 =>
      rw [hs'] at h
      simp only [Run.andThen] at h
      exact ih h (rootStep_wf hl hord hs hw hs' ha)

theorem linkLoop_wf (lbs : Nat → List (Lb DArc)) (links : List ((Lb DArc × Link DArc) × Nat)) :
    ∀ {st st' : RootState (Option MultilingualFact)}, linkLoop (linkStep f mo source entity role lbs) st links = .done st' →
      (∀ r ∈ st.domains, RootWF r) → ∀ r ∈ st'.domains, RootWF r := by
  induction links with
  | nil => intro st st' h ha; cases h; exact ha
  | cons e links ih =>
    intro st st' h ha
    rw [linkLoop] at h
    cases hs' : linkStep f mo source entity role lbs st e with
    | panic => rw [hs'] at h; simp [Run.andThen] at h
    | loop => rw [hs'] at h; simp [Run.andThen] at h
    | done st1 =>
      rw [hs'] at h
      simp only [Run.andThen] at h
      refine ih h ?_
      unfold linkStep at hs'
      simp only at hs'
      exact rootLoop_wf hl hord hs rfl _ hs' ha

end

/-- The grids of a folder. -/
theorem gridsWF {f : Folder} (hl : ∀ h, LabelWF (f.label h)) {env : GridEnv (Option MultilingualFact)}
    (hord : ∀ m, (env.memberOrder m).Perm m) (hs : ∀ langs fact, ∃ m, (env.source langs).render fact = some m ∧ MapWF m)
    {spanish : Date → Option String} {sched : Schedule} {b : Books} {entity role : String} {g : Grids (Option MultilingualFact)}
    (h : renderGrids f env spanish sched b entity role = .done g) :
    GridsWF g ∧ (calcFound role [] b.calculation = false → g.c = []) := by
  obtain ⟨p, d, c, hp, hd, hc, rfl⟩ := renderGrids_done h
  obtain ⟨p, pr, pl⟩ := p
  obtain ⟨hc1, hc2⟩ := items_wf hl hord hs _ _ hc
  obtain ⟨rel, hr, hg, h1, h2, h3, _⟩ := pGrid_done hp
  unfold dGrid getRootDomains at hd
  cases hll : linkLoop (linkStep f env.memberOrder env.source entity role b.dimensionOrder) ⟨[], [], [], []⟩ (roleLinks role b.definition).zipIdx with
  | panic => rw [hll] at hd; simp [Run.andThen] at hd
  | loop => rw [hll] at hd; simp [Run.andThen] at hd
  | done st =>
    rw [hll] at hd
    simp only [Run.andThen, Run.done.injEq] at hd
    subst hd
    have hdom := linkLoop_wf hl hord hs _ _ hll (by simp)
    refine ⟨⟨?_, ?_, ?_, ?_, ?_, ?_⟩, ?_⟩
    · intro r hrm
      simp only [formatPeriod] at hrm
      rw [h1] at hrm
      obtain ⟨x, hx⟩ := rows_label f _ role r hrm
      rw [hx]; exact hl _
    · simp only [formatPeriod, h2]
      exact formatted_good (columns_good hl hr hord hg)
    · simp only [formatPeriod, h3]
      exact quadrant_good (hs _) _ _
    · intro r hrm
      simp only [formatPeriod] at hrm
      obtain ⟨x, hx, rfl⟩ := List.mem_map.1 hrm
      obtain ⟨a1, a2, a3, a4, a5, a6⟩ := hdom x hx
      exact ⟨a1, a2, formatted_good a3, a4, a5, a6⟩
    · intro n hn
      simp only [formatPeriod, getDRS, mem_stableSort] at hn
      obtain ⟨x, _, rfl⟩ := List.mem_map.1 hn
      exact hl _
    · intro i hi
      simp only [formatPeriod] at hi
      obtain ⟨x, hx, rfl⟩ := List.mem_map.1 hi
      obtain ⟨a1, a2, a3, a4⟩ := hc1 x hx
      exact ⟨a1, formatted_good a2, a3, a4⟩
    · intro hf
      simp only [formatPeriod]
      rw [hc2 hf]
      rfl

end Telefacts.Json
