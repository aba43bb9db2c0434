import Verif.Spec.GridLabels
import Verif.Proof.GridWF
import Verif.Props.EndToEnd
import Verif.Props.Relations
/-! # C101, C146: linkbases of a folder and labels in grids -/
namespace Telefacts
open Telefacts.Hydrate Telefacts.Decode Telefacts.Instance Telefacts.Linkbase Telefacts.Spec Telefacts.Render Telefacts.Json

section
variable {Φ : Type} {f : Folder}

theorem columns_own {entity : String} {hrefs : List String} {rel : Relevant}
    (h : getRelevantContexts f entity hrefs = .done rel) {ord : GoMap String RelevantMember → GoMap String RelevantMember}
    (hord : ∀ m, (ord m).Perm m) {grid : List (List MemberCell)} {rows : List VoidCell}
    (hg : getMemberGrid ord rel.contexts rel.segmentTrees rel.scenarioTrees = .done (grid, rows)) {x : String} {p : LabelPack}
    (hx : InColumns grid rows x p) : p = f.label x := by
  have hr : ∀ c ∈ rel.contexts, ∀ m ∈ c.members, MemberGood (fun l => l.label = f.label l.href) m := by
    intro c hc m hm
    obtain ⟨_, _, cc, _, _, hco⟩ := column_context (columnsFor_of h) hc
    rcases (hco.2.2 m).1 hm with ⟨e, _, _, h1, h2, h3, _⟩ | ⟨e, _, _, h1, h2, h3, _⟩ | ⟨t, _, d, v, _, _, h1, h2, h3, _⟩
    all_goals
      refine ⟨by rw [h1], ?_, ?_⟩
      · intro t ht; rw [h3] at ht; cases ht <;> rfl
      · intro t ht; rw [h2] at ht; cases ht <;> rfl
  obtain ⟨h1, h2⟩ := memberGrid_good _ hord hr hg
  cases hx with
  | dimension v hv => exact (h1 v hv).1
  | typed v t hv ht => exact (h1 v hv).2 t ht
  | member row x e hrow hx he => exact h2 row hrow x hx e he

/-- Labels of a summation item. -/
def OwnItem (f : Folder) (i : SummationItem Φ) : Prop :=
  i.label = f.label i.href ∧ (∀ c ∈ i.contributing, c.label = f.label c.href) ∧ ∀ x p, InColumns i.members i.voids x p → p = f.label x

/-- Labels of a root domain. -/
def OwnRoot (f : Folder) (r : RootDomain Φ) : Prop :=
  r.label = f.label r.href ∧ (∀ i ∈ r.primaryItems, i.label = f.label i.href) ∧
    (∀ row ∈ r.domains, ∀ dom ∈ row, ∀ m ∈ dom, m.label = f.label m.href) ∧ (∀ d ∈ r.dimensions, d.label = f.label d.href) ∧
    ∀ x p, InColumns r.members r.voids x p → p = f.label x

theorem summationLoop_own {env : GridEnv Φ} (hord : ∀ m, (env.memberOrder m).Perm m) {entity : String} {m : GoMap String (List CStruct)}
    (es : GoMap String (List CStruct)) : ∀ {st st' : CalcState Φ}, summationLoop f env entity m st es = .done st' →
      (∀ i ∈ st.items, OwnItem f i) → ∀ i ∈ st'.items, OwnItem f i := by
  induction es with
  | nil => intro st st' h ha; cases h; exact ha
  | cons e es ih =>
    intro st st' h ha
    rw [summationLoop] at h
    cases hs' : summationStep f env entity m st e with
    | panic => rw [hs'] at h; simp [Run.andThen] at h
    | loop => rw [hs'] at h; simp [Run.andThen] at h
    | done st1 =>
      rw [hs'] at h
      simp only [Run.andThen] at h
      refine ih h ?_
      unfold summationStep at hs'
      simp only at hs'
      have hcl : ∀ c ∈ e.2.filterMap (contributing f m), c.label = f.label c.href := by
        intro c hc
        obtain ⟨x, _, hx⟩ := List.mem_filterMap.1 hc
        unfold contributing at hx
        split at hx
        · simp at hx
        · cases hx; rfl
      generalize e.2.filterMap (contributing f m) = cs at hs' hcl
      cases hr : getRelevantContexts f entity (cs.map Contributing.href ++ [e.1]) with
      | panic => rw [hr] at hs'; simp [Run.andThen] at hs'
      | loop => rw [hr] at hs'; simp [Run.andThen] at hs'
      | done rel =>
        rw [hr] at hs'
        simp only [Run.andThen] at hs'
        cases hc : f.concept e.1 with
        | none =>
          rw [hc] at hs'
          simp only [Run.done.injEq] at hs'
          subst hs'
          exact ha
        | some concept =>
          rw [hc] at hs'
          simp only at hs'
          cases hg : getMemberGrid env.memberOrder rel.contexts rel.segmentTrees rel.scenarioTrees with
          | panic => rw [hg] at hs'; simp at hs'
          | loop => rw [hg] at hs'; simp at hs'
          | done mv =>
            rw [hg] at hs'
            simp only [Run.done.injEq] at hs'
            subst hs'
            intro i hi
            rcases List.mem_append.1 hi with hi | hi
            · exact ha i hi
            · rw [List.mem_singleton] at hi
              subst hi
              exact ⟨rfl, hcl, fun x p hx => columns_own hr hord hg hx⟩

theorem items_own {env : GridEnv Φ} (hord : ∀ m, (env.memberOrder m).Perm m) {entity role : String} (lbs : List (Lb CArc)) :
    ∀ (links : List (Link CArc)) {r : List (SummationItem Φ) × List LabelRole × List Lang},
      getSummationItems f env entity role links lbs = .done r → ∀ i ∈ r.1, OwnItem f i := by
  induction lbs with
  | nil => intro links r h; cases h; simp
  | cons lb lbs ih =>
    intro links r h
    rw [getSummationItems] at h
    split at h
    · rename_i k hk
      unfold summationItems at h
      simp only at h
      cases hs' : summationLoop f env entity (calcMap role lb k.arcs) ⟨[], [], [], []⟩ (env.mapOrder (calcMap role lb k.arcs)) with
      | panic => rw [hs'] at h; simp [Run.andThen] at h
      | loop => rw [hs'] at h; simp [Run.andThen] at h
      | done st =>
        rw [hs'] at h
        simp only [Run.andThen, Run.done.injEq] at h
        subst h
        intro i hi
        simp only [mem_stableSort] at hi
        exact summationLoop_own hord _ hs' (by simp) i hi
    · exact ih _ h

theorem rootLoop_own {mo : GoMap String RelevantMember → GoMap String RelevantMember} (hord : ∀ m, (mo m).Perm m)
    {source : List Lang → FactSource Φ} {entity : String} {w : Networks} {dims : List String} (hw : w.label = f.label) (ns : List Node) :
    ∀ {st st' : RootState Φ}, rootLoop (rootStep f mo source entity w dims) st ns = .done st' →
      (∀ r ∈ st.domains, OwnRoot f r) → ∀ r ∈ st'.domains, OwnRoot f r := by
  induction ns with
  | nil => intro st st' h ha; cases h; exact ha
  | cons n ns ih =>
    intro st st' h ha
    rw [rootLoop] at h
    cases hs' : rootStep f mo source entity w dims st n with
    | panic => rw [hs'] at h; simp [Run.andThen] at h
    | loop => rw [hs'] at h; simp [Run.andThen] at h
    | done st1 =>
      rw [hs'] at h
      simp only [Run.andThen] at h
      refine ih h ?_
      unfold rootStep at hs'
      simp only at hs'
      have hit : ∀ a ∈ walkTree (fun l level => (⟨w.loc l, f.label (w.loc l), level⟩ : PrimaryItem)) n, a.label = f.label a.href :=
        mem_walk _ (fun a : PrimaryItem => a.label = f.label a.href) (fun l k => rfl) n
      generalize walkTree (fun l level => (⟨w.loc l, f.label (w.loc l), level⟩ : PrimaryItem)) n = items at hs' hit
      cases hr : getRelevantContexts f entity (w.href n :: items.map PrimaryItem.href) with
      | panic => rw [hr] at hs'; simp [Run.andThen] at hs'
      | loop => rw [hr] at hs'; simp [Run.andThen] at hs'
      | done rel =>
        rw [hr] at hs'
        simp only [Run.andThen] at hs'
        cases hg : getMemberGrid mo rel.contexts rel.segmentTrees rel.scenarioTrees with
        | panic => rw [hg] at hs'; simp at hs'
        | loop => rw [hg] at hs'; simp at hs'
        | done g =>
          rw [hg] at hs'
          simp only [Run.done.injEq] at hs'
          subst hs'
          intro r hr'
          rcases List.mem_append.1 hr' with hr' | hr'
          · exact ha r hr'
          · rw [List.mem_singleton] at hr'
            subst hr'
            refine ⟨rfl, hit, ?_, ?_, fun x p hx => columns_own hr hord hg hx⟩
            · intro row hrow dom hdom
              simp only [getEffectiveDomainGrid, List.mem_map] at hrow
              obtain ⟨x, _, rfl⟩ := hrow
              obtain ⟨d, _, rfl⟩ := List.mem_map.1 hdom
              exact effectiveDomain_ret (Q := fun h p => p = f.label h) (by rw [hw]; intro h; rfl) _ _
            · intro d hd
              obtain ⟨x, _, rfl⟩ := List.mem_map.1 hd
              rfl

theorem linkLoop_own {mo : GoMap String RelevantMember → GoMap String RelevantMember} (hord : ∀ m, (mo m).Perm m)
    {source : List Lang → FactSource Φ} {entity role : String} (lbs : Nat → List (Lb DArc)) (links : List ((Lb DArc × Link DArc) × Nat)) :
    ∀ {st st' : RootState Φ}, linkLoop (linkStep f mo source entity role lbs) st links = .done st' →
      (∀ r ∈ st.domains, OwnRoot f r) → ∀ r ∈ st'.domains, OwnRoot f r := by
  induction links with
  | nil => intro st st' h ha; cases h; exact ha
  | cons e links ih =>
    intro st st' h ha
    rw [linkLoop] at h
    cases hs' : linkStep f mo source entity role lbs st e with
    | panic => rw [hs'] at h; simp [Run.andThen] at h
    | loop => rw [hs'] at h; simp [Run.andThen] at h
    | done st1 =>
      rw [hs'] at h
      simp only [Run.andThen] at h
      refine ih h ?_
      unfold linkStep at hs'
      simp only at hs'
      exact rootLoop_own hord rfl _ hs' ha

/-- Whatever stands in a grid has the label that the folder has for it. -/
theorem inGrids_label {env : GridEnv Φ} (hord : ∀ m, (env.memberOrder m).Perm m) {spanish : Date → Option String} {sched : Schedule}
    {b : Books} {entity role : String} {g : Grids Φ} (h : renderGrids f env spanish sched b entity role = .done g) {x : String} {p : LabelPack}
    (hx : InGrids g x p) : p = f.label x := by
  obtain ⟨⟨pg, pr, pl⟩, d, c, hp, hd, hc, rfl⟩ := renderGrids_done h
  obtain ⟨rel, hr, hg, h1, _⟩ := pGrid_done hp
  have hc1 := items_own (f := f) hord _ _ hc
  unfold dGrid getRootDomains at hd
  cases hll : linkLoop (linkStep f env.memberOrder env.source entity role b.dimensionOrder) ⟨[], [], [], []⟩ (roleLinks role b.definition).zipIdx with
  | panic => rw [hll] at hd; simp [Run.andThen] at hd
  | loop => rw [hll] at hd; simp [Run.andThen] at hd
  | done st =>
    rw [hll] at hd
    simp only [Run.andThen, Run.done.injEq] at hd
    subst hd
    have hdom := linkLoop_own hord _ _ hll (by simp)
    have hroots : ∀ G : Grids Φ, (∀ r ∈ G.d.domains, OwnRoot f r) → ∀ r ∈ (formatPeriod spanish G).d.domains, OwnRoot f r := by
      intro G hG r hrm
      obtain ⟨y, hy, rfl⟩ := List.mem_map.1 hrm
      exact hG y hy
    have hitems : ∀ G : Grids Φ, (∀ i ∈ G.c, OwnItem f i) → ∀ i ∈ (formatPeriod spanish G).c, OwnItem f i := by
      intro G hG i hi
      obtain ⟨y, hy, rfl⟩ := List.mem_map.1 hi
      exact hG y hy
    cases hx with
    | row r hrm =>
      simp only [formatPeriod] at hrm
      rw [h1] at hrm
      unfold getIndentedLabels at hrm
      split at hrm
      · simp at hrm
      · exact mem_walk _ (fun r : IndentedLabel => r.label = f.label r.href) (fun l k => rfl) _ r hrm
    | columns _ _ hx => exact columns_own hr hord hg hx
    | root r hrm => exact (hroots _ hdom r hrm).1
    | primary r i hrm hi => exact (hroots _ hdom r hrm).2.1 i hi
    | effective r row dom m hrm h2 h3 h4 => exact (hroots _ hdom r hrm).2.2.1 row h2 dom h3 m h4
    | dim r y hrm hy => exact (hroots _ hdom r hrm).2.2.2.1 y hy
    | rootColumns r _ _ hrm hx => exact (hroots _ hdom r hrm).2.2.2.2 _ _ hx
    | node n hn =>
      simp only [formatPeriod, getDRS, mem_stableSort] at hn
      obtain ⟨y, _, rfl⟩ := List.mem_map.1 hn
      rfl
    | sum i hi => exact (hitems _ hc1 i hi).1
    | part i y hi hy => exact (hitems _ hc1 i hi).2.1 y hy
    | sumColumns i _ _ hi hx => exact (hitems _ hc1 i hi).2.2 _ _ hx

end

/-! ## Linkbases of a folder on disk -/

theorem linked_iff {d : Disk} {fuel : Nat} {sched : List (Disc.Write LinkbaseFile) → List (Disc.Write LinkbaseFile)}
    (hperm : ∀ ws, (sched ws).Perm ws) {fo0 : Disc.Folder LinkbaseFile DocFile} (h : Disc.discover d.env fuel sched = some (.ok fo0))
    (kind : Disc.LKind) (name : String) (file : LinkbaseFile) :
    mapGet (fo0.links kind) name = some file ↔ ∃ x, LinkedFile d kind name x ∧ IsLinkbase kind x file := by
  rw [(C12_collects_reachable d.env fuel sched hperm fo0 h).2.1 kind name file]
  change _ ∧ (d.read name).bind (linkbaseFile kind) = some file ↔ _
  rw [Option.bind_eq_some_iff]
  constructor
  · rintro ⟨h1, x, h2, h3⟩
    obtain ⟨h4, h5⟩ := (C99_linkbase kind x file).1 h3
    exact ⟨x, ⟨h1, h2, h4⟩, h5⟩
  · rintro ⟨x, ⟨h1, h2, h4⟩, h5⟩
    exact ⟨h1, x, h2, (C99_linkbase kind x file).2 ⟨h4, h5⟩⟩

/-- **C101, on disk.** The linkbases of a loaded folder are those files that a schema in reach refers to with the role of the kind, each with the
links of that kind in the file. -/
theorem C101_disk (d : Disk) (w : Hydrate.World) (hw : Fair w) (fuel : Nat)
    (sched : List (Disc.Write LinkbaseFile) → List (Disc.Write LinkbaseFile)) (hperm : ∀ ws, (sched ws).Perm ws)
    (fo : Files) (h : Hydratable) (hl : load d w fuel sched = some (.done (some (fo, h)))) :
    (∀ name x file, LinkedFile d .pre name x → IsLinkbase .pre x file → ∃ b, mapGet h.presentation name = some b ∧ LinkbaseOf (PArcOf w.parse) file b) ∧
    (∀ name b, mapGet h.presentation name = some b → ∃ x file, LinkedFile d .pre name x ∧ IsLinkbase .pre x file ∧ LinkbaseOf (PArcOf w.parse) file b) ∧
    (∀ name x file, LinkedFile d .defn name x → IsLinkbase .defn x file → ∃ b, mapGet h.definition name = some b ∧ LinkbaseOf (DefArcOf w.parse) file b) ∧
    (∀ name b, mapGet h.definition name = some b → ∃ x file, LinkedFile d .defn name x ∧ IsLinkbase .defn x file ∧ LinkbaseOf (DefArcOf w.parse) file b) ∧
    (∀ name x file, LinkedFile d .calc name x → IsLinkbase .calc x file → ∃ b, mapGet h.calculation name = some b ∧ LinkbaseOf (CArcOf w.parse) file b) ∧
    (∀ name b, mapGet h.calculation name = some b → ∃ x file, LinkedFile d .calc name x ∧ IsLinkbase .calc x file ∧ LinkbaseOf (CArcOf w.parse) file b) ∧
    (∀ name x file, LinkedFile d .lab name x → IsLinkbase .lab x file → ∃ b, mapGet h.label name = some b ∧ Collected (LabelLinkOf w.parse) file.links b) ∧
    (∀ name b, mapGet h.label name = some b → ∃ x file, LinkedFile d .lab name x ∧ IsLinkbase .lab x file ∧ Collected (LabelLinkOf w.parse) file.links b) := by
  obtain ⟨fo0, h1, rfl, h2⟩ := load_some hl
  obtain ⟨_, e2, e3, e4, e5, _, _⟩ := C101_entries w hw _ (filesOf_wf h1) h h2
  have key : ∀ {B : Type} {R : LinkbaseFile → B → Prop} (kind : Disc.LKind) (m : GoMap String B),
      Entries (fun _ x b => R x b) (fo0.links kind) m →
      (∀ name x file, LinkedFile d kind name x → IsLinkbase kind x file → ∃ b, mapGet m name = some b ∧ R file b) ∧
      (∀ name b, mapGet m name = some b → ∃ x file, LinkedFile d kind name x ∧ IsLinkbase kind x file ∧ R file b) := by
    intro B R kind m he
    refine ⟨fun name x file hx hf => ?_, fun name b hb => ?_⟩
    · exact he.2.1 name file ((linked_iff hperm h1 kind name file).2 ⟨x, hx, hf⟩)
    · obtain ⟨file, hf, hr⟩ := he.2.2 name b hb
      obtain ⟨x, hx, hi⟩ := (linked_iff hperm h1 kind name file).1 hf
      exact ⟨x, file, hx, hi, hr⟩
  obtain ⟨p1, p2⟩ := key .pre _ e2
  obtain ⟨d1, d2⟩ := key .defn _ e3
  obtain ⟨c1, c2⟩ := key .calc _ e4
  obtain ⟨l1, l2⟩ := key .lab _ e5
  exact ⟨p1, p2, d1, d2, c1, c2, l1, l2⟩

theorem isLinkbase_exists (kind : Disc.LKind) {x : Xml} (hx : x.name.loc = "linkbase") : ∃ file, IsLinkbase kind x file := by
  have : ∃ file, linkbaseFile kind x = some file := by unfold linkbaseFile; rw [if_pos hx]; exact ⟨_, rfl⟩
  obtain ⟨file, hf⟩ := this
  exact ⟨file, ((C99_linkbase kind x file).1 hf).2⟩

theorem mem_kids {α : Type} {n : String} {R : Xml → α → Prop} {x : Xml} {l : List α} (h : Kids n R x l) {y : α} (hy : y ∈ l) :
    ∃ k ∈ x.kids, k.name.loc = n ∧ R k y := by
  obtain ⟨k, hk, h1, h2⟩ := collected_mem h y hy
  exact ⟨k, hk, h1, h2⟩

theorem kids_has {α : Type} {n : String} {R : Xml → α → Prop} (hR : ∀ k y y', R k y → R k y' → y = y') {x : Xml} {l : List α}
    (h : Kids n R x l) {k : Xml} (hk : k ∈ x.kids) (hn : k.name.loc = n) {y : α} (hy : R k y) : y ∈ l :=
  collected_of_mem h (fun k y y' h1 h2 => hR k y y' h1.2 h2.2) hk ⟨hn, hy⟩

theorem locOf_unique (x : List Attr) (l l' : Loc) (h : LocOf x l) (h' : LocOf x l') : l = l' := by
  rw [← hydrateLoc_iff] at h h'; rw [h] at h'; exact Option.some.inj h'

theorem labelOf_unique (x : List Attr × String) (l l' : Label) (h : LabelOf x l) (h' : LabelOf x l') : l = l' := by
  rw [← hydrateLabel_iff] at h h'; rw [h] at h'; exact Option.some.inj h'

theorem arcEnds_unique {x : List Attr} {r f t r' f' t' : String} (h : ArcEnds x r f t) (h' : ArcEnds x r' f' t') : r = r' ∧ f = f' ∧ t = t' := by
  rw [← arcEnds_iff] at h h'
  rw [h] at h'
  simpa using h'

theorem lArcOf_unique (parse : String → F64 × Bool) (n : Nat) (p : List Attr × Nat) (a a' : LArc) (h : LArcOf parse n p.2 p.1 a)
    (h' : LArcOf parse n p.2 p.1 a') : a = a' := by
  rw [← labelArc_iff] at h h'; rw [h] at h'; exact Option.some.inj h'

theorem lArcOf_exists (parse : String → F64 × Bool) (n i : Nat) {x : List Attr} {r f t : String} (h : ArcEnds x r f t) :
    ∃ a, LArcOf parse n i x a ∧ a.arcrole = r ∧ a.frm = f ∧ a.to = t := by
  obtain ⟨v, hv⟩ := optVal_exists x "order"
  by_cases h0 : v = ""
  · subst h0
    exact ⟨⟨_, r, f, t⟩, ⟨h, .inr ⟨hv, rfl⟩⟩, rfl, rfl, rfl⟩
  · rcases hv with hv | ⟨_, hv⟩
    · exact ⟨⟨_, r, f, t⟩, ⟨h, .inl ⟨v, hv, h0, rfl⟩⟩, rfl, rfl, rfl⟩
    · exact absurd hv h0

theorem collected_exists {α β : Type} (R : α → β → Prop) (l : List α) : ∃ out, Collected R l out := by
  induction l with
  | nil => exact ⟨[], .nil⟩
  | cons y ys ih =>
    obtain ⟨p, hp⟩ := ih
    by_cases hy : ∃ b, R y b
    · obtain ⟨b, hb⟩ := hy; exact ⟨b :: p, .keep _ _ _ _ hb hp⟩
    · exact ⟨p, .skip _ _ _ (fun b hb => hy ⟨b, hb⟩) hp⟩

theorem labelLinkOf_unique (parse : String → F64 × Bool) (e : LinkElem) (l l' : LabelLink) (h : LabelLinkOf parse e l)
    (h' : LabelLinkOf parse e l') : l = l' := by
  obtain ⟨⟨_, h1, _⟩, h2, h3, h4⟩ := h
  obtain ⟨⟨_, h1', _⟩, h2', h3', h4'⟩ := h'
  obtain ⟨r, lo, la, ar⟩ := l
  obtain ⟨r', lo', la', ar'⟩ := l'
  simp only at *
  obtain ⟨a, ha, rfl⟩ := h1
  obtain ⟨a', ha', rfl⟩ := h1'
  rw [firstWith_unique ha ha', collected_unique locOf_unique h2 h2', collected_unique labelOf_unique h3 h3',
    collected_unique (lArcOf_unique parse _) h4 h4']

/-- The labels of the hydrated linkbase are those of the tree. -/
theorem labels_iff (parse : String → F64 × Bool) {x : Xml} {file : LinkbaseFile} (hf : IsLinkbase .lab x file) {ls : List LabelLink}
    (hc : Collected (LabelLinkOf parse) file.links ls) (href role lang t : String) :
    (∃ l ∈ labelsOf [ls] href, HasLabelRole l role ∧ InLang l lang ∧ t = l.chars) ↔ ∃ link ∈ x.kids, GivesLabel link href role lang t := by
  obtain ⟨_, ln, an, hn, hk⟩ := hf
  obtain ⟨rfl, rfl⟩ : ln = "labelLink" ∧ an = "labelArc" := by
    have := (linkNames_iff .lab ln an).1 hn
    exact ⟨this.1, this.2⟩
  constructor
  · rintro ⟨l, hl, hr, hin, rfl⟩
    simp only [labelsOf, List.flatten_cons, List.flatten_nil, List.append_nil, List.mem_flatMap, List.mem_filter, decide_eq_true_eq] at hl
    obtain ⟨lk, hlk, loc, ⟨hloc, hlh⟩, a, ⟨ha, haf, har⟩, hla, hlt⟩ := hl
    obtain ⟨e, he, ⟨ht, hro, hne⟩, h2, h3, h4⟩ := collected_mem hc lk hlk
    obtain ⟨k, hkm, hkn, hattrs, hlocs, harcs, hlabs, _⟩ := mem_kids hk he
    obtain ⟨lx, hlx, hlo⟩ := collected_mem h2 loc hloc
    obtain ⟨lk', hlk', hln, hlattr⟩ := mem_kids hlocs hlx
    obtain ⟨⟨ax, n⟩, hax, hao⟩ := collected_mem h4 a ha
    obtain ⟨ak, hak, han, haattr⟩ := mem_kids harcs (List.fst_mem_of_mem_zipIdx hax)
    obtain ⟨rx, hrx, hro'⟩ := collected_mem h3 l hla
    obtain ⟨rk, hrk, hrn, hrattr, hrtext⟩ := mem_kids (hlabs rfl) hrx
    have hrx' : rx = (rk.attrs, rk.chars) := Prod.ext hrattr hrtext
    rw [hrx'] at hro'
    rw [hattrs] at ht hro
    cases hlattr
    cases haattr
    refine ⟨k, hkm, hkn, ht, ⟨_, hro, hne⟩, lk', hlk', ak, hak, rk, hrk, loc.label, l, hln, ?_, han, ?_, hrn, hro', hr, hin, hro'.2.2.2.2.2.2⟩
    · rw [← hlh]; exact hlo
    · have := hao.1
      rw [haf, har, ← hlt] at this
      exact this
  · rintro ⟨k, hkm, hkn, ht, ⟨ro, hro⟩, loc, hloc, arc, harc, res, hres, a, l, h1, h2, h3, h4, h5, h6, h7, h8, rfl⟩
    obtain ⟨e, he⟩ : ∃ e, IsLink .lab "labelArc" k e := ⟨_, (isLink_iff .lab _ k _).2 rfl⟩
    have hem := kids_has (fun k y y' hy hy' => by rw [(isLink_iff .lab _ k y).1 hy, (isLink_iff .lab _ k y').1 hy']) hk hkm hkn he
    obtain ⟨hattrs, hlocs, harcs, hlabs, _⟩ := he
    have m1 := kids_has (fun k y y' (hy : HasAttrs k y) hy' => by rw [hy, hy']) hlocs hloc h1 rfl
    have m2 := kids_has (fun k y y' (hy : HasAttrs k y) hy' => by rw [hy, hy']) harcs harc h3 rfl
    have m3 := kids_has (fun k y y' (hy : HasAttrsText k y) hy' => Prod.ext (hy.1.trans hy'.1.symm) (hy.2.trans hy'.2.symm))
      (hlabs rfl) hres h5 (y := (res.attrs, res.chars)) ⟨rfl, rfl⟩
    obtain ⟨n, hn⟩ : ∃ n, (arc.attrs, n) ∈ e.arcs.zipIdx := by
      obtain ⟨n, hn, e'⟩ := List.mem_iff_getElem.1 m2
      exact ⟨n, by rw [← e']; exact List.mem_zipIdx_iff_getElem?.2 (List.getElem?_eq_getElem hn)⟩
    obtain ⟨lo, hlo⟩ := collected_exists LocOf e.locs
    obtain ⟨la, hla⟩ := collected_exists LabelOf e.labels
    obtain ⟨ar, har⟩ := collected_exists (fun (p : List Attr × Nat) a => LArcOf parse e.arcs.length p.2 p.1 a) e.arcs.zipIdx
    have hlink : LabelLinkOf parse e ⟨ro, lo, la, ar⟩ := ⟨⟨by rw [hattrs]; exact ht, by rw [hattrs]; exact hro.1, hro.2⟩, hlo, hla, har⟩
    have hmem := collected_of_mem hc (labelLinkOf_unique parse) hem hlink
    obtain ⟨ah, hah, e1, e2, e3⟩ := lArcOf_exists parse e.arcs.length n h4
    refine ⟨l, ?_, h7, h8, h6.2.2.2.2.2.2.symm⟩
    simp only [labelsOf, List.flatten_cons, List.flatten_nil, List.append_nil, List.mem_flatMap, List.mem_filter, decide_eq_true_eq]
    exact ⟨_, hmem, ⟨href, a⟩, ⟨collected_of_mem hlo locOf_unique m1 h2, rfl⟩, ah,
      ⟨collected_of_mem har (lArcOf_unique parse _) hn hah, e2, e1⟩, collected_of_mem hla labelOf_unique m3 h6, e3.symm⟩

theorem labelsOf_mem {lbs : List (List LabelLink)} {href : String} {l : Label} : l ∈ labelsOf lbs href ↔ ∃ ls ∈ lbs, l ∈ labelsOf [ls] href := by
  simp only [labelsOf, List.mem_flatMap, List.flatten_cons, List.flatten_nil, List.append_nil, List.mem_flatten]
  constructor
  · rintro ⟨k, ⟨ls, h1, h2⟩, h3⟩; exact ⟨ls, h1, k, h2, h3⟩
  · rintro ⟨ls, h1, k, h2, h3⟩; exact ⟨k, ⟨ls, h1, h2⟩, h3⟩

/-- The labels that a loaded folder has for a concept are those that its label linkbases give it on disk. -/
theorem loaded_labels {d : Disk} {w : Hydrate.World} (hw : Fair w) {fuel : Nat}
    {sched : List (Disc.Write LinkbaseFile) → List (Disc.Write LinkbaseFile)} (hperm : ∀ ws, (sched ws).Perm ws)
    {fo : Files} {h : Hydratable} (hl : load d w fuel sched = some (.done (some (fo, h)))) {lbs : List (List LabelLink)}
    (hlbs : lbs.Perm (values h.label)) (href role lang t : String) :
    (∃ l ∈ labelsOf lbs href, HasLabelRole l role ∧ InLang l lang ∧ t = l.chars) ↔ HasLabel d href role lang t := by
  obtain ⟨_, _, _, _, _, _, l1, l2⟩ := C101_disk d w hw fuel sched hperm fo h hl
  have hwf : MapWF h.label := by
    obtain ⟨fo0, h1, rfl, h2⟩ := load_some hl
    obtain ⟨_, _, _, _, e5, _, _⟩ := C101_entries w hw _ (filesOf_wf h1) h h2
    exact e5.1
  constructor
  · rintro ⟨l, hm, h1, h2, h3⟩
    obtain ⟨ls, hls, hm⟩ := labelsOf_mem.1 hm
    obtain ⟨⟨name, ls'⟩, hk, rfl⟩ := List.mem_map.1 (hlbs.mem_iff.1 hls)
    obtain ⟨x, file, hx, hf, hc⟩ := l2 name ls' ((mapGet_iff_mem hwf).2 hk)
    exact ⟨name, x, hx, (labels_iff w.parse hf hc href role lang t).1 ⟨l, hm, h1, h2, h3⟩⟩
  · rintro ⟨name, x, hx, hg⟩
    obtain ⟨file, hf⟩ := isLinkbase_exists .lab hx.2.2
    obtain ⟨ls, hb, hc⟩ := l1 name x file hx hf
    obtain ⟨l, hm, hrest⟩ := (labels_iff w.parse hf hc href role lang t).2 hg
    exact ⟨l, labelsOf_mem.2 ⟨ls, hlbs.mem_iff.2 (List.mem_map.2 ⟨_, (mapGet_iff_mem hwf).1 hb, rfl⟩), hm⟩, hrest⟩

/-- **C146.** What stands beside an href in the grids of a loaded folder: the texts are the href itself, its fragment, and labels that the label
linkbases of the folder give the concept; and in every role and language in which they give it a label, one of those is shown. The linkbases may be
visited in any order, for each concept in another. -/
theorem C146_labels {Φ : Type} (d : Disk) (w : Hydrate.World) (hw : Fair w) (fuel : Nat)
    (sched : List (Disc.Write LinkbaseFile) → List (Disc.Write LinkbaseFile)) (hperm : ∀ ws, (sched ws).Perm ws)
    (fo : Files) (h : Hydratable) (hl : load d w fuel sched = some (.done (some (fo, h))))
    (f : Folder) (hf : ∀ href, ∃ lbs : List (List LabelLink), lbs.Perm (values h.label) ∧ f.label href = getLabel lbs href)
    (env : GridEnv Φ) (hord : ∀ m, (env.memberOrder m).Perm m) (spanish : Date → Option String) (gs : Schedule) (b : Books) (entity role : String)
    (g : Grids Φ) (hg : renderGrids f env spanish gs b entity role = .done g) (href : String) (p : LabelPack) (hp : InGrids g href p) :
    (∀ r lang t, Shown p r lang t → HrefText href r lang t ∨ HasLabel d href r lang t) ∧
    (∀ r lang t, HrefText href r lang t → Shown p r lang t) ∧
    ∀ r lang t, HasLabel d href r lang t → ∃ t', HasLabel d href r lang t' ∧ Shown p r lang t' := by
  obtain ⟨lbs, hlbs, hlab⟩ := hf href
  rw [inGrids_label hord hg hp, hlab]
  refine ⟨fun r lang t hs => ?_, fun r lang t hs => ((C49_labels lbs href).1 r lang t).2 (.inl hs), fun r lang t hs => ?_⟩
  · rcases ((C49_labels lbs href).1 r lang t).1 hs with hs | ⟨l, hlast, ht⟩
    · exact .inl hs
    · obtain ⟨hm, hr, hin⟩ := lastWith_mem hlast
      exact .inr ((loaded_labels hw hperm hl hlbs href r lang t).1 ⟨l, hm, hr, hin, ht⟩)
  · obtain ⟨l, hm, hr, hin, _⟩ := (loaded_labels hw hperm hl hlbs href r lang t).2 hs
    obtain ⟨l', hl'⟩ := lastWith_exists (fun l => HasLabelRole l r ∧ InLang l lang) ⟨l, hm, hr, hin⟩
    obtain ⟨hm', hr', hin'⟩ := lastWith_mem hl'
    exact ⟨l'.chars, (loaded_labels hw hperm hl hlbs href r lang _).1 ⟨l', hm', hr', hin', rfl⟩,
      ((C49_labels lbs href).1 r lang _).2 (.inr ⟨l', hl', rfl⟩)⟩

/-- **C146, from disk.** A concept that has one text in a role and language shows it wherever it stands. -/
theorem C146_shown {Φ : Type} (d : Disk) (w : Hydrate.World) (hw : Fair w) (fuel : Nat)
    (sched : List (Disc.Write LinkbaseFile) → List (Disc.Write LinkbaseFile)) (hperm : ∀ ws, (sched ws).Perm ws)
    (fo : Files) (h : Hydratable) (hl : load d w fuel sched = some (.done (some (fo, h)))) (tree : List Arc → String → Node)
    (env : GridEnv Φ) (hord : ∀ m, (env.memberOrder m).Perm m) (spanish : Date → Option String) (gs : Schedule) (b : Books) (entity role : String)
    (g : Grids Φ) (hg : renderGrids (renderFolder w fo h tree) env spanish gs b entity role = .done g)
    (href r lang t : String) (ht : HasLabel d href r lang t) (honly : ∀ t', HasLabel d href r lang t' → t' = t) :
    ∀ p, InGrids g href p → Shown p r lang t := by
  intro p hp
  obtain ⟨_, _, h3⟩ := C146_labels d w hw fuel sched hperm fo h hl _ (fun _ => ⟨_, (hw.l _ _).map _, rfl⟩) env hord spanish gs b entity role g hg href p hp
  obtain ⟨t', h4, h5⟩ := h3 r lang t ht
  rw [← honly t' h4]
  exact h5

/-! A folder on disk with a label linkbase. -/

def labelledSchema : Xml :=
  .mk ⟨Disc.XSD, "schema"⟩ [⟨⟨"", "targetNamespace"⟩, "http://x"⟩] "" "" [
    .mk ⟨Disc.XSD, "annotation"⟩ [] "" "" [.mk ⟨Disc.XSD, "appinfo"⟩ [] "" "" [
      .mk ⟨LINK, "linkbaseRef"⟩ [⟨⟨XLINK, "arcrole"⟩, Disc.LINKARCROLE⟩, ⟨⟨XLINK, "type"⟩, "simple"⟩,
        ⟨⟨XLINK, "role"⟩, Disc.LKind.pre.role⟩, ⟨⟨XLINK, "href"⟩, "p.xml"⟩] "" "" [],
      .mk ⟨LINK, "linkbaseRef"⟩ [⟨⟨XLINK, "arcrole"⟩, Disc.LINKARCROLE⟩, ⟨⟨XLINK, "type"⟩, "simple"⟩,
        ⟨⟨XLINK, "role"⟩, Disc.LKind.lab.role⟩, ⟨⟨XLINK, "href"⟩, "l.xml"⟩] "" "" [],
      .mk ⟨LINK, "roleType"⟩ [⟨⟨"", "roleURI"⟩, "r"⟩, ⟨⟨"", "id"⟩, "R"⟩] "" "" [.mk ⟨LINK, "definition"⟩ [] "001 - A" "001 - A" []]]],
    .mk ⟨Disc.XSD, "element"⟩ [⟨⟨"", "id"⟩, "x_Cash"⟩, ⟨⟨"", "name"⟩, "Cash"⟩, ⟨⟨"", "type"⟩, "t"⟩] "" "" []]

def labelledLoc : Xml :=
  .mk ⟨LINK, "loc"⟩ [⟨⟨XLINK, "type"⟩, "locator"⟩, ⟨⟨XLINK, "href"⟩, "x.xsd#x_Cash"⟩, ⟨⟨XLINK, "label"⟩, "cash"⟩] "" "" []
def labelledArc : Xml :=
  .mk ⟨LINK, "labelArc"⟩ [⟨⟨XLINK, "type"⟩, "arc"⟩, ⟨⟨XLINK, "arcrole"⟩, "http://www.xbrl.org/2003/arcrole/concept-label"⟩,
    ⟨⟨XLINK, "from"⟩, "cash"⟩, ⟨⟨XLINK, "to"⟩, "lab"⟩] "" "" []
def labelledText : Xml :=
  .mk ⟨LINK, "label"⟩ [⟨⟨XLINK, "type"⟩, "resource"⟩, ⟨⟨XLINK, "label"⟩, "lab"⟩, ⟨⟨XLINK, "role"⟩, "http://www.xbrl.org/2003/role/label"⟩,
    ⟨⟨"xml", "lang"⟩, "en-US"⟩] "Cash at bank" "Cash at bank" []
def labelledLink : Xml :=
  .mk ⟨LINK, "labelLink"⟩ [⟨⟨XLINK, "type"⟩, "extended"⟩, ⟨⟨XLINK, "role"⟩, "r"⟩] "" "" [labelledLoc, labelledArc, labelledText]
def labelledLinks : Xml := .mk ⟨LINK, "linkbase"⟩ [] "" "" [labelledLink]

def labelledDisk : Disk where
  entryName := some "r.xml"
  images := []
  read := fun n => if n = "r.xml" then some reportXml else if n = "x.xsd" then some labelledSchema
    else if n = "p.xml" then some diskLinks else if n = "l.xml" then some labelledLinks else none
  fileExists := fun _ => true
  doc := fun _ => none
  isUrl := fun _ => false

def labelledCash : Label := ⟨"lab", "http://www.xbrl.org/2003/role/label", "en-US", "Cash at bank"⟩

deriving instance DecidableEq for Label

def labelledRows : Option (List (String × List (String × List (String × String))) × List Label) :=
  match load labelledDisk diskWorld 3 id with
  | some (.done (some (fo, h))) =>
    match diskGrids fo h with
    | .done g => some (g.p.rows.map (fun r => (r.href, r.label)), labelsOf (values h.label) "x.xsd#x_Cash")
    | _ => none
  | _ => none

set_option synthInstance.maxSize 1000 in
/-- From the label linkbase to the row. -/
theorem labelledRows_eq : labelledRows = some ([("x.xsd#x_Cash", [("Default",
    [("Unlabelled", "x.xsd#x_Cash"), ("Truncated", "#x_Cash"), ("en - english", "Cash at bank")])])], [labelledCash]) := by decide +kernel

/-- The hypotheses of `C146_labels` and `C146_shown` hold of the folder on disk, and the concept stands in the grid. -/
example : ∃ fo h g p, Fair diskWorld ∧ load labelledDisk diskWorld 3 id = some (.done (some (fo, h))) ∧ diskGrids fo h = .done g ∧
    InGrids g "x.xsd#x_Cash" p ∧ HasLabel labelledDisk "x.xsd#x_Cash" "Default" "en - english" "Cash at bank" ∧
    ∀ t', HasLabel labelledDisk "x.xsd#x_Cash" "Default" "en - english" t' → t' = "Cash at bank" := by
  have he := labelledRows_eq
  unfold labelledRows at he
  split at he
  · rename_i fo h hl
    split at he
    · rename_i g hg
      simp only [Option.some.injEq, Prod.mk.injEq] at he
      have hfair : Fair diskWorld := ⟨fun _ _ => .refl _, fun _ _ => .refl _, fun _ _ => .refl _, fun _ _ => .refl _, fun _ _ => .refl _⟩
      obtain ⟨r, hr, hrh⟩ : ∃ r ∈ g.p.rows, r.href = "x.xsd#x_Cash" := by
        obtain ⟨r, hr, e⟩ := List.mem_map.1 (he.1.symm ▸ List.mem_singleton_self _)
        exact ⟨r, hr, (Prod.mk.inj e).1⟩
      have hiff := loaded_labels (d := labelledDisk) hfair (sched := id) (fun _ => .refl _) hl (.refl _) "x.xsd#x_Cash" "Default" "en - english"
      rw [he.2] at hiff
      refine ⟨fo, h, g, r.label, hfair, hl, hg, hrh ▸ .row r hr,
        (hiff _).1 ⟨labelledCash, List.mem_singleton.2 rfl, .inl ⟨rfl, rfl⟩, .inl ⟨rfl, rfl⟩, rfl⟩, fun t' ht' => ?_⟩
      obtain ⟨l, hm, _, _, rfl⟩ := (hiff t').2 ht'
      rw [List.mem_singleton.1 hm]
      rfl
    · cases he
  · cases he

end Telefacts
