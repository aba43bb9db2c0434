import Verif.Spec.SameCell
import Verif.Props.ServerExpress
/-! # C167: the expression of a fact says what the grids say of it -/
namespace Telefacts
open Telefacts.Server Telefacts.Hydrate Telefacts.Schema Telefacts.Instance Telefacts.Render Telefacts.Spec Telefacts.Linkbase
  Telefacts.Document

theorem hashQuery_concept (h : Env) (o o' : GoMap String String) (q : String) :
    (match hashQuery h o q with | .ok p => some p.2 | _ => none) = (match hashQuery h o' q with | .ok p => some p.2 | _ => none) := by
  unfold hashQuery
  cases cut '#' q with
  | none => rfl
  | some p =>
    by_cases h1 : p.1 = ""
    · simp only [if_pos h1]
    · by_cases h2 : p.2 = ""
      · simp only [if_neg h1, if_pos h2]
      · simp only [if_neg h1, if_neg h2]
        cases conceptsAt h p.1 with
        | err m => rfl
        | panic => rfl
        | ok cs =>
          simp only
          cases cs.find? (fun c => decide (p.2 = c.id)) <;> rfl

theorem perm_short {α : Type} {a l : List α} (h : a.Perm l) (hl : l.length ≤ 1) : a = l := by
  match l, hl with
  | [], _ => exact h.eq_nil
  | [x], _ => exact List.perm_singleton.1 h

/-- The labels of a folder are the same for two requests. -/
theorem label_choice {c c' : Choice} {l : Loaded} (hc : c.Fair l.hyd) (hc' : c'.Fair l.hyd)
    (hl : c.labelOrder = c'.labelOrder ∨ l.hyd.label.length ≤ 1) (href : String) :
    c.labelOrder href l.hyd.label = c'.labelOrder href l.hyd.label := by
  rcases hl with e | e
  · rw [e]
  · rw [perm_short (hc.label _ _) e, perm_short (hc'.label _ _) e]

theorem folderOf_choice (site : Site) {c c' : Choice} {l : Loaded} (hc : c.Fair l.hyd) (hc' : c'.Fair l.hyd)
    (hl : c.labelOrder = c'.labelOrder ∨ l.hyd.label.length ≤ 1) : folderOf site c l = folderOf site c' l := by
  unfold folderOf renderFolder
  congr 1
  · funext href
    exact hashQuery_concept _ _ _ _
  · funext href
    simp only [label_choice hc hc' hl href]

theorem factEnv_choice (site : Site) (c c' : Choice) (l : Loaded) : factEnv site c l = factEnv site c' l := by
  unfold factEnv folderOf renderFolder
  congr 1
  funext href
  exact hashQuery_concept _ _ _ _

/-- The parts of an expression that was answered. -/
theorem express_parts {env : ExpressEnv} {name ref : String} {e : Expressable} (h : express env name ref = .done (.expr e)) :
    ∃ fact i rest c rel grid m, Query.findFact env.folder.insts e.href ref = some fact ∧ env.order = i :: rest ∧ getContext i ref = some c ∧
      getRelevantContexts env.folder (c.scheme ++ "/" ++ c.ident) [e.href] = .done rel ∧
      getMemberGrid env.memberOrder (rel.contexts.find? (fun x => decide (x.contextRef = ref))).toList rel.segmentTrees rel.scenarioTrees = .done grid ∧
      renderCell env.facts (some fact) [PureLabel] = some m ∧
      e = ⟨e.href, env.folder.label e.href, periodTexts env.spanish (env.folder.label e.href) c, grid.2, grid.1, m,
          (env.notes fact).map Footnote.inner⟩ := by
  unfold express at h
  split at h
  · simp at h
  · split at h
    · simp at h
    · split at h
      · simp at h
      · split at h
        · simp at h
        · simp at h
        · split at h
          · simp at h
          · rename_i fact hf
            obtain ⟨i, rest, c, rel, grid, m, h1, h2, h3, h4, h5, h6⟩ := expressFact_done h
            cases h6
            exact ⟨fact, i, rest, c, rel, grid, m, hf, h1, h2, h3, h4, h5, rfl⟩

theorem cell_text (fe : FactEnv) (fact : Fact) (langs : List Lang) (hl : "Unlabelled" ∈ langs) (m : MultilingualFact)
    (hm : renderCell fe (some fact) [PureLabel] = some m) :
    ∃ m' t, renderCell fe (some fact) langs = some m' ∧ mapGet m' "Unlabelled" = some t ∧ mapGet m "Unlabelled" = some t ∧
      ∀ t', mapGet m' "en - english" = some t' → t' = t := by
  by_cases hn : fact.isNil
  · rw [(C56_missing_nil fe [PureLabel] fact).2 hn] at hm
    cases hm
    exact ⟨_, ⟨"", "nil", "", ""⟩, (C56_missing_nil fe langs fact).2 hn, by simp [mapGet], by simp [mapGet], by simp [mapGet]⟩
  · simp only [renderCell, if_neg hn] at hm ⊢
    obtain ⟨r, h1, _, h2⟩ := renderLangs_spec fe fact langs [] MapWF.nil
    obtain ⟨r', h1', _, h2'⟩ := renderLangs_spec fe fact [PureLabel] [] MapWF.nil
    rw [h1'] at hm
    cases hm
    obtain ⟨t, ht⟩ := renderFact_total fe ',' fact
    have e1 : sepOf "Unlabelled" = some ',' := by decide
    have e2 : sepOf "en - english" = some ',' := by decide
    refine ⟨r, t, h1, ?_, ?_, ?_⟩
    · rw [h2, e1]; simp only; rw [if_pos hl, ht]
    · rw [h2', e1]; simp only; rw [if_pos (by simp [PureLabel]), ht]
    · intro t' h
      rw [h2, e2] at h
      simp only at h
      split at h
      · rw [ht] at h; exact (Option.some.inj h).symm
      · simp [mapGet] at h

/-- A column and the expression for the same context. -/
theorem says_same {f : Folder} {entity : String} {fe : FactEnv} {notes : Option Fact → List Footnote}
    {co : Nat → Nat → GoMap String Footnote → GoMap String Footnote} {lo : GoMap String Footnote → GoMap String Footnote}
    (hco : ∀ i j m, (co i j m).Perm m) (hlo : ∀ m, (lo m).Perm m)
    {hrefs : List String} {periods headers : List LanguagePack} {members : List (List MemberCell)} {voids : List VoidCell}
    {q : Quadrant (Option MultilingualFact)} {langs : List Lang} (hl : hrefs ≠ [] → "Unlabelled" ∈ langs)
    (ha : Aligned f entity (folderSource f.insts fe notes co lo langs) hrefs periods members voids q)
    (hone : ∀ i ∈ f.insts, ∀ i' ∈ f.insts, i = i')
    {env : ExpressEnv} (hf : env.folder = f) (hfe : env.facts = fe) (hno : ∀ x, env.notes x = notes (some x)) (hord : ∀ i ∈ env.order, i ∈ f.insts)
    {name ref : String} {e : Expressable} (he : express env name ref = .done (.expr e))
    (hh : ∃ sp ls, headers = formatRelevantPeriod sp periods ls) : SaysSame e ref notes f entity hrefs headers members voids q := by
  obtain ⟨cols, hcols, hper, hm1, hm2, hq, hfacts, hnotes⟩ := ha
  obtain ⟨sp, ls, rfl⟩ := hh
  obtain ⟨fact, i, rest, c, rel, grid, m, h1, h2, h3, h4, h5, h6, h7⟩ := express_parts he
  subst hf hfe
  have hi : i ∈ env.folder.insts := hord i (by rw [h2]; simp)
  refine ⟨cols, hcols, fun n j col hn hj hr => ?_⟩
  obtain ⟨i', hi', c', _, ⟨fact', _, _, hc'⟩, hcol⟩ := column_context hcols (List.mem_of_getElem? hj)
  cases hone i hi i' hi'
  have hcc : c' = c := by
    obtain ⟨_, hid⟩ := firstWith_mem hc'
    have hid' : c'.id = ref := hcol.1.symm.trans hr
    have : ContextOf i ref c := (getContext_iff _ _ _).1 h3
    rw [← hid, hid'] at hc'
    exact firstWith_unique hc' this
  subst hcc
  obtain ⟨hcr, ⟨raw, hraw, hcper⟩, hmem⟩ := hcol
  have hne : hrefs ≠ [] := by intro e; rw [e] at hn; simp at hn
  have hcne : cols ≠ [] := by intro e; rw [e] at hj; simp at hj
  have hnoted := hnotes ⟨hco, hlo⟩
  refine ⟨?_, ?_, ?_, ?_, ?_⟩
  · obtain ⟨m', t, a1, a2, a3, a4⟩ := cell_text env.facts fact langs (hl hne) m h6
    refine ⟨m', t, (hfacts n j (some m')).2 ⟨e.href, col, hn, hj, ?_⟩, a2, ?_, a4⟩
    · show some m' = renderCell env.facts (Query.findFact env.folder.insts e.href col.contextRef) langs
      rw [hr, h1, a1]
    · rw [h7]; exact a3
  · have hd := headed_of hcols sp ls
    obtain ⟨h, hh, hp⟩ : ∃ h, (formatRelevantPeriod sp (cols.map RelevantContext.period) ls)[j]? = some h ∧
        ∃ raw, col.period = [("Unlabelled", raw)] ∧ mapGet h "Unlabelled" = some raw := by
      have hlen := hd.length_eq
      have hjl : j < cols.length := (List.getElem?_eq_some_iff.1 hj).1
      have := List.forall₂_iff_get.1 hd
      obtain ⟨_, hg⟩ := this
      obtain ⟨r, b1, b2, _⟩ := hg j hjl (hlen ▸ hjl)
      refine ⟨_, List.getElem?_eq_getElem (hlen ▸ hjl), r, ?_, b2⟩
      have : cols[j] = col := (List.getElem?_eq_some_iff.1 hj).2
      rw [← this]; exact b1
    obtain ⟨raw', hp1, hp2⟩ := hp
    rw [hcper] at hp1
    have : raw' = raw := by simpa using hp1.symm
    subst this
    refine ⟨h, raw', by rw [hper]; exact hh, hp2, ?_⟩
    rw [h7]
    show mapGet (periodTexts env.spanish (env.folder.label e.href) c') "Unlabelled" = some raw'
    rcases hraw with ⟨p1, p2, p3⟩ | ⟨p1, p2⟩
    · exact (C89_period env.spanish _ c' c'.startDate c'.endDate raw' (.inl ⟨p1, p2, rfl, rfl, p3⟩) _ _).2 (.inl ⟨rfl, rfl⟩)
    · exact (C89_period env.spanish _ c' "" c'.instant raw' (.inr ⟨p1, rfl, rfl, p2⟩) _ _).2 (.inl ⟨rfl, rfl⟩)
  · intro huniq a b v x x' hx hv hx' hv'
    obtain ⟨v1, c1, d1, d2, d3⟩ := (hm2 a j x).1 hx
    rw [hv] at d1; cases d1
    rw [hj] at d2; cases d2
    obtain ⟨_, _, hg⟩ := C42_grid env.memberOrder _ _ _ grid.1 grid.2 h5
    have hx'' : CellAt grid.1 b 0 x' := by rw [h7] at hx'; exact hx'
    have hv'' : grid.2[b]? = some v := by rw [h7] at hv'; exact hv'
    obtain ⟨v2, c2, f1, f2, f3⟩ := (hg b 0 x').1 hx''
    rw [hv''] at f1; cases f1
    -- the column of the expression
    have hc2 : c2 ∈ rel.contexts ∧ c2.contextRef = ref := by
      cases hfd : rel.contexts.find? (fun x => decide (x.contextRef = ref)) with
      | none => rw [hfd] at f2; simp at f2
      | some y =>
        rw [hfd] at f2
        simp at f2
        subst f2
        exact ⟨List.mem_of_find?_eq_some hfd, by simpa using List.find?_some hfd⟩
    obtain ⟨i2, hi2, cc2, _, ⟨_, _, _, hcc2⟩, hcol2⟩ := column_context (columnsFor_of h4) hc2.1
    cases hone i hi i2 hi2
    have : cc2 = c' := by
      obtain ⟨_, hid⟩ := firstWith_mem hcc2
      have hid' : cc2.id = ref := hcol2.1.symm.trans hc2.2
      rw [← hid, hid'] at hcc2
      exact firstWith_unique hcc2 ((getContext_iff _ _ _).1 h3)
    subst this
    have hset : ∀ m, m ∈ c2.members ↔ m ∈ col.members := fun m => (hcol2.2.2 m).trans (hmem m).symm
    have hshow : ∀ m x y, Shows x m → Shows y m → x = y := by
      intro m x y h1 h2
      rcases x with ⟨x1, x2⟩
      rcases y with ⟨y1, y2⟩
      rcases h1 with ⟨a1, a2, a3⟩ | ⟨a1, a2, a3⟩ <;> rcases h2 with ⟨b1, b2, b3⟩ | ⟨b1, b2, b3⟩
      · simp only at a2 a3 b2 b3; rw [a2, a3, b2, b3]
      · exact absurd a1 b1
      · exact absurd b1 a1
      · simp only at a2 a3 b2 b3; rw [a2, a3, b2, b3]
    rcases d3 with ⟨m1, k1, k2⟩ | ⟨k1, k2⟩ <;> rcases f3 with ⟨m2, l1, l2⟩ | ⟨l1, l2⟩
    · obtain ⟨q1, q2⟩ := firstWith_mem k1
      obtain ⟨q3, q4⟩ := firstWith_mem l1
      have := huniq v m1 q1 m2 ((hset m2).1 q3) q2 q4
      subst this
      exact hshow m1 x x' k2 l2
    · obtain ⟨q1, q2⟩ := firstWith_mem k1
      exact absurd q2 (l1 m1 ((hset m1).2 q1))
    · obtain ⟨q3, q4⟩ := firstWith_mem l1
      exact absurd q4 (k1 m2 ((hset m2).1 q3))
    · rw [k2, l2]
  · have hshape := (hq hne hcne).2
    have hnl : n < hrefs.length := (List.getElem?_eq_some_iff.1 hn).1
    have hjl : j < cols.length := (List.getElem?_eq_some_iff.1 hj).1
    have h8 : n < q.numbers.length := by rw [hshape.1]; exact hnl
    have h9 : j < (q.numbers[n]).length := by rw [hshape.2 _ (List.getElem_mem h8)]; exact hjl
    have hcell : CellAt q.numbers n j (q.numbers[n][j]) := ⟨_, List.getElem?_eq_getElem h8, List.getElem?_eq_getElem h9⟩
    refine ⟨_, hcell, ?_⟩
    obtain ⟨_, _, ids, g1, g2, g3⟩ := hnoted.keyed n j _ e.href col hcell hn hj
    have hn' : (folderSource env.folder.insts env.facts notes co lo langs).notes
        ((folderSource env.folder.insts env.facts notes co lo langs).find e.href col.contextRef) = env.notes fact := by
      show notes (Query.findFact env.folder.insts e.href col.contextRef) = _
      rw [hr, h1, hno]
    rw [hn'] at g2
    have he' : e.footnotes = (env.notes fact).map Footnote.inner := by rw [h7]
    rw [he', List.map_eq_nil_iff, ← List.length_eq_zero_iff, g3, List.length_eq_zero_iff]
    constructor
    · intro hnil
      rw [List.eq_nil_iff_forall_not_mem]
      intro y hy
      have := (g2 y.id).2 ⟨y, hy, rfl⟩
      rw [hnil] at this
      cases this
    · intro hnil
      rw [List.eq_nil_iff_forall_not_mem]
      intro y hy
      obtain ⟨z, hz, _⟩ := (g2 y).1 hy
      rw [hnil] at hz
      cases hz
  · intro hsame t ht
    have he' : e.footnotes = (env.notes fact).map Footnote.inner := by rw [h7]
    rw [he'] at ht
    obtain ⟨y, hy, rfl⟩ := List.mem_map.1 ht
    refine hnoted.listed ?_ n j y ⟨e.href, col, hn, hj, ?_⟩
    · rintro _ _ a _ _ b ⟨_, _, _, _, ha⟩ ⟨_, _, _, _, hb⟩ hab
      exact hsame _ _ a b ha hb hab
    · show y ∈ notes (Query.findFact env.folder.insts e.href col.contextRef)
      rw [hr, h1, ← hno]
      exact hy

theorem rows_href_label (f : Folder) (lbs : List (Lb PArc)) (role : String) :
    ∀ r ∈ getIndentedLabels f lbs role, r.label = f.label r.href := by
  unfold getIndentedLabels
  split
  · simp
  · exact mem_walk _ (fun r : IndentedLabel => r.label = f.label r.href) (fun l k => rfl) _

/-- **C167.** The expression of a fact and the grids of the same folder say the same of the fact, whatever the orders in which maps are
ranged over for the two answers; the rows of the presentation have the labels of the expression. (The label linkbases, if there are
several, are taken in the same order for both answers; if not, the labels may differ: `C176_label_fails`.) -/
theorem C167_agree (site : Site) (l : Loaded) (hl : Loads site l.folder l.world l.files l.hyd) (c c' : Choice) (hc : c.Fair l.hyd)
    (hc' : c'.Fair l.hyd) (hlb : c.labelOrder = c'.labelOrder ∨ l.hyd.label.length ≤ 1) (name ref : String) (e : Expressable) (he : express (expressEnv site c l) name ref = .done (.expr e))
    (entity role : String) (g : Grids (Option MultilingualFact))
    (hg : renderGrids (folderOf site c' l) (gridEnv site c' l) site.spanish c'.schedule (booksOf site c') entity role = .done g) :
    SaysSame e ref (notesOf site l) (folderOf site c' l) entity (g.p.rows.map IndentedLabel.href) g.p.periods g.p.members g.p.voids g.p.quadrant ∧
    (∀ r ∈ g.d.domains, SaysSame e ref (notesOf site l) (folderOf site c' l) entity (r.href :: r.primaryItems.map PrimaryItem.href) r.periods
      r.members r.voids r.quadrant) ∧
    (∀ i ∈ g.c, SaysSame e ref (notesOf site l) (folderOf site c' l) entity (i.contributing.map Contributing.href ++ [i.href]) i.periods
      i.members i.voids i.quadrant) ∧
    ∀ r ∈ g.p.rows, r.href = e.href → r.label = e.labels := by
  have hfold := folderOf_choice site hc hc' hlb
  have hone : ∀ i ∈ (folderOf site c' l).insts, ∀ i' ∈ (folderOf site c' l).insts, i = i' := by
    obtain ⟨_, _, fuel, sched, _, hload, _⟩ := hl
    intro i hi i' hi'
    change i ∈ values l.hyd.instances at hi
    change i' ∈ values l.hyd.instances at hi'
    rcases load_instances hload with ⟨e, _⟩ | ⟨_, _, _, _, _, _, _, _, _, e, _⟩
    · rw [e] at hi; cases hi
    · rw [e] at hi hi'
      rw [List.mem_singleton.1 hi, List.mem_singleton.1 hi']
  have hfe : (expressEnv site c l).facts = factEnv site c' l := by
    exact factEnv_choice site c c' l
  have hord : ∀ i ∈ (expressEnv site c l).order, i ∈ (folderOf site c' l).insts := fun i hi => hc.order.mem_iff.1 hi
  have hlab : ∀ href, ∃ labels, (folderOf site c' l).label href = getLabel labels href := fun _ => ⟨_, rfl⟩
  have key := fun (hrefs : List String) (periods headers : List LanguagePack) (members : List (List MemberCell)) (voids : List VoidCell)
      (q : Quadrant (Option MultilingualFact)) (langs : List Lang) hl ha hh =>
    says_same (f := folderOf site c' l) (entity := entity) (fe := factEnv site c' l) (notes := notesOf site l) (co := c'.cellOrder) (lo := c'.lastOrder)
      hc'.cell hc'.last (hrefs := hrefs) (periods := periods) (headers := headers) (members := members) (voids := voids) (q := q) (langs := langs)
      hl ha hone (env := expressEnv site c l) hfold hfe (fun _ => rfl) hord he hh
  obtain ⟨⟨p, pr, pl⟩, ⟨d, dr, dl⟩, ⟨cc, cr, cl⟩, hp, hd, hcc, rfl⟩ := renderGrids_done hg
  simp only [formatPeriod]
  refine ⟨?_, ?_, ?_, ?_⟩
  · obtain ⟨_, ha, ho⟩ := C92_presentation _ _ entity role _ p pr pl hp
    refine key _ _ _ _ _ _ pl (fun hne => label_unlabelled hlab (ho fun e => hne (by rw [e]; rfl))) ha ⟨_, _, rfl⟩
  · intro r hr
    obtain ⟨r', hr', rfl⟩ := List.mem_map.1 hr
    obtain ⟨langs, ha, ho⟩ := C93_definition _ _ entity role _ d dr dl hd r' hr'
    exact key _ _ _ _ _ _ langs (fun _ => label_unlabelled hlab ho) ha ⟨_, _, rfl⟩
  · intro i hi
    obtain ⟨i', hi', rfl⟩ := List.mem_map.1 hi
    obtain ⟨langs, ha, ho⟩ := C93_calculation _ _ entity role _ cc cr cl hcc i' hi'
    exact key _ _ _ _ _ _ langs (fun _ => label_unlabelled hlab ho) ha ⟨_, _, rfl⟩
  · intro r hr hre
    obtain ⟨h1, _⟩ := C92_presentation _ _ entity role _ p pr pl hp
    obtain ⟨_, _, _, _, _, _, _, _, _, _, _, _, _, h7⟩ := express_parts he
    rw [h1] at hr
    rw [h7]
    show r.label = (folderOf site c l).label e.href
    rw [rows_href_label _ _ _ r hr, hre, hfold]

/-- The hypotheses are met: a folder with an inline document, whose fact is in the first row and column of its presentation. -/
example : ∃ fo h e g, Loads inkSite "a-1" inkWorld fo h ∧ (demoChoice h).Fair h ∧
    express (expressEnv inkSite (demoChoice h) ⟨"a-1", inkWorld, fo, h⟩) "x:Cash" "c" = .done (.expr e) ∧
    renderGrids (folderOf inkSite (demoChoice h) ⟨"a-1", inkWorld, fo, h⟩) (gridEnv inkSite (demoChoice h) ⟨"a-1", inkWorld, fo, h⟩) inkSite.spanish
      (demoChoice h).schedule (booksOf inkSite (demoChoice h)) "s/1" "r" = .done g ∧
    e.href ∈ g.p.rows.map IndentedLabel.href ∧ g.p.periods.length = 1 := by
  have hd : (match load inkDisk inkWorld 3 id with
    | some (.done (some (fo, h))) =>
      (match express (expressEnv inkSite (demoChoice h) ⟨"a-1", inkWorld, fo, h⟩) "x:Cash" "c",
        renderGrids (folderOf inkSite (demoChoice h) ⟨"a-1", inkWorld, fo, h⟩) (gridEnv inkSite (demoChoice h) ⟨"a-1", inkWorld, fo, h⟩) inkSite.spanish
          (demoChoice h).schedule (booksOf inkSite (demoChoice h)) "s/1" "r" with
        | .done (.expr e), .done g => decide (e.href ∈ g.p.rows.map IndentedLabel.href ∧ g.p.periods.length = 1)
        | _, _ => false)
    | _ => false) = true := by decide +kernel
  split at hd
  · rename_i fo h hl
    split at hd
    · rename_i e g h1 h2
      exact ⟨fo, h, e, g, ink_loads hl, demoChoice_fair h, h1, h2, of_decide_eq_true hd⟩
    · cases hd
  · cases hd

end Telefacts
