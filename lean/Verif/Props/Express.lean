import Verif.Proof.Express
import Verif.Proof.PeriodText
import Verif.Props.Member
import Verif.Props.Quadrant
/-! # C88 - C91: the expression of a fact of an inline document -/
namespace Telefacts
open Telefacts.Render Telefacts.Instance Telefacts.Spec Telefacts.Document

/-- The parts of an expression that was made. -/
theorem expressFact_done {env : ExpressEnv} {href ref : String} {fact : Fact} {a : Answer} (h : expressFact env href ref fact = .done a) :
    ∃ i rest c rel grid m, env.order = i :: rest ∧ getContext i ref = some c ∧
      getRelevantContexts env.folder (c.scheme ++ "/" ++ c.ident) [href] = .done rel ∧
      getMemberGrid env.memberOrder (rel.contexts.find? (fun x => decide (x.contextRef = ref))).toList rel.segmentTrees rel.scenarioTrees = .done grid ∧
      renderCell env.facts (some fact) [PureLabel] = some m ∧
      a = .expr ⟨href, env.folder.label href, periodTexts env.spanish (env.folder.label href) c, grid.2, grid.1, m,
          (env.notes fact).map Footnote.inner⟩ := by
  unfold expressFact at h
  split at h
  · simp at h
  · rename_i i rest ho
    split at h
    · simp at h
    · rename_i c hc
      cases hr : getRelevantContexts env.folder (c.scheme ++ "/" ++ c.ident) [href] with
      | panic => rw [hr] at h; simp [Run.andThen] at h
      | loop => rw [hr] at h; simp [Run.andThen] at h
      | done rel =>
        rw [hr] at h
        simp only [Run.andThen] at h
        cases hg : getMemberGrid env.memberOrder (rel.contexts.find? (fun x => decide (x.contextRef = ref))).toList rel.segmentTrees rel.scenarioTrees with
        | panic => rw [hg] at h; simp at h
        | loop => rw [hg] at h; simp at h
        | done grid =>
          rw [hg] at h
          simp only at h
          split at h
          · simp at h
          · rename_i m hm
            exact ⟨i, rest, c, rel, grid, m, ho, hc, hr, hg, hm, (Run.done.inj h).symm⟩

/-- **C88.** What an expression says: the name and the context occur in the inline document, the href is that of the name,
the fact is the first with that href and context, it is shown as an unlabelled fact, with its footnotes in order, and with
the labels of the concept. -/
theorem C88_expression (env : ExpressEnv) (name ref : String) (e : Expressable) (h : express env name ref = .done (.expr e)) :
    ∃ doc x fact, env.doc = some doc ∧ mapGet doc.names name = some x ∧ (∃ b, mapGet doc.ctxs ref = some b) ∧
      env.nameQuery x.space x.loc = .ok e.href ∧
      FirstWith (fun f => f.href = e.href ∧ f.contextRef = ref) (env.folder.insts.flatMap HInstance.facts) fact ∧
      renderCell env.facts (some fact) ["Unlabelled"] = some e.expression ∧ e.expression.map Prod.fst = ["Unlabelled"] ∧
      e.footnotes = (env.notes fact).map Footnote.inner ∧ e.labels = env.folder.label e.href := by
  unfold express at h
  split at h
  · simp at h
  · rename_i doc hdoc
    split at h
    · simp at h
    · rename_i x hx
      split at h
      · simp at h
      · rename_i b hb
        split at h
        · simp at h
        · simp at h
        · rename_i href hq
          split at h
          · simp at h
          · rename_i fact hf
            obtain ⟨i, rest, c, rel, grid, m, ho, hc, hr, hg, hm, ha⟩ := expressFact_done h
            cases ha
            refine ⟨doc, x, fact, hdoc, hx, ⟨b, hb⟩, hq, (C40_found _ _ _ _).1 hf, hm, ?_, rfl, rfl⟩
            by_cases hn : fact.isNil
            · rw [(C56_missing_nil env.facts [PureLabel] fact).2 hn] at hm
              cases hm; rfl
            · obtain ⟨m', h1, h2, h3⟩ := C56_entries env.facts [PureLabel] fact (by simpa using hn)
              rw [h1] at hm
              rw [Option.some.inj hm] at h2 h3
              have hk : ∀ l, l ∈ m.map Prod.fst ↔ l = "Unlabelled" := by
                intro l
                rw [h3]
                constructor
                · rintro ⟨a, _⟩; simpa [PureLabel] using a
                · rintro rfl; exact ⟨by simp [PureLabel], .inr (.inr rfl)⟩
              simp only
              revert h2 hk
              generalize m.map Prod.fst = ks
              intro h2 hk
              match ks, h2, hk with
              | [], _, hk => exact absurd ((hk "Unlabelled").2 rfl) (by simp)
              | [k], _, hk => rw [(hk k).1 (by simp)]
              | k :: k' :: ks, h2, hk =>
                have e1 := (hk k).1 (by simp)
                have e2 := (hk k').1 (by simp)
                simp [e1, e2] at h2

/-- **C88.** When nothing is answered: the name or the context does not occur in the inline document, or there is no fact. -/
theorem C88_nothing (env : ExpressEnv) (name ref : String) : express env name ref = .done .nothing ↔
    ∃ doc, env.doc = some doc ∧ (mapGet doc.names name = none ∨ mapGet doc.ctxs ref = none ∨
      ∃ x href, mapGet doc.names name = some x ∧ env.nameQuery x.space x.loc = .ok href ∧
        ∀ i ∈ env.folder.insts, ∀ f ∈ i.facts, ¬ (f.href = href ∧ f.contextRef = ref)) := by
  have hfind : ∀ href, Query.findFact env.folder.insts href ref = none ↔
      ∀ i ∈ env.folder.insts, ∀ f ∈ i.facts, ¬ (f.href = href ∧ f.contextRef = ref) := by
    intro href
    unfold Query.findFact
    simp only [List.find?_eq_none, List.mem_flatMap, decide_eq_true_eq]
    constructor
    · intro h i hi f hf; exact h f ⟨i, hi, hf⟩
    · rintro h f ⟨i, hi, hf⟩; exact h i hi f hf
  unfold express
  cases hdoc : env.doc with
  | none => simp
  | some doc =>
    simp only [Option.some.injEq, exists_eq_left']
    cases hx : mapGet doc.names name with
    | none => simp
    | some x =>
      cases hb : mapGet doc.ctxs ref with
      | none => simp
      | some b =>
        simp only [reduceCtorEq, false_or, Option.some.injEq]
        cases hq : env.nameQuery x.space x.loc with
        | err m =>
          simp only [Run.done.injEq, reduceCtorEq, false_iff]
          rintro ⟨x', href, rfl, h, _⟩
          rw [hq] at h; simp at h
        | panic =>
          simp only [reduceCtorEq, false_iff]
          rintro ⟨x', href, rfl, h, _⟩
          rw [hq] at h; simp at h
        | ok href =>
          simp only
          cases hf : Query.findFact env.folder.insts href ref with
          | none =>
            simp only [true_iff]
            exact ⟨x, href, rfl, hq, (hfind href).1 hf⟩
          | some fact =>
            simp only
            constructor
            · intro h
              obtain ⟨_, _, _, _, _, _, _, _, _, _, _, ha⟩ := expressFact_done h
              simp at ha
            · rintro ⟨x', href', rfl, h, hno⟩
              rw [hq] at h
              cases h
              rw [(hfind href).2 hno] at hf
              simp at hf

/-- The labels of a concept have a text in a language. -/
def HasLang (labels : LabelPack) (lang : Lang) : Prop := ∃ role pack text, (role, pack) ∈ labels ∧ (lang, text) ∈ pack

theorem period_texts (sp : Date → Option String) (labels : LabelPack) (c : Context) (start stop raw : String)
    (hp : (c.startDate ≠ "" ∧ c.endDate ≠ "" ∧ start = c.startDate ∧ stop = c.endDate ∧ raw = start ++ "/" ++ stop) ∨
      (¬ (c.startDate ≠ "" ∧ c.endDate ≠ "") ∧ start = "" ∧ stop = c.instant ∧ raw = stop)) (lang : Lang) (t : String) :
    mapGet (periodTexts sp labels c) lang = some t ↔
      (lang = "Unlabelled" ∧ t = raw) ∨
      (raw ≠ "" ∧ ((lang = "Truncated" ∧ t = raw) ∨
        (lang = English ∧ HasLang labels English ∧ t = formatEnglishDates start stop) ∨
        (lang = Espanol ∧ HasLang labels Espanol ∧ t = formatSpanishDates sp start stop))) := by
  have hl : ∀ l, l ∈ labels.flatMap (fun item => item.2.map Prod.fst) ↔ HasLang labels l := by
    intro l
    unfold HasLang
    simp only [List.mem_flatMap, List.mem_map, Prod.exists, exists_and_right, exists_eq_right]
    constructor
    · rintro ⟨r, p, h1, x, h2⟩; exact ⟨r, p, x, h1, h2⟩
    · rintro ⟨r, p, x, h1, h2⟩; exact ⟨r, p, h1, x, h2⟩
  have key : ∀ r : String, r ≠ "" → (mapGet (addPeriodTexts sp [(PureLabel, r), (BriefLabel, r)] labels start stop) lang = some t ↔
      (lang = "Unlabelled" ∧ t = r) ∨
      (r ≠ "" ∧ ((lang = "Truncated" ∧ t = r) ∨
        (lang = English ∧ HasLang labels English ∧ t = formatEnglishDates start stop) ∨
        (lang = Espanol ∧ HasLang labels Espanol ∧ t = formatSpanishDates sp start stop)))) := by
    intro r hr
    rw [addPeriodTexts_get]
    have n1 : English ≠ Espanol := by decide
    have n2 : English ≠ "Unlabelled" := by decide
    have n3 : English ≠ "Truncated" := by decide
    have n4 : Espanol ≠ "Unlabelled" := by decide
    have n5 : Espanol ≠ "Truncated" := by decide
    have n6 : ("Unlabelled" : String) ≠ "Truncated" := by decide
    by_cases e1 : lang = English
    · subst e1
      by_cases hh : HasLang labels English
      all_goals have hh' := hh
      all_goals rw [← hl] at hh'
      · simp [hh, hh', n1, n2, n3, hr, eq_comm]
      · have : mapGet [(PureLabel, r), (BriefLabel, r)] English = none := by simp [mapGet, PureLabel, BriefLabel, English]
        simp [hh, hh', n1, n2, n3, this]
    by_cases e2 : lang = Espanol
    · subst e2
      by_cases hh : HasLang labels Espanol
      all_goals have hh' := hh
      all_goals rw [← hl] at hh'
      · simp [hh, hh', Ne.symm n1, n4, n5, hr, eq_comm]
      · have : mapGet [(PureLabel, r), (BriefLabel, r)] Espanol = none := by simp [mapGet, PureLabel, BriefLabel, Espanol]
        simp [hh, hh', Ne.symm n1, n4, n5, this]
    rw [if_neg (fun h => e1 h.1), if_neg (fun h => e2 h.1)]
    simp only [e1, e2, false_and, or_false]
    by_cases e3 : lang = "Unlabelled"
    · subst e3
      simp [mapGet, PureLabel, eq_comm]
    by_cases e4 : lang = "Truncated"
    · subst e4
      simp [mapGet, PureLabel, BriefLabel, hr, eq_comm]
    · simp [mapGet, PureLabel, BriefLabel, e3, e4, Ne.symm e3, Ne.symm e4]
  unfold periodTexts
  rcases hp with ⟨h1, h2, rfl, rfl, rfl⟩ | ⟨h1, rfl, rfl, rfl⟩
  · rw [if_pos ⟨h2, h1⟩]
    refine key _ ?_
    intro he
    have : (c.startDate ++ "/" ++ c.endDate).toList = [] := by rw [he]; rfl
    simp [String.toList_append] at this
  · rw [if_neg (fun h => h1 ⟨h.2, h.1⟩)]
    by_cases hi : c.instant = ""
    · rw [if_neg (by simp [hi]), hi]
      simp only [mapGet, ne_eq, not_true_eq_false, false_and, or_false]
      by_cases e : lang = "Unlabelled"
      · subst e; simp [PureLabel, eq_comm]
      · simp [PureLabel, e, Ne.symm e]
    · rw [if_pos hi]
      exact key _ hi

/-- **C89.** The period of an expression: the raw period is there, unabridged under both keys unless it is empty; the period
in English (Spanish) is there iff it is not empty and the concept has a label in that language; there is nothing else. -/
theorem C89_period (sp : Date → Option String) (labels : LabelPack) (c : Context) (start stop raw : String)
    (hp : (c.startDate ≠ "" ∧ c.endDate ≠ "" ∧ start = c.startDate ∧ stop = c.endDate ∧ raw = start ++ "/" ++ stop) ∨
      (¬ (c.startDate ≠ "" ∧ c.endDate ≠ "") ∧ start = "" ∧ stop = c.instant ∧ raw = stop)) (lang : Lang) (t : String) :
    mapGet (periodTexts sp labels c) lang = some t ↔
      (lang = "Unlabelled" ∧ t = raw) ∨
      (raw ≠ "" ∧ ((lang = "Truncated" ∧ t = raw) ∨
        (lang = "en - english" ∧ HasLang labels "en - english" ∧ EnglishPeriod start stop t) ∨
        (lang = "es - español" ∧ HasLang labels "es - español" ∧ SpanishPeriod sp start stop t))) := by
  rw [englishPeriod_iff, spanishPeriod_iff]
  exact period_texts sp labels c start stop raw hp lang t

/-- No typed domain tree of the folder has a dimension without href. -/
def TreesNamed (f : Folder) : Prop :=
  ∀ i ∈ f.insts, ∀ c ∈ i.contexts, ∀ t, t ∈ typedTrees f c.segment ∨ t ∈ typedTrees f c.scenario → ∀ x, NodeAt t 1 x → x ≠ ""

/-- The trees found are those of contexts of the folder. -/
theorem relevant_trees {f : Folder} {entity : String} {hrefs : List String} {rel : Relevant}
    (h : getRelevantContexts f entity hrefs = .done rel) (t : Node) (ht : t ∈ rel.segmentTrees ++ rel.scenarioTrees) :
    ∃ i ∈ f.insts, ∃ c ∈ i.contexts, t ∈ typedTrees f c.segment ∨ t ∈ typedTrees f c.scenario := by
  rw [getRelevantContexts_eq] at h
  cases hc : allContexts entity (factualHrefs f hrefs) f.insts with
  | panic => rw [hc] at h; simp [Run.andThen] at h
  | loop => rw [hc] at h; simp [Run.andThen] at h
  | done cs =>
    rw [hc] at h
    simp only [Run.andThen, Run.done.injEq] at h
    subst h
    obtain ⟨css, rfl, hf⟩ := allContexts_done hc
    have hmem : ∀ c ∈ css.flatten, ∃ i ∈ f.insts, c ∈ i.contexts := by
      intro c hc
      obtain ⟨l, hl, hcl⟩ := List.mem_flatten.1 hc
      obtain ⟨i, hi, hrel⟩ : ∃ i ∈ f.insts, ∀ c, c ∈ l ↔ OfEntity entity c ∧ HasFactFor f hrefs i c := by
        revert hl
        clear * - hf
        revert hf
        generalize f.insts = is
        intro hf
        induction hf with
        | nil => simp
        | cons h1 _ ih =>
          intro hl
          rcases List.mem_cons.1 hl with rfl | hl
          · exact ⟨_, List.mem_cons_self, h1.2⟩
          · obtain ⟨i, hi, h⟩ := ih hl
            exact ⟨i, List.mem_cons_of_mem _ hi, h⟩
      obtain ⟨_, fact, _, _, hco⟩ := (hrel c).1 hcl
      exact ⟨i, hi, (firstWith_mem hco).1⟩
    rcases List.mem_append.1 ht with ht | ht
    · obtain ⟨c, hc, h⟩ := List.mem_flatMap.1 ht
      obtain ⟨i, hi, hci⟩ := hmem c hc
      exact ⟨i, hi, c, hci, .inl h⟩
    · obtain ⟨c, hc, h⟩ := List.mem_flatMap.1 ht
      obtain ⟨i, hi, hci⟩ := hmem c hc
      exact ⟨i, hi, c, hci, .inr h⟩

theorem expressFact_panic (env : ExpressEnv) (href ref : String) (fact : Fact) (ht : TreesNamed env.folder) :
    (expressFact env href ref fact = .panic ↔ env.order = [] ∨ (∃ i rest, env.order = i :: rest ∧ ∀ c ∈ i.contexts, c.id ≠ ref) ∨
      ∃ i ∈ env.folder.insts, Dangling env.folder [href] i) ∧ expressFact env href ref fact ≠ .loop := by
  unfold expressFact
  cases ho : env.order with
  | nil => simp
  | cons i rest =>
    simp only [reduceCtorEq, List.cons.injEq, false_or]
    cases hc : getContext i ref with
    | none =>
      simp only [reduceCtorEq, ne_eq, not_false_eq_true, and_true, true_iff]
      exact .inl ⟨i, rest, ⟨rfl, rfl⟩, (getContext_none i ref).1 hc⟩
    | some c =>
      have hno : ¬ ∃ i' rest', (i = i' ∧ rest = rest') ∧ ∀ c ∈ i'.contexts, c.id ≠ ref := by
        rintro ⟨_, _, ⟨rfl, rfl⟩, h⟩
        rw [(getContext_none i ref).2 h] at hc
        simp at hc
      simp only [hno, false_or]
      obtain ⟨p1, p2⟩ := C38_no_panic_partial env.folder (c.scheme ++ "/" ++ c.ident) [href]
      rw [← p1]
      cases hr : getRelevantContexts env.folder (c.scheme ++ "/" ++ c.ident) [href] with
      | panic => simp [Run.andThen]
      | loop => exact absurd hr p2
      | done rel =>
        simp only [Run.andThen]
        obtain ⟨g, hg⟩ := getMemberGrid_total env.memberOrder (rel.contexts.find? (fun x => decide (x.contextRef = ref))).toList
          rel.segmentTrees rel.scenarioTrees (by
            rintro x ⟨t, htm, hn⟩
            obtain ⟨i, hi, c, hc, h⟩ := relevant_trees hr t htm
            exact ht i hi c hc t h x hn)
        rw [hg]
        simp only
        have hm : ∃ m, renderCell env.facts (some fact) [PureLabel] = some m := by
          by_cases hn : fact.isNil
          · exact ⟨_, (C56_missing_nil env.facts [PureLabel] fact).2 hn⟩
          · obtain ⟨m, h, _⟩ := C56_entries env.facts [PureLabel] fact (by simpa using hn)
            exact ⟨m, h⟩
        obtain ⟨m, hm⟩ := hm
        rw [hm]
        simp

/-- **C90 (partial).** A request panics exactly when there is no inline document, or a fact is found and the instance that is
ranged over first does not have its context, or a fact of the concept refers to a context that its instance does not have.
Missing: in these cases it should answer, too (`C90_fails_no_document`, `C90_fails_instance`). -/
theorem C90_no_panic_partial (env : ExpressEnv) (name ref : String) (ht : TreesNamed env.folder)
    (hq : ∀ s l, env.nameQuery s l ≠ .panic) :
    (express env name ref = .panic ↔ env.doc = none ∨
      ∃ doc x b href fact, env.doc = some doc ∧ mapGet doc.names name = some x ∧ mapGet doc.ctxs ref = some b ∧
        env.nameQuery x.space x.loc = .ok href ∧
        FirstWith (fun f => f.href = href ∧ f.contextRef = ref) (env.folder.insts.flatMap HInstance.facts) fact ∧
        (env.order = [] ∨ (∃ i rest, env.order = i :: rest ∧ ∀ c ∈ i.contexts, c.id ≠ ref) ∨
          ∃ i ∈ env.folder.insts, Dangling env.folder [href] i)) ∧
    express env name ref ≠ .loop := by
  unfold express
  cases hdoc : env.doc with
  | none => simp
  | some doc =>
    cases hx : mapGet doc.names name with
    | none => simp [hx]
    | some x =>
      cases hb : mapGet doc.ctxs ref with
      | none => simp [hx, hb]
      | some b =>
        simp only [hx, hb]
        cases hqq : env.nameQuery x.space x.loc with
        | err m =>
          simp only [reduceCtorEq, false_or, ne_eq, not_false_eq_true, and_true, false_iff]
          rintro ⟨d', x', b', href, fact, h1, h2, _, h3, _⟩
          cases h1
          rw [hx] at h2
          cases h2
          rw [hqq] at h3
          simp at h3
        | panic => exact absurd hqq (hq _ _)
        | ok href =>
          simp only
          cases hf : Query.findFact env.folder.insts href ref with
          | none =>
            simp only [reduceCtorEq, false_or, ne_eq, not_false_eq_true, and_true, false_iff]
            rintro ⟨d', x', b', href', fact, h1, h2, _, h3, h4, _⟩
            cases h1
            rw [hx] at h2
            cases h2
            rw [hqq] at h3
            cases h3
            rw [(C40_found _ _ _ _).2 h4] at hf
            simp at hf
          | some fact =>
            simp only
            obtain ⟨p1, p2⟩ := expressFact_panic env href ref fact ht
            refine ⟨?_, p2⟩
            rw [p1]
            constructor
            · intro h
              exact .inr ⟨doc, x, b, href, fact, rfl, hx, hb, hqq, (C40_found _ _ _ _).1 hf, h⟩
            · rintro (h | ⟨d', x', b', href', fact', h1, h2, _, h3, h4, h5⟩)
              · simp at h
              · cases h1
                rw [hx] at h2
                cases h2
                rw [hqq] at h3
                cases h3
                exact h5

/-- A folder with the instances `i` (contexts `c1`, `c2`) and `j` (no contexts). The fact in `c1` has an explicit member of
`x#Dim`, the one in `c2` a typed member of `x#Typed`. -/
def exprInst : HInstance :=
  ⟨"i", [ctxExample "c1" "s" "1" "2020-12-31" [⟨"x#Dim", "", "x#Mem", ""⟩],
      ⟨"c2", "s", "1", ⟨[], [⟨"x#Typed", "", "x#domain", [("x#domain", "text")], []⟩]⟩, "2020-12-31", "", "", ⟨[], []⟩⟩], [], [],
    [⟨"x#Cash", "f1", "c1", "", precisionless, false, "12"⟩, ⟨"x#Cash", "f2", "c2", "", precisionless, false, "13"⟩]⟩

def exprEnv (order : List HInstance) (doc : Option Doc) : ExpressEnv where
  folder := {
    insts := [exprInst]
    concept := fun h => if h = "x#Cash" then some (conceptExample "Cash" false) else none
    label := fun h => [("Default", [("Unlabelled", h), (English, "Cash")])]
    tree := fun _ _ => .mk "" .zero [.mk "x#Typed" .zero [.mk "x#domain" .zero []]] }
  doc := doc
  nameQuery := fun _ l => .ok ("x#" ++ l)
  order := order
  notes := fun _ => [⟨"n", "a footnote", "", ""⟩]
  facts := { ftEnv with concept := fun _ => some (conceptExample "Cash" false) }
  spanish := fun _ => none
  memberOrder := id

def exprDoc : Doc := ⟨[("x:Cash", ⟨"x", "Cash"⟩)], [("c1", true), ("c2", true)]⟩

/-- The expression of the fact in `c1`, with its period in English. -/
example : ∃ e, express (exprEnv [exprInst] (some exprDoc)) "x:Cash" "c1" = .done (.expr e) ∧ e.href = "x#Cash" ∧
    e.expression = [("Unlabelled", ⟨"", "12", "", ""⟩)] ∧ e.footnotes = ["a footnote"] ∧
    e.period = [("Unlabelled", "2020-12-31"), ("Truncated", "2020-12-31"), (English, "as of December 31, 2020")] :=
  ⟨⟨"x#Cash", [("Default", [("Unlabelled", "x#Cash"), (English, "Cash")])],
    [("Unlabelled", "2020-12-31"), ("Truncated", "2020-12-31"), (English, "as of December 31, 2020")], [], [],
    [("Unlabelled", ⟨"", "12", "", ""⟩)], ["a footnote"]⟩, by decide +kernel, rfl, rfl, rfl, rfl⟩

example : express (exprEnv [exprInst] (some exprDoc)) "x:Debt" "c1" = .done .nothing ∧
    express (exprEnv [exprInst] (some exprDoc)) "x:Cash" "c3" = .done .nothing := by decide +kernel

example : TreesNamed (exprEnv [exprInst] (some exprDoc)).folder := by
  intro i hi c hc t ht x hx
  have : t = .mk "" .zero [.mk "x#Typed" .zero [.mk "x#domain" .zero []]] := by
    rcases ht with ht | ht <;> (obtain ⟨m, _, rfl⟩ := List.mem_map.1 ht; rfl)
  subst this
  rw [nodeAt_succ] at hx
  obtain ⟨t, ht, hx⟩ := hx
  rw [List.mem_singleton.1 ht, nodeAt_zero] at hx
  rw [hx]
  decide

/-- **C90 fails.** A folder without inline document panics for every request. -/
theorem C90_fails_no_document (env : ExpressEnv) (h : env.doc = none) (name ref : String) : express env name ref = .panic := by
  unfold express
  rw [h]

/-- **C90 fails.** With a second instance: the request for a fact and a context that are there panics when the other instance is
ranged over first. -/
theorem C90_fails_instance : express (exprEnv [⟨"j", [], [], [], []⟩, exprInst] (some exprDoc)) "x:Cash" "c1" = .panic ∧
    ∃ e, express (exprEnv [exprInst, ⟨"j", [], [], [], []⟩] (some exprDoc)) "x:Cash" "c1" = .done (.expr e) :=
  ⟨by decide +kernel, ⟨"x#Cash", [("Default", [("Unlabelled", "x#Cash"), (English, "Cash")])],
    [("Unlabelled", "2020-12-31"), ("Truncated", "2020-12-31"), (English, "as of December 31, 2020")], [], [],
    [("Unlabelled", ⟨"", "12", "", ""⟩)], ["a footnote"]⟩, by decide +kernel⟩

/-- **C91 (partial).** If every dimension and domain of the typed domain trees of all columns is one of the column of the
context, the expression has the explicit dimensions of that column as rows, followed by typed rows.
Missing: a column of the same concept with a typed dimension that the context does not have (`C91_fails`). -/
theorem C91_rows_partial (env : ExpressEnv) (name ref : String) (e : Expressable) (h : express env name ref = .done (.expr e))
    (ho : ∀ m, (env.memberOrder m).Perm m) :
    ∃ i rest c rel, env.order = i :: rest ∧ ContextOf i ref c ∧
      getRelevantContexts env.folder (c.scheme ++ "/" ++ c.ident) [e.href] = .done rel ∧
      ((∀ col ∈ rel.contexts, col.contextRef ≠ ref) → e.rows = [] ∧ e.members = []) ∧
      ∀ col, FirstWith (fun col => col.contextRef = ref) rel.contexts col →
        AllKnown [col] (sortTrees rel.segmentTrees) → AllKnown [col] (sortTrees rel.scenarioTrees) →
        ∃ E T, e.rows = E ++ T ∧ ExplicitPart [col] E ∧ (∀ r ∈ T, 1 ≤ r.indentation) ∧ HasShape e.members e.rows.length 1 := by
  unfold express at h
  split at h
  · simp at h
  · split at h
    · simp at h
    · split at h
      · simp at h
      · split at h
        · simp at h
        · simp at h
        · rename_i href hq
          split at h
          · simp at h
          · rename_i fact hf
            obtain ⟨i, rest, c, rel, grid, m, ho', hc, hr, hg, hm, ha⟩ := expressFact_done h
            cases ha
            refine ⟨i, rest, c, rel, ho', (getContext_iff _ _ _).1 hc, hr, ?_, ?_⟩
            · intro hno
              have : rel.contexts.find? (fun x => decide (x.contextRef = ref)) = none := by
                simp only [List.find?_eq_none, decide_eq_true_eq]
                exact hno
              rw [this] at hg
              cases hg
              exact ⟨rfl, rfl⟩
            · intro col hcol k1 k2
              have hfc : rel.contexts.find? (fun x => decide (x.contextRef = ref)) = some col := by
                apply (firstWith_iff_find _ _ _).1
                simpa using hcol
              rw [hfc] at hg
              obtain ⟨E, T, hv, hE, hT⟩ := C43_explicit_partial env.memberOrder ho [col] _ _ k1 k2
              have hshape := (C42_grid env.memberOrder [col] rel.segmentTrees rel.scenarioTrees grid.1 grid.2 hg).1
              unfold getMemberGrid at hg
              rw [Option.toList_some, if_neg (by simp), hv] at hg
              simp only [Run.andThen] at hg
              refine ⟨E, T, ?_, hE, hT, hshape⟩
              split at hg
              · rename_i h0
                cases hg
                exact h0.symm
              · cases hg
                rfl

/-- **C91 fails.** The context `c1` has an explicit member of `x#Dim`; its expression has no dimension rows, because the other
context of the concept has a typed dimension. -/
theorem C91_fails : (∃ c ∈ exprInst.contexts, c.id = "c1" ∧ c.segment.explicit.map ExplicitMember.dimHref = ["x#Dim"]) ∧
    ∃ e, express (exprEnv [exprInst] (some exprDoc)) "x:Cash" "c1" = .done (.expr e) ∧ e.rows = [] :=
  ⟨⟨_, List.mem_cons_self, rfl, rfl⟩,
    ⟨"x#Cash", [("Default", [("Unlabelled", "x#Cash"), (English, "Cash")])],
    [("Unlabelled", "2020-12-31"), ("Truncated", "2020-12-31"), (English, "as of December 31, 2020")], [], [],
    [("Unlabelled", ⟨"", "12", "", ""⟩)], ["a footnote"]⟩, by decide +kernel, rfl⟩

end Telefacts
