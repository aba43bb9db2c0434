import Verif.Props.Http
import Verif.Props.Ixbrl
/-! # C133: from the files to the client, for the facts of inline documents -/
namespace Telefacts
open Telefacts.Server Telefacts.Hydrate Telefacts.Catalog Telefacts.Json Telefacts.Cache Telefacts.Schema Telefacts.Instance
  Telefacts.Render Telefacts.Decode Telefacts.Spec Telefacts.Linkbase Telefacts.Document Telefacts.Ixbrl

theorem uses_wellformed {html : List XpathAttr} {f : InlineFact} {s : String} {x : XName} {c : String} (h : Uses html f s x c) :
    ¬ Malformed html f ∧ ¬ Undeclared html f := by
  refine ⟨?_, not_uses_undeclared h⟩
  obtain ⟨h1, h2, p, hp, hs, _⟩ := h
  rintro (hm | ⟨s', hm, hc⟩ | ⟨hm, _⟩)
  · exact hm s h1
  · obtain ⟨a, ha, rfl⟩ := h1
    obtain ⟨b, hb, rfl⟩ := hm
    cases firstWith_unique ha hb
    rw [hs] at hc
    exact hc (by simp)
  · exact hm c h2

/-- What discovery keeps of an inline document. -/
theorem discover_document {d : Disk} {ds : List Dom} {h : Dom} (hd : DocumentAt d ds h) {fuel : Nat}
    {sched : List (Disc.Write LinkbaseFile) → List (Disc.Write LinkbaseFile)} {fo : Disc.Folder LinkbaseFile DocFile}
    (hf : Disc.discover d.env fuel sched = some (.ok fo)) :
    fo.document = some ⟨h.attrs, inlines "nonNumeric" ds, inlines "nonFraction" ds⟩ := by
  obtain ⟨e, he, hi, hr, hh⟩ := hd
  have hdec : decodeIxbrlFile (some ds) = some ⟨h.attrs, inlines "nonNumeric" ds, inlines "nonFraction" ds⟩ := by
    simp only [decodeIxbrlFile, (html_iff ds h).2 hh]
  rw [hdec] at hr
  unfold Disc.discover at hf
  rw [show d.env.entryName = some e from he] at hf
  simp only [if_pos ((Disc.inline_iff e).1 hi)] at hf
  rw [show d.env.readDoc e = _ from hr] at hf
  simp only [show ∀ x i, d.env.transform x i = x from fun _ _ => rfl, ite_self] at hf
  split at hf
  · cases hf
  · unfold Disc.withInstance at hf
    split at hf
    · cases hf
    · split at hf
      · cases hf
      · simp only [Option.some.injEq, Res.ok.injEq] at hf
        rw [← hf]
        exact (Disc.applyWrites_rest _ _).2.1

/-- The names and contexts that are known after a load are those of the text and number facts. -/
theorem loaded_document {site : Site} {id : String} {w : Hydrate.World} {fo : Files} {hy : Hydratable} (hl : Loads site id w fo hy)
    {ds : List Dom} {h : Dom} (hd : DocumentAt (site.disk id) ds h) :
    ∃ doc, hy.document = some doc ∧
      (∀ s q, mapGet doc.names s = some q ↔ ∃ x c, Elem ds x ∧ Simple x ∧ Uses h.attrs x.attrs s q c) ∧
      ∀ c b, mapGet doc.ctxs c = some b ↔ b = true ∧ ∃ x s q, Elem ds x ∧ Simple x ∧ Uses h.attrs x.attrs s q c := by
  obtain ⟨_, _, fuel, sched, hp, hload, hw, _⟩ := hl
  obtain ⟨fo0, h1, rfl, h2⟩ := load_some hload
  have hdoc := discover_document hd h1
  obtain ⟨k1, k2⟩ := hw _ _ h1 hdoc
  obtain ⟨_, _, _, _, _, _, _, h3⟩ := hydrate_some h2
  rcases hydrateDoc_some.1 h3 with ⟨h4, _⟩ | ⟨x, doc, h4, h5, h6⟩
  · change fo0.document = none at h4
    rw [hdoc] at h4; cases h4
  · change fo0.document = some x at h4
    rw [hdoc] at h4; cases h4
    refine ⟨doc, h5, ?_⟩
    obtain ⟨⟨np, hnp⟩, hall⟩ := (C31_succeeds _ _ _ _ _ k1 k2).1 ⟨doc, h6⟩
    obtain ⟨_, _, _, _, hh⟩ := hd
    have hok : ∀ x, Elem ds x → Simple x → ¬ Malformed h.attrs x.attrs ∧ ¬ Undeclared h.attrs x.attrs := by
      intro x hx hs
      obtain ⟨s, q, c, hu⟩ := hall x.attrs ((mem_facts ds x.attrs).2 ⟨x, hx, hs, rfl⟩)
      exact uses_wellformed hu
    obtain ⟨d', hd', hk⟩ := C107_known_partial ds h hh np hnp hok
    have hdec : decodeIxbrlFile (some ds) = some ⟨h.attrs, inlines "nonNumeric" ds, inlines "nonFraction" ds⟩ := by
      simp only [decodeIxbrlFile, (html_iff ds h).2 hh]
    rw [hdec] at hd'
    cases hd'
    obtain ⟨doc', h7, h8, h9⟩ := hk _ _ k1 k2
    rw [h6] at h7
    cases h7
    exact ⟨h8, h9⟩

/-- The only instance of the folder, the fact in it and its context, as a request for an expression sees them. -/
theorem expressed_fact {site : Site} {ld : Loaded} (hl : Loads site ld.folder ld.world ld.files ld.hyd) {ch : Choice} (hch : ch.Fair ld.hyd)
    (hurl : site.outside.validUrl = (site.disk ld.folder).isUrl)
    {root : Xml} {inst : Disc.InstanceFile} (hroot : EntryRoot (site.disk ld.folder) root inst) {file : InstFile}
    (hfile : instanceFile root = some file) {x : Xml} {c : Concept} {r : String} (hx : Reports root x c r)
    {l : String} {sx : Xml} (hsx : SchemaAt (site.disk ld.folder) site.outside.discover inst x.name.space l sx) (hc : DeclaredIn sx l c) (hdist : Distinct sx l c)
    (hids : ∀ l' c', Declares (queryEnv ld.world ld.files) l' c' → '#' ∉ c'.id.toList)
    {cc : Context} (hcc : HasContext (instanceWorld ld.world ld.files file) root r cc) :
    ∃ f i, FactOf (instanceWorld ld.world ld.files file) (fact x) f ∧ f.href = l ++ "#" ++ c.id ∧ f.contextRef = r ∧
      values ld.hyd.instances = [i] ∧ ch.order = [i] ∧ f ∈ i.facts ∧ (∀ y ∈ i.facts, y.href = l ++ "#" ++ c.id → y.contextRef = r → y = f) ∧
      Render.ContextOf i r cc ∧ (factEnv site ch ld).concept (l ++ "#" ++ c.id) = some c ∧
      (expressEnv site ch ld).nameQuery x.name.space x.name.loc = .ok (l ++ "#" ++ c.id) := by
  obtain ⟨⟨p, d, o, nn, ll, s₁, s₂, hw⟩, hfw, fuel, sched, hp, hload, _⟩ := id hl
  have hurl' : ld.world.validUrl = (site.disk ld.folder).isUrl := by rw [hw]; exact hurl
  have hsx : SchemaAt (site.disk ld.folder) ld.world.discover inst x.name.space l sx := by rw [hw]; exact hsx
  have hfair : Fair { ld.world with nsOrder := ch.nsOrder, labelOrder := ch.labelOrder } := ⟨hfw.p, hfw.d, hfw.c, hch.ns, hch.label⟩
  have hurl2 : ({ ld.world with nsOrder := ch.nsOrder, labelOrder := ch.labelOrder } : Hydrate.World).validUrl = (site.disk ld.folder).isUrl := hurl'
  obtain ⟨f, i, hf, hhref, hctx, hi, hfm, hunr, hcon⟩ :=
    loaded_fact (w := { ld.world with nsOrder := ch.nsOrder, labelOrder := ch.labelOrder }) hfair hurl2 hp hload hroot hfile hx hsx hc hdist hids hcc site.tree
  obtain ⟨key, hE, _⟩ := hroot
  have hconc := (loaded_concept (w := { ld.world with nsOrder := ch.nsOrder, labelOrder := ch.labelOrder }) hfair hurl2 hp hload hE hx.name hsx hc hdist).2 site.tree
  have hq := (loaded_concept (w := ld.world) ⟨hfw.p, hfw.d, hfw.c, hfw.n, hfw.l⟩ hurl' hp hload hE hx.name hsx hc hdist).1
  refine ⟨f, i, hf, hhref, hctx, hi, ?_, hfm, ?_, hcon, hconc, ?_⟩
  · have := hch.order
    rw [hi] at this
    exact List.perm_singleton.1 this
  · intro y hy h1 h2
    exact hunr i (by change i ∈ values ld.hyd.instances; rw [hi]; exact List.mem_singleton.2 rfl) y hy (h1.trans hhref.symm) (h2.trans hctx.symm)
  · simp only [expressEnv, hq]

/-- The last step of an expression that was made. -/
theorem express_last {env : ExpressEnv} {name ref : String} {e : Expressable} (h : express env name ref = .done (.expr e)) :
    ∃ href fact, expressFact env href ref fact = .done (.expr e) := by
  unfold express at h
  split at h
  · simp at h
  · split at h
    · simp at h
    · split at h
      · simp at h
      · split at h
        · simp at h
        · simp at h
        · split at h
          · simp at h
          · exact ⟨_, _, h⟩

/-- **C133a.** From the files to the client: the answer to a request for the expression of a fact, by a name and a context of the inline
document, has the text that the instance has for it, the period of its context, and no members but those of the context. -/
theorem C133_fact (site : Site) (allowed : Req → Prop) (hn : Normal allowed) (dry : Bool) (s : State Loaded Store.Bytes Unit)
    (hs : Steps (backend site) dry allowed State.init s) (id name ref : String)
    (hurl : site.outside.validUrl = (site.disk id).isUrl) (b : Store.Bytes) (e : Option String)
    (h : (.express id name ref, .ret (.bytes (some b)) e) ∈ s.log)
    (root : Xml) (inst : Disc.InstanceFile) (hroot : EntryRoot (site.disk id) root inst) (file : InstFile) (hfile : instanceFile root = some file)
    (x : Xml) (c : Concept) (hx : Reports root x c ref) (hname : ∃ ref', Tagged (site.disk id) name x.name ref')
    (l : String) (sx : Xml) (hsx : SchemaAt (site.disk id) site.outside.discover inst x.name.space l sx) (hc : DeclaredIn sx l c) (hdist : Distinct sx l c)
    (hdec : ∀ s, ¬ AttrVal x.attrs "decimals" s) (htype : c.type.loc ≠ "textBlockItemType")
    (hids : ∀ w fo h, Loads site id w fo h → ∀ l' c', Declares (queryEnv w fo) l' c' → '#' ∉ c'.id.toList)
    (hcc : ∀ w fo h, Loads site id w fo h → ∃ cc, HasContext (instanceWorld w fo file) root ref cc) :
    ∃ v w fo hy cc core raw, (∀ v', IsText (decodeUtf8 b) v' ↔ v' = v) ∧ Loads site id w fo hy ∧
      HasContext (instanceWorld w fo file) root ref cc ∧
      ((IsSet x.attrs "nil" ∧ core = "nil") ∨ (¬ IsSet x.attrs "nil" ∧ core = x.inner)) ∧ RawPeriod cc raw ∧
      FactShown v (l ++ "#" ++ c.id) core raw cc := by
  obtain ⟨rfl, ld, h1, hl, hcomp⟩ := answered hn hs h
  cases h1
  obtain ⟨ch, hch, hret⟩ : ∃ ch : Choice, ch.Fair ld.hyd ∧ Returns (expression site ch name ref ld) (some (some b, none)) := hcomp
  obtain ⟨ref', ds, hd, x', hdoc, hx1, hx2, hx3⟩ := hname
  obtain ⟨doc, hdoc', hnames, _⟩ := loaded_document hl hdoc
  obtain ⟨cc, hcc⟩ := hcc _ _ _ hl
  obtain ⟨f, i, hf, hhref, hctx, hi, ho, hfm, hunr, hcon, hconc, hq⟩ :=
    expressed_fact hl hch hurl hroot hfile hx hsx hc hdist (hids _ _ _ hl) hcc
  unfold expression at hret
  cases hex : express (expressEnv site ch ld) name ref with
  | panic => rw [hex] at hret; simp [Run.andThen, Returns] at hret
  | loop => rw [hex] at hret; simp [Run.andThen, Returns] at hret
  | done a =>
    rw [hex] at hret
    cases a with
    | error m => simp [Run.andThen, Returns] at hret
    | nothing => simp [Run.andThen, Returns] at hret
    | expr ex =>
      simp only [Run.andThen, Returns, Option.some.injEq, Prod.mk.injEq, and_true] at hret
      subst hret
      obtain ⟨v, hv, ht1, ⟨_, _, _⟩, ⟨cv, hcv, ⟨pv, hpv, hpt⟩, hrows, hmems⟩, ⟨ev, hev, het⟩, _⟩ :=
        C117_expression (expressEnv site ch ld) (fun x => getLabel_wf _ _) hch.member name ref ex hex
      obtain ⟨doc2, q, fct, hd2, hq2, _, hhr, hfw, hcell, _⟩ := C88_expression _ _ _ _ hex
      have hdd : doc2 = doc := by
        change ld.hyd.document = some doc2 at hd2
        rw [hdoc'] at hd2
        exact (Option.some.inj hd2).symm
      subst hdd
      have hqx : q = x.name := by
        obtain ⟨y, c', _, _, hu⟩ := (hnames _ _).1 hq2
        exact uses_name hu hx3
      subst hqx
      rw [hq] at hhr
      have hhr := (Res.ok.inj hhr).symm
      obtain ⟨hfm2, hfe1, hfe2⟩ := firstWith_mem hfw
      change fct ∈ (values ld.hyd.instances).flatMap HInstance.facts at hfm2
      rw [hi] at hfm2
      have hff : fct = f := hunr fct (by simpa using hfm2) (hfe1.trans hhr) hfe2
      subst hff
      have hprec : fct.precision = -2147483647 := by
        obtain ⟨a, ha, hp⟩ := hf.precision
        cases a with
        | exact => exact absurd ha (hdec _)
        | none => exact hp
        | decimals z => obtain ⟨s, hs, _⟩ := ha; exact absurd hs (hdec _)
      obtain ⟨m, hm, he⟩ := cell_core (fe := factEnv site ch ld) (by rw [hhref]; exact hconc) htype hprec
        (langs := ["Unlabelled"]) (by simp)
      change renderCell (factEnv site ch ld) (some fct) ["Unlabelled"] = _ at hcell
      rw [hm] at hcell
      have hcell := Option.some.inj hcell
      have hexp : ("Unlabelled", (⟨"", if fct.isNil then "nil" else fct.inner, "", ""⟩ : FactExpression)) ∈ ex.expression := hcell ▸ he
      obtain ⟨u, hu, hut⟩ := het.1 _ _ hexp
      -- the context
      obtain ⟨href, fct', hlast⟩ := express_last hex
      obtain ⟨i', rest, c', rel, grid, m', ho', hc', hrel, hgrid, _, ha⟩ := expressFact_done hlast
      have hi' : i' = i := by
        change ch.order = i' :: rest at ho'
        rw [ho] at ho'
        exact (List.cons.inj ho').1.symm
      subst hi'
      have hcc' : c' = cc := firstWith_unique ((getContext_iff _ _ _).1 hc') hcon
      subst hcc'
      obtain ⟨raw, hraw⟩ : ∃ raw, RawPeriod c' raw := by
        by_cases hp : c'.startDate ≠ "" ∧ c'.endDate ≠ ""
        · exact ⟨_, .inl ⟨hp.1, hp.2, rfl⟩⟩
        · exact ⟨_, .inr ⟨hp, rfl⟩⟩
      have hper : ("Unlabelled", raw) ∈ ex.period := by
        cases ha
        refine mem_of_mapGet ?_
        rcases hraw with ⟨p1, p2, rfl⟩ | ⟨p1, rfl⟩
        · exact (C89_period _ _ c' c'.startDate c'.endDate _ (.inl ⟨p1, p2, rfl, rfl, rfl⟩) _ _).2 (.inl ⟨rfl, rfl⟩)
        · exact (C89_period _ _ c' "" c'.instant c'.instant (.inr ⟨p1, rfl, rfl, rfl⟩) _ _).2 (.inl ⟨rfl, rfl⟩)
      have hmem : MembersShown cv 0 c' := by
        have hgr : getMemberGrid ch.memberOrder (rel.contexts.find? (fun x => decide (x.contextRef = ref))).toList rel.segmentTrees
            rel.scenarioTrees = .done (ex.members, ex.rows) := by
          cases ha
          exact hgrid
        obtain ⟨_, g2, g3⟩ := C42_grid _ _ _ _ _ _ hgr
        cases hfd : rel.contexts.find? (fun x => decide (x.contextRef = ref)) with
        | none =>
          rw [hfd] at g2
          have hr0 : ex.rows = [] := g2 rfl
          obtain ⟨rv, hrv, hre⟩ := hrows
          rw [hr0] at hre
          constructor
          · rintro k dim mem hat _
            rw [at_key hrv] at hat
            obtain ⟨js, y, rfl, hy, _⟩ := hat
            obtain ⟨_, h1, _⟩ := elems_got hre rfl hy
            simp at h1
          · rintro k dim mem _ hat
            rw [at_key hrv] at hat
            obtain ⟨js, y, rfl, hy, _⟩ := hat
            obtain ⟨_, h1, _⟩ := elems_got hre rfl hy
            simp at h1
        | some col =>
          rw [hfd] at g3
          obtain ⟨css, cols, k1, k2, k3⟩ := C37_columns _ _ _ _ hrel
          have hcm : col ∈ cols := k3.mem_iff.1 (List.mem_of_find?_eq_some hfd)
          have hcr : col.contextRef = ref := by simpa using List.find?_some hfd
          have hcol : ColumnOf (expressEnv site ch ld).folder c' col := by
            obtain ⟨c'', hm'', hco⟩ := forall₂_right k2 _ hcm
            change List.Forall₂ _ (values ld.hyd.instances) css at k1
            rw [hi] at k1
            obtain ⟨cs, rfl, _, hcs⟩ : ∃ cs, css = [cs] ∧ (cs.map Context.id).Nodup ∧
                ∀ c, c ∈ cs ↔ OfEntity (c'.scheme ++ "/" ++ c'.ident) c ∧ HasFactFor (expressEnv site ch ld).folder [href] i' c := by
              cases k1 with
              | cons a b => cases b; exact ⟨_, rfl, a⟩
            obtain ⟨_, fa, _, _, hof⟩ := (hcs c'').1 (by simpa using hm'')
            have hid : c''.id = fa.contextRef := (firstWith_mem hof).2
            rw [← hid, ← hco.1, hcr] at hof
            rw [firstWith_unique hcon hof]
            exact hco
          refine members_shown ⟨hmems, hrows⟩ hcol ?_
          intro k cell
          rw [g3]
          simp
      refine ⟨v, _, _, _, c', if fct.isNil then "nil" else fct.inner, raw, ?_, hl, hcc, ?_, hraw, ?_, ?_, ?_, cv, ⟨cv, hcv, rfl⟩, hmem⟩
      · rw [decode_encoded]; exact hv
      · cases hnil : fct.isNil with
        | true => exact .inl ⟨hf.isNil.1 hnil, rfl⟩
        | false =>
          refine .inr ⟨fun e => ?_, by rw [if_neg (by simp), hf.inner]; rfl⟩
          have := hf.isNil.2 e
          rw [hnil] at this
          exact absurd this (by simp)
      · exact ⟨_, ht1, by rw [hhr]; rfl⟩
      · exact ⟨_, hev, _, hu, _, hut.2.1, rfl⟩
      · exact ⟨_, hcv, _, hpv, _, (hpt _ _).2 ⟨raw, rfl, hper⟩, rfl⟩

/-- **C133b.** A folder with an inline document only answers requests for names and contexts of text and number facts of that document. -/
theorem C133_tagged (site : Site) (allowed : Req → Prop) (hn : Normal allowed) (dry : Bool) (s : State Loaded Store.Bytes Unit)
    (hs : Steps (backend site) dry allowed State.init s) (id name ref : String) (b : Store.Bytes) (e : Option String)
    (h : (.express id name ref, .ret (.bytes (some b)) e) ∈ s.log) (ds : List Dom) (hd : Dom) (hdoc : DocumentAt (site.disk id) ds hd) :
    (∃ q ref', Tagged (site.disk id) name q ref') ∧ ∃ name' q, Tagged (site.disk id) name' q ref := by
  obtain ⟨rfl, ld, h1, hl, hcomp⟩ := answered hn hs h
  cases h1
  obtain ⟨ch, _, hret⟩ : ∃ ch : Choice, ch.Fair ld.hyd ∧ Returns (expression site ch name ref ld) (some (some b, none)) := hcomp
  obtain ⟨doc, hdoc', hnames, hctxs⟩ := loaded_document hl hdoc
  unfold expression at hret
  cases hex : express (expressEnv site ch ld) name ref with
  | panic => rw [hex] at hret; simp [Run.andThen, Returns] at hret
  | loop => rw [hex] at hret; simp [Run.andThen, Returns] at hret
  | done a =>
    rw [hex] at hret
    cases a with
    | error m => simp [Run.andThen, Returns] at hret
    | nothing => simp [Run.andThen, Returns] at hret
    | expr ex =>
      obtain ⟨doc2, q, _, hd2, hq2, ⟨b', hb⟩, _⟩ := C88_expression _ _ _ _ hex
      have hdd : doc2 = doc := by
        change ld.hyd.document = some doc2 at hd2
        rw [hdoc'] at hd2
        exact (Option.some.inj hd2).symm
      subst hdd
      obtain ⟨x, c, h1, h2, h3⟩ := (hnames _ _).1 hq2
      obtain ⟨_, x', s', q', h1', h2', h3'⟩ := (hctxs _ _).1 hb
      exact ⟨⟨q, c, ds, hd, x, hdoc, h1, h2, h3⟩, s', q', ds, hd, x', hdoc, h1', h2', h3'⟩

/-- **C133c.** Once the folder can be loaded, the request for a reported fact, by a name and a context of the inline document, is
answered with bytes: never with an error, never with nothing. Otherwise the program panics, because loading the folder may, because a
fact of the concept refers to a context that is not there, or because a typed domain tree has a node without name. -/
theorem C133_served (site : Site) (allowed : Req → Prop) (hn : Normal allowed) (dry : Bool) (s : State Loaded Store.Bytes Unit)
    (hs : Steps (backend site) dry allowed State.init s) (id name ref : String)
    (hurl : site.outside.validUrl = (site.disk id).isUrl) (o : Out Loaded Store.Bytes Unit) (h : (.express id name ref, o) ∈ s.log)
    (hload : ∃ w fo h, Loads site id w fo h)
    (root : Xml) (inst : Disc.InstanceFile) (hroot : EntryRoot (site.disk id) root inst) (file : InstFile) (hfile : instanceFile root = some file)
    (x : Xml) (c : Concept) (hx : Reports root x c ref) (hname : ∃ ref', Tagged (site.disk id) name x.name ref')
    (href : ∃ name' q, Tagged (site.disk id) name' q ref)
    (l : String) (sx : Xml) (hsx : SchemaAt (site.disk id) site.outside.discover inst x.name.space l sx) (hc : DeclaredIn sx l c) (hdist : Distinct sx l c)
    (hids : ∀ w fo h, Loads site id w fo h → ∀ l' c', Declares (queryEnv w fo) l' c' → '#' ∉ c'.id.toList)
    (hcc : ∀ w fo h, Loads site id w fo h → ∃ cc, HasContext (instanceWorld w fo file) root ref cc) :
    (∃ b, o = .ret (.bytes (some b)) none) ∨
      (o = .panic ∧ ((∃ w, Ends site id w .panic) ∨ ∃ w fo hy, Loads site id w fo hy ∧
        (¬ TreesNamed (renderFolder w fo hy site.tree) ∨ ∃ i ∈ values hy.instances, ∃ f ∈ i.facts, f.href = l ++ "#" ++ c.id ∧
          ∀ cc ∈ i.contexts, cc.id ≠ f.contextRef))) := by
  obtain ⟨w₀, fo₀, hy₀, hl₀⟩ := hload
  have hloadable := loads_loadable hl₀
  have comp : ∀ ld : Loaded, ld.folder = id → Loads site ld.folder ld.world ld.files ld.hyd → ∀ p,
      Computes (backend site) (.express id name ref) ld p → (∃ b, p = some (some b, none)) ∨ (p = none ∧ ∃ w fo hy, Loads site id w fo hy ∧
        (¬ TreesNamed (renderFolder w fo hy site.tree) ∨ ∃ i ∈ values hy.instances, ∃ f ∈ i.facts, f.href = l ++ "#" ++ c.id ∧
          ∀ cc ∈ i.contexts, cc.id ≠ f.contextRef)) := by
    rintro ld rfl hl p hcomp
    obtain ⟨ch, hch, hret⟩ : ∃ ch : Choice, ch.Fair ld.hyd ∧ Returns (expression site ch name ref ld) p := hcomp
    obtain ⟨ref', ds, hd, x', hdoc, hx1, hx2, hx3⟩ := hname
    obtain ⟨name', q', ds', hd', x'', hdoc₂, hy1, hy2, hy3⟩ := href
    obtain ⟨doc, hdoc', hnames, _⟩ := loaded_document hl hdoc
    obtain ⟨doc2, hdoc2', _, hctxs⟩ := loaded_document hl hdoc₂
    rw [hdoc'] at hdoc2'
    cases hdoc2'
    obtain ⟨cc, hcc⟩ := hcc _ _ _ hl
    obtain ⟨f, i, hf, hhref, hctx, hi, ho, hfm, hunr, hcon, hconc, hq⟩ :=
      expressed_fact hl hch hurl hroot hfile hx hsx hc hdist (hids _ _ _ hl) hcc
    have hnm : mapGet doc.names name = some x.name := (hnames _ _).2 ⟨x', ref', hx1, hx2, hx3⟩
    have hct : mapGet doc.ctxs ref = some true := (hctxs _ _).2 ⟨rfl, x'', name', q', hy1, hy2, hy3⟩
    have hfind : Query.findFact (expressEnv site ch ld).folder.insts (l ++ "#" ++ c.id) ref = some f := by
      change Query.findFact (values ld.hyd.instances) _ _ = _
      rw [hi]
      cases hff : Query.findFact [i] (l ++ "#" ++ c.id) ref with
      | none =>
        unfold Query.findFact at hff
        rw [List.find?_eq_none] at hff
        exact absurd (by simp [hhref, hctx]) (hff f (by simpa using hfm))
      | some f' =>
        unfold Query.findFact at hff
        have h1 := List.mem_of_find?_eq_some hff
        have h2 := List.find?_some hff
        simp only [decide_eq_true_eq] at h2
        rw [hunr f' (by simpa using h1) h2.1 h2.2]
    have hex : express (expressEnv site ch ld) name ref = expressFact (expressEnv site ch ld) (l ++ "#" ++ c.id) ref f := by
      unfold express
      rw [show (expressEnv site ch ld).doc = some doc from hdoc']
      simp only [hnm, hct, hq, hfind]
    by_cases htn : TreesNamed (expressEnv site ch ld).folder
    · obtain ⟨p1, p2⟩ := expressFact_panic (expressEnv site ch ld) (l ++ "#" ++ c.id) ref f htn
      unfold expression at hret
      rw [hex] at hret
      cases hfx : expressFact (expressEnv site ch ld) (l ++ "#" ++ c.id) ref f with
      | loop => exact absurd hfx p2
      | panic =>
        rw [hfx] at hret
        simp only [Run.andThen, Returns] at hret
        right
        refine ⟨hret, _, _, _, hl, .inr ?_⟩
        rcases p1.1 hfx with h | ⟨i', rest, h, hno⟩ | ⟨i', hi', f', hf', ⟨hr1, _⟩, hno⟩
        · change ch.order = [] at h
          rw [ho] at h; cases h
        · change ch.order = i' :: rest at h
          rw [ho] at h; cases h
          exact absurd (firstWith_mem hcon).2 (hno _ (firstWith_mem hcon).1)
        · exact ⟨i', hi', f', hf', by simpa using hr1, hno⟩
      | done a =>
        rw [hfx] at hret
        obtain ⟨_, _, _, _, _, _, _, _, _, _, _, rfl⟩ := expressFact_done hfx
        simp only [Run.andThen, Returns] at hret
        exact .inl ⟨_, hret⟩
    · unfold expression at hret
      rw [hex] at hret
      cases hfx : expressFact (expressEnv site ch ld) (l ++ "#" ++ c.id) ref f with
      | loop => rw [hfx] at hret; simp [Run.andThen, Returns] at hret
      | panic =>
        rw [hfx] at hret
        simp only [Run.andThen, Returns] at hret
        obtain ⟨⟨p', d', o', nn', ll', s₁, s₂, hw⟩, hfw, rest⟩ := hl
        refine .inr ⟨hret, { ld.world with nsOrder := ch.nsOrder, labelOrder := ch.labelOrder }, ld.files, ld.hyd, ⟨⟨p', d', o', ch.nsOrder, ch.labelOrder, s₁, s₂, by rw [hw]⟩,
          ⟨hfw.p, hfw.d, hfw.c, hch.ns, hch.label⟩, rest⟩, .inl htn⟩
      | done a =>
        rw [hfx] at hret
        obtain ⟨_, _, _, _, _, _, _, _, _, _, _, rfl⟩ := expressFact_done hfx
        simp only [Run.andThen, Returns] at hret
        exact .inl ⟨_, hret⟩
  have key : ∀ o, Direct (backend site) (.express id name ref) o → (∃ b, o = .ret (.bytes (some b)) none) ∨
      (o = .panic ∧ ((∃ w, Ends site id w .panic) ∨ ∃ w fo hy, Loads site id w fo hy ∧
        (¬ TreesNamed (renderFolder w fo hy site.tree) ∨ ∃ i ∈ values hy.instances, ∃ f ∈ i.facts, f.href = l ++ "#" ++ c.id ∧
          ∀ cc ∈ i.contexts, cc.id ≠ f.contextRef))) := by
    intro o hd
    cases hd with
    | undiscovered _ id' m h1 h2 => cases h1; exact absurd (hloadable.1 _ h2) (by simp)
    | hydratePanic _ id' h1 h2 h3 =>
      cases h1
      exact .inr ⟨rfl, .inl h3⟩
    | unhydrated _ id' x m h1 h2 h3 =>
      cases h1
      cases x with
      | some x => exact h3.elim
      | none => obtain ⟨_, w, h3⟩ := h3; exact absurd h3 (hloadable.2 w)
    | computePanic _ id' ld h1 h2 h3 h4 =>
      cases h1
      obtain ⟨h5, h3⟩ : ld.folder = id ∧ Ends site id ld.world (.done (some (ld.files, ld.hyd))) := h3
      rcases comp ld h5 (h5 ▸ h3) _ h4 with ⟨_, hb⟩ | ⟨_, hb⟩
      · cases hb
      · exact .inr ⟨rfl, .inr hb⟩
    | computed _ id' ld b e h1 h2 h3 h4 =>
      cases h1
      obtain ⟨h5, h3⟩ : ld.folder = id ∧ Ends site id ld.world (.done (some (ld.files, ld.hyd))) := h3
      rcases comp ld h5 (h5 ▸ h3) _ h4 with ⟨_, hb⟩ | ⟨hb, _⟩
      · simp only [Option.some.injEq, Prod.mk.injEq] at hb
        exact .inl ⟨_, by rw [hb.1, hb.2]⟩
      · cases hb
  rcases C60_answers _ (backend_sane site) allowed hn dry s hs _ _ h with h | ⟨_, b', e', h1, h2⟩ | ⟨_, h1, e', h2⟩
  · exact key o h
  · rcases key _ h2 with ⟨_, h⟩ | ⟨h, _⟩ <;> cases h
  · rcases key _ h2 with ⟨_, h⟩ | ⟨h, _⟩ <;> cases h

/-! ## Over HTTP -/

theorem asked_facts {id name ref : String} (h : Router.Segment (wire (utf8 id))) {q : Web.Bytes} (hq : FactQuery q name ref) :
    asked "GET" (factsPath id) q = some (.express id name ref) := by
  obtain ⟨en, ec, hn, hc, rfl, pn, pc⟩ := hq
  have hfacts : Router.str (Web.lit "facts") = "facts".toList := by decide
  unfold asked factsPath
  rw [(Router.route_two _ _ _ "facts".toList _ (.inl ⟨rfl, rfl⟩)).2 ⟨rfl, Router.segment_name.1 h, Router.name_facts, by
    rw [Router.str_path2, hfacts]⟩]
  simp only [(Web.factQuery_ok _ _ _).2 ⟨_, _, Web.factParams_url hn hc, Web.dec_plain pn, Web.dec_plain pc⟩, Router.bytes_str, goText_utf8]

theorem got_facts {H S : Type} {front : Front} {log : List (Req × Out H Store.Bytes S)} {id name ref : String} {q body : Web.Bytes} {st : Nat}
    (hid : Router.Segment (wire (utf8 id))) (hq : FactQuery q name ref) (h : Got front log (factsPath id) q st body) :
    ∃ o, (.express id name ref, o) ∈ log ∧ ((∃ b, o = .ret (.bytes b) none ∧ st = 200 ∧ body = wire (b.getD [])) ∨
      (st = 500 ∧ ∃ v m, o = .ret v (some m))) := by
  obtain ⟨r, o, w, h1, h2, h3, h4, h5⟩ := h
  rw [asked_facts hid hq] at h1
  cases h1
  refine ⟨o, h2, ?_⟩
  obtain ⟨en, ec, hn, hc, rfl, pn, pc⟩ := hq
  unfold respond at h3
  cases hr : result o with
  | none => rw [hr] at h3; cases h3
  | some res =>
    rw [hr] at h3
    cases h3
    have hc := C103_facts front.sniff ⟨fun _ => res, fun _ _ => res, fun _ _ _ => res⟩ front.files front.location _ hid
      (Web.factParams_url hn hc) (Web.dec_plain pn) (Web.dec_plain pc)
    unfold result at hr
    split at hr
    · rename_i b
      cases hr
      obtain ⟨h6, h7⟩ := hc.1 _ rfl
      exact .inl ⟨b, rfl, h4.symm.trans h6, h5.symm.trans h7⟩
    · rename_i v m
      cases hr
      exact .inr ⟨h4.symm.trans (hc.2 _ rfl), _, _, rfl⟩
    · cases hr

/-- **C133d.** The same for a client that asks over HTTP and gets a body with status 200. -/
theorem C133_http (site : Site) (front : Front) (allowed : Req → Prop) (hn : Normal allowed) (dry : Bool)
    (s : State Loaded Store.Bytes Unit) (hs : Steps (backend site) dry allowed State.init s) (id name ref : String)
    (hid : Router.Segment (wire (utf8 id))) (hurl : site.outside.validUrl = (site.disk id).isUrl) (q body : Web.Bytes)
    (hq : FactQuery q name ref) (h : Got front s.log (factsPath id) q 200 body) (hb : body ≠ [])
    (root : Xml) (inst : Disc.InstanceFile) (hroot : EntryRoot (site.disk id) root inst) (file : InstFile) (hfile : instanceFile root = some file)
    (x : Xml) (c : Concept) (hx : Reports root x c ref) (hname : ∃ ref', Tagged (site.disk id) name x.name ref')
    (l : String) (sx : Xml) (hsx : SchemaAt (site.disk id) site.outside.discover inst x.name.space l sx) (hc : DeclaredIn sx l c) (hdist : Distinct sx l c)
    (hdec : ∀ s, ¬ AttrVal x.attrs "decimals" s) (htype : c.type.loc ≠ "textBlockItemType")
    (hids : ∀ w fo h, Loads site id w fo h → ∀ l' c', Declares (queryEnv w fo) l' c' → '#' ∉ c'.id.toList)
    (hcc : ∀ w fo h, Loads site id w fo h → ∃ cc, HasContext (instanceWorld w fo file) root ref cc) :
    ∃ v w fo hy cc core raw, (∀ v', IsText (decodeUtf8 (unwire body)) v' ↔ v' = v) ∧ Loads site id w fo hy ∧
      HasContext (instanceWorld w fo file) root ref cc ∧
      ((IsSet x.attrs "nil" ∧ core = "nil") ∨ (¬ IsSet x.attrs "nil" ∧ core = x.inner)) ∧ RawPeriod cc raw ∧
      FactShown v (l ++ "#" ++ c.id) core raw cc := by
  obtain ⟨o, ho, hh⟩ := got_facts hid hq h
  exact C133_fact site allowed hn dry s hs id name ref hurl _ _ (got_bytes ho hh hb) root inst hroot file hfile x c hx hname l sx hsx hc hdist
    hdec htype hids hcc

/-! ## A site with an inline document -/

def inkFile : List Dom :=
  [.mk ⟨"http://www.w3.org/1999/xhtml", "html"⟩ docHtml [.mk ⟨"http://www.xbrl.org/2013/inlineXBRL", "nonFraction"⟩ (docFact "x:Cash" "c") []]]

def inkDisk : Disk where
  entryName := some "r.htm"
  images := []
  read := fun n => if n = "r.htm.xml" then some reportXml else if n = "x.xsd" then some diskSchema else if n = "p.xml" then some diskLinks else none
  fileExists := fun _ => true
  doc := fun _ => some (some ⟨docHtml, [], [docFact "x:Cash" "c"]⟩)
  isUrl := fun _ => false

def inkSite : Site := { demoSite with disk := fun _ => inkDisk }
def inkWorld : Hydrate.World := { diskWorld with sched₂ := [0, 0] }

theorem inkLike : DiskLike inkDisk where
  only := by
    intro l x h hx
    simp only [inkDisk] at h
    split at h
    · cases h; exact absurd hx (by decide)
    · split at h
      · cases h; exact ⟨‹_›, rfl⟩
      · split at h
        · cases h; exact absurd hx (by decide)
        · cases h
  schema := rfl
  noUrl := rfl

theorem inkEntry : Disc.EntryInstance inkDisk.env "r.htm.xml" diskInst :=
  ⟨"r.htm", rfl, rfl, .inl ⟨(Disc.inline_iff _).2 (by decide +kernel), rfl, ⟨_, rfl⟩, rfl⟩⟩

theorem inkDocument : ∃ h, DocumentAt inkDisk inkFile h ∧ h.attrs = docHtml := by
  refine ⟨_, ⟨"r.htm", rfl, (Disc.inline_iff _).2 (by decide +kernel), ?_, .here rfl⟩, rfl⟩
  simp [decodeIxbrlFile, html, forest, nodes, inkFile, Dom.name, Dom.attrs, inlines, ix, inkDisk]

theorem inkTagged : Tagged inkDisk "x:Cash" ⟨"http://x", "Cash"⟩ "c" := by
  obtain ⟨h, hd, ha⟩ := inkDocument
  refine ⟨_, h, _, hd, (Elem.root (List.mem_singleton.2 rfl)).child (List.mem_singleton.2 rfl), ⟨.inr rfl, rfl⟩, ?_⟩
  rw [ha]
  refine ⟨?_, ?_, "x", by decide, by decide, [], [], rfl, rfl, by simp⟩
  · rw [hasVal_iff]; exact ⟨_, rfl, by decide⟩
  · rw [hasVal_iff]; exact ⟨_, rfl, by decide⟩

def inkCalls (r : Req) : Prop := r = .express "a-1" "x:Cash" "c"

theorem inkCalls_normal : Normal inkCalls where
  ok := by
    rintro r rfl
    exact ⟨⟨by decide, by decide⟩, by decide⟩
  express := by
    rintro _ _ _ _ _ _ h h' _
    cases h; cases h'; rfl

theorem ink_load : ∃ fo h, load inkDisk inkWorld 3 id = some (.done (some (fo, h))) ∧
    ∃ b, expression inkSite (demoChoice h) "x:Cash" "c" ⟨"a-1", inkWorld, fo, h⟩ = .done (some b, none) := by
  have he : (match load inkDisk inkWorld 3 id with
    | some (.done (some (fo, h))) =>
      (match expression inkSite (demoChoice h) "x:Cash" "c" ⟨"a-1", inkWorld, fo, h⟩ with
        | .done (some _, none) => true
        | _ => false)
    | _ => false) = true := by decide +kernel
  split at he
  · rename_i fo h hl
    refine ⟨fo, h, hl, ?_⟩
    split at he
    · exact ⟨_, ‹_›⟩
    · cases he
  · cases he

theorem ink_loads {fo : Files} {h : Hydratable} (hl : load inkDisk inkWorld 3 id = some (.done (some (fo, h)))) :
    Loads inkSite "a-1" inkWorld fo h := by
  refine ⟨⟨_, _, _, _, _, _, _, rfl⟩, ⟨fun _ _ => .refl _, fun _ _ => .refl _, fun _ _ => .refl _, fun _ _ => .refl _, fun _ _ => .refl _⟩, 3, id,
    fun _ => .refl _, hl, fun fo x hf hx => ?_, Disc.realised_id _ _⟩
  have : (match Disc.discover inkDisk.env 3 id with
    | some (.ok fo) => fo.document.map fun x => (x.nonNumerics.length, x.nonFractions.length)
    | _ => none) = some (0, 1) := by decide +kernel
  change Disc.discover inkDisk.env 3 id = _ at hf
  rw [hf] at this
  simp only [hx, Option.map_some, Option.some.injEq, Prod.mk.injEq] at this
  refine ⟨fun i hi => by omega, fun i hi => ?_⟩
  obtain rfl : i = 0 := by omega
  decide

theorem ink_history : ∃ s b, Steps (backend inkSite) true inkCalls State.init s ∧
    s.log = [(.express "a-1" "x:Cash" "c", .ret (.bytes (some b)) none)] := by
  obtain ⟨fo, h, hl, b, hb⟩ := ink_load
  have hld := ink_loads hl
  have hdis : (backend inkSite).discover "a-1" none := by
    obtain ⟨fo0, h1, _⟩ := load_some hl
    exact discovers_ok (fun _ => .refl _) h1
  have hhyd : (backend inkSite).hydrate "a-1" (some (some ⟨"a-1", inkWorld, fo, h⟩, none)) := ⟨rfl, hld⟩
  have hx : (backend inkSite).express "x:Cash" "c" ⟨"a-1", inkWorld, fo, h⟩ (some (some b, none)) :=
    ⟨_, demoChoice_fair h, by rw [hb]; exact Eq.refl _⟩
  have d : Direct (backend inkSite) (.express "a-1" "x:Cash" "c") (.ret (.bytes (some b)) none) :=
    .computed (.express "a-1" "x:Cash" "c") "a-1" ⟨"a-1", inkWorld, fo, h⟩ _ _ rfl hdis hhyd (by unfold Computes; exact hx)
  obtain ⟨s, h1, l1, _⟩ := C60_every (backend inkSite) inkCalls State.init (.express "a-1" "x:Cash" "c") rfl _ ⟨_, rfl⟩ d
  exact ⟨s, b, h1, l1⟩

/-- The hypotheses of C133 hold of this site, and a client got the expression. -/
example : (∃ s b, Steps (backend inkSite) true inkCalls State.init s ∧ (.express "a-1" "x:Cash" "c", .ret (.bytes (some b)) none) ∈ s.log) ∧
    Normal inkCalls ∧ (∃ w fo h, Loads inkSite "a-1" w fo h) ∧ (∃ ds h, DocumentAt (inkSite.disk "a-1") ds h) ∧
    inkSite.outside.validUrl = (inkSite.disk "a-1").isUrl ∧ EntryRoot (inkSite.disk "a-1") reportXml diskInst ∧
    (∃ file, instanceFile reportXml = some file ∧ ∀ w fo h, Loads inkSite "a-1" w fo h →
      ∃ cc, HasContext (instanceWorld w fo file) reportXml "c" cc) ∧
    Reports reportXml diskFact diskConcept "c" ∧ Tagged (inkSite.disk "a-1") "x:Cash" diskFact.name "c" ∧
    SchemaAt (inkSite.disk "a-1") inkSite.outside.discover diskInst diskFact.name.space "x.xsd" diskSchema ∧
    DeclaredIn diskSchema "x.xsd" diskConcept ∧ Distinct diskSchema "x.xsd" diskConcept ∧
    (∀ s, ¬ AttrVal diskFact.attrs "decimals" s) ∧ diskConcept.type.loc ≠ "textBlockItemType" ∧
    ∀ w fo h, Loads inkSite "a-1" w fo h → ∀ l' c', Declares (queryEnv w fo) l' c' → '#' ∉ c'.id.toList := by
  obtain ⟨s, b, hs, hlog⟩ := ink_history
  obtain ⟨fo, h, hl, _⟩ := ink_load
  obtain ⟨d, hd, _⟩ := inkDocument
  refine ⟨⟨s, b, hs, by rw [hlog]; exact List.mem_cons_self⟩, inkCalls_normal, ⟨_, _, _, ink_loads hl⟩, ⟨_, _, hd⟩, rfl, ⟨_, inkEntry, rfl⟩,
    ⟨_, rfl, fun w fo h _ => ⟨diskContext, diskHasContext _⟩⟩, diskReports, inkTagged, diskSchemaAt inkLike _, diskDeclared.2 rfl,
    fun c' hc _ => diskDeclared.1 hc, fun s hs => ?_, by decide, ?_⟩
  · rw [← plainAttr_iff] at hs
    have : plainAttr diskFact.attrs "decimals" = none := by decide
    rw [this] at hs
    cases hs
  · rintro w fo h ⟨⟨_, _, _, _, _, _, _, hw⟩, _, _, _, _, hl, _⟩
    exact diskIds inkLike (by rw [hw]; rfl) hl

/-- A query for the fact, with the colon encoded. -/
example : FactQuery (Web.lit "name=x%3ACash&contextref=c") "x:Cash" "c" := by
  refine ⟨Web.lit "x%3ACash", Web.lit "c", ?_, ?_, by decide, by unfold Web.Plain; decide +kernel, by unfold Web.Plain; decide +kernel⟩
  · rw [show wire (utf8 "x:Cash") = Web.lit "x:Cash" by decide +kernel]
    refine .same (by unfold Web.Safe; decide) (.hex (hi := 3) (lo := 10) ?_ ?_ (by decide) (.same ?_ (.same ?_ (.same ?_ (.same ?_ .nil))))) <;>
      first | (unfold Web.HexDigit; decide) | (unfold Web.Safe; decide)
  · rw [show wire (utf8 "c") = Web.lit "c" by decide +kernel]
    exact .same (by unfold Web.Safe; decide) .nil

end Telefacts
