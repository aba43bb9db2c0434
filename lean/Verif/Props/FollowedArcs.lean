import Verif.Spec.FollowedArcs
import Verif.Props.Followed
import Verif.Props.GridLabels
import Verif.Props.CalcRelations
/-! # C171: a client finds the arcs of the linkbases of a folder -/
namespace Telefacts
open Telefacts.Server Telefacts.Hydrate Telefacts.Catalog Telefacts.Json Telefacts.Cache Telefacts.Schema Telefacts.Instance
  Telefacts.Render Telefacts.Decode Telefacts.Spec Telefacts.Linkbase Telefacts.Query

theorem roleRefOf_unique {e : RoleRefElem} {r r' : RoleRef} (h : RoleRefOf e r) (h' : RoleRefOf e r') : r = r' := by
  obtain ⟨_, h1, _, h2, _⟩ := h
  obtain ⟨_, h1', _, h2', _⟩ := h'
  obtain ⟨r1, r2⟩ := r
  obtain ⟨r1', r2'⟩ := r'
  have e1 : r1 = r1' := by
    obtain ⟨a, ha, rfl⟩ := h1
    obtain ⟨b, hb, rfl⟩ := h1'
    rw [firstWith_unique ha hb]
  have e2 : r2 = r2' := by
    rw [xlinkVal_iff] at h2 h2'
    rw [h2] at h2'
    exact Option.some.inj h2'
  rw [e1, e2]

/-- A hydrated linkbase has a reference to the role and a link of it if and only if the file has. -/
theorem linkbaseOf_refers {A : Type} {arcOf : List Attr → A → Prop} {file : LinkbaseFile} {lb : Lb A} (h : LinkbaseOf arcOf file lb)
    (role : String) : (∃ r ∈ lb.roleRefs, r.roleURI = role) ↔ RefersTo file role := by
  constructor
  · rintro ⟨r, hr, rfl⟩
    obtain ⟨e, he, her⟩ := collected_mem h.1 r hr
    exact ⟨e, he, r, her, rfl⟩
  · rintro ⟨e, he, r, her, rfl⟩
    exact ⟨r, collected_of_mem h.1 (fun _ _ _ => roleRefOf_unique) he her, rfl⟩

theorem linkbaseOf_holds {A : Type} {arcOf : List Attr → A → Prop} {file : LinkbaseFile} {lb : Lb A} (h : LinkbaseOf arcOf file lb)
    (role : String) : (∃ k, HoldsLink role lb k) ↔ RefersTo file role ∧ ∃ e ∈ file.links, HasRole e role := by
  rw [← linkbaseOf_refers h role, ← h.2.2.1 role]
  constructor
  · rintro ⟨k, h1, h2⟩
    exact ⟨h1, k, (firstWith_mem h2).1, (firstWith_mem h2).2⟩
  · rintro ⟨h1, h2⟩
    obtain ⟨k, hk⟩ := firstWith_exists h2
    exact ⟨k, h1, hk⟩

section
variable {A : Type} {arcOf : List Attr → A → Prop} {d : Disk} {kind : Disc.LKind} {m : GoMap String (Lb A)} {lbs : List (Lb A)} {role : String}

/-- Whatever link of the role is taken, it is that of a file that holds the role. -/
theorem held_file (hm : MapWF m) (hp : lbs.Perm (values m))
    (h2 : ∀ name b, mapGet m name = some b → ∃ x file, LinkedFile d kind name x ∧ IsLinkbase kind x file ∧ LinkbaseOf arcOf file b)
    {lb : Lb A} (hlb : lb ∈ lbs) (hk : ∃ k, HoldsLink role lb k) :
    ∃ name file, mapGet m name = some lb ∧ HeldBy d kind role name file ∧ LinkbaseOf arcOf file lb := by
  obtain ⟨name, hn⟩ := (mem_values hm lb).1 (hp.mem_iff.1 hlb)
  obtain ⟨x, file, hx, hi, ho⟩ := h2 name lb hn
  obtain ⟨h3, h4⟩ := (linkbaseOf_holds ho role).1 hk
  exact ⟨name, file, hn, ⟨⟨x, hx, hi⟩, h3, h4⟩, ho⟩

/-- If only one file holds the role, the link that is taken is that of the file. -/
theorem held_first (hm : MapWF m) (hp : lbs.Perm (values m))
    (h1 : ∀ name x file, LinkedFile d kind name x → IsLinkbase kind x file → ∃ b, mapGet m name = some b ∧ LinkbaseOf arcOf file b)
    (h2 : ∀ name b, mapGet m name = some b → ∃ x file, LinkedFile d kind name x ∧ IsLinkbase kind x file ∧ LinkbaseOf arcOf file b)
    {file : LinkbaseFile} (ho : OnlyHeldBy d kind role file) :
    ∃ lb k, FirstWith (fun lb => ∃ k, HoldsLink role lb k) lbs lb ∧ HoldsLink role lb k ∧ Merged arcOf file.links lb.links := by
  obtain ⟨name, ⟨⟨x, hx, hi⟩, hr, hl⟩, honly⟩ := ho
  obtain ⟨b, hb, hob⟩ := h1 name x file hx hi
  obtain ⟨lb, hlb⟩ := firstWith_exists (P := fun lb => ∃ k, HoldsLink role lb k)
    ⟨b, hp.mem_iff.2 ((mem_values hm b).2 ⟨name, hb⟩), (linkbaseOf_holds hob role).2 ⟨hr, hl⟩⟩
  obtain ⟨hmem, k, hk⟩ := firstWith_mem hlb
  obtain ⟨name', file', hn', hheld, _⟩ := held_file hm hp h2 hmem ⟨k, hk⟩
  rw [honly name' file' hheld, hb] at hn'
  cases hn'
  exact ⟨b, k, hlb, hk, hob.2⟩

end

/-- What a client that follows the catalog reads is what the grids of the folder are written as. -/
theorem followed_grids {site : Site} {id entity role : String} {b : Store.Bytes} (hb : Followed site id entity role b)
    (hu : Unambiguous (site.disk id)) :
    ∃ (ld : Loaded) (ch : Choice) (sub : Subject) (rs : RSet) (g : Grids (Option MultilingualFact)) (v : Json), ld.folder = id ∧
      Loads site id ld.world ld.files ld.hyd ∧ ch.Fair ld.hyd ∧
      renderGrids (Server.folderOf site ch ld) (gridEnv site ch ld) site.spanish ch.schedule (booksOf site ch) entity role = .done g ∧
      (∀ v', IsText (decodeUtf8 b) v' ↔ v' = v) ∧ RenderableText v ⟨sub, rs, g⟩ := by
  obtain ⟨allowed, dry, s, b₀, e₀, e, slug, hn, hs, h₀, ha, h⟩ := hb
  obtain ⟨w, fo, hy, hl, rfl⟩ := catalog_answer hn hs h₀
  obtain ⟨_, _, _, _, _, hslug, _⟩ := advertised_select hl hl ha
  obtain ⟨_, ld, rfl, hl', ch, hch, en, rs, g, n, hsel, hg, hq, rfl⟩ := renderable_answer hn hs hslug h
  obtain ⟨en', r', hsel', hen, hr, _, hof⟩ := advertised_select hl hl' ha
  rw [hsel] at hsel'
  cases hsel'
  obtain ⟨hent, hrole⟩ := hof hu
  have hent : stringify en = entity := hent
  rw [hent, hrole] at hg
  obtain ⟨v, hv, ht⟩ := C116_renderable (Server.folderOf site ch ld) (fun x => getLabel_wf _ _) (factEnv site ch ld) (notesOf site ld)
    ch.cellOrder ch.lastOrder (gridEnv site ch ld) hch.member rfl site.spanish ch.schedule (booksOf site ch) entity role g hg ⟨n, en⟩ rs
  refine ⟨ld, ch, ⟨n, en⟩, rs, g, v, rfl, hl', hch, hg, ?_, ht⟩
  rw [decode_encoded, hrole]
  exact hv

/-- What is common to the proofs below: the linkbases of a loaded folder. -/
theorem loads_linkbases {site : Site} {folder : String} {w : Hydrate.World} {fo : Files} {h : Hydratable} (hl : Loads site folder w fo h) :
    (MapWF h.presentation ∧
      (∀ name x file, LinkedFile (site.disk folder) .pre name x → IsLinkbase .pre x file →
        ∃ b, mapGet h.presentation name = some b ∧ LinkbaseOf (PArcOf site.outside.parse) file b) ∧
      ∀ name b, mapGet h.presentation name = some b →
        ∃ x file, LinkedFile (site.disk folder) .pre name x ∧ IsLinkbase .pre x file ∧ LinkbaseOf (PArcOf site.outside.parse) file b) ∧
    (MapWF h.definition ∧
      (∀ name x file, LinkedFile (site.disk folder) .defn name x → IsLinkbase .defn x file →
        ∃ b, mapGet h.definition name = some b ∧ LinkbaseOf (DefArcOf site.outside.parse) file b) ∧
      ∀ name b, mapGet h.definition name = some b →
        ∃ x file, LinkedFile (site.disk folder) .defn name x ∧ IsLinkbase .defn x file ∧ LinkbaseOf (DefArcOf site.outside.parse) file b) ∧
    MapWF h.calculation ∧
      (∀ name x file, LinkedFile (site.disk folder) .calc name x → IsLinkbase .calc x file →
        ∃ b, mapGet h.calculation name = some b ∧ LinkbaseOf (CArcOf site.outside.parse) file b) ∧
      ∀ name b, mapGet h.calculation name = some b →
        ∃ x file, LinkedFile (site.disk folder) .calc name x ∧ IsLinkbase .calc x file ∧ LinkbaseOf (CArcOf site.outside.parse) file b := by
  obtain ⟨⟨p, d, o, nn, ll, s₁, s₂, hw⟩, hfw, fuel, sched, hp, hload, _⟩ := hl
  have hpw : w.parse = site.outside.parse := by rw [hw]
  have hfair : Fair w := ⟨hfw.p, hfw.d, hfw.c, hfw.n, hfw.l⟩
  obtain ⟨p1, p2, d1, d2, c1, c2, _⟩ := C101_disk (site.disk folder) w hfair fuel sched hp fo h hload
  obtain ⟨fo0, h1, rfl, h2⟩ := load_some hload
  obtain ⟨_, e2, e3, e4, _⟩ := C101_entries w hfair _ (filesOf_wf h1) h h2
  rw [hpw] at p1 p2 d1 d2 c1 c2
  exact ⟨⟨e2.1, p1, p2⟩, ⟨e3.1, d1, d2⟩, e4.1, c1, c2⟩

theorem known_concept {site : Site} {ld : Loaded} {ch : Choice} (hl : Loads site ld.folder ld.world ld.files ld.hyd) (hch : ch.Fair ld.hyd)
    (hurl : site.outside.validUrl = (site.disk ld.folder).isUrl) {href : String}
    (hk : KnownConcept (site.disk ld.folder) site.outside.discover href) : ((Server.folderOf site ch ld).concept href).isSome := by
  obtain ⟨key, inst, c, l, sx, hE, hsx, hc, hdist, rfl⟩ := hk
  obtain ⟨⟨p, d, o, nn, ll, s₁, s₂, hw⟩, hfw, fuel, sched, hp, hload, _⟩ := hl
  have hurl' : ld.world.validUrl = (site.disk ld.folder).isUrl := by rw [hw]; exact hurl
  have hsx : SchemaAt (site.disk ld.folder) ld.world.discover inst c.name.space l sx := by rw [hw]; exact hsx
  have := (loaded_concept (w := { ld.world with nsOrder := ch.nsOrder, labelOrder := ch.labelOrder }) ⟨hfw.p, hfw.d, hfw.c, hch.ns, hch.label⟩ hurl' hp hload hE rfl hsx hc hdist).2
    site.tree
  change ((renderFolder { ld.world with nsOrder := ch.nsOrder, labelOrder := ch.labelOrder } ld.files ld.hyd site.tree).concept _).isSome
  rw [this]; rfl

theorem orders_good {parse : String → F64 × Bool} {role : String} {lb : Lb CArc} {k : Link CArc} (hk : HoldsLink role lb k)
    {es : List LinkElem} (hm : Merged (CArcOf parse) es lb.links) (ho : OrdersGood parse es role) : ∀ a ∈ k.arcs, a.order ≠ .nan := by
  intro a ha
  obtain ⟨hkm, hkr⟩ := firstWith_mem hk.2
  obtain ⟨e, he, her, x, hx, hxa⟩ := (merged_mem_iff hm (CArcOf.unique parse) role a).1 ⟨k, hkm, hkr, ha⟩
  obtain ⟨s, h1, _, h3⟩ := hxa.2.1
  have := ho x ⟨e, he, her, hx⟩ s h1
  rcases h3 with ⟨_, h3⟩ | ⟨_, h3⟩
  · rw [h3]; exact this
  · rw [h3]; intro hc; cases hc

/-- **C171.** Every summation-item arc of a calculation linkbase of the folder is found by a client that follows the catalog to the role,
if both concepts are known to the folder, the labels of the arc stand for one concept, and no other linkbase holds the role: under the
item of the source there is the target, with the sign and the scale of the weight. -/
theorem C171_calculation (site : Site) (id entity role : String) (b : Store.Bytes) (hb : Followed site id entity role b)
    (hu : Unambiguous (site.disk id)) (hurl : site.outside.validUrl = (site.disk id).isUrl) (file : LinkbaseFile)
    (hfile : OnlyHeldBy (site.disk id) .calc role file) (ho : OrdersGood site.outside.parse file.links role)
    (x : List Attr) (hx : ArcElem file.links role x) (a : CArc) (ha : CArcOf site.outside.parse x a)
    (har : a.arcrole = "http://www.xbrl.org/2003/arcrole/summation-item") (h1 h2 : String) (hl1 : LabelFor file.links role a.frm h1)
    (hl2 : LabelFor file.links role a.to h2) (hc1 : KnownConcept (site.disk id) site.outside.discover h1)
    (hc2 : KnownConcept (site.disk id) site.outside.discover h2) :
    ∃ v, (∀ v', IsText (decodeUtf8 b) v' ↔ v' = v) ∧ ∃ sign scale, SummandShown v h1 h2 sign scale ∧ (sign = "-" ↔ Negative a.weight) ∧
      (sign = "+" ↔ ¬ Negative a.weight) ∧ NearestTenths a.weight scale := by
  obtain ⟨ld, ch, sub, rs, g, v, rfl, hl, hch, hg, hv, ht⟩ := followed_grids hb hu
  obtain ⟨_, _, m1, m2, m3⟩ := loads_linkbases hl
  obtain ⟨lb, k, hf, hk, hm⟩ := held_first m1 hch.calculation m2 m3 hfile
  obtain ⟨p, d, c, _, _, hc, rfl⟩ := renderGrids_done hg
  obtain ⟨i, hi, hih, cc, hcc, e1, e2, e3, e4⟩ := C140_arcs (Server.folderOf site ch ld) (gridEnv site ch ld) site.outside.parse entity role
    (booksOf site ch) lb k hf hk file.links hm c.1 c.2.1 c.2.2 (fun h => (C49_labels _ h).2.2) hch.map (orders_good hk hm ho) hc x hx a ha har
    h1 h2 hl1 hl2 (known_concept hl hch hurl hc1) (known_concept hl hch hurl hc2)
  refine ⟨v, hv, cc.sign, cc.scale, ?_, e2, e3, e4⟩
  obtain ⟨_, _, _, _, _, _, cv, iv, hcv, hiv, hct⟩ := ht
  obtain ⟨n, hn⟩ := List.mem_iff_getElem?.1 hi
  obtain ⟨j, hj⟩ := List.mem_iff_getElem?.1 hcc
  rcases hct with hct | ⟨_, hnone⟩
  · obtain ⟨js, y, hjs, hy, hit⟩ := elems_get hct (i := n) (a := _) (by simp only [formatPeriod]; rw [List.getElem?_map, hn]; rfl)
    obtain ⟨⟨hh, _⟩, _, _, ⟨z, hz, hzt⟩, _⟩ := hit
    obtain ⟨js', y', hjs', hy', ⟨hh', _⟩, hs, hsc, _⟩ := elems_get hzt hj
    refine ⟨n, j, ?_, ?_, ?_, ?_⟩ <;> rw [at_key hcv, at_key hiv]
    · exact ⟨js, y, hjs, hy, _, hh, by simp only [At]; rw [hih]⟩
    · exact ⟨js, y, hjs, hy, _, hz, js', y', hjs', hy', _, hh', by simp only [At]; rw [e1]⟩
    · exact ⟨js, y, hjs, hy, _, hz, js', y', hjs', hy', _, hs, by simp only [At]⟩
    · exact ⟨js, y, hjs, hy, _, hz, js', y', hjs', hy', _, hsc, by simp only [At]⟩
  · simp only [formatPeriod, List.map_eq_nil_iff] at hnone
    rw [hnone] at hi
    cases hi

/-- **C171.** Conversely every contribution that the client finds is that of a summation-item arc of a calculation linkbase of the folder
that holds the role. -/
theorem C171_calculation_only (site : Site) (id entity role : String) (b : Store.Bytes) (hb : Followed site id entity role b)
    (hu : Unambiguous (site.disk id))
    (hgood : ∀ name file, HeldBy (site.disk id) .calc role name file →
      OrdersGood site.outside.parse file.links role ∧ LabelsGood file.links role)
    (v : Json) (hv : IsText (decodeUtf8 b) v) (h1 h2 sign scale : String) (hs : SummandShown v h1 h2 sign scale) :
    ∃ name file x a, HeldBy (site.disk id) .calc role name file ∧ ArcElem file.links role x ∧ CArcOf site.outside.parse x a ∧
      a.arcrole = "http://www.xbrl.org/2003/arcrole/summation-item" ∧ LabelFor file.links role a.frm h1 ∧ LabelFor file.links role a.to h2 ∧
      (sign = "-" ↔ Negative a.weight) ∧ NearestTenths a.weight scale := by
  obtain ⟨ld, ch, sub, rs, g, w, rfl, hl, hch, hg, hw, ht⟩ := followed_grids hb hu
  obtain rfl := (hw v).1 hv
  obtain ⟨_, _, m1, m2, m3⟩ := loads_linkbases hl
  obtain ⟨p, d, c, _, _, hc, rfl⟩ := renderGrids_done hg
  obtain ⟨_, _, _, _, _, _, cv, iv, hcv, hiv, hct⟩ := ht
  obtain ⟨n, j, s1, s2, s3, s4⟩ := hs
  rw [at_key hcv, at_key hiv] at s1 s2 s3 s4
  obtain ⟨js, y, hjs, hy, z, hz, ez⟩ := s1
  replace hct := hct.resolve_right (by rintro ⟨hnull, _⟩; rw [hnull] at hjs; cases hjs)
  obtain ⟨it, hit, ⟨hh, _⟩, _, _, ⟨cs, hcs, hcst⟩, _⟩ := elems_got hct hjs hy
  have at_item : ∀ {ss : List Step} {u : Json}, At iv (.idx n :: .key "ContributingConcepts" :: ss) u → At cs ss u := by
    rintro ss u ⟨js', y', hjs', hy', q⟩
    rw [hjs] at hjs'
    cases hjs'
    rw [hy] at hy'
    cases hy'
    exact (at_key hcs).1 q
  obtain ⟨js', y', hjs', hy', z', hz', ez'⟩ := at_item s2
  obtain ⟨cc, hcc, ⟨hh', _⟩, hsn, hsc, _⟩ := elems_got hcst hjs' hy'
  have at_con : ∀ {ss : List Step} {u : Json}, At cs (.idx j :: ss) u → At y' ss u := by
    rintro ss u ⟨js2, y2, hjs2, hy2, q⟩
    rw [hjs'] at hjs2
    cases hjs2
    rw [hy'] at hy2
    cases hy2
    exact q
  have q1 : it.href = h1 := by
    have := member_only hz hh
    simp only [At] at ez
    rw [← ez] at this
    exact (Json.str.inj this).symm
  have q2 : cc.href = h2 := by
    have := member_only hz' hh'
    simp only [At] at ez'
    rw [← ez'] at this
    exact (Json.str.inj this).symm
  have q3 : cc.sign = sign := by
    have := (at_key hsn).1 (at_con (at_item s3))
    simp only [At, Json.str.injEq] at this
    exact this.symm
  have q4 : cc.scale = scale := by
    have := (at_key hsc).1 (at_con (at_item s4))
    simp only [At, Json.str.injEq] at this
    exact this.symm
  simp only [formatPeriod, List.getElem?_map, Option.map_eq_some_iff] at hit
  obtain ⟨it0, hit0, rfl⟩ := hit
  have hi0 := List.mem_of_getElem? hit0
  by_cases hex : ∃ lb ∈ ch.calculation, ∃ k, HoldsLink role lb k
  · obtain ⟨lb, hf⟩ := firstWith_exists hex
    obtain ⟨hlb, k, hk⟩ := firstWith_mem hf
    obtain ⟨name, file, _, hheld, ho⟩ := held_file m1 hch.calculation m3 hlb ⟨k, hk⟩
    obtain ⟨g1, g2⟩ := hgood name file hheld
    obtain ⟨_, hall⟩ := C140_items (Server.folderOf site ch ld) (gridEnv site ch ld) site.outside.parse entity role
      (booksOf site ch) lb k hf hk file.links ho.2 c.1 c.2.1 c.2.2 (fun h => (C49_labels _ h).2.2) hch.map (orders_good hk ho.2 g1) hc
      (fun x hx a ha => g2 x hx _ _ _ ha.1) it0 hi0
    obtain ⟨x, a, r1, r2, r3, r4, r5, r6, r7⟩ := hall cc (List.mem_of_getElem? hcc)
    refine ⟨name, file, x, a, hheld, r1, r2, r3, ?_, ?_, ?_, ?_⟩
    · rw [← q1]; exact r4
    · rw [← q2]; exact r5
    · rw [← q3]; exact r6
    · rw [← q4]; exact r7
  · have := (C46_link_partial (Server.folderOf site ch ld) (gridEnv site ch ld) entity role ch.calculation).2
      (fun lb hlb hk => hex ⟨lb, hlb, hk⟩)
    change getSummationItems _ _ _ _ [] ch.calculation = _ at hc
    rw [this] at hc
    cases hc
    cases hi0

theorem defArcOf_unique {parse : String → F64 × Bool} {x : List Attr} {a a' : DArc} (h : DefArcOf parse x a) (h' : DefArcOf parse x a') :
    a = a' := by
  obtain ⟨h1, h2, h3⟩ := h
  obtain ⟨h1', h2', h3'⟩ := h'
  have hu : a.usable = a'.usable := Bool.eq_iff_iff.2 (h3.trans h3'.symm)
  have key : ∀ b : DArc, DArcOf parse x b → definitionArc parse x = some { b with closed := closedFlag x, usable := usableFlag x } := by
    intro b hb
    rw [definitionArc_iff]; exact ⟨hb, rfl, rfl⟩
  have e := (key a h1).symm.trans (key a' h1')
  cases a
  cases a'
  simp only [Option.some.injEq, DArc.mk.injEq] at e h2 h2' hu ⊢
  exact ⟨e.1, e.2.1, e.2.2.1, e.2.2.2.1, h2.trans h2'.symm, hu, by simp_all⟩

private theorem all₂_left {α β : Type} {R : α → β → Prop} {l : List α} {m : List β} (h : List.Forall₂ R l m) {a : α} (ha : a ∈ l) :
    ∃ b ∈ m, R a b := by
  induction h with
  | nil => cases ha
  | cons hab _ ih =>
    rcases List.mem_cons.1 ha with rfl | ha
    · exact ⟨_, List.mem_cons_self .., hab⟩
    · obtain ⟨b, hb, h⟩ := ih ha
      exact ⟨b, List.mem_cons_of_mem _ hb, h⟩

theorem dGrid_links {Φ : Type} {f : Folder} {env : GridEnv Φ} {entity role : String} {b : Books} {d : DGrid Φ × List LabelRole × List Lang}
    (h : dGrid f env entity role b = .done d) : d.1.links = (getDRS f b.fmt b.drsOrder b.definitionAgain role).2 := by
  unfold dGrid at h
  cases hr : getRootDomains f env.memberOrder env.source entity role b.dimensionOrder b.definition with
  | done q => rw [hr] at h; simp only [Run.andThen, Run.done.injEq] at h; rw [← h]
  | panic => rw [hr] at h; simp [Run.andThen] at h
  | loop => rw [hr] at h; simp [Run.andThen] at h

theorem numeral_unique {x : Json} {n n' : Nat} (h : Numeral x n) (h' : Numeral x n') : n = n' := by
  obtain ⟨ds, rfl, _, e⟩ := h
  obtain ⟨ds', he, _, e'⟩ := h'
  cases he
  exact e.symm.trans e'

theorem level_row {v : Json} {r : Renderable (Grids (Option MultilingualFact))} (ht : RenderableText v r) (i : Nat) (h : String) (n : Nat) :
    LevelRow v i h n ↔ ∃ l, r.grids.p.rows[i]? = some l ∧ l.href = h ∧ l.indentation = n := by
  obtain ⟨_, _, _, _, ⟨pv, hpv, ⟨rv, hrv, hrt⟩, _⟩, _⟩ := ht
  unfold LevelRow
  simp only [at_key hpv, at_key hrv]
  constructor
  · rintro ⟨⟨js, y, hjs, hy, z, hz, e⟩, u, ⟨js', y', hjs', hy', z', hz', e'⟩, hu⟩
    rw [hjs] at hjs'
    cases hjs'
    rw [hy] at hy'
    cases hy'
    obtain ⟨l, hl, ⟨hh, _⟩, q, hq, hqn⟩ := elems_got hrt hjs hy
    simp only [At] at e e'
    subst e e'
    refine ⟨l, hl, (Json.str.inj (member_only hz hh)).symm, ?_⟩
    rw [member_only hz' hq] at hu
    exact numeral_unique hqn hu
  · rintro ⟨l, hl, rfl, rfl⟩
    obtain ⟨js, y, hjs, hy, ⟨hh, _⟩, q, hq, hqn⟩ := elems_get hrt hl
    exact ⟨⟨js, y, hjs, hy, _, hh, rfl⟩, q, ⟨js, y, hjs, hy, _, hq, rfl⟩, hqn⟩

theorem row_below {v : Json} {r : Renderable (Grids (Option MultilingualFact))} (ht : RenderableText v r) {i j : Nat}
    (h : ChildRow IndentedLabel.indentation r.grids.p.rows i j) : RowBelow v i j := by
  obtain ⟨h1, ⟨x, y, hx, hy, hxy⟩, h3⟩ := h
  refine ⟨h1, ⟨x.href, y.href, x.indentation, (level_row ht _ _ _).2 ⟨x, hx, rfl, rfl⟩, (level_row ht _ _ _).2 ⟨y, hy, rfl, hxy⟩⟩, ?_⟩
  intro m h h' n k him hmj hi hm
  obtain ⟨l, hl, _, rfl⟩ := (level_row ht _ _ _).1 hi
  obtain ⟨l', hl', _, rfl⟩ := (level_row ht _ _ _).1 hm
  exact h3 m l l' him hmj hl hl'

theorem arcsOfRole_link {parse : String → F64 × Bool} {role : String} {lb : Lb PArc} {k : Link PArc} (hk : HoldsLink role lb k)
    {es : List LinkElem} (hm : Merged (PArcOf parse) es lb.links) :
    ArcsOfRole parse es role (k.arcs.map fun a => ⟨a.arcrole, a.order, a.frm, a.to⟩) := by
  intro a
  rw [List.mem_map]
  constructor
  · rintro ⟨pa, hpa, rfl⟩
    obtain ⟨e, he, her, x, hx, hxa⟩ := (holds_arcs hm hk pa).1 hpa
    exact ⟨x, pa, ⟨e, he, her, hx⟩, hxa, rfl⟩
  · rintro ⟨x, pa, ⟨e, he, her, hx⟩, hxa, rfl⟩
    exact ⟨pa, (holds_arcs hm hk pa).2 ⟨e, he, her, x, hx, hxa⟩, rfl⟩

/-- **C171.** Every parent-child arc of a presentation linkbase of the folder is found by a client that follows the catalog to the role,
if the labels of the arc stand for one concept, the arcs have no cycle, and no other linkbase holds the role: below a row of the source
there is a row of the target. -/
theorem C171_presentation (site : Site) (id entity role : String) (b : Store.Bytes) (hb : Followed site id entity role b)
    (hu : Unambiguous (site.disk id)) (file : LinkbaseFile) (hfile : OnlyHeldBy (site.disk id) .pre role file)
    (htree : TreeGood site.tree site.outside.parse file.links role) (hac : NoCycle file.links role)
    (x : List Attr) (hx : ArcElem file.links role x) (a : PArc) (ha : PArcOf site.outside.parse x a)
    (har : a.arcrole = "http://www.xbrl.org/2003/arcrole/parent-child") (h1 h2 : String) (hl1 : LabelFor file.links role a.frm h1)
    (hl2 : LabelFor file.links role a.to h2) :
    ∃ v, (∀ v', IsText (decodeUtf8 b) v' ↔ v' = v) ∧ ∃ i j n, RowBelow v i j ∧ LevelRow v i h1 n ∧ LevelRow v j h2 (n + 1) := by
  obtain ⟨ld, ch, sub, rs, g, v, rfl, hl, hch, hg, hv, ht⟩ := followed_grids hb hu
  obtain ⟨⟨m1, m2, m3⟩, _⟩ := loads_linkbases hl
  obtain ⟨lb, k, hf, hk, hm⟩ := held_first m1 hch.presentation m2 m3 hfile
  obtain ⟨⟨p, pr, pl⟩, d, c, hp, _, _, rfl⟩ := renderGrids_done hg
  obtain ⟨_, _, _, hrows, _⟩ := pGrid_done hp
  have harcs := arcsOfRole_link hk hm
  obtain ⟨i, j, n, c1, c2, c3⟩ := C132_arcs (Server.folderOf site ch ld) site.outside.parse ch.presentation role lb k hf hk file.links hm
    (htree _ harcs) (by
      obtain ⟨rank, hrank⟩ := hac
      refine ⟨rank, fun a ha har => ?_⟩
      obtain ⟨x, pa, hx, hxa, rfl⟩ := (harcs a).1 ha
      refine hrank x hx _ _ ?_
      have := hxa.1
      simp only at har
      rw [har] at this
      exact this) x hx a ha har h1 h2 hl1 hl2
  have hrows : p.rows = getIndentedLabels (Server.folderOf site ch ld) ch.presentation role := hrows
  rw [← hrows] at c1 c2 c3
  exact ⟨v, hv, i, j, n, row_below ht c1, (level_row ht _ _ _).2 ⟨_, c2, rfl, rfl⟩, (level_row ht _ _ _).2 ⟨_, c3, rfl, rfl⟩⟩

/-- **C171.** Conversely every row that the client finds is that of a source that is no target, at the left margin, or stands below a row
with an arc from the one to the other, in a presentation linkbase of the folder that holds the role. -/
theorem C171_presentation_only (site : Site) (id entity role : String) (b : Store.Bytes) (hb : Followed site id entity role b)
    (hu : Unambiguous (site.disk id))
    (hgood : ∀ name file, HeldBy (site.disk id) .pre role name file →
      TreeGood site.tree site.outside.parse file.links role ∧ LabelsGood file.links role)
    (v : Json) (hv : IsText (decodeUtf8 b) v) (j : Nat) (h : String) (n : Nat) (hj : LevelRow v j h n) :
    ∃ name file, HeldBy (site.disk id) .pre role name file ∧
      ((n = 0 ∧ ∃ x a, ArcElem file.links role x ∧ PArcOf site.outside.parse x a ∧
          a.arcrole = "http://www.xbrl.org/2003/arcrole/parent-child" ∧ LabelFor file.links role a.frm h ∧
          ¬ ∃ y c, ArcElem file.links role y ∧ PArcOf site.outside.parse y c ∧
            c.arcrole = "http://www.xbrl.org/2003/arcrole/parent-child" ∧ c.to = a.frm) ∨
        ∃ i h' n' x a, LevelRow v i h' n' ∧ RowBelow v i j ∧ ArcElem file.links role x ∧ PArcOf site.outside.parse x a ∧
          a.arcrole = "http://www.xbrl.org/2003/arcrole/parent-child" ∧ LabelFor file.links role a.frm h' ∧ LabelFor file.links role a.to h) := by
  obtain ⟨ld, ch, sub, rs, g, w, rfl, hl, hch, hg, hw, ht⟩ := followed_grids hb hu
  obtain rfl := (hw v).1 hv
  obtain ⟨⟨m1, m2, m3⟩, _⟩ := loads_linkbases hl
  obtain ⟨⟨p, pr, pl⟩, d, c, hp, _, _, rfl⟩ := renderGrids_done hg
  obtain ⟨_, _, _, hrows, _⟩ := pGrid_done hp
  have hrows : p.rows = getIndentedLabels (Server.folderOf site ch ld) ch.presentation role := hrows
  obtain ⟨row, hrow, rfl, rfl⟩ := (level_row ht _ _ _).1 hj
  have hrow : p.rows[j]? = some row := hrow
  rw [hrows] at hrow
  by_cases hex : ∃ lb ∈ ch.presentation, ∃ k, HoldsLink role lb k
  · obtain ⟨lb, hf⟩ := firstWith_exists hex
    obtain ⟨hlb, k, hk⟩ := firstWith_mem hf
    obtain ⟨name, file, _, hheld, ho⟩ := held_file m1 hch.presentation m3 hlb ⟨k, hk⟩
    obtain ⟨g1, g2⟩ := hgood name file hheld
    refine ⟨name, file, hheld, ?_⟩
    rcases C132_rows (Server.folderOf site ch ld) site.outside.parse ch.presentation role lb k hf hk file.links ho.2
      (g1 _ (arcsOfRole_link hk ho.2)) (fun x hx a ha => g2 x hx _ _ _ ha.1) j row hrow with h | ⟨i, top, x, a, t1, t2, t3⟩
    · exact .inl h
    · rw [← hrows] at t1 t2
      exact .inr ⟨i, top.href, top.indentation, x, a, (level_row ht _ _ _).2 ⟨top, t1, rfl, rfl⟩, row_below ht t2, t3⟩
  · have hnone : firstLink role ch.presentation = none := by
      cases hfl : firstLink role ch.presentation with
      | none => rfl
      | some q =>
        obtain ⟨h1, h2⟩ := (firstLink_some role ch.presentation q.1 q.2).1 hfl
        exact absurd ⟨q.1, (firstWith_mem h1).1, q.2, h2⟩ hex
    unfold getIndentedLabels at hrow
    rw [hnone] at hrow
    simp at hrow

/-- **C171.** Every arc of a definition linkbase of the folder that refers to the role is found by a client that follows the catalog to the
role, if the labels of the arc stand for one concept: a link of the dimensional relationship set has its source and its target, and says
what the arc says. The label of the target is one of the target role, if the arc has one. -/
theorem C171_definition (site : Site) (id entity role : String) (b : Store.Bytes) (hb : Followed site id entity role b)
    (hu : Unambiguous (site.disk id)) (name : String) (file : LinkbaseFile) (hfile : HeldBy (site.disk id) .defn role name file)
    (x : List Attr) (hx : ArcElem file.links role x) (a : DArc) (ha : DefArcOf site.outside.parse x a)
    (role' : String) (hrole : role' = if a.targetRole = "" then role else a.targetRole) (href : RefersTo file role')
    (h1 h2 : String) (hl1 : LabelFor file.links role a.frm h1) (hl2 : LabelFor file.links role' a.to h2) :
    ∃ v, (∀ v', IsText (decodeUtf8 b) v' ↔ v' = v) ∧ ∃ i l, LinkAt v i l ∧ l.source = h1 ∧ l.target = h2 ∧ kinds l ≤ 1 ∧
      Connects site.fmt a l := by
  obtain ⟨ld, ch, sub, rs, g, v, rfl, hl, hch, hg, hv, ht⟩ := followed_grids hb hu
  obtain ⟨_, ⟨m1, m2, m3⟩, _⟩ := loads_linkbases hl
  obtain ⟨⟨xx, hxx, hi⟩, hr, _⟩ := hfile
  obtain ⟨lb, hlb, ho⟩ := m2 name xx file hxx hi
  obtain ⟨p, d, c, _, hd, _, rfl⟩ := renderGrids_done hg
  have hmem : lb ∈ ch.definitionAgain := hch.definitionAgain.mem_iff.2 ((mem_values m1 lb).2 ⟨name, hlb⟩)
  have harc : (lb, a) ∈ definitionArcs role ch.definitionAgain := by
    rw [← roleArcs_eq, mem_roleArcs]
    obtain ⟨e, he, her, hxe⟩ := hx
    obtain ⟨k, hk, hkr, hka⟩ := (merged_mem_iff ho.2 (fun _ _ _ => defArcOf_unique) role a).2 ⟨e, he, her, x, hxe, ha⟩
    exact ⟨hmem, (linkbaseOf_refers ho role).2 hr, k, hk, hkr, hka⟩
  obtain ⟨_, _, _, hall⟩ := C47_graph (Server.folderOf site ch ld) site.fmt ch.drsOrder hch.drs ch.definitionAgain role
  obtain ⟨l, hlm, hs, htg, hkn, hcn⟩ := all₂_left hall harc
  have hlinks : d.1.links = (getDRS (Server.folderOf site ch ld) site.fmt ch.drsOrder ch.definitionAgain role).2 := dGrid_links hd
  obtain ⟨_, _, _, _, _, ⟨dv, hdv, _, rv, hrv, _, lv, hlv, hlt⟩, _⟩ := ht
  obtain ⟨i, hil⟩ := List.mem_iff_getElem?.1 hlm
  obtain ⟨js, y, hjs, hy, hyt⟩ := elems_get hlt (i := i) (a := l) (by simp only [formatPeriod]; rw [hlinks]; exact hil)
  refine ⟨v, hv, i, l, ⟨y, ?_, hyt⟩, hs.trans (mapLocator_labelFor ho.2 ((linkbaseOf_refers ho role).2 hr) hl1), ?_, hkn, hcn⟩
  · rw [at_key hdv, at_key hrv, at_key hlv]
    exact ⟨js, y, hjs, hy, rfl⟩
  · rw [htg]
    simp only
    rw [← hrole]
    exact mapLocator_labelFor ho.2 ((linkbaseOf_refers ho role').2 href) hl2

/-- **C171.** Conversely every link that the client finds is that of an arc of a definition linkbase of the folder that holds the role. -/
theorem C171_definition_only (site : Site) (id entity role : String) (b : Store.Bytes) (hb : Followed site id entity role b)
    (hu : Unambiguous (site.disk id)) (v : Json) (hv : IsText (decodeUtf8 b) v) (i : Nat) (u : Json)
    (hi : At v [.key "DGrid", .key "DRS", .key "Links", .idx i] u) :
    ∃ l name file x a, LinkText u l ∧ HeldBy (site.disk id) .defn role name file ∧ ArcElem file.links role x ∧
      DefArcOf site.outside.parse x a ∧ kinds l ≤ 1 ∧ Connects site.fmt a l ∧
      (∀ h, LabelFor file.links role a.frm h → l.source = h) ∧
      ∀ h role', role' = (if a.targetRole = "" then role else a.targetRole) → RefersTo file role' → LabelFor file.links role' a.to h →
        l.target = h := by
  obtain ⟨ld, ch, sub, rs, g, w, rfl, hl, hch, hg, hw, ht⟩ := followed_grids hb hu
  obtain rfl := (hw v).1 hv
  obtain ⟨_, ⟨m1, m2, m3⟩, _⟩ := loads_linkbases hl
  obtain ⟨p, d, c, _, hd, _, rfl⟩ := renderGrids_done hg
  have hlinks : d.1.links = (getDRS (Server.folderOf site ch ld) site.fmt ch.drsOrder ch.definitionAgain role).2 := dGrid_links hd
  obtain ⟨_, _, _, _, _, ⟨dv, hdv, _, rv, hrv, _, lv, hlv, hlt⟩, _⟩ := ht
  rw [at_key hdv, at_key hrv, at_key hlv] at hi
  obtain ⟨js, y, hjs, hy, rfl⟩ := hi
  obtain ⟨l, hll, hlu⟩ := elems_got hlt hjs hy
  simp only [formatPeriod] at hll
  rw [hlinks] at hll
  obtain ⟨_, _, _, hall⟩ := C47_graph (Server.folderOf site ch ld) site.fmt ch.drsOrder hch.drs ch.definitionAgain role
  obtain ⟨⟨lb, a⟩, harc, hs, htg, hkn, hcn⟩ := all₂_left hall.flip (List.mem_of_getElem? hll)
  rw [← roleArcs_eq, mem_roleArcs] at harc
  obtain ⟨hlb, hr, k, hk, hkr, hka⟩ := harc
  obtain ⟨kk, hkk⟩ := firstWith_exists (P := fun k : Link DArc => k.role = role) ⟨k, hk, hkr⟩
  obtain ⟨name, file, _, hheld, ho⟩ := held_file m1 hch.definitionAgain m3 hlb ⟨kk, hr, hkk⟩
  obtain ⟨e, he, her, x, hx, hxa⟩ := (merged_mem_iff ho.2 (fun _ _ _ => defArcOf_unique) role a).1 ⟨k, hk, hkr, hka⟩
  refine ⟨l, name, file, x, a, hlu, hheld, ⟨e, he, her, hx⟩, hxa, hkn, hcn, fun h hh => ?_, fun h role' hrole href hh => ?_⟩
  · exact hs.trans (mapLocator_labelFor ho.2 hr hh)
  · rw [htg]
    simp only
    rw [← hrole]
    exact mapLocator_labelFor ho.2 ((linkbaseOf_refers ho role').2 href) hh

end Telefacts
