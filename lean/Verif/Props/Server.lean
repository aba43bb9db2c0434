import Verif.Spec.Server
import Verif.Proof.Runs
import Verif.Props.Cache
import Verif.Props.Reload
import Verif.Props.GridJson
import Verif.Props.XmlText
/-! # C124: from the files to the client, through the cache -/
namespace Telefacts
open Telefacts.Server Telefacts.Hydrate Telefacts.Catalog Telefacts.Json Telefacts.Cache Telefacts.Schema Telefacts.Instance
  Telefacts.Render Telefacts.Decode Telefacts.Spec Telefacts.Linkbase

theorem backend_sane (site : Site) : (backend site).Sane := by
  intro id h e hh
  change hydrates site id (some (h, e)) at hh
  cases h <;> cases e <;> simp [hydrates] at hh ⊢

theorem render_error {site : Site} {c : Choice} {hash : String} {l : Loaded} {b : Store.Bytes} {e : String} :
    ¬ Returns (render site c hash l) (some (some b, some e)) := by
  intro h
  unfold render at h
  split at h
  · simp [Returns] at h
  · rename_i en r _
    cases hg : renderGrids (folderOf site c l) (gridEnv site c l) site.spanish c.schedule (booksOf site c) (stringify en) r.roleURI <;>
      rw [hg] at h <;> simp only [Run.andThen] at h
    · cases hq : entityQuery site.names en.scheme en.chars <;> rw [hq] at h <;> simp [Returns] at h
    · simp [Returns] at h
    · simp [Returns] at h

theorem expression_error {site : Site} {c : Choice} {n ref : String} {l : Loaded} {b : Store.Bytes} {e : String} :
    ¬ Returns (expression site c n ref l) (some (some b, some e)) := by
  intro h
  unfold expression at h
  cases hg : express (expressEnv site c l) n ref <;> rw [hg] at h <;> simp only [Run.andThen] at h
  · rename_i a
    cases a <;> simp [Returns] at h
  · simp [Returns] at h
  · simp [Returns] at h

theorem computes_error {site : Site} {r : Req} {l : Loaded} {b : Store.Bytes} {e : String} :
    ¬ Computes (backend site) r l (some (some b, some e)) := by
  intro h
  cases r <;> simp only [Computes] at h
  · simp [backend] at h
  · rcases h with ⟨_, _, h⟩ | ⟨_, c, _, h⟩
    · change _ = (if _ then _ else _ : Option _).map _ at h
      split at h <;> simp at h
    · exact render_error h
  · obtain ⟨c, _, h⟩ := h
    exact expression_error h

/-- Bytes are only given by a computation on a hydrated folder. -/
theorem answered {site : Site} {allowed : Req → Prop} (hn : Normal allowed) {dry : Bool} {s : State Loaded Store.Bytes Unit}
    (hs : Steps (backend site) dry allowed State.init s) {r : Req} {b : Store.Bytes} {e : Option String}
    (h : (r, .ret (.bytes (some b)) e) ∈ s.log) :
    e = none ∧ ∃ l, Cache.folderOf r = some l.folder ∧ Loads site l.folder l.world l.files l.hyd ∧ Computes (backend site) r l (some (some b, none)) := by
  have hd : ∀ e, Direct (backend site) r (.ret (.bytes (some b)) e) →
      e = none ∧ ∃ l, Cache.folderOf r = some l.folder ∧ Loads site l.folder l.world l.files l.hyd ∧ Computes (backend site) r l (some (some b, none)) := by
    intro e hd
    cases hd with
    | computed _ id l _ _ h1 h2 h3 h4 =>
      cases e with
      | some m => exact absurd h4 computes_error
      | none =>
        obtain ⟨rfl, h3⟩ : l.folder = id ∧ Ends site id l.world (.done (some (l.files, l.hyd))) := h3
        exact ⟨rfl, l, h1, h3, h4⟩
  rcases C60_answers _ (backend_sane site) allowed hn dry s hs r _ h with h | ⟨_, b', e', h1, h2⟩ | ⟨_, h1, _⟩
  · exact hd e h
  · cases h1
    exact absurd (hd _ h2).1 (by simp)
  · cases h1

theorem catalog_answer {site : Site} {allowed : Req → Prop} (hn : Normal allowed) {dry : Bool} {s : State Loaded Store.Bytes Unit}
    (hs : Steps (backend site) dry allowed State.init s) {id : String} {b : Store.Bytes} {e : Option String}
    (h : (.catalog id, .ret (.bytes (some b)) e) ∈ s.log) :
    ∃ w fo h, Loads site id w fo h ∧ b = encodeUtf8 (marshalCatalog (listing (site.disk id) (entityQuery site.names) h)) := by
  obtain ⟨_, l, h1, h2, h3⟩ := answered hn hs h
  cases h1
  refine ⟨_, _, _, h2, ?_⟩
  have h3 : some (some b, none) = some (some (catalogBytes site l), (none : Option String)) := h3
  simpa [catalogBytes] using h3

/-- **C124a.** The bytes of the catalog of a folder are always the same: in two runs of the server, before and after the folder is
cached or the server restarted, however its goroutines were scheduled. -/
theorem C124_catalog_same (site : Site) (allowed allowed' : Req → Prop) (hn : Normal allowed) (hn' : Normal allowed') (dry dry' : Bool)
    (s s' : State Loaded Store.Bytes Unit) (hs : Steps (backend site) dry allowed State.init s)
    (hs' : Steps (backend site) dry' allowed' State.init s') (id : String) (b b' : Store.Bytes) (e e' : Option String)
    (h : (.catalog id, .ret (.bytes (some b)) e) ∈ s.log) (h' : (.catalog id, .ret (.bytes (some b')) e') ∈ s'.log) : b = b' := by
  obtain ⟨w, fo, hy, ⟨_, _, fuel, sched, hp, hl, _⟩, rfl⟩ := catalog_answer hn hs h
  obtain ⟨w', fo', hy', ⟨_, _, fuel', sched', hp', hl', _⟩, rfl⟩ := catalog_answer hn' hs' h'
  rw [C110_reload hp hp' hl hl']

theorem decode_encoded (cs : List Char) : decodeUtf8 (encodeUtf8 cs) = cs := by
  have := decode_encode cs []
  simpa [decodeUtf8] using this

/-- What the catalog of a folder advertises, in terms of its files. -/
theorem advertises_iff {site : Site} {id : String} {h : Hydratable}
    (entity role slug : String) :
    Advertises (encodeUtf8 (marshalCatalog (listing (site.disk id) (entityQuery site.names) h))) entity role slug ↔
      ∃ m, mapGet (listing (site.disk id) (entityQuery site.names) h).networks entity = some m ∧ mapGet m role = some slug := by
  have hwf := networks_wf (sortedEntities (values h.instances)) (sortedRSets (values h.schemas))
  obtain ⟨v, hv, _, _, _, n, hn, hm⟩ := C110_contents (listing (site.disk id) (entityQuery site.names) h) hwf.1 hwf.2
  unfold Advertises
  rw [decode_encoded]
  simp only [hv, exists_eq_left, At]
  constructor
  · rintro ⟨n', hn', m', hm', x, hx, hxe⟩
    cases member_only hn hn'
    subst hxe
    obtain ⟨m, h1, h2⟩ := (hm entity role slug).1 ⟨m', hm', hx⟩
    exact ⟨m, (mapGet_iff_mem hwf.1).2 h1, (mapGet_iff_mem (hwf.2 _ _ h1)).2 h2⟩
  · rintro ⟨m, h1, h2⟩
    have h1' := (mapGet_iff_mem hwf.1).1 h1
    obtain ⟨m', hm', hx⟩ := (hm entity role slug).2 ⟨m, h1', (mapGet_iff_mem (hwf.2 _ _ h1')).1 h2⟩
    exact ⟨n, hn, m', hm', _, hx, rfl⟩

/-- **C124b.** The catalog that a client gets advertises exactly one slug for each entity that the instance reports on and each role
that is declared. -/
theorem C124_catalog (site : Site) (allowed : Req → Prop) (hn : Normal allowed) (dry : Bool) (s : State Loaded Store.Bytes Unit)
    (hs : Steps (backend site) dry allowed State.init s) (id : String) (b : Store.Bytes) (e : Option String)
    (h : (.catalog id, .ret (.bytes (some b)) e) ∈ s.log) (entity role slug : String) :
    Advertises b entity role slug ↔
      (∃ x, ReportsOn (site.disk id) x ∧ x.scheme ++ "/" ++ x.chars = entity) ∧
      ∃ r, RoleOfFolder (site.disk id) r ∧ r.roleURI = role ∧ slug = fnvHex (entity ++ role ++ r.title) ∧
        ∀ r', RoleOfFolder (site.disk id) r' → r'.roleURI = role → ¬ r.title < r'.title := by
  obtain ⟨w, fo, hy, hl, rfl⟩ := catalog_answer hn hs h
  rw [advertises_iff]
  obtain ⟨_, _, fuel, sched, hp, hl, _⟩ := hl
  exact C108_networks hp hl _ _ _ _

/-- An advertised slug is found in any load of the folder. -/
theorem advertised_select {site : Site} {id : String} {w w' : Hydrate.World} {fo fo' : Files} {h h' : Hydratable}
    (hl : Loads site id w fo h) (hl' : Loads site id w' fo' h') {entity role slug : String}
    (ha : Advertises (encodeUtf8 (marshalCatalog (listing (site.disk id) (entityQuery site.names) h))) entity role slug) :
    ∃ e r, select slug (sortedEntities (values h'.instances)) (sortedRSets (values h'.schemas)) = some (e, r) ∧
      ReportsOn (site.disk id) e ∧ RoleOfFolder (site.disk id) r ∧ (∃ e u t, slug = fnvHex (e ++ u ++ t)) ∧
      (Unambiguous (site.disk id) → e.scheme ++ "/" ++ e.chars = entity ∧ r.roleURI = role) := by
  rw [advertises_iff] at ha
  obtain ⟨_, _, fuel, sched, hp, hl, _⟩ := hl
  obtain ⟨_, _, fuel', sched', hp', hl', _⟩ := hl'
  rw [C108_networks hp hl, ← C108_networks hp' hl' (entityQuery site.names)] at ha
  obtain ⟨m, h1, h2⟩ := ha
  obtain ⟨e, r, h3, h4, h5, h6, h7⟩ := slugs_select _ _ _ _ _ _ _ _ h1 h2
  refine ⟨e, r, h3, (occurs_iff hl' e).1 h4, (declaredSet_iff hp' hl' r).1 h5, ⟨_, _, _, h6.symm⟩, fun hu => h7 ?_⟩
  intro e₁ e₂ r₁ r₂ a b c d heq
  exact hu e₁ e₂ r₁ r₂ ((occurs_iff hl' _).1 a) ((occurs_iff hl' _).1 b) ((declaredSet_iff hp' hl' _).1 c) ((declaredSet_iff hp' hl' _).1 d) heq

theorem not_document {slug : String} (h : ∃ e u t, slug = fnvHex (e ++ u ++ t)) : ¬ (EndsIn slug ".xhtml" ∨ EndsIn slug ".htm") := by
  obtain ⟨e, u, t, rfl⟩ := h
  obtain ⟨_, _, _, _, h⟩ := C36_slug_shape e u t
  rintro (⟨p, hp⟩ | ⟨p, hp⟩)
  · exact (h p).2 hp
  · exact (h p).1 hp

/-- Where the answer for an advertised slug comes from. -/
theorem renderable_answer {site : Site} {allowed : Req → Prop} (hn : Normal allowed) {dry : Bool} {s : State Loaded Store.Bytes Unit}
    (hs : Steps (backend site) dry allowed State.init s) {id slug : String} {b : Store.Bytes} {e : Option String}
    (hslug : ∃ e u t, slug = fnvHex (e ++ u ++ t))
    (h : (.renderable id slug, .ret (.bytes (some b)) e) ∈ s.log) :
    e = none ∧ ∃ l : Loaded, l.folder = id ∧ Loads site id l.world l.files l.hyd ∧ ∃ c : Choice, c.Fair l.hyd ∧ ∃ en r g n,
      select slug (sortedEntities (values l.hyd.instances)) (sortedRSets (values l.hyd.schemas)) = some (en, r) ∧
      renderGrids (Server.folderOf site c l) (gridEnv site c l) site.spanish c.schedule (booksOf site c) (stringify en) r.roleURI = .done g ∧
      entityQuery site.names en.scheme en.chars = .ok n ∧
      b = encodeUtf8 (marshalRenderable (calcFound r.roleURI [] c.calculation) ⟨⟨n, en⟩, r, g⟩) := by
  obtain ⟨he, l, h1, h2, h3⟩ := answered hn hs h
  cases h1
  refine ⟨he, l, rfl, h2, ?_⟩
  rcases h3 with ⟨h3, _⟩ | ⟨_, c, hc, h3⟩
  · exact absurd h3 (not_document hslug)
  refine ⟨c, hc, ?_⟩
  unfold render at h3
  split at h3
  · simp [Returns] at h3
  · rename_i en r hsel
    cases hg : renderGrids (Server.folderOf site c l) (gridEnv site c l) site.spanish c.schedule (booksOf site c) (stringify en) r.roleURI <;>
      rw [hg] at h3 <;> simp only [Run.andThen] at h3
    · rename_i g
      cases hq : entityQuery site.names en.scheme en.chars <;> rw [hq] at h3 <;> simp [Returns] at h3
      rename_i n
      exact ⟨en, r, g, n, hsel, hg, hq, h3⟩
    · simp [Returns] at h3
    · simp [Returns] at h3

/-- **C124c.** A client that follows a slug of the catalog gets one JSON text, and it is the renderable of an entity of that name and
of that role. -/
theorem C124_follow (site : Site) (allowed : Req → Prop) (hn : Normal allowed) (dry : Bool) (s : State Loaded Store.Bytes Unit)
    (hs : Steps (backend site) dry allowed State.init s) (id : String) (hu : Unambiguous (site.disk id)) (b₀ b : Store.Bytes)
    (e₀ e : Option String) (h₀ : (.catalog id, .ret (.bytes (some b₀)) e₀) ∈ s.log) (entity role slug : String)
    (ha : Advertises b₀ entity role slug) (h : (.renderable id slug, .ret (.bytes (some b)) e) ∈ s.log) :
    ∃ v en r, (∀ v', IsText (decodeUtf8 b) v' ↔ v' = v) ∧ IsOf v en r ∧ ReportsOn (site.disk id) en ∧ RoleOfFolder (site.disk id) r ∧
      en.scheme ++ "/" ++ en.chars = entity ∧ r.roleURI = role := by
  obtain ⟨w, fo, hy, hl, rfl⟩ := catalog_answer hn hs h₀
  obtain ⟨_, _, _, _, _, hslug, _⟩ := advertised_select hl hl ha
  obtain ⟨_, l, rfl, hl', c, hc, en, r, g, n, hsel, hg, hq, rfl⟩ := renderable_answer hn hs hslug h
  obtain ⟨en', r', hsel', hen, hr, _, hof⟩ := advertised_select hl hl' ha
  rw [hsel] at hsel'
  cases hsel'
  obtain ⟨v, hv, ⟨x, hx, hx1, hx2⟩, ⟨y, hy, _, z, hz, hz1, hz2⟩, _⟩ :=
    C116_renderable (Server.folderOf site c l) (fun x => getLabel_wf _ _) (factEnv site c l) (notesOf site l) c.cellOrder c.lastOrder (gridEnv site c l)
      hc.member rfl site.spanish c.schedule (booksOf site c) (stringify en) r.roleURI g hg ⟨n, en⟩ r
  refine ⟨v, en, r, ?_, ⟨⟨_, hy, _, hz, _, hz1, rfl⟩, ⟨_, hy, _, hz, _, hz2, rfl⟩, ⟨_, hx, _, hx2, rfl⟩, ⟨_, hx, _, hx1, rfl⟩⟩, hen, hr, hof hu⟩
  rw [decode_encoded]
  exact hv

/-- **C124d.** From the files to the client: a fact reported without accuracy in the instance of a folder on disk is found, with the
text that the instance has, by a client that follows the slug of its entity and a role, in every grid with a row for its concept. -/
theorem C124_fact (site : Site) (allowed : Req → Prop) (hn : Normal allowed) (dry : Bool) (s : State Loaded Store.Bytes Unit)
    (hs : Steps (backend site) dry allowed State.init s) (id : String) (hu : Unambiguous (site.disk id))
    (hurl : site.outside.validUrl = (site.disk id).isUrl) (b₀ b : Store.Bytes)
    (e₀ e : Option String) (h₀ : (.catalog id, .ret (.bytes (some b₀)) e₀) ∈ s.log) (entity role slug : String)
    (ha : Advertises b₀ entity role slug) (h : (.renderable id slug, .ret (.bytes (some b)) e) ∈ s.log)
    (root : Xml) (inst : Disc.InstanceFile) (hroot : EntryRoot (site.disk id) root inst) (file : InstFile) (hfile : instanceFile root = some file)
    (x : Xml) (c : Concept) (r : String) (hx : Reports root x c r)
    (l : String) (sx : Xml) (hsx : SchemaAt (site.disk id) site.outside.discover inst x.name.space l sx) (hc : DeclaredIn sx l c) (hdist : Distinct sx l c)
    (habs : c.abstract = false) (hdec : ∀ s, ¬ AttrVal x.attrs "decimals" s) (htype : c.type.loc ≠ "textBlockItemType")
    (hids : ∀ w fo h, Loads site id w fo h → ∀ l' c', Declares (queryEnv w fo) l' c' → '#' ∉ c'.id.toList)
    (hcc : ∀ w fo h, Loads site id w fo h → ∃ cc, HasContext (instanceWorld w fo file) root r cc ∧ OfEntity entity cc) :
    ∃ v w fo hy cc core, (∀ v', IsText (decodeUtf8 b) v' ↔ v' = v) ∧ Loads site id w fo hy ∧ HasContext (instanceWorld w fo file) root r cc ∧
      ((IsSet x.attrs "nil" ∧ core = "nil") ∨ (¬ IsSet x.attrs "nil" ∧ core = x.inner)) ∧
      (∀ p, At v [.key "PGrid"] p → (∃ n, PRow p n (l ++ "#" ++ c.id)) → CoreShown p (PRow p) (l ++ "#" ++ c.id) cc core) ∧
      (∀ k p, At v [.key "DGrid", .key "RootDomains", .idx k] p → (∃ n, DRow p n (l ++ "#" ++ c.id)) →
        CoreShown p (DRow p) (l ++ "#" ++ c.id) cc core) ∧
      (∀ k p, At v [.key "CGrid", .key "SummationItems", .idx k] p → (∃ n, CRow p n (l ++ "#" ++ c.id)) →
        CoreShown p (CRow p) (l ++ "#" ++ c.id) cc core) := by
  obtain ⟨w, fo, hy, hl, rfl⟩ := catalog_answer hn hs h₀
  obtain ⟨_, _, _, _, _, hslug, _⟩ := advertised_select hl hl ha
  obtain ⟨_, ld, rfl, hl', ch, hch, en, rs, g, n, hsel, hg, hq, rfl⟩ := renderable_answer hn hs hslug h
  obtain ⟨en', r', hsel', hen, hr, _, hof⟩ := advertised_select hl hl' ha
  rw [hsel] at hsel'
  cases hsel'
  obtain ⟨cc, hcc1, hcc2⟩ := hcc _ _ _ hl'
  have hids := hids _ _ _ hl'
  obtain ⟨⟨p, d, o, nn, ll, s₁, s₂, hw⟩, hfw, fuel, sched, hp, hload, _⟩ := id hl'
  have hent : stringify en = entity := (hof hu).1
  have hurl' : ld.world.validUrl = (site.disk ld.folder).isUrl := by rw [hw]; exact hurl
  have hsx : SchemaAt (site.disk ld.folder) ld.world.discover inst x.name.space l sx := by rw [hw]; exact hsx
  obtain ⟨v, core, hv, hcore, h1, h2, h3⟩ := C118_served (site.disk ld.folder) { ld.world with nsOrder := ch.nsOrder, labelOrder := ch.labelOrder }
    ⟨hfw.p, hfw.d, hfw.c, hch.ns, hch.label⟩ hurl' fuel sched hp ld.files ld.hyd hload root inst hroot file hfile x c r hx l sx hsx hc hdist habs hids
    cc hcc1 entity hcc2 site.tree (gridEnv site ch ld) hch.member (factEnv site ch ld) rfl (notesOf site ld) ch.cellOrder ch.lastOrder rfl
    hdec htype site.spanish ch.schedule (booksOf site ch) rs.roleURI g (hent ▸ hg) ⟨n, en⟩ rs
  refine ⟨v, _, _, _, cc, core, ?_, hl', hcc1, hcore, h1, h2, h3⟩
  rw [decode_encoded]
  exact hv

/-- If one load of a folder succeeds, none returns an error. -/
theorem loads_loadable {site : Site} {id : String} {w : Hydrate.World} {fo : Files} {h : Hydratable} (hl : Loads site id w fo h) :
    (∀ e, discovers site id e → e = none) ∧ (∀ w, ¬ Ends site id w (.done none)) := by
  obtain ⟨hv, _, fuel, sched, hp, hl, hw, _⟩ := hl
  constructor
  · rintro e ⟨fuel', sched', hp', he⟩
    obtain ⟨fo0, h1, _⟩ := load_some hl
    obtain ⟨a, _⟩ := discover_same (fuel' := fuel') hp hp' h1
    cases e with
    | none => rfl
    | some m =>
      cases hd : Disc.discover (site.disk id).env fuel' sched' with
      | none => rw [hd] at he; exact he.elim
      | some r =>
        rw [hd] at he
        cases r with
        | ok _ => exact he.elim
        | panic => exact he.elim
        | err m' => exact (a m' hd).elim
  · rintro w' ⟨hv', _, fuel', sched', hp', hl', hw', _⟩
    refine C110_loadable hp hp' hl ?_ hw hw' hl'
    obtain ⟨_, _, _, _, _, _, _, rfl⟩ := hv
    obtain ⟨_, _, _, _, _, _, _, rfl⟩ := hv'
    rfl

/-- **C124e.** If the names file can be read, a request for an advertised slug is answered with bytes, or the program panics: it is
never answered with an error. -/
theorem C124_served (site : Site) (allowed : Req → Prop) (hn : Normal allowed) (dry : Bool) (s : State Loaded Store.Bytes Unit)
    (hs : Steps (backend site) dry allowed State.init s) (id : String) (hnames : ∃ m, site.names = .ok m)
    (b₀ : Store.Bytes) (e₀ : Option String) (h₀ : (.catalog id, .ret (.bytes (some b₀)) e₀) ∈ s.log) (entity role slug : String)
    (ha : Advertises b₀ entity role slug) (o : Out Loaded Store.Bytes Unit) (h : (.renderable id slug, o) ∈ s.log) :
    (∃ b, o = .ret (.bytes (some b)) none) ∨ o = .panic := by
  obtain ⟨w, fo, hy, hl, rfl⟩ := catalog_answer hn hs h₀
  obtain ⟨_, _, _, _, _, hslug, _⟩ := advertised_select hl hl ha
  have hload := loads_loadable hl
  obtain ⟨nm, hnm⟩ := hnames
  have hq : ∀ a b, ∃ n, entityQuery site.names a b = .ok n := by
    intro a b
    rw [hnm]
    unfold entityQuery
    dsimp only
    split
    · split
      · exact ⟨_, rfl⟩
      · exact ⟨_, rfl⟩
    · exact ⟨_, rfl⟩
  have key : ∀ o, Direct (backend site) (.renderable id slug) o → (∃ b, o = .ret (.bytes (some b)) none) ∨ o = .panic := by
    intro o hd
    cases hd with
    | undiscovered _ id' m h1 h2 => cases h1; exact absurd (hload.1 _ h2) (by simp)
    | hydratePanic => exact .inr rfl
    | unhydrated _ id' x m h1 h2 h3 =>
      cases h1
      cases x with
      | some x => exact h3.elim
      | none => obtain ⟨_, w, h3⟩ := h3; exact absurd h3 (hload.2 w)
    | computePanic => exact .inr rfl
    | computed _ id' ld b e h1 h2 h3 h4 =>
      cases h1
      obtain ⟨rfl, h3⟩ : ld.folder = id ∧ Ends site id ld.world (.done (some (ld.files, ld.hyd))) := h3
      obtain ⟨en, r, hsel, _⟩ := advertised_select hl h3 ha
      rcases h4 with ⟨h4, _⟩ | ⟨_, c, hc, h4⟩
      · exact absurd h4 (not_document hslug)
      · unfold render at h4
        rw [hsel] at h4
        simp only at h4
        obtain ⟨nn, hnn⟩ := hq en.scheme en.chars
        cases hg : renderGrids (Server.folderOf site c ld) (gridEnv site c ld) site.spanish c.schedule (booksOf site c) (stringify en) r.roleURI <;>
          rw [hg] at h4 <;> simp only [Run.andThen, hnn, Returns, Option.some.injEq, Prod.mk.injEq] at h4
        · exact .inl ⟨_, by rw [h4.1, h4.2]⟩
        · cases h4
  rcases C60_answers _ (backend_sane site) allowed hn dry s hs _ _ h with h | ⟨_, b', e', h1, h2⟩ | ⟨_, h1, _⟩
  · exact key o h
  · rcases key _ h2 with ⟨_, h⟩ | h <;> cases h
  · exact .inr h1

/-! ## A site with one folder, and a history in which a client follows a slug -/

def demoSite : Site where
  disk := fun _ => diskDemo
  document := fun _ => []
  parseHtml := fun _ => none
  renderHtml := fun _ => none
  outside := diskWorld
  names := .ok []
  tree := diskTree
  noteTree := fun _ => .node "" []
  spanish := fun _ => none
  fmt := fun _ => ""
  htmlTokens := fun _ => []
  hundred := fun _ => none
  digits := fun _ _ _ => none

def demoSlug : String := fnvHex "s/1r001 - A"

def demoChoice (h : Hydratable) : Choice where
  nsOrder := fun _ m => m
  labelOrder := fun _ m => m
  mapOrder := id
  memberOrder := id
  cellOrder := fun _ _ m => m
  lastOrder := id
  drsOrder := id
  presentation := values h.presentation
  definition := values h.definition
  definitionAgain := values h.definition
  dimensionOrder := fun _ => values h.definition
  calculation := values h.calculation
  order := values h.instances
  schedule := { langs := [0, 0, 0, 1, 1, 1, 2, 2, 2], roles := [0, 0, 0, 1, 1, 1, 2, 2, 2], grow := fun _ => 0 }

theorem demoChoice_fair (h : Hydratable) : (demoChoice h).Fair h :=
  ⟨fun _ _ => .refl _, fun _ _ => .refl _, fun _ => .refl _, fun _ => .refl _, fun _ _ _ => .refl _, fun _ => .refl _, fun _ => .refl _, .refl _, .refl _,
    .refl _, fun _ => .refl _, .refl _, .refl _⟩

def demoCalls (r : Req) : Prop := r = .catalog "a-1" ∨ r = .renderable "a-1" demoSlug

theorem demoCalls_normal : Normal demoCalls where
  ok := by
    rintro r (rfl | rfl)
    · exact ⟨by decide, by decide⟩
    · exact ⟨⟨by decide, by decide⟩, by decide +kernel, by decide +kernel⟩
  express := by
    rintro _ _ _ _ _ _ (h | h) <;> cases h

theorem demoSlug_eq : demoSlug = fnvHex ("s/1" ++ "r" ++ "001 - A") := congrArg fnvHex (by decide)

theorem discovers_ok {site : Site} {folder : String} {fuel : Nat} {sched : List (Disc.Write LinkbaseFile) → List (Disc.Write LinkbaseFile)}
    {fo : Disc.Folder LinkbaseFile DocFile} (hp : ∀ ws, (sched ws).Perm ws)
    (h : Disc.discover (site.disk folder).env fuel sched = some (.ok fo)) : discovers site folder none :=
  ⟨fuel, sched, hp, by rw [h]; trivial⟩

theorem demo_load : ∃ fo h, load diskDemo diskWorld 3 id = some (.done (some (fo, h))) ∧
    (∃ b, render demoSite (demoChoice h) demoSlug ⟨"a-1", diskWorld, fo, h⟩ = .done (some b, none)) ∧
    (listing diskDemo (entityQuery (.ok [])) h).subjects.map Subject.entity = [⟨"s", "1"⟩] ∧
    (listing diskDemo (entityQuery (.ok [])) h).rsets = [⟨"001 - A", "r"⟩] := by
  have he : (match load diskDemo diskWorld 3 id with
    | some (.done (some (fo, h))) =>
      (match render demoSite (demoChoice h) demoSlug ⟨"a-1", diskWorld, fo, h⟩ with
        | .done (some _, none) => true
        | _ => false) &&
      decide ((listing diskDemo (entityQuery (.ok [])) h).subjects.map Subject.entity = [⟨"s", "1"⟩]) &&
      decide ((listing diskDemo (entityQuery (.ok [])) h).rsets = [⟨"001 - A", "r"⟩])
    | _ => false) = true := by decide +kernel
  split at he
  · rename_i fo h hl
    simp only [Bool.and_eq_true, decide_eq_true_eq] at he
    obtain ⟨⟨h1, h2⟩, h3⟩ := he
    refine ⟨fo, h, hl, ?_, h2, h3⟩
    split at h1
    · exact ⟨_, ‹_›⟩
    · cases h1
  · cases he

theorem demo_loads {fo : Files} {h : Hydratable} (hl : load diskDemo diskWorld 3 id = some (.done (some (fo, h)))) :
    Loads demoSite "a-1" diskWorld fo h := by
  refine ⟨⟨_, _, _, _, _, _, _, rfl⟩, ⟨fun _ _ => .refl _, fun _ _ => .refl _, fun _ _ => .refl _, fun _ _ => .refl _, fun _ _ => .refl _⟩, 3, id,
    fun _ => .refl _, hl, fun fo x hf hx => ?_, Disc.realised_id _ _⟩
  have : (match Disc.discover diskDemo.env 3 id with
    | some (.ok fo) => fo.document.isSome
    | _ => false) = false := by decide +kernel
  change Disc.discover diskDemo.env 3 id = _ at hf
  rw [hf] at this
  simp [hx] at this

theorem demo_facts : Unambiguous diskDemo ∧ ReportsOn diskDemo ⟨"s", "1"⟩ ∧ RoleOfFolder diskDemo ⟨"001 - A", "r"⟩ ∧
    ∀ r, RoleOfFolder diskDemo r → r = ⟨"001 - A", "r"⟩ := by
  obtain ⟨fo, h, hl, _, h1, h2⟩ := demo_load
  have k1 := (C108_subjects hl (entityQuery (.ok []))).1
  have k2 := (C108_relationship_sets (fun _ => .refl _) hl (entityQuery (.ok []))).1
  rw [h1] at k1
  rw [h2] at k2
  simp only [List.mem_singleton] at k1 k2
  refine ⟨?_, (k1 _).1 rfl, (k2 _).1 rfl, fun r hr => (k2 r).2 hr⟩
  intro e₁ e₂ r₁ r₂ a b c d _
  rw [(k1 _).2 a, (k1 _).2 b, (k2 _).2 c, (k2 _).2 d]
  exact ⟨rfl, rfl⟩

theorem direct_catalog {site : Site} {l : Loaded} (hdis : (backend site).discover l.folder none)
    (hhyd : (backend site).hydrate l.folder (some (some l, none))) {b : Store.Bytes} (hb : b = catalogBytes site l) :
    Direct (backend site) (.catalog l.folder) (.ret (.bytes (some b)) none) :=
  .computed (.catalog l.folder) l.folder l (some b) none rfl hdis hhyd (by subst hb; simp only [Computes, backend])

/-- A history with the catalog and the renderable under a slug. -/
theorem follow_history {site : Site} {id slug : String} {allowed : Req → Prop} (ha₁ : allowed (.catalog id))
    (ha₂ : allowed (.renderable id slug)) {w : Hydrate.World} {fo : Files} {h : Hydratable} (hld : Loads site id w fo h)
    (hslug : ∃ e u t, slug = fnvHex (e ++ u ++ t)) {c : Choice} (hc : c.Fair h) {b : Store.Bytes}
    (hb : render site c slug ⟨id, w, fo, h⟩ = .done (some b, none)) :
    ∃ s, Steps (backend site) true allowed State.init s ∧
      s.log = [(.renderable id slug, .ret (.bytes (some b)) none), (.catalog id, .ret (.bytes (some (catalogBytes site ⟨id, w, fo, h⟩))) none)] := by
  have hdis : (backend site).discover id none := by
    obtain ⟨_, _, fuel, sched, hp, hl, _⟩ := hld
    obtain ⟨fo0, h1, _⟩ := load_some hl
    exact discovers_ok hp h1
  have hhyd : (backend site).hydrate id (some (some ⟨id, w, fo, h⟩, none)) := ⟨rfl, hld⟩
  have d1 := direct_catalog (l := ⟨id, w, fo, h⟩) hdis hhyd rfl
  have hx : (backend site).renderable slug ⟨id, w, fo, h⟩ (some (some b, none)) := ⟨c, hc, by rw [hb]; exact Eq.refl _⟩
  have d2 : Direct (backend site) (.renderable id slug) (.ret (.bytes (some b)) none) :=
    .computed (.renderable id slug) id ⟨id, w, fo, h⟩ _ _ rfl hdis hhyd (.inr ⟨fun h => not_document hslug h.1, hx⟩)
  obtain ⟨s1, h1, l1, t1⟩ := C60_every (backend site) allowed State.init (.catalog id) ha₁ _ ⟨_, rfl⟩ d1
  obtain ⟨s2, h2, l2, t2⟩ := C60_every (backend site) allowed s1 (.renderable id slug) ha₂ _ ⟨_, rfl⟩ d2
  refine ⟨s2, steps_trans h1 h2, ?_⟩
  rw [l2, l1]
  exact Eq.refl _

theorem demo_history : ∃ s b₀ b, Steps (backend demoSite) true demoCalls State.init s ∧
    s.log = [(.renderable "a-1" demoSlug, .ret (.bytes (some b)) none), (.catalog "a-1", .ret (.bytes (some b₀)) none)] ∧
    Advertises b₀ "s/1" "r" demoSlug := by
  obtain ⟨fo, h, hl, ⟨b, hb⟩, _, _⟩ := demo_load
  obtain ⟨s, hs, hlog⟩ := follow_history (allowed := demoCalls) (.inl rfl) (.inr rfl) (demo_loads hl) ⟨_, _, _, demoSlug_eq⟩
    (demoChoice_fair h) hb
  refine ⟨s, _, b, hs, hlog, ?_⟩
  have hmem : (Req.catalog "a-1", Out.ret (Val.bytes (some (catalogBytes demoSite ⟨"a-1", diskWorld, fo, h⟩))) none) ∈ s.log := by
    rw [hlog]; exact List.mem_cons_of_mem _ List.mem_cons_self
  rw [C124_catalog demoSite demoCalls demoCalls_normal true s hs "a-1" _ _ hmem]
  obtain ⟨_, f1, f2, f3⟩ := demo_facts
  refine ⟨⟨_, f1, by decide⟩, _, f2, rfl, demoSlug_eq, fun r' hr _ => ?_⟩
  rw [f3 r' hr]
  exact String.lt_irrefl _

/-- The hypotheses of C124 hold of this history. -/
example : ∃ s b₀ b, Steps (backend demoSite) true demoCalls State.init s ∧ Normal demoCalls ∧ Unambiguous (demoSite.disk "a-1") ∧
    (.catalog "a-1", .ret (.bytes (some b₀)) none) ∈ s.log ∧ Advertises b₀ "s/1" "r" demoSlug ∧
    (.renderable "a-1" demoSlug, .ret (.bytes (some b)) none) ∈ s.log ∧ demoSite.names = .ok [] := by
  obtain ⟨s, b₀, b, hs, hlog, ha⟩ := demo_history
  exact ⟨s, b₀, b, hs, demoCalls_normal, demo_facts.1, by rw [hlog]; exact List.mem_cons_of_mem _ List.mem_cons_self, ha,
    by rw [hlog]; exact List.mem_cons_self, rfl⟩

/-- The further hypotheses of `C124_fact` hold of it. -/
example : demoSite.outside.validUrl = (demoSite.disk "a-1").isUrl ∧ EntryRoot (demoSite.disk "a-1") reportXml diskInst ∧
    (∃ file, instanceFile reportXml = some file ∧ ∀ w fo h, Loads demoSite "a-1" w fo h →
      ∃ cc, HasContext (instanceWorld w fo file) reportXml "c" cc ∧ OfEntity "s/1" cc) ∧
    Reports reportXml diskFact diskConcept "c" ∧ SchemaAt (demoSite.disk "a-1") demoSite.outside.discover diskInst diskFact.name.space "x.xsd" diskSchema ∧
    DeclaredIn diskSchema "x.xsd" diskConcept ∧ Distinct diskSchema "x.xsd" diskConcept ∧ diskConcept.abstract = false ∧
    (∀ s, ¬ AttrVal diskFact.attrs "decimals" s) ∧ diskConcept.type.loc ≠ "textBlockItemType" ∧
    ∀ w fo h, Loads demoSite "a-1" w fo h → ∀ l' c', Declares (queryEnv w fo) l' c' → '#' ∉ c'.id.toList := by
  refine ⟨rfl, ⟨_, diskEntry, rfl⟩, ⟨_, rfl, fun w fo h _ => ⟨diskContext, diskHasContext _, by unfold OfEntity; decide⟩⟩, diskReports, diskSchemaAt diskLike _,
    diskDeclared.2 rfl, fun c' hc _ => diskDeclared.1 hc, rfl, fun s hs => ?_, by decide, ?_⟩
  · rw [← plainAttr_iff] at hs
    have : plainAttr diskFact.attrs "decimals" = none := by decide
    rw [this] at hs
    cases hs
  · rintro w fo h ⟨⟨_, _, _, _, _, _, _, hw⟩, _, _, _, _, hl, _⟩
    exact diskIds diskLike (by rw [hw]; rfl) hl

end Telefacts
