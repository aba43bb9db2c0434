import Verif.Spec.Embed
import Verif.Props.ServerExpress
import Verif.Props.Media
/-! # C135: the document of a folder, from the files to the client -/
namespace Telefacts
open Telefacts.Server Telefacts.Hydrate Telefacts.Catalog Telefacts.Json Telefacts.Cache Telefacts.Schema Telefacts.Instance
  Telefacts.Decode Telefacts.Spec Telefacts.Media
open Telefacts.Image (TreeShown NodeShown AttrShown Inlined Known replace)

theorem inlined_shown {es : List Entry} (h : (es.map Entry.name).Nodup) {m m' : Image.Node} (hi : Inlined (processImages (some es)) m m') :
    NodeShown es m m' := by
  obtain ⟨h1, h2, h3, h4, h5, h6⟩ := hi
  refine ⟨h1, h2, h3, h4, h5, fun i a ha => ?_⟩
  obtain ⟨a', ha', hns, hk, hyes, hno⟩ := h6 i a ha
  refine ⟨a', ha', hns, hk, ?_, ?_⟩
  · rintro e ⟨k1, k2, k3, k4, k5, u, hu⟩
    have hm := (C106_images es h e.name u).2 ⟨e, k4, rfl, hu⟩
    rw [hyes u ⟨k1, k2, k3, _, k5, hm⟩]
    exact hu
  · intro hn
    refine hno ?_
    rintro ⟨d, k1, k2, k3, b, k4, k5⟩
    obtain ⟨e, he, rfl, hs⟩ := (C106_images es h b d).1 k5
    exact hn e ⟨k1, k2, k3, he, k4, d, hs⟩

theorem replace_shown {es : List Entry} (h : (es.map Entry.name).Nodup) (n : Image.Node) :
    TreeShown es n (replace (processImages (some es)) n) := by
  obtain ⟨h1, h2⟩ := C18_only_image_sources (processImages (some es)) n
  constructor
  · intro p m hm
    obtain ⟨m', k1, k2⟩ := h1 p m hm
    exact ⟨m', k1, inlined_shown h k2⟩
  · intro p m' hm
    obtain ⟨m, k1, k2⟩ := h2 p m' hm
    exact ⟨m, k1, inlined_shown h k2⟩

theorem images_nil {es : List Entry} (h : (es.map Entry.name).Nodup) : processImages (some es) = [] ↔ ∀ e ∈ es, ∀ u, ¬ Shows e u := by
  constructor
  · intro hn e he u hu
    have := (C106_images es h e.name u).2 ⟨e, he, rfl, hu⟩
    rw [hn] at this
    cases this
  · intro hn
    cases hp : processImages (some es) with
    | nil => rfl
    | cons a t =>
      obtain ⟨k, v⟩ := a
      have : mapGet (processImages (some es)) k = some v := by rw [hp]; simp [mapGet]
      obtain ⟨e, he, _, hs⟩ := (C106_images es h k v).1 this
      exact absurd hs (hn e he v)

theorem documentBytes_shown {site : Site} {folder : String} {es : List Entry} (h : (es.map Entry.name).Nodup)
    (himg : (site.disk folder).images = processImages (some es)) : DocumentShown site folder es (documentBytes site folder) := by
  unfold DocumentShown documentBytes
  rw [himg, ← images_nil h]
  by_cases hn : processImages (some es) = []
  · rw [if_neg (by simpa using hn)]
    refine ⟨fun _ => rfl, ?_⟩
    rintro ⟨e, he, u, hu⟩
    exact absurd hu ((images_nil h).1 hn e he u)
  · rw [if_pos hn]
    refine ⟨fun e => absurd e hn, fun _ => ?_⟩
    unfold Image.transformInlineImages
    cases hp : site.parseHtml (site.document folder) with
    | none => exact .inl ⟨rfl, rfl⟩
    | some n =>
      refine .inr ⟨n, _, rfl, replace_shown h n, ?_⟩
      cases hr : site.renderHtml (replace (processImages (some es)) n) with
      | none => right; simp only [hr]; exact ⟨trivial, trivial⟩
      | some b => left; simp only [hr]

/-- A folder whose entry is an inline document has that document, once loaded. -/
theorem loaded_inline {site : Site} {id : String} {w : Hydrate.World} {fo : Files} {hy : Hydratable} (hl : Loads site id w fo hy)
    {entry : String} (he : (site.disk id).entryName = some entry) (hi : Disc.Inline entry) : hy.document.isSome = true := by
  obtain ⟨_, _, fuel, sched, hp, hload, hw, _⟩ := hl
  obtain ⟨fo0, h1, rfl, h2⟩ := load_some hload
  obtain ⟨_, _, _, _, _, _, _, h3⟩ := hydrate_some h2
  have hd : fo0.document.isSome = true := by
    unfold Disc.discover at h1
    rw [show (site.disk id).env.entryName = some entry from he] at h1
    simp only [if_pos ((Disc.inline_iff entry).1 hi)] at h1
    split at h1
    · cases h1
    · split at h1 <;> cases h1
    · split at h1
      · cases h1
      · unfold Disc.withInstance at h1
        split at h1
        · cases h1
        · split at h1
          · cases h1
          · simp only [Option.some.injEq, Res.ok.injEq] at h1
            rw [← h1]
            change (List.foldl _ _ _ : Disc.Folder LinkbaseFile DocFile).document.isSome = true
            rw [(Disc.applyWrites_rest _ _).2.1]
            rfl
  rcases hydrateDoc_some.1 h3 with ⟨h4, _⟩ | ⟨x, doc, h4, h5, h6⟩
  · change fo0.document = none at h4
    rw [h4] at hd; cases hd
  · rw [h5]; rfl

/-- What a request for the entry of a folder computes. -/
theorem computes_document {site : Site} {id entry : String} {ld : Loaded} (hf : ld.folder = id)
    (hl : Loads site ld.folder ld.world ld.files ld.hyd) (he : (site.disk id).entryName = some entry) (hi : Disc.Inline entry)
    {p : Option (Option Store.Bytes × Option String)} (h : Computes (backend site) (.renderable id entry) ld p) :
    p = some (some (documentBytes site id), none) := by
  subst hf
  have hen : (backend site).entryName ld = entry := by
    change (site.disk ld.folder).entryName.getD "" = entry
    rw [he]; rfl
  rcases h with ⟨_, _, h⟩ | ⟨h, _⟩
  · change p = (if ld.hyd.document.isSome = true then some (documentBytes site ld.folder) else none).map _ at h
    rw [if_pos (loaded_inline hl he hi)] at h
    exact h
  · exact absurd ⟨hi, hen⟩ h

/-- **C135a.** A client that asks for the entry document of a folder gets the document on disk, with the image files of the folder in
the place of the sources that name them, and nothing else changed. -/
theorem C135_document (site : Site) (allowed : Req → Prop) (hn : Normal allowed) (dry : Bool) (s : State Loaded Store.Bytes Unit)
    (hs : Steps (backend site) dry allowed State.init s) (id entry : String) (he : (site.disk id).entryName = some entry)
    (hi : Disc.Inline entry) (es : List Entry) (hes : (es.map Entry.name).Nodup) (himg : (site.disk id).images = processImages (some es))
    (b : Store.Bytes) (e : Option String) (h : (.renderable id entry, .ret (.bytes (some b)) e) ∈ s.log) :
    e = none ∧ DocumentShown site id es b := by
  obtain ⟨rfl, ld, h1, hl, hcomp⟩ := answered hn hs h
  cases h1
  have := computes_document rfl hl he hi hcomp
  cases this
  exact ⟨rfl, documentBytes_shown hes himg⟩

/-- **C135b.** The bytes are always the same, before and after the folder is cached or the server restarted. -/
theorem C135_same (site : Site) (allowed allowed' : Req → Prop) (hn : Normal allowed) (hn' : Normal allowed') (dry dry' : Bool)
    (s s' : State Loaded Store.Bytes Unit) (hs : Steps (backend site) dry allowed State.init s)
    (hs' : Steps (backend site) dry' allowed' State.init s') (id entry : String) (he : (site.disk id).entryName = some entry)
    (hi : Disc.Inline entry) (b b' : Store.Bytes) (e e' : Option String)
    (h : (.renderable id entry, .ret (.bytes (some b)) e) ∈ s.log) (h' : (.renderable id entry, .ret (.bytes (some b')) e') ∈ s'.log) :
    b = b' := by
  obtain ⟨rfl, ld, h1, hl, hcomp⟩ := answered hn hs h
  cases h1
  obtain ⟨rfl, ld', h1', hl', hcomp'⟩ := answered hn' hs' h'
  obtain hf : ld.folder = ld'.folder := Option.some.inj h1'
  have k := computes_document rfl hl he hi hcomp
  have k' := computes_document hf.symm hl' he hi hcomp'
  cases k
  cases k'
  rfl

/-- **C135c.** Once the folder can be loaded, such a request is answered with the document, unless loading the folder panics. -/
theorem C135_served (site : Site) (allowed : Req → Prop) (hn : Normal allowed) (dry : Bool) (s : State Loaded Store.Bytes Unit)
    (hs : Steps (backend site) dry allowed State.init s) (id entry : String) (he : (site.disk id).entryName = some entry)
    (hi : Disc.Inline entry) (hload : ∃ w fo h, Loads site id w fo h) (o : Out Loaded Store.Bytes Unit)
    (h : (.renderable id entry, o) ∈ s.log) : (∃ b, o = .ret (.bytes (some b)) none) ∨ (o = .panic ∧ ∃ w, Ends site id w .panic) := by
  obtain ⟨w₀, fo₀, hy₀, hl₀⟩ := hload
  have hloadable := loads_loadable hl₀
  have key : ∀ o, Direct (backend site) (.renderable id entry) o →
      (∃ b, o = .ret (.bytes (some b)) none) ∨ (o = .panic ∧ ∃ w, Ends site id w .panic) := by
    intro o hd
    cases hd with
    | undiscovered _ id' m h1 h2 => cases h1; exact absurd (hloadable.1 _ h2) (by simp)
    | hydratePanic _ id' h1 h2 h3 => cases h1; exact .inr ⟨rfl, h3⟩
    | unhydrated _ id' x m h1 h2 h3 =>
      cases h1
      cases x with
      | some x => exact h3.elim
      | none => obtain ⟨_, w, h3⟩ := h3; exact absurd h3 (hloadable.2 w)
    | computePanic _ id' ld h1 h2 h3 h4 =>
      cases h1
      obtain ⟨rfl, h3⟩ : ld.folder = id ∧ Ends site id ld.world (.done (some (ld.files, ld.hyd))) := h3
      exact absurd (computes_document rfl h3 he hi h4) (by simp)
    | computed _ id' ld b e h1 h2 h3 h4 =>
      cases h1
      obtain ⟨rfl, h3⟩ : ld.folder = id ∧ Ends site id ld.world (.done (some (ld.files, ld.hyd))) := h3
      have := computes_document rfl h3 he hi h4
      cases this
      exact .inl ⟨_, rfl⟩
  rcases C60_answers _ (backend_sane site) allowed hn dry s hs _ _ h with h | ⟨_, b', e', h1, h2⟩ | ⟨_, h1, e', h2⟩
  · exact key o h
  · rcases key _ h2 with ⟨_, h⟩ | ⟨h, _⟩ <;> cases h
  · rcases key _ h2 with ⟨_, h⟩ | ⟨h, _⟩ <;> cases h

/-- **C135d.** Nothing else of a folder is served: the name is that of an inline entry, or it is the slug of an entity that the instance
reports on and a role that is declared. -/
theorem C135_only (site : Site) (allowed : Req → Prop) (hn : Normal allowed) (dry : Bool) (s : State Loaded Store.Bytes Unit)
    (hs : Steps (backend site) dry allowed State.init s) (id name : String) (b : Store.Bytes) (e : Option String)
    (h : (.renderable id name, .ret (.bytes (some b)) e) ∈ s.log) :
    ((site.disk id).entryName = some name ∧ Disc.Inline name) ∨
    ∃ x r, ReportsOn (site.disk id) x ∧ RoleOfFolder (site.disk id) r ∧ name = fnvHex (x.scheme ++ "/" ++ x.chars ++ r.roleURI ++ r.title) := by
  obtain ⟨rfl, ld, h1, hl, hcomp⟩ := answered hn hs h
  cases h1
  rcases hcomp with ⟨hi, hen, _⟩ | ⟨_, c, hc, h3⟩
  · refine .inl ⟨?_, hi⟩
    change (site.disk ld.folder).entryName.getD "" = name at hen
    cases hx : (site.disk ld.folder).entryName with
    | none =>
      rw [hx] at hen
      obtain rfl : "" = name := hen
      exact absurd ((Disc.inline_iff _).1 hi) (by decide +kernel)
    | some x => rw [hx] at hen; exact congrArg some hen
  · refine .inr ?_
    unfold render at h3
    split at h3
    · simp [Returns] at h3
    · rename_i en r hsel
      obtain ⟨k1, k2, k3⟩ := select_some hsel
      obtain ⟨_, _, fuel, sched, hp, hload, _⟩ := hl
      exact ⟨en, r, (occurs_iff hload _).1 ((mem_sortedEntities _ _).1 k1), (declaredSet_iff hp hload _).1 ((mem_sortedRSets _ _).1 k2), k3.symm⟩

/-- **C135e.** The same over HTTP, with GET `/folders/<id>/<entry>`. -/
theorem C135_http (site : Site) (front : Front) (allowed : Req → Prop) (hn : Normal allowed) (dry : Bool)
    (s : State Loaded Store.Bytes Unit) (hs : Steps (backend site) dry allowed State.init s) (id entry : String)
    (hid : Router.Segment (wire (utf8 id))) (hen : Router.Segment (wire (utf8 entry))) (he : (site.disk id).entryName = some entry)
    (hi : Disc.Inline entry) (es : List Entry) (hes : (es.map Entry.name).Nodup) (himg : (site.disk id).images = processImages (some es))
    (q body : Web.Bytes) (st : Nat) (h : Got front s.log (networkPath id entry) q st body) :
    (st = 200 → body ≠ [] → DocumentShown site id es (unwire body)) ∧ ((∃ w fo h, Loads site id w fo h) → st = 200) := by
  have hf : entry ≠ "facts" := by
    rintro rfl
    exact absurd ((Disc.inline_iff _).1 hi) (by decide +kernel)
  obtain ⟨o, ho, hh⟩ := got_network hid hen hf h
  constructor
  · rintro rfl hb
    exact (C135_document site allowed hn dry s hs id entry he hi es hes himg _ _ (got_bytes ho hh hb)).2
  · intro hl
    rcases C135_served site allowed hn dry s hs id entry he hi hl o ho with ⟨b, rfl⟩ | ⟨rfl, _⟩
    · rcases hh with ⟨_, _, h, _⟩ | ⟨_, v, m, h⟩
      · exact h
      · cases h
    · rcases hh with ⟨_, h, _⟩ | ⟨_, v, m, h⟩ <;> cases h

/-! ## A site with images -/

def picFile : Image.Node := .mk true 3 "img" [⟨"", "src", "pics/a.png"⟩, ⟨"", "alt", "a.png"⟩] []

def picSite : Site :=
  { inkSite with
    disk := fun _ => { inkDisk with images := processImages (some mediaFiles) }
    document := fun _ => encodeUtf8 "<img src='pics/a.png' alt='a.png'/>".toList
    parseHtml := fun _ => some picFile
    renderHtml := fun n => some (encodeUtf8 (n.attrs.flatMap fun a => a.key.toList ++ '=' :: a.val.toList)) }

def picCalls (r : Req) : Prop := r = .renderable "a-1" "r.htm"

theorem picCalls_normal : Normal picCalls where
  ok := by
    rintro r rfl
    exact ⟨⟨by decide, by decide⟩, by decide, by decide⟩
  express := by
    rintro _ _ _ _ _ _ h
    cases h

theorem pic_load : ∃ fo h, load (picSite.disk "a-1") inkWorld 3 id = some (.done (some (fo, h))) := by
  have he : (match load (picSite.disk "a-1") inkWorld 3 id with
    | some (.done (some _)) => true
    | _ => false) = true := by decide +kernel
  split at he
  · rename_i p hl
    exact ⟨p.1, p.2, hl⟩
  · cases he

theorem pic_loads {fo : Files} {h : Hydratable} (hl : load (picSite.disk "a-1") inkWorld 3 id = some (.done (some (fo, h)))) :
    Loads picSite "a-1" inkWorld fo h := by
  refine ⟨⟨_, _, _, _, _, _, _, rfl⟩, ⟨fun _ _ => .refl _, fun _ _ => .refl _, fun _ _ => .refl _, fun _ _ => .refl _, fun _ _ => .refl _⟩, 3, id,
    fun _ => .refl _, hl, fun fo x hf hx => ?_, Disc.realised_id _ _⟩
  have : (match Disc.discover (picSite.disk "a-1").env 3 id with
    | some (.ok fo) => fo.document.map fun x => (x.nonNumerics.length, x.nonFractions.length)
    | _ => none) = some (0, 1) := by decide +kernel
  rw [hf] at this
  simp only [hx, Option.map_some, Option.some.injEq, Prod.mk.injEq] at this
  refine ⟨fun i hi => by omega, fun i hi => ?_⟩
  obtain rfl : i = 0 := by omega
  decide

/-- The hypotheses of C135 hold of this site; a client got the document, and in it the image. -/
example : (∃ s, Steps (backend picSite) true picCalls State.init s ∧ (.renderable "a-1" "r.htm",
      .ret (.bytes (some (encodeUtf8 "src=data:image/png;base64,iVBORw0KGgo=alt=a.png".toList))) none) ∈ s.log) ∧
    Normal picCalls ∧ (∃ w fo h, Loads picSite "a-1" w fo h) ∧ (picSite.disk "a-1").entryName = some "r.htm" ∧ Disc.Inline "r.htm" ∧
    (mediaFiles.map Entry.name).Nodup ∧ (picSite.disk "a-1").images = processImages (some mediaFiles) := by
  obtain ⟨fo, h, hl⟩ := pic_load
  have hld := pic_loads hl
  have hi : Disc.Inline "r.htm" := (Disc.inline_iff _).2 (by decide +kernel)
  refine ⟨?_, picCalls_normal, ⟨_, _, _, hld⟩, rfl, hi, by decide, rfl⟩
  have hdis : (backend picSite).discover "a-1" none := by
    obtain ⟨fo0, h1, _⟩ := load_some hl
    exact discovers_ok (fun _ => .refl _) h1
  have hhyd : (backend picSite).hydrate "a-1" (some (some ⟨"a-1", inkWorld, fo, h⟩, none)) := ⟨rfl, hld⟩
  have hb : documentBytes picSite "a-1" = encodeUtf8 "src=data:image/png;base64,iVBORw0KGgo=alt=a.png".toList := by decide +kernel
  have hx : Computes (backend picSite) (.renderable "a-1" "r.htm") ⟨"a-1", inkWorld, fo, h⟩ (some (some (documentBytes picSite "a-1"), none)) := by
    refine .inl ⟨hi, rfl, ?_⟩
    change _ = (if h.document.isSome = true then some (documentBytes picSite "a-1") else none).map _
    rw [if_pos (loaded_inline hld rfl hi)]
    rfl
  rw [hb] at hx
  obtain ⟨s, h1, l1, _⟩ := C60_every (backend picSite) picCalls State.init (.renderable "a-1" "r.htm") rfl _ ⟨_, rfl⟩
    (.computed _ "a-1" ⟨"a-1", inkWorld, fo, h⟩ _ _ rfl hdis hhyd hx)
  exact ⟨s, h1, by rw [l1]; exact List.mem_cons_self⟩

end Telefacts
