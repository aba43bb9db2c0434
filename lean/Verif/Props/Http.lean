import Verif.Spec.Http
import Verif.Props.Server
import Verif.Props.Router
/-! # C125: from the files to the client, over HTTP -/
namespace Telefacts
open Telefacts.Server Telefacts.Hydrate Telefacts.Catalog Telefacts.Json Telefacts.Cache Telefacts.Router Telefacts.Schema Telefacts.Instance
  Telefacts.Decode Telefacts.Spec
open Telefacts.Render (OfEntity)

theorem unwire_wire (b : Store.Bytes) : unwire (wire b) = b := by
  unfold unwire wire
  rw [List.map_map]
  simp [Function.comp_def]

theorem goText_utf8 (s : String) : goText (wire (utf8 s)) = s := by
  unfold goText utf8
  rw [unwire_wire, decode_encoded]
  simp

theorem asked_catalog {id : String} (h : Segment (wire (utf8 id))) (q : Web.Bytes) : asked "GET" (catalogPath id) q = some (.catalog id) := by
  unfold asked catalogPath
  rw [(route_catalog_iff _ _ _).2 ⟨rfl, segment_name.1 h, str_path1 _⟩]
  simp only [bytes_str, goText_utf8]

theorem asked_network {id slug : String} (h : Segment (wire (utf8 id))) (hs : Segment (wire (utf8 slug))) (hf : slug ≠ "facts") (q : Web.Bytes) :
    asked "GET" (networkPath id slug) q = some (.renderable id slug) := by
  have hne : str (wire (utf8 slug)) ≠ "facts".toList := by
    intro e
    have e2 : wire (utf8 slug) = Web.lit "facts" := str_inj (by rw [e]; decide)
    have := congrArg goText e2
    rw [goText_utf8] at this
    exact hf (this.trans (by decide +kernel))
  unfold asked networkPath
  rw [(route_two _ _ _ _ _ (.inr ⟨rfl, hne⟩)).2 ⟨rfl, segment_name.1 h, segment_name.1 hs, str_path2 _ _⟩]
  simp only [bytes_str, goText_utf8]

theorem hex_encoded : ∀ c ∈ hexDigits, String.utf8EncodeChar c ≠ [] ∧ ∀ x ∈ String.utf8EncodeChar c, x.toFin ≠ 47 ∧ x.toFin ≠ 46 := by
  decide +kernel

/-- A slug is a path segment. -/
theorem slug_segment {slug : String} (h : ∃ e u t, slug = fnvHex (e ++ u ++ t)) : Segment (wire (utf8 slug)) ∧ slug ≠ "facts" := by
  obtain ⟨e, u, t, rfl⟩ := h
  obtain ⟨hlen, _, hf, _, _⟩ := C36_slug_shape e u t
  change (fnvHex (e ++ u ++ t)).toList.length = 32 at hlen
  have hall : ∀ x ∈ wire (utf8 (fnvHex (e ++ u ++ t))), x ≠ 47 ∧ x ≠ 46 := by
    intro x hx
    unfold wire utf8 encodeUtf8 at hx
    obtain ⟨y, hy, rfl⟩ := List.mem_map.1 hx
    obtain ⟨c, hc, hy⟩ := List.mem_flatMap.1 hy
    exact (hex_encoded c (fnvHex_mem _ c hc)).2 y hy
  have hne : wire (utf8 (fnvHex (e ++ u ++ t))) ≠ [] := by
    unfold wire utf8 encodeUtf8
    cases hl : (fnvHex (e ++ u ++ t)).toList with
    | nil => rw [hl] at hlen; simp at hlen
    | cons c cs =>
      have := (hex_encoded c (fnvHex_mem (e ++ u ++ t) c (by rw [hl]; simp))).1
      simp [this]
  refine ⟨⟨hne, fun h => (hall _ h).1 rfl, ?_, ?_⟩, hf⟩
  · intro h; exact (hall 46 (by rw [h]; decide)).2 rfl
  · intro h; exact (hall 46 (by rw [h]; decide)).2 rfl

/-- The call and the body behind an answer 200. -/
theorem got_catalog {H S : Type} {front : Front} {log : List (Req × Out H Store.Bytes S)} {id : String} {q body : Web.Bytes} {st : Nat}
    (hid : Segment (wire (utf8 id))) (h : Got front log (catalogPath id) q st body) :
    ∃ o, (.catalog id, o) ∈ log ∧ ((∃ b, o = .ret (.bytes b) none ∧ st = 200 ∧ body = wire (b.getD [])) ∨
      (st = 500 ∧ ∃ v m, o = .ret v (some m))) := by
  obtain ⟨r, o, w, h1, h2, h3, h4, h5⟩ := h
  rw [asked_catalog hid] at h1
  cases h1
  refine ⟨o, h2, ?_⟩
  unfold respond at h3
  cases hr : result o with
  | none => rw [hr] at h3; cases h3
  | some res =>
    rw [hr] at h3
    cases h3
    have hc := C103_catalog front.sniff ⟨fun _ => res, fun _ _ => res, fun _ _ _ => res⟩ front.files front.location q hid
    unfold result at hr
    split at hr
    · rename_i b
      cases hr
      obtain ⟨h6, h7⟩ := hc.1 _ rfl
      exact .inl ⟨b, rfl, h4.symm.trans h6, h5.symm.trans h7⟩
    · rename_i v m
      cases hr
      exact .inr ⟨h4.symm.trans (hc.2 _ rfl), _, _, rfl⟩
    · cases hr

theorem got_network {H S : Type} {front : Front} {log : List (Req × Out H Store.Bytes S)} {id slug : String} {q body : Web.Bytes} {st : Nat}
    (hid : Segment (wire (utf8 id))) (hs : Segment (wire (utf8 slug))) (hf : slug ≠ "facts")
    (h : Got front log (networkPath id slug) q st body) :
    ∃ o, (.renderable id slug, o) ∈ log ∧ ((∃ b, o = .ret (.bytes b) none ∧ st = 200 ∧ body = wire (b.getD [])) ∨
      (st = 500 ∧ ∃ v m, o = .ret v (some m))) := by
  have hne : wire (utf8 slug) ≠ Web.lit "facts" := by
    intro e
    have := congrArg goText e
    rw [goText_utf8] at this
    exact hf (this.trans (by decide +kernel))
  obtain ⟨r, o, w, h1, h2, h3, h4, h5⟩ := h
  rw [asked_network hid hs hf] at h1
  cases h1
  refine ⟨o, h2, ?_⟩
  unfold respond at h3
  cases hr : result o with
  | none => rw [hr] at h3; cases h3
  | some res =>
    rw [hr] at h3
    cases h3
    have hc := C103_renderable front.sniff ⟨fun _ => res, fun _ _ => res, fun _ _ _ => res⟩ front.files front.location q hid hs hne
    unfold result at hr
    split at hr
    · rename_i b
      cases hr
      obtain ⟨h6, h7⟩ := hc.1 _ rfl
      exact .inl ⟨b, rfl, h4.symm.trans h6, h5.symm.trans h7⟩
    · rename_i v m
      cases hr
      exact .inr ⟨h4.symm.trans (hc.2 _ rfl), _, _, rfl⟩
    · cases hr

theorem not_text_nil {v : Json} : ¬ IsText (decodeUtf8 []) v := by
  intro h
  rw [← C109_reader] at h
  have : parse (decodeUtf8 []) = none := by decide +kernel
  rw [this] at h
  cases h

/-- What a client reads in an answer with status 200 is what the cache answered. -/
theorem got_bytes {H S : Type} {log : List (Req × Out H Store.Bytes S)} {r : Req} {body : Web.Bytes} {o : Out H Store.Bytes S}
    (h : (r, o) ∈ log) (ho : (∃ b, o = .ret (.bytes b) none ∧ 200 = 200 ∧ body = wire (b.getD [])) ∨ (200 = 500 ∧ ∃ v m, o = .ret v (some m)))
    (hb : body ≠ []) : (r, .ret (.bytes (some (unwire body))) none) ∈ log := by
  rcases ho with ⟨b, rfl, _, rfl⟩ | ⟨h, _⟩
  · cases b with
    | none => exact absurd rfl hb
    | some b => rw [Option.getD_some, unwire_wire]; exact h
  · cases h

theorem advertises_body {body : Web.Bytes} {entity role slug : String} (h : Advertises (unwire body) entity role slug) : body ≠ [] := by
  rintro rfl
  obtain ⟨v, hv, _⟩ := h
  exact not_text_nil hv

/-- **C125a.** Two answers 200 to GET `/folders/<id>`, at any time and by any run of the server, have the same body, unless it is empty. -/
theorem C125_same (site : Site) (front front' : Front) (allowed allowed' : Req → Prop) (hn : Normal allowed) (hn' : Normal allowed')
    (dry dry' : Bool) (s s' : State Loaded Store.Bytes Unit) (hs : Steps (backend site) dry allowed State.init s)
    (hs' : Steps (backend site) dry' allowed' State.init s') (id : String) (hid : Segment (wire (utf8 id))) (q q' body body' : Web.Bytes)
    (h : Got front s.log (catalogPath id) q 200 body) (h' : Got front' s'.log (catalogPath id) q' 200 body') (hb : body ≠ []) (hb' : body' ≠ []) :
    body = body' := by
  obtain ⟨o, ho, hh⟩ := got_catalog hid h
  obtain ⟨o', ho', hh'⟩ := got_catalog hid h'
  have := C124_catalog_same site allowed allowed' hn hn' dry dry' s s' hs hs' id _ _ _ _ (got_bytes ho hh hb) (got_bytes ho' hh' hb')
  have inj : ∀ a b : Web.Bytes, unwire a = unwire b → a = b := by
    intro a b hab
    have hw : ∀ x : Web.Bytes, wire (unwire x) = x := by
      intro x; unfold wire unwire; rw [List.map_map]; simp [Function.comp_def]
    rw [← hw a, hab, hw]
  exact inj _ _ this

/-- **C125b.** A client that gets the catalog of a folder, takes the slug of an entity and a role from it, and gets the renderable under
that slug: it is one JSON text, about an entity of that name and that role. -/
theorem C125_follow (site : Site) (front : Front) (allowed : Req → Prop) (hn : Normal allowed) (dry : Bool)
    (s : State Loaded Store.Bytes Unit) (hs : Steps (backend site) dry allowed State.init s) (id : String) (hid : Segment (wire (utf8 id)))
    (hu : Unambiguous (site.disk id)) (q₀ q body₀ body : Web.Bytes) (h₀ : Got front s.log (catalogPath id) q₀ 200 body₀)
    (entity role slug : String) (ha : Advertises (unwire body₀) entity role slug)
    (h : Got front s.log (networkPath id slug) q 200 body) (hb : body ≠ []) :
    ∃ v en r, (∀ v', IsText (decodeUtf8 (unwire body)) v' ↔ v' = v) ∧ IsOf v en r ∧ ReportsOn (site.disk id) en ∧
      RoleOfFolder (site.disk id) r ∧ en.scheme ++ "/" ++ en.chars = entity ∧ r.roleURI = role := by
  obtain ⟨o₀, ho₀, hh₀⟩ := got_catalog hid h₀
  have hl₀ := got_bytes ho₀ hh₀ (advertises_body ha)
  obtain ⟨_, r, _, _, hslug, _⟩ := (C124_catalog site allowed hn dry s hs id _ _ hl₀ entity role slug).1 ha
  obtain ⟨hseg, hf⟩ := slug_segment ⟨_, _, _, hslug⟩
  obtain ⟨o, ho, hh⟩ := got_network hid hseg hf h
  exact C124_follow site allowed hn dry s hs id hu _ _ _ _ hl₀ entity role slug ha (got_bytes ho hh hb)

/-- **C125c.** If the names file can be read, the answer to such a request has status 200 and a body. -/
theorem C125_served (site : Site) (front : Front) (allowed : Req → Prop) (hn : Normal allowed) (dry : Bool)
    (s : State Loaded Store.Bytes Unit) (hs : Steps (backend site) dry allowed State.init s) (id : String) (hid : Segment (wire (utf8 id)))
    (hnames : ∃ m, site.names = .ok m) (q₀ q body₀ body : Web.Bytes)
    (h₀ : Got front s.log (catalogPath id) q₀ 200 body₀) (entity role slug : String) (ha : Advertises (unwire body₀) entity role slug)
    (st : Nat) (h : Got front s.log (networkPath id slug) q st body) : st = 200 ∧ body ≠ [] := by
  obtain ⟨o₀, ho₀, hh₀⟩ := got_catalog hid h₀
  have hl₀ := got_bytes ho₀ hh₀ (advertises_body ha)
  obtain ⟨_, r, _, _, hslug, _⟩ := (C124_catalog site allowed hn dry s hs id _ _ hl₀ entity role slug).1 ha
  obtain ⟨hseg, hf⟩ := slug_segment ⟨_, _, _, hslug⟩
  obtain ⟨o, ho, hh⟩ := got_network hid hseg hf h
  rcases C124_served site allowed hn dry s hs id hnames _ _ hl₀ entity role slug ha o ho with ⟨b, rfl⟩ | rfl
  · rcases hh with ⟨b', h1, h2, h3⟩ | ⟨_, v, m, h1⟩
    · cases h1
      refine ⟨h2, ?_⟩
      obtain ⟨_, l, _, _, c, _, en, r, g, n, _, _, _, hbb⟩ := renderable_answer hn hs ⟨_, _, _, hslug⟩ ho
      rw [h3, Option.getD_some, hbb]
      intro he
      have he : encodeUtf8 (marshalRenderable (calcFound r.roleURI [] c.calculation) ⟨⟨n, en⟩, r, g⟩) = [] := by
        have := congrArg unwire he
        rw [unwire_wire] at this
        exact this
      have h4 := (C109_reads_back _ (written_ofRenderable (calcFound r.roleURI [] c.calculation) ⟨⟨n, en⟩, r, g⟩) _).2 rfl
      have h5 := decode_encoded (marshalRenderable (calcFound r.roleURI [] c.calculation) ⟨⟨n, en⟩, r, g⟩)
      rw [he] at h5
      change IsText (marshalRenderable (calcFound r.roleURI [] c.calculation) ⟨⟨n, en⟩, r, g⟩) _ at h4
      rw [← h5] at h4
      exact not_text_nil h4
    · cases h1
  · rcases hh with ⟨b', h1, _⟩ | ⟨_, v, m, h1⟩ <;> cases h1

/-- **C125d.** And a fact reported without accuracy in the instance of the folder is found there with its text, in every grid with a row
for its concept. -/
theorem C125_fact (site : Site) (front : Front) (allowed : Req → Prop) (hn : Normal allowed) (dry : Bool)
    (s : State Loaded Store.Bytes Unit) (hs : Steps (backend site) dry allowed State.init s) (id : String) (hid : Segment (wire (utf8 id)))
    (hu : Unambiguous (site.disk id)) (hurl : site.outside.validUrl = (site.disk id).isUrl) (q₀ q body₀ body : Web.Bytes)
    (h₀ : Got front s.log (catalogPath id) q₀ 200 body₀) (entity role slug : String) (ha : Advertises (unwire body₀) entity role slug)
    (h : Got front s.log (networkPath id slug) q 200 body) (hb : body ≠ [])
    (root : Xml) (inst : Disc.InstanceFile) (hroot : EntryRoot (site.disk id) root inst) (file : InstFile) (hfile : instanceFile root = some file)
    (x : Xml) (c : Concept) (r : String) (hx : Reports root x c r)
    (l : String) (sx : Xml) (hsx : SchemaAt (site.disk id) site.outside.discover inst x.name.space l sx) (hc : DeclaredIn sx l c) (hdist : Distinct sx l c)
    (habs : c.abstract = false) (hdec : ∀ s, ¬ AttrVal x.attrs "decimals" s) (htype : c.type.loc ≠ "textBlockItemType")
    (hids : ∀ w fo h, Loads site id w fo h → ∀ l' c', Declares (queryEnv w fo) l' c' → '#' ∉ c'.id.toList)
    (hcc : ∀ w fo h, Loads site id w fo h → ∃ cc, HasContext (instanceWorld w fo file) root r cc ∧ OfEntity entity cc) :
    ∃ v w fo hy cc core, (∀ v', IsText (decodeUtf8 (unwire body)) v' ↔ v' = v) ∧ Loads site id w fo hy ∧
      HasContext (instanceWorld w fo file) root r cc ∧
      ((IsSet x.attrs "nil" ∧ core = "nil") ∨ (¬ IsSet x.attrs "nil" ∧ core = x.inner)) ∧
      (∀ p, At v [.key "PGrid"] p → (∃ n, PRow p n (l ++ "#" ++ c.id)) → CoreShown p (PRow p) (l ++ "#" ++ c.id) cc core) ∧
      (∀ k p, At v [.key "DGrid", .key "RootDomains", .idx k] p → (∃ n, DRow p n (l ++ "#" ++ c.id)) →
        CoreShown p (DRow p) (l ++ "#" ++ c.id) cc core) ∧
      (∀ k p, At v [.key "CGrid", .key "SummationItems", .idx k] p → (∃ n, CRow p n (l ++ "#" ++ c.id)) →
        CoreShown p (CRow p) (l ++ "#" ++ c.id) cc core) := by
  obtain ⟨o₀, ho₀, hh₀⟩ := got_catalog hid h₀
  have hl₀ := got_bytes ho₀ hh₀ (advertises_body ha)
  obtain ⟨_, rs, _, _, hslug, _⟩ := (C124_catalog site allowed hn dry s hs id _ _ hl₀ entity role slug).1 ha
  obtain ⟨hseg, hf⟩ := slug_segment ⟨_, _, _, hslug⟩
  obtain ⟨o, ho, hh⟩ := got_network hid hseg hf h
  exact C124_fact site allowed hn dry s hs id hu hurl _ _ _ _ hl₀ entity role slug ha (got_bytes ho hh hb) root inst hroot file hfile x c r hx l sx
    hsx hc hdist habs hdec htype hids hcc

theorem catalog_got {H S : Type} {log : List (Req × Out H Store.Bytes S)} {id : String} {b : Store.Bytes} (front : Front)
    (hid : Segment (wire (utf8 id))) (q : Web.Bytes) (h : (.catalog id, .ret (.bytes (some b)) none) ∈ log) :
    Got front log (catalogPath id) q 200 (wire b) := by
  have hc := (C103_catalog front.sniff ⟨fun _ => .ok (wire b), fun _ _ => .ok (wire b), fun _ _ _ => .ok (wire b)⟩ front.files front.location
    q hid).1 _ rfl
  exact ⟨_, _, _, asked_catalog hid q, h, rfl, hc.1, hc.2⟩

theorem network_got {H S : Type} {log : List (Req × Out H Store.Bytes S)} {id slug : String} {b : Store.Bytes} (front : Front)
    (hid : Segment (wire (utf8 id))) (hs : Segment (wire (utf8 slug))) (hf : slug ≠ "facts") (q : Web.Bytes)
    (h : (.renderable id slug, .ret (.bytes (some b)) none) ∈ log) : Got front log (networkPath id slug) q 200 (wire b) := by
  have hne : wire (utf8 slug) ≠ Web.lit "facts" := by
    intro e
    have := congrArg goText e
    rw [goText_utf8] at this
    exact hf (this.trans (by decide +kernel))
  have hc := (C103_renderable front.sniff ⟨fun _ => .ok (wire b), fun _ _ => .ok (wire b), fun _ _ _ => .ok (wire b)⟩ front.files front.location
    q hid hs hne).1 _ rfl
  exact ⟨_, _, _, asked_network hid hs hf q, h, rfl, hc.1, hc.2⟩

/-- A client of the demonstration site gets the catalog and the renderable under its slug, so the hypotheses of C125 can be met. -/
example (front : Front) : ∃ s body₀ body, Steps (backend demoSite) true demoCalls State.init s ∧ Segment (wire (utf8 "a-1")) ∧
    Got front s.log (catalogPath "a-1") [] 200 body₀ ∧ Advertises (unwire body₀) "s/1" "r" demoSlug ∧
    Got front s.log (networkPath "a-1" demoSlug) [] 200 body ∧ body ≠ [] := by
  obtain ⟨s, b₀, b, hs, hlog, ha⟩ := demo_history
  have hid : Segment (wire (utf8 "a-1")) := by unfold Segment; decide +kernel
  obtain ⟨hseg, hf⟩ := slug_segment ⟨_, _, _, demoSlug_eq⟩
  have h₀ : Got front s.log (catalogPath "a-1") [] 200 (wire b₀) :=
    catalog_got front hid [] (by rw [hlog]; exact List.mem_cons_of_mem _ List.mem_cons_self)
  have h : Got front s.log (networkPath "a-1" demoSlug) [] 200 (wire b) :=
    network_got front hid hseg hf [] (by rw [hlog]; exact List.mem_cons_self)
  rw [← unwire_wire b₀] at ha
  exact ⟨s, _, _, hs, hid, h₀, ha, h,
    (C125_served demoSite front demoCalls demoCalls_normal true s hs "a-1" hid ⟨_, rfl⟩ [] [] _ _ h₀ _ _ _ ha 200 h).2⟩

end Telefacts
