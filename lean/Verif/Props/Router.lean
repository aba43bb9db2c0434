import Verif.Proof.Router
import Verif.Props.Web
/-! # Routing and the files a request may read (C103-C105) -/
namespace Telefacts
open Telefacts.Web Telefacts.Router Telefacts.Url Telefacts.Disc Telefacts.Spec

/-- A GET request for `/folders/<id>` gets the catalog of the folder: 200 with its bytes or 500. -/
theorem C103_catalog (sniff : Bytes → String) (b : Backend) (files : String → Bytes → Writer)
    (location : Str → String) (q : Bytes) {id : Bytes} (h : Segment id) :
    let res := (serve b files location "GET" (lit "/folders/" ++ id) q).finish sniff
    (∀ data, b.catalog id = .ok data → res.1 = 200 ∧ res.2.2 = data) ∧
    (∀ e, b.catalog id = .error e → res.1 = 500) := by
  have hr : route "GET" (str (lit "/folders/" ++ id)) = .catalog (str id) :=
    (route_catalog_iff _ _ _).2 ⟨rfl, segment_name.1 h, str_path1 id⟩
  have hs : serve b files location "GET" (lit "/folders/" ++ id) q =
      catalog b.catalog ⟨"GET", id, [], q⟩ := by
    unfold serve; rw [hr]; simp only [bytes_str]
  have h65 := C65_catalog sniff b.catalog ⟨"GET", id, [], q⟩
  intro res
  have hres : res = (catalog b.catalog ⟨"GET", id, [], q⟩).finish sniff := by rw [← hs]
  rw [hres]
  constructor
  · intro data hd
    have := h65.1.2 ⟨rfl, h.1, data, hd⟩
    refine ⟨this, ?_⟩
    have := h65.2.2.2 this
    simp only at this
    rw [hd] at this
    exact (Except.ok.inj this).symm
  · intro e he
    exact h65.2.2.1.2 (.inr ⟨h.1, e, he⟩)

/-- A GET request for `/folders/<id>/<hash>`, where the hash is not `facts`, gets the renderable. -/
theorem C103_renderable (sniff : Bytes → String) (b : Backend) (files : String → Bytes → Writer)
    (location : Str → String) (q : Bytes) {id hash : Bytes} (h : Segment id) (hh : Segment hash)
    (hf : hash ≠ lit "facts") :
    let res := (serve b files location "GET" (lit "/folders/" ++ id ++ lit "/" ++ hash) q).finish sniff
    (∀ data, b.renderable id hash = .ok data → res.1 = 200 ∧ res.2.2 = data) ∧
    (∀ e, b.renderable id hash = .error e → res.1 = 500) := by
  have hne : str hash ≠ "facts".toList := fun e => hf (str_inj (by rw [e]; decide))
  have hr : route "GET" (str (lit "/folders/" ++ id ++ lit "/" ++ hash)) = .renderable (str id) (str hash) :=
    (route_two _ _ _ _ _ (.inr ⟨rfl, hne⟩)).2 ⟨rfl, segment_name.1 h, segment_name.1 hh, str_path2 id hash⟩
  have hs : serve b files location "GET" (lit "/folders/" ++ id ++ lit "/" ++ hash) q =
      renderable b.renderable ⟨"GET", id, hash, q⟩ := by
    unfold serve; rw [hr]; simp only [bytes_str]
  have h65 := C65_renderable sniff b.renderable ⟨"GET", id, hash, q⟩
  intro res
  have hres : res = (renderable b.renderable ⟨"GET", id, hash, q⟩).finish sniff := by rw [← hs]
  rw [hres]
  constructor
  · intro data hd
    have := h65.1.2 ⟨rfl, h.1, hh.1, data, hd⟩
    refine ⟨this, ?_⟩
    have := h65.2.2.2 this
    simp only at this
    rw [hd] at this
    exact (Except.ok.inj this).symm
  · intro e he
    exact h65.2.2.1.2 (.inr ⟨h.1, hh.1, e, he⟩)

/-- A GET request for `/folders/<id>/facts` gets the expression of the fact its query names, decoded twice. -/
theorem C103_facts (sniff : Bytes → String) (b : Backend) (files : String → Bytes → Writer)
    (location : Str → String) (q : Bytes) {id : Bytes} (h : Segment id) {n₀ c₀ n c : Bytes}
    (hp : FactParams q n₀ c₀) (hn : Dec n₀ n) (hc : Dec c₀ c) :
    let res := (serve b files location "GET" (lit "/folders/" ++ id ++ lit "/" ++ lit "facts") q).finish sniff
    (∀ data, b.expressable id n c = .ok data → res.1 = 200 ∧ res.2.2 = data) ∧
    (∀ e, b.expressable id n c = .error e → res.1 = 500) := by
  have hfacts : str (lit "facts") = "facts".toList := by decide
  have hr : route "GET" (str (lit "/folders/" ++ id ++ lit "/" ++ lit "facts")) = .facts (str id) :=
    (route_two _ _ _ "facts".toList _ (.inl ⟨rfl, rfl⟩)).2
      ⟨rfl, segment_name.1 h, name_facts, by rw [str_path2, hfacts]⟩
  have hs : serve b files location "GET" (lit "/folders/" ++ id ++ lit "/" ++ lit "facts") q =
      expressable b.expressable ⟨"GET", id, [], q⟩ := by
    unfold serve; rw [hr]; simp only [bytes_str]
  have h65 := C65_expressable sniff b.expressable ⟨"GET", id, [], q⟩
  intro res
  have hres : res = (expressable b.expressable ⟨"GET", id, [], q⟩).finish sniff := by rw [← hs]
  rw [hres]
  constructor
  · intro data hd
    have hq := (factQuery_ok q n c).2 ⟨n₀, c₀, hp, hn, hc⟩
    have : expressable b.expressable ⟨"GET", id, [], q⟩ = succeed data := by
      unfold expressable
      simp only [hq, ne_eq, not_true_eq_false, if_false, h.1, hd, answer]
    rw [this, finish_succeed]
    exact ⟨rfl, rfl⟩
  · intro e he
    exact h65.2.2.2 (.inr ⟨h.1, .inr ⟨n₀, c₀, n, c, e, hp, hn, hc, he⟩⟩)

/-- Every other request never reaches the cache: the answer is the same whatever the folders contain. -/
theorem C103_other (b b' : Backend) (files : String → Bytes → Writer) (location : Str → String)
    (method : String) (path q : Bytes)
    (h : method ≠ "GET" ∨ ((∀ id, Segment id → path ≠ lit "/folders/" ++ id) ∧
      ∀ id hash, Segment id → Segment hash → path ≠ lit "/folders/" ++ id ++ lit "/" ++ hash)) :
    serve b files location method path q = serve b' files location method path q := by
  have back : ∀ s : Str, Name s → s ∈ split (str path) → ∃ t : Bytes, s = str t := by
    intro s _ hs
    refine ⟨bytes s, ?_⟩
    have hsub : ∀ c ∈ s, c ∈ str path := by
      intro c hc
      rw [← joinSegs_split (str path)]
      revert hs hc
      generalize split (str path) = l
      intro hs hc
      induction l with
      | nil => simp at hs
      | cons a r ih =>
        cases r with
        | nil =>
          rcases List.mem_cons.1 hs with rfl | hs
          · exact hc
          · simp at hs
        | cons x xs =>
          rw [joinSegs_cons (by simp)]
          rcases List.mem_cons.1 hs with rfl | hs
          · simp [hc]
          · simp only [List.mem_append, List.mem_cons]
            exact .inr (.inr (ih hs))
    have hlt : ∀ c ∈ s, ∃ x : Byte, c = Char.ofNat x.val := by
      intro c hc
      obtain ⟨x, _, hx⟩ := List.mem_map.1 (hsub c hc)
      exact ⟨x, hx.symm⟩
    unfold str bytes
    rw [List.map_map]
    conv => lhs; rw [← List.map_id s]
    refine List.map_congr_left fun c hc => ?_
    obtain ⟨x, rfl⟩ := hlt c hc
    simp only [id, Function.comp, toNat_ofNat]
    congr 1
    exact (Nat.mod_eq_of_lt x.isLt).symm
  unfold serve
  cases hr : route method (str path) with
  | redirect dest => rfl
  | static => rfl
  | catalog id =>
    exfalso
    obtain ⟨hm, hid, hp⟩ := (route_catalog_iff _ _ _).1 hr
    have hn : ∀ s ∈ ["folders".toList, id], Name s := by
      simp only [List.mem_cons, List.not_mem_nil, or_false]
      rintro s (rfl | rfl)
      · exact name_folders
      · exact hid
    obtain ⟨t, rfl⟩ := back id hid (by rw [hp, split_absPath (by simp) hn]; simp)
    rcases h with h | h
    · exact h hm
    · exact h.1 t (segment_name.2 hid) (str_inj (by rw [hp, str_path1]))
  | facts id =>
    exfalso
    obtain ⟨hm, hid, hh, hp⟩ := (route_two _ _ _ "facts".toList _ (.inl ⟨rfl, rfl⟩)).1 hr
    have hn : ∀ s ∈ ["folders".toList, id, "facts".toList], Name s := by
      simp only [List.mem_cons, List.not_mem_nil, or_false]
      rintro s (rfl | rfl | rfl)
      · exact name_folders
      · exact hid
      · exact hh
    obtain ⟨t, rfl⟩ := back id hid (by rw [hp, split_absPath (by simp) hn]; simp)
    rcases h with h | h
    · exact h hm
    · have hf : str (lit "facts") = "facts".toList := by decide
      exact h.2 t (lit "facts") (segment_name.2 hid) (segment_name.2 (by rw [hf]; exact hh))
        (str_inj (by rw [hp, str_path2, hf]))
  | renderable id hash =>
    exfalso
    have hne : hash ≠ "facts".toList := by
      rintro rfl
      unfold route at hr
      split at hr
      · cases hr
      · split at hr
        · split at hr
          · split at hr <;> cases hr
          · split at hr
            · split at hr
              · cases hr
              · rename_i hx
                split at hr
                · cases hr; exact hx rfl
                · cases hr
            · cases hr
          · cases hr
        · cases hr
    obtain ⟨hm, hid, hh, hp⟩ := (route_two _ _ _ hash _ (.inr ⟨rfl, hne⟩)).1 hr
    have hn : ∀ s ∈ ["folders".toList, id, hash], Name s := by
      simp only [List.mem_cons, List.not_mem_nil, or_false]
      rintro s (rfl | rfl | rfl)
      · exact name_folders
      · exact hid
      · exact hh
    have hsp : split (str path) = [] :: ["folders".toList, id, hash] := by
      rw [hp, split_absPath (by simp) hn]
    obtain ⟨t, rfl⟩ := back id hid (by rw [hsp]; simp)
    obtain ⟨u, rfl⟩ := back hash hh (by rw [hsp]; simp)
    rcases h with h | h
    · exact h hm
    · exact h.2 t u (segment_name.2 hid) (segment_name.2 hh) (str_inj (by rw [hp, str_path2]))

/-- A folder id, and paths that never reach the cache: with dot names or extra segments. -/
example : Segment (lit "9bdba7d5") ∧ ¬ Segment (lit "..") ∧ ¬ Segment (lit "a/b") ∧
    route "GET" (str (lit "/folders/..")) = .redirect ['/'] ∧
    route "GET" (str (lit "/folders/a/b/c")) = .static ∧ route "POST" (str (lit "/folders/a")) = .static ∧
    route "GET" (str (lit "/folders/a/")) = .static ∧
    route "GET" (str (lit "/folders//a")) = .redirect "/folders/a".toList := by
  refine ⟨by unfold Segment; decide, by unfold Segment; decide, by unfold Segment; decide, ?_⟩
  decide +kernel

/-- A folder id that can be asked for names a directory directly below `folders`, whose entry file is the
one called `_` in it; different ids name different directories. -/
theorem C104_directory (wd : Str) {id : Bytes} (h : Segment id) :
    folderDir wd (str id) = join [wd, "folders".toList] ++ '/' :: str id ∧
    entryFile wd (str id) = folderDir wd (str id) ++ "/_".toList ∧
    ∀ id', Segment id' → folderDir wd (str id') = folderDir wd (str id) → id' = id := by
  refine ⟨folderDir_below wd (segment_name.1 h), entryFile_below wd (segment_name.1 h), fun id' h' he => ?_⟩
  rw [folderDir_below wd (segment_name.1 h), folderDir_below wd (segment_name.1 h')] at he
  exact str_inj (List.cons.inj (List.append_cancel_left he)).2

/-- With an absolute working directory: the names on the way. -/
theorem C104_absolute {ws : List Str} (hw : ∀ s ∈ ws, Name s) {id : Bytes} (h : Segment id) :
    folderDir (absPath ws) (str id) = absPath (ws ++ ["folders".toList, str id]) ∧
    entryFile (absPath ws) (str id) = absPath (ws ++ ["folders".toList, str id, "_".toList]) := by
  have hn := segment_name.1 h
  have e : join [absPath ws, "folders".toList] = absPath (ws ++ ["folders".toList]) :=
    localFile_walk hw (segs := ["folders".toList]) ((split_iff _ _).1 (by decide)) (.down name_folders .done)
  have hb : absPath (ws ++ ["folders".toList]) ++ '/' :: str id = absPath (ws ++ ["folders".toList, str id]) := by
    rw [absPath_snoc (by simp)]; simp
  have hb2 : absPath (ws ++ ["folders".toList, str id]) ++ "/_".toList =
      absPath (ws ++ ["folders".toList, str id, "_".toList]) := by
    rw [show "/_".toList = '/' :: "_".toList from rfl, absPath_snoc (by simp)]; simp
  refine ⟨?_, ?_⟩
  · rw [(C104_directory (absPath ws) h).1, e, hb]
  · rw [(C104_directory (absPath ws) h).2.1, (C104_directory (absPath ws) h).1, e, hb, hb2]

example : folderDir "/srv/wd".toList (str (lit "9bdba7d5")) = "/srv/wd/folders/9bdba7d5".toList ∧
    entryFile "/srv/wd".toList (str (lit "9bdba7d5")) = "/srv/wd/folders/9bdba7d5/_".toList := by
  decide +kernel

/-- The file of a reference is where walking its segments from the folder leads; it lies in the folder iff
the way ends below it. -/
theorem C105_file {ds segs e : List Str} {href : Str} (hd : ∀ s ∈ ds, Name s) (hne : ds ≠ [])
    (hs : Segs href segs) (hw : Walk ds segs e) :
    localFile (absPath ds) href = absPath e ∧
    (Inside (absPath ds) (localFile (absPath ds) href) ↔ ds <+: e) := by
  have h := localFile_walk hd hs hw
  exact ⟨h, by rw [h]; exact inside_absPath hne hd (walk_names hw hd)⟩

/-- Every reference leads somewhere. -/
example {href : Str} {segs : List Str} (hs : Segs href segs) (ds : List Str) : ∃ e, Walk ds segs e :=
  walk_exists segs hs.2.2 ds

/-- What holds: if no reference leaves the folder, discovery reads only files inside the folder, so its
result does not depend on any other file. Missing: references with `..`, see `C105_fails`. -/
theorem C105_only_own_files_partial {L D : Type} (a b : Source L D) (wd : Str) {id : Bytes} (h : Segment id)
    (hab : AgreeIn (folderDir wd (str id)) a b) (ht : Tame (folderEnv a wd (str id))) (fuel : Nat)
    (sched : List (Write L) → List (Write L)) :
    discover (folderEnv a wd (str id)) fuel sched = discover (folderEnv b wd (str id)) fuel sched := by
  have hn := segment_name.1 h
  have hin : ∀ f : String, Down f.toList →
      Inside (folderDir wd (str id)) (localFile (folderDir wd (str id)) f.toList) :=
    fun f hf => folderDir_inside wd hn hf
  refine discover_congr (P := fun f => Down f.toList) ?_ ht.entry ht.refs ?_ fuel sched
  · exact {
      entryName := hab.entry _ (.inr ⟨['_'], entryFile_below wd hn⟩)
      images := hab.images
      transform := hab.transform
      isUrl := hab.isUrl
      doc := fun f hf => hab.doc _ (hin f hf)
      fileExists := fun f hf => hab.fileExists _ (hin f hf)
      inst := fun f hf => hab.inst _ (hin f hf)
      schema := fun f hf => hab.schema _ (hin f hf)
      linkbase := fun k f hf => hab.linkbase k _ (hin f hf) }
  · intro key inst loc f he hr
    have := ht.files key inst loc f he hr
    exact ⟨this.imports, this.includes, this.linkbases⟩

/-- A folder `a` whose instance refers to `href`; `outside` says whether `/wd/folders/b/x.xsd` exists. -/
def peekSource (href : String) (outside : Bool) : Source Nat Nat where
  entry := fun p => if p = "/wd/folders/a/_".toList then some "i.xml" else none
  images := fun _ => []
  doc := fun _ => none
  fileExists := fun _ => true
  inst := fun p => if p = "/wd/folders/a/i.xml".toList then
    some ⟨[⟨"http://www.xbrl.org/2003/linkbase", [⟨⟨"http://www.w3.org/1999/xlink", "href"⟩, href⟩]⟩], 0⟩ else none
  schema := fun p => if p = "/wd/folders/a/x.xsd".toList ∨ (p = "/wd/folders/b/x.xsd".toList ∧ outside = true) then
    some { attrs := [⟨⟨"", "targetNamespace"⟩, "urn:x"⟩], incl := [], imp := [], annotation := [], rest := 0 } else none
  linkbase := fun _ _ => none
  transform := fun d _ => d
  isUrl := fun _ => false

theorem peek_agree (href : String) :
    AgreeIn (folderDir "/wd".toList (str (lit "a"))) (peekSource href true) (peekSource href false) := by
  have hdir : folderDir "/wd".toList (str (lit "a")) = "/wd/folders/a".toList := by decide +kernel
  rw [hdir]
  refine ⟨fun _ _ => rfl, rfl, fun _ _ => rfl, fun _ _ => rfl, fun _ _ => rfl, fun p hp => ?_, fun _ _ _ => rfl, rfl, rfl⟩
  have hb : p ≠ "/wd/folders/b/x.xsd".toList := by
    intro he
    have h12 : p[12]? = some 'a' := by
      rcases hp with h | ⟨rest, h⟩
      · rw [h]; decide
      · rw [h, List.getElem?_append_left (by decide)]; decide
    rw [he] at h12
    exact absurd h12 (by decide)
  show (if _ ∨ (_ ∧ true = true) then _ else _) = (if _ ∨ (_ ∧ false = true) then _ else _)
  simp only [hb, false_and]

/-- The claim is false: a reference `../b/x.xsd` reads a file of another folder, so what discovery finds in
folder `a` depends on folder `b`. -/
theorem C105_fails : ∃ (a b : Source Nat Nat) (wd : Str) (id : Bytes), Segment id ∧
    AgreeIn (folderDir wd (str id)) a b ∧
    discover (folderEnv a wd (str id)) 1 (fun ws => ws) ≠ discover (folderEnv b wd (str id)) 1 (fun ws => ws) := by
  refine ⟨peekSource "../b/x.xsd" true, peekSource "../b/x.xsd" false, "/wd".toList, lit "a",
    by unfold Segment; decide, peek_agree _, ?_⟩
  intro h
  have h1 : (discover (folderEnv (peekSource "../b/x.xsd" true) "/wd".toList (str (lit "a"))) 1 (fun ws => ws)).map
      (fun r => match r with | .ok fo => fo.schemas.length | _ => 0) = some 1 := by decide +kernel
  have h2 : (discover (folderEnv (peekSource "../b/x.xsd" false) "/wd".toList (str (lit "a"))) 1 (fun ws => ws)).map
      (fun r => match r with | .ok fo => fo.schemas.length | _ => 0) = some 0 := by decide +kernel
  rw [h, h2] at h1
  cases h1

/-- A folder whose instance refers to `href`; `there` says whether the file `file` exists. -/
def leadSource (href : String) (file : Str) (there : Bool) : Source Nat Nat where
  entry := fun _ => some "i.xml"
  images := fun _ => []
  doc := fun _ => none
  fileExists := fun _ => true
  inst := fun _ => some ⟨[⟨"http://www.xbrl.org/2003/linkbase", [⟨⟨"http://www.w3.org/1999/xlink", "href"⟩, href⟩]⟩], 0⟩
  schema := fun p => if p = file ∧ there = true then
    some { attrs := [⟨⟨"", "targetNamespace"⟩, "urn:x"⟩], incl := [], imp := [], annotation := [], rest := 0 } else none
  linkbase := fun _ _ => none
  transform := fun d _ => d
  isUrl := fun _ => false

/-- **C105 (fails).** With every reference that leads out of the folder a file outside is read: what is discovered depends on it. -/
theorem C105_out_fails (wd : Str) (id : Bytes) (href : String) (hne : href ≠ "")
    (hout : ¬ Inside (folderDir wd (str id)) (localFile (folderDir wd (str id)) href.toList)) :
    ∃ a b : Source Nat Nat, AgreeIn (folderDir wd (str id)) a b ∧
      (∀ p i, a.inst p = some i → ∀ x ∈ i.schemaRef, xlinkAttr x.attrs "href" = some href) ∧
      discover (folderEnv a wd (str id)) 1 (fun ws => ws) ≠ discover (folderEnv b wd (str id)) 1 (fun ws => ws) := by
  refine ⟨leadSource href (localFile (folderDir wd (str id)) href.toList) true,
    leadSource href (localFile (folderDir wd (str id)) href.toList) false,
    ⟨fun _ _ => rfl, rfl, fun _ _ => rfl, fun _ _ => rfl, fun _ _ => rfl, fun p hp => ?_, fun _ _ _ => rfl, rfl, rfl⟩, ?_, ?_⟩
  · have : p ≠ localFile (folderDir wd (str id)) href.toList := fun e => hout (e ▸ hp)
    simp [leadSource, this]
  · intro p i hi x hx
    simp only [leadSource, Option.some.injEq] at hi
    subst hi
    simp only [List.mem_singleton] at hx
    subst hx
    simp [xlinkAttr, findAttr, XLINK]
  · have he : fileExt "i.xml" = ".xml" := by decide +kernel
    have h0 : ∀ there, discover (folderEnv (leadSource href (localFile (folderDir wd (str id)) href.toList) there) wd (str id)) 1 (fun ws => ws) =
        withInstance (folderEnv (leadSource href (localFile (folderDir wd (str id)) href.toList) there) wd (str id)) 1 (fun ws => ws)
          (emptyFolder "i.xml") "i.xml" := by
      intro there
      unfold discover
      simp only [folderEnv, leadSource]
      rw [he]
      simp
    rw [h0, h0]
    intro h
    have := congrArg (Option.map fun r => match r with | Res.ok fo => fo.schemas.length | _ => 0) h
    simp [withInstance, schemaRef, collect, finishVisit, visitRef, folderEnv, leadSource, findAttr, LINK, hne, searchSchema, applyWrite, emptyFolder,
      linkbaseRefSchema, mapSet] at this

/-- A reference that leads out of the folder. -/
example : ¬ Inside (folderDir "/wd".toList (str (lit "a"))) (localFile (folderDir "/wd".toList (str (lit "a"))) "../b/x.xsd".toList) := by
  have h1 : folderDir "/wd".toList (str (lit "a")) = "/wd/folders/a".toList := by decide +kernel
  have h2 : localFile "/wd/folders/a".toList "../b/x.xsd".toList = "/wd/folders/b/x.xsd".toList := by decide +kernel
  rw [h1, h2]
  rintro (h | ⟨rest, h⟩)
  · exact absurd h (by decide)
  · have := congrArg (·[12]?) h
    simp at this

/-- A folder whose references stay inside meets the hypotheses of `C105_only_own_files_partial`, and its
schema is found. -/
example : Tame (folderEnv (peekSource "x.xsd" true) "/wd".toList (str (lit "a"))) ∧
    (discover (folderEnv (peekSource "x.xsd" true) "/wd".toList (str (lit "a"))) 1 (fun ws => ws)).map
      (fun r => match r with | .ok fo => fo.schemas.length | _ => 0) = some 1 := by
  have down : ∀ s : Str, depth (split s) 0 ≠ none → Down s := by
    intro s h segs hs
    rw [← (split_iff _ _).2 hs]; exact h
  have hen : (folderEnv (peekSource "x.xsd" true) "/wd".toList (str (lit "a"))).entryName = some "i.xml" := by
    decide +kernel
  have hsch : ∀ (e : FolderEnv Nat Nat), e = folderEnv (peekSource "x.xsd" true) "/wd".toList (str (lit "a")) →
      ∀ loc f, e.readSchema loc = some f → f.imp = [] ∧ f.incl = [] ∧ f.annotation = [] := by
    rintro e rfl loc f h
    simp only [folderEnv, peekSource] at h
    split at h
    · cases h; exact ⟨rfl, rfl, rfl⟩
    · cases h
  refine ⟨⟨?_, ?_, ?_⟩, by decide +kernel⟩
  · intro e he
    rw [hen] at he
    cases he
    exact ⟨down _ (by decide +kernel), down _ (by decide +kernel)⟩
  · rintro key inst ⟨e, _, hi, _⟩ i hm loc hl
    simp only [folderEnv, peekSource] at hi
    split at hi
    · cases hi
      simp only [List.mem_singleton] at hm
      subst hm
      obtain ⟨x, hx, rfl⟩ := (attrVal_iff _ _ _).1 hl
      have : x = ⟨⟨"http://www.w3.org/1999/xlink", "href"⟩, "x.xsd"⟩ := by
        have : findAttr [(⟨⟨"http://www.w3.org/1999/xlink", "href"⟩, "x.xsd"⟩ : Attr)] "href" =
          some ⟨⟨"http://www.w3.org/1999/xlink", "href"⟩, "x.xsd"⟩ := by decide
        rw [this] at hx
        exact (Option.some.inj hx).symm
      subst this
      exact down _ (by decide +kernel)
    · cases hi
  · intro key inst loc f _ hr
    have hread : (folderEnv (peekSource "x.xsd" true) "/wd".toList (str (lit "a"))).readSchema loc = some f := by
      cases hr with
      | root _ _ h => obtain ⟨i, _, t, h⟩ := h; exact h.2.2.1.2.2
      | child _ _ _ _ _ h =>
        rcases h with ⟨i, _, n, _, h⟩ | ⟨i, _, t, h⟩
        · exact h.2.2
        · exact h.2.2.1.2.2
    obtain ⟨h1, h2, h3⟩ := hsch _ rfl loc f hread
    refine ⟨by rw [h1]; simp, by rw [h2]; simp, ?_⟩
    rintro kind href ⟨ann, ha, _⟩
    rw [h3] at ha
    cases ha

end Telefacts
