import Verif.Spec.Unreferred
import Verif.Props.Isolation
import Verif.Props.ServerDocument
/-! # C169: files that nothing refers to do not matter -/
namespace Telefacts
open Telefacts.Server Telefacts.Cache Telefacts.Spec Telefacts.Hydrate Telefacts.Disc Telefacts.Decode

section
variable {L D : Type}

theorem visitRef_same {env env' : FolderEnv L D} (hu : env'.isUrl = env.isUrl) (i : Item)
    (h : ∀ n, AttrVal i.attrs "href" n → env'.readSchema n = env.readSchema n) : visitRef env' i = visitRef env i := by
  unfold visitRef
  rw [hu]
  cases ha : findAttr i.attrs "href" with
  | none => rfl
  | some a => simp only [h a.value ((attrVal_iff _ _ _).2 ⟨a, ha, rfl⟩)]

theorem visitInclude_same {env env' : FolderEnv L D} (hu : env'.isUrl = env.isUrl) (i : Item)
    (h : ∀ n, AttrVal i.attrs "schemaLocation" n → env'.readSchema n = env.readSchema n) : visitInclude env' i = visitInclude env i := by
  unfold visitInclude
  rw [hu]
  cases ha : findAttr i.attrs "schemaLocation" with
  | none => rfl
  | some a => simp only [h a.value ((attrVal_iff _ _ _).2 ⟨a, ha, rfl⟩)]

theorem visitImport_same {env env' : FolderEnv L D} (hu : env'.isUrl = env.isUrl) (i : Item)
    (h : ∀ n, AttrVal i.attrs "schemaLocation" n → env'.readSchema n = env.readSchema n) : visitImport env' i = visitImport env i := by
  unfold visitImport
  rw [hu]
  cases ha : findAttr i.attrs "schemaLocation" with
  | none => rfl
  | some a => simp only [h a.value ((attrVal_iff _ _ _).2 ⟨a, ha, rfl⟩)]

theorem linkbaseItem_same {env env' : FolderEnv L D} (hu : env'.isUrl = env.isUrl) (i : Item)
    (h : ∀ kind n, i.space = LINK → xlinkAttr i.attrs "arcrole" = some LINKARCROLE → xlinkAttr i.attrs "type" = some "simple" →
      xlinkAttr i.attrs "role" = some kind.role → xlinkAttr i.attrs "href" = some n → n ≠ "" → env.isUrl n = false →
      env'.readLinkbase kind n = env.readLinkbase kind n) : linkbaseItem env' i = linkbaseItem env i := by
  unfold linkbaseItem
  rw [hu]
  by_cases h1 : i.space = LINK
  · by_cases h2 : xlinkAttr i.attrs "arcrole" = some LINKARCROLE
    · by_cases h3 : xlinkAttr i.attrs "type" = some "simple"
      · cases h4 : xlinkAttr i.attrs "role" with
        | none => rfl
        | some role =>
          cases h5 : xlinkAttr i.attrs "href" with
          | none => rfl
          | some n =>
            by_cases h6 : n = ""
            · simp only [if_pos h6]
            · by_cases h7 : env.isUrl n = true
              · simp only [if_pos h7]
              · cases h8 : kindOfRole role with
                | none => simp only [h8]
                | some kind =>
                  have hr : role = kind.role := by
                    unfold kindOfRole at h8
                    split at h8
                    · cases h8; assumption
                    · split at h8
                      · cases h8; assumption
                      · split at h8
                        · cases h8; assumption
                        · split at h8
                          · cases h8; assumption
                          · cases h8
                  simp only [h8, h kind n h1 h2 h3 (by rw [h4, hr]) h5 h6 (by simpa using h7)]
      · simp only [ne_eq, if_pos h3]
    · simp only [ne_eq, if_pos h2]
  · simp only [ne_eq, if_pos h1]

theorem flatMap_same {α β : Type} {f g : α → List β} {l : List α} (h : ∀ x ∈ l, f x = g x) : l.flatMap f = l.flatMap g := by
  induction l with
  | nil => rfl
  | cons x xs ih =>
    rw [List.flatMap_cons, List.flatMap_cons, h x (by simp), ih fun y hy => h y (by simp [hy])]

theorem linkbaseRefSchema_same {env env' : FolderEnv L D} (hu : env'.isUrl = env.isUrl) (f : SchemaFile)
    (h : ∀ kind n, LinkIn env f kind n → env'.readLinkbase kind n = env.readLinkbase kind n) :
    linkbaseRefSchema env' f = linkbaseRefSchema env f := by
  unfold linkbaseRefSchema
  refine flatMap_same fun ann hann => ?_
  split
  · rfl
  · rename_i hs
    refine flatMap_same fun app happ => ?_
    split
    · rfl
    · rename_i hs'
      refine flatMap_same fun i hi => linkbaseItem_same hu i fun kind n a1 a2 a3 a4 a5 a6 a7 => h kind n ?_
      refine ⟨ann, hann, not_not.1 hs, app, happ, not_not.1 hs', i, hi, a1, (xlinkVal_iff _ _ _).2 a2, (xlinkVal_iff _ _ _).2 a3, ?_,
        (xlinkVal_iff _ _ _).2 a5, a6, a7⟩
      refine (xlinkVal_iff _ _ _).2 (a4.trans ?_)
      cases kind <;> rfl

/-- Reads agree on what the file refers to, and so on. -/
structure Agrees (env env' : FolderEnv L D) (inst : InstanceFile) : Prop where
  url : env'.isUrl = env.isUrl
  ref : ∀ i ∈ inst.schemaRef, ∀ n, AttrVal i.attrs "href" n → env'.readSchema n = env.readSchema n
  schema : ∀ loc f i n, Reach env inst loc f → i ∈ f.imp ∨ i ∈ f.incl → AttrVal i.attrs "schemaLocation" n → env'.readSchema n = env.readSchema n
  linkbase : ∀ loc f kind n, Reach env inst loc f → LinkIn env f kind n → env'.readLinkbase kind n = env.readLinkbase kind n

theorem finishVisit_same {env env' : FolderEnv L D} {inst : InstanceFile} (h : Agrees env env' inst) {v : Visit}
    {sub sub' : SchemaFile → Option (List (Write L))} (hv : ∀ loc f, v.next = some (loc, f) → Reach env inst loc f ∧ sub' f = sub f) :
    finishVisit env' v sub' = finishVisit env v sub := by
  unfold finishVisit
  cases hn : v.next with
  | none => rfl
  | some p =>
    obtain ⟨loc, f⟩ := p
    obtain ⟨hr, hs⟩ := hv loc f hn
    simp only [hs, linkbaseRefSchema_same h.url f (fun kind n hl => h.linkbase loc f kind n hr hl)]

theorem searchSchema_same {env env' : FolderEnv L D} {inst : InstanceFile} (h : Agrees env env' inst) (n : Nat) :
    ∀ loc f, Reach env inst loc f → searchSchema env' n f = searchSchema env n f := by
  induction n with
  | zero => intro _ _ _; rfl
  | succ n ih =>
    intro loc f hr
    unfold searchSchema
    rw [collect_congr (f := fun i => finishVisit env' (visitImport env' i) (searchSchema env' n))
        (g := fun i => finishVisit env (visitImport env i) (searchSchema env n)),
      collect_congr (f := fun i => finishVisit env' (visitInclude env' i) (searchSchema env' n))
        (g := fun i => finishVisit env (visitInclude env i) (searchSchema env n))]
    · intro i hi
      rw [visitInclude_same h.url i fun n hn => h.schema loc f i n hr (.inr hi) hn]
      refine finishVisit_same h fun loc' g hg => ?_
      obtain ⟨t, ht⟩ := (visitInclude_next env i loc' g).1 hg
      have hr' := Reach.child loc f loc' g hr (.inr ⟨i, hi, t, ht⟩)
      exact ⟨hr', ih loc' g hr'⟩
    · intro i hi
      rw [visitImport_same h.url i fun n hn => h.schema loc f i n hr (.inl hi) hn]
      refine finishVisit_same h fun loc' g hg => ?_
      obtain ⟨t, ht⟩ := (visitImport_next env i loc' g).1 hg
      have hr' := Reach.child loc f loc' g hr (.inl ⟨i, hi, t, ht⟩)
      exact ⟨hr', ih loc' g hr'⟩

theorem each_congr {ι α : Type} {R R' : ι → List α → Prop} {is : List ι} (h : ∀ i ∈ is, ∀ c, R i c ↔ R' i c) (c : List α) :
    Each R is c ↔ Each R' is c := by
  induction is generalizing c with
  | nil => exact Iff.rfl
  | cons i is ih =>
    refine exists_congr fun a => exists_congr fun b => ?_
    rw [h i List.mem_cons_self, ih fun j hj => h j (List.mem_cons_of_mem _ hj)]

theorem runsVisit_same {env env' : FolderEnv L D} {inst : InstanceFile} (h : Agrees env env' inst) {v : Visit}
    {sub sub' : SchemaFile → List (Write L) → Prop} (hv : ∀ loc f, v.next = some (loc, f) → Reach env inst loc f ∧ ∀ c, sub' f c ↔ sub f c)
    (c : List (Write L)) : RunsVisit env' v sub' c ↔ RunsVisit env v sub c := by
  unfold RunsVisit
  cases hn : v.next with
  | none => exact Iff.rfl
  | some p =>
    obtain ⟨loc, f⟩ := p
    obtain ⟨hr, hs⟩ := hv loc f hn
    simp only [hs, linkbaseRefSchema_same h.url f (fun kind n hl => h.linkbase loc f kind n hr hl)]

theorem runsSearch_same {env env' : FolderEnv L D} {inst : InstanceFile} (h : Agrees env env' inst) (n : Nat) :
    ∀ loc f, Reach env inst loc f → ∀ c, RunsSearch env' n f c ↔ RunsSearch env n f c := by
  induction n with
  | zero => intro _ _ _ _; exact Iff.rfl
  | succ n ih =>
    intro loc f hr c
    refine exists_congr fun a => exists_congr fun b => and_congr (each_congr (fun i hi c => ?_) a) (and_congr_left' (each_congr (fun i hi c => ?_) b))
    · rw [visitImport_same h.url i fun n hn => h.schema loc f i n hr (.inl hi) hn]
      refine runsVisit_same h (fun loc' g hg => ?_) c
      obtain ⟨t, ht⟩ := (visitImport_next env i loc' g).1 hg
      have hr' := Reach.child loc f loc' g hr (.inl ⟨i, hi, t, ht⟩)
      exact ⟨hr', ih loc' g hr'⟩
    · rw [visitInclude_same h.url i fun n hn => h.schema loc f i n hr (.inr hi) hn]
      refine runsVisit_same h (fun loc' g hg => ?_) c
      obtain ⟨t, ht⟩ := (visitInclude_next env i loc' g).1 hg
      have hr' := Reach.child loc f loc' g hr (.inr ⟨i, hi, t, ht⟩)
      exact ⟨hr', ih loc' g hr'⟩

theorem runs_same {env env' : FolderEnv L D} {inst : InstanceFile} (h : Agrees env env' inst) (fuel : Nat) (c : List (Write L)) :
    Disc.Runs env' fuel inst c ↔ Disc.Runs env fuel inst c := by
  refine each_congr (fun i hi c => ?_) c
  rw [visitRef_same h.url i fun n hn => h.ref i hi n hn]
  refine runsVisit_same h (fun loc g hg => ?_) c
  obtain ⟨t, ht⟩ := (visitRef_next env i loc g).1 hg
  have hr : Reach env inst loc g := .root loc g ⟨i, hi, t, ht⟩
  exact ⟨hr, runsSearch_same h fuel loc g hr⟩

theorem schemaRef_same {env env' : FolderEnv L D} {inst : InstanceFile} (h : Agrees env env' inst) (fuel : Nat) :
    schemaRef env' fuel inst = schemaRef env fuel inst := by
  unfold schemaRef
  refine collect_congr fun i hi => ?_
  rw [visitRef_same h.url i fun n hn => h.ref i hi n hn]
  refine finishVisit_same h fun loc g hg => ?_
  obtain ⟨t, ht⟩ := (visitRef_next env i loc g).1 hg
  have hr : Reach env inst loc g := .root loc g ⟨i, hi, t, ht⟩
  exact ⟨hr, searchSchema_same h fuel loc g hr⟩

end

theorem agrees_of {d d' : Disk} (h : SameReferred d d') {key : String} {inst : InstanceFile} (hE : EntryInstance d.env key inst) :
    Agrees d.env d'.env inst where
  url := h.url
  ref := fun i hi n hn => by
    show (d'.read n).bind _ = (d.read n).bind _
    rw [(h.read n (.ref key inst i n hE hi hn)).1]
  schema := fun loc f i n hr hi hn => by
    show (d'.read n).bind _ = (d.read n).bind _
    rw [(h.read n (.schema key inst loc f i n hE hr hi hn)).1]
  linkbase := fun loc f kind n hr hl => by
    show (d'.read n).bind _ = (d.read n).bind _
    rw [(h.read n (.linkbase key inst loc f kind n hE hr hl)).1]

theorem withInstance_same {d d' : Disk} (h : SameReferred d d') (fuel : Nat)
    (sched : List (Write LinkbaseFile) → List (Write LinkbaseFile)) (fo : Disc.Folder LinkbaseFile DocFile) (key : String)
    (hkey : Referred d key) (hE : ∀ inst, d.env.readInstance key = some inst → EntryInstance d.env key inst) :
    withInstance d'.env fuel sched fo key = withInstance d.env fuel sched fo key := by
  have hr : d'.env.readInstance key = d.env.readInstance key := by
    show (d'.read key).bind _ = (d.read key).bind _
    rw [(h.read key hkey).1]
  unfold withInstance
  rw [hr]
  cases hi : d.env.readInstance key with
  | none => rfl
  | some inst => simp only [schemaRef_same (agrees_of h (hE inst hi))]

theorem discover_referred {d d' : Disk} (h : SameReferred d d') (fuel : Nat)
    (sched : List (Write LinkbaseFile) → List (Write LinkbaseFile)) : discover d'.env fuel sched = discover d.env fuel sched := by
  have e1 : d'.env.entryName = d.env.entryName := h.entry
  have e2 : d'.env.images = d.env.images := h.images
  unfold discover
  rw [e1, e2]
  cases he : d.env.entryName with
  | none => rfl
  | some e =>
    have e3 : d'.env.readDoc e = d.env.readDoc e := (h.read e (.entry e he)).2.1
    have e4 : d'.env.fileExists (e ++ ".xml") = d.env.fileExists (e ++ ".xml") := (h.read _ (.xml e he)).2.2
    simp only [e3, e4]
    by_cases hx : fileExt e = ".xhtml" ∨ fileExt e = ".htm"
    · simp only [if_pos hx]
      cases hd : d.env.readDoc e with
      | none => rfl
      | some o =>
        cases o with
        | none => rfl
        | some doc =>
          simp only
          by_cases hf : d.env.fileExists (e ++ ".xml") = false
          · simp only [if_pos hf]
          · simp only [if_neg hf]
            exact withInstance_same h fuel sched _ _ (.xml e he) fun inst hi =>
              ⟨e, he, hi, .inl ⟨(inline_iff e).2 hx, rfl, ⟨doc, hd⟩, by simpa using hf⟩⟩
    · simp only [if_neg hx]
      by_cases hp : fileExt e = ".xbrl" ∨ fileExt e = ".xml"
      · simp only [if_pos hp]
        exact withInstance_same h fuel sched _ _ (.entry e he) fun inst hi => ⟨e, he, hi, .inr ⟨(plain_iff e).2 hp, rfl⟩⟩
      · simp only [if_neg hp]

theorem reach_referred {d : Disk} {key : String} {inst : InstanceFile} (hE : EntryInstance d.env key inst) {loc : String} {f : SchemaFile}
    (h : Reach d.env inst loc f) : Referred d loc := by
  cases h with
  | root _ _ h =>
    obtain ⟨i, hi, t, h1⟩ := h
    exact .ref key inst i loc hE hi h1.2.1
  | child loc' f' _ _ hr h =>
    rcases h with ⟨i, hi, n, h1, _⟩ | ⟨i, hi, t, h1⟩
    · exact .schema key inst loc' f' i loc hE hr (.inl hi) h1.2.2.2.1
    · exact .schema key inst loc' f' i loc hE hr (.inr hi) h1.2.1

theorem mapGet_of_key {V : Type} {m : GoMap String V} {k : String} {v : V} (h : (k, v) ∈ m) : ∃ v', mapGet m k = some v' := by
  induction m with
  | nil => simp at h
  | cons e m ih =>
    obtain ⟨a, b⟩ := e
    rw [mapGet_cons]
    by_cases ha : a = k
    · exact ⟨b, by simp [ha]⟩
    · rw [if_neg ha]
      rcases List.mem_cons.1 h with h | h
      · cases h; exact absurd rfl ha
      · exact ih h

theorem filesOf_referred {d d' : Disk} (h : SameReferred d d') {fuel : Nat}
    {sched : List (Write LinkbaseFile) → List (Write LinkbaseFile)} (hs : ∀ ws, (sched ws).Perm ws)
    {fo : Disc.Folder LinkbaseFile DocFile} (hd : discover d.env fuel sched = some (.ok fo)) : filesOf d' fo = filesOf d fo := by
  have h1 : ∀ e ∈ fo.schemas, d'.read e.1 = d.read e.1 := by
    rintro ⟨loc, f⟩ he
    obtain ⟨f', hf⟩ := mapGet_of_key he
    obtain ⟨key, inst, hE, hr⟩ := ((C12_collects_reachable d.env fuel sched hs fo hd).1 loc f').1 hf
    exact (h.read loc (reach_referred hE hr)).1
  have h2 : ∀ e ∈ fo.instances, d'.read e.1 = d.read e.1 := by
    intro e he
    rcases discover_ok hd with ⟨key, inst, _, _, hE, _, _, hi, _⟩ | ⟨_, _, _, _, hf⟩
    · rw [hi, List.mem_singleton] at he
      subst he
      obtain ⟨n, hn, _, h3⟩ := hE
      rcases h3 with ⟨_, rfl, _⟩ | ⟨_, rfl⟩
      · exact (h.read _ (.xml n hn)).1
      · exact (h.read _ (.entry _ hn)).1
    · rw [hf] at he
      exact absurd he (by simp [emptyFolder])
  unfold filesOf
  rw [List.filterMap_congr (g := fun e => ((d.read e.1).bind schemaFile).map fun x => (e.1, x)) fun e he => by rw [h1 e he],
    List.filterMap_congr (l := fo.instances) (g := fun e => ((d.read e.1).bind instanceFile).map fun x => (e.1, x)) fun e he => by rw [h2 e he]]

theorem load_referred {d d' : Disk} (h : SameReferred d d') (w : World) (fuel : Nat)
    {sched : List (Write LinkbaseFile) → List (Write LinkbaseFile)} (hs : ∀ ws, (sched ws).Perm ws) :
    load d' w fuel sched = load d w fuel sched := by
  unfold load
  rw [discover_referred h]
  cases hd : discover d.env fuel sched with
  | none => rfl
  | some r =>
    cases r with
    | err m => rfl
    | panic => rfl
    | ok fo => simp only [filesOf_referred h hs hd]

theorem realised_referred {d d' : Disk} (h : SameReferred d d') (fuel : Nat)
    (sched : List (Write LinkbaseFile) → List (Write LinkbaseFile)) : Realised d'.env fuel sched ↔ Realised d.env fuel sched := by
  unfold Realised
  rw [discover_referred h]
  refine forall_congr' fun fo => forall_congr' fun key => forall_congr' fun inst => forall_congr' fun ws => ?_
  refine imp_congr_right fun hd => imp_congr_right fun hi => ?_
  rcases discover_ok hd with ⟨key', inst', _, _, hE, _, _, hi', _⟩ | ⟨_, _, _, _, hf⟩
  · rw [hi', mapGet_cons] at hi
    split at hi
    · cases hi
      rw [schemaRef_same (agrees_of h hE), runs_same (agrees_of h hE)]
    · cases hi
  · rw [hf] at hi
    exact absurd hi (by simp [emptyFolder, mapGet])

theorem ends_referred {site site' : Site} (h : SameReferredSite site site') (folder : String) (w : World)
    (r : Instance.Run (Option (Files × Hydratable))) : Ends site' folder w r ↔ Ends site folder w r := by
  obtain ⟨⟨disk, rfl⟩, hd⟩ := h
  have h0 : SameReferred (site.disk folder) (disk folder) := hd folder
  unfold Ends
  simp only [discover_referred h0]
  refine and_congr_right fun _ => and_congr_right fun _ => exists_congr fun fuel => exists_congr fun sched => and_congr_right fun hs => ?_
  rw [load_referred h0 w fuel hs, realised_referred h0]

theorem backend_referred {site site' : Site} (h : SameReferredSite site site') : backend site' = backend site := by
  have h1 : discovers site' = discovers site := by
    funext folder e
    unfold discovers
    simp only [discover_referred (h.disk folder)]
  have h2 : hydrates site' = hydrates site := by
    funext folder x
    unfold hydrates
    simp only [ends_referred h]
  obtain ⟨⟨disk, rfl⟩, hd⟩ := h
  have e1 : ∀ f, (disk f).entryName = (site.disk f).entryName := fun f => (hd f).entry
  have e2 : ∀ f, (disk f).images = (site.disk f).images := fun f => (hd f).images
  have h3 : catalogBytes { site with disk := disk } = catalogBytes site := by
    funext l
    simp only [catalogBytes, listing, e1]
  have h4 : documentBytes { site with disk := disk } = documentBytes site := by
    funext f
    simp only [documentBytes, e2]
  unfold backend
  rw [h1, h2, h3, h4]
  simp only [e1]
  rfl

/-- **C169, except for images.** Files that nothing refers to do not matter: two sites whose folders have the same files under the names that
their entries lead to, whatever else is on the disk, can give the same answers to every request. Missing: further images, see
`C169_image`. -/
theorem C169_answers_partial (site site' : Site) (h : SameReferredSite site site') (r : Req) (o : Out Loaded Store.Bytes Unit) :
    Direct (backend site') r o ↔ Direct (backend site) r o := by
  rw [backend_referred h]

/-- **C169, except for images, with the cache.** The servers of the two sites have the same histories. -/
theorem C169_served_partial (site site' : Site) (h : SameReferredSite site site') (allowed : Req → Prop) (dry : Bool)
    (s s' : State Loaded Store.Bytes Unit) : Steps (backend site') dry allowed s s' ↔ Steps (backend site) dry allowed s s' := by
  rw [backend_referred h]

mutual
theorem replace_unshown {images images' : GoMap String String} (n : Image.Node)
    (h : ∀ p m, Image.At n p m → m.elem = true → m.data = "img" → ∀ a ∈ m.attrs, a.key = "src" →
      mapGet images' (fileBase a.val) = mapGet images (fileBase a.val)) : Image.replace images' n = Image.replace images n := by
  obtain ⟨e, t, d, as, ks⟩ := n
  have hk : Image.replaceAll images' ks = Image.replaceAll images ks :=
    replaceAll_unshown ks fun i k hi p m hm => h (i :: p) m (.down _ i p k m hi hm)
  have ha : ∀ l : List Image.HAttr, (∀ a ∈ l, a.key = "src" → mapGet images' (fileBase a.val) = mapGet images (fileBase a.val)) →
      Image.fixAttrs images' l = Image.fixAttrs images l := by
    intro l
    induction l with
    | nil => intro _; rfl
    | cons a l ih =>
      intro hl
      unfold Image.fixAttrs
      rw [ih fun b hb => hl b (by simp [hb])]
      by_cases hs : a.key = "src"
      · rw [hl a (by simp) hs]
      · simp only [if_neg hs]
  unfold Image.replace
  rw [hk]
  cases e with
  | false => rfl
  | true =>
    by_cases hd : d = "img"
    · rw [ha as fun a hx hs => h [] _ (.here _) rfl hd a hx hs]
    · simp only [if_neg hd]
theorem replaceAll_unshown {images images' : GoMap String String} (l : List Image.Node)
    (h : ∀ (i : Nat) k, l[i]? = some k → ∀ p m, Image.At k p m → m.elem = true → m.data = "img" → ∀ a ∈ m.attrs, a.key = "src" →
      mapGet images' (fileBase a.val) = mapGet images (fileBase a.val)) : Image.replaceAll images' l = Image.replaceAll images l := by
  match l with
  | [] => rfl
  | k :: ks =>
    unfold Image.replaceAll
    rw [replace_unshown k (h 0 k rfl), replaceAll_unshown ks fun i k' hi => h (i + 1) k' (by simpa using hi)]
end

mutual
theorem replace_none (n : Image.Node) : Image.replace [] n = n := by
  obtain ⟨e, t, d, as, ks⟩ := n
  have ha : ∀ l : List Image.HAttr, Image.fixAttrs [] l = l := by
    intro l
    induction l with
    | nil => rfl
    | cons a l ih => unfold Image.fixAttrs; rw [ih]; simp [mapGet]
  unfold Image.replace
  rw [replaceAll_none ks, ha]
  simp
theorem replaceAll_none (l : List Image.Node) : Image.replaceAll [] l = l := by
  match l with
  | [] => rfl
  | k :: ks => unfold Image.replaceAll; rw [replace_none k, replaceAll_none ks]
end

/-- **C169, images.** What one more image, which the document does not show, does to the document: nothing if there are images already;
otherwise the document is no longer the file but what is written for its parsed tree. -/
theorem C169_image (site : Site) (id name url : String) (n : Image.Node) (hp : site.parseHtml (site.document id) = some n)
    (hn : Unshown name n) :
    ((site.disk id).images ≠ [] → documentBytes (withImage site id name url) id = documentBytes site id) ∧
    ((site.disk id).images = [] → documentBytes site id = site.document id ∧
      documentBytes (withImage site id name url) id = (site.renderHtml n).getD (site.document id)) := by
  have hr : Image.replace ((name, url) :: (site.disk id).images) n = Image.replace (site.disk id).images n := by
    refine replace_unshown n fun p m hm h1 h2 a ha hs => ?_
    rw [mapGet_cons, if_neg]
    intro e
    exact hn p m hm h1 h2 a ha hs ((fileBase_iff _ _).2 e)
  have hw : documentBytes (withImage site id name url) id =
      Image.transformInlineImages site.parseHtml site.renderHtml (site.document id) ((name, url) :: (site.disk id).images) := by
    simp [documentBytes, withImage]
  rw [hw]
  unfold Image.transformInlineImages documentBytes Image.transformInlineImages
  simp only [hp, hr]
  constructor
  · intro hi
    rw [if_pos hi]
  · intro hi
    rw [hi, replace_none]
    refine ⟨by simp, ?_⟩
    cases site.renderHtml n <;> rfl

theorem document_direct {site : Site} {id entry : String} (he : (site.disk id).entryName = some entry) (hi : Inline entry)
    {x : Store.Bytes} {e : Option String} (h : Direct (backend site) (.renderable id entry) (.ret (.bytes (some x)) e)) :
    x = documentBytes site id := by
  cases h with
  | computed _ id' l _ _ a b c d =>
    cases a
    obtain ⟨c1, c2⟩ : l.folder = id ∧ Ends site id l.world (.done (some (l.files, l.hyd))) := c
    have := computes_document c1 (by rw [c1]; exact c2) he hi d
    cases this
    rfl

/-- **C169 fails.** In a folder without images, whose document is not written as it is read, one image that nothing refers to changes the
answer to every request for the document. -/
theorem C169_fails (site : Site) (id entry name url : String) (n : Image.Node) (b : Store.Bytes) (he : (site.disk id).entryName = some entry)
    (hi : Inline entry) (hn : (site.disk id).images = []) (hp : site.parseHtml (site.document id) = some n) (hu : Unshown name n)
    (hb : site.renderHtml n = some b) (hne : b ≠ site.document id) (x x' : Store.Bytes)
    (h : Direct (backend site) (.renderable id entry) (.ret (.bytes (some x)) none))
    (h' : Direct (backend (withImage site id name url)) (.renderable id entry) (.ret (.bytes (some x')) none)) : x' ≠ x := by
  obtain ⟨h1, h2⟩ := (C169_image site id name url n hp hu).2 hn
  have he' : ((withImage site id name url).disk id).entryName = some entry := by
    simp only [withImage, if_pos]; exact he
  rw [document_direct he hi h, document_direct he' hi h', h1, h2, hb]
  exact hne

/-- **C169 fails for documents that cannot be decoded.** Loading ends in an error, and with one image in a panic. -/
theorem C169_panic_fails (d : Disk) (entry name url : String) (he : d.entryName = some entry) (hi : Inline entry)
    (hd : d.doc entry = some none) (hn : d.images = []) (w : World) (fuel : Nat)
    (sched : List (Write LinkbaseFile) → List (Write LinkbaseFile)) :
    load d w fuel sched = some (.done none) ∧ load { d with images := [(name, url)] } w fuel sched = some .panic := by
  have hx := (inline_iff entry).1 hi
  have h1 : discover d.env fuel sched = some (.err "failed to decode IXBRL source document") := by
    unfold discover
    rw [show d.env.entryName = some entry from he]
    simp only [if_pos hx, show d.env.readDoc entry = some none from hd, show d.env.images = [] from hn]
    simp
  have h2 : discover ({ d with images := [(name, url)] } : Disk).env fuel sched = some .panic := by
    unfold discover
    rw [show ({ d with images := [(name, url)] } : Disk).env.entryName = some entry from he]
    simp only [if_pos hx, show ({ d with images := [(name, url)] } : Disk).env.readDoc entry = some none from hd,
      show ({ d with images := [(name, url)] } : Disk).env.images = [(name, url)] from rfl]
    simp
  unfold load
  rw [h1, h2]
  exact ⟨rfl, rfl⟩

/-- The hypotheses are met by a folder whose document has no html element. -/
example : ∃ d : Disk, d.entryName = some "r.htm" ∧ Inline "r.htm" ∧ d.doc "r.htm" = some (Ixbrl.decodeIxbrlFile (some [])) ∧
    Ixbrl.decodeIxbrlFile (some []) = none ∧ d.images = [] :=
  ⟨{ inkDisk with doc := fun _ => some (Ixbrl.decodeIxbrlFile (some [])) }, rfl, (inline_iff _).2 (by decide +kernel), rfl, by decide +kernel, rfl⟩

/-- `inkDisk` with a further file, a second schema for the same namespace. -/
def spareDisk : Disk := { inkDisk with read := fun n => if n = "spare.xsd" then some diskSchema else inkDisk.read n }
def spareSite : Site := { inkSite with disk := fun _ => spareDisk }

theorem ink_reach {inst : InstanceFile} {loc : String} {f : SchemaFile} (h : Reach inkDisk.env inst loc f) :
    discoveredSchema diskSchema = some f := by
  have hl : inkDisk.env.readSchema loc = some f := by
    cases h with
    | root _ _ h => obtain ⟨_, _, _, h1⟩ := h; exact h1.2.2.1.2.2
    | child _ _ _ _ _ h =>
      rcases h with ⟨_, _, _, _, h1⟩ | ⟨_, _, _, h1⟩
      · exact h1.2.2
      · exact h1.2.2.1.2.2
  change (inkDisk.read loc).bind discoveredSchema = some f at hl
  cases hx : inkDisk.read loc with
  | none => rw [hx] at hl; cases hl
  | some x =>
    rw [hx, Option.bind_some] at hl
    by_cases hn : x.name.loc = "schema"
    · rw [(inkLike.only loc x hx hn).2] at hl; exact hl
    · unfold discoveredSchema at hl
      simp [hn] at hl

theorem ink_referred {n : String} (h : Referred inkDisk n) : n ≠ "spare.xsd" := by
  have hschema : (discoveredSchema diskSchema).all (fun f => f.imp.length == 0 && f.incl.length == 0 &&
      f.annotation.all fun ann => ann.appinfo.all fun app => app.linkbaseRef.all fun i => xlinkAttr i.attrs "href" == some "p.xml") = true := by
    decide +kernel
  cases h with
  | entry e h => cases h; decide
  | xml e h => cases h; decide
  | ref key inst i n hE hi hn =>
    obtain ⟨e, he, hr, hk⟩ := hE
    cases he
    have hkey : key = "r.htm.xml" := by
      rcases hk with ⟨_, rfl, _⟩ | ⟨hp, _⟩
      · decide
      · exact absurd ((plain_iff _).1 hp) (by decide +kernel)
    subst hkey
    have hall : (inkDisk.env.readInstance "r.htm.xml").all (fun inst => inst.schemaRef.all fun i =>
        (findAttr i.attrs "href").all fun a => a.value == "x.xsd") = true := by decide +kernel
    rw [hr] at hall
    obtain ⟨a, ha, hv⟩ := (attrVal_iff _ _ _).1 hn
    have h1 := List.all_eq_true.1 hall i hi
    rw [ha] at h1
    have h2 : a.value = "x.xsd" := by simpa using h1
    rw [← hv, h2]
    decide
  | schema key inst loc f i n hE hr hi hn =>
    rw [ink_reach hr] at hschema
    simp only [Option.all_some, Bool.and_eq_true, beq_iff_eq, List.length_eq_zero_iff] at hschema
    rw [hschema.1.1, hschema.1.2] at hi
    simp at hi
  | linkbase key inst loc f kind n hE hr hl =>
    rw [ink_reach hr] at hschema
    simp only [Option.all_some, Bool.and_eq_true, List.all_eq_true, beq_iff_eq] at hschema
    obtain ⟨ann, hann, _, app, happ, _, i, hi, _, _, _, _, hh, _⟩ := hl
    have h1 := (xlinkVal_iff _ _ _).1 hh
    rw [hschema.2 ann hann app happ i hi] at h1
    cases h1
    decide

/-- The hypothesis is met by a folder with a file more, for which something is answered. -/
example : SameReferredSite inkSite spareSite ∧ (spareSite.disk "a-1").read "spare.xsd" ≠ (inkSite.disk "a-1").read "spare.xsd" ∧
    ∃ b, Direct (backend spareSite) (.express "a-1" "x:Cash" "c") (.ret (.bytes (some b)) none) := by
  have hsame : SameReferredSite inkSite spareSite :=
    ⟨⟨_, rfl⟩, fun _ => ⟨rfl, rfl, rfl, fun n hn => ⟨if_neg (ink_referred hn), rfl, rfl⟩⟩⟩
  refine ⟨hsame, fun e => ?_, ?_⟩
  · change (if "spare.xsd" = "spare.xsd" then some diskSchema else inkDisk.read "spare.xsd") = inkDisk.read "spare.xsd" at e
    rw [if_pos rfl] at e
    exact absurd (inkLike.only _ _ e.symm (by decide)).1 (by decide)
  · obtain ⟨fo, h, hl, b, hb⟩ := ink_load
    have hdis : (backend inkSite).discover "a-1" none := by
      obtain ⟨fo0, h1, _⟩ := load_some hl
      exact discovers_ok (fun _ => .refl _) h1
    have hx : (backend inkSite).express "x:Cash" "c" ⟨"a-1", inkWorld, fo, h⟩ (some (some b, none)) :=
      ⟨_, demoChoice_fair h, by rw [hb]; exact Eq.refl _⟩
    have hhyd : (backend inkSite).hydrate "a-1" (some (some ⟨"a-1", inkWorld, fo, h⟩, none)) := ⟨rfl, ink_loads hl⟩
    exact ⟨b, (C169_answers_partial inkSite spareSite hsame _ _).2
      (.computed (.express "a-1" "x:Cash" "c") "a-1" ⟨"a-1", inkWorld, fo, h⟩ _ _ rfl hdis hhyd (by unfold Computes; exact hx))⟩

/-- `inkSite` with a parser and a writer of HTML. -/
def wroteSite : Site :=
  { inkSite with parseHtml := fun _ => some (.mk true 1 "html" [] []), renderHtml := fun _ => some (inkSite.document "a-1" ++ [10]) }

theorem wrote_load : ∃ fo h, load { inkDisk with images := [("x.png", "u")] } inkWorld 3 id = some (.done (some (fo, h))) := by
  have he : (match load { inkDisk with images := [("x.png", "u")] } inkWorld 3 id with
    | some (.done (some _)) => true
    | _ => false) = true := by decide +kernel
  split at he
  · exact ⟨_, _, ‹_›⟩
  · cases he

/-- The hypotheses of `C169_fails` are met. -/
example : (wroteSite.disk "a-1").entryName = some "r.htm" ∧ Inline "r.htm" ∧ (wroteSite.disk "a-1").images = [] ∧
    (∃ n b, wroteSite.parseHtml (wroteSite.document "a-1") = some n ∧ Unshown "x.png" n ∧ wroteSite.renderHtml n = some b ∧
      b ≠ wroteSite.document "a-1") ∧
    (∃ x, Direct (backend wroteSite) (.renderable "a-1" "r.htm") (.ret (.bytes (some x)) none)) ∧
    ∃ x, Direct (backend (withImage wroteSite "a-1" "x.png" "u")) (.renderable "a-1" "r.htm") (.ret (.bytes (some x)) none) := by
  have hin : Inline "r.htm" := (inline_iff _).2 (by decide +kernel)
  have key : ∀ (site : Site) (fo : Files) (h : Hydratable), (site.disk "a-1").entryName = some "r.htm" →
      load (site.disk "a-1") inkWorld 3 id = some (.done (some (fo, h))) → Loads site "a-1" inkWorld fo h →
      ∃ x, Direct (backend site) (.renderable "a-1" "r.htm") (.ret (.bytes (some x)) none) := by
    intro site fo h he hl hL
    obtain ⟨fo0, h1, _⟩ := load_some hl
    have hdis : (backend site).discover "a-1" none := discovers_ok (fun _ => .refl _) h1
    have hhyd : (backend site).hydrate "a-1" (some (some ⟨"a-1", inkWorld, fo, h⟩, none)) := ⟨rfl, hL⟩
    refine ⟨documentBytes site "a-1", .computed _ "a-1" ⟨"a-1", inkWorld, fo, h⟩ _ _ rfl hdis hhyd (.inl ⟨hin, ?_, ?_⟩)⟩
    · show (site.disk "a-1").entryName.getD "" = "r.htm"
      rw [he]; rfl
    · show _ = (if h.document.isSome = true then some (documentBytes site "a-1") else none).map _
      rw [if_pos (loaded_inline hL he hin)]; rfl
  refine ⟨rfl, hin, rfl, ⟨_, _, rfl, ?_, rfl, by simp [wroteSite]⟩, ?_, ?_⟩
  · intro p m hm _ hd
    cases hm with
    | here => exact absurd hd (by decide)
    | down _ i p k m hi _ => simp [Image.Node.kids] at hi
  · obtain ⟨fo, h, hl, _⟩ := ink_load
    exact key wroteSite fo h rfl hl (ink_loads hl)
  · obtain ⟨fo, h, hl⟩ := wrote_load
    refine key (withImage wroteSite "a-1" "x.png" "u") fo h rfl hl ?_
    refine ⟨⟨_, _, _, _, _, _, _, rfl⟩, ⟨fun _ _ => .refl _, fun _ _ => .refl _, fun _ _ => .refl _, fun _ _ => .refl _, fun _ _ => .refl _⟩, 3, id,
      fun _ => .refl _, hl, fun fo x hf hx => ?_, Disc.realised_id _ _⟩
    have : (match discover ({ inkDisk with images := [("x.png", "u")] } : Disk).env 3 id with
      | some (.ok fo) => fo.document.map fun x => (x.nonNumerics.length, x.nonFractions.length)
      | _ => none) = some (0, 1) := by decide +kernel
    change discover ({ inkDisk with images := [("x.png", "u")] } : Disk).env 3 id = _ at hf
    rw [hf] at this
    simp only [hx, Option.map_some, Option.some.injEq, Prod.mk.injEq] at this
    refine ⟨fun i hi => by omega, fun i hi => ?_⟩
    obtain rfl : i = 0 := by omega
    decide

end Telefacts
