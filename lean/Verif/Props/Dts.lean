import Verif.Spec.Dts
import Verif.Props.Discover
import Verif.Props.Instance
import Verif.Props.Schema
import Verif.Props.Attr
import Verif.Model.Hydrate
/-! # C137, C138: linkbases of a folder, dimension members of contexts -/
namespace Telefacts
open Telefacts.Spec

section
open Telefacts.Disc
variable {L D : Type}

/-- **C137 (fails).** A linkbase that is only referred to without a role is not in the folder, whatever is in it. -/
theorem C137_fails (env : FolderEnv L D) (fuel : Nat) (sched : List (Write L) → List (Write L)) (hs : ∀ ws, (sched ws).Perm ws)
    (fo : Folder L D) (h : discover env fuel sched = some (.ok fo)) (href : String)
    (hno : ∀ key inst loc f i, EntryInstance env key inst → Reach env inst loc f → RefIn f i → XlinkVal i.attrs "href" href →
      ∀ v, ¬ XlinkVal i.attrs "role" v) (kind : LKind) : mapGet (fo.links kind) href = none := by
  cases hl : mapGet (fo.links kind) href with
  | none => rfl
  | some l =>
    obtain ⟨⟨key, inst, loc, f, hE, hR, ann, h1, h2, app, h3, h4, i, h5, _, _, _, h6, h7, _⟩, _⟩ :=
      ((C12_collects_reachable env fuel sched hs fo h).2.1 kind href l).1 hl
    exact absurd h6 (hno key inst loc f i hE hR ⟨ann, h1, h2, app, h3, h4, h5⟩ h7 _)

/-- `exEnv` with a schema that refers to the linkbase p.xml without a role. -/
def norole : SchemaFile := { exC with incl := [], annotation := [⟨XSD, [⟨XSD, [⟨LINK, [⟨⟨XLINK, "type"⟩, "simple"⟩,
  ⟨⟨XLINK, "arcrole"⟩, LINKARCROLE⟩, ⟨⟨XLINK, "href"⟩, "p.xml"⟩]⟩]⟩]⟩] }
def noroleEnv : FolderEnv Nat Nat := { exEnv "n.xsd" with readSchema := fun k => if k = "n.xsd" then some norole else none }

/-- The hypotheses of `C137_fails` are met, and the folder does not use the linkbases it refers to. -/
theorem C137_witness : ∃ fo, discover noroleEnv 2 (fun ws => ws) = some (.ok fo) ∧
    (∀ key inst loc f i, EntryInstance noroleEnv key inst → Reach noroleEnv inst loc f → RefIn f i → XlinkVal i.attrs "href" "p.xml" →
      ∀ v, ¬ XlinkVal i.attrs "role" v) ∧ ∀ kind, ¬ UsesLinkbases noroleEnv fo kind := by
  have hread : ∀ {inst loc f}, Reach noroleEnv inst loc f → f = norole := by
    intro inst loc f h
    have : noroleEnv.readSchema loc = some f := reach_read h
    simp only [noroleEnv] at this
    split at this
    · exact (Option.some.inj this).symm
    · cases this
  have hitem : ∀ {i}, RefIn norole i → i = ⟨LINK, [⟨⟨XLINK, "type"⟩, "simple"⟩, ⟨⟨XLINK, "arcrole"⟩, LINKARCROLE⟩, ⟨⟨XLINK, "href"⟩, "p.xml"⟩]⟩ := by
    rintro i ⟨ann, h1, _, app, h2, _, h3⟩
    simp only [norole, List.mem_singleton] at h1
    subst h1
    simp only [List.mem_singleton] at h2
    subst h2
    simpa using h3
  have hnorole : ∀ v, ¬ XlinkVal [⟨⟨XLINK, "type"⟩, "simple"⟩, ⟨⟨XLINK, "arcrole"⟩, LINKARCROLE⟩, ⟨⟨XLINK, "href"⟩, "p.xml"⟩] "role" v := by
    intro v hv
    rw [xlinkVal_iff] at hv
    rw [show xlinkAttr _ "role" = none by decide] at hv
    cases hv
  have hall : ∀ key inst loc f i, EntryInstance noroleEnv key inst → Reach noroleEnv inst loc f → RefIn f i →
      XlinkVal i.attrs "href" "p.xml" → ∀ v, ¬ XlinkVal i.attrs "role" v := by
    intro key inst loc f i _ hR hi _ v
    rw [hread hR] at hi
    rw [hitem hi]
    exact hnorole v
  refine ⟨_, rfl, hall, fun kind hu => ?_⟩
  have hE : EntryInstance noroleEnv "i.xml" ⟨[exItem LINK [("href", "n.xsd")]], 0⟩ :=
    ⟨"i.xml", rfl, rfl, .inr ⟨(Disc.plain_iff _).2 (by decide), rfl⟩⟩
  have hR : Reach noroleEnv ⟨[exItem LINK [("href", "n.xsd")]], 0⟩ "n.xsd" norole :=
    .root _ _ ⟨_, List.mem_singleton.2 rfl, "urn:c", rfl, (attrVal_iff _ _ _).2 ⟨_, rfl, rfl⟩, ⟨by decide, rfl, rfl⟩,
      (attrVal_iff _ _ _).2 ⟨_, rfl, rfl⟩, by decide⟩
  have h1 := hu "i.xml" _ "n.xsd" norole _ "p.xml" hE hR ⟨_, List.mem_singleton.2 rfl, rfl, _, List.mem_singleton.2 rfl, rfl,
    List.mem_singleton.2 rfl⟩ ⟨rfl, (xlinkVal_iff _ _ _).2 (by decide), (xlinkVal_iff _ _ _).2 (by decide), .inl hnorole,
      (xlinkVal_iff _ _ _).2 (by decide), by decide⟩ rfl
  rw [C137_fails noroleEnv 2 (fun ws => ws) (fun _ => .refl _) _ rfl "p.xml" hall kind] at h1
  revert h1
  cases kind <;> decide

/-- **C137 (fails).** What discovery does of a folder does not depend on the linkbaseRef elements of the instance: for the instance
with others it is the same. -/
theorem C137_fails_instance (d : Hydrate.Disk) (name : String) (n : XName) (at' : List Attr) (chars inner : String)
    (kids kids' : List Xml) (hx : d.read name = some (.mk n at' chars inner kids)) (hn : n.loc = "xbrl")
    (hk : kids.filter (fun k => decide (k.name.loc ≠ "linkbaseRef")) = kids'.filter (fun k => decide (k.name.loc ≠ "linkbaseRef")))
    (fuel : Nat) (sched : List (Write Decode.LinkbaseFile) → List (Write Decode.LinkbaseFile)) :
    discover (Hydrate.Disk.env { d with read := fun s => if s = name then some (.mk n at' chars inner kids') else d.read s }) fuel sched =
      discover d.env fuel sched := by
  have hr : kids'.filter (fun k => decide (k.name.loc = "schemaRef")) = kids.filter (fun k => decide (k.name.loc = "schemaRef")) := by
    have : ∀ l : List Xml, l.filter (fun k => decide (k.name.loc = "schemaRef")) =
        (l.filter (fun k => decide (k.name.loc ≠ "linkbaseRef"))).filter (fun k => decide (k.name.loc = "schemaRef")) := by
      intro l
      rw [List.filter_filter]
      refine List.filter_congr fun x _ => ?_
      by_cases h : x.name.loc = "schemaRef"
      · simp [h]
      · simp [h]
    rw [this, ← hk, ← this]
  have : Hydrate.Disk.env { d with read := fun s => if s = name then some (.mk n at' chars inner kids') else d.read s } = d.env := by
    unfold Hydrate.Disk.env
    simp only
    congr 1
    · funext s
      by_cases hs : s = name
      · subst hs
        simp only [if_true, hx, Option.bind_some, Decode.instanceFile, Xml.name, hn, Option.map_some]
        simp only [Xml.named, Xml.kids, hr]
      · simp only [hs, if_false]
    · funext s
      by_cases hs : s = name
      · subst hs
        simp [hx, Decode.discoveredSchema, Xml.name, hn]
      · simp only [hs, if_false]
    · funext kind s
      by_cases hs : s = name
      · subst hs
        simp [hx, Decode.linkbaseFile, Xml.name, hn]
      · simp only [hs, if_false]
  rw [this]

/-- Two instances as in `C137_fails_instance`: one refers to a linkbase. -/
example : ([Xml.mk ⟨"l", "schemaRef"⟩ [] "" "" []]).filter (fun k => decide (k.name.loc ≠ "linkbaseRef")) =
    ([Xml.mk ⟨"l", "schemaRef"⟩ [] "" "" [], Xml.mk ⟨"l", "linkbaseRef"⟩ [] "" "" []]).filter
      (fun k => decide (k.name.loc ≠ "linkbaseRef")) := by
  simp [Xml.name]

/-- **C137 (partial).** If every linkbaseRef has a role, the folder has all linkbases that its schemas refer to. Missing: references
without a role (`C137_fails`) and those of the instance (`C137_fails_instance`). -/
theorem C137_roles_partial (env : FolderEnv L D) (fuel : Nat) (sched : List (Write L) → List (Write L)) (hs : ∀ ws, (sched ws).Perm ws)
    (fo : Folder L D) (h : discover env fuel sched = some (.ok fo))
    (hrole : ∀ key inst loc f i, EntryInstance env key inst → Reach env inst loc f → RefIn f i → ∃ v, XlinkVal i.attrs "role" v)
    (kind : LKind) : UsesLinkbases env fo kind := by
  rintro key inst loc f i href hE hR hi ⟨h1, h2, h3, h4, h5, h6⟩ hu
  have hc := (C12_collects_reachable env fuel sched hs fo h).2.1 kind href
  rcases h4 with h4 | h4
  · obtain ⟨v, hv⟩ := hrole key inst loc f i hE hR hi
    exact absurd hv (h4 v)
  · obtain ⟨ann, a1, a2, app, a3, a4, a5⟩ := hi
    have hin : ∃ key inst loc f, EntryInstance env key inst ∧ Reach env inst loc f ∧ LinkIn env f kind href :=
      ⟨key, inst, loc, f, hE, hR, ann, a1, a2, app, a3, a4, i, a5, h1, h2, h3, h4, h5, h6, hu⟩
    cases hr : env.readLinkbase kind href with
    | some l => exact (hc l).2 ⟨hin, hr⟩
    | none =>
      cases hg : mapGet (fo.links kind) href with
      | none => rfl
      | some l => rw [((hc l).1 hg).2] at hr; cases hr

/-- **C137**, exactly, of the references of schemas: a folder uses all linkbases of a kind that its schemas refer to if and only if every
one of them that can be read is also referred to with the role of the kind. -/
theorem C137_exact (env : FolderEnv L D) (fuel : Nat) (sched : List (Write L) → List (Write L)) (hs : ∀ ws, (sched ws).Perm ws)
    (fo : Folder L D) (h : discover env fuel sched = some (.ok fo)) (kind : LKind) :
    UsesLinkbases env fo kind ↔
      ∀ key inst loc f i href l, EntryInstance env key inst → Reach env inst loc f → RefIn f i → RefersLinkbase i kind href →
        env.isUrl href = false → env.readLinkbase kind href = some l →
        ∃ loc' f' i', Reach env inst loc' f' ∧ RefIn f' i' ∧ RefersLinkbase i' kind href ∧ XlinkVal i'.attrs "role" (refRole kind) := by
  have hc := (C12_collects_reachable env fuel sched hs fo h).2.1 kind
  constructor
  · intro hu key inst loc f i href l hE hR hi hr hv hl
    have := hu key inst loc f i href hE hR hi hr hv
    rw [hl] at this
    obtain ⟨⟨key', inst', loc', f', hE', hR', ann, a1, a2, app, a3, a4, i', a5, b1, b2, b3, b4, b5, b6, _⟩, _⟩ := (hc href l).1 this
    obtain ⟨rfl, rfl⟩ := entryInstance_unique hE hE'
    exact ⟨loc', f', i', hR', ⟨ann, a1, a2, app, a3, a4, a5⟩, ⟨b1, b2, b3, .inr b4, b5, b6⟩, b4⟩
  · intro hr key inst loc f i href hE hR hi hri hv
    cases hl : env.readLinkbase kind href with
    | some l =>
      obtain ⟨loc', f', i', hR', ⟨ann, a1, a2, app, a3, a4, a5⟩, ⟨b1, b2, b3, _, b5, b6⟩, b4⟩ := hr key inst loc f i href l hE hR hi hri hv hl
      exact (hc href l).2 ⟨⟨key, inst, loc', f', hE, hR', ann, a1, a2, app, a3, a4, i', a5, b1, b2, b3, b4, b5, b6, hv⟩, hl⟩
    | none =>
      cases hg : mapGet (fo.links kind) href with
      | none => rfl
      | some l => rw [((hc href l).1 hg).2] at hl; cases hl

/-- Non-vacuity: in `exEnv` every linkbaseRef has a role. -/
example : ∀ key inst loc f i, EntryInstance (exEnv "a.xsd") key inst → Reach (exEnv "a.xsd") inst loc f → RefIn f i →
    ∃ v, XlinkVal i.attrs "role" v := by
  intro key inst loc f i _ hR hi
  have hread : (exEnv "a.xsd").readSchema loc = some f := reach_read hR
  have hb : ∀ {g : SchemaFile}, g.annotation = [] → ¬ RefIn g i := by
    rintro g e ⟨ann, h, _⟩
    rw [e] at h
    cases h
  simp only [exEnv] at hread
  split at hread
  · cases hread; exact absurd hi (hb rfl)
  · split at hread
    · cases hread
      obtain ⟨ann, h1, _, app, h2, _, h3⟩ := hi
      simp only [exB, List.mem_singleton] at h1
      subst h1
      simp only [List.mem_singleton] at h2
      subst h2
      simp only [List.mem_singleton] at h3
      subst h3
      exact ⟨LKind.pre.role, (xlinkVal_iff _ _ _).2 (by decide)⟩
    · split at hread
      · cases hread; exact absurd hi (hb rfl)
      · cases hread
end

section
open Telefacts.Instance Telefacts.Schema Telefacts.Linkbase

/-- Contexts with and without a member that does not resolve are the same. -/
private theorem addMember_same (w : World) {m : MemberElem} (hm : ∀ x, ¬ ExplicitOf w m x) {e e' : CtxElem} (h : AddMember m e e') :
    hydrateContext w e' = hydrateContext w e := by
  have hn : ∀ strict, explicitMember w strict m = none := by
    intro strict
    cases hx : explicitMember w strict m with
    | none => rfl
    | some x => exact absurd ((explicitMember_iff w strict m x).1 hx) (hm x)
  cases h with
  | segment sp at' ids x y typed ss ents ps scs =>
    have : hydrateDims w false (⟨x ++ m :: y, typed⟩ :: ss) = hydrateDims w false (⟨x ++ y, typed⟩ :: ss) := by
      simp only [hydrateDims, List.filterMap_append, List.filterMap_cons, hn]
    simp only [hydrateContext, this]
  | scenario sp at' ents ps x y typed ss =>
    have : hydrateDims w true (⟨x ++ m :: y, typed⟩ :: ss) = hydrateDims w true (⟨x ++ y, typed⟩ :: ss) := by
      simp only [hydrateDims, List.filterMap_append, List.filterMap_cons, hn]
    simp only [hydrateContext, this]

private theorem collectRun_swap {α β : Type} (f : α → Run (Option β)) {a b : α} (h : f a = f b) (pre post : List α) :
    collectRun f (pre ++ a :: post) = collectRun f (pre ++ b :: post) := by
  induction pre with
  | nil => simp only [List.nil_append, collectRun, h]
  | cons x pre ih => simp only [List.cons_append, collectRun, ih]

/-- **C138 (fails).** With white space after the name of a member, the contexts are those without the member. (The names of declared
concepts have no white space.) -/
theorem C138_fails (w : World) (hd : ∀ l c, Declares w.env l c → ∀ ch ∈ c.name.loc.toList, ¬ XmlText.White [ch])
    (m : MemberElem) (s : String) (ch : Char) (hw : XmlText.White [ch]) (hm : m.chars = s.push ch) (e e' : CtxElem)
    (ha : AddMember m e e') (pre post : List CtxElem) :
    hydrateContexts w (pre ++ e' :: post) = hydrateContexts w (pre ++ e :: post) := by
  have hno : ∀ x, ¬ ExplicitOf w m x := by
    rintro x ⟨_, _, _, c, hr⟩
    obtain ⟨hs, hq⟩ := (resolves_iff _ _ _ _).1 hr
    obtain ⟨l, _, _, hdc, hn⟩ := (C75_name_query w.env _ _).2 _ _ hq
    have hloc : ch ∈ (xmlns w.tl m.chars).loc.toList := by
      have hne : ch ≠ ':' := by
        rintro rfl
        have := hw ':' (by simp)
        revert this
        decide
      have hq := (C01_xmlns_resolves w.tl m.chars _).1 rfl
      rw [hm] at hq
      have tl : (s.push ch).toList = s.toList ++ [ch] := by simp
      have split : ∀ p l : String, s.push ch = p ++ ":" ++ l → ch ∈ l.toList ∨ l = "" := by
        intro p l h
        by_cases hl : l = ""
        · exact .inr hl
        left
        have := congrArg String.toList h
        rw [tl] at this
        simp only [String.toList_append] at this
        have h2 := congrArg List.getLast? this
        have hl' : l.toList ≠ [] := by simpa using hl
        rw [List.getLast?_append, List.getLast?_append_of_ne_nil _ hl'] at h2
        simp only [List.getLast?_singleton, Option.some_or] at h2
        exact List.mem_of_getLast? h2.symm
      rw [hm]
      generalize hr : xmlns w.tl (s.push ch) = r at hq
      generalize hz : s.push ch = z at hq
      cases hq with
      | unprefixed _ u h1 h2 => rw [← hz, tl]; simp
      | noLocal p h1 =>
        exfalso
        have := congrArg (fun s => s.toList.getLast?) hz
        simp only [tl, String.toList_append] at this
        rw [List.getLast?_append_of_ne_nil _ (by simp), List.getLast?_append_of_ne_nil _ (by decide)] at this
        simp at this
        exact hne this
      | bound p l u h1 h2 h3 h4 => exact (split p l hz).resolve_right h2
      | unbound p l d h1 h2 h3 h4 => exact (split p l hz).resolve_right h2
    rw [← show c.name.loc = _ from congrArg XName.loc hn] at hloc
    exact hd l c hdc ch hloc hw
  unfold hydrateContexts
  rw [collectRun_swap _ (addMember_same w hno ha)]

/-- **C138 (fails).** The same with a prefix that is not declared on the root element (but, for instance, on the context or member),
when the root declares no default namespace. -/
theorem C138_fails_prefix (w : World) (m : MemberElem) (p l : String) (hp : ':' ∉ p.toList) (hl : l ≠ "")
    (hm : m.chars = p ++ ":" ++ l) (hb : BoundTo w.tl p "") (hdef : DefaultNs w.tl "") (e e' : CtxElem) (ha : AddMember m e e')
    (pre post : List CtxElem) : hydrateContexts w (pre ++ e' :: post) = hydrateContexts w (pre ++ e :: post) := by
  have hno : ∀ x, ¬ ExplicitOf w m x := by
    rintro x ⟨_, _, _, c, hr⟩
    apply ((resolves_iff _ _ _ _).1 hr).1
    rw [hm, (C01_xmlns_resolves w.tl _ _).2 (.unbound p l "" hp hl hb hdef)]
  unfold hydrateContexts
  rw [collectRun_swap _ (addMember_same w hno ha)]

/-- The number of explicit members of a context. -/
private def sizeOfContext (c : Context) : Nat := c.segment.explicit.length + c.scenario.explicit.length

private theorem addMember_more (w : World) {m : MemberElem} {x : ExplicitMember} (hm : ExplicitOf w m x) {e e' : CtxElem} (h : AddMember m e e')
    {c' : Context} (hc : hydrateContext w e' = .done (some c')) :
    ∃ c, hydrateContext w e = .done (some c) ∧ sizeOfContext c' = sizeOfContext c + 1 := by
  have hn : ∀ strict, explicitMember w strict m = some x := fun strict => (explicitMember_iff w strict m x).2 hm
  cases h with
  | segment sp at' ids xs ys typed ss ents ps scs =>
    unfold hydrateContext at hc ⊢
    simp only at hc ⊢
    split at hc
    · cases hc
    split at hc
    · cases hc
    split at hc
    · cases hc
    split at hc
    · cases hc
    split at hc
    · cases hc
    split at hc
    · cases hc
    rename_i h1 _ _ h2 h3 _ _ _ h4 _ _ h5
    simp only [h1, h3, h4, if_false]
    generalize hydrateDims w true scs = q at hc ⊢
    simp only [hydrateDims] at hc ⊢
    cases ht : collectRun (typedMember w false) typed with
    | panic => simp [ht, Run.andThen] at hc
    | loop => simp [ht, Run.andThen] at hc
    | done ts =>
      simp only [ht, Run.andThen] at hc ⊢
      cases q with
      | panic => cases hc
      | loop => cases hc
      | done sc =>
        simp only [Run.done.injEq, Option.some.injEq] at hc
        subst hc
        refine ⟨_, rfl, ?_⟩
        simp only [sizeOfContext, List.filterMap_append, List.filterMap_cons, hn, List.length_append, List.length_cons]
        omega
  | scenario sp at' ents ps xs ys typed ss =>
    unfold hydrateContext at hc ⊢
    simp only at hc ⊢
    split at hc
    · cases hc
    split at hc
    · cases hc
    split at hc
    · cases hc
    split at hc
    · cases hc
    split at hc
    · cases hc
    split at hc
    · cases hc
    split at hc
    · cases hc
    rename_i h1 _ _ h2 h3 _ _ _ _ _ _ h4 h5 _ _ h6
    simp only [h1, h3, h5, if_false]
    generalize hydrateDims w false _ = q at hc ⊢
    cases q with
    | panic => cases hc
    | loop => cases hc
    | done sg =>
      simp only [Run.andThen] at hc ⊢
      simp only [hydrateDims] at hc ⊢
      cases ht : collectRun (typedMember w true) typed with
      | panic => simp [ht, Run.andThen] at hc
      | loop => simp [ht, Run.andThen] at hc
      | done ts =>
        simp only [ht, Run.andThen, Run.done.injEq, Option.some.injEq] at hc ⊢
        subst hc
        refine ⟨_, rfl, ?_⟩
        simp only [sizeOfContext, List.filterMap_append, List.filterMap_cons, hn, List.length_append, List.length_cons]
        omega

private theorem collectRun_split {α β : Type} (f : α → Run (Option β)) (a : α) (pre post : List α) {l : List β}
    (h : collectRun f (pre ++ a :: post) = .done l) :
    ∃ l1 r l2, f a = .done r ∧ l = l1 ++ (r.toList ++ l2) ∧
      ∀ b r', f b = .done r' → collectRun f (pre ++ b :: post) = .done (l1 ++ (r'.toList ++ l2)) := by
  induction pre generalizing l with
  | nil =>
    simp only [List.nil_append, collectRun] at h ⊢
    cases hr : f a with
    | panic => simp [hr, Run.andThen] at h
    | loop => simp [hr, Run.andThen] at h
    | done r =>
      cases hp : collectRun f post with
      | panic => simp [hr, hp, Run.andThen] at h
      | loop => simp [hr, hp, Run.andThen] at h
      | done l2 =>
        simp only [hr, hp, Run.andThen, Run.done.injEq] at h
        refine ⟨[], r, l2, rfl, ?_, fun b r' hb => ?_⟩
        · rw [← h]; cases r <;> rfl
        · simp only [hb, Run.andThen]
          cases r' <;> rfl
  | cons x pre ih =>
    simp only [List.cons_append, collectRun] at h ⊢
    cases hx : f x with
    | panic => simp [hx, Run.andThen] at h
    | loop => simp [hx, Run.andThen] at h
    | done y =>
      cases hp : collectRun f (pre ++ a :: post) with
      | panic => simp [hx, hp, Run.andThen] at h
      | loop => simp [hx, hp, Run.andThen] at h
      | done l0 =>
        simp only [hx, hp, Run.andThen, Run.done.injEq] at h
        obtain ⟨l1, r, l2, h1, h2, h3⟩ := ih hp
        refine ⟨y.toList ++ l1, r, l2, h1, ?_, fun b r' hb => ?_⟩
        · rw [← h, h2]; cases y <;> rfl
        · simp only [h3 b r' hb, Run.andThen]
          cases y <;> rfl

/-- **C138**, exactly: the contexts are the same with and without an explicit member if and only if its dimension or its value is not the name
of a concept, as written and by the declarations of the root element. -/
theorem C138_exact (w : World) (m : MemberElem) (e e' : CtxElem) (ha : AddMember m e e') (pre post : List CtxElem) (out : List Context)
    (h : hydrateContexts w (pre ++ e' :: post) = .done out) (ent : EntityElem) (id' scheme ident : String) (hid : Identified e' ent id' scheme ident) :
    hydrateContexts w (pre ++ e :: post) = .done out ↔ ∀ x, ¬ ExplicitOf w m x := by
  constructor
  · intro h0 x hx
    unfold hydrateContexts at h h0
    cases hc : collectRun (hydrateContext w) (pre ++ e' :: post) with
    | panic => simp [hc, Run.andThen] at h
    | loop => simp [hc, Run.andThen] at h
    | done l =>
      obtain ⟨l1, r, l2, h1, h2, h3⟩ := collectRun_split _ _ _ _ hc
      have hr : ∃ c', r = some c' := by
        rcases hydrateContext_cases w e' with ⟨_, hx⟩ | ⟨_, hx, _⟩ | ⟨_, ent', i1, i2, i3, hi, hx⟩
        · rw [h1] at hx; cases hx
        · exact absurd hid (hx _ _ _ _)
        · rw [h1] at hx
          cases h1 : hydrateDims w false ent'.segments with
          | panic => rw [h1] at hx; cases hx
          | loop => rw [h1] at hx; cases hx
          | done sg =>
            rw [h1] at hx
            cases h2 : hydrateDims w true e'.scenarios with
            | panic => simp only [Run.andThen, h2] at hx; cases hx
            | loop => simp only [Run.andThen, h2] at hx; cases hx
            | done sc =>
              simp only [Run.andThen, h2, Run.done.injEq] at hx
              exact ⟨_, hx⟩
      obtain ⟨c', rfl⟩ := hr
      obtain ⟨c, hce, hsz⟩ := addMember_more w hx ha h1
      rw [h3 e _ hce] at h0
      rw [hc] at h
      simp only [Run.andThen, Run.done.injEq] at h h0
      have p1 := (stableSort_perm (fun a b : Context => decide (a.id < b.id)) l).map sizeOfContext
      have p2 := (stableSort_perm (fun a b : Context => decide (a.id < b.id)) (l1 ++ ((some c).toList ++ l2))).map sizeOfContext
      rw [h] at p1
      rw [h0] at p2
      have := (p1.symm.trans p2).sum_nat
      rw [h2] at this
      simp only [Option.toList, List.map_append, List.map_cons, List.map_nil, List.sum_append, List.sum_cons, List.sum_nil, hsz] at this
      omega
  · intro hno
    rw [← h]
    unfold hydrateContexts
    rw [collectRun_swap _ (addMember_same w hno ha)]

/-- Non-vacuity: a member that counts. -/
example : ∃ e e' out, AddMember ⟨[⟨⟨"", "dimension"⟩, "x:Dim"⟩], "x:A"⟩ e e' ∧ hydrateContexts instWorld ([] ++ e' :: []) = .done out ∧
    hydrateContexts instWorld ([] ++ e :: []) ≠ .done out ∧ ∃ c ∈ out, c.segment.explicit.length = 1 := by
  let ctx : List MemberElem → CtxElem := fun ms => ⟨XBRLI, [⟨⟨"", "id"⟩, "c"⟩], [⟨[([⟨⟨"", "scheme"⟩, "s"⟩], "1")], [⟨ms, []⟩]⟩],
    [⟨["2020-12-31"], [], []⟩], []⟩
  exact ⟨ctx [], ctx [⟨[⟨⟨"", "dimension"⟩, "x:Dim"⟩], "x:A"⟩], _, .segment _ _ _ [] [] _ _ _ _ _, rfl, by decide +kernel, _, List.mem_singleton_self _, by decide +kernel⟩

/-- Instances of both: a line break after the name of a declared concept; an undeclared prefix. -/
theorem C138_witness : ∃ e e', AddMember ⟨[⟨⟨"", "dimension"⟩, "x:Dim"⟩], "x:A\n"⟩ e e' ∧ NamesConcept instWorld "x:A\n" "x.xsd#x_A" ∧
    hydrateContexts instWorld [e'] = hydrateContexts instWorld [e] ∧ ∃ c, hydrateContexts instWorld [e'] = .done [c] ∧ c.segment.explicit = [] := by
  let ctx : List MemberElem → CtxElem := fun ms => ⟨XBRLI, [⟨⟨"", "id"⟩, "c"⟩], [⟨[([⟨⟨"", "scheme"⟩, "s"⟩], "1")], [⟨ms, []⟩]⟩],
    [⟨["2020-12-31"], [], []⟩], []⟩
  refine ⟨ctx [], ctx [⟨[⟨⟨"", "dimension"⟩, "x:Dim"⟩], "x:A\n"⟩], .segment _ _ _ [] [] _ _ _ _ _, ?_, by decide +kernel, ?_⟩
  · refine ⟨"", "x:A", "\n", by decide, by intro c hc; simp at hc, by intro c hc; simp at hc; simp [hc], ?_⟩
    obtain ⟨p, hp⟩ : ∃ p, lookup instWorld "x:A" = some p ∧ p.1 = "x.xsd#x_A" :=
      ⟨(lookup instWorld "x:A").get (by decide +kernel), by rw [Option.some_get], by decide +kernel⟩
    exact ⟨p.2, hp.2 ▸ (lookup_iff _ _ _).1 hp.1⟩
  · exact ⟨_, rfl, by decide +kernel⟩

/-- **C138 (partial).** Every member whose dimension and value name declared concepts, by prefixes declared on the root element and
without white space, is in the context. Missing: white space (`C138_fails`), other prefixes (`C138_fails_prefix`), several segment elements. -/
theorem C138_kept_partial (w : World) (es : List CtxElem) (out : List Context) (h : hydrateContexts w es = .done out) (e : CtxElem)
    (he : e ∈ es) (ent : EntityElem) (id' scheme ident : String) (hid : Identified e ent id' scheme ident) (m : MemberElem)
    (hm : MemberIn e m) (dim dns dl mns ml : String) (hdim : AttrVal m.attrs "dimension" dim) (hdq : QName w.tl dim ⟨dns, dl⟩)
    (hmq : QName w.tl m.chars ⟨mns, ml⟩) (hd0 : dns ≠ "") (hm0 : mns ≠ "")
    (hdc : ∃ l c, mapGet w.env.namespaces dns = some l ∧ Declares w.env l c ∧ c.name = ⟨dns, dl⟩)
    (hmc : ∃ l c, mapGet w.env.namespaces mns = some l ∧ Declares w.env l c ∧ c.name = ⟨mns, ml⟩) :
    ∃ c ∈ out, c.id = id' ∧ ∃ x ∈ c.segment.explicit ++ c.scenario.explicit, x.dimValue = dim ∧ x.memValue = m.chars ∧
      (∃ d, Resolves w dim x.dimHref d) ∧ ∃ d, Resolves w m.chars x.memHref d := by
  obtain ⟨dh, d, hd⟩ := (C75_name_query w.env dns dl).1.2 hdc
  obtain ⟨mh, v, hv⟩ := (C75_name_query w.env mns ml).1.2 hmc
  have e1 := (C01_xmlns_resolves w.tl dim _).2 hdq
  have e2 := (C01_xmlns_resolves w.tl m.chars _).2 hmq
  have r1 : Resolves w dim dh d := (resolves_iff _ _ _ _).2 ⟨by rw [e1]; exact hd0, by rw [e1]; exact hd⟩
  have r2 : Resolves w m.chars mh v := (resolves_iff _ _ _ _).2 ⟨by rw [e2]; exact hm0, by rw [e2]; exact hv⟩
  obtain ⟨l, hl, hsort⟩ := (C24_contexts w es).2.1 out h
  have hstuck := ((C24_contexts w es).1.1 ⟨out, h⟩) e he
  have inCollected : ∀ {α β : Type} {R : α → β → Prop} {xs : List α} {ys : List β}, Collected R xs ys → ∀ a ∈ xs, (∃ y, R a y) →
      ∃ y ∈ ys, R a y := by
    intro α β R xs ys hc
    induction hc with
    | nil => intro a ha; cases ha
    | keep x y xs ys hr _ ih =>
      intro a ha hy
      rcases List.mem_cons.1 ha with rfl | ha
      · exact ⟨y, List.mem_cons_self .., hr⟩
      · obtain ⟨z, hz, hr⟩ := ih a ha hy
        exact ⟨z, List.mem_cons_of_mem _ hz, hr⟩
    | skip x xs ys hn _ ih =>
      intro a ha hy
      rcases List.mem_cons.1 ha with rfl | ha
      · obtain ⟨y, hy⟩ := hy; exact absurd hy (hn y)
      · exact ih a ha hy
  have hex : ∃ c, ContextOf w e c := by
    have hcx : ∃ r, hydrateContext w e = .done r := (hydrateContext_done w e).2 hstuck
    rcases hydrateContext_cases w e with ⟨hx, _⟩ | ⟨_, hx, _⟩ | ⟨_, ent', i1, i2, i3, hi, hr⟩
    · exact absurd hx hstuck.1
    · exact absurd hid (hx _ _ _ _)
    · obtain ⟨r, hcx⟩ := hcx
      rw [hr] at hcx
      cases h1 : hydrateDims w false ent'.segments with
      | panic => rw [h1] at hcx; cases hcx
      | loop => rw [h1] at hcx; cases hcx
      | done sg =>
        rw [h1] at hcx
        cases h2 : hydrateDims w true e.scenarios with
        | panic => simp only [Run.andThen, h2] at hcx; cases hcx
        | loop => simp only [Run.andThen, h2] at hcx; cases hcx
        | done sc =>
          rw [h1, h2] at hr
          exact ⟨_, ((hydrateContext_some w e _).1 hr).2⟩
  obtain ⟨c, hc, ent', hi, hseg, hsc, _⟩ := inCollected hl e he hex
  have hent : ent' = ent := by
    obtain ⟨_, ⟨_, a⟩, _⟩ := hi
    obtain ⟨_, ⟨_, b⟩, _⟩ := hid
    rw [a] at b
    exact (List.cons.inj b).1
  subst hent
  have hidc : c.id = id' := by
    have a := hi.1.2.1
    have b := hid.1.2.1
    rw [← plainAttr_iff] at a b
    rw [a] at b
    exact Option.some.inj b
  refine ⟨c, hsort.1.mem_iff.2 hc, hidc, ?_⟩
  have hx : ∃ x, ExplicitOf w m x := ⟨⟨dh, dim, mh, m.chars⟩, hdim, ⟨d, r1⟩, rfl, ⟨v, r2⟩⟩
  have fin : ∀ {xs : List MemberElem} {ys : List ExplicitMember}, Collected (ExplicitOf w) xs ys → m ∈ xs →
      ∃ x ∈ ys, x.dimValue = dim ∧ x.memValue = m.chars ∧ (∃ d, Resolves w dim x.dimHref d) ∧ ∃ d, Resolves w m.chars x.memHref d := by
    intro xs ys hcol hmem
    obtain ⟨x, hx1, a1, a2, a3, a4⟩ := inCollected hcol m hmem hx
    have : x.dimValue = dim := by
      rw [← plainAttr_iff] at a1 hdim
      rw [a1] at hdim
      exact Option.some.inj hdim
    exact ⟨x, hx1, this, a3, this ▸ a2, a4⟩
  rcases hm with ⟨ent2, ents, s, ss, h1, h2, h3⟩ | ⟨s, ss, h1, h3⟩
  · obtain ⟨_, ⟨_, a⟩, _⟩ := hid
    rw [a] at h1
    obtain ⟨rfl, _⟩ := List.cons.inj h1
    rcases hseg with ⟨hn, _⟩ | ⟨s', ss', he', hcol, _⟩
    · rw [hn] at h2; cases h2
    · rw [h2] at he'
      obtain ⟨rfl, _⟩ := List.cons.inj he'
      obtain ⟨x, hx1, hx2⟩ := fin hcol h3
      exact ⟨x, List.mem_append_left _ hx1, hx2⟩
  · rcases hsc with ⟨hn, _⟩ | ⟨s', ss', he', hcol, _⟩
    · rw [hn] at h1; cases h1
    · rw [h1] at he'
      obtain ⟨rfl, _⟩ := List.cons.inj he'
      obtain ⟨x, hx1, hx2⟩ := fin hcol h3
      exact ⟨x, List.mem_append_right _ hx1, hx2⟩
end

end Telefacts
