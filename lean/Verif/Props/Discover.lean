import Verif.Proof.Discover
/-! # C11 - C14: discovery of a folder -/
namespace Telefacts
open Telefacts.Disc Telefacts.Spec
variable {L D : Type}

theorem discover_cases (env : FolderEnv L D) :
    (∃ key inst, ∃ fo : Folder L D, EntryInstance env key inst ∧ env.entryName = some fo.entry ∧
        fo.namespaces = [] ∧ fo.instances = [] ∧ fo.schemas = [] ∧ (∀ k, fo.links k = []) ∧
        (fo.document.isSome = true ↔ Inline fo.entry) ∧
        (∀ fuel sched, discover env fuel sched = withInstance env fuel sched fo key)) ∨
    ((∀ key inst, ¬ EntryInstance env key inst) ∧
      ∃ r, (∀ fuel sched, discover env fuel sched = some r) ∧
      (∀ fo, r = .ok fo → env.entryName = some fo.entry ∧ ¬ Inline fo.entry ∧ ¬ Plain fo.entry ∧
        fo = emptyFolder fo.entry)) := by
  unfold discover
  cases he : env.entryName with
  | none =>
    right
    refine ⟨?_, _, fun _ _ => rfl, ?_⟩
    · rintro key inst ⟨e, h, _⟩; rw [he] at h; cases h
    · intro fo h; cases h
  | some e =>
    by_cases hi : Inline e
    · have hi' := (inline_iff e).1 hi
      have hp : ¬ Plain e := inline_plain hi
      simp only [if_pos hi']
      cases hd : env.readDoc e with
      | none =>
        right
        refine ⟨?_, _, fun _ _ => rfl, ?_⟩
        · rintro key inst ⟨e', h, _, ⟨_, _, ⟨d, h'⟩, _⟩ | ⟨h', _⟩⟩ <;> rw [he] at h <;> cases h
          · rw [hd] at h'; cases h'
          · exact hp h'
        · intro fo h; cases h
      | some d? =>
        cases d? with
        | none =>
          right
          refine ⟨?_, if env.images ≠ [] then .panic else .err "failed to decode IXBRL source document", fun _ _ => ?_, ?_⟩
          · rintro key inst ⟨e', h, _, ⟨_, _, ⟨d, h'⟩, _⟩ | ⟨h', _⟩⟩ <;> rw [he] at h <;> cases h
            · rw [hd] at h'; cases h'
            · exact hp h'
          · by_cases hm : env.images = [] <;> simp [hm]
          · intro fo h; split at h <;> cases h
        | some d =>
          cases hx : env.fileExists (e ++ ".xml") with
          | false =>
            right
            refine ⟨?_, _, fun _ _ => by simp; rfl, ?_⟩
            · rintro key inst ⟨e', h, _, ⟨_, rfl, _, h'⟩ | ⟨h', _⟩⟩ <;> rw [he] at h <;> cases h
              · rw [hx] at h'; cases h'
              · exact hp h'
            · intro fo h; cases h
          | true =>
            simp only [Bool.true_eq_false, if_false]
            cases hr : env.readInstance (e ++ ".xml") with
            | none =>
              right
              refine ⟨?_, .err "cannot read instance", fun _ _ => by simp only [withInstance, hr], ?_⟩
              · rintro key inst ⟨e', h, h', ⟨_, rfl, _⟩ | ⟨h'', _⟩⟩ <;> rw [he] at h <;> cases h
                · rw [hr] at h'; cases h'
                · exact hp h''
              · intro fo h; cases h
            | some inst =>
              left
              refine ⟨_, inst, _, ⟨e, he, hr, .inl ⟨hi, rfl, ⟨d, hd⟩, hx⟩⟩, ?_, ?_, ?_, ?_, ?_, ?_, fun _ _ => rfl⟩
              · rfl
              · rfl
              · rfl
              · rfl
              · intro; rfl
              · simpa [emptyFolder] using hi
    · have hi' := fun h => hi ((inline_iff e).2 h)
      simp only [if_neg hi']
      by_cases hp : Plain e
      · have hp' := (plain_iff e).1 hp
        simp only [if_pos hp']
        cases hr : env.readInstance e with
        | none =>
          right
          refine ⟨?_, .err "cannot read instance", fun _ _ => by simp only [withInstance, hr], ?_⟩
          · rintro key inst ⟨e', h, h', ⟨h'', _⟩ | ⟨_, rfl⟩⟩ <;> rw [he] at h <;> cases h
            · exact hi h''
            · rw [hr] at h'; cases h'
          · intro fo h; cases h
        | some inst =>
          left
          refine ⟨e, inst, _, ⟨e, he, hr, .inr ⟨hp, rfl⟩⟩, ?_, ?_, ?_, ?_, ?_, ?_, fun _ _ => rfl⟩
          · rfl
          · rfl
          · rfl
          · rfl
          · intro; rfl
          · simpa [emptyFolder] using hi
      · have hp' := fun h => hp ((plain_iff e).2 h)
        simp only [if_neg hp']
        right
        refine ⟨?_, _, fun _ _ => rfl, ?_⟩
        · rintro key inst ⟨e', h, _, ⟨h', _⟩ | ⟨h', _⟩⟩ <;> rw [he] at h <;> cases h
          · exact hi h'
          · exact hp h'
        · intro fo h; cases h; exact ⟨rfl, hi, hp, rfl⟩

theorem entryInstance_unique {env : FolderEnv L D} {k k' : String} {i i' : InstanceFile}
    (h : EntryInstance env k i) (h' : EntryInstance env k' i') : k = k' ∧ i = i' := by
  obtain ⟨e, he, hr, h⟩ := h
  obtain ⟨e', he', hr', h'⟩ := h'
  rw [he] at he'; cases he'
  have hd : ¬ (Inline e ∧ Plain e) := fun h => inline_plain h.1 h.2
  rcases h with ⟨h1, rfl, _⟩ | ⟨h1, rfl⟩ <;> rcases h' with ⟨h2, rfl, _⟩ | ⟨h2, rfl⟩
  · rw [hr] at hr'; cases hr'; exact ⟨rfl, rfl⟩
  · exact absurd ⟨h1, h2⟩ hd
  · exact absurd ⟨h2, h1⟩ hd
  · rw [hr] at hr'; cases hr'; exact ⟨rfl, rfl⟩

/-- A run that returns a folder: either the entry type is unknown, or the writes of `schemaRef`, in
some order, were applied to an empty folder. -/
theorem discover_ok {env : FolderEnv L D} {fuel : Nat} {sched : List (Write L) → List (Write L)}
    {fo : Folder L D} (h : discover env fuel sched = some (.ok fo)) :
    (∃ key inst ws fo0, EntryInstance env key inst ∧ schemaRef env fuel inst = some ws ∧
        env.entryName = some fo.entry ∧ fo.instances = [(key, inst)] ∧
        fo0.namespaces = [] ∧ fo0.schemas = [] ∧ (∀ k, fo0.links k = []) ∧
        fo.namespaces = ((sched ws).foldl applyWrite fo0).namespaces ∧
        fo.schemas = ((sched ws).foldl applyWrite (fo0 : Folder L D)).schemas ∧
        fo.links = ((sched ws).foldl applyWrite fo0).links) ∨
    ((∀ key inst, ¬ EntryInstance env key inst) ∧ env.entryName = some fo.entry ∧ ¬ Inline fo.entry ∧
      ¬ Plain fo.entry ∧ fo = emptyFolder fo.entry) := by
  rcases discover_cases env with ⟨key, inst, fo0, hE, h1, h2, h3, h4, h5, h6, h7⟩ | ⟨hE, r, hr, ho⟩
  · left
    rw [h7, withInstance] at h
    obtain ⟨_, _, hread, _⟩ := id hE
    rw [hread] at h
    simp only at h
    split at h
    · cases h
    · rename_i ws hws
      obtain ⟨a1, a2, a3⟩ := applyWrites_rest (sched ws) fo0
      simp only [Option.some.injEq, Res.ok.injEq] at h
      subst h
      refine ⟨key, inst, ws, fo0, hE, hws, ?_, ?_, h2, h4, h5, rfl, rfl, rfl⟩
      · simp only [a1, h1]
      · simp only [a3, h3, mapSet]
  · right
    rw [hr] at h
    simp only [Option.some.injEq] at h
    exact ⟨hE, ho fo h⟩

/-- **C11.** `Discover` returns (with enough steps) iff there is no infinite chain of references from
the instance it reads. -/
theorem C11_terminates_iff (env : FolderEnv L D) (sched : List (Write L) → List (Write L)) :
    (∃ fuel r, discover env fuel sched = some r) ↔
      ∀ key inst, EntryInstance env key inst → ¬ Endless env inst := by
  constructor
  · rintro ⟨fuel, r, h⟩ key inst hE
    rcases discover_cases env with ⟨key', inst', fo0, hE', h1, h2, h3, h4, h5, h6, h7⟩ | ⟨hE', _⟩
    · obtain ⟨rfl, rfl⟩ := entryInstance_unique hE hE'
      rw [h7, withInstance] at h
      obtain ⟨_, _, hread, _⟩ := id hE
      rw [hread] at h
      simp only at h
      split at h
      · cases h
      · rename_i ws hws
        exact schemaRef_terminates_iff.1 ⟨fuel, ws, hws⟩
    · exact absurd hE (hE' key inst)
  · intro h
    rcases discover_cases env with ⟨key, inst, fo0, hE, h1, h2, h3, h4, h5, h6, h7⟩ | ⟨hE', r, hr, _⟩
    · obtain ⟨n, ws, hws⟩ := schemaRef_terminates_iff.2 (h key inst hE)
      obtain ⟨_, _, hread, _⟩ := id hE
      rw [show (∃ fuel r, discover env fuel sched = some r) ↔ ∃ fuel r, withInstance env fuel sched fo0 key = some r by
        simp only [h7]]
      refine ⟨n, ?_⟩
      simp only [withInstance, hread, hws]
      exact ⟨_, rfl⟩
    · exact ⟨0, r, hr 0 sched⟩

/-- **C12.** The folder returned holds exactly the reachable schemas and the linkbases they name. -/
theorem C12_collects_reachable (env : FolderEnv L D) (fuel : Nat)
    (sched : List (Write L) → List (Write L)) (hs : ∀ ws, (sched ws).Perm ws) (fo : Folder L D)
    (h : discover env fuel sched = some (.ok fo)) :
    (∀ loc f, mapGet fo.schemas loc = some f ↔ ∃ key inst, EntryInstance env key inst ∧ Reach env inst loc f) ∧
    (∀ kind href l, mapGet (fo.links kind) href = some l ↔
      (∃ key inst loc f, EntryInstance env key inst ∧ Reach env inst loc f ∧ LinkIn env f kind href) ∧
      env.readLinkbase kind href = some l) ∧
    (∀ n loc, mapGet fo.namespaces n = some loc → ∃ key inst, EntryInstance env key inst ∧ Locates env inst n loc) ∧
    (∀ key inst n loc, EntryInstance env key inst → Locates env inst n loc → ∃ loc', mapGet fo.namespaces n = some loc') := by
  rcases discover_ok h with ⟨key, inst, ws, fo0, hE, hws, _, _, e1, e2, e3, n1, n2, n3⟩ | ⟨hE, _, _, _, he⟩
  · have hm : ∀ w, w ∈ sched ws ↔ w ∈ ws := fun w => (hs ws).mem_iff
    refine ⟨fun loc f => ?_, fun kind href l => ?_, fun n loc hn => ?_, fun key' inst' n loc hE' hl => ?_⟩
    · rw [n2, applyWrites_schemas, e2, foldl_mapSet_iff, mem_schemaPairs, hm, schema_mem_iff hws]
      · constructor
        · intro hr; exact ⟨key, inst, hE, hr⟩
        · rintro ⟨key', inst', hE', hr⟩
          obtain ⟨rfl, rfl⟩ := entryInstance_unique hE hE'; exact hr
      · intro k v v' hv hv'
        rw [mem_schemaPairs, hm, schema_mem_iff hws] at hv hv'
        have := reach_read hv; rw [reach_read hv'] at this; cases this; rfl
    · rw [n3, applyWrites_links, e3, foldl_mapSet_iff, mem_linkPairs, hm, link_mem_iff hws]
      · constructor
        · rintro ⟨⟨loc, f, hr, hl⟩, h2⟩; exact ⟨⟨key, inst, loc, f, hE, hr, hl⟩, h2⟩
        · rintro ⟨⟨key', inst', loc, f, hE', hr, hl⟩, h2⟩
          obtain ⟨rfl, rfl⟩ := entryInstance_unique hE hE'; exact ⟨⟨loc, f, hr, hl⟩, h2⟩
      · intro k v v' hv hv'
        rw [mem_linkPairs, hm, link_mem_iff hws] at hv hv'
        have := hv.2; rw [hv'.2] at this; cases this; rfl
    · rw [n1, applyWrites_ns, e1] at hn
      rcases foldl_mapSet_mem _ _ _ _ hn with hn | hn
      · rw [mem_nsPairs, hm, ns_mem_iff hws] at hn
        exact ⟨key, inst, hE, hn⟩
      · cases hn
    · obtain ⟨rfl, rfl⟩ := entryInstance_unique hE hE'
      rw [n1, applyWrites_ns, e1]
      exact foldl_mapSet_isSome _ _ _ (.inl ⟨loc, by rw [mem_nsPairs, hm, ns_mem_iff hws]; exact hl⟩)
  · refine ⟨fun loc f => ?_, fun kind href l => ?_, fun n loc hn => ?_, fun key' inst' n loc hE' hl => ?_⟩
    · rw [he]; simp [emptyFolder, hE]
    · rw [he]; simp [emptyFolder, hE]
    · rw [he] at hn; simp [emptyFolder] at hn
    · exact absurd hE' (hE _ _)

/-- **C13.** Two runs of discovery of the same folder, with any orders of the locked writes, return the
same error, or folders with the same schemas and linkbases, and the same namespaces if no namespace is
given two locations. -/
theorem C13_schedule_independent (env : FolderEnv L D) (n n' : Nat)
    (s s' : List (Write L) → List (Write L)) (hs : ∀ ws, (s ws).Perm ws) (hs' : ∀ ws, (s' ws).Perm ws)
    (r r' : Res (Folder L D)) (h : discover env n s = some r) (h' : discover env n' s' = some r') :
    match r, r' with
    | .ok fo, .ok fo' =>
      fo.entry = fo'.entry ∧ fo.document = fo'.document ∧ fo.instances = fo'.instances ∧
      SameMap fo.schemas fo'.schemas ∧ (∀ k, SameMap (fo.links k) (fo'.links k)) ∧
      (∀ x, (∃ loc, mapGet fo.namespaces x = some loc) ↔ ∃ loc, mapGet fo'.namespaces x = some loc) ∧
      ((∀ key inst x l l', EntryInstance env key inst → Locates env inst x l → Locates env inst x l' → l = l') →
        SameMap fo.namespaces fo'.namespaces)
    | .err m, .err m' => m = m'
    | .panic, .panic => True
    | _, _ => False := by
  have hshape : (∃ fo fo', r = .ok fo ∧ r' = .ok fo' ∧ fo.document = fo'.document) ∨ (r = r') := by
    rcases discover_cases env with ⟨key, inst, fo0, hE, h1, h2, h3, h4, h5, h6, h7⟩ | ⟨hE, q, hr, ho⟩
    · left
      obtain ⟨_, _, hread, _⟩ := id hE
      rw [h7, withInstance, hread] at h h'
      simp only at h h'
      split at h
      · cases h
      · split at h'
        · cases h'
        · cases h; cases h'
          refine ⟨_, _, rfl, rfl, ?_⟩
          simp only [(applyWrites_rest _ fo0).2.1]
    · right
      rw [hr] at h h'; cases h; cases h'; rfl
  rcases hshape with ⟨fo, fo', rfl, rfl, hdoc⟩ | rfl
  swap
  · cases r with
    | err m => simp
    | panic => trivial
    | ok fo =>
      have hn : SameMap fo.namespaces fo.namespaces ∧ SameMap fo.schemas fo.schemas ∧
        ∀ k, SameMap (fo.links k) (fo.links k) := ⟨fun _ => rfl, fun _ => rfl, fun _ _ => rfl⟩
      simp [hn]
  have c := C12_collects_reachable env n s hs fo h
  have c' := C12_collects_reachable env n' s' hs' fo' h'
  have same : ∀ {V : Type} (m m' : GoMap String V) (P : String → V → Prop),
      (∀ k v, mapGet m k = some v ↔ P k v) → (∀ k v, mapGet m' k = some v ↔ P k v) → SameMap m m' := by
    intro V m m' P h h' k
    cases hk : mapGet m' k with
    | some v => exact (h k v).2 ((h' k v).1 hk)
    | none =>
      cases hk2 : mapGet m k with
      | none => rfl
      | some v => rw [(h' k v).2 ((h k v).1 hk2)] at hk; cases hk
  have hent : fo.entry = fo'.entry ∧ fo.instances = fo'.instances := by
    rcases discover_ok h with ⟨key, inst, ws, fo0, hE, _, a1, a2, _⟩ | ⟨hE, a1, _, _, he⟩ <;>
      rcases discover_ok h' with ⟨key', inst', ws', fo0', hE', _, b1, b2, _⟩ | ⟨hE', b1, _, _, he'⟩
    · obtain ⟨rfl, rfl⟩ := entryInstance_unique hE hE'
      rw [a1] at b1
      exact ⟨Option.some.inj b1, by rw [a2, b2]⟩
    · exact absurd hE (hE' _ _)
    · exact absurd hE' (hE _ _)
    · rw [a1] at b1
      simp only [Option.some.injEq] at b1
      refine ⟨b1, ?_⟩
      rw [he, he']; rfl
  refine ⟨hent.1, hdoc, hent.2, same _ _ _ c.1 c'.1, fun k => same _ _ _ (c.2.1 k) (c'.2.1 k), ?_, ?_⟩
  · intro x
    constructor
    · rintro ⟨loc, hl⟩
      obtain ⟨key, inst, hE, hl⟩ := c.2.2.1 x loc hl
      exact c'.2.2.2 key inst x loc hE hl
    · rintro ⟨loc, hl⟩
      obtain ⟨key, inst, hE, hl⟩ := c'.2.2.1 x loc hl
      exact c.2.2.2 key inst x loc hE hl
  · intro hf
    refine same _ _ (fun x l => ∃ key inst, EntryInstance env key inst ∧ Locates env inst x l) ?_ ?_
    · intro x l
      refine ⟨c.2.2.1 x l, ?_⟩
      rintro ⟨key, inst, hE, hl⟩
      obtain ⟨l', hl'⟩ := c.2.2.2 key inst x l hE hl
      obtain ⟨key', inst', hE', hl''⟩ := c.2.2.1 x l' hl'
      obtain ⟨rfl, rfl⟩ := entryInstance_unique hE hE'
      rw [hl', hf key inst x l l' hE hl hl'']
    · intro x l
      refine ⟨c'.2.2.1 x l, ?_⟩
      rintro ⟨key, inst, hE, hl⟩
      obtain ⟨l', hl'⟩ := c'.2.2.2 key inst x l hE hl
      obtain ⟨key', inst', hE', hl''⟩ := c'.2.2.1 x l' hl'
      obtain ⟨rfl, rfl⟩ := entryInstance_unique hE hE'
      rw [hl', hf key inst x l l' hE hl hl'']

/-- **C14.** A folder returned by `Discover` has exactly one instance if the entry type is known, and
nothing at all otherwise. -/
theorem C14_one_instance (env : FolderEnv L D) (fuel : Nat)
    (sched : List (Write L) → List (Write L)) (fo : Folder L D)
    (h : discover env fuel sched = some (.ok fo)) :
    ∃ e, env.entryName = some e ∧ fo.entry = e ∧
      ((Inline e ∧ ∃ inst, env.readInstance (e ++ ".xml") = some inst ∧ fo.instances = [(e ++ ".xml", inst)]) ∨
       (Plain e ∧ ∃ inst, env.readInstance e = some inst ∧ fo.instances = [(e, inst)]) ∨
       (¬ Inline e ∧ ¬ Plain e ∧ fo.instances = [] ∧ fo.schemas = [] ∧ fo.namespaces = [])) := by
  rcases discover_ok h with ⟨key, inst, ws, fo0, ⟨e, he, hr, hk⟩, _, a1, a2, _⟩ | ⟨hE, a1, hi, hp, he⟩
  · rw [he] at a1; cases a1
    refine ⟨_, he, rfl, ?_⟩
    rcases hk with ⟨hi, rfl, _⟩ | ⟨hp, rfl⟩
    · exact .inl ⟨hi, inst, hr, a2⟩
    · exact .inr (.inl ⟨hp, inst, hr, a2⟩)
  · refine ⟨_, a1, rfl, .inr (.inr ⟨hi, hp, ?_⟩)⟩
    rw [he]; exact ⟨rfl, rfl, rfl⟩

/-! ## Cases -/

/-- A folder with instance `i.xml`, schema `a.xsd` importing `b.xsd` (which names a linkbase), and a
schema `c.xsd` that includes itself. -/
def exItem (space : String) (kv : List (String × String)) : Item :=
  ⟨space, kv.map fun p => ⟨⟨XLINK, p.1⟩, p.2⟩⟩
def exB : SchemaFile :=
  { attrs := [], incl := [], imp := [], rest := 1,
    annotation := [⟨XSD, [⟨XSD, [exItem LINK [("arcrole", LINKARCROLE), ("type", "simple"),
      ("role", LKind.pre.role), ("href", "p.xml")]]⟩]⟩] }
def exA : SchemaFile :=
  { attrs := [⟨⟨"", "targetNamespace"⟩, "urn:a"⟩], incl := [], rest := 0, annotation := [],
    imp := [exItem XSD [("namespace", "urn:b"), ("schemaLocation", "b.xsd")]] }
def exC : SchemaFile :=
  { attrs := [⟨⟨"", "targetNamespace"⟩, "urn:c"⟩], imp := [], rest := 0, annotation := [],
    incl := [exItem XSD [("schemaLocation", "c.xsd")]] }
def exEnv (start : String) : FolderEnv Nat Nat :=
  { entryName := some "i.xml", images := [], readDoc := fun _ => none, transform := fun d _ => d,
    fileExists := fun _ => true, isUrl := fun _ => false,
    readInstance := fun k => if k = "i.xml" then some ⟨[exItem LINK [("href", start)]], 0⟩ else none,
    readSchema := fun k => if k = "a.xsd" then some exA else if k = "b.xsd" then some exB
      else if k = "c.xsd" then some exC else none,
    readLinkbase := fun _ k => if k = "p.xml" then some 7 else none }

/-- The hypotheses of C12 and C14 are met by a run that finds two schemas, a linkbase and two
namespaces. -/
example : ∃ fo, discover (exEnv "a.xsd") 2 List.reverse = some (.ok fo) ∧
    fo.schemas = [("a.xsd", exA), ("b.xsd", exB)] ∧ fo.links .pre = [("p.xml", 7)] ∧
    fo.links .lab = [] ∧ fo.instances.length = 1 ∧
    fo.namespaces = [("urn:b", "b.xsd"), ("urn:a", "a.xsd")] := by
  refine ⟨_, rfl, ?_⟩
  decide

example (ws : List (Write Nat)) : ws.reverse.Perm ws := List.reverse_perm ws

/-- C11: a schema that includes itself is an endless chain, so discovery never returns. -/
example (sched : List (Write Nat) → List (Write Nat)) :
    ¬ ∃ fuel r, discover (exEnv "c.xsd") fuel sched = some r := by
  rw [C11_terminates_iff]
  intro h
  refine h "i.xml" _ ⟨"i.xml", rfl, rfl, .inr ⟨(Disc.plain_iff _).2 (by decide), rfl⟩⟩ ?_
  have hi : IncludeTo (exEnv "c.xsd") (exItem XSD [("schemaLocation", "c.xsd")]) "urn:c" "c.xsd" exC :=
    ⟨rfl, (attrVal_iff _ _ _).2 ⟨_, rfl, rfl⟩, ⟨by decide, rfl, rfl⟩, (attrVal_iff _ _ _).2 ⟨_, rfl, rfl⟩, by decide⟩
  refine ⟨fun _ => ("c.xsd", exC), ?_, fun _ => ?_⟩
  · exact ⟨_, List.mem_singleton.2 rfl, "urn:c", rfl, (attrVal_iff _ _ _).2 ⟨_, rfl, rfl⟩, hi.2.2⟩
  · exact .inr ⟨_, List.mem_singleton.2 rfl, "urn:c", hi⟩

end Telefacts
