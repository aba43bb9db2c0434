import Verif.Proof.Ways
/-! # How often discovery reads a schema file (C162) -/
namespace Telefacts
open Telefacts.Disc Telefacts.Spec
variable {L D : Type}

/-- **C162.** Discovery reads and stores a schema file once for every way that leads to it. -/
theorem C162_loads {env : FolderEnv L D} {n : Nat} {inst : InstanceFile} {ws : List (Write L)}
    (h : schemaRef env n inst = some ws) :
    Lists (fun w r => Way env inst w r.1 r.2) (schemaPairs ws) := schemaRef_lists h

theorem nodup_short {α : Type} {l : List α} (h : l.Nodup) : l.length ≤ 1 ↔ ∀ a ∈ l, ∀ b ∈ l, a = b := by
  match l with
  | [] => simp
  | [a] => simp
  | a :: b :: l =>
    have : a ≠ b := fun e => by subst e; simp at h
    constructor
    · intro h; simp at h
    · intro h'
      exact absurd (h' a (by simp) b (by simp)) this

theorem lists_count {κ : Type} {R : κ → String × SchemaFile → Prop} {l : List (String × SchemaFile)} (h : Lists R l)
    (loc : String) : (l.map Prod.fst).count loc ≤ 1 ↔
      ∀ c c' f f', R c (loc, f) → R c' (loc, f') → c = c' ∧ f = f' := by
  obtain ⟨qs, rfl, h2, h3⟩ := h
  have e : ((qs.map Prod.snd).map Prod.fst).count loc = (qs.filter fun p => p.2.1 = loc).length := by
    rw [List.map_map, List.count, List.countP_map, List.countP_eq_length_filter]
    congr 1
  rw [e, nodup_short ((List.Nodup.of_map _ h2).filter _)]
  constructor
  · intro h c c' f f' h1 h1'
    have := h (c, loc, f) (by simp [h3, h1]) (c', loc, f') (by simp [h3, h1'])
    simp only [Prod.mk.injEq] at this
    exact ⟨this.1, this.2.2⟩
  · rintro h ⟨c, l1, f⟩ h1 ⟨c', l2, f'⟩ h2
    simp only [List.mem_filter, h3, decide_eq_true_eq] at h1 h2
    obtain ⟨h1, rfl⟩ := h1
    obtain ⟨h2, rfl⟩ := h2
    obtain ⟨rfl, rfl⟩ := h c c' f f' h1 h2
    rfl

theorem way_read {env : FolderEnv L D} {inst : InstanceFile} {w : Nat × List Hop} {loc : String} {f : SchemaFile}
    (h : Way env inst w loc f) : env.readSchema loc = some f := by
  obtain ⟨i, _, t, loc0, f0, ht, ⟨_, rfl, rfl⟩ | h⟩ := h
  · exact ht.2.2.1.2.2
  · clear ht
    have one : ∀ {f s loc g}, Leads env f s loc g → env.readSchema loc = some g := by
      intro f s loc g h
      cases s with
      | imp k => obtain ⟨_, _, _, _, h⟩ := h; exact h.2.2
      | incl k => obtain ⟨_, _, _, h⟩ := h; exact h.2.2.1.2.2
    generalize w.2 = q at h
    induction h with
    | one h => exact one h
    | more _ _ ih => exact ih

/-- **C162.** Exactly when a file is not read twice: there are no two ways to it. -/
theorem C162_exact {env : FolderEnv L D} {n : Nat} {inst : InstanceFile} {ws : List (Write L)}
    (h : schemaRef env n inst = some ws) (loc : String) :
    ((schemaPairs ws).map Prod.fst).count loc ≤ 1 ↔
      ∀ w w' f f', Way env inst w loc f → Way env inst w' loc f' → w = w' := by
  rw [lists_count (schemaRef_lists h)]
  constructor
  · intro h w w' f f' h1 h2
    exact (h w w' f f' h1 h2).1
  · intro h w w' f f' h1 h2
    refine ⟨h w w' f f' h1 h2, ?_⟩
    have := (way_read h1).symm.trans (way_read h2)
    simpa using this

/-- A file `d` steps above the last one. -/
def twiceName (d : Nat) : String := String.ofList (List.replicate (d + 1) 'a')

/-- The file `d` imports the next one twice. -/
def twiceFile : Nat → SchemaFile
  | 0 => ⟨[⟨⟨"", "targetNamespace"⟩, "urn:0"⟩], [], [], [], 0⟩
  | d + 1 =>
    let i : Item := ⟨"http://www.w3.org/2001/XMLSchema",
      [⟨⟨"", "namespace"⟩, "urn:0"⟩, ⟨⟨"", "schemaLocation"⟩, twiceName d⟩]⟩
    ⟨[⟨⟨"", "targetNamespace"⟩, "urn:0"⟩], [], [i, i], [], d + 1⟩

def twiceEnv : FolderEnv Nat Nat where
  entryName := some "i.xml"
  images := []
  readDoc := fun _ => none
  transform := fun d _ => d
  fileExists := fun _ => true
  readInstance := fun _ => none
  isUrl := fun _ => false
  readSchema := fun s => match s.toList.length with | 0 => none | k + 1 => some (twiceFile k)
  readLinkbase := fun _ _ => none

def twiceInst (n : Nat) : InstanceFile :=
  ⟨[⟨"http://www.xbrl.org/2003/linkbase", [⟨⟨"http://www.w3.org/1999/xlink", "href"⟩, twiceName n⟩]⟩], 0⟩

theorem twice_read (d : Nat) : twiceEnv.readSchema (twiceName d) = some (twiceFile d) := by
  simp [twiceEnv, twiceName]

theorem twiceName_ne (d : Nat) : twiceName d ≠ "" := by
  intro h
  have := congrArg (fun s => s.toList.length) h
  simp [twiceName] at this

theorem twice_import (d : Nat) : ∀ i ∈ (twiceFile (d + 1)).imp,
    visitImport twiceEnv i = ⟨[("urn:0", twiceName d)], some (twiceName d, twiceFile d)⟩ := by
  intro i hi
  have hi : i = ⟨"http://www.w3.org/2001/XMLSchema",
      [⟨⟨"", "namespace"⟩, "urn:0"⟩, ⟨⟨"", "schemaLocation"⟩, twiceName d⟩]⟩ := by
    simpa [twiceFile] using hi
  subst hi
  unfold visitImport
  have h1 : ∀ v, findAttr [⟨⟨"", "namespace"⟩, "urn:0"⟩, ⟨⟨"", "schemaLocation"⟩, v⟩] "namespace" =
      some ⟨⟨"", "namespace"⟩, "urn:0"⟩ := fun v => rfl
  have h2 : ∀ v, findAttr [⟨⟨"", "namespace"⟩, "urn:0"⟩, ⟨⟨"", "schemaLocation"⟩, v⟩] "schemaLocation" =
      some ⟨⟨"", "schemaLocation"⟩, v⟩ := fun v => rfl
  have h3 : twiceEnv.isUrl (twiceName d) = false := rfl
  rw [if_neg (fun h => h rfl), h1, h2]
  simp only
  rw [if_neg (by decide), if_neg (twiceName_ne d), h3, twice_read]
  rfl

theorem twice_search : ∀ d, ∃ ws, searchSchema twiceEnv (d + 1) (twiceFile d) = some ws ∧
    (schemaPairs ws).length + 2 = 2 ^ (d + 1) := by
  intro d
  induction d with
  | zero => exact ⟨[], rfl, rfl⟩
  | succ d ih =>
    obtain ⟨ws, h, hl⟩ := ih
    have hi : ∀ i ∈ (twiceFile (d + 1)).imp, ∃ v, finishVisit twiceEnv (visitImport twiceEnv i)
        (searchSchema twiceEnv (d + 1)) = some v ∧ (schemaPairs v).length = (schemaPairs ws).length + 1 ∧
        finishVisit twiceEnv (visitImport twiceEnv i) (searchSchema twiceEnv (d + 1)) =
        finishVisit twiceEnv ⟨[("urn:0", twiceName d)], some (twiceName d, twiceFile d)⟩ (searchSchema twiceEnv (d + 1)) := by
      intro i hi
      rw [twice_import d i hi]
      rw [finishVisit]
      simp only [h]
      refine ⟨_, rfl, ?_, trivial⟩
      rw [schemaPairs_append, schemaPairs_append, schemaPairs_append, schemaPairs_ns, schemaPairs_linkbases]
      simp [schemaPairs]
    have e : (twiceFile (d + 1)).incl = [] := rfl
    rw [searchSchema, e]
    generalize hx : (twiceFile (d + 1)).imp = xs at hi
    have hx2 : xs.length = 2 := by rw [← hx]; rfl
    match xs, hx2 with
    | [x, y], _ =>
      obtain ⟨v, h1, h2, _⟩ := hi x (by simp)
      obtain ⟨v', h1', h2', _⟩ := hi y (by simp)
      refine ⟨v ++ (v' ++ []) ++ [], ?_, ?_⟩
      · simp only [collect, h1, h1']
      · simp only [List.append_nil, schemaPairs_append, List.length_append, h2, h2']
        omega

theorem twice_ref (n : Nat) : ∀ i ∈ (twiceInst n).schemaRef,
    visitRef twiceEnv i = ⟨[("urn:0", twiceName n)], some (twiceName n, twiceFile n)⟩ := by
  intro i hi
  have hi : i = ⟨"http://www.xbrl.org/2003/linkbase", [⟨⟨"http://www.w3.org/1999/xlink", "href"⟩, twiceName n⟩]⟩ := by
    simpa [twiceInst] using hi
  subst hi
  unfold visitRef
  have h1 : ∀ v, findAttr [⟨⟨"http://www.w3.org/1999/xlink", "href"⟩, v⟩] "href" =
      some ⟨⟨"http://www.w3.org/1999/xlink", "href"⟩, v⟩ := fun v => rfl
  have h3 : twiceEnv.isUrl (twiceName n) = false := rfl
  have h4 : findAttr (twiceFile n).attrs "targetNamespace" = some ⟨⟨"", "targetNamespace"⟩, "urn:0"⟩ := by
    cases n <;> rfl
  rw [if_neg (fun h => h rfl), h1]
  simp only
  rw [if_neg (twiceName_ne n), h3, twice_read]
  simp only [h4]
  rw [if_neg (by decide), if_neg (by decide)]

theorem twice_reach (n : Nat) {loc : String} {f : SchemaFile} (h : Reach twiceEnv (twiceInst n) loc f) :
    ∃ d ≤ n, loc = twiceName d ∧ f = twiceFile d := by
  induction h with
  | root loc f h =>
    obtain ⟨i, hi, h⟩ := h
    have h := (visitRef_next twiceEnv i loc f).2 h
    rw [twice_ref n i hi] at h
    simp only [Option.some.injEq, Prod.mk.injEq] at h
    exact ⟨n, le_refl _, h.1.symm, h.2.symm⟩
  | child loc f loc' g _ h ih =>
    obtain ⟨d, hd, rfl, rfl⟩ := ih
    rcases h with ⟨i, hi, h⟩ | ⟨i, hi, _⟩
    · cases d with
      | zero => cases hi
      | succ d =>
        have h := (visitImport_next twiceEnv i loc' g).2 h
        rw [twice_import d i hi] at h
        simp only [Option.some.injEq, Prod.mk.injEq] at h
        exact ⟨d, by omega, h.1.symm, h.2.symm⟩
    · cases d <;> cases hi

/-- The claim is false, and the number of reads has no bound below exponential: for every `n` there is a
folder with `n + 1` schema files for which discovery reads `2 ^ (n + 1) - 1` of them. -/
theorem C162_fails (n : Nat) : ∃ (env : FolderEnv Nat Nat) (inst : InstanceFile) (names : List String)
    (ws : List (Write Nat)), names.length = n + 1 ∧ (∀ loc f, Reach env inst loc f → loc ∈ names) ∧
    schemaRef env (n + 1) inst = some ws ∧ (schemaPairs ws).length = 2 ^ (n + 1) - 1 := by
  obtain ⟨ws, h, hl⟩ := twice_search n
  have hx : (twiceInst n).schemaRef.length = 1 := rfl
  have hr := twice_ref n
  generalize hxs : (twiceInst n).schemaRef = xs at hx hr
  match xs, hx with
  | [x], _ =>
    have e : finishVisit twiceEnv (visitRef twiceEnv x) (searchSchema twiceEnv (n + 1)) =
        some (([("urn:0", twiceName n)].map fun p => Write.ns p.1 p.2) ++ ws ++
          linkbaseRefSchema twiceEnv (twiceFile n) ++ [.schema (twiceName n) (twiceFile n)]) := by
      rw [hr x (by simp)]
      simp only [finishVisit, h]
    refine ⟨twiceEnv, twiceInst n, (List.range (n + 1)).map twiceName,
      (([("urn:0", twiceName n)].map fun p => Write.ns p.1 p.2) ++ ws ++
        linkbaseRefSchema twiceEnv (twiceFile n) ++ [.schema (twiceName n) (twiceFile n)]) ++ [], by simp, ?_, ?_, ?_⟩
    · intro loc f h
      obtain ⟨d, hd, rfl, _⟩ := twice_reach n h
      exact List.mem_map.2 ⟨d, List.mem_range.2 (by omega), rfl⟩
    · unfold schemaRef
      rw [hxs]
      simp only [collect, e]
    · rw [List.append_nil, schemaPairs_append, schemaPairs_append, schemaPairs_append, schemaPairs_ns,
        schemaPairs_linkbases]
      have : schemaPairs [(Write.schema (twiceName n) (twiceFile n) : Write Nat)] = [(twiceName n, twiceFile n)] := rfl
      rw [this]
      simp only [List.nil_append, List.append_nil, List.length_append, List.length_singleton]
      omega

/-- With 30 schema files there are more than a thousand million reads. -/
example : ∃ (env : FolderEnv Nat Nat) (inst : InstanceFile) (names : List String) (ws : List (Write Nat)),
    names.length = 30 ∧ (∀ loc f, Reach env inst loc f → loc ∈ names) ∧ schemaRef env 30 inst = some ws ∧
    (schemaPairs ws).length = 1073741823 := C162_fails 29

/-- What holds: if every schema file is referred to once, each is read once. Missing: files with several
references to them, see `C162_exact`. -/
theorem C162_once_partial {env : FolderEnv L D} {n : Nat} {inst : InstanceFile} {ws : List (Write L)}
    (h : schemaRef env n inst = some ws)
    (hw : ∀ w w' loc f f', Way env inst w loc f → Way env inst w' loc f' → w = w') :
    ((schemaPairs ws).map Prod.fst).Nodup ∧ ∀ loc f, (loc, f) ∈ schemaPairs ws ↔ Reach env inst loc f := by
  refine ⟨List.nodup_iff_count_le_one.2 fun loc => (C162_exact h loc).2 fun w w' f f' => hw w w' loc f f', ?_⟩
  intro loc f
  rw [mem_schemaPairs, schema_mem_iff h]

/-- A folder with one schema file meets the hypotheses. -/
example : ∃ ws, schemaRef twiceEnv 1 (twiceInst 0) = some ws ∧
    ∀ w w' loc f f', Way twiceEnv (twiceInst 0) w loc f → Way twiceEnv (twiceInst 0) w' loc f' → w = w' := by
  refine ⟨_, rfl, ?_⟩
  have key : ∀ w loc f, Way twiceEnv (twiceInst 0) w loc f → w = (0, []) := by
    rintro ⟨k, q⟩ loc f ⟨i, hi, t, loc0, f0, ht, hq⟩
    have hk : k = 0 := by
      cases k with
      | zero => rfl
      | succ k => simp [twiceInst] at hi
    subst hk
    have h := (visitRef_next twiceEnv i loc0 f0).2 ⟨t, ht⟩
    rw [twice_ref 0 i (List.mem_of_getElem? hi)] at h
    simp only [Option.some.injEq, Prod.mk.injEq] at h
    obtain ⟨_, rfl⟩ := h
    rcases hq with ⟨rfl, _⟩ | hq
    · rfl
    · exfalso
      cases q with
      | nil => exact hq.ne_nil rfl
      | cons s q =>
        obtain ⟨_, _, hl, _⟩ := hops_cons.1 hq
        cases s with
        | imp k => obtain ⟨_, h, _⟩ := hl; simp [twiceFile] at h
        | incl k => obtain ⟨_, h, _⟩ := hl; simp [twiceFile] at h
  intro w w' loc f f' h h'
  rw [key w loc f h, key w' loc f' h']

end Telefacts
