import Verif.Proof.Threads
import Verif.Spec.Goroutines
/-!
# C174, C175: shared memory
-/
namespace Telefacts
open Telefacts.Threads Telefacts.Disc Telefacts.Document Telefacts.Ixbrl Telefacts.Spec

namespace Threads
variable {A M : Type}

/-- Accesses that are all done under one mutex do not race. -/
theorem safe_of_locked {cf : A → A → Prop} (P : A → Prop) (m : M) (hcf : ∀ a b, cf a b → P a ∧ P b)
    {p : Prog A M} (h : ∀ x ∈ guarded p, P x.1 → x.2 = some m) : ¬ Unsafe cf p := by
  induction p with
  | done => exact fun x => x
  | act a k ih => exact ih fun x hx => h x (List.mem_cons_of_mem _ hx)
  | crit n as k ih => exact ih fun x hx => h x (List.mem_append_right _ hx)
  | par p q k ihp ihq ihk =>
    simp only [guarded, List.mem_append] at h
    rintro (⟨x, hx, y, hy, hc, hm⟩ | hu | hu | hu)
    · have := hcf _ _ hc
      exact hm ⟨m, h x (.inl (.inl hx)) this.1, h y (.inl (.inr hy)) this.2⟩
    · exact ihp (fun x hx => h x (.inl (.inl hx))) hu
    · exact ihq (fun x hx => h x (.inl (.inr hx))) hu
    · exact ihk (fun x hx => h x (.inr hx)) hu

theorem guarded_all (ps : List (Prog A M)) : guarded (.all ps) = ps.flatMap guarded := by
  induction ps with
  | nil => rfl
  | cons p ps ih => simp [Prog.all, guarded, ih]

theorem guarded_acts (as : List A) (k : Prog A M) :
    guarded (.acts as k) = as.map (fun a => (a, none)) ++ guarded k := by
  induction as with
  | nil => rfl
  | cons a as ih => simp [Prog.acts, guarded, ih]

theorem unsafe_acts (cf : A → A → Prop) (as : List A) (k : Prog A M) :
    Unsafe cf (.acts as k) ↔ Unsafe cf k := by
  induction as with
  | nil => rfl
  | cons a as ih => exact ih

/-- Goroutines started in a loop race if one of them has a race of its own or two of them clash. -/
theorem unsafe_all (cf : A → A → Prop) (ps : List (Prog A M)) :
    Unsafe cf (.all ps) ↔ (∃ p ∈ ps, Unsafe cf p) ∨
      ¬ ps.Pairwise (fun p q => ¬ ∃ x ∈ guarded p, ∃ y ∈ guarded q, Clash cf x y) := by
  induction ps with
  | nil => simp [Prog.all, Unsafe]
  | cons p ps ih =>
    simp only [Prog.all, Unsafe, ih, List.pairwise_cons, guarded_all]
    constructor
    · rintro (⟨x, hx, y, hy, hc⟩ | h | (⟨q, hq, h⟩ | h) | h)
      · obtain ⟨q, hq, hy⟩ := List.mem_flatMap.1 hy
        exact .inr fun hh => hh.1 q hq ⟨x, hx, y, hy, hc⟩
      · exact .inl ⟨p, by simp, h⟩
      · exact .inl ⟨q, List.mem_cons_of_mem _ hq, h⟩
      · exact .inr fun hh => h hh.2
      · exact h.elim
    · rintro (⟨q, hq, h⟩ | h)
      · rcases List.mem_cons.1 hq with rfl | hq
        · exact .inr (.inl h)
        · exact .inr (.inr (.inl (.inl ⟨q, hq, h⟩)))
      · by_cases hp : ps.Pairwise (fun p q => ¬ ∃ x ∈ guarded p, ∃ y ∈ guarded q, Clash cf x y)
        · left
          refine Classical.byContradiction fun hn => h ⟨fun q hq => ?_, hp⟩
          rintro ⟨x, hx, y, hy, hc⟩
          exact hn ⟨x, hx, y, List.mem_flatMap.2 ⟨q, hq, hy⟩, hc⟩
        · exact .inr (.inr (.inl (.inr hp)))

/-! ## Discovery -/

variable {L D : Type}

theorem guarded_locked (ws : List (Disc.Write L)) (k : Prog (Disc.Write L) Unit) :
    guarded (locked ws k) = ws.map (fun w => (w, some ())) ++ guarded k := by
  induction ws with
  | nil => rfl
  | cons w ws ih => simp [locked, guarded, ih]

theorem flatMap_same {α β : Type} {f g : α → List β} (l : List α) (h : ∀ a, f a = g a) :
    l.flatMap f = l.flatMap g := by rw [funext h]

theorem linkbase_writes (env : FolderEnv L D) (f : Disc.SchemaFile) :
    guarded (linkbaseThreads env f) = (Disc.linkbaseRefSchema env f).map (fun w => (w, some ())) := by
  unfold linkbaseThreads Disc.linkbaseRefSchema
  rw [guarded_all, List.flatMap_assoc, List.map_flatMap]
  refine flatMap_same _ fun ann => ?_
  split
  · rfl
  · rw [List.flatMap_assoc, List.map_flatMap]
    refine flatMap_same _ fun app => ?_
    split
    · rfl
    · rw [List.flatMap_map, List.map_flatMap]
      exact flatMap_same _ fun item => by simp [guarded_locked, guarded]

/-- The writes of a goroutine are all locked. -/
def AllLocked (p : Prog (Disc.Write L) Unit) : Prop := ∀ x ∈ guarded p, x.2 = some ()

theorem visit_locked (env : FolderEnv L D) (v : Disc.Visit) (sub : Disc.SchemaFile → Prog (Disc.Write L) Unit)
    (h : ∀ f, AllLocked (sub f)) : AllLocked (visitThread env v sub) := by
  intro x hx
  unfold visitThread at hx
  rw [guarded_locked] at hx
  rcases List.mem_append.1 hx with hx | hx
  · obtain ⟨w, _, rfl⟩ := List.mem_map.1 hx; rfl
  · cases hv : v.next with
    | none => rw [hv] at hx; cases hx
    | some hf =>
      obtain ⟨href, f⟩ := hf
      rw [hv] at hx
      simp only [guarded, linkbase_writes, List.mem_append] at hx
      rcases hx with (hx | hx) | hx
      · exact h f x hx
      · obtain ⟨w, _, rfl⟩ := List.mem_map.1 hx; rfl
      · simp at hx; rw [hx]

theorem search_locked (env : FolderEnv L D) (n : Nat) (f : Disc.SchemaFile) : AllLocked (searchThreads env n f) := by
  induction n generalizing f with
  | zero => intro x hx; cases hx
  | succ n ih =>
    intro x hx
    simp only [searchThreads, guarded, guarded_all, List.mem_append, List.mem_flatMap, List.mem_map] at hx
    rcases hx with (⟨p, ⟨i, _, rfl⟩, hx⟩ | ⟨p, ⟨i, _, rfl⟩, hx⟩) | hx
    · exact visit_locked env _ _ ih x hx
    · exact visit_locked env _ _ ih x hx
    · cases hx

theorem schemaRef_locked (env : FolderEnv L D) (n : Nat) (inst : Disc.InstanceFile) :
    AllLocked (schemaRefThreads env n inst) := by
  intro x hx
  simp only [schemaRefThreads, guarded_all, List.mem_flatMap, List.mem_map] at hx
  obtain ⟨p, ⟨i, _, rfl⟩, hx⟩ := hx
  exact visit_locked env _ _ (search_locked env n) x hx

/-- The writes of a goroutine are the writes of the model of discovery. -/
theorem visit_writes (env : FolderEnv L D) (v : Disc.Visit) (sub : Disc.SchemaFile → Prog (Disc.Write L) Unit)
    (sub' : Disc.SchemaFile → Option (List (Disc.Write L)))
    (h : ∀ f ws, sub' f = some ws → (guarded (sub f)).map Prod.fst = ws) (ws : List (Disc.Write L))
    (hw : Disc.finishVisit env v sub' = some ws) : (guarded (visitThread env v sub)).map Prod.fst = ws := by
  unfold Disc.finishVisit at hw
  unfold visitThread
  rw [guarded_locked]
  cases hv : v.next with
  | none => rw [hv] at hw; cases hw; simp [guarded, Function.comp_def]
  | some hf =>
    obtain ⟨href, f⟩ := hf
    rw [hv] at hw
    cases hs : sub' f with
    | none => simp [hs] at hw
    | some us =>
      simp only [hs, Option.some.injEq] at hw
      subst hw
      have := h f us hs
      simp [guarded, linkbase_writes, this, Function.comp_def]

theorem collect_writes {α : Type} (thread : α → Prog (Disc.Write L) Unit) (f : α → Option (List (Disc.Write L)))
    (l : List α) (h : ∀ a ∈ l, ∀ ws, f a = some ws → (guarded (thread a)).map Prod.fst = ws)
    (ws : List (Disc.Write L)) (hw : Disc.collect f l = some ws) :
    (guarded (.all (l.map thread))).map Prod.fst = ws := by
  induction l generalizing ws with
  | nil => cases hw; rfl
  | cons a l ih =>
    simp only [Disc.collect] at hw
    cases ha : f a with
    | none => simp [ha] at hw
    | some us =>
      cases hl : Disc.collect f l with
      | none => simp [ha, hl] at hw
      | some vs =>
        simp only [ha, hl, Option.some.injEq] at hw
        subst hw
        have h1 := h a (by simp) us ha
        have h2 := ih (fun b hb => h b (List.mem_cons_of_mem _ hb)) vs hl
        simp [Prog.all, guarded, h1, h2]

theorem search_writes (env : FolderEnv L D) (n : Nat) (f : Disc.SchemaFile) (ws : List (Disc.Write L))
    (hw : Disc.searchSchema env n f = some ws) : (guarded (searchThreads env n f)).map Prod.fst = ws := by
  induction n generalizing f ws with
  | zero => cases hw
  | succ n ih =>
    simp only [Disc.searchSchema] at hw
    cases h1 : Disc.collect (fun i => Disc.finishVisit env (Disc.visitImport env i) (Disc.searchSchema env n)) f.imp with
    | none => simp [h1] at hw
    | some us =>
      cases h2 : Disc.collect (fun i => Disc.finishVisit env (Disc.visitInclude env i) (Disc.searchSchema env n)) f.incl with
      | none => simp [h1, h2] at hw
      | some vs =>
        simp only [h1, h2, Option.some.injEq] at hw
        subst hw
        have e1 := collect_writes
          (fun i => visitThread env (Disc.visitImport env i) (searchThreads env n)) _ f.imp
          (fun a _ ws h => visit_writes env _ _ _ ih ws h) us h1
        have e2 := collect_writes
          (fun i => visitThread env (Disc.visitInclude env i) (searchThreads env n)) _ f.incl
          (fun a _ ws h => visit_writes env _ _ _ ih ws h) vs h2
        simp [searchThreads, guarded, e1, e2]

theorem schemaRef_writes (env : FolderEnv L D) (n : Nat) (inst : Disc.InstanceFile) (ws : List (Disc.Write L))
    (hw : Disc.schemaRef env n inst = some ws) : (guarded (schemaRefThreads env n inst)).map Prod.fst = ws :=
  collect_writes _ _ inst.schemaRef (fun _ _ ws h => visit_writes env _ _ _ (search_writes env n) ws h) ws hw

end Threads

/-- C174 (1): while a folder is discovered, no two goroutines write a map of the folder at the same time,
whatever the files are and however deep the search has got. -/
theorem C174_discover_maps {L D : Type} (env : FolderEnv L D) (depth : Nat) (inst : Disc.InstanceFile) :
    ¬ Racy SameMap (schemaRefThreads env depth inst) := by
  rw [racy_iff]
  exact safe_of_locked (fun _ => True) () (fun _ _ _ => ⟨trivial, trivial⟩)
    (fun x hx _ => schemaRef_locked env depth inst x hx)

/-- C174 (2): and the goroutines can always run to the end; when they are done, each of the writes that discovery
calls for has been done once, in some order — which is what the model of discovery assumes. -/
theorem C174_discover_refines {L D : Type} (env : FolderEnv L D) (fuel : Nat) (inst : Disc.InstanceFile)
    (ws : List (Disc.Write L)) (h : Disc.schemaRef env fuel inst = some ws) :
    NeverStuck (schemaRefThreads env fuel inst) ∧
    ∀ t c, Runs (schemaRefThreads env fuel inst) t c → Finished c → t.Perm ws := by
  refine ⟨never_stuck _, ?_⟩
  rintro t c hr rfl
  rw [← schemaRef_writes env fuel inst ws h]
  exact runs_perm hr

namespace Threads

/-! ## Inline documents -/

theorem factMap_locked (f : InlineFact) (x : Use IxVar × Option Unit) (hx : x ∈ guarded (factMapThread f)) :
    x = (writes .factMap, some ()) := by
  unfold factMapThread at hx
  split at hx
  · cases hx
  · split at hx
    · cases hx
    · simpa [guarded] using hx

theorem facts_safe (cf : Use IxVar → Use IxVar → Prop) (l l' : List InlineFact) (k : Prog (Use IxVar) Unit)
    (hk : ¬ Unsafe cf k) :
    ¬ Unsafe cf (.par (.all (l.map factMapThread)) (.all (l'.map factMapThread)) k) := by
  have : ¬ Unsafe cf (.par (.all (l.map factMapThread)) (.all (l'.map factMapThread)) .done) := by
    refine safe_of_locked (fun _ => True) () (fun _ _ _ => ⟨trivial, trivial⟩) ?_
    intro x hx _
    simp only [guarded, guarded_all, List.mem_append, List.mem_flatMap, List.mem_map] at hx
    rcases hx with (⟨p, ⟨f, _, rfl⟩, hx⟩ | ⟨p, ⟨f, _, rfl⟩, hx⟩) | hx
    · rw [factMap_locked f x hx]
    · rw [factMap_locked f x hx]
    · cases hx
  rintro (h | h | h | h)
  · exact this (.inl h)
  · exact this (.inr (.inl h))
  · exact this (.inr (.inr (.inl h)))
  · exact hk h

theorem decode_tail_safe (cf : Use IxVar → Use IxVar → Prop) (ds : List Dom) :
    ¬ Unsafe cf (match html ds with
      | none => (.done : Prog (Use IxVar) Unit)
      | some _ => .par (.all ((inlines "nonFraction" ds).map factMapThread))
          (.all ((inlines "nonNumeric" ds).map factMapThread)) (.act (reads .factMap) .done)) := by
  cases html ds with
  | none => exact fun h => h
  | some _ => exact facts_safe cf _ _ _ (fun h => h)

theorem decode_unsafe_iff (ds : List Dom) (v : IxVar) :
    Unsafe (ConflictOn (· = v)) (decodeThreads ds) ↔ v = .goErr ∨ v = .err := by
  have ht := decode_tail_safe (ConflictOn (· = v)) ds
  unfold decodeThreads
  constructor
  · rintro (⟨x, _, y, hy, _⟩ | h | h | h)
    · cases hy
    · rw [unsafe_all] at h
      rcases h with ⟨p, hp, h⟩ | h
      · simp only [List.mem_cons, List.not_mem_nil, or_false] at hp
        rcases hp with rfl | rfl | rfl | rfl | rfl | rfl | rfl | rfl <;>
          simp [queryHtml, queryGoErr, queryErr, unsafe_acts, Unsafe] at h
      · refine Classical.byContradiction fun hv => h ?_
        simp only [not_or] at hv
        obtain ⟨h1, h2⟩ := hv
        simp only [List.pairwise_cons, List.mem_cons, List.not_mem_nil, or_false, forall_eq_or_imp, forall_eq,
          List.Pairwise.nil, and_true, queryHtml, queryGoErr, queryErr, guarded_acts, guarded, List.append_nil,
          List.map_cons, List.map_nil]
        simp [Clash, ConflictOn, Conflict, reads, writes, Ne.symm h1, Ne.symm h2]
    · exact h.elim
    · exact absurd h ht
  · rintro (rfl | rfl)
    · exact .inr (.inl (.inl ⟨(writes .goErr, none), by simp [queryHtml, guarded_acts],
        (writes .goErr, none), by simp [guarded_all, queryGoErr, guarded_acts], ⟨⟨rfl, .inl rfl⟩, rfl⟩, by simp⟩))
    · refine .inr (.inl (.inr (.inr (.inl (.inr (.inr (.inl (.inl ⟨(writes .err, none),
        by simp [queryErr, guarded_acts], (writes .err, none), ?_, ⟨⟨rfl, .inl rfl⟩, rfl⟩, by simp⟩))))))))
      simp [guarded_all, queryErr, guarded_acts]

end Threads

/-- A folder whose instance refers to two schemas of the same namespace. -/
def twoSchemas : FolderEnv Nat Unit where
  entryName := some "i.xml"
  images := []
  readDoc _ := none
  transform d _ := d
  fileExists _ := true
  readInstance _ := none
  isUrl _ := false
  readSchema _ := some ⟨[⟨⟨"", "targetNamespace"⟩, "http://a"⟩], [], [], [], 0⟩
  readLinkbase _ _ := none

def twoRefs : Disc.InstanceFile :=
  ⟨[⟨LINK, [⟨⟨"", "href"⟩, "a.xsd"⟩]⟩, ⟨LINK, [⟨⟨"", "href"⟩, "b.xsd"⟩]⟩], 0⟩

example : ∃ ws, Disc.schemaRef twoSchemas 1 twoRefs = some ws ∧ ws.map mapOf =
    [.namespaces, .schemas, .namespaces, .schemas] := ⟨_, rfl, by decide +kernel⟩

/-- Without the lock there would be a race. -/
example (w : Disc.Write Nat) : Racy SameMap (.par (.act w .done) (.act w .done) .done : Prog (Disc.Write Nat) Unit) :=
  (racy_iff _ _).2 (.inl ⟨(w, none), by simp [guarded], (w, none), by simp [guarded], rfl, by simp⟩)

/-- With different locks too. -/
example (w : Disc.Write Nat) :
    Racy SameMap (.par (.crit 0 [w] .done) (.crit 1 [w] .done) .done : Prog (Disc.Write Nat) Nat) :=
  (racy_iff _ _).2 (.inl ⟨(w, some 0), by simp [guarded], (w, some 1), by simp [guarded], rfl, by simp⟩)

/-- C174 (3): no two goroutines of `DecodeIxbrlFile` access the map of facts at the same time. -/
theorem C174_decode_maps (ds : List Dom) : ¬ Racy (ConflictOn (· = IxVar.factMap)) (decodeThreads ds) := by
  rw [racy_iff, decode_unsafe_iff]; simp

/-- C175 is false of the code (1): for every document that can be parsed, goroutines of `DecodeIxbrlFile` access the
error variables at the same time, one of them writing; and exactly these two variables. -/
theorem C175_decode_fails (ds : List Dom) (v : IxVar) :
    Racy (ConflictOn (· = v)) (decodeThreads ds) ↔ v = .goErr ∨ v = .err := by
  rw [racy_iff, decode_unsafe_iff]

namespace Threads

open Classical in
theorem inline_guarded (np : NameProvider) (second : Bool) (f : InlineFact) :
    guarded (inlineThread np second f) = (reads (.goErr second), none) ::
      (if ∃ m, work np f = .err m then [(writes (.goErr second), none)]
       else [(writes .names, some second), (writes .ctxs, some second)]) := by
  unfold inlineThread
  cases h : work np f with
  | ok r => simp [guarded]
  | err m => simp [guarded]
  | panic => simp [guarded]

theorem inline_safe (cf : Use HydVar → Use HydVar → Prop) (np : NameProvider) (second : Bool) (f : InlineFact) :
    ¬ Unsafe cf (inlineThread np second f) := by
  unfold inlineThread
  cases work np f <;> exact fun h => h

/-- The goroutines of two facts clash if one of the facts has an error. -/
theorem inline_clash (np : NameProvider) (second : Bool) (f g : InlineFact) (v : HydVar) :
    (∃ x ∈ guarded (inlineThread np second f), ∃ y ∈ guarded (inlineThread np second g),
      Clash (ConflictOn (· = v)) x y) ↔
    v = .goErr second ∧ ((∃ m, work np f = .err m) ∨ ∃ m, work np g = .err m) := by
  rw [inline_guarded, inline_guarded]
  by_cases hf : ∃ m, work np f = .err m <;> by_cases hg : ∃ m, work np g = .err m <;>
    cases v <;> simp [hf, hg, Clash, ConflictOn, Conflict, reads, writes]
  all_goals cases second <;> simp

theorem group_unsafe (np : NameProvider) (second : Bool) (facts : List InlineFact) (v : HydVar) :
    Unsafe (ConflictOn (· = v)) (groupThreads np second facts) ↔
      v = .goErr second ∧ 2 ≤ facts.length ∧ ∃ f ∈ facts, ∃ m, work np f = .err m := by
  unfold groupThreads
  rw [unsafe_all, List.pairwise_map]
  simp only [inline_clash]
  constructor
  · rintro (⟨p, hp, h⟩ | h)
    · obtain ⟨f, _, rfl⟩ := List.mem_map.1 hp
      exact absurd h (inline_safe _ np second f)
    · by_cases hv : v = .goErr second
      · refine ⟨hv, ?_, ?_⟩
        · rcases facts with _ | ⟨f, _ | ⟨g, l⟩⟩
          · exact absurd List.Pairwise.nil h
          · exact absurd (List.pairwise_singleton _ _) h
          · simp
        · refine Classical.byContradiction fun hn => h ?_
          refine List.Pairwise.imp_of_mem (R := fun _ _ => True) ?_ (List.pairwise_of_forall fun _ _ => trivial)
          rintro a b ha hb _ ⟨_, h | h⟩
          · exact hn ⟨a, ha, h⟩
          · exact hn ⟨b, hb, h⟩
      · refine absurd ?_ h
        exact List.pairwise_of_forall fun _ _ hh => hv hh.1
  · rintro ⟨hv, hl, f, hf, he⟩
    right
    intro hp
    rcases facts with _ | ⟨a, _ | ⟨b, l⟩⟩
    · cases hf
    · simp at hl
    · rw [List.pairwise_cons] at hp
      have h1 := hp.1
      rcases List.mem_cons.1 hf with rfl | hf
      · exact h1 b (by simp) ⟨hv, .inl he⟩
      · exact h1 f hf ⟨hv, .inr he⟩

theorem hydrate_unsafe_iff (np : NameProvider) (nonNumerics nonFractions : List InlineFact) (v : HydVar) :
    Unsafe (ConflictOn (· = v)) (hydrateThreads np nonNumerics nonFractions) ↔
      (v = .goErr false ∧ 2 ≤ nonNumerics.length ∧ ∃ f ∈ nonNumerics, ∃ m, work np f = .err m) ∨
      (v = .goErr true ∧ (∀ f ∈ nonNumerics, (work np f).isOk = true) ∧ 2 ≤ nonFractions.length ∧
        ∃ f ∈ nonFractions, ∃ m, work np f = .err m) := by
  unfold hydrateThreads
  simp only [Unsafe, guarded, group_unsafe, List.not_mem_nil, false_and, exists_false, and_false, false_or]
  by_cases h : ∀ f ∈ nonNumerics, (work np f).isOk = true
  · have hb : nonNumerics.all (fun f => (work np f).isOk) = true := List.all_eq_true.2 h
    simp only [hb, if_true, Unsafe, guarded, group_unsafe, List.not_mem_nil, false_and, exists_false, and_false,
      false_or, or_false]
    constructor
    · rintro (h1 | ⟨h1, h2⟩)
      · exact .inl h1
      · exact .inr ⟨h1, h, h2⟩
    · rintro (h1 | ⟨h1, _, h2⟩)
      · exact .inl h1
      · exact .inr ⟨h1, h2⟩
  · have hb : nonNumerics.all (fun f => (work np f).isOk) = false := by
      rw [Bool.eq_false_iff]; exact fun hh => h (List.all_eq_true.1 hh)
    simp only [hb, Unsafe, or_false, Bool.false_eq_true, if_false, h, false_and, and_false]

theorem clash_acts {A M : Type} (cf : A → A → Prop) (as bs : List A) :
    (∃ x ∈ guarded (.acts as .done : Prog A M), ∃ y ∈ guarded (.acts bs .done : Prog A M), Clash cf x y) ↔
      ∃ a ∈ as, ∃ b ∈ bs, cf a b := by
  simp only [guarded_acts, guarded, List.append_nil, List.mem_map, Clash]
  constructor
  · rintro ⟨_, ⟨a, ha, rfl⟩, _, ⟨b, hb, rfl⟩, h, _⟩; exact ⟨a, ha, b, hb, h⟩
  · rintro ⟨a, ha, b, hb, h⟩; exact ⟨_, ⟨a, ha, rfl⟩, _, ⟨b, hb, rfl⟩, h, by simp⟩

/-- What the goroutine of a grid does. -/
def gridUses (v : RenVar) (ok : Bool) : List (Use RenVar) :=
  if ok then [writes v, reads .labelRoles, writes .labelRoles, reads .langs, writes .langs] else [writes .err]

theorem gridThread_eq (v : RenVar) (ok : Bool) : gridThread v ok = .acts (gridUses v ok) .done := by
  cases ok <;> rfl

instance {V : Type} [DecidableEq V] (v : V) (a b : Use V) : Decidable (ConflictOn (· = v) a b) := by
  unfold ConflictOn Conflict; infer_instance

theorem render_unsafe_iff (okP okD okC : Bool) (v : RenVar) :
    Unsafe (ConflictOn (· = v)) (renderThreads okP okD okC) ↔
      (2 ≤ [okP, okD, okC].count true ∧ (v = .labelRoles ∨ v = .langs)) ∨
      (2 ≤ [okP, okD, okC].count false ∧ v = .err) := by
  unfold renderThreads
  simp only [gridThread_eq, Unsafe, guarded, List.not_mem_nil, false_and, exists_false, and_false, false_or,
    unsafe_acts, or_false, unsafe_all, List.mem_cons, exists_eq_or_imp, exists_eq_left,
    List.pairwise_cons, forall_eq_or_imp, forall_eq, clash_acts, List.Pairwise.nil, and_true, false_implies,
    implies_true]
  revert okP okD okC
  cases v <;> decide

end Threads

/-- C174 (4): no two goroutines of `HydrateDocument` write a map at the same time. -/
theorem C174_hydrate_maps (np : NameProvider) (nonNumerics nonFractions : List InlineFact) :
    ¬ Racy (ConflictOn (· = HydVar.names)) (hydrateThreads np nonNumerics nonFractions) ∧
    ¬ Racy (ConflictOn (· = HydVar.ctxs)) (hydrateThreads np nonNumerics nonFractions) := by
  simp [racy_iff, hydrate_unsafe_iff]

/-- C175, exactly, for `HydrateDocument`: goroutines access a variable at the same time, one of them writing, if and
only if it is an error variable, there are at least two facts in its group, and one of them has an error. -/
theorem C175_hydrate_exact (np : NameProvider) (nonNumerics nonFractions : List InlineFact) (v : HydVar) :
    Racy (ConflictOn (· = v)) (hydrateThreads np nonNumerics nonFractions) ↔
      (v = .goErr false ∧ 2 ≤ nonNumerics.length ∧ ∃ f ∈ nonNumerics, ∃ m, work np f = .err m) ∨
      (v = .goErr true ∧ (∀ f ∈ nonNumerics, (work np f).isOk = true) ∧ 2 ≤ nonFractions.length ∧
        ∃ f ∈ nonFractions, ∃ m, work np f = .err m) := by
  rw [racy_iff, hydrate_unsafe_iff]

/-- Two text facts, the prefix of one of which is not declared. -/
example : ∃ np, newNameProvider [⟨⟨"xmlns", "a"⟩, "http://a", "xmlns"⟩] = .ok np ∧
    Racy (ConflictOn (· = HydVar.goErr false)) (hydrateThreads np
      [[⟨⟨"", "name"⟩, "a:b", ""⟩, ⟨⟨"", "contextRef"⟩, "c", ""⟩],
       [⟨⟨"", "name"⟩, "z:b", ""⟩, ⟨⟨"", "contextRef"⟩, "c", ""⟩]] []) := by
  refine ⟨_, rfl, ?_⟩
  rw [C175_hydrate_exact]
  exact .inl ⟨rfl, by decide, _, List.mem_cons_of_mem _ (List.mem_cons_self ..),
    "prefix does not match a namespace", by decide +kernel⟩

/-- C175, exactly, for `MarshalRenderable`: the three goroutines race for the lists of languages and label roles if two
of the grids succeed, and for the error variable if two of them fail. -/
theorem C175_render_exact (okP okD okC : Bool) (v : RenVar) :
    Racy (ConflictOn (· = v)) (renderThreads okP okD okC) ↔
      (2 ≤ [okP, okD, okC].count true ∧ (v = .labelRoles ∨ v = .langs)) ∨
      (2 ≤ [okP, okD, okC].count false ∧ v = .err) := by
  rw [racy_iff, render_unsafe_iff]

/-- C175 is false of the code (2): every renderable is made with a data race. -/
theorem C175_render_fails (okP okD okC : Bool) :
    ∃ v, Racy (ConflictOn (· = v)) (renderThreads okP okD okC) := by
  simp only [C175_render_exact]
  cases okP <;> cases okD <;> cases okC <;>
    first
      | exact ⟨.langs, .inl ⟨by decide, .inr rfl⟩⟩
      | exact ⟨.err, .inr ⟨by decide, rfl⟩⟩

/-- C175, the part that holds: discovery has no data race at all, and decoding none but for the error variables. -/
theorem C175_partial {L D : Type} (env : FolderEnv L D) (depth : Nat) (inst : Disc.InstanceFile) :
    ¬ Racy (fun _ _ => True) (schemaRefThreads env depth inst) := by
  rw [racy_iff]
  exact safe_of_locked (fun _ => True) () (fun _ _ _ => ⟨trivial, trivial⟩)
    (fun x hx _ => schemaRef_locked env depth inst x hx)

end Telefacts
