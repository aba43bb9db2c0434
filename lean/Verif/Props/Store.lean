import Verif.Proof.Store
/-! # C15 - C17: creating folders and writing files -/
namespace Telefacts
open Telefacts.Store

/-- A call running alone. -/
theorem solo_run (ctx : Ctx) (faults : Bool) (s : Sys) (i : Nat) (hi : s.calls i = none) (key : String)
    (u : Underscore) {p : Disk × PC}
    (h : Relation.ReflTransGen (Step ctx faults key u) (s.disk, .start) p) :
    Run ctx faults s ⟨p.1, Function.update s.calls i (some ⟨key, u, p.2⟩)⟩ := by
  induction h with
  | refl => exact .single (.begin s i key u hi)
  | @tail a b _ hst ih =>
    refine ih.tail ?_
    have := Event.step (ctx := ctx) (faults := faults)
      ⟨a.1, Function.update s.calls i (some ⟨key, u, a.2⟩)⟩ i ⟨key, u, a.2⟩ b.1 b.2 (by simp) hst
    simpa using this

/-- **C15a.** Whatever calls are made, and whatever fails or crashes, folders that existed when the
process started keep their contents. -/
theorem C15_existing_untouched (ctx : Ctx) (faults : Bool) (d : Disk) (s : Sys)
    (h : Run ctx faults (fresh d) s) (id : String) (x : Dir) (hx : d id = some x) : s.disk id = some x :=
  (settled_run (inv_fresh ctx d) (id := id) (x := x) ⟨hx, by intro i c hc; cases hc⟩ h).1

/-- **C15b.** A call that begins after state `s` and returns `(id, nil)`: in state `s` there was no folder
`id`. -/
theorem C15_id_was_unused (ctx : Ctx) (faults : Bool) (d : Disk) (s s' : Sys)
    (h : Run ctx faults (fresh d) s) (h' : Run ctx faults s s') (i : Nat) (hi : s.calls i = none)
    (c : Call) (hc : s'.calls i = some c) (id : String) (hd : c.pc = .done id none) : s.disk id = none := by
  by_contra hn
  refine created_run (i := i) (inv_run (inv_fresh ctx d) h) hn ?_ h' c (some (ctx.enc c.u)) hc ?_
  · intro c m hc; rw [hi] at hc; cases hc
  · simp [holds, hd]

/-- **C15c.** Two calls never both report the creation of the same folder. -/
theorem C15_ids_distinct (ctx : Ctx) (faults : Bool) (d : Disk) (s : Sys)
    (h : Run ctx faults (fresh d) s) (i j : Nat) (hij : i ≠ j) (c c' : Call) (hc : s.calls i = some c)
    (hc' : s.calls j = some c') (id id' : String) (hd : c.pc = .done id none)
    (hd' : c'.pc = .done id' none) : id ≠ id' := by
  rintro rfl
  exact hij ((inv_run (inv_fresh ctx d) h).one i j c c' id (some (ctx.enc c.u)) (some (ctx.enc c'.u)) hc hc'
    (by simp [holds, hd]) (by simp [holds, hd']))

/-- **C15d.** A non-empty key always gives the same id: the id returned, if any, is the id of the key. -/
theorem C15_key_id (ctx : Ctx) (faults : Bool) (d : Disk) (s : Sys)
    (h : Run ctx faults (fresh d) s) (i : Nat) (c : Call) (hc : s.calls i = some c) (hk : c.key ≠ "")
    (id : String) (e : Option Err) (hd : c.pc = .done id e) : id = "" ∨ id = ctx.md5 c.key := by
  by_cases hid : id = ""
  · exact .inl hid
  · exact .inr ((inv_run (inv_fresh ctx d) h).keyed i c id hc hk
      (.inr (.inr (.inr (.inr (.inr ⟨e, hd, hid⟩))))))

/-- **C15e.** A keyed call that begins when the folder of its key exists never reports success, and if no
system call fails it returns that folder's id with `ErrExist`. -/
theorem C15_second_call (ctx : Ctx) (hwd : ctx.wd ≠ "") (faults faults' : Bool) (d : Disk) (s s' : Sys)
    (h : Run ctx faults (fresh d) s) (i : Nat) (hi : s.calls i = none) (key : String) (hk : key ≠ "")
    (hex : s.disk (ctx.md5 key) ≠ none) (h' : Run ctx faults' s s') (c : Call) (hc : s'.calls i = some c)
    (hck : c.key = key) (id : String) (e : Option Err) (hd : c.pc = .done id e) :
    (id = ctx.md5 key → e ≠ none) ∧ (faults' = false → id = ctx.md5 key ∧ e = some .exist) := by
  have hI := inv_run (inv_fresh ctx d) h
  constructor
  · rintro rfl rfl
    refine created_run (i := i) hI hex ?_ h' c (some (ctx.enc c.u)) hc ?_
    · intro c m hc; rw [hi] at hc; cases hc
    · simp [holds, hd]
  · rintro rfl
    have := doomed_run hI hwd hk hex (i := i) (by intro c hc; rw [hi] at hc; cases hc) h' c hc hck
    subst hck
    rcases this with h1 | h1 | h1 <;> rw [hd] at h1
    · cases h1
    · cases h1
    · cases h1; exact ⟨rfl, rfl⟩

/-- **C16a.** From the moment `NewFolder` returns `(id, nil)`, through any later calls, faults and
crashes, the folder has exactly the metadata passed, so `GetEntryFileName` gives its entry (for metadata
that JSON preserves). -/
theorem C16_created_has_metadata (ctx : Ctx) (faults : Bool) (d : Disk) (s s' : Sys)
    (h : Run ctx faults (fresh d) s) (i : Nat) (c : Call) (hc : s.calls i = some c) (id : String)
    (hd : c.pc = .done id none) (h' : Run ctx faults s s') :
    s'.disk id = some ⟨some (ctx.enc c.u)⟩ ∧
    (ctx.dec (ctx.enc c.u) = some c.u.entry → getEntryFileName ctx s'.disk id = .ok c.u.entry) := by
  have hI := inv_run (inv_fresh ctx d) h
  have hh : holds ctx c = some (id, some (ctx.enc c.u)) := by simp [holds, hd]
  have hset : Settled s id ⟨some (ctx.enc c.u)⟩ := by
    refine ⟨hI.held i c id _ hc hh, ?_⟩
    intro j y hy hact
    obtain ⟨m, hm⟩ := active_holds (ctx := ctx) hact
    have := hI.one i j c y id _ _ hc hy hh hm
    subst this
    rw [hc] at hy; cases hy
    simp [Active, hd] at hact
  have := (settled_run hI hset h').1
  exact ⟨this, fun hdec => by simp [getEntryFileName, this, hdec]⟩

/-- **C16b.** At every moment (so after a crash at any point) a folder is one that was there at the start,
or has no metadata, or has a prefix of the encoding of some metadata passed to `NewFolder`. -/
theorem C16_crash_states (ctx : Ctx) (faults : Bool) (d : Disk) (s : Sys)
    (h : Run ctx faults (fresh d) s) (id : String) (x : Dir) (hx : s.disk id = some x) :
    d id = some x ∨ x.meta_ = none ∨ ∃ u n, x.meta_ = some ((ctx.enc u).take n) := by
  have hshape : ∀ (c : Call) id m, holds ctx c = some (id, m) → m = none ∨ ∃ u n, m = some ((ctx.enc u).take n) := by
    rintro ⟨key, u, pc⟩ id m hh
    cases pc with
    | openMeta k => simp [holds] at hh; exact .inl hh.2.symm
    | write k n => simp [holds] at hh; exact .inr ⟨u, n, hh.2.symm⟩
    | done k e =>
      cases e with
      | none => simp [holds] at hh; exact .inr ⟨u, (ctx.enc u).length, by simp [← hh.2]⟩
      | some e => simp [holds] at hh
    | _ => simp [holds] at hh
  unfold Run at h
  induction h generalizing x with
  | refl => exact .inl hx
  | @tail t t' hr he ih =>
    have hI := inv_run (inv_fresh ctx d) hr
    cases he with
    | crash => exact ih x hx
    | begin => exact ih x hx
    | step i c d' pc' hc hst =>
      rcases step_cases (fun id m => hI.held i c id m hc) hst with
        ⟨rfl, _⟩ | ⟨id0, hd0, _, rfl, hn⟩ | ⟨id0, m0, m0', _, _, rfl, hn⟩
      · exact ih x hx
      · simp only [Function.update_apply] at hx
        split at hx
        · cases hx; exact .inr (.inl rfl)
        · exact ih x hx
      · simp only [Function.update_apply] at hx
        split at hx
        · cases hx; exact .inr (hshape _ _ _ hn)
        · exact ih x hx

/-- **C16c.** A crash inside `NewFolder` can leave a folder without metadata: this happens for every
non-empty key whose folder does not exist. -/
theorem C16_crash_without_metadata (ctx : Ctx) (hwd : ctx.wd ≠ "") (d : Disk) (key : String) (hk : key ≠ "")
    (hn : d (ctx.md5 key) = none) :
    ∃ s, Run ctx false (fresh d) s ∧ (∀ i, s.calls i = none) ∧ s.disk (ctx.md5 key) = some ⟨none⟩ := by
  have hs : Relation.ReflTransGen (Step ctx false key ⟨"", ""⟩) (d, .start)
      (Function.update d (ctx.md5 key) (some ⟨none⟩), .openMeta (ctx.md5 key)) :=
    (((Relation.ReflTransGen.single (.keyed d hwd hk)).tail (.statNone d _ hn)).tail (.mkdirOk d _ hn))
  have hr := solo_run ctx false (fresh d) 0 rfl key ⟨"", ""⟩ hs
  exact ⟨_, hr.tail (.crash _), fun _ => rfl, by simp⟩

/-- A successful keyed creation exists (the hypotheses of C15 and C16a are met), here with a one-byte
encoding. -/
example : ∃ s, Run ⟨fun k => "id-" ++ k, fun _ => [7], fun _ => some "e.xml", "/wd"⟩ false (fresh fun _ => none) s ∧
    ∃ c, s.calls 0 = some c ∧ c.pc = .done "id-k" none := by
  refine ⟨_, solo_run _ false _ 0 rfl "k" ⟨"e.xml", ""⟩
    ((((((Relation.ReflTransGen.single (.keyed _ (by decide) (by decide))).tail (.statNone _ _ rfl)).tail
      (.mkdirOk _ _ rfl)).tail (.openOk _ _ ⟨none⟩ rfl)).tail
      (.writeByte _ _ 0 [] 7 (by simp) rfl)).tail (.finish _ _ _ rfl)), ⟨"k", ⟨"e.xml", ""⟩, .done "id-k" none⟩, by simp, rfl⟩

/-- **C16d.** A folder left without metadata at a restart stays so for ever: no call with its key ever
succeeds, and `GetEntryFileName` keeps failing. -/
theorem C16_key_lost (ctx : Ctx) (faults : Bool) (d : Disk) (key : String)
    (hn : d (ctx.md5 key) = some ⟨none⟩) (s : Sys) (h : Run ctx faults (fresh d) s) :
    s.disk (ctx.md5 key) = some ⟨none⟩ ∧
    (∀ i c id, s.calls i = some c → c.pc = .done id none → id ≠ ctx.md5 key) ∧
    (getEntryFileName ctx s.disk (ctx.md5 key)).isOk = false := by
  have hI := inv_run (inv_fresh ctx d) h
  have hd := C15_existing_untouched ctx faults d s h _ _ hn
  refine ⟨hd, ?_, by simp [getEntryFileName, hd, Res.isOk]⟩
  rintro i c id hc hp rfl
  have := hI.held i c (ctx.md5 key) (some (ctx.enc c.u)) hc (by simp [holds, hp])
  rw [hd] at this; cases this

/-! ## C17 -/

/-- **C17.** The contents of the destination during and after `WriteFile`, at every point where the process
may die, are exactly: the old contents, or a prefix of the data. -/
theorem C17_crash_states (data : Bytes) (old c : Option Bytes) :
    (∃ pc, Relation.ReflTransGen (WStep data) (old, .opening) (c, pc)) ↔
      c = old ∨ ∃ n, c = some (data.take n) := by
  constructor
  · rintro ⟨pc, h⟩
    have key : ∀ p, Relation.ReflTransGen (WStep data) (old, .opening) p →
        (match p.2 with
          | .opening => p.1 = old
          | .writing n => p.1 = some (data.take n)
          | .done _ => p.1 = old ∨ ∃ n, p.1 = some (data.take n)) := by
      intro p hp
      induction hp with
      | refl => rfl
      | tail _ hs ih =>
        cases hs with
        | openFail => exact .inl ih
        | openOk => simp
        | writeByte c n b hb =>
          simp only [Option.some.injEq] at ih ⊢
          rw [ih, writeAt_take _ _ _ hb]
        | writeFail c n => exact .inr ⟨n, ih⟩
        | finish c n hn => exact .inr ⟨n, ih⟩
    have := key _ h
    cases pc with
    | opening => exact .inl this
    | writing n => exact .inr ⟨n, this⟩
    | done b => exact this
  · have key : ∀ n, n ≤ data.length →
        Relation.ReflTransGen (WStep data) (old, .opening) (some (data.take n), .writing n) := by
      intro n
      induction n with
      | zero => intro _; exact .single (by simpa using WStep.openOk old)
      | succ n ih =>
        intro hn
        refine (ih (by omega)).tail ?_
        have hb : data[n]? = some data[n] := List.getElem?_eq_getElem (by omega)
        rw [← writeAt_take _ _ _ hb]
        exact .writeByte _ _ _ hb
    rintro (rfl | ⟨n, rfl⟩)
    · exact ⟨_, .refl⟩
    · by_cases hn : n ≤ data.length
      · exact ⟨_, key n hn⟩
      · have := key _ (Nat.le_refl _)
        rw [List.take_length] at this
        rw [List.take_of_length_le (by omega)]
        exact ⟨_, this⟩

/-- **C17b.** When `WriteFile` returns nil the destination holds exactly the data. -/
theorem C17_success (data : Bytes) (old c : Option Bytes)
    (h : Relation.ReflTransGen (WStep data) (old, .opening) (c, .done true)) : c = some data := by
  have key : ∀ p, Relation.ReflTransGen (WStep data) (old, .opening) p →
      (match p.2 with
        | .writing n => p.1 = some (data.take n)
        | .done true => p.1 = some data
        | _ => True) := by
    intro p hp
    induction hp with
    | refl => trivial
    | tail _ hs ih =>
      cases hs with
      | openFail => trivial
      | openOk => simp
      | writeByte c n b hb =>
        simp only [Option.some.injEq] at ih ⊢
        rw [ih, writeAt_take _ _ _ hb]
      | writeFail c n => trivial
      | finish c n hn => subst hn; simpa using ih
  exact key _ h

/-- It is not atomic: a crash can lose the old contents without having stored the new ones. -/
example : ∃ pc, Relation.ReflTransGen (WStep [1, 2]) (some [9], .opening) (some [1], pc) :=
  (C17_crash_states [1, 2] (some [9]) (some [1])).2 (.inr ⟨1, rfl⟩)

end Telefacts
