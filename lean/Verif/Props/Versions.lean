import Verif.Proof.Versions
import Verif.Props.Cache
/-!
# C172, C173: files that change while the server runs

A change replaces the backend; what is computed from a loaded folder stays the same function (`SameRest`).
-/
namespace Telefacts
open Telefacts.Cache
variable {H B S : Type}

theorem SameRest.refl (a : Backend H B S) : SameRest a a := ⟨rfl, rfl, rfl, rfl, rfl⟩

/-! ## Witnesses -/

/-- Folder `"a-1"` in version `n`: everything made of it says `n`. -/
def versionN (n : Nat) : Backend Nat Nat Unit where
  discover id x := if id = "a-1" then x = none else x = some "missing"
  hydrate _ x := x = some (some n, none)
  catalog h x := x = some (some h, none)
  renderable _ h x := x = some (some h, none)
  express _ _ h x := x = some (some h, none)
  entryName _ := "doc.htm"
  docBytes h := some h
  schema _ x := x = some ()
  utr x := x = some ()
  names x := x = some ()

theorem versionN_sane (n : Nat) : (versionN n).Sane := by
  intro id h e hh
  simp [versionN] at hh
  simp [hh]

theorem versionN_rest (m n : Nat) : SameRest (versionN m) (versionN n) := ⟨rfl, rfl, rfl, rfl, rfl⟩

/-- All of a version's answers say its number. -/
theorem versionN_direct {n : Nat} {r : Req} {o : Out Nat Nat Unit} (hf : folderOf r = some "a-1") (h : Direct (versionN n) r o) :
    o = .ret (.bytes (some n)) none := by
  cases h with
  | undiscovered _ _ _ h1 h2 => rw [hf] at h1; cases h1; simp [versionN] at h2
  | hydratePanic _ _ h1 h2 h3 => simp [versionN] at h3
  | unhydrated _ _ _ _ h1 h2 h3 => simp [versionN] at h3
  | computePanic _ _ h h1 h2 h3 h4 =>
    simp [versionN] at h3
    subst h3
    cases r <;> simp [Computes, versionN] at h4
  | computed _ _ h b e h1 h2 h3 h4 =>
    simp [versionN] at h3
    subst h3
    cases r <;> simp [Computes, versionN] at h4
    · simp [h4]
    · rcases h4 with h4 | h4 <;> simp [h4]
    · simp [h4]
  | _ => cases hf

/-- A run that asks for the catalog, in a version in which it was not asked for. -/
theorem ask_catalog (n : Nat) : ∃ s : State Nat Nat Unit, Steps (versionN n) false someCalls State.init s ∧
    s.threads = [] ∧ s.log = [(.catalog "a-1", .ret (.bytes (some n)) none)] ∧ s.leaked = (fun _ => 0) ∧ s.waiting = (fun _ => false) ∧
    s.pending = [(.app, "a-1/", .bytes (some n)), (.app, "a-1", .hyd (some n))] ∧ s.cache = fun _ => none := by
  have hc : someCalls (.catalog "a-1") := .inl rfl
  have h := Steps.refl (be := versionN n) (dry := false) (allowed := someCalls) State.init
  have h := h.tail (.start _ (.catalog "a-1") hc)
  have h := h.tail (.miss _ [] [] _ _ _ _ _ _ rfl rfl rfl)
  have h := h.tail (.chooseErr _ [] [] _ _ _ none rfl (by simp [versionN]))
  have h := h.tail (.chooseHyd _ [] [] _ _ _ (some (some n, none)) rfl (by simp [versionN]))
  have h := h.tail (.spawn _ [] [] _ _ _ _ _ rfl)
  have h := h.tail (.miss _ [] [] _ _ _ _ _ _ rfl rfl rfl)
  have h := h.tail (.chooseBytes _ [] [] _ _ _ (some (some n, none)) rfl (by simp [versionN]))
  have h := h.tail (.spawn _ [] [] _ _ _ _ _ rfl)
  have h := h.tail (.done _ [] [] _ _ rfl)
  exact ⟨_, h, rfl, rfl, rfl, rfl, rfl, rfl⟩

/-- The same, with the writes done. -/
theorem ask_catalog_quiet (n : Nat) : ∃ s : State Nat Nat Unit, Steps (versionN n) false someCalls State.init s ∧ Quiet s ∧
    s.log = [(.catalog "a-1", .ret (.bytes (some n)) none)] ∧ s.waiting = (fun _ => false) ∧
    s.cache "a-1/" = some (.bytes (some n)) ∧ s.cache "a-1" = some (.hyd (some n)) := by
  obtain ⟨s, h, h1, h2, h3, h4, h5, h6⟩ := ask_catalog n
  have h := h.tail (.commit _ [] _ _ _ _ h5 (by rw [h3]))
  have h := h.tail (.commit _ [] [] _ _ _ rfl (by show s.leaked _ = 0; rw [h3]))
  exact ⟨_, h, ⟨h1, rfl⟩, h2, h4, by simp [upd], by simp [upd]⟩

/-! ## C172 -/

/-- **C172 is false.** Once a folder has been answered about, every later answer about it is of the version that was there then,
whatever is done to its files. -/
theorem C172_stale_fails (be be' : Backend H B S) (hs : be.Sane) (hs' : be'.Sane) (hr : SameRest be be') (allowed : Req → Prop)
    (hn : Normal allowed) (id : String) (s t : State H B S) (h : Steps be false allowed State.init s) (hq : Quiet s)
    (hok : ∃ r o, (r, o) ∈ s.log ∧ folderOf r = some id ∧ Succeeds o) (ht : Steps be' false allowed s t) :
    ∃ new, t.log = new ++ s.log ∧ ∀ r o, (r, o) ∈ new → folderOf r = some id → AnswersAs be r o := by
  obtain ⟨hv, _⟩ := version_next hn (version_init allowed id be) rfl hs (SameRest.refl be) (.inr rfl) h
  obtain ⟨r, o, h1, h2, h3⟩ := hok
  obtain ⟨_, new, h4, h5⟩ := version_next hn hv hq.1 hs' hr (.inl (version_loaded hn hv hq.2 h1 h2 h3)) ht
  exact ⟨new, h4, fun r o ho hf => h5 _ ho hf⟩

/-- A run that shows it: the catalog says `1` although its file says `2` by now. -/
theorem C172_old_fails : ∃ s t : State Nat Nat Unit, Steps (versionN 1) false someCalls State.init s ∧ Quiet s ∧
    Steps (versionN 2) false someCalls s t ∧ t.log = (.catalog "a-1", .ret (.bytes (some 1)) none) :: s.log ∧
    ∀ o, Direct (versionN 2) (.catalog "a-1") o → o = .ret (.bytes (some 2)) none := by
  obtain ⟨s, h, hq, hl, hw, h1, h2⟩ := ask_catalog_quiet 1
  refine ⟨s, ?_⟩
  have h' := Steps.refl (be := versionN 2) (dry := false) (allowed := someCalls) s
  have h' := h'.tail (.start _ (.catalog "a-1") (.inl rfl))
  have h' := h'.tail (.hit _ [] _ _ _ _ _ _ _ (.hyd (some 1)) rfl (by show s.waiting _ = false; rw [hw]) h2 rfl)
  have h' := h'.tail (.hit _ [] _ _ _ _ _ _ _ (.bytes (some 1)) rfl (by show s.waiting _ = false; rw [hw]) h1 rfl)
  have h' := h'.tail (.done _ [] _ _ _ rfl)
  exact ⟨_, h, hq, h', rfl, fun o ho => versionN_direct rfl ho⟩

/-- The hypotheses of `C172_stale_fails` are met. -/
example : ∃ s : State Nat Nat Unit, Steps (versionN 1) false someCalls State.init s ∧ Quiet s ∧
    ∃ r o, (r, o) ∈ s.log ∧ folderOf r = some "a-1" ∧ Succeeds o := by
  obtain ⟨s, h, hq, hl, _⟩ := ask_catalog_quiet 1
  exact ⟨s, h, hq, .catalog "a-1", .ret (.bytes (some 1)) none, by rw [hl]; simp, rfl, trivial⟩

theorem panics_prog {be : Backend H B S} {allowed : Req → Prop} (hn : Normal allowed) {id : String} (hu : Unloadable be id)
    {P : String → Prop} (hP : P id) {r : Req} (hr : allowed r) (hf : folderOf r = some id) (be' : Backend H B S) :
    Keeps be allowed P (fun o => o = .panic) (prog be' false r) := by
  have hid := folder_idOk hn hr hf
  have hno : ∀ v, ¬ Legit be allowed (resultKey r) v := by
    intro v hv
    obtain ⟨h, b, e, _, _, h2, _⟩ := legit_result hn hr hf hv
    obtain ⟨m, hm⟩ := hu.2 _ h2
    cases hm
  have hyd : ∀ (k : Option H → Option String → Prog H B S), Keeps be allowed P (fun o => o = .panic) (k none none) →
      Keeps be allowed P (fun o => o = .panic) (hydratable be' false id k) := by
    intro k hk
    refine ⟨fun v hv => ?_, fun hne => absurd hP hne⟩
    obtain ⟨h, e, rfl, h1, h2⟩ := legit_id hn hid hv
    obtain ⟨m, hm⟩ := hu.2 _ h2
    cases hm
    exact ⟨rfl, hk⟩
  cases r with
  | catalog i =>
    cases hf
    unfold prog catalogProg
    refine hyd _ ?_
    exact ⟨fun v hv => absurd hv (hno v), fun _ => rfl⟩
  | express i n c =>
    cases hf
    unfold prog expressProg
    refine hyd _ ?_
    exact ⟨fun v hv => absurd hv (hno v), fun _ => rfl⟩
  | renderable i hash =>
    cases hf
    exact ⟨fun v hv => absurd hv (hno v), fun _ => hyd _ (by rfl)⟩
  | schema u => cases hf
  | utr => cases hf
  | names => cases hf

theorem keeps_mono {be : Backend H B S} {allowed : Req → Prop} {P : String → Prop} {ok ok' : Out H B S → Prop} (h : ∀ o, ok o → ok' o)
    (p : Prog H B S) : Keeps be allowed P ok p → Keeps be allowed P ok' p := by
  induction p with
  | done o => exact h o
  | get l key kind hit miss ih1 ih2 => exact fun hp => ⟨fun v hv => ⟨(hp.1 v hv).1, ih1 v (hp.1 v hv).2⟩, fun hP => ih2 (hp.2 hP)⟩
  | spawn l key v next ih => exact fun hp => ⟨hp.1, ih hp.2⟩
  | chooseErr p k ih => exact fun hp x hx => ih x (hp x hx)
  | chooseHyd p k ih => exact fun hp x hx => ih x (hp x hx)
  | chooseBytes p k ih => exact fun hp x hx => ih x (hp x hx)
  | chooseGlobal p k ih => exact fun hp x hx => ih x (hp x hx)

/-- Every answer about an unloadable folder leaves it in the cache. -/
theorem anchored_log {be : Backend H B S} (hs : be.Sane) {allowed : Req → Prop} (hn : Normal allowed) {id : String}
    (hu : Unloadable be id) {s : State H B S} (h : Steps be false allowed State.init s) :
    (∀ z ∈ s.threads, folderOf z.1 = some id → Anchored be allowed id (dom s) z.2) ∧ ∀ z ∈ s.log, folderOf z.1 = some id → dom s id := by
  generalize hi : State.init = s0 at h
  induction h with
  | refl => subst hi; simp [State.init]
  | @tail t u hst st ih =>
    obtain ⟨h1, h2⟩ := ih
    subst hi
    refine ⟨(anchored_inv hn hu).step (inv_reach hn hs hst) h1 st, ?_⟩
    have h3 : ∀ z ∈ t.log, folderOf z.1 = some id → dom u id := fun z hz hf => dom_step st _ (h2 z hz hf)
    cases st with
    | done pre post r o he =>
      intro z hz hf
      rcases List.mem_cons.1 hz with rfl | hz
      · exact h1 (r, .done o) (by rw [he]; simp) hf
      · exact h3 z hz hf
    | _ => exact h3

/-- **C172 is false, more so.** A folder whose files could not be loaded when it was first asked about is never answered about again:
every later call panics, even when the files have been corrected. -/
theorem C172_broken_fails (be be' : Backend H B S) (hs : be.Sane) (hs' : be'.Sane) (hr : SameRest be be') (allowed : Req → Prop)
    (hn : Normal allowed) (id : String) (hu : Unloadable be id) (s t : State H B S) (h : Steps be false allowed State.init s)
    (hq : Quiet s) (hasked : ∃ r o, (r, o) ∈ s.log ∧ folderOf r = some id) (ht : Steps be' false allowed s t) :
    ∃ new, t.log = new ++ s.log ∧ ∀ r o, (r, o) ∈ new → folderOf r = some id → o = .panic := by
  obtain ⟨r0, o0, h1, h2⟩ := hasked
  have hc : s.cache id ≠ none := by
    rcases (anchored_log hs hn hu h).2 _ h1 h2 with hd | ⟨_, _, hd⟩
    · exact hd
    · rw [hq.2] at hd; cases hd
  obtain ⟨hv, _⟩ := version_next hn (version_init allowed id be) rfl hs (SameRest.refl be) (.inr rfl) h
  have hub : Unloadable (blend id be) id := ⟨fun x hx => hu.1 x (hx rfl), fun x hx => hu.2 x (hx.1 rfl)⟩
  have hk : ∀ r, allowed r → Keeps (blend id be) allowed (fun k => k = id) (fun o => folderOf r = some id → o = .panic)
      (prog be' false r) := by
    intro r hr'
    by_cases hf : folderOf r = some id
    · exact keeps_mono (fun o ho _ => ho) _ (panics_prog (P := fun k => k = id) hn hub rfl hr' hf be')
    · refine keeps_mono (ok := Allowed (blend id be) r) (fun o _ hf' => absurd hf' hf) _ ?_
      exact (fewer_prog (P := fun k => k = id) (id := id) (own := be) hs' hr (.inl ⟨rfl, rfl⟩) r).keeps
        (Safe.keeps _ _ (safe_prog hn (blend_sane id be) false hr'))
  have h0 : Stands (blend id be) allowed (fun k => k = id) (fun r o => folderOf r = some id → o = .panic) s.log s :=
    ⟨hv.cache, hv.pending, fun k hk => hk ▸ hc, by simp [hq.1], ⟨[], rfl, by simp⟩, hv.leaked, hv.waiting⟩
  obtain ⟨new, h3, h4⟩ := (stands_steps hk h0 ht).log
  exact ⟨new, h3, fun r o ho hf => (h4 _ ho).2 hf⟩

/-- A version of folder `"a-1"` that cannot be loaded. -/
def versionBroken : Backend Nat Nat Unit := { versionN 0 with hydrate := fun _ x => x = some (none, some "bad folder") }

theorem ask_broken : ∃ s : State Nat Nat Unit, Steps versionBroken false someCalls State.init s ∧ Quiet s ∧
    s.log = [(.catalog "a-1", .ret (.bytes none) (some "bad folder"))] ∧ s.waiting = (fun _ => false) ∧
    s.cache "a-1/" = none ∧ s.cache "a-1" = some (.hyd none) := by
  have h := Steps.refl (be := versionBroken) (dry := false) (allowed := someCalls) State.init
  have h := h.tail (.start _ (.catalog "a-1") (.inl rfl))
  have h := h.tail (.miss _ [] [] _ _ _ _ _ _ rfl rfl rfl)
  have h := h.tail (.chooseErr _ [] [] _ _ _ none rfl (by simp [versionBroken, versionN]))
  have h := h.tail (.chooseHyd _ [] [] _ _ _ (some (none, some "bad folder")) rfl (by simp [versionBroken]))
  have h := h.tail (.spawn _ [] [] _ _ _ _ _ rfl)
  have h := h.tail (.done _ [] [] _ _ rfl)
  have h := h.tail (.commit _ [] [] _ _ _ rfl rfl)
  exact ⟨_, h, ⟨rfl, rfl⟩, rfl, rfl, by simp [upd, State.init], by simp [upd]⟩

/-- The hypotheses of `C172_broken_fails` are met, and the calls do panic: the corrected folder is not shown. -/
example : ∃ s t : State Nat Nat Unit, versionBroken.Sane ∧ SameRest versionBroken (versionN 1) ∧ Unloadable versionBroken "a-1" ∧
    Steps versionBroken false someCalls State.init s ∧ Quiet s ∧ s.log = [(.catalog "a-1", .ret (.bytes none) (some "bad folder"))] ∧
    Steps (versionN 1) false someCalls s t ∧ t.log = (.catalog "a-1", .panic) :: s.log := by
  obtain ⟨s, h, hq, hl, hw, h1, h2⟩ := ask_broken
  have h' := Steps.refl (be := versionN 1) (dry := false) (allowed := someCalls) s
  have h' := h'.tail (.start _ (.catalog "a-1") (.inl rfl))
  have h' := h'.tail (.hit _ [] _ _ _ _ _ _ _ (.hyd none) rfl (by show s.waiting _ = false; rw [hw]) h2 rfl)
  have h' := h'.tail (.miss _ [] _ _ _ _ _ _ _ rfl (by show s.waiting _ = false; rw [hw]) h1)
  have h' := h'.tail (.done _ [] _ _ _ rfl)
  refine ⟨s, _, ?_, ⟨rfl, rfl, rfl, rfl, rfl⟩, ⟨?_, ?_⟩, h, hq, hl, h', rfl⟩
  · intro id h e hh
    simp [versionBroken] at hh
    simp [hh]
  · simp [versionBroken, versionN]
  · simp [versionBroken]

/-- **C172, in part.** A folder that was not there before the change, or that nobody had asked about, is answered about as it is after
the change. Missing: folders that were there and have been asked about, see `C172_stale_fails` and `C172_broken_fails`. -/
theorem C172_new_partial (be be' : Backend H B S) (hs : be.Sane) (hs' : be'.Sane) (hr : SameRest be be') (allowed : Req → Prop)
    (hn : Normal allowed) (id : String) (s t : State H B S) (h : Steps be false allowed State.init s) (hq : Quiet s)
    (hnew : ¬ be.discover id none ∨ ∀ r o, (r, o) ∈ s.log → folderOf r ≠ some id) (ht : Steps be' false allowed s t) :
    ∃ new, t.log = new ++ s.log ∧ ∀ r o, (r, o) ∈ new → folderOf r = some id → AnswersAs be' r o := by
  obtain ⟨hv, _⟩ := version_next hn (version_init allowed id be) rfl hs (SameRest.refl be) (.inr rfl) h
  by_cases hid : IdOk id
  · have hc : s.cache id = none := by
      cases hk : s.cache id with
      | none => rfl
      | some v =>
        exfalso
        have hn' : Normal (fun r => allowed r ∧ Arrived s r) := normal_mono (fun r hr => hr.1) hn
        have hl := (inv_reach hn' hs (steps_arrived h)).cache _ _ hk
        rcases hnew with hno | hno
        · obtain ⟨_, _, _, h1, _⟩ := legit_id hn' hid hl
          exact hno h1
        · have : ∃ r, (allowed r ∧ Arrived s r) ∧ folderOf r = some id := by
            obtain ⟨h0, _, rfl, _⟩ := legit_id hn' hid hl
            generalize hg : Val.hyd h0 = w at hl
            cases hl with
            | hyd r _ h e h1 h2 => exact ⟨r, h1, h2⟩
            | _ => cases hg
          obtain ⟨r, ⟨_, ha⟩, hf⟩ := this
          rcases ha with ⟨o, ho⟩ | ⟨p, hp⟩
          · exact hno r o ho hf
          · rw [hq.1] at hp; cases hp
    obtain ⟨_, new, h4, h5⟩ := version_next hn (version_switch hn hv hq.2 hc hr) hq.1 hs' (SameRest.refl be') (.inr rfl) ht
    exact ⟨new, h4, fun r o ho hf => h5 _ ho hf⟩
  · by_cases hc : s.cache id = none
    · obtain ⟨_, new, h4, h5⟩ := version_next hn (version_switch hn hv hq.2 hc hr) hq.1 hs' (SameRest.refl be') (.inr rfl) ht
      exact ⟨new, h4, fun r o ho hf => h5 _ ho hf⟩
    · obtain ⟨hv', new, h4, _⟩ := version_next hn hv hq.1 hs' hr (.inl hc) ht
      exact ⟨new, h4, fun r o ho hf => absurd (folder_idOk hn (hv'.logged (r, o) (by rw [h4]; simp [ho])) hf) hid⟩

/-- The hypotheses are met: a folder is added, and asked about after that. -/
example : ∃ s : State Nat Nat Unit, Steps { versionN 1 with discover := fun _ x => x = some "missing" } false someCalls State.init s ∧
    Quiet s ∧ s.log = [(.catalog "a-1", .ret (.bytes none) (some "failed to discover folder, missing"))] := by
  have h := Steps.refl (be := { versionN 1 with discover := fun _ x => x = some "missing" }) (dry := false) (allowed := someCalls) State.init
  have h := h.tail (.start _ (.catalog "a-1") (.inl rfl))
  have h := h.tail (.miss _ [] [] _ _ _ _ _ _ rfl rfl rfl)
  have h := h.tail (.chooseErr _ [] [] _ _ _ (some "missing") rfl rfl)
  have h := h.tail (.done _ [] [] _ _ rfl)
  exact ⟨_, h, ⟨rfl, rfl⟩, rfl⟩

/-- `p` does not look at the cache. -/
def NoCache : Prog H B S → Prop
  | .done _ => True
  | .get .. => False
  | .spawn .. => False
  | .chooseErr _ k => ∀ x, NoCache (k x)
  | .chooseHyd _ k => ∀ x, NoCache (k x)
  | .chooseBytes _ k => ∀ x, NoCache (k x)
  | .chooseGlobal _ k => ∀ x, NoCache (k x)

theorem noCache_hydratable {be : Backend H B S} {id : String} {k : Option H → Option String → Prog H B S} (hk : ∀ h e, NoCache (k h e)) :
    NoCache (hydratable be true id k) := by
  rintro (_ | m)
  · rintro (_ | ⟨h, e⟩)
    · trivial
    · exact hk h e
  · exact hk _ _

theorem noCache_rest {h : Option H} {e : Option String} {k : H → Prog H B S} (hk : ∀ h, NoCache (k h)) : NoCache (orFail e (withHyd h k)) := by
  cases e with
  | some m => trivial
  | none =>
    cases h with
    | none => trivial
    | some h => exact hk h

theorem noCache_finish (key : String) (x : Option (Option B × Option String)) : NoCache (finish (H := H) (S := S) true key x) := by
  cases x <;> trivial

theorem noCache_prog (be : Backend H B S) {r : Req} {id : String} (hf : folderOf r = some id) : NoCache (prog be true r) := by
  cases r with
  | catalog i =>
    unfold prog catalogProg
    exact noCache_hydratable fun h e => noCache_rest fun h x => noCache_finish _ x
  | express i n c =>
    unfold prog expressProg
    exact noCache_hydratable fun h e => noCache_rest fun h x => noCache_finish _ x
  | renderable i hash =>
    simp only [prog, renderableProg, cachedBytes, if_true]
    refine noCache_hydratable fun h e => noCache_rest fun h => ?_
    unfold renderableFresh
    split
    · cases be.docBytes h with
      | none => trivial
      | some d => exact noCache_finish _ _
    · exact fun x => noCache_finish _ x
  | schema u => cases hf
  | utr => cases hf
  | names => cases hf

theorem noCache_inv {be : Backend H B S} (hs : be.Sane) (allowed : Req → Prop) (id : String) : ThreadInv be true allowed (fun _ => True)
    (fun _ r p => folderOf r = some id → Safe be allowed (Direct be r) p ∧ NoCache p) where
  mono := fun _ _ _ _ _ _ h => h
  start := fun _ _ _ hr hf => ⟨safe_dry hs hr hf, noCache_prog be hf⟩
  hit := fun _ _ _ _ _ _ _ _ _ h _ _ _ hf => (h hf).2.elim
  clash := fun _ _ _ _ _ _ _ _ _ h _ _ _ hf => (h hf).2.elim
  miss := fun _ _ _ _ _ _ _ _ h _ _ hf => (h hf).2.elim
  spawn := fun _ _ _ _ _ _ _ _ h _ _ _ hf => (h hf).2.elim
  chooseErr := fun _ _ _ _ x _ h hx hf => ⟨(h hf).1 x hx, (h hf).2 x⟩
  chooseHyd := fun _ _ _ _ x _ h hx hf => ⟨(h hf).1 x hx, (h hf).2 x⟩
  chooseBytes := fun _ _ _ _ x _ h hx hf => ⟨(h hf).1 x hx, (h hf).2 x⟩
  chooseGlobal := fun _ _ _ _ x _ h hx hf => ⟨(h hf).1 x hx, (h hf).2 x⟩

/-- **C172 without the cache.** With caching switched off (`NewCache(true)`) the answers after a change are those of the new
files, whatever happened before: `s` is any state in which no call is in progress. -/
theorem C172_dry (be' : Backend H B S) (hs' : be'.Sane) (allowed : Req → Prop) (id : String) (s t : State H B S)
    (hq : s.threads = []) (ht : Steps be' true allowed s t) :
    ∃ new, t.log = new ++ s.log ∧ ∀ r o, (r, o) ∈ new → folderOf r = some id → Direct be' r o := by
  have main : (∀ z ∈ t.threads, folderOf z.1 = some id → Safe be' allowed (Direct be' z.1) z.2 ∧ NoCache z.2) ∧
      ∃ new, t.log = new ++ s.log ∧ ∀ r o, (r, o) ∈ new → folderOf r = some id → Direct be' r o := by
    induction ht with
    | refl => exact ⟨by simp [hq], [], rfl, by simp⟩
    | @tail u v _ st ih =>
      obtain ⟨h1, new, h2, h3⟩ := ih
      refine ⟨(noCache_inv hs' allowed id).step trivial h1 st, ?_⟩
      cases st with
      | done pre post r o he =>
        refine ⟨(r, o) :: new, by simp [h2], ?_⟩
        intro r' o' ho hf
        rcases List.mem_cons.1 ho with h | h
        · cases h
          exact (h1 (r, .done o) (by rw [he]; simp) hf).1
        · exact h3 r' o' h hf
      | _ => exact ⟨new, h2, h3⟩
  exact main.2

/-- The hypotheses are met by a server that has answered about the old files; then the new ones show. -/
example : ∃ s t : State Nat Nat Unit, Steps (versionN 1) true someCalls State.init s ∧ s.threads = [] ∧ Steps (versionN 2) true someCalls s t ∧
    t.log = [(.catalog "a-1", .ret (.bytes (some 2)) none), (.catalog "a-1", .ret (.bytes (some 1)) none)] := by
  have direct : ∀ n, Direct (versionN n) (.catalog "a-1") (.ret (.bytes (some n)) none) := fun n =>
    .computed _ "a-1" n _ _ rfl (by simp [versionN]) rfl rfl
  obtain ⟨s, h1, h2, h3⟩ := C60_every (versionN 1) someCalls State.init _ (.inl rfl) _ ⟨"a-1", rfl⟩ (direct 1)
  obtain ⟨t, h4, h5, _⟩ := C60_every (versionN 2) someCalls s _ (.inl rfl) _ ⟨"a-1", rfl⟩ (direct 2)
  exact ⟨s, t, h1, h3, h4, by rw [h5, h2]; rfl⟩

/-! ## C173 -/

theorem phases_version {allowed : Req → Prop} (hn : Normal allowed) {bs : List (Backend H B S)} {s : State H B S} (h : Phases allowed bs s)
    (id : String) : ∃ own ∈ bs, Version allowed id own s ∧ (∀ b ∈ bs, SameRest own b) ∧
      ∀ r o, (r, o) ∈ s.log → folderOf r = some id → (Succeeds o → AnswersAs own r o) ∧ ∃ v ∈ bs, AnswersAs v r o := by
  induction h with
  | first be s hs h =>
    obtain ⟨hv, new, h1, h2⟩ := version_next hn (version_init allowed id be) rfl hs (SameRest.refl be) (.inr rfl) h
    refine ⟨be, by simp, hv, by simpa using SameRest.refl be, fun r o ho hf => ?_⟩
    rw [h1] at ho
    have ha := h2 (r, o) (by simpa [State.init] using ho) hf
    exact ⟨fun _ => ha, be, by simp, ha⟩
  | change be be' bs s t _ hq hs hr ht ih =>
    obtain ⟨own, ho, hv, hsame, hlog⟩ := ih
    have hbe := hsame be (by simp)
    by_cases hc : s.cache id = none
    · obtain ⟨hv', new, h1, h2⟩ := version_next hn (version_switch hn hv hq.2 hc (hbe.trans hr)) hq.1 hs (SameRest.refl be') (.inr rfl) ht
      refine ⟨be', by simp, hv', ?_, fun r o hro hf => ?_⟩
      · intro b hb
        rcases List.mem_cons.1 hb with rfl | hb
        · exact SameRest.refl _
        · exact (hbe.trans hr).symm.trans (hsame b hb)
      · rw [h1] at hro
        rcases List.mem_append.1 hro with hro | hro
        · exact ⟨fun _ => h2 _ hro hf, be', by simp, h2 _ hro hf⟩
        · obtain ⟨_, v, hvm, ha⟩ := hlog r o hro hf
          exact ⟨fun hsu => absurd hc (version_loaded hn hv hq.2 hro hf hsu), v, by simp [List.mem_cons.1 hvm], ha⟩
    · obtain ⟨hv', new, h1, h2⟩ := version_next hn hv hq.1 hs (hbe.trans hr) (.inl hc) ht
      refine ⟨own, List.mem_cons_of_mem _ ho, hv', ?_, fun r o hro hf => ?_⟩
      · intro b hb
        rcases List.mem_cons.1 hb with rfl | hb
        · exact hbe.trans hr
        · exact hsame b hb
      · rw [h1] at hro
        rcases List.mem_append.1 hro with hro | hro
        · exact ⟨fun _ => h2 _ hro hf, own, List.mem_cons_of_mem _ ho, h2 _ hro hf⟩
        · obtain ⟨hsu, v, hvm, ha⟩ := hlog r o hro hf
          exact ⟨hsu, v, List.mem_cons_of_mem _ hvm, ha⟩

/-- **C173, in part.** However often the files change, if every change happens when nothing is going on then all successful answers
about a folder are of one version of it, and the other answers are of some version. Missing: changes while answers are still being
written to the cache, see `C173_mixed_fails`. -/
theorem C173_partial (allowed : Req → Prop) (hn : Normal allowed) (bs : List (Backend H B S)) (s : State H B S)
    (h : Phases allowed bs s) (id : String) :
    ∃ own ∈ bs, ∀ r o, (r, o) ∈ s.log → folderOf r = some id → (Succeeds o → AnswersAs own r o) ∧ ∃ v ∈ bs, AnswersAs v r o := by
  obtain ⟨own, h1, _, _, h2⟩ := phases_version hn h id
  exact ⟨own, h1, h2⟩

/-- The hypotheses are met: a history with two versions. -/
example : ∃ t : State Nat Nat Unit, Phases someCalls [versionN 2, versionN 1] t ∧
    t.log = [(.catalog "a-1", .ret (.bytes (some 1)) none), (.catalog "a-1", .ret (.bytes (some 1)) none)] := by
  obtain ⟨s, h, hq, hl, hw, h1, h2⟩ := ask_catalog_quiet 1
  have h' := Steps.refl (be := versionN 2) (dry := false) (allowed := someCalls) s
  have h' := h'.tail (.start _ (.catalog "a-1") (.inl rfl))
  have h' := h'.tail (.hit _ [] _ _ _ _ _ _ _ (.hyd (some 1)) rfl (by show s.waiting _ = false; rw [hw]) h2 rfl)
  have h' := h'.tail (.hit _ [] _ _ _ _ _ _ _ (.bytes (some 1)) rfl (by show s.waiting _ = false; rw [hw]) h1 rfl)
  have h' := h'.tail (.done _ [] _ _ _ rfl)
  exact ⟨_, .change _ _ _ _ _ (.first _ _ (versionN_sane 1) h) hq (versionN_sane 2) (versionN_rest 1 2) h', by rw [← hl]⟩

/-- **C173 is false.** If the files change after an answer was given and before it is in the cache, then the catalog stays that of
the old version and the rest is that of the new one: the answers contradict each other, and go on to do so. -/
theorem C173_mixed_fails : ∃ s t : State Nat Nat Unit, Steps (versionN 1) false someCalls State.init s ∧ s.threads = [] ∧
    Steps (versionN 2) false someCalls s t ∧ Quiet t ∧
    t.log = [(.catalog "a-1", .ret (.bytes (some 1)) none), (.renderable "a-1" "f00d", .ret (.bytes (some 2)) none)] ++ s.log ∧
    t.cache "a-1/" = some (.bytes (some 1)) ∧ t.cache "a-1/f00d" = some (.bytes (some 2)) := by
  obtain ⟨s, h, h1, h2, h3, h4, h5, h6⟩ := ask_catalog 1
  refine ⟨s, ?_⟩
  have h' := Steps.refl (be := versionN 2) (dry := false) (allowed := someCalls) s
  obtain ⟨c, p, th, lk, w, lg⟩ := s
  simp only at h1 h2 h3 h4 h5 h6
  subst h1 h2 h3 h4 h5 h6
  have e : renderableFresh (versionN 2) false "a-1" "f00d" 2 =
      .chooseBytes ((versionN 2).renderable "f00d" 2) (finish false ("a-1" ++ "/" ++ "f00d")) := by
    unfold renderableFresh; rw [if_neg (by decide)]
  have h' := h'.tail (.start _ (.renderable "a-1" "f00d") (.inr (.inl rfl)))
  have h' := h'.tail (.miss _ [] [] _ _ _ _ _ _ rfl rfl rfl)
  have h' := h'.tail (.miss _ [] [] _ _ _ _ _ _ rfl rfl rfl)
  have h' := h'.tail (.chooseErr _ [] [] _ _ _ none rfl (by simp [versionN]))
  have h' := h'.tail (.chooseHyd _ [] [] _ _ _ (some (some 2, none)) rfl (by simp [versionN]))
  have h' := h'.tail (.spawn _ [] [] _ _ _ _ _ rfl)
  simp only [orFail, withHyd, e] at h'
  have h' := h'.tail (.chooseBytes _ [] [] _ _ _ (some (some 2, none)) rfl (by simp [versionN]))
  have h' := h'.tail (.spawn _ [] [] _ _ _ _ _ rfl)
  have h' := h'.tail (.done _ [] [] _ _ rfl)
  have h' := h'.tail (.commit _ [] _ _ _ _ rfl rfl)
  have h' := h'.tail (.commit _ [] _ _ _ _ rfl rfl)
  have h' := h'.tail (.commit _ [] _ _ _ _ rfl rfl)
  have h' := h'.tail (.commit _ [] [] _ _ _ rfl rfl)
  have h' := h'.tail (.start _ (.catalog "a-1") (.inl rfl))
  have h' := h'.tail (.hit _ [] [] _ _ _ _ _ _ (.hyd (some 1)) rfl rfl (by simp [upd]) rfl)
  have h' := h'.tail (.hit _ [] [] _ _ _ _ _ _ (.bytes (some 1)) rfl rfl (by simp [upd]) rfl)
  have h' := h'.tail (.done _ [] [] _ _ rfl)
  exact ⟨_, h, rfl, h', ⟨rfl, rfl⟩, rfl, by simp [upd], by simp [upd]⟩

end Telefacts
