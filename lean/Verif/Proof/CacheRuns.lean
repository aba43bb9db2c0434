import Verif.Proof.Cache
/-! # Runs of the cache layer: thread invariants, draining, blocking, stability -/
namespace Telefacts.Cache
open Telefacts
variable {H B S : Type}

/-- Closure conditions for a predicate on threads, relative to a state invariant `G`. -/
structure ThreadInv (be : Backend H B S) (dry : Bool) (allowed : Req → Prop) (G : State H B S → Prop)
    (T : State H B S → Req → Prog H B S → Prop) : Prop where
  mono : ∀ s t r p, Step be dry allowed s t → G s → T s r p → T t r p
  start : ∀ s r, G s → allowed r → T s r (prog be dry r)
  hit : ∀ s r l key kind hit miss v, G s → T s r (.get l key kind hit miss) → s.waiting l = false →
    s.cache key = some v → v.kind = kind → T s r (hit v)
  clash : ∀ s r l key kind hit miss v, G s → T s r (.get l key kind hit miss) → s.waiting l = false →
    s.cache key = some v → v.kind ≠ kind → T s r (.done .panic)
  miss : ∀ s r l key kind hit miss, G s → T s r (.get l key kind hit miss) → s.waiting l = false →
    s.cache key = none → T s r miss
  spawn : ∀ (s t : State H B S) r l key v next, G s → T s r (.spawn l key v next) →
    t.pending = (l, key, v) :: s.pending → t.cache = s.cache → t.waiting = s.waiting → T t r next
  chooseErr : ∀ s r possible k x, G s → T s r (.chooseErr possible k) → possible x → T s r (k x)
  chooseHyd : ∀ s r possible k x, G s → T s r (.chooseHyd possible k) → possible x → T s r (k x)
  chooseBytes : ∀ s r possible k x, G s → T s r (.chooseBytes possible k) → possible x → T s r (k x)
  chooseGlobal : ∀ s r possible k x, G s → T s r (.chooseGlobal possible k) → possible x → T s r (k x)

/-- The invariant holds of the threads after a step. -/
theorem ThreadInv.step {be : Backend H B S} {dry : Bool} {allowed : Req → Prop} {G : State H B S → Prop}
    {T : State H B S → Req → Prog H B S → Prop} (ti : ThreadInv be dry allowed G T) {s t : State H B S}
    (hg : G s) (hT : ∀ z ∈ s.threads, T s z.1 z.2) (h : Step be dry allowed s t) :
    ∀ z ∈ t.threads, T t z.1 z.2 := by
  have hm : ∀ z : Req × Prog H B S, T s z.1 z.2 → T t z.1 z.2 := fun z hz => ti.mono s t _ _ h hg hz
  have hT' : ∀ z ∈ s.threads, T t z.1 z.2 := fun z hz => hm z (hT z hz)
  have rep : ∀ {pre post : List (Req × Prog H B S)} {r : Req} {p q : Prog H B S},
      s.threads = pre ++ (r, p) :: post → (T s r p → T t r q) →
      ∀ z ∈ pre ++ (r, q) :: post, T t z.1 z.2 := by
    intro pre post r p q he hq
    exact threads_replace (P := fun z => T t z.1 z.2) (x := (r, p)) (y := (r, q)) he hT'
      (fun _ => hq (hT (r, p) (by rw [he]; simp)))
  cases h with
  | start r hr =>
    intro z hz
    rcases List.mem_cons.1 hz with rfl | hz
    · exact hm (r, prog be dry r) (ti.start s r hg hr)
    · exact hT' z hz
  | done pre post r o he =>
    intro z hz
    refine hT' z ?_
    rw [he]; simp at hz ⊢; rcases hz with h | h <;> simp [h]
  | hit pre post r l key kind hit miss v he hw hc hk =>
    exact rep he fun hx => hm (r, hit v) (ti.hit s r _ _ _ _ _ v hg hx hw hc hk)
  | clash pre post r l key kind hit miss v he hw hc hk =>
    exact rep he fun hx => hm (r, .done .panic) (ti.clash s r _ _ _ _ _ v hg hx hw hc hk)
  | miss pre post r l key kind hit miss he hw hc =>
    exact rep he fun hx => hm (r, miss) (ti.miss s r _ _ _ _ _ hg hx hw hc)
  | spawn pre post r l key v next he =>
    exact rep he fun hx => ti.spawn s _ r l key v next hg hx rfl rfl rfl
  | chooseErr pre post r possible k x he hx =>
    exact rep he fun h => hm (r, k x) (ti.chooseErr s r _ _ x hg h hx)
  | chooseHyd pre post r possible k x he hx =>
    exact rep he fun h => hm (r, k x) (ti.chooseHyd s r _ _ x hg h hx)
  | chooseBytes pre post r possible k x he hx =>
    exact rep he fun h => hm (r, k x) (ti.chooseBytes s r _ _ x hg h hx)
  | chooseGlobal pre post r possible k x he hx =>
    exact rep he fun h => hm (r, k x) (ti.chooseGlobal s r _ _ x hg h hx)
  | commit pre post l key v he hl => exact hT'
  | block pre post l key v he hl => exact hT'

/-! ## Draining -/

/-- Every call into the rest of the program can return. -/
structure Backend.Total (be : Backend H B S) : Prop where
  discover : ∀ id, ∃ x, be.discover id x
  hydrate : ∀ id, ∃ x, be.hydrate id x
  catalog : ∀ h, ∃ x, be.catalog h x
  renderable : ∀ hash h, ∃ x, be.renderable hash h x
  express : ∀ n c h, ∃ x, be.express n c h x
  schema : ∀ u, ∃ x, be.schema u x
  utr : ∃ x, be.utr x
  names : ∃ x, be.names x

/-- Every choice has an alternative. -/
def Live : Prog H B S → Prop
  | .done _ => True
  | .get _ _ _ hit miss => (∀ v, Live (hit v)) ∧ Live miss
  | .spawn _ _ _ next => Live next
  | .chooseErr p k => (∃ x, p x) ∧ ∀ x, Live (k x)
  | .chooseHyd p k => (∃ x, p x) ∧ ∀ x, Live (k x)
  | .chooseBytes p k => (∃ x, p x) ∧ ∀ x, Live (k x)
  | .chooseGlobal p k => (∃ x, p x) ∧ ∀ x, Live (k x)

theorem live_hydratable {be : Backend H B S} (ht : be.Total) (dry : Bool) (id : String)
    {k : Option H → Option String → Prog H B S} (hk : ∀ h e, Live (k h e)) :
    Live (hydratable be dry id k) := by
  have fresh : Live (Prog.chooseErr (be.discover id) fun
      | some m => k none (some ("failed to discover folder, " ++ m))
      | none => .chooseHyd (be.hydrate id) fun
        | none => .done .panic
        | some (ret, err) =>
          if dry then k ret err else .spawn .app id (.hyd ret) (k ret err)) := by
    refine ⟨ht.discover id, ?_⟩
    rintro (_ | m)
    · refine ⟨ht.hydrate id, ?_⟩
      rintro (_ | ⟨h, e⟩)
      · trivial
      · dsimp only
        cases dry
        · exact hk h e
        · exact hk h e
    · exact hk _ _
  cases dry
  · refine ⟨?_, fresh⟩
    intro v
    cases v <;> first | exact hk _ _ | trivial
  · exact fresh

theorem live_finish (dry : Bool) (key : String) (x : Option (Option B × Option String)) :
    Live (finish (H := H) (S := S) dry key x) := by
  cases x with
  | none => trivial
  | some p => cases dry <;> trivial

theorem live_cachedBytes {dry : Bool} {key : String} {p : Prog H B S} (h : Live p) :
    Live (cachedBytes dry key p) := by
  cases dry
  · exact ⟨fun _ => trivial, h⟩
  · exact h

theorem live_orFail {e : Option String} {p : Prog H B S} (h : Live p) : Live (orFail e p) := by
  cases e
  · exact h
  · trivial

theorem live_withHyd {h : Option H} {k : H → Prog H B S} (hk : ∀ h, Live (k h)) :
    Live (withHyd h k) := by
  cases h
  · trivial
  · exact hk _

theorem live_prog {be : Backend H B S} (ht : be.Total) (dry : Bool) (r : Req) : Live (prog be dry r) := by
  cases r with
  | catalog id =>
    unfold prog catalogProg
    refine live_hydratable ht dry id fun h e => ?_
    refine live_orFail <| live_cachedBytes <| live_withHyd fun h => ?_
    exact ⟨ht.catalog h, fun x => live_finish _ _ x⟩
  | express id n c =>
    unfold prog expressProg
    refine live_hydratable ht dry id fun h e => ?_
    refine live_orFail <| live_cachedBytes <| live_withHyd fun h => ?_
    exact ⟨ht.express n c h, fun x => live_finish _ _ x⟩
  | renderable id hash =>
    refine live_cachedBytes <| live_hydratable ht dry id fun h e => live_orFail <| live_withHyd fun h => ?_
    unfold renderableFresh
    split
    · cases be.docBytes h with
      | none => trivial
      | some d => exact live_finish _ _ _
    · exact ⟨ht.renderable hash h, fun x => live_finish _ _ x⟩
  | schema u =>
    refine ⟨fun _ => trivial, ht.schema u, ?_⟩
    rintro (_ | s) <;> trivial
  | utr =>
    refine ⟨fun _ => trivial, ht.utr, ?_⟩
    rintro (_ | s) <;> trivial
  | names =>
    refine ⟨fun _ => trivial, ht.names, ?_⟩
    rintro (_ | s) <;> trivial

theorem live_inv {be : Backend H B S} (ht : be.Total) (dry : Bool) (allowed : Req → Prop) :
    ThreadInv be dry allowed (fun _ => True) (fun _ _ p => Live p) where
  mono := fun _ _ _ _ _ _ h => h
  start := fun _ r _ _ => live_prog ht dry r
  hit := fun _ _ _ _ _ _ _ v _ h _ _ _ => h.1 v
  clash := fun _ _ _ _ _ _ _ _ _ _ _ _ _ => trivial
  miss := fun _ _ _ _ _ _ _ _ h _ _ => h.2
  spawn := fun _ _ _ _ _ _ _ _ h _ _ _ => h
  chooseErr := fun _ _ _ _ x _ h _ => h.2 x
  chooseHyd := fun _ _ _ _ x _ h _ => h.2 x
  chooseBytes := fun _ _ _ _ x _ h _ => h.2 x
  chooseGlobal := fun _ _ _ _ x _ h _ => h.2 x

/-- The log only grows. -/
theorem log_steps {be : Backend H B S} {dry : Bool} {allowed : Req → Prop} {s t : State H B S}
    (h : Steps be dry allowed s t) : ∀ z ∈ s.log, z ∈ t.log := by
  induction h with
  | refl => exact fun _ h => h
  | tail _ hs ih =>
    intro z hz
    have := ih z hz
    cases hs <;> first | exact this | exact List.mem_cons_of_mem _ this

/-- In normal operation the first call in progress can always be finished. -/
theorem finish_one {be : Backend H B S} {dry : Bool} {allowed : Req → Prop}
    {ok : Req → Out H B S → Prop} (hsafe : ∀ r, allowed r → Safe be allowed (ok r) (prog be dry r))
    (r : Req) (post : List (Req × Prog H B S)) (p : Prog H B S) :
    ∀ s : State H B S, Inv be allowed ok s → s.threads = (r, p) :: post → Live p →
    ∃ t o, Steps be dry allowed s t ∧ t.threads = post ∧ (r, o) ∈ t.log := by
  have go : ∀ {s t : State H B S} {q : Prog H B S}, Step be dry allowed s t → Inv be allowed ok s →
      (∀ s : State H B S, Inv be allowed ok s → s.threads = (r, q) :: post → Live q →
        ∃ t o, Steps be dry allowed s t ∧ t.threads = post ∧ (r, o) ∈ t.log) →
      t.threads = (r, q) :: post → Live q →
      ∃ t o, Steps be dry allowed s t ∧ t.threads = post ∧ (r, o) ∈ t.log := by
    intro s t q hs hi ih ht hl
    obtain ⟨u, o, h1, h2, h3⟩ := ih t (inv_step hsafe hi hs) ht hl
    exact ⟨u, o, steps_trans (.tail (.refl s) hs) h1, h2, h3⟩
  induction p with
  | done o =>
    intro s hi he _
    exact ⟨_, o, .tail (.refl s) (.done s [] post r o he), rfl, by simp⟩
  | get l key kind hit miss ih1 ih2 =>
    intro s hi he hl
    have hsafe' := (hi.threads r (.get l key kind hit miss) (by rw [he]; simp)).2
    cases hc : s.cache key with
    | none => exact go (.miss s [] post r l key kind hit miss he (hi.waiting l) hc) hi ih2 rfl hl.2
    | some v =>
      exact go (.hit s [] post r l key kind hit miss v he (hi.waiting l) hc
        (hsafe'.1 v (hi.cache _ _ hc)).1) hi (ih1 v) rfl (hl.1 v)
  | spawn l key v next ih =>
    intro s hi he hl
    exact go (.spawn s [] post r l key v next he) hi ih rfl hl
  | chooseErr p k ih =>
    intro s hi he hl
    obtain ⟨x, hx⟩ := hl.1
    exact go (.chooseErr s [] post r p k x he hx) hi (ih x) rfl (hl.2 x)
  | chooseHyd p k ih =>
    intro s hi he hl
    obtain ⟨x, hx⟩ := hl.1
    exact go (.chooseHyd s [] post r p k x he hx) hi (ih x) rfl (hl.2 x)
  | chooseBytes p k ih =>
    intro s hi he hl
    obtain ⟨x, hx⟩ := hl.1
    exact go (.chooseBytes s [] post r p k x he hx) hi (ih x) rfl (hl.2 x)
  | chooseGlobal p k ih =>
    intro s hi he hl
    obtain ⟨x, hx⟩ := hl.1
    exact go (.chooseGlobal s [] post r p k x he hx) hi (ih x) rfl (hl.2 x)

theorem drain_threads {be : Backend H B S} {dry : Bool} {allowed : Req → Prop}
    {ok : Req → Out H B S → Prop} (hsafe : ∀ r, allowed r → Safe be allowed (ok r) (prog be dry r))
    (ths : List (Req × Prog H B S)) :
    ∀ s : State H B S, Inv be allowed ok s → s.threads = ths → (∀ z ∈ ths, Live z.2) →
    ∃ t, Steps be dry allowed s t ∧ t.threads = [] ∧ ∀ z ∈ ths, ∃ o, (z.1, o) ∈ t.log := by
  induction ths with
  | nil => intro s hi he _; exact ⟨s, .refl s, he, by simp⟩
  | cons z ths ih =>
    intro s hi he hl
    obtain ⟨r, p⟩ := z
    obtain ⟨t, o, h1, h2, h3⟩ := finish_one hsafe r ths p s hi he (hl (r, p) (by simp))
    obtain ⟨u, h4, h5, h6⟩ := ih t (inv_steps hsafe hi h1) h2 (fun z hz => hl z (by simp [hz]))
    refine ⟨u, steps_trans h1 h4, h5, ?_⟩
    intro z hz
    rcases List.mem_cons.1 hz with rfl | hz
    · exact ⟨o, log_steps h4 _ h3⟩
    · exact h6 z hz

theorem drain_pending {be : Backend H B S} {dry : Bool} {allowed : Req → Prop}
    (pend : List (LockId × String × Val H B S)) :
    ∀ s : State H B S, s.pending = pend → (∀ l, s.leaked l = 0) →
    ∃ t, Steps be dry allowed s t ∧ t.threads = s.threads ∧ t.pending = [] ∧ t.log = s.log := by
  induction pend with
  | nil => intro s he _; exact ⟨s, .refl s, rfl, he, rfl⟩
  | cons w pend ih =>
    intro s he hl
    obtain ⟨l, k, v⟩ := w
    obtain ⟨t, h1, h2, h3, h4⟩ := ih { s with pending := pend, cache := upd s.cache k (some v) } rfl hl
    exact ⟨t, steps_trans (.tail (.refl s) (.commit s [] pend l k v he (hl l))) h1, h2, h3, h4⟩

/-! ## Blocking -/

/-- Once a writer waits on the lock of `pkg/cache` behind a leaked reader, no call about a folder
that has not passed its first lookup is ever answered. -/
def Stuck (s0 s : State H B S) : Prop :=
  s.waiting .app = true ∧
  (∀ z ∈ s.threads, folderOf z.1 = none ∨ ∃ key kind hit miss, z.2 = .get .app key kind hit miss) ∧
  (∀ z ∈ s.log, z ∈ s0.log ∨ folderOf z.1 = none)

theorem prog_first {be : Backend H B S} (r : Req) :
    folderOf r = none ∨ ∃ key kind hit miss, prog be false r = .get .app key kind hit miss := by
  cases r with
  | catalog id => exact .inr ⟨_, _, _, _, rfl⟩
  | renderable id hash => exact .inr ⟨_, _, _, _, rfl⟩
  | express id n c => exact .inr ⟨_, _, _, _, rfl⟩
  | schema u => exact .inl rfl
  | utr => exact .inl rfl
  | names => exact .inl rfl

theorem stuck_inv {be : Backend H B S} (allowed : Req → Prop) :
    ThreadInv be false allowed (fun s => s.waiting .app = true) (fun _ r p =>
      folderOf r = none ∨ ∃ key kind hit miss, p = .get .app key kind hit miss) where
  mono := fun _ _ _ _ _ _ h => h
  start := fun _ r _ _ => prog_first r
  hit := by
    rintro s r l key kind hit miss v hg (h | ⟨_, _, _, _, h⟩) hw _ _
    · exact .inl h
    · cases h; simp_all
  clash := by
    rintro s r l key kind hit miss v hg (h | ⟨_, _, _, _, h⟩) hw _ _
    · exact .inl h
    · cases h; simp_all
  miss := by
    rintro s r l key kind hit miss hg (h | ⟨_, _, _, _, h⟩) hw _
    · exact .inl h
    · cases h; simp_all
  spawn := by
    rintro s t r l key v next _ (h | ⟨_, _, _, _, h⟩) _ _ _
    · exact .inl h
    · cases h
  chooseErr := by
    rintro s r p k x _ (h | ⟨_, _, _, _, h⟩) _
    · exact .inl h
    · cases h
  chooseHyd := by
    rintro s r p k x _ (h | ⟨_, _, _, _, h⟩) _
    · exact .inl h
    · cases h
  chooseBytes := by
    rintro s r p k x _ (h | ⟨_, _, _, _, h⟩) _
    · exact .inl h
    · cases h
  chooseGlobal := by
    rintro s r p k x _ (h | ⟨_, _, _, _, h⟩) _
    · exact .inl h
    · cases h

theorem stuck_step {be : Backend H B S} {allowed : Req → Prop} {s0 s t : State H B S}
    (h : Stuck s0 s) (hs : Step be false allowed s t) : Stuck s0 t := by
  refine ⟨?_, (stuck_inv allowed).step h.1 h.2.1 hs, ?_⟩
  · have := h.1
    cases hs <;> first | exact this | (simp only [upd]; split <;> simp_all)
  · have h3 := h.2.2
    cases hs with
    | done pre post r o he =>
      intro z hz
      rcases List.mem_cons.1 hz with rfl | hz
      · rcases h.2.1 (r, .done o) (by rw [he]; simp) with h | ⟨_, _, _, _, h⟩
        · exact .inr h
        · cases h
      · exact h3 z hz
    | _ => exact h3

theorem stuck_steps {be : Backend H B S} {allowed : Req → Prop} {s0 s t : State H B S}
    (h : Stuck s0 s) (hs : Steps be false allowed s t) : Stuck s0 t := by
  induction hs with
  | refl => exact h
  | tail _ hs ih => exact stuck_step ih hs

/-! ## Stability of published answers -/

/-- The keys a successful call leaves in the cache. -/
def covers (D : String → Prop) (r : Req) : Prop :=
  D (resultKey r) ∧ match r with
    | .catalog id => D id
    | .express id _ _ => D id
    | _ => True

/-- If `p` ends in success then the keys of `r` are covered, starting from covered keys `D`. -/
def Cov (r : Req) : (String → Prop) → Prog H B S → Prop
  | D, .done o => Succeeds o → covers D r
  | D, .get _ key _ hit miss => (∀ v, Cov r (fun k => D k ∨ k = key) (hit v)) ∧ Cov r D miss
  | D, .spawn _ key _ next => Cov r (fun k => D k ∨ k = key) next
  | D, .chooseErr _ k => ∀ x, Cov r D (k x)
  | D, .chooseHyd _ k => ∀ x, Cov r D (k x)
  | D, .chooseBytes _ k => ∀ x, Cov r D (k x)
  | D, .chooseGlobal _ k => ∀ x, Cov r D (k x)

theorem covers_mono {D D' : String → Prop} (h : ∀ k, D k → D' k) {r : Req} (hc : covers D r) :
    covers D' r := by
  refine ⟨h _ hc.1, ?_⟩
  cases r <;> first | exact h _ hc.2 | trivial

theorem cov_mono {r : Req} (p : Prog H B S) : ∀ {D D' : String → Prop}, (∀ k, D k → D' k) →
    Cov r D p → Cov r D' p := by
  induction p with
  | done o => intro D D' h hc hs; exact covers_mono h (hc hs)
  | get l key kind hit miss ih1 ih2 =>
    intro D D' h hc
    exact ⟨fun v => ih1 v (fun k hk => hk.imp_left (h k)) (hc.1 v), ih2 h hc.2⟩
  | spawn l key v next ih => intro D D' h hc; exact ih (fun k hk => hk.imp_left (h k)) hc
  | chooseErr p k ih => intro D D' h hc x; exact ih x h (hc x)
  | chooseHyd p k ih => intro D D' h hc x; exact ih x h (hc x)
  | chooseBytes p k ih => intro D D' h hc x; exact ih x h (hc x)
  | chooseGlobal p k ih => intro D D' h hc x; exact ih x h (hc x)

theorem cov_hydratable {be : Backend H B S} {r : Req} {D : String → Prop} {id : String}
    {k : Option H → Option String → Prog H B S}
    (hk : ∀ h e, Cov r (fun k => D k ∨ k = id) (k h e)) (hk' : ∀ m, Cov r D (k none (some m))) :
    Cov r D (hydratable be false id k) := by
  refine ⟨?_, ?_⟩
  · intro v
    cases v <;> first | exact hk _ _ | exact fun h => h.elim
  · rintro (_ | m)
    · rintro (_ | ⟨h, e⟩)
      · exact fun h => h.elim
      · exact hk h e
    · exact hk' _

theorem cov_orFail {r : Req} {D : String → Prop} {e : Option String} {p : Prog H B S}
    (h : Cov r D p) : Cov r D (orFail e p) := by
  cases e
  · exact h
  · exact fun h => h.elim

theorem cov_fail {r : Req} {D : String → Prop} {m : String} {p : Prog H B S} :
    Cov r D (orFail (some m) p) := fun h => h.elim

theorem cov_withHyd {r : Req} {D : String → Prop} {h : Option H} {k : H → Prog H B S}
    (hk : ∀ h, Cov r D (k h)) : Cov r D (withHyd h k) := by
  cases h
  · exact fun h => h.elim
  · exact hk _

theorem cov_finish {r : Req} {D : String → Prop} {key : String}
    (h : covers (fun k => D k ∨ k = key) r) (x : Option (Option B × Option String)) :
    Cov r D (finish (H := H) (S := S) false key x) := by
  cases x with
  | none => exact fun h => h.elim
  | some p => exact fun _ => h

theorem cov_prog {be : Backend H B S} {r : Req} {id : String} (hf : folderOf r = some id) :
    Cov r (fun _ => False) (prog be false r) := by
  cases r with
  | catalog i =>
    unfold prog catalogProg
    refine cov_hydratable (fun h e => ?_) (fun m => cov_fail)
    refine cov_orFail ?_
    refine ⟨?_, cov_withHyd fun h x => cov_finish ?_ x⟩
    · intro v _; exact ⟨.inr rfl, .inl (.inr rfl)⟩
    · exact ⟨.inr rfl, .inl (.inr rfl)⟩
  | express i n c =>
    unfold prog expressProg
    refine cov_hydratable (fun h e => ?_) (fun m => cov_fail)
    refine cov_orFail ?_
    refine ⟨?_, cov_withHyd fun h x => cov_finish ?_ x⟩
    · intro v _; exact ⟨.inr rfl, .inl (.inr rfl)⟩
    · exact ⟨.inr rfl, .inl (.inr rfl)⟩
  | renderable i hash =>
    refine ⟨fun v _ => ⟨.inr rfl, trivial⟩, ?_⟩
    refine cov_hydratable (fun h e => cov_orFail (cov_withHyd fun h => ?_)) (fun m => cov_fail)
    unfold renderableFresh
    split
    · cases be.docBytes h with
      | none => exact fun h => h.elim
      | some d => exact cov_finish ⟨.inr rfl, trivial⟩ _
    · exact fun x => cov_finish ⟨.inr rfl, trivial⟩ x
  | schema u => cases hf
  | utr => cases hf
  | names => cases hf

/-- Keys that are in the cache or about to be. -/
def dom (s : State H B S) (k : String) : Prop := s.cache k ≠ none ∨ ∃ l v, (l, k, v) ∈ s.pending

theorem dom_step {be : Backend H B S} {dry : Bool} {allowed : Req → Prop} {s t : State H B S}
    (h : Step be dry allowed s t) (k : String) (hd : dom s k) : dom t k := by
  cases h with
  | spawn pre post r l key v next he =>
    rcases hd with h | ⟨l', v', h⟩
    · exact .inl h
    · exact .inr ⟨l', v', List.mem_cons_of_mem _ h⟩
  | commit pre post l key v he hl =>
    by_cases hk : k = key
    · subst hk; exact .inl (by simp [upd])
    · rcases hd with h | ⟨l', v', h⟩
      · exact .inl (by simpa [upd, hk] using h)
      · refine .inr ⟨l', v', ?_⟩
        rw [he] at h
        simp at h ⊢
        rcases h with h | h | h
        · exact .inl h
        · exact absurd h.2.1 hk
        · exact .inr h
  | _ => exact hd

theorem cov_inv {be : Backend H B S} (allowed : Req → Prop) :
    ThreadInv be false allowed (fun _ => True) (fun s r p => folderOf r = none ∨ Cov r (dom s) p) where
  mono := fun s t r p h _ hc => hc.imp_right fun hc => cov_mono p (dom_step h) hc
  start := by
    intro s r _ _
    cases hf : folderOf r with
    | none => exact .inl rfl
    | some id => exact .inr (cov_mono _ (fun _ h => h.elim) (cov_prog hf))
  hit := by
    rintro s r l key kind hit miss v _ (h | h) _ hc _
    · exact .inl h
    · refine .inr (cov_mono _ ?_ (h.1 v))
      rintro k (hk | rfl)
      · exact hk
      · exact .inl (by simp [hc])
  clash := fun s r l key kind hit miss v _ h _ _ _ => h.imp_right fun _ h => h.elim
  miss := fun s r l key kind hit miss _ h _ _ => h.imp_right fun h => h.2
  spawn := by
    rintro s t r l key v next _ (h | h) hp hc _
    · exact .inl h
    · refine .inr (cov_mono _ ?_ h)
      rintro k ((hk | ⟨l', v', hk⟩) | rfl)
      · exact .inl (by rw [hc]; exact hk)
      · exact .inr ⟨l', v', by rw [hp]; simp [hk]⟩
      · exact .inr ⟨l, v, by rw [hp]; simp⟩
  chooseErr := fun _ _ _ _ x _ h _ => h.imp_right fun h => h x
  chooseHyd := fun _ _ _ _ x _ h _ => h.imp_right fun h => h x
  chooseBytes := fun _ _ _ _ x _ h _ => h.imp_right fun h => h x
  chooseGlobal := fun _ _ _ _ x _ h _ => h.imp_right fun h => h x

/-- Successful answers leave their keys in the cache or in a pending write. -/
theorem covered {be : Backend H B S} {allowed : Req → Prop} {s : State H B S}
    (h : Steps be false allowed State.init s) :
    (∀ z ∈ s.threads, folderOf z.1 = none ∨ Cov z.1 (dom s) z.2) ∧
    (∀ z ∈ s.log, folderOf z.1 = none ∨ (Succeeds z.2 → covers (dom s) z.1)) := by
  generalize hi : State.init = s0 at h
  induction h with
  | refl => subst hi; simp [State.init]
  | tail hs hstep ih =>
    obtain ⟨h1, h2⟩ := ih
    refine ⟨(cov_inv allowed).step trivial h1 hstep, ?_⟩
    have hm := dom_step hstep
    have h2' : ∀ z ∈ State.log _, folderOf z.1 = none ∨ (Succeeds z.2 → covers (dom _) z.1) :=
      fun z hz => (h2 z hz).imp_right fun h hs => covers_mono hm (h hs)
    cases hstep with
    | done pre post r o he =>
      intro z hz
      rcases List.mem_cons.1 hz with rfl | hz
      · exact (h1 (r, .done o) (by rw [he]; simp)).imp_right fun h hs => covers_mono hm (h hs)
      · exact h2' z hz
    | _ => exact h2'

/-- With the entries of `c` in the cache, `p` answers only `ok` and never writes a key of `c`. -/
def Run (c : String → Option (Val H B S)) (ok : Out H B S → Prop) : Prog H B S → Prop
  | .done o => ok o
  | .get _ key _ hit miss => (∀ v, (c key = none ∨ c key = some v) → Run c ok (hit v)) ∧
      (c key = none → Run c ok miss)
  | .spawn _ key _ next => c key = none ∧ Run c ok next
  | .chooseErr _ k => ∀ x, Run c ok (k x)
  | .chooseHyd _ k => ∀ x, Run c ok (k x)
  | .chooseBytes _ k => ∀ x, Run c ok (k x)
  | .chooseGlobal _ k => ∀ x, Run c ok (k x)

theorem run_hydratable {be : Backend H B S} {c : String → Option (Val H B S)} {ok : Out H B S → Prop}
    {dry : Bool} (hd : dry = false)
    {id : String} {k : Option H → Option String → Prog H B S}
    (hp : ok .panic) (hk : ∀ h e, Run c ok (k h e)) : Run c ok (hydratable be dry id k) := by
  subst hd
  refine ⟨?_, ?_⟩
  · intro v _
    cases v <;> first | exact hk _ _ | exact hp
  · intro hc
    rintro (_ | m)
    · rintro (_ | ⟨h, e⟩)
      · exact hp
      · exact ⟨hc, hk h e⟩
    · exact hk _ _

theorem run_finish {c : String → Option (Val H B S)} {key : String} (hc : c key = none)
    (x : Option (Option B × Option String)) :
    Run (H := H) (S := S) c (fun _ => True) (finish false key x) := by
  cases x with
  | none => trivial
  | some p => exact ⟨hc, trivial⟩

/-- No call writes a key that is already in the cache. -/
theorem run_any (be : Backend H B S) (c : String → Option (Val H B S)) (r : Req) :
    Run c (fun _ => True) (prog be false r) := by
  cases r with
  | catalog id =>
    unfold prog catalogProg
    refine run_hydratable rfl trivial fun h e => ?_
    cases e
    · refine ⟨fun _ _ => trivial, fun hc => ?_⟩
      cases h
      · trivial
      · exact fun x => run_finish hc x
    · trivial
  | express id n cr =>
    unfold prog expressProg
    refine run_hydratable rfl trivial fun h e => ?_
    cases e
    · refine ⟨fun _ _ => trivial, fun hc => ?_⟩
      cases h
      · trivial
      · exact fun x => run_finish hc x
    · trivial
  | renderable id hash =>
    refine ⟨fun _ _ => trivial, fun hc => ?_⟩
    refine run_hydratable rfl trivial fun h e => ?_
    cases e
    · cases h with
      | none => trivial
      | some h =>
        show Run c _ (renderableFresh be false id hash h)
        unfold renderableFresh
        split
        · cases be.docBytes h with
          | none => trivial
          | some d => exact run_finish hc _
        · exact fun x => run_finish hc x
    · trivial
  | schema u =>
    refine ⟨fun _ _ => trivial, fun hc => ?_⟩
    rintro (_ | s)
    · trivial
    · exact ⟨hc, trivial⟩
  | utr =>
    refine ⟨fun _ _ => trivial, fun hc => ?_⟩
    rintro (_ | s)
    · trivial
    · exact ⟨hc, trivial⟩
  | names =>
    refine ⟨fun _ _ => trivial, fun hc => ?_⟩
    rintro (_ | s)
    · trivial
    · exact ⟨hc, trivial⟩

/-- A call whose keys are in the cache answers from the cache. -/
theorem run_covered {be : Backend H B S} {c : String → Option (Val H B S)} {r : Req} {id : String}
    (hf : folderOf r = some id) {v : Val H B S} (hv : c (resultKey r) = some v)
    (hid : ∀ v, c id = some v → ∃ h, v = .hyd h) (hc : covers (fun k => c k ≠ none) r) :
    Run c (fun o => o = .ret v none) (prog be false r) := by
  have hget : ∀ p : Prog H B S, Run c (fun o => o = .ret v none) (cachedBytes false (resultKey r) p) := by
    intro p
    refine ⟨?_, ?_⟩
    · rintro w (h | h)
      · rw [hv] at h; cases h
      · rw [hv] at h; cases h; rfl
    · intro h; rw [hv] at h; cases h
  have hyd : ∀ (k : Option H → Option String → Prog H B S), c id ≠ none →
      (∀ h, Run c (fun o => o = .ret v none) (k h none)) →
      Run c (fun o => o = .ret v none) (hydratable be false id k) := by
    intro k hne hk
    cases hcid : c id with
    | none => exact absurd hcid hne
    | some w =>
      obtain ⟨h, rfl⟩ := hid w hcid
      refine ⟨?_, ?_⟩
      · rintro w (h' | h')
        · rw [hcid] at h'; cases h'
        · rw [hcid] at h'; cases h'; exact hk h
      · intro h'; rw [hcid] at h'; cases h'
  cases r with
  | catalog i => cases hf; unfold prog catalogProg; exact hyd _ hc.2 fun h => hget _
  | express i n cr => cases hf; unfold prog expressProg; exact hyd _ hc.2 fun h => hget _
  | renderable i hash => cases hf; exact hget _
  | schema u => cases hf
  | utr => cases hf
  | names => cases hf

theorem run_and {c : String → Option (Val H B S)} {ok ok' : Out H B S → Prop} (p : Prog H B S) :
    Run c ok p → (∀ o, ok o → ok' o) → Run c ok' p := by
  intro hp h
  induction p with
  | done o => exact h o hp
  | get l key kind hit miss ih1 ih2 =>
    exact ⟨fun v hv => ih1 v (hp.1 v hv), fun hc => ih2 (hp.2 hc)⟩
  | spawn l key v next ih => exact ⟨hp.1, ih hp.2⟩
  | chooseErr p k ih => exact fun x => ih x (hp x)
  | chooseHyd p k ih => exact fun x => ih x (hp x)
  | chooseBytes p k ih => exact fun x => ih x (hp x)
  | chooseGlobal p k ih => exact fun x => ih x (hp x)

/-- State after a quiescent point with cache `c`, where `r0` answers `w`. -/
structure Frozen (c : String → Option (Val H B S)) (r0 : Req) (w : Val H B S)
    (log0 : List (Req × Out H B S)) (s : State H B S) : Prop where
  cache : ∀ k v, c k = some v → s.cache k = some v
  pending : ∀ l k v, (l, k, v) ∈ s.pending → c k = none
  threads : ∀ z ∈ s.threads, Run c (fun o => z.1 = r0 → o = .ret w none) z.2
  log : ∃ new, s.log = new ++ log0 ∧ ∀ z ∈ new, z.1 = r0 → z.2 = .ret w none

theorem frozen_steps {be : Backend H B S} {allowed : Req → Prop} {ok : Req → Out H B S → Prop}
    (hsafe : ∀ r, allowed r → Safe be allowed (ok r) (prog be false r))
    {c : String → Option (Val H B S)} {r0 : Req} {w : Val H B S} {log0 : List (Req × Out H B S)}
    (hr : Run c (fun o => o = .ret w none) (prog be false r0))
    {s t : State H B S} (hs : Inv be allowed ok s ∧ Frozen c r0 w log0 s)
    (h : Steps be false allowed s t) : Inv be allowed ok t ∧ Frozen c r0 w log0 t := by
  induction h with
  | refl => exact hs
  | tail _ hstep ih =>
    obtain ⟨hi, hf⟩ := ih
    have ti : ThreadInv be false allowed
        (fun s => Inv be allowed ok s ∧ ∀ k v, c k = some v → s.cache k = some v)
        (fun _ r p => Safe be allowed (ok r) p ∧ Run c (fun o => r = r0 → o = .ret w none) p) :=
      { mono := fun _ _ _ _ _ _ h => h
        start := by
          intro s r _ ha
          refine ⟨hsafe r ha, ?_⟩
          by_cases h : r = r0
          · subst h; exact run_and _ hr (fun o ho _ => ho)
          · exact run_and _ (run_any be c r) (fun o _ hh => absurd hh h)
        hit := by
          intro s r l key kind hit miss v hg h _ hc _
          refine ⟨(h.1.1 v (hg.1.cache _ _ hc)).2, h.2.1 v ?_⟩
          cases hck : c key with
          | none => exact .inl rfl
          | some v' => exact .inr (by rw [← hg.2 _ _ hck, hc])
        clash := by
          intro s r l key kind hit miss v hg h _ hc hk
          exact absurd (h.1.1 v (hg.1.cache _ _ hc)).1 hk
        miss := by
          intro s r l key kind hit miss hg h _ hc
          refine ⟨h.1.2, h.2.2 ?_⟩
          cases hck : c key with
          | none => rfl
          | some v' => rw [hg.2 _ _ hck] at hc; cases hc
        spawn := fun s t r l key v next _ h _ _ _ => ⟨h.1.2, h.2.2⟩
        chooseErr := fun _ _ _ _ x _ h hx => ⟨h.1 x hx, h.2 x⟩
        chooseHyd := fun _ _ _ _ x _ h hx => ⟨h.1 x hx, h.2 x⟩
        chooseBytes := fun _ _ _ _ x _ h hx => ⟨h.1 x hx, h.2 x⟩
        chooseGlobal := fun _ _ _ _ x _ h hx => ⟨h.1 x hx, h.2 x⟩ }
    have hth := ti.step ⟨hi, hf.cache⟩
      (fun z hz => ⟨(hi.threads z.1 z.2 hz).2, hf.threads z hz⟩) hstep
    refine ⟨inv_step hsafe hi hstep, ?_, ?_, fun z hz => (hth z hz).2, ?_⟩
    · cases hstep with
      | commit pre post l key v he hl =>
        intro k v' hk
        have : c key = none := hf.pending l key v (by rw [he]; simp)
        have hne : k ≠ key := by rintro rfl; rw [this] at hk; cases hk
        simpa [upd, hne] using hf.cache k v' hk
      | _ => exact hf.cache
    · cases hstep with
      | commit pre post l key v he hl =>
        intro l' k' v' hp
        refine hf.pending l' k' v' ?_
        rw [he]; simp at hp ⊢; rcases hp with h | h <;> simp [h]
      | spawn pre post r l key v next he =>
        intro l' k' v' hp
        rcases List.mem_cons.1 hp with h | h
        · cases h; exact (hf.threads (r, .spawn l key v next) (by rw [he]; simp)).1
        · exact hf.pending _ _ _ h
      | _ => exact hf.pending
    · obtain ⟨new, h1, h2⟩ := hf.log
      cases hstep with
      | done pre post r o he =>
        refine ⟨(r, o) :: new, by simp [h1], ?_⟩
        intro z hz
        rcases List.mem_cons.1 hz with rfl | hz
        · exact hf.threads (r, .done o) (by rw [he]; simp)
        · exact h2 z hz
      | _ => exact ⟨new, h1, h2⟩

end Telefacts.Cache
