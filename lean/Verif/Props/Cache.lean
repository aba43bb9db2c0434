import Verif.Proof.CacheRuns
/-!
# Properties of the cache layer (C60-C64, C68)

Backends are arbitrary; calls and background writes interleave arbitrarily (`Steps`).
-/
namespace Telefacts
open Telefacts.Cache
variable {H B S : Type}

/-! ## Concrete backends for the witnesses -/

/-- Everything succeeds; folders other than `"a-1"` do not exist. -/
def okBackend : Backend Unit Nat Unit where
  discover id x := if id = "a-1" then x = none else x = some "missing"
  hydrate _ x := x = some (some (), none)
  catalog _ x := x = some (some 1, none)
  renderable _ _ x := x = some (some 2, none)
  express _ _ _ x := x = some (some 3, none)
  entryName _ := "doc.htm"
  docBytes _ := some 4
  schema _ x := x = some ()
  utr x := x = some ()
  names x := x = some ()

/-- Rendering always fails. -/
def badRender : Backend Unit Nat Unit where
  discover _ x := x = none
  hydrate _ x := x = some (some (), none)
  catalog _ x := x = some (some 1, none)
  renderable _ _ x := x = some (none, some "no such network")
  express _ _ _ x := x = some (some 3, none)
  entryName _ := "doc.htm"
  docBytes _ := some 4
  schema _ x := x = some ()
  utr x := x = some ()
  names x := x = some ()

/-- Hydration always fails. -/
def badHydrate : Backend Unit Nat Unit where
  discover _ x := x = none
  hydrate _ x := x = some (none, some "bad folder")
  catalog _ x := x = some (some 1, none)
  renderable _ _ x := x = some (some 2, none)
  express _ _ _ x := x = some (some 3, none)
  entryName _ := "doc.htm"
  docBytes _ := some 4
  schema _ x := x = some ()
  utr x := x = some ()
  names x := x = some ()

/-- A small set of calls in normal operation. -/
def someCalls (r : Req) : Prop :=
  r = .catalog "a-1" ∨ r = .renderable "a-1" "f00d" ∨ r = .express "a-1" "us-gaap:Assets" "c1" ∨
  r = .schema "http://www.xbrl.org/2003/xbrl-instance-2003-12-31.xsd" ∨ r = .utr ∨ r = .names

theorem someCalls_normal : Normal someCalls where
  ok := by
    rintro r (rfl | rfl | rfl | rfl | rfl | rfl)
    · exact (by decide : '-' ∈ "a-1".toList ∧ '/' ∉ "a-1".toList)
    · exact (by decide : ('-' ∈ "a-1".toList ∧ '/' ∉ "a-1".toList) ∧ "f00d" ≠ "" ∧ '/' ∉ "f00d".toList)
    · exact (by decide : ('-' ∈ "a-1".toList ∧ '/' ∉ "a-1".toList) ∧ ':' ∉ "c1".toList)
    · exact (by decide :
        2 ≤ "http://www.xbrl.org/2003/xbrl-instance-2003-12-31.xsd".toList.count '/' ∧
        "http://www.xbrl.org/2003/xbrl-instance-2003-12-31.xsd" ≠ "http://www.xbrl.org/utr/utr.xml")
    · trivial
    · trivial
  express := by
    intro id n c id' n' c' h h' _
    simp [someCalls] at h h'
    rw [h.1, h.2.1, h.2.2, h'.1, h'.2.1, h'.2.2]

theorem okBackend_sane : okBackend.Sane := by
  intro id h e hh
  simp [okBackend] at hh
  simp [hh]

theorem badRender_sane : badRender.Sane := by
  intro id h e hh
  simp [badRender] at hh
  simp [hh]

theorem badHydrate_sane : badHydrate.Sane := by
  intro id h e hh
  simp [badHydrate] at hh
  simp [hh]

/-! ## C60 -/

/-- Every answer ever given is one the call could have had without caching, except that a folder call
whose direct answer is an error may be answered with the same bytes and no error, or panic. -/
theorem C60_answers (be : Backend H B S) (hs : be.Sane) (allowed : Req → Prop) (hn : Normal allowed)
    (dry : Bool) (s : State H B S) (h : Steps be dry allowed State.init s) (r : Req) (o : Out H B S)
    (ho : (r, o) ∈ s.log) :
    Direct be r o ∨
    (folderOf r ≠ none ∧ ∃ b e, o = .ret (.bytes b) none ∧ Direct be r (.ret (.bytes b) (some e))) ∨
    (folderOf r ≠ none ∧ o = .panic ∧ ∃ e, Direct be r (.ret (.bytes none) (some e))) :=
  (inv_reach hn hs h).log r o ho

/-- If a call cannot fail without the cache, it answers with a direct answer in every history. -/
theorem C60_transparent (be : Backend H B S) (hs : be.Sane) (allowed : Req → Prop) (hn : Normal allowed)
    (dry : Bool) (s : State H B S) (h : Steps be dry allowed State.init s) (r : Req)
    (hok : ∀ o, Direct be r o → Succeeds o) (o : Out H B S) (ho : (r, o) ∈ s.log) : Direct be r o := by
  rcases C60_answers be hs allowed hn dry s h r o ho with h | ⟨_, b, e, _, h⟩ | ⟨_, _, e, h⟩
  · exact h
  · exact (hok _ h).elim
  · exact (hok _ h).elim

/-- Deterministic form: one possible direct answer, hence always that answer. -/
theorem C60_deterministic (be : Backend H B S) (hs : be.Sane) (allowed : Req → Prop)
    (hn : Normal allowed) (dry : Bool) (s : State H B S) (h : Steps be dry allowed State.init s)
    (r : Req) (v : Val H B S) (hok : ∀ o, Direct be r o → o = .ret v none) (o : Out H B S)
    (ho : (r, o) ∈ s.log) : o = .ret v none :=
  hok o (C60_transparent be hs allowed hn dry s h r (fun o h => by rw [hok o h]; trivial) o ho)

theorem fileExt_cases (hash : String) : (fileExt hash = ".xhtml" ∨ fileExt hash = ".htm") ↔ (EndsIn hash ".xhtml" ∨ EndsIn hash ".htm") := by
  rw [ext_xhtml, ext_htm]

theorem dry_hydratable {be : Backend H B S} {allowed : Req → Prop} {s : State H B S} {r : Req} {id : String}
    {k : Option H → Option String → Prog H B S} {rest : List (Req × Prog H B S)} (hs : s.threads = (r, hydratable be true id k) :: rest)
    {e : Option H × Option String} (hd : be.discover id none) (hh : be.hydrate id (some e)) :
    Steps be true allowed s { s with threads := (r, k e.1 e.2) :: rest } := by
  have h := Steps.refl (be := be) (dry := true) (allowed := allowed) s
  have h := h.tail (.chooseErr _ [] rest r _ _ none hs hd)
  have h := h.tail (.chooseHyd _ [] rest r _ _ (some e) rfl hh)
  exact h

theorem steps_trans {be : Backend H B S} {dry : Bool} {allowed : Req → Prop} {s t u : State H B S} (h : Steps be dry allowed s t)
    (h' : Steps be dry allowed t u) : Steps be dry allowed s u := by
  induction h' with
  | refl => exact h
  | tail _ st ih => exact ih.tail st

/-- The answer that reports a computation. -/
def outOf : Option (Option B × Option String) → Out H B S
  | some (b, e) => .ret (.bytes b) e
  | none => .panic

/-- What a call does in dry mode once the folder is hydrated. -/
theorem dry_compute {be : Backend H B S} {allowed : Req → Prop} {s : State H B S} {r : Req} {id : String}
    {rest : List (Req × Prog H B S)} (hs : s.threads = (r, prog be true r) :: rest) (hf : folderOf r = some id) {h : H}
    (hd : be.discover id none) (hh : be.hydrate id (some (some h, none))) {x : Option (Option B × Option String)} (hx : Computes be r h x) :
    ∃ s', Steps be true allowed s s' ∧ s'.threads = rest ∧
      s'.log = (r, outOf x) :: s.log := by
  have fin : ∀ {t : State H B S} {key : String}, Steps be true allowed s t → t.threads = (r, finish true key x) :: rest → t.log = s.log →
      ∃ s', Steps be true allowed s s' ∧ s'.threads = rest ∧ s'.log = (r, outOf x) :: s.log := by
    intro t key hst ht hlog
    have : t.threads = [] ++ (r, .done (outOf x)) :: rest := by
      rw [ht]; cases x <;> rfl
    exact ⟨_, hst.tail (.done _ [] rest _ _ this), rfl, by rw [← hlog]⟩
  cases r with
  | catalog i =>
    cases hf
    simp only [prog, catalogProg, cachedBytes, if_true] at hs
    have h1 := dry_hydratable (allowed := allowed) hs hd hh
    have h2 := h1.tail (.chooseBytes _ [] rest _ _ _ x rfl hx)
    exact fin h2 rfl rfl
  | renderable i hash =>
    cases hf
    simp only [prog, renderableProg, cachedBytes, if_true] at hs
    have h1 := dry_hydratable (allowed := allowed) hs hd hh
    simp only [orFail, withHyd] at h1
    rcases hx with ⟨a, b, rfl⟩ | ⟨hne, hx⟩
    · have e : renderableFresh be true id hash h = finish true (id ++ "/" ++ hash) ((be.docBytes h).map (fun d => (some d, none))) := by
        unfold renderableFresh
        rw [if_pos ⟨(fileExt_cases _).2 a, b⟩]
        cases be.docBytes h <;> rfl
      rw [e] at h1
      exact fin h1 rfl rfl
    · have e : renderableFresh be true id hash h = .chooseBytes (be.renderable hash h) (finish true (id ++ "/" ++ hash)) := by
        unfold renderableFresh
        rw [if_neg (by rw [fileExt_cases]; exact hne)]
      rw [e] at h1
      have h2 := h1.tail (.chooseBytes _ [] rest _ _ _ x rfl hx)
      exact fin h2 rfl rfl
  | express i n c =>
    cases hf
    simp only [prog, expressProg, cachedBytes, if_true] at hs
    have h1 := dry_hydratable (allowed := allowed) hs hd hh
    have h2 := h1.tail (.chooseBytes _ [] rest _ _ _ x rfl hx)
    exact fin h2 rfl rfl
  | schema _ => cases hf
  | utr => cases hf
  | names => cases hf

/-- **C60, conversely.** With caching switched off, every direct answer to a call about a folder is given in some history, after
whatever happened before: `Direct` allows nothing that cannot happen. -/
theorem C60_every (be : Backend H B S) (allowed : Req → Prop) (s : State H B S) (r : Req) (hr : allowed r) (o : Out H B S)
    (hf : ∃ id, folderOf r = some id) (hd : Direct be r o) :
    ∃ s', Steps be true allowed s s' ∧ s'.log = (r, o) :: s.log ∧ s'.threads = s.threads := by
  obtain ⟨id, hf⟩ := hf
  have h0 := (Steps.refl (be := be) (dry := true) (allowed := allowed) s).tail (.start s r hr)
  have hp : ∃ k, prog be true r = hydratable be true id k ∧ ∀ h e, k h (some e) = .done (.ret (.bytes none) (some e)) := by
    cases r <;> simp only [folderOf, Option.some.injEq, reduceCtorEq] at hf <;> subst hf <;>
      simp only [prog, catalogProg, renderableProg, expressProg, cachedBytes, if_true] <;> refine ⟨_, rfl, fun _ _ => rfl⟩
  obtain ⟨k, hp, hk⟩ := hp
  cases hd with
  | undiscovered _ id' m h1 h2 =>
    rw [hf] at h1; cases h1
    rw [hp] at h0
    have h := h0.tail (.chooseErr _ [] s.threads r _ _ (some m) rfl h2)
    simp only [hk] at h
    exact ⟨_, h.tail (.done _ [] s.threads _ _ rfl), rfl, rfl⟩
  | hydratePanic _ id' h1 h2 h3 =>
    rw [hf] at h1; cases h1
    rw [hp] at h0
    have h := h0.tail (.chooseErr _ [] s.threads r _ _ none rfl h2)
    have h := h.tail (.chooseHyd _ [] s.threads r _ _ none rfl h3)
    exact ⟨_, h.tail (.done _ [] s.threads _ _ rfl), rfl, rfl⟩
  | unhydrated _ id' h' m h1 h2 h3 =>
    rw [hf] at h1; cases h1
    rw [hp] at h0
    have h := h0.tail (.chooseErr _ [] s.threads r _ _ none rfl h2)
    have h := h.tail (.chooseHyd _ [] s.threads r _ _ (some (h', some m)) rfl h3)
    simp only [if_true, hk] at h
    exact ⟨_, h.tail (.done _ [] s.threads _ _ rfl), rfl, rfl⟩
  | computePanic _ id' h' h1 h2 h3 h4 =>
    rw [hf] at h1; cases h1
    obtain ⟨s', h5, h6, h7⟩ := dry_compute (allowed := allowed) (s := { s with threads := (r, prog be true r) :: s.threads }) rfl hf h2 h3 h4
    exact ⟨s', steps_trans h0 h5, h7, h6⟩
  | computed _ id' h' b e h1 h2 h3 h4 =>
    rw [hf] at h1; cases h1
    obtain ⟨s', h5, h6, h7⟩ := dry_compute (allowed := allowed) (s := { s with threads := (r, prog be true r) :: s.threads }) rfl hf h2 h3 h4
    exact ⟨s', steps_trans h0 h5, h7, h6⟩
  | schema => cases hf
  | schemaErr => cases hf
  | utr => cases hf
  | utrErr => cases hf
  | names => cases hf
  | namesErr => cases hf

/-- The hypotheses are met: in `okBackend` the catalog call has one direct answer. -/
example (dry : Bool) (s : State Unit Nat Unit) (h : Steps okBackend dry someCalls State.init s)
    (o : Out Unit Nat Unit) (ho : (.catalog "a-1", o) ∈ s.log) : o = .ret (.bytes (some 1)) none := by
  refine C60_deterministic okBackend okBackend_sane someCalls someCalls_normal dry s h _ _ ?_ o ho
  intro o hd
  cases hd <;> simp_all [okBackend, folderOf, Computes]

/-- A run in which the catalog is requested twice, the second time answered from the cache. -/
example : ∃ s : State Unit Nat Unit, Steps okBackend false someCalls State.init s ∧
    s.log = [(.catalog "a-1", .ret (.bytes (some 1)) none), (.catalog "a-1", .ret (.bytes (some 1)) none)] := by
  have hc : someCalls (.catalog "a-1") := .inl rfl
  have h := Steps.refl (be := okBackend) (dry := false) (allowed := someCalls) State.init
  have h := h.tail (.start _ (.catalog "a-1") hc)
  have h := h.tail (.miss _ [] [] _ _ _ _ _ _ rfl rfl rfl)
  have h := h.tail (.chooseErr _ [] [] _ _ _ none rfl (by simp [okBackend]))
  have h := h.tail (.chooseHyd _ [] [] _ _ _ (some (some (), none)) rfl (by simp [okBackend]))
  have h := h.tail (.spawn _ [] [] _ _ _ _ _ rfl)
  have h := h.tail (.miss _ [] [] _ _ _ _ _ _ rfl rfl rfl)
  have h := h.tail (.chooseBytes _ [] [] _ _ _ (some (some 1, none)) rfl (by simp [okBackend]))
  have h := h.tail (.spawn _ [] [] _ _ _ _ _ rfl)
  have h := h.tail (.done _ [] [] _ _ rfl)
  have h := h.tail (.commit _ [] _ _ _ _ rfl rfl)
  have h := h.tail (.commit _ [] [] _ _ _ rfl rfl)
  have h := h.tail (.start _ (.catalog "a-1") hc)
  have h := h.tail (.hit _ [] [] _ _ _ _ _ _ (.hyd (some ())) rfl rfl (by simp [upd]) rfl)
  have h := h.tail (.hit _ [] [] _ _ _ _ _ _ (.bytes (some 1)) rfl rfl (by simp [upd]) rfl)
  have h := h.tail (.done _ [] [] _ _ rfl)
  exact ⟨_, h, rfl⟩

/-! ## C61 -/

/-- The claim is false: a rendering error is reported once and then cached as an empty success. -/
theorem C61_fails : ∃ (be : Backend Unit Nat Unit) (s : State Unit Nat Unit) (r : Req), be.Sane ∧
    Steps be false someCalls State.init s ∧ (∀ o, Direct be r o → ¬ Succeeds o) ∧
    s.log = [(r, .ret (.bytes none) none), (r, .ret (.bytes none) (some "no such network"))] := by
  have hc : someCalls (.renderable "a-1" "f00d") := .inr (.inl rfl)
  have h := Steps.refl (be := badRender) (dry := false) (allowed := someCalls) State.init
  have h := h.tail (.start _ (.renderable "a-1" "f00d") hc)
  have h := h.tail (.miss _ [] [] _ _ _ _ _ _ rfl rfl rfl)
  have h := h.tail (.miss _ [] [] _ _ _ _ _ _ rfl rfl rfl)
  have h := h.tail (.chooseErr _ [] [] _ _ _ none rfl rfl)
  have h := h.tail (.chooseHyd _ [] [] _ _ _ (some (some (), none)) rfl rfl)
  have h := h.tail (.spawn _ [] [] _ _ _ _ _ rfl)
  have e : renderableFresh badRender false "a-1" "f00d" () =
      .chooseBytes (badRender.renderable "f00d" ()) (finish false ("a-1" ++ "/" ++ "f00d")) := by
    unfold renderableFresh; rw [if_neg (by decide)]
  have h := h.tail (.chooseBytes _ [] [] _ _ _ (some (none, some "no such network"))
    (congrArg (fun p => [(Req.renderable "a-1" "f00d", p)]) e) rfl)
  have h := h.tail (.spawn _ [] [] _ _ _ _ _ rfl)
  have h := h.tail (.done _ [] [] _ _ rfl)
  have h := h.tail (.commit _ [] _ _ _ _ rfl rfl)
  have h := h.tail (.start _ (.renderable "a-1" "f00d") hc)
  have h := h.tail (.hit _ [] [] _ _ _ _ _ _ (.bytes none) rfl rfl (by simp [upd]) rfl)
  have h := h.tail (.done _ [] [] _ _ rfl)
  refine ⟨badRender, _, .renderable "a-1" "f00d", badRender_sane, h, ?_, rfl⟩
  intro o hd
  have h1 : ¬ EndsIn "f00d" ".xhtml" := by rw [← ext_xhtml]; decide
  have h2 : ¬ EndsIn "f00d" ".htm" := by rw [← ext_htm]; decide
  cases hd <;> simp_all [badRender, folderOf, Computes, Succeeds]

/-- Likewise a hydration error is reported once; then a nil folder is used, which panics. -/
theorem C61_fails_panic : ∃ (be : Backend Unit Nat Unit) (s : State Unit Nat Unit) (r : Req), be.Sane ∧
    Steps be false someCalls State.init s ∧ (∀ o, Direct be r o → o = .ret (.bytes none) (some "bad folder")) ∧
    s.log = [(r, .panic), (r, .ret (.bytes none) (some "bad folder"))] := by
  have hc : someCalls (.catalog "a-1") := .inl rfl
  have h := Steps.refl (be := badHydrate) (dry := false) (allowed := someCalls) State.init
  have h := h.tail (.start _ (.catalog "a-1") hc)
  have h := h.tail (.miss _ [] [] _ _ _ _ _ _ rfl rfl rfl)
  have h := h.tail (.chooseErr _ [] [] _ _ _ none rfl rfl)
  have h := h.tail (.chooseHyd _ [] [] _ _ _ (some (none, some "bad folder")) rfl rfl)
  have h := h.tail (.spawn _ [] [] _ _ _ _ _ rfl)
  have h := h.tail (.done _ [] [] _ _ rfl)
  have h := h.tail (.commit _ [] _ _ _ _ rfl rfl)
  have h := h.tail (.start _ (.catalog "a-1") hc)
  have h := h.tail (.hit _ [] [] _ _ _ _ _ _ (.hyd none) rfl rfl (by simp [upd]) rfl)
  have h := h.tail (.miss _ [] [] _ _ _ _ _ _ rfl rfl (by simp [upd, State.init]))
  have h := h.tail (.done _ [] [] _ _ rfl)
  refine ⟨badHydrate, _, .catalog "a-1", badHydrate_sane, h, ?_, rfl⟩
  intro o hd
  cases hd <;> simp_all [badHydrate, folderOf]

/-- The part that holds: without the cache (`dry`) failures always repeat, and with the cache failures
to discover the folder always repeat. Missing: errors after discovery, see `C61_fails`. -/
theorem C61_partial (be : Backend H B S) (hs : be.Sane) (allowed : Req → Prop) (hn : Normal allowed)
    (dry : Bool) (s : State H B S) (h : Steps be dry allowed State.init s) (r : Req) (id : String)
    (hf : folderOf r = some id)
    (hbad : (dry = true ∧ ∀ o, Direct be r o → ¬ Succeeds o) ∨ ∀ x, be.discover id x → x ≠ none)
    (o : Out H B S) (ho : (r, o) ∈ s.log) : ¬ Succeeds o := by
  rcases hbad with ⟨rfl, hbad⟩ | hbad
  · refine hbad o ((inv_steps (ok := fun r o => Direct be r o) ?_ (inv_init be allowed _) h).log r o ho)
    intro r' hr'
    cases hf' : folderOf r' with
    | some id' => exact safe_dry hs hr' hf'
    | none =>
      refine safe_mono ?_ _ (safe_prog hn hs true hr')
      rintro o (h | h | h)
      · exact h
      · exact absurd hf' h.1
      · exact absurd hf' h.1
  · -- nothing is ever cached for the folder
    have key : ∀ k v, Legit be allowed k v → ∀ r' , allowed r' → folderOf r' = some id →
        k ≠ id ∧ k ≠ resultKey r' := by
      intro k v hl r' hr' hf'
      constructor
      · rintro rfl
        obtain ⟨h', _, rfl, h1, _⟩ := legit_id hn (folder_idOk hn hr' hf') hl
        exact hbad _ h1 rfl
      · rintro rfl
        obtain ⟨h', b, e, rfl, h1, _⟩ := legit_result hn hr' hf' hl
        exact hbad _ h1 rfl
    have hsafe : ∀ r', allowed r' → Safe be allowed
        (fun o => folderOf r' = some id → ¬ Succeeds o) (prog be dry r') := by
      intro r' hr'
      by_cases hf' : folderOf r' = some id
      · cases r' with
        | catalog i =>
          cases hf'
          unfold prog catalogProg hydratable
          cases dry
          · refine ⟨fun v hv => absurd rfl (key _ v hv _ hr' rfl).1, ?_⟩
            rintro (_ | m) hx
            · exact absurd rfl (hbad _ hx)
            · exact fun _ h => h
          · rintro (_ | m) hx
            · exact absurd rfl (hbad _ hx)
            · exact fun _ h => h
        | express i n c =>
          cases hf'
          unfold prog expressProg hydratable
          cases dry
          · refine ⟨fun v hv => absurd rfl (key _ v hv _ hr' rfl).1, ?_⟩
            rintro (_ | m) hx
            · exact absurd rfl (hbad _ hx)
            · exact fun _ h => h
          · rintro (_ | m) hx
            · exact absurd rfl (hbad _ hx)
            · exact fun _ h => h
        | renderable i hash =>
          cases hf'
          unfold prog renderableProg hydratable cachedBytes
          cases dry
          · refine ⟨fun v hv => absurd rfl (key _ v hv _ hr' rfl).2, ?_⟩
            refine ⟨fun v hv => absurd rfl (key _ v hv _ hr' rfl).1, ?_⟩
            rintro (_ | m) hx
            · exact absurd rfl (hbad _ hx)
            · exact fun _ h => h
          · rintro (_ | m) hx
            · exact absurd rfl (hbad _ hx)
            · exact fun _ h => h
        | schema u => cases hf'
        | utr => cases hf'
        | names => cases hf'
      · exact safe_mono (fun o _ h => absurd h hf') _ (safe_prog hn hs dry hr')
    exact (inv_steps (ok := fun r o => folderOf r = some id → ¬ Succeeds o) hsafe
      (inv_init be allowed _) h).log r o ho hf

/-- Both alternatives occur: `okBackend` has folders that are never discovered; `badRender` only fails. -/
example : (∀ x, okBackend.discover "b-1" x → x ≠ none) ∧
    ∀ o, Direct badRender (.renderable "a-1" "f00d") o → ¬ Succeeds o := by
  refine ⟨by simp [okBackend], ?_⟩
  intro o hd
  have h1 : ¬ EndsIn "f00d" ".xhtml" := by rw [← ext_xhtml]; decide
  have h2 : ¬ EndsIn "f00d" ".htm" := by rw [← ext_htm]; decide
  cases hd <;> simp_all [badRender, folderOf, Computes, Succeeds]

/-! ## C62 -/

theorem resultKeys_disjoint (allowed : Req → Prop) (hn : Normal allowed) (r r' : Req)
    (hr : allowed r) (hr' : allowed r') :
    (resultKey r = resultKey r' → r = r') ∧ ∀ id, folderOf r' = some id → resultKey r ≠ id := by
  have hslash : ∀ u, ReqOk (.schema u) → 2 ≤ (resultKey (.schema u)).toList.count '/' := fun u h => h.1
  have hutr : (resultKey .utr).toList.count '/' = 4 := by decide
  have hnames : (resultKey .names).toList.count '/' = 0 := by decide
  have glob : ∀ g g', folderOf g = none → folderOf g' = none → allowed g → allowed g' →
      resultKey g = resultKey g' → g = g' := by
    intro g g' h h' ha ha' he
    have h1 := hn.ok g ha
    have h2 := hn.ok g' ha'
    cases g <;> cases g' <;> simp only [folderOf, reduceCtorEq] at h h' <;> try rfl
    · exact congrArg Req.schema he
    · exact absurd he h1.2
    · exact absurd (congrArg (fun s => s.toList.count '/') he) (by
        have := hslash _ h1; simp only [hnames]; omega)
    · exact absurd he.symm h2.2
    · exact absurd he (by decide)
    · exact absurd (congrArg (fun s => s.toList.count '/') he) (by
        have := hslash _ h2; simp only [hnames]; omega)
    · exact absurd he (by decide)
  have mixed : ∀ f g id, folderOf f = some id → folderOf g = none → allowed f → allowed g →
      resultKey f ≠ resultKey g := by
    intro f g id hf hg hfa hga he
    have hc := resultKey_count hn hfa hf
    have h2 := hn.ok g hga
    cases g with
    | schema u => have := hslash u h2; rw [he] at hc; omega
    | utr => rw [he, hutr] at hc; omega
    | names => exact resultKey_ne_names hf he
    | _ => cases hg
  constructor
  · intro he
    cases hf : folderOf r with
    | some id =>
      cases hf' : folderOf r' with
      | some id' => exact resultKey_inj hn hr hr' hf hf' he
      | none => exact absurd he (mixed r r' id hf hf' hr hr')
    | none =>
      cases hf' : folderOf r' with
      | some id' => exact absurd he.symm (mixed r' r id' hf' hf hr' hr)
      | none => exact glob r r' hf hf' hr hr' he
  · intro id hf' he
    have hid := folder_idOk hn hr' hf'
    have h1 := hn.ok r hr
    cases hf : folderOf r with
    | some i => exact resultKey_not_id hf hid he
    | none =>
      have h0 : id.toList.count '/' = 0 := List.count_eq_zero_of_not_mem hid.2
      cases r with
      | schema u => have := hslash u h1; rw [he] at this; omega
      | utr => rw [he] at hutr; omega
      | names => subst he; exact absurd hid.1 (by decide)
      | _ => cases hf

theorem uses_done {o : Out H B S} {k : String} {kind : Kind} : ¬ Uses (.done o) k kind := by intro h; cases h

theorem uses_get {l : LockId} {k' : String} {kind' : Kind} {hit : Val H B S → Prog H B S} {miss : Prog H B S} {k : String} {kind : Kind}
    (h : Uses (.get l k' kind' hit miss) k kind) : (k = k' ∧ kind = kind') ∨ (∃ v, Uses (hit v) k kind) ∨ Uses miss k kind := by
  cases h with
  | reads => exact .inl ⟨rfl, rfl⟩
  | hit _ _ _ _ _ v _ _ h => exact .inr (.inl ⟨v, h⟩)
  | miss _ _ _ _ _ _ _ h => exact .inr (.inr h)

theorem uses_spawn {l : LockId} {k' : String} {v : Val H B S} {next : Prog H B S} {k : String} {kind : Kind}
    (h : Uses (.spawn l k' v next) k kind) : (k = k' ∧ kind = v.kind) ∨ Uses next k kind := by
  cases h with
  | writes => exact .inl ⟨rfl, rfl⟩
  | next _ _ _ _ _ _ h => exact .inr h

theorem uses_hydratable {be : Backend H B S} {dry : Bool} {id : String} {f : Option H → Option String → Prog H B S} {k : String}
    {kind : Kind} (h : Uses (hydratable be dry id f) k kind) : (k = id ∧ kind = .hyd) ∨ ∃ x e, Uses (f x e) k kind := by
  have hf : ∀ {p : Prog H B S}, p = (.chooseErr (be.discover id) fun
      | some m => f none (some ("failed to discover folder, " ++ m))
      | none => .chooseHyd (be.hydrate id) fun
        | none => .done .panic
        | some (ret, err) => if dry then f ret err else .spawn .app id (.hyd ret) (f ret err)) → Uses p k kind →
      (k = id ∧ kind = .hyd) ∨ ∃ x e, Uses (f x e) k kind := by
    rintro p rfl h
    cases h with
    | err _ _ x _ _ _ h =>
      cases x with
      | some m => exact .inr ⟨_, _, h⟩
      | none =>
        cases h with
        | hyd _ _ x _ _ _ h =>
          match x, h with
          | none, h => exact absurd h uses_done
          | some (ret, err), h =>
            simp only at h
            split at h
            · exact .inr ⟨_, _, h⟩
            · rcases uses_spawn h with h | h
              · exact .inl h
              · exact .inr ⟨_, _, h⟩
  unfold hydratable at h
  by_cases hd : dry = true
  · rw [if_pos hd] at h
    exact hf rfl h
  · rw [if_neg hd] at h
    rcases uses_get h with h | ⟨v, h⟩ | h
    · exact .inl h
    · cases v with
      | hyd x => exact .inr ⟨_, _, h⟩
      | _ => exact absurd h uses_done
    · exact hf rfl h

theorem uses_finish {dry : Bool} {key : String} {x : Option (Option B × Option String)} {k : String} {kind : Kind}
    (h : Uses (finish (H := H) (S := S) dry key x) k kind) : k = key ∧ kind = .bytes := by
  match x, h with
  | none, h => exact absurd h uses_done
  | some (b, e), h =>
    simp only [finish] at h
    split at h
    · exact absurd h uses_done
    · rcases uses_spawn h with h | h
      · exact h
      · exact absurd h uses_done

theorem uses_cached {dry : Bool} {key : String} {p : Prog H B S} {k : String} {kind : Kind} (h : Uses (cachedBytes dry key p) k kind) :
    (k = key ∧ kind = .bytes) ∨ Uses p k kind := by
  unfold cachedBytes at h
  split at h
  · exact .inr h
  · rcases uses_get h with h | ⟨v, h⟩ | h
    · exact .inl h
    · exact absurd h uses_done
    · exact .inr h

theorem uses_orFail {e : Option String} {p : Prog H B S} {k : String} {kind : Kind} (h : Uses (orFail e p) k kind) : Uses p k kind := by
  cases e with
  | none => exact h
  | some m => exact absurd h uses_done

theorem uses_withHyd {x : Option H} {f : H → Prog H B S} {k : String} {kind : Kind} (h : Uses (withHyd x f) k kind) :
    ∃ y, Uses (f y) k kind := by
  cases x with
  | none => exact absurd h uses_done
  | some y => exact ⟨y, h⟩

theorem uses_chooseBytes {possible : Option (Option B × Option String) → Prop} {f : Option (Option B × Option String) → Prog H B S}
    {k : String} {kind : Kind} (h : Uses (.chooseBytes possible f) k kind) : ∃ x, Uses (f x) k kind := by
  cases h with
  | bytes _ _ x _ _ _ h => exact ⟨x, h⟩

theorem uses_global {l : LockId} {key : String} {kd : Kind} {possible : Option S → Prop} {mk : S → Val H B S} (hk : ∀ s, (mk s).kind = kd)
    {o : Out H B S} {f : Option S → Prog H B S} (h0 : f none = .done o)
    (h1 : ∀ s, f (some s) = .spawn l key (mk s) (.done (.ret (mk s) none))) {k : String} {kind : Kind}
    (h : Uses (.get l key kd (fun v => .done (.ret v none)) (.chooseGlobal possible f)) k kind) : k = key ∧ kind = kd := by
  rcases uses_get h with h | ⟨v, h⟩ | h
  · exact h
  · exact absurd h uses_done
  · cases h with
    | global _ _ x _ _ _ h =>
      cases x with
      | none => rw [h0] at h; exact absurd h uses_done
      | some s =>
        rw [h1] at h
        rcases uses_spawn h with h | h
        · exact ⟨h.1, by rw [h.2, hk]⟩
        · exact absurd h uses_done

def resultKind : Req → Kind
  | .schema _ => .schema
  | .utr => .utr
  | .names => .names
  | _ => .bytes

/-- A call uses the key of its folder and the key of its answer. -/
theorem uses_prog {be : Backend H B S} {dry : Bool} {r : Req} {k : String} {kind : Kind} (h : Uses (prog be dry r) k kind) :
    (folderOf r = some k ∧ kind = .hyd) ∨ (k = resultKey r ∧ kind ≠ .hyd ∧ kind = resultKind r) := by
  cases r with
  | catalog id =>
    rw [prog, catalogProg] at h
    rcases uses_hydratable h with ⟨rfl, rfl⟩ | ⟨x, e, h⟩
    · exact .inl ⟨rfl, rfl⟩
    · rcases uses_cached (uses_orFail h) with ⟨rfl, rfl⟩ | h
      · exact .inr ⟨rfl, by decide, rfl⟩
      · obtain ⟨y, h⟩ := uses_withHyd h
        obtain ⟨z, h⟩ := uses_chooseBytes h
        obtain ⟨rfl, rfl⟩ := uses_finish h
        exact .inr ⟨rfl, by decide, rfl⟩
  | express id n c =>
    rw [prog, expressProg] at h
    rcases uses_hydratable h with ⟨rfl, rfl⟩ | ⟨x, e, h⟩
    · exact .inl ⟨rfl, rfl⟩
    · rcases uses_cached (uses_orFail h) with ⟨rfl, rfl⟩ | h
      · exact .inr ⟨rfl, by decide, rfl⟩
      · obtain ⟨y, h⟩ := uses_withHyd h
        obtain ⟨z, h⟩ := uses_chooseBytes h
        obtain ⟨rfl, rfl⟩ := uses_finish h
        exact .inr ⟨rfl, by decide, rfl⟩
  | renderable id hash =>
    rcases uses_cached h with ⟨rfl, rfl⟩ | h
    · exact .inr ⟨rfl, by decide, rfl⟩
    · rcases uses_hydratable h with ⟨rfl, rfl⟩ | ⟨x, e, h⟩
      · exact .inl ⟨rfl, rfl⟩
      · obtain ⟨y, h⟩ := uses_withHyd (uses_orFail h)
        unfold renderableFresh at h
        split at h
        · split at h
          · exact absurd h uses_done
          · obtain ⟨rfl, rfl⟩ := uses_finish h
            exact .inr ⟨rfl, by decide, rfl⟩
        · obtain ⟨z, h⟩ := uses_chooseBytes h
          obtain ⟨rfl, rfl⟩ := uses_finish h
          exact .inr ⟨rfl, by decide, rfl⟩
  | schema url =>
    obtain ⟨rfl, rfl⟩ := uses_global (mk := Val.schema) (fun _ => rfl) rfl (fun _ => rfl) h
    exact .inr ⟨rfl, by decide, rfl⟩
  | utr =>
    obtain ⟨rfl, rfl⟩ := uses_global (mk := Val.utr) (fun _ => rfl) rfl (fun _ => rfl) h
    exact .inr ⟨rfl, by decide, rfl⟩
  | names =>
    obtain ⟨rfl, rfl⟩ := uses_global (mk := Val.names) (fun _ => rfl) rfl (fun _ => rfl) h
    exact .inr ⟨rfl, by decide, rfl⟩

/-- **C62.** In normal operation, whatever the calls do, two calls that read or write the same key of the cache use it for
the same kind of value: for the hydrated folder of both, whose id is the key, or else they are the same call. -/
theorem C62_keys_disjoint (be : Backend H B S) (dry : Bool) (allowed : Req → Prop) (hn : Normal allowed) (r r' : Req)
    (hr : allowed r) (hr' : allowed r') (k : String) (kind kind' : Kind)
    (h : Uses (prog be dry r) k kind) (h' : Uses (prog be dry r') k kind') :
    kind = kind' ∧ (kind = .hyd → folderOf r = some k ∧ folderOf r' = some k) ∧ (kind ≠ .hyd → r = r') := by
  rcases uses_prog h with ⟨h1, rfl⟩ | ⟨rfl, h2, h3⟩ <;> rcases uses_prog h' with ⟨h1', rfl⟩ | ⟨he, h2', h3'⟩
  · exact ⟨rfl, fun _ => ⟨h1, h1'⟩, fun h => absurd rfl h⟩
  · exact absurd he.symm ((resultKeys_disjoint allowed hn r' r hr' hr).2 k h1)
  · exact absurd rfl ((resultKeys_disjoint allowed hn r r' hr hr').2 _ h1')
  · obtain rfl := (resultKeys_disjoint allowed hn r r' hr hr').1 he
    exact ⟨h3.trans h3'.symm, fun h => absurd h h2, fun _ => rfl⟩

/-- Two allowed calls that use the same key, that of their folder. -/
example : Normal someCalls ∧ Uses (prog okBackend false (.catalog "a-1")) "a-1" .hyd ∧
    Uses (prog okBackend false (.express "a-1" "us-gaap:Assets" "c1")) "a-1" .hyd :=
  ⟨someCalls_normal, .reads _ _ _ _ _, .reads _ _ _ _ _⟩

/-- Outside normal operation keys do collide: the id in the URL is any path segment, so `names.json` is
a folder key and the key of the entity names; and fact keys are built from an ambiguous text. -/
theorem C62_fails :
    (Uses (prog okBackend false (.catalog "names.json")) "names.json" .hyd ∧ Uses (prog okBackend false .names) "names.json" .names) ∧
    ∃ k, Uses (prog okBackend false (.express "a-1" "us-gaap:Assets" "c")) k .bytes ∧
      Uses (prog okBackend false (.express "a-1" "us-gaap" "Assets:c")) k .bytes ∧
      Req.express "a-1" "us-gaap:Assets" "c" ≠ .express "a-1" "us-gaap" "Assets:c" := by
  have h : "a-1" ++ "/facts/" ++ "us-gaap:Assets" ++ ":" ++ "c" = "a-1" ++ "/facts/" ++ "us-gaap" ++ ":" ++ "Assets:c" := by decide
  have hk : ∀ n c, Uses (prog okBackend false (.express "a-1" n c)) (expressKey "a-1" n c) .bytes :=
    fun n c => .hit _ _ _ _ _ (.hyd (some ())) _ _ (.reads _ _ _ _ _)
  refine ⟨⟨.reads _ _ _ _ _, .reads _ _ _ _ _⟩, expressKey "a-1" "us-gaap:Assets" "c", hk _ _, ?_, by decide⟩
  have e : expressKey "a-1" "us-gaap:Assets" "c" = expressKey "a-1" "us-gaap" "Assets:c" := by
    unfold expressKey; rw [h]
  rw [e]
  exact hk _ _

/-! ## C63 -/

/-- In normal operation no lock is leaked, no reader is ever blocked, and from every reachable state
all calls in progress can be answered and all background writes done, without new calls. -/
theorem C63_locks_released (be : Backend H B S) (hs : be.Sane) (ht : be.Total) (allowed : Req → Prop)
    (hn : Normal allowed) (dry : Bool) (s : State H B S) (h : Steps be dry allowed State.init s) :
    (∀ l, s.leaked l = 0 ∧ s.waiting l = false) ∧
    ∃ t, Steps be dry allowed s t ∧ t.threads = [] ∧ t.pending = [] ∧
      ∀ z ∈ s.threads, ∃ o, (z.1, o) ∈ t.log := by
  have hi := inv_reach hn hs h
  refine ⟨fun l => ⟨hi.leaked l, hi.waiting l⟩, ?_⟩
  have hlive : ∀ z ∈ s.threads, Live z.2 := by
    clear hi
    generalize hi0 : State.init = s0 at h
    induction h with
    | refl => subst hi0; simp [State.init]
    | tail _ hstep ih => exact (live_inv ht dry allowed).step trivial ih hstep
  have hsafe : ∀ r, allowed r → Safe be allowed (Allowed be r) (prog be dry r) :=
    fun _ hr => safe_prog hn hs dry hr
  obtain ⟨t, h1, h2, h3⟩ := drain_threads hsafe s.threads s hi rfl hlive
  obtain ⟨u, h4, h5, h6, h7⟩ := drain_pending (be := be) (dry := dry) (allowed := allowed)
    t.pending t rfl (inv_steps hsafe hi h1).leaked
  refine ⟨u, steps_trans h1 h4, by rw [h5, h2], h6, ?_⟩
  intro z hz
  rw [h7]
  exact h3 z hz

theorem okBackend_total : okBackend.Total where
  discover := by intro id; simp only [okBackend]; split <;> exact ⟨_, rfl⟩
  hydrate := fun _ => ⟨_, rfl⟩
  catalog := fun _ => ⟨_, rfl⟩
  renderable := fun _ _ => ⟨_, rfl⟩
  express := fun _ _ _ => ⟨_, rfl⟩
  schema := fun _ => ⟨_, rfl⟩
  utr := ⟨_, rfl⟩
  names := ⟨_, rfl⟩

example : okBackend.Sane ∧ okBackend.Total ∧ Normal someCalls :=
  ⟨okBackend_sane, okBackend_total, someCalls_normal⟩

/-- The claim is false when any path segment may be an id: after the entity names were cached, one
request for the folder `names.json` panics holding the lock, and after one more request no folder
request is ever answered again. -/
theorem C63_fails : ∃ s : State Unit Nat Unit,
    Steps okBackend false (fun _ => True) State.init s ∧
    s.log.length = 3 ∧ s.threads = [] ∧
    ∀ t, Steps okBackend false (fun _ => True) s t →
      ∀ z ∈ t.log, z ∈ s.log ∨ folderOf z.1 = none := by
  have h := Steps.refl (be := okBackend) (dry := false) (allowed := fun _ => True) State.init
  have h := h.tail (.start _ .names trivial)
  have h := h.tail (.miss _ [] [] _ _ _ _ _ _ rfl rfl rfl)
  have h := h.tail (.chooseGlobal _ [] [] _ _ _ (some ()) rfl rfl)
  have h := h.tail (.spawn _ [] [] _ _ _ _ _ rfl)
  have h := h.tail (.done _ [] [] _ _ rfl)
  have h := h.tail (.commit _ [] [] _ _ _ rfl rfl)
  have h := h.tail (.start _ (.catalog "names.json") trivial)
  have h := h.tail (.clash _ [] [] _ _ _ _ _ _ (.names ()) rfl rfl (by simp [upd]) (by decide))
  have h := h.tail (.done _ [] [] _ _ rfl)
  have h := h.tail (.start _ (.catalog "a-1") trivial)
  have h := h.tail (.miss _ [] [] _ _ _ _ _ _ rfl rfl (by simp [upd, State.init]))
  have h := h.tail (.chooseErr _ [] [] _ _ _ none rfl (by simp [okBackend]))
  have h := h.tail (.chooseHyd _ [] [] _ _ _ (some (some (), none)) rfl rfl)
  have h := h.tail (.spawn _ [] [] _ _ _ _ _ rfl)
  have h := h.tail (.miss _ [] [] _ _ _ _ _ _ rfl rfl (by simp [upd, State.init]))
  have h := h.tail (.chooseBytes _ [] [] _ _ _ (some (some 1, none)) rfl rfl)
  have h := h.tail (.spawn _ [] [] _ _ _ _ _ rfl)
  have h := h.tail (.done _ [] [] _ _ rfl)
  have h := h.tail (.block _ [] _ .app _ _ rfl (by simp [upd]))
  refine ⟨_, h, rfl, rfl, ?_⟩
  intro t ht
  exact (stuck_steps ⟨by simp [upd], by simp, fun z hz => .inl hz⟩ ht).2.2

/-! ## C64 -/

/-- Once a folder call has been answered successfully and the background writes are done, every later
answer to it, in every further history, is one fixed successful value. -/
theorem C64_published_stable (be : Backend H B S) (hs : be.Sane) (allowed : Req → Prop)
    (hn : Normal allowed) (s : State H B S) (h : Steps be false allowed State.init s)
    (hq : s.threads = [] ∧ s.pending = []) (r : Req) (hf : folderOf r ≠ none) (hr : allowed r)
    (v : Val H B S) (hv : (r, .ret v none) ∈ s.log) :
    ∃ w, ∀ t, Steps be false allowed s t →
      ∃ new, t.log = new ++ s.log ∧ ∀ o, (r, o) ∈ new → o = .ret w none := by
  obtain ⟨id, hf⟩ := Option.ne_none_iff_exists'.1 hf
  have hi := inv_reach hn hs h
  have hcov : covers (fun k => s.cache k ≠ none) r := by
    rcases (covered h).2 _ hv with h | h
    · simp [hf] at h
    · refine covers_mono ?_ (h trivial)
      rintro k (hk | ⟨l, v, hk⟩)
      · exact hk
      · rw [hq.2] at hk; cases hk
  obtain ⟨w, hw⟩ := Option.ne_none_iff_exists'.1 hcov.1
  refine ⟨w, fun t ht => ?_⟩
  have hid : ∀ v, s.cache id = some v → ∃ h, v = .hyd h := by
    intro v hv
    obtain ⟨h', _, rfl, _⟩ := legit_id hn (folder_idOk hn hr hf) (hi.cache _ _ hv)
    exact ⟨h', rfl⟩
  have hfr : Frozen s.cache r w s.log s :=
    ⟨fun _ _ h => h, by simp [hq.2], by simp [hq.1], [], rfl, by simp⟩
  obtain ⟨_, hfin⟩ := frozen_steps (fun _ hr => safe_prog hn hs false hr)
    (run_covered hf hw hid hcov) ⟨hi, hfr⟩ ht
  obtain ⟨new, h1, h2⟩ := hfin.log
  exact ⟨new, h1, fun o ho => h2 _ ho rfl⟩

/-- A quiescent state with a successful answer is reachable. -/
example : ∃ s : State Unit Nat Unit, Steps okBackend false someCalls State.init s ∧
    (s.threads = [] ∧ s.pending = []) ∧ (.catalog "a-1", .ret (.bytes (some 1)) none) ∈ s.log := by
  have hc : someCalls (.catalog "a-1") := .inl rfl
  have h := Steps.refl (be := okBackend) (dry := false) (allowed := someCalls) State.init
  have h := h.tail (.start _ (.catalog "a-1") hc)
  have h := h.tail (.miss _ [] [] _ _ _ _ _ _ rfl rfl rfl)
  have h := h.tail (.chooseErr _ [] [] _ _ _ none rfl (by simp [okBackend]))
  have h := h.tail (.chooseHyd _ [] [] _ _ _ (some (some (), none)) rfl (by simp [okBackend]))
  have h := h.tail (.spawn _ [] [] _ _ _ _ _ rfl)
  have h := h.tail (.miss _ [] [] _ _ _ _ _ _ rfl rfl rfl)
  have h := h.tail (.chooseBytes _ [] [] _ _ _ (some (some 1, none)) rfl (by simp [okBackend]))
  have h := h.tail (.spawn _ [] [] _ _ _ _ _ rfl)
  have h := h.tail (.done _ [] [] _ _ rfl)
  have h := h.tail (.commit _ [] _ _ _ _ rfl rfl)
  have h := h.tail (.commit _ [] [] _ _ _ rfl rfl)
  exact ⟨_, h, ⟨rfl, rfl⟩, by simp [State.init]⟩

/-! ## C68 -/

/-- Lookups of global schemas, of the unit registry and of the entity names always answer what the
uncached lookup can answer. -/
theorem C68_global_transparent (be : Backend H B S) (hs : be.Sane) (allowed : Req → Prop)
    (hn : Normal allowed) (dry : Bool) (s : State H B S) (h : Steps be dry allowed State.init s)
    (o : Out H B S) :
    (∀ url, (.schema url, o) ∈ s.log →
      (∃ x, be.schema url (some x) ∧ o = .ret (.schema x) none) ∨
      (be.schema url none ∧ o = .ret (.bytes none) (some "error"))) ∧
    ((.utr, o) ∈ s.log →
      (∃ x, be.utr (some x) ∧ o = .ret (.utr x) none) ∨
      (be.utr none ∧ o = .ret (.bytes none) (some "error"))) ∧
    ((.names, o) ∈ s.log →
      (∃ x, be.names (some x) ∧ o = .ret (.names x) none) ∨
      (be.names none ∧ o = .ret (.bytes none) (some "error"))) := by
  have hd : ∀ r, folderOf r = none → (r, o) ∈ s.log → Direct be r o := by
    intro r hf ho
    rcases C60_answers be hs allowed hn dry s h r o ho with h | h | h
    · exact h
    · exact absurd hf h.1
    · exact absurd hf h.1
  refine ⟨fun url ho => ?_, fun ho => ?_, fun ho => ?_⟩
  · have := hd _ rfl ho
    cases this <;> simp_all [folderOf]
  · have := hd _ rfl ho
    cases this <;> simp_all [folderOf]
  · have := hd _ rfl ho
    cases this <;> simp_all [folderOf]

/-- A run answering the same schema twice, before and after the background write. -/
example : ∃ s : State Unit Nat Unit, Steps okBackend false someCalls State.init s ∧
    s.log = [(.schema "http://www.xbrl.org/2003/xbrl-instance-2003-12-31.xsd", .ret (.schema ()) none),
      (.schema "http://www.xbrl.org/2003/xbrl-instance-2003-12-31.xsd", .ret (.schema ()) none)] := by
  have hc : someCalls (.schema "http://www.xbrl.org/2003/xbrl-instance-2003-12-31.xsd") := by
    simp [someCalls]
  have h := Steps.refl (be := okBackend) (dry := false) (allowed := someCalls) State.init
  have h := h.tail (.start _ _ hc)
  have h := h.tail (.miss _ [] [] _ _ _ _ _ _ rfl rfl rfl)
  have h := h.tail (.chooseGlobal _ [] [] _ _ _ (some ()) rfl rfl)
  have h := h.tail (.spawn _ [] [] _ _ _ _ _ rfl)
  have h := h.tail (.done _ [] [] _ _ rfl)
  have h := h.tail (.commit _ [] [] _ _ _ rfl rfl)
  have h := h.tail (.start _ _ hc)
  have h := h.tail (.hit _ [] [] _ _ _ _ _ _ (.schema ()) rfl rfl (by simp [upd]) rfl)
  have h := h.tail (.done _ [] [] _ _ rfl)
  exact ⟨_, h, rfl⟩

end Telefacts
