import Verif.Props.Cache
import Verif.Props.PeriodWords
/-!
# Every error is forgotten, and exactly which months are named (C61, C141)
-/
namespace Telefacts
open Telefacts.Cache Telefacts.Spec
variable {H B S : Type}

/-! ## C61 -/

/-- From loading on, a request with a folder at hand leads to the computation that it asks for. -/
theorem compute_steps {be : Backend H B S} {allowed : Req → Prop} {s : State H B S} {r : Req} {h : H} {b : Option B} {e : Option String}
    {p : Prog H B S} (hs : s.threads = [(r, p)])
    (hp : p = .chooseBytes (fun x => Computes be r h x) (finish false (resultKey r)) ∨ p = finish false (resultKey r) (some (b, e)))
    (hc : Computes be r h (some (b, e))) :
    Steps be false allowed s { s with
      threads := []
      pending := (.app, resultKey r, .bytes b) :: s.pending
      log := (r, .ret (.bytes b) e) :: s.log } := by
  have h := Steps.refl (be := be) (dry := false) (allowed := allowed) s
  rcases hp with rfl | rfl
  · have h := h.tail (.chooseBytes _ [] [] r _ _ (some (b, e)) hs hc)
    have h := h.tail (.spawn _ [] [] r .app (resultKey r) (.bytes b) (.done (.ret (.bytes b) e)) rfl)
    exact h.tail (.done _ [] [] r _ rfl)
  · have h := h.tail (.spawn _ [] [] r .app (resultKey r) (.bytes b) (.done (.ret (.bytes b) e)) hs)
    exact h.tail (.done _ [] [] r _ rfl)

/-- A folder that is not kept is loaded. -/
theorem load_steps {be : Backend H B S} {allowed : Req → Prop} {s : State H B S} {r : Req} {id : String} {h : Option H} {m : Option String}
    {k : Option H → Option String → Prog H B S} (hs : s.threads = [(r, hydratable be false id k)]) (hw : s.waiting .app = false)
    (hc : s.cache id = none) (hd : be.discover id none) (hh : be.hydrate id (some (h, m))) :
    Steps be false allowed s { s with
      threads := [(r, k h m)]
      pending := (.app, id, .hyd h) :: s.pending } := by
  have h0 := Steps.refl (be := be) (dry := false) (allowed := allowed) s
  have h0 := h0.tail (.miss _ [] [] r _ _ _ _ _ hs hw hc)
  have h0 := h0.tail (.chooseErr _ [] [] r _ _ none rfl hd)
  have h0 := h0.tail (.chooseHyd _ [] [] r _ _ (some (h, m)) rfl hh)
  exact h0.tail (.spawn _ [] [] r _ _ _ _ rfl)

theorem renderableFresh_form (be : Backend H B S) (id hash : String) (h : H) (b : Option B) (e : Option String)
    (hc : Computes be (.renderable id hash) h (some (b, e))) :
    renderableFresh be false id hash h =
        .chooseBytes (fun x => Computes be (.renderable id hash) h x) (finish false (resultKey (.renderable id hash))) ∨
      renderableFresh be false id hash h = finish false (resultKey (.renderable id hash)) (some (b, e)) := by
  unfold renderableFresh
  by_cases hx : (fileExt hash = ".xhtml" ∨ fileExt hash = ".htm") ∧ be.entryName h = hash
  · right
    rw [if_pos hx]
    replace hx := (and_congr_left' (fileExt_cases hash)).1 hx
    rcases hc with ⟨_, _, hc⟩ | ⟨hn, _⟩
    · cases hdb : be.docBytes h with
      | none => rw [hdb] at hc; simp at hc
      | some d =>
        rw [hdb] at hc
        simp only [Option.map_some, Option.some.injEq] at hc
        rw [hc]
        rfl
    · exact absurd hx hn
  · left
    rw [if_neg hx]
    replace hx := (not_congr (and_congr_left' (fileExt_cases hash))).1 hx
    congr 1
    funext x
    simp only [Computes, eq_iff_iff]
    constructor
    · exact fun h => .inr ⟨hx, h⟩
    · rintro (⟨h1, h2, _⟩ | ⟨_, h⟩)
      · exact absurd ⟨h1, h2⟩ hx
      · exact h

/-- The first call for something of a folder that loads: its answer goes to the cache. -/
theorem first_steps {be : Backend H B S} {allowed : Req → Prop} {s : State H B S} {r : Req} {id : String} {h : H} {b : Option B}
    {e : Option String} (hr : allowed r) (hf : folderOf r = some id) (hs : s.threads = []) (hw : s.waiting .app = false)
    (hci : s.cache id = none) (hck : s.cache (resultKey r) = none) (hd : be.discover id none) (hh : be.hydrate id (some (some h, none)))
    (hc : Computes be r h (some (b, e))) :
    Steps be false allowed s { s with
      pending := (.app, resultKey r, .bytes b) :: (.app, id, .hyd (some h)) :: s.pending
      log := (r, .ret (.bytes b) e) :: s.log } := by
  have h0 := (Steps.refl (be := be) (dry := false) (allowed := allowed) s).tail (.start s r hr)
  rw [hs] at h0
  cases r with
  | catalog i =>
    cases hf
    simp only [prog, catalogProg] at h0
    have h1 := steps_trans h0 (load_steps (s := { s with threads := [_] }) rfl hw hci hd hh)
    have h1 := h1.tail (.miss _ [] [] _ _ _ _ _ _ rfl hw hck)
    have h1 := steps_trans h1 (compute_steps (s := { s with threads := _, pending := _ }) rfl (.inl rfl) hc)
    rw [← hs] at h1
    exact h1
  | express i n c =>
    cases hf
    simp only [prog, expressProg] at h0
    have h1 := steps_trans h0 (load_steps (s := { s with threads := [_] }) rfl hw hci hd hh)
    have h1 := h1.tail (.miss _ [] [] _ _ _ _ _ _ rfl hw hck)
    have h1 := steps_trans h1 (compute_steps (s := { s with threads := _, pending := _ }) rfl (.inl rfl) hc)
    rw [← hs] at h1
    exact h1
  | renderable i ha =>
    cases hf
    have h1 := h0.tail (.miss _ [] [] _ _ _ _ _ _ rfl hw hck)
    have h1 := steps_trans h1 (load_steps (s := { s with threads := [_] }) rfl hw hci hd hh)
    have h1 := steps_trans h1 (compute_steps (s := { s with threads := _, pending := _ }) rfl (renderableFresh_form be _ ha h b e hc) hc)
    rw [← hs] at h1
    exact h1
  | schema => cases hf
  | utr => cases hf
  | names => cases hf

/-- A call whose answer is in the cache, for a folder that loads. -/
theorem second_steps {be : Backend H B S} {allowed : Req → Prop} {s : State H B S} {r : Req} {id : String} {h : H} {b : Option B}
    (hr : allowed r) (hf : folderOf r = some id) (hs : s.threads = []) (hw : s.waiting .app = false)
    (hci : s.cache id = none) (hck : s.cache (resultKey r) = some (.bytes b)) (hd : be.discover id none)
    (hh : be.hydrate id (some (some h, none))) :
    ∃ p, Steps be false allowed s { s with
      pending := p
      log := (r, .ret (.bytes b) none) :: s.log } := by
  have h0 := (Steps.refl (be := be) (dry := false) (allowed := allowed) s).tail (.start s r hr)
  rw [hs] at h0
  cases r with
  | catalog i =>
    cases hf
    simp only [prog, catalogProg] at h0
    have h1 := steps_trans h0 (load_steps (s := { s with threads := [_] }) rfl hw hci hd hh)
    have h1 := h1.tail (.hit _ [] [] _ _ _ _ _ _ _ rfl hw hck rfl)
    have h1 := h1.tail (.done _ [] [] _ _ rfl)
    refine ⟨(.app, id, .hyd (some h)) :: s.pending, ?_⟩
    simp only [List.nil_append] at h1
    rw [← hs] at h1
    exact h1
  | express i n c =>
    cases hf
    simp only [prog, expressProg] at h0
    have h1 := steps_trans h0 (load_steps (s := { s with threads := [_] }) rfl hw hci hd hh)
    have h1 := h1.tail (.hit _ [] [] _ _ _ _ _ _ _ rfl hw hck rfl)
    have h1 := h1.tail (.done _ [] [] _ _ rfl)
    refine ⟨(.app, id, .hyd (some h)) :: s.pending, ?_⟩
    simp only [List.nil_append] at h1
    rw [← hs] at h1
    exact h1
  | renderable i ha =>
    cases hf
    have h1 := h0.tail (.hit _ [] [] _ _ _ _ _ _ _ rfl hw hck rfl)
    have h1 := h1.tail (.done _ [] [] _ _ rfl)
    refine ⟨s.pending, ?_⟩
    simp only [List.nil_append] at h1
    rw [← hs] at h1
    exact h1
  | schema => cases hf
  | utr => cases hf
  | names => cases hf

/-- **C61 fails** for every error after loading, of every backend and every call in normal operation: whenever what is asked for of a folder
that loads can fail, there is a run in which the call fails and the same call then succeeds, with what the failure left behind. -/
theorem C61_all_fails (be : Backend H B S) (allowed : Req → Prop) (r : Req) (id : String) (h : H) (b : Option B) (e : String)
    (hr : allowed r) (hf : folderOf r = some id) (hid : IdOk id) (hd : be.discover id none) (hh : be.hydrate id (some (some h, none)))
    (hc : Computes be r h (some (b, some e))) :
    ∃ s, Steps be false allowed State.init s ∧ s.log = [(r, .ret (.bytes b) none), (r, .ret (.bytes b) (some e))] := by
  have hne : id ≠ resultKey r := fun hx => resultKey_not_id hf hid hx.symm
  have h1 := first_steps (s := State.init) hr hf rfl rfl rfl rfl hd hh hc
  have h1 := h1.tail (.commit _ [] _ _ _ _ rfl rfl)
  obtain ⟨p, h2⟩ := second_steps (be := be) (allowed := allowed) (h := h) (b := b) (s := { (State.init : State H B S) with
      cache := upd (State.init : State H B S).cache (resultKey r) (some (.bytes b)), pending := [(.app, id, .hyd (some h))],
      log := [(r, .ret (.bytes b) (some e))] }) hr hf rfl rfl (by simp [upd, hne, State.init]) (by simp [upd]) hd hh
  exact ⟨_, steps_trans h1 h2, rfl⟩

/-- **C61 fails** likewise for every error of hydration without a folder: the call fails, and the same call then panics. -/
theorem C61_all_fails_panic (be : Backend H B S) (allowed : Req → Prop) (r : Req) (id e : String)
    (hr : allowed r) (hf : folderOf r = some id) (hid : IdOk id) (hd : be.discover id none) (hh : be.hydrate id (some (none, some e))) :
    ∃ s, Steps be false allowed State.init s ∧ s.log = [(r, .panic), (r, .ret (.bytes none) (some e))] := by
  have hne : id ≠ resultKey r := fun hx => resultKey_not_id hf hid hx.symm
  have h0 := (Steps.refl (be := be) (dry := false) (allowed := allowed) State.init).tail (.start _ r hr)
  cases r with
  | catalog i =>
    cases hf
    simp only [prog, catalogProg] at h0
    have h1 := steps_trans h0 (load_steps (s := { State.init with threads := [_] }) rfl rfl rfl hd hh)
    have h1 := h1.tail (.done _ [] [] _ _ rfl)
    have h1 := h1.tail (.commit _ [] _ _ _ _ rfl rfl)
    have h1 := h1.tail (.start _ (.catalog id) hr)
    have h1 := h1.tail (.hit _ [] [] _ _ _ _ _ _ (.hyd none) rfl rfl (by simp [upd]) rfl)
    have h1 := h1.tail (.miss _ [] [] _ _ _ _ _ _ rfl rfl (by simp only [resultKey] at hne; simp [upd, State.init]))
    have h1 := h1.tail (.done _ [] [] _ _ rfl)
    exact ⟨_, h1, rfl⟩
  | express i n c =>
    cases hf
    simp only [prog, expressProg] at h0
    have h1 := steps_trans h0 (load_steps (s := { State.init with threads := [_] }) rfl rfl rfl hd hh)
    have h1 := h1.tail (.done _ [] [] _ _ rfl)
    have h1 := h1.tail (.commit _ [] _ _ _ _ rfl rfl)
    have h1 := h1.tail (.start _ (.express id n c) hr)
    have h1 := h1.tail (.hit _ [] [] _ _ _ _ _ _ (.hyd none) rfl rfl (by simp [upd]) rfl)
    have hne' : expressKey id n c ≠ id := fun hx => hne hx.symm
    have h1 := h1.tail (.miss _ [] [] _ _ _ _ _ _ rfl rfl (by simp [upd, State.init, hne']))
    have h1 := h1.tail (.done _ [] [] _ _ rfl)
    exact ⟨_, h1, rfl⟩
  | renderable i ha =>
    cases hf
    simp only [prog, renderableProg, cachedBytes] at h0
    have h1 := h0.tail (.miss _ [] [] _ _ _ _ _ _ rfl rfl rfl)
    have h1 := steps_trans h1 (load_steps (s := { State.init with threads := [_] }) rfl rfl rfl hd hh)
    have h1 := h1.tail (.done _ [] [] _ _ rfl)
    have h1 := h1.tail (.commit _ [] _ _ _ _ rfl rfl)
    have h1 := h1.tail (.start _ (.renderable id ha) hr)
    have hne' : id ++ "/" ++ ha ≠ id := fun hx => hne hx.symm
    have h1 := h1.tail (.miss _ [] [] _ _ _ _ _ _ rfl rfl (by simp only [upd, if_neg hne']; rfl))
    have h1 := h1.tail (.hit _ [] [] _ _ _ _ _ _ (.hyd none) rfl rfl (by simp [upd]) rfl)
    have h1 := h1.tail (.done _ [] [] _ _ rfl)
    exact ⟨_, h1, rfl⟩
  | schema => cases hf
  | utr => cases hf
  | names => cases hf

/-- Non-vacuity: the backends of `C61_fails` and `C61_fails_panic`. -/
example : IdOk "a-1" ∧ folderOf (.renderable "a-1" "f00d") = some "a-1" ∧ badRender.discover "a-1" none ∧
    badRender.hydrate "a-1" (some (some (), none)) ∧
    Computes badRender (.renderable "a-1" "f00d") () (some (none, some "no such network")) ∧
    badHydrate.discover "a-1" none ∧ badHydrate.hydrate "a-1" (some (none, some "bad folder")) := by
  refine ⟨by unfold IdOk; decide, rfl, rfl, rfl, ?_, rfl, rfl⟩
  have h1 : ¬ EndsIn "f00d" ".xhtml" := by rw [← ext_xhtml]; decide
  have h2 : ¬ EndsIn "f00d" ".htm" := by rw [← ext_htm]; decide
  exact .inr ⟨by simp [h1, h2], rfl⟩

/-! ## C63 -/

/-- **C63 fails** for every backend that has the entity names and a folder that loads: after the names, the folder `names.json` and anything
of that folder have been asked for, no request for any folder is ever answered again. -/
theorem C63_all_fails (be : Backend H B S) (x : S) (hx : be.names (some x)) (r : Req) (id : String) (h : H) (b : Option B) (e : Option String)
    (hf : folderOf r = some id) (hid : id ≠ "names.json") (hd : be.discover id none) (hh : be.hydrate id (some (some h, none)))
    (hc : Computes be r h (some (b, e))) (allowed : Req → Prop) (ha : allowed .names ∧ allowed (.catalog "names.json") ∧ allowed r) :
    ∃ s : State H B S, Steps be false allowed State.init s ∧
      s.log = [(r, .ret (.bytes b) e), (.catalog "names.json", .panic), (.names, .ret (.names x) none)] ∧ s.threads = [] ∧
      ∀ t, Steps be false allowed s t → ∀ z ∈ t.log, z ∈ s.log ∨ folderOf z.1 = none := by
  have h0 := Steps.refl (be := be) (dry := false) (allowed := allowed) State.init
  have h0 := h0.tail (.start _ .names ha.1)
  have h0 := h0.tail (.miss _ [] [] _ _ _ _ _ _ rfl rfl rfl)
  have h0 := h0.tail (.chooseGlobal _ [] [] _ _ _ (some x) rfl hx)
  have h0 := h0.tail (.spawn _ [] [] _ _ _ _ _ rfl)
  have h0 := h0.tail (.done _ [] [] _ _ rfl)
  have h0 := h0.tail (.commit _ [] [] _ _ _ rfl rfl)
  have h0 := h0.tail (.start _ (.catalog "names.json") ha.2.1)
  have h0 := h0.tail (.clash _ [] [] _ _ _ _ _ _ (.names x) rfl rfl (by simp [upd]) (by simp [Val.kind]))
  have h0 := h0.tail (.done _ [] [] _ _ rfl)
  have h0 := steps_trans h0 (first_steps (r := r) (id := id) (h := h) (b := b) (e := e) ha.2.2 hf rfl rfl (by simp [upd, hid, State.init])
    (by simp [upd, resultKey_ne_names hf, State.init]) hd hh hc)
  have h0 := h0.tail (.block _ [] _ .app _ _ rfl (by simp [upd]))
  refine ⟨_, h0, rfl, rfl, ?_⟩
  intro t ht
  exact (stuck_steps ⟨by simp [upd], by simp, fun z hz => .inl hz⟩ ht).2.2

/-- Non-vacuity: the backend of `C63_fails`. -/
example : okBackend.names (some ()) ∧ folderOf (.catalog "a-1") = some "a-1" ∧ okBackend.discover "a-1" none ∧
    okBackend.hydrate "a-1" (some (some (), none)) ∧ Computes okBackend (.catalog "a-1") () (some (some 1, none)) :=
  ⟨rfl, rfl, by simp [okBackend], rfl, rfl⟩

/-! ## C141 -/

open Telefacts.Render

/-- **C141**, exactly: a duration of whole calendar months is headed by their number and the date it ends if and only if it has two or more
of them or the month has 31 days. -/
theorem C141_exact (spanish : Date → Option String) {s e : String} {a b : Date} (hs : IsoText s a) (he : IsoText e b)
    (n : Nat) (h : WholeMonths a n b) (d : String) (hd : EnglishText b d) :
    formatDate spanish "en - english" (s ++ "/" ++ e) = (if n = 1 then "1 month ended " else toString n ++ " months ended ") ++ d ↔
      2 ≤ n ∨ b.d = 31 := by
  refine ⟨fun hf => ?_, fun hn => C141_months_partial spanish hs he n h hn d hd⟩
  by_contra hc
  rw [not_or] at hc
  have hn : n = 1 := by have := h.2.2.2; omega
  subst hn
  rw [(C141_fails spanish).1 s e a b hs he h hc.2, if_pos rfl] at hf
  have hsp : ' ' ∈ (s ++ "/" ++ e).toList := by
    rw [hf, String.toList_append]
    exact List.mem_append_left _ (by decide)
  simp only [String.toList_append, List.mem_append] at hsp
  rcases hsp with (h1 | h1) | h1
  · exact iso_no_space hs h1
  · revert h1; decide
  · exact iso_no_space he h1

end Telefacts
