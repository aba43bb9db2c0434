import Verif.Spec.Setup
import Verif.Props.Server
/-! # C155: which programs can serve folders -/
namespace Telefacts
open Telefacts.Cache Telefacts.Hydrate Telefacts.Server

theorem setup_snoc (cs : List Call) (c : Call) : setup (cs ++ [c]) = call (setup cs) c := by simp [setup]

theorem setup_app (cs : List Call) : (setup cs).app = true ↔ Made cs := by
  induction cs using List.reverseRecOn with
  | nil => simp [setup, Made]
  | append_singleton cs c ih =>
    rw [setup_snoc]
    have : Made (cs ++ [c]) ↔ Made cs ∨ c.mode = some false := by simp [Made, or_and_right, exists_or]
    rw [this, ← ih]
    cases c with
    | newCache d => cases d <;> simp [call, newCache, Call.mode]
    | inject d => simp [call, Call.mode]
    | injectNew d => cases d <;> simp [call, newCache, Call.mode]

/-- The last element that meets a condition, after one more. -/
theorem last_snoc {α : Type} {P Q : α → Prop} (cs : List α) (c : α) :
    (∃ pre x post, cs ++ [c] = pre ++ x :: post ∧ P x ∧ ∀ y ∈ post, Q y) ↔
      P c ∨ (Q c ∧ ∃ pre x post, cs = pre ++ x :: post ∧ P x ∧ ∀ y ∈ post, Q y) := by
  constructor
  · rintro ⟨pre, x, post, h1, h2, h3⟩
    rcases List.eq_nil_or_concat post with rfl | ⟨post, z, rfl⟩
    · obtain ⟨_, h⟩ := List.append_inj' h1 rfl
      cases h
      exact .inl h2
    · rw [List.concat_eq_append, ← List.cons_append, ← List.append_assoc] at h1
      obtain ⟨h, h'⟩ := List.append_inj' h1 rfl
      cases h'
      exact .inr ⟨h3 _ (by simp), pre, x, post, h, h2, fun y hy => h3 y (by simp [hy])⟩
  · rintro (h | ⟨h, pre, x, post, rfl, h2, h3⟩)
    · exact ⟨cs, c, [], rfl, h, by simp⟩
    · refine ⟨pre, x, post ++ [c], by simp, h2, ?_⟩
      intro y hy
      rcases List.mem_append.1 hy with hy | hy
      · exact h3 y hy
      · rw [List.mem_singleton.1 hy]; exact h

theorem setup_dry (cs : List Call) : (setup cs).dry = true ↔ EndsDry cs := by
  induction cs using List.reverseRecOn with
  | nil => simp [setup, EndsDry]
  | append_singleton cs c ih =>
    rw [setup_snoc]
    unfold EndsDry at ih ⊢
    rw [last_snoc, ← ih]
    cases c with
    | newCache d => cases d <;> simp [call, newCache, Call.mode]
    | inject d => simp [call, Call.mode]
    | injectNew d => cases d <;> simp [call, newCache, Call.mode]

theorem setup_global (cs : List Call) : (setup cs).global = true ↔ Injected cs := by
  induction cs using List.reverseRecOn with
  | nil => simp [setup, Injected]
  | append_singleton cs c ih =>
    have key : Injected (cs ++ [c]) ↔ (c = .inject true ∨ c = .injectNew false ∨ (c = .injectNew true ∧ Made cs)) ∨
        (c.injects = false ∧ Injected cs) := by
      constructor
      · rintro ⟨pre, x, post, h1, h2, h3⟩
        rcases List.eq_nil_or_concat post with rfl | ⟨post, z, rfl⟩
        · obtain ⟨e, h⟩ := List.append_inj' h1 rfl
          cases h
          subst e
          exact .inl h3
        · rw [List.concat_eq_append, ← List.cons_append, ← List.append_assoc] at h1
          obtain ⟨h, h'⟩ := List.append_inj' h1 rfl
          cases h'
          exact .inr ⟨h2 _ (by simp), pre, x, post, h, fun y hy => h2 y (by simp [hy]), h3⟩
      · rintro (h | ⟨h, pre, x, post, rfl, h2, h3⟩)
        · exact ⟨cs, c, [], rfl, by simp, h⟩
        · refine ⟨pre, x, post ++ [c], by simp, ?_, h3⟩
          intro y hy
          rcases List.mem_append.1 hy with hy | hy
          · exact h2 y hy
          · rw [List.mem_singleton.1 hy]; exact h
    rw [setup_snoc, key, ← ih, ← setup_app]
    cases c with
    | newCache d => cases d <;> simp [call, newCache, Call.injects]
    | inject d => cases d <;> simp [call, Call.injects]
    | injectNew d => cases d <;> simp [call, newCache, Call.injects]

/-- Without units no folder is hydrated. -/
theorem unplugged_loads {v : Vars} (hv : v.global = false) {site : Site} {folder : String} {w : Hydrate.World} {fo : Files} {h : Hydratable} :
    ¬ Loads (plug v site) folder w fo h := by
  rintro ⟨⟨p, d, c, n, l, s₁, s₂, hw⟩, _, fuel, sched, _, hl, _⟩
  obtain ⟨_, _, _, hh⟩ := load_some hl
  obtain ⟨_, _, _, _, _, _, ⟨r, hr, _⟩, _⟩ := hydrate_some hh
  have : w.registry = none := by rw [hw]; simp [plug, hv]
  rw [this] at hr
  cases hr

/-- **C155a.** After a set-up that is not usable, no request is ever answered with bytes, whatever is on the disk. -/
theorem C155_unusable (cs : List Call) (hu : ¬ Usable cs) (site : Site) (allowed : Req → Prop) (hn : Normal allowed) (r : Req)
    (b : Store.Bytes) (e : Option String) : ¬ Answers (setup cs) site allowed r (.ret (.bytes (some b)) e) := by
  intro h
  unfold Answers at h
  split at h
  · cases h
  next hx =>
    obtain ⟨s, hs, hl⟩ := h
    obtain ⟨_, l, _, h2, _⟩ := answered hn hs hl
    cases hg : (setup cs).global with
    | false => exact unplugged_loads hg h2
    | true =>
      refine hu ⟨(setup_global cs).1 hg, ?_⟩
      rw [← setup_dry, ← setup_app]
      cases h1 : (setup cs).dry <;> cases h2 : (setup cs).app <;> simp_all

/-- A history in which a catalog is asked for once, with caching. -/
theorem first_catalog {site : Site} {id : String} {w : Hydrate.World} {fo : Files} {h : Hydratable} (hld : Loads site id w fo h) :
    ∃ s, Steps (backend site) false (· = .catalog id) State.init s ∧
      s.log = [(.catalog id, .ret (.bytes (some (catalogBytes site ⟨id, w, fo, h⟩))) none)] := by
  have hdis : (backend site).discover id none := by
    obtain ⟨_, _, fuel, sched, hp, hl, _⟩ := hld
    obtain ⟨fo0, h1, _⟩ := load_some hl
    exact discovers_ok hp h1
  have hhyd : (backend site).hydrate id (some (some ⟨id, w, fo, h⟩, none)) := ⟨rfl, hld⟩
  have k := Steps.refl (be := backend site) (dry := false) (allowed := (· = .catalog id)) State.init
  have k := k.tail (.start _ (.catalog id) rfl)
  have k := k.tail (.miss _ [] [] _ _ _ _ _ _ rfl rfl rfl)
  have k := k.tail (.chooseErr _ [] [] _ _ _ none rfl hdis)
  have k := k.tail (.chooseHyd _ [] [] _ _ _ (some (some ⟨id, w, fo, h⟩, none)) rfl hhyd)
  have k := k.tail (.spawn _ [] [] _ _ _ _ _ rfl)
  have k := k.tail (.miss _ [] [] _ _ _ _ _ _ rfl rfl rfl)
  have k := k.tail (.chooseBytes _ [] [] _ _ _ (some (some (catalogBytes site ⟨id, w, fo, h⟩), none)) rfl rfl)
  have k := k.tail (.spawn _ [] [] _ _ _ _ _ rfl)
  have k := k.tail (.done _ [] [] _ _ rfl)
  exact ⟨_, k, rfl⟩

theorem catalog_normal {id : String} (h : IdOk id) : Normal (· = .catalog id) where
  ok := by rintro _ rfl; exact h
  express := by intro _ _ _ _ _ _ h; cases h

/-- **C155b.** The catalog of a folder that can be loaded is served exactly after usable set-ups: a cache was injected last, and
either the last mode is dry or a cache was made. -/
theorem C155_served (cs : List Call) (site : Site) (id : String) (hid : IdOk id) (w : Hydrate.World) (fo : Files) (h : Hydratable)
    (hld : Loads site id w fo h) :
    (∃ b, Answers (setup cs) site (· = .catalog id) (.catalog id) (.ret (.bytes (some b)) none)) ↔ Usable cs := by
  refine ⟨fun ⟨b, hb⟩ => by_contra fun hu => C155_unusable cs hu site _ (catalog_normal hid) _ b none hb, ?_⟩
  rintro ⟨hi, hm⟩
  have hg := (setup_global cs).2 hi
  rw [← setup_dry, ← setup_app] at hm
  have hp : plug (setup cs) site = site := by simp [plug, hg]
  refine ⟨catalogBytes site ⟨id, w, fo, h⟩, ?_⟩
  unfold Answers
  rw [if_neg (by rcases hm with hm | hm <;> simp [hm]), hp]
  cases hd : (setup cs).dry with
  | false =>
    obtain ⟨s, h1, h2⟩ := first_catalog hld
    exact ⟨s, h1, by rw [h2]; exact List.mem_singleton.2 rfl⟩
  | true =>
    have hdis : (backend site).discover id none := by
      obtain ⟨_, _, fuel, sched, hp, hl, _⟩ := hld
      obtain ⟨fo0, h1, _⟩ := load_some hl
      exact discovers_ok hp h1
    obtain ⟨s, h1, h2, _⟩ := C60_every (backend site) (· = .catalog id) State.init (.catalog id) rfl _ ⟨_, rfl⟩
      (direct_catalog (l := ⟨id, w, fo, h⟩) hdis ⟨rfl, hld⟩ rfl)
    exact ⟨s, h1, by rw [h2]; exact List.mem_cons_self⟩

/-- The hypotheses are met by the folder of Props/Server.lean. -/
example : ∃ w fo h, Loads demoSite "a-1" w fo h ∧ IdOk "a-1" := by
  obtain ⟨fo, h, hl, _⟩ := demo_load
  exact ⟨_, fo, h, demo_loads hl, by unfold IdOk; decide⟩

/-- **C155c.** The server of main.go is usable, caches, and sees all published files: what is proved about histories of a site
holds of it. -/
theorem C155_main (site : Site) : Usable mainCalls ∧ setup mainCalls = ⟨false, true, true⟩ ∧ plug (setup mainCalls) site = site ∧
    ∀ allowed r o, Answers (setup mainCalls) site allowed r o ↔
      ∃ s, Steps (backend site) false allowed State.init s ∧ (r, o) ∈ s.log := by
  refine ⟨⟨⟨[], .injectNew false, [], rfl, by simp, .inr (.inl rfl)⟩, .inr ⟨.injectNew false, by simp [mainCalls], rfl⟩⟩, rfl, ?_, ?_⟩
  · simp [plug, setup, mainCalls, call, newCache]
  · intro allowed r o
    simp [Answers, plug, setup, mainCalls, call, newCache]

/-- **C155.** A program that never calls `NewCache` panics at every request about a folder, and does nothing else. -/
theorem C155_panics (cs : List Call) (h : ∀ c ∈ cs, ∃ b, c = .inject b) (site : Site) (allowed : Req → Prop) (r : Req)
    (o : Out Loaded Store.Bytes Unit) : Answers (setup cs) site allowed r o ↔ o = .panic := by
  have key : ∀ (cs : List Call) (v : Vars), (∀ c ∈ cs, ∃ b, c = .inject b) →
      (cs.foldl call v).dry = v.dry ∧ (cs.foldl call v).app = v.app := by
    intro cs
    induction cs with
    | nil => intro v _; exact ⟨rfl, rfl⟩
    | cons c cs ih =>
      intro v h
      obtain ⟨b, rfl⟩ := h c (by simp)
      exact ih (call v (.inject b)) fun c hc => h c (by simp [hc])
  obtain ⟨h1, h2⟩ := key cs ⟨false, false, false⟩ h
  unfold Answers
  rw [if_pos ⟨h1, h2⟩]

/-- Injecting a cache of one's own without making one is such a program. -/
example : ∀ c ∈ [Call.inject true], ∃ b, c = Call.inject b := by simp

/-- **C155, refuted for dry mode.** A program that only runs dry — `InjectCache(NewCache(true))` — never answers a request
about a folder with anything but an error or a panic: the cache is also what gives access to units, names and published schemas. -/
theorem C155_fails (site : Site) (allowed : Req → Prop) (hn : Normal allowed) (r : Req) (b : Store.Bytes) (e : Option String) :
    ¬ Answers (setup [.injectNew true]) site allowed r (.ret (.bytes (some b)) e) := by
  refine C155_unusable _ ?_ site allowed hn r b e
  rw [Usable, ← setup_global]
  simp [setup, call, newCache]

/-- Dry mode works after a cache was made once. -/
example : Usable [.injectNew false, .newCache true] := by
  rw [Usable, ← setup_global, ← setup_dry, ← setup_app]
  decide

end Telefacts
