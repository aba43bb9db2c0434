import Verif.Model.Keeping
import Verif.Props.Versions
import Verif.Props.Server
/-!
# C172, C173 for the files of folders

A server whose folders change answers as servers do whose folders do not: what is proved of the answers of `Server.backend` (C124, C140,
C171 and others) holds of each answer, for one version of the folder.
-/
namespace Telefacts
open Telefacts.Cache Telefacts.Server Telefacts.Hydrate

/-- A server that runs on the site, which does not change, gives the answer. -/
def GivenBy (site : Site) (r : Req) (b : Store.Bytes) : Prop :=
  ∃ s, Steps (backend site) true (fun q => q = r) State.init s ∧ (r, .ret (.bytes (some b)) none) ∈ s.log

/-- The site with the folders of a version, and all else as it is. -/
def siteWith (base : Site) (v : Edition) : Site := { base with disk := v.disk, document := v.document }

theorem withEdition_eq (base : Site) (v : Edition) : withEdition base v = siteWith base v := rfl

theorem keeping_sane (base : Site) (v : Edition) : (keeping base v).Sane := by
  rintro id h e ⟨y, hy, he⟩
  cases y with
  | none => cases he
  | some p =>
    obtain ⟨h', e'⟩ := p
    simp only [Option.map_some, Option.some.injEq, Prod.mk.injEq] at he
    obtain ⟨rfl, rfl⟩ := he
    have := backend_sane (withEdition base v) id h' e hy
    simpa using this

theorem keeping_rest (base : Site) (v v' : Edition) : SameRest (keeping base v) (keeping base v') := ⟨rfl, rfl, rfl, rfl, rfl⟩

theorem keeping_computes {base : Site} {v v' : Edition} {l : Loaded} {r : Req} {x : Option (Option Store.Bytes × Option String)}
    (h : Computes (keeping base v) r (v', l) x) : Computes (backend (withEdition base v')) r l x := by
  cases r <;> exact h

theorem keeping_loaded {base : Site} {v : Edition} {id : String} {p : Edition × Loaded} (h : (keeping base v).hydrate id (some (some p, none))) :
    p.1 = v ∧ (backend (withEdition base v)).hydrate id (some (some p.2, none)) := by
  obtain ⟨y, hy, he⟩ := h
  cases y with
  | none => cases he
  | some q =>
    obtain ⟨h', e'⟩ := q
    cases h' with
    | none => simp at he
    | some l =>
      simp only [Option.map_some, Option.some.injEq, Prod.mk.injEq] at he
      obtain ⟨rfl, rfl⟩ := he
      exact ⟨rfl, hy⟩

/-- Answers with bytes are those of the constant server. -/
theorem keeping_answers {base : Site} {v : Edition} {r : Req} {b : Store.Bytes}
    (h : AnswersAs (keeping base v) r (.ret (.bytes (some b)) none)) : GivenBy (siteWith base v) r b := by
  rw [← withEdition_eq]
  have hd : ∀ e, Direct (keeping base v) r (.ret (.bytes (some b)) e) → e = none ∧ GivenBy (withEdition base v) r b := by
    intro e hd
    cases hd with
    | computed _ id p _ _ h1 h2 h3 h4 =>
      obtain ⟨h5, h6⟩ := keeping_loaded h3
      obtain ⟨v', l⟩ := p
      have h5 : v = v' := h5.symm
      subst h5
      have h7 := keeping_computes h4
      cases e with
      | some m => exact absurd h7 computes_error
      | none =>
        refine ⟨rfl, ?_⟩
        obtain ⟨s, hs, hl, _⟩ := C60_every (backend (withEdition base v)) (fun q => q = r) State.init r rfl _ ⟨id, h1⟩
          (.computed r id l (some b) none h1 h2 h6 h7)
        exact ⟨s, hs, by rw [hl]; exact List.mem_cons_self⟩
  rcases h with h | ⟨b', e, h1, h2⟩ | ⟨h1, _⟩
  · exact (hd _ h).2
  · cases h1
    exact absurd (hd _ h2).1 (by simp)
  · cases h1

/-- **C172 is false, of the files.** Once a folder has been answered about, everything served about it is what a server serves that
runs on the files that were there then. -/
theorem C172_served_fails (base : Site) (v v' : Edition) (allowed : Req → Prop) (hn : Normal allowed) (id : String)
    (s t : State (Edition × Loaded) Store.Bytes Unit) (h : Steps (keeping base v) false allowed State.init s) (hq : Quiet s)
    (hok : ∃ r o, (r, o) ∈ s.log ∧ Cache.folderOf r = some id ∧ Succeeds o) (ht : Steps (keeping base v') false allowed s t) :
    ∃ new, t.log = new ++ s.log ∧ ∀ r b, (r, .ret (.bytes (some b)) none) ∈ new → Cache.folderOf r = some id →
      GivenBy (siteWith base v) r b := by
  obtain ⟨new, h1, h2⟩ := C172_stale_fails _ _ (keeping_sane base v) (keeping_sane base v') (keeping_rest base v v') allowed hn id s t h hq hok ht
  exact ⟨new, h1, fun r b hb hf => keeping_answers (h2 r _ hb hf)⟩

/-- **C172, in part, of the files.** What is served about a folder that was not there before the change, or that nobody had asked about,
is what a server serves that runs on the new files. -/
theorem C172_served_partial (base : Site) (v v' : Edition) (allowed : Req → Prop) (hn : Normal allowed) (id : String)
    (s t : State (Edition × Loaded) Store.Bytes Unit) (h : Steps (keeping base v) false allowed State.init s) (hq : Quiet s)
    (hnew : ¬ discovers (siteWith base v) id none ∨ ∀ r o, (r, o) ∈ s.log → Cache.folderOf r ≠ some id)
    (ht : Steps (keeping base v') false allowed s t) :
    ∃ new, t.log = new ++ s.log ∧ ∀ r b, (r, .ret (.bytes (some b)) none) ∈ new → Cache.folderOf r = some id →
      GivenBy (siteWith base v') r b := by
  obtain ⟨new, h1, h2⟩ := C172_new_partial _ _ (keeping_sane base v) (keeping_sane base v') (keeping_rest base v v') allowed hn id s t h hq (by rw [← withEdition_eq] at hnew; exact hnew) ht
  exact ⟨new, h1, fun r b hb hf => keeping_answers (h2 r _ hb hf)⟩

/-- **C173, in part, of the files.** However often the folders change in quiet moments, there is one version of which everything is
that is served about a folder. -/
theorem C173_served_partial (base : Site) (vs : List Edition) (allowed : Req → Prop) (hn : Normal allowed)
    (s : State (Edition × Loaded) Store.Bytes Unit) (h : Phases allowed (vs.map (keeping base)) s) (id : String) :
    ∃ v ∈ vs, ∀ r b, (r, .ret (.bytes (some b)) none) ∈ s.log → Cache.folderOf r = some id → GivenBy (siteWith base v) r b := by
  obtain ⟨own, h1, h2⟩ := C173_partial allowed hn _ s h id
  obtain ⟨v, hv, rfl⟩ := List.mem_map.1 h1
  exact ⟨v, hv, fun r b hb hf => keeping_answers ((h2 r _ hb hf).1 trivial)⟩

/-- **C173, in part.** All catalogs of a folder that are ever served are the same bytes, if its files change in quiet moments only. -/
theorem C173_catalog_partial (base : Site) (vs : List Edition) (allowed : Req → Prop) (hn : Normal allowed)
    (s : State (Edition × Loaded) Store.Bytes Unit) (h : Phases allowed (vs.map (keeping base)) s) (id : String) (b b' : Store.Bytes)
    (hb : (.catalog id, .ret (.bytes (some b)) none) ∈ s.log) (hb' : (.catalog id, .ret (.bytes (some b')) none) ∈ s.log) : b = b' := by
  obtain ⟨v, _, h1⟩ := C173_served_partial base vs allowed hn s h id
  obtain ⟨s₁, hs₁, hl₁⟩ := h1 _ b hb rfl
  obtain ⟨s₂, hs₂, hl₂⟩ := h1 _ b' hb' rfl
  have hn' : Normal (fun q => q = Req.catalog id) := by
    refine ⟨fun r hr => ?_, fun i n c i' n' c' h' => by cases h'⟩
    obtain ⟨_, _, hv, _⟩ := phases_version hn h id
    exact hr ▸ hn.ok _ (hv.logged _ hb)
  exact C124_catalog_same (siteWith base v) _ _ hn' hn' true true s₁ s₂ hs₁ hs₂ id b b' none none hl₁ hl₂

/-! ## A site that changes -/

theorem ask_any {H B S : Type} {be : Cache.Backend H B S} {allowed : Req → Prop} {id : String} (ha : allowed (.catalog id))
    (hid : IdOk id) {h : H} {b : B} (hd : be.discover id none) (hh : be.hydrate id (some (some h, none)))
    (hc : be.catalog h (some (some b, none))) :
    ∃ s : State H B S, Steps be false allowed State.init s ∧ Quiet s ∧ s.log = [(.catalog id, .ret (.bytes (some b)) none)] ∧
      s.waiting = (fun _ => false) ∧ s.cache (id ++ "/") = some (.bytes (some b)) ∧ s.cache id = some (.hyd (some h)) := by
  have hne : id ≠ id ++ "/" := fun he => resultKey_not_id (r := .catalog id) rfl hid he.symm
  have hs := Steps.refl (be := be) (dry := false) (allowed := allowed) State.init
  have hs := hs.tail (.start _ (.catalog id) ha)
  have hs := hs.tail (.miss _ [] [] _ _ _ _ _ _ rfl rfl rfl)
  have hs := hs.tail (.chooseErr _ [] [] _ _ _ none rfl hd)
  have hs := hs.tail (.chooseHyd _ [] [] _ _ _ (some (some h, none)) rfl hh)
  have hs := hs.tail (.spawn _ [] [] _ _ _ _ _ rfl)
  have hs := hs.tail (.miss _ [] [] _ _ _ _ _ _ rfl rfl rfl)
  have hs := hs.tail (.chooseBytes _ [] [] _ _ _ (some (some b, none)) rfl hc)
  have hs := hs.tail (.spawn _ [] [] _ _ _ _ _ rfl)
  have hs := hs.tail (.done _ [] [] _ _ rfl)
  have hs := hs.tail (.commit _ [] _ _ _ _ rfl rfl)
  have hs := hs.tail (.commit _ [] [] _ _ _ rfl rfl)
  exact ⟨_, hs, ⟨rfl, rfl⟩, rfl, rfl, by simp [upd, hne.symm], by simp [upd]⟩

/-- The folders of `demoSite`. -/
def demoEdition : Edition := ⟨demoSite.disk, demoSite.document⟩

/-- The same, with the entry file of every folder gone. -/
def goneEdition : Edition := ⟨fun i => { demoSite.disk i with entryName := none }, demoSite.document⟩

/-- The hypotheses are met: the folder is asked about, then its entry file is removed, and the catalog is served as before. -/
example : ∃ (b : Store.Bytes) (s t : State (Edition × Loaded) Store.Bytes Unit), Steps (keeping demoSite demoEdition) false demoCalls State.init s ∧
    Quiet s ∧ s.log = [(.catalog "a-1", .ret (.bytes (some b)) none)] ∧
    Phases demoCalls ([goneEdition, demoEdition].map (keeping demoSite)) t ∧
    t.log = [(.catalog "a-1", .ret (.bytes (some b)) none), (.catalog "a-1", .ret (.bytes (some b)) none)] := by
  obtain ⟨fo, h, hl, _, _, _⟩ := demo_load
  have hld := demo_loads hl
  have hdis : discovers demoSite "a-1" none := by
    obtain ⟨_, _, fuel, sched, hp, hl, _⟩ := hld
    obtain ⟨fo0, h1, _⟩ := load_some hl
    exact discovers_ok hp h1
  have hhyd : (keeping demoSite demoEdition).hydrate "a-1" (some (some (demoEdition, ⟨"a-1", diskWorld, fo, h⟩), none)) :=
    ⟨some (some ⟨"a-1", diskWorld, fo, h⟩, none), ⟨rfl, hld⟩, rfl⟩
  obtain ⟨s, hs, hq, hlog, hw, h1, h2⟩ := ask_any (be := keeping demoSite demoEdition) (allowed := demoCalls) (id := "a-1")
    (h := (demoEdition, ⟨"a-1", diskWorld, fo, h⟩)) (b := catalogBytes demoSite ⟨"a-1", diskWorld, fo, h⟩) (.inl rfl)
    (by decide : '-' ∈ "a-1".toList ∧ '/' ∉ "a-1".toList) hdis hhyd rfl
  have h' := Steps.refl (be := keeping demoSite goneEdition) (dry := false) (allowed := demoCalls) s
  have h' := h'.tail (.start _ (.catalog "a-1") (.inl rfl))
  have h' := h'.tail (.hit _ [] _ _ _ _ _ _ _ _ rfl (by show s.waiting _ = false; rw [hw]) h2 rfl)
  have h' := h'.tail (.hit _ [] _ _ _ _ _ _ _ _ rfl (by show s.waiting _ = false; rw [hw]) h1 rfl)
  have h' := h'.tail (.done _ [] _ _ _ rfl)
  exact ⟨_, s, _, hs, hq, hlog, .change _ _ _ _ _ (.first _ _ (keeping_sane _ _) hs) hq (keeping_sane _ _) (keeping_rest _ _ _) h',
    by rw [← hlog]⟩

end Telefacts
