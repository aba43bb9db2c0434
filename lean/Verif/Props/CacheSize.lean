import Verif.Props.Server
/-! # C158: what is left in the cache -/
namespace Telefacts
open Telefacts.Server Telefacts.Hydrate Telefacts.Catalog Telefacts.Cache Telefacts.Instance Telefacts.Decode Telefacts.Spec
variable {H B S : Type}

theorem step_keeps {be : Backend H B S} {dry : Bool} {allowed : Req → Prop} {s t : State H B S} (h : Step be dry allowed s t)
    {k : String} (hk : s.cache k ≠ none) : t.cache k ≠ none := by
  cases h with
  | commit pre post l key v hp hl =>
    show Cache.upd s.cache key (some v) k ≠ none
    unfold Cache.upd
    split
    · simp
    · exact hk
  | _ => exact hk

/-- **C158.** Entries are never removed. -/
theorem C158_kept {be : Backend H B S} {dry : Bool} {allowed : Req → Prop} {s t : State H B S} (h : Steps be dry allowed s t)
    (k : String) (hk : s.cache k ≠ none) : t.cache k ≠ none := by
  induction h with
  | refl => exact hk
  | tail _ hs ih => exact step_keeps hs ih

/-- **C158.** Nothing is kept of calls about folders that are not there: the entry of a folder call is below the key of a folder that
is discovered. Missing: that there is no entry for what a folder does not have, see `C158_grows_fails`. -/
theorem C158_folders_partial (be : Backend H B S) (hs : be.Sane) (allowed : Req → Prop) (hn : Normal allowed) (dry : Bool)
    (s : State H B S) (h : Steps be dry allowed State.init s) (r : Req) (hr : allowed r) (folder : String)
    (hf : folderOf r = some folder) (hno : ¬ be.discover folder none) :
    s.cache folder = none ∧ s.cache (resultKey r) = none := by
  have hi := inv_reach hn hs h
  constructor
  · cases hc : s.cache folder with
    | none => rfl
    | some v =>
      obtain ⟨_, _, _, h1, _⟩ := legit_id hn (folder_idOk hn hr hf) (hi.cache _ _ hc)
      exact absurd h1 hno
  · cases hc : s.cache (resultKey r) with
    | none => rfl
    | some v =>
      obtain ⟨_, _, _, _, h1, _⟩ := legit_result hn hr hf (hi.cache _ _ hc)
      exact absurd h1 hno

/-- Nothing is going on; the names `seen` have been asked for, each with an error. -/
structure Asked (folder : String) (h : H) (seen : List String) (s : State H B S) : Prop where
  threads : s.threads = []
  pending : s.pending = []
  leaked : s.leaked = fun _ => 0
  waiting : s.waiting = fun _ => false
  loaded : s.cache folder = none ∨ s.cache folder = some (.hyd (some h))
  unseen : ∀ x, x ∉ seen → s.cache (folder ++ "/" ++ x) = none
  empty : ∀ x ∈ seen, s.cache (folder ++ "/" ++ x) = some (.bytes none)

theorem below_ne (folder x : String) : folder ++ "/" ++ x ≠ folder := by
  intro h
  have := congrArg (fun s => s.toList.length) h
  simp at this

theorem below_inj {folder x y : String} (h : folder ++ "/" ++ x = folder ++ "/" ++ y) : x = y := by
  have := congrArg String.toList h
  simp at this
  exact String.toList_inj.1 this

theorem ask_once {be : Backend H B S} {allowed : Req → Prop} {folder x e : String} {h : H} {seen : List String} {s : State H B S}
    (hs : Asked folder h seen s) (hx : x ∉ seen) (ha : allowed (.renderable folder x)) (hd : be.discover folder none)
    (hh : be.hydrate folder (some (some h, none))) (hdoc : ¬ ((fileExt x = ".xhtml" ∨ fileExt x = ".htm") ∧ be.entryName h = x))
    (hr : be.renderable x h (some (none, some e))) :
    ∃ t, Steps be false allowed s t ∧ Asked folder h (x :: seen) t ∧
      t.log = (.renderable folder x, .ret (.bytes none) (some e)) :: s.log := by
  obtain ⟨cache, pending, threads, leaked, waiting, log⟩ := s
  obtain ⟨h1, h2, h3, h4, h5, h6, h7⟩ := hs
  simp only at h1 h2 h3 h4 h5 h6 h7
  subst h1 h2 h3 h4
  have e1 : renderableFresh be false folder x h = .chooseBytes (be.renderable x h) (finish false (folder ++ "/" ++ x)) := by
    unfold renderableFresh; rw [if_neg hdoc]
  have k := Steps.refl (be := be) (dry := false) (allowed := allowed) ⟨cache, [], [], fun _ => 0, fun _ => false, log⟩
  have k := k.tail (.start _ (.renderable folder x) ha)
  have k := k.tail (.miss _ [] [] _ _ _ _ _ _ rfl rfl (h6 x hx))
  rcases h5 with h5 | h5
  · have k := k.tail (.miss _ [] [] _ _ _ _ _ _ rfl rfl h5)
    have k := k.tail (.chooseErr _ [] [] _ _ _ none rfl hd)
    have k := k.tail (.chooseHyd _ [] [] _ _ _ (some (some h, none)) rfl hh)
    have k := k.tail (.spawn _ [] [] _ _ _ _ _ rfl)
    have k := k.tail (.chooseBytes _ [] [] _ _ _ (some (none, some e)) (congrArg (fun p => [(Req.renderable folder x, p)]) e1) hr)
    have k := k.tail (.spawn _ [] [] _ _ _ _ _ rfl)
    have k := k.tail (.done _ [] [] _ _ rfl)
    have k := k.tail (.commit _ [] _ _ _ _ rfl rfl)
    have k := k.tail (.commit _ [] [] _ _ _ rfl rfl)
    refine ⟨_, k, ⟨rfl, rfl, rfl, rfl, .inr (by simp [Cache.upd]), ?_, ?_⟩, rfl⟩
    · intro y hy
      have n1 : y ≠ x := fun h => hy (by simp [h])
      have n2 := h6 y (fun h => hy (by simp [h]))
      have n3 : folder ++ "/" ++ y ≠ folder ++ "/" ++ x := fun h => n1 (below_inj h)
      show Cache.upd (Cache.upd cache _ _) _ _ _ = _
      unfold Cache.upd
      rw [if_neg (below_ne folder y), if_neg n3, n2]
    · intro y hy
      show Cache.upd (Cache.upd cache _ _) _ _ _ = _
      unfold Cache.upd
      rw [if_neg (below_ne folder y)]
      split
      · rfl
      · next hne =>
        have : y ≠ x := fun h => hne (by rw [h])
        exact h7 y (by simpa [this] using hy)
  · have k := k.tail (.hit _ [] [] _ _ _ _ _ _ (.hyd (some h)) rfl rfl h5 rfl)
    have k := k.tail (.chooseBytes _ [] [] _ _ _ (some (none, some e)) (congrArg (fun p => [(Req.renderable folder x, p)]) e1) hr)
    have k := k.tail (.spawn _ [] [] _ _ _ _ _ rfl)
    have k := k.tail (.done _ [] [] _ _ rfl)
    have k := k.tail (.commit _ [] [] _ _ _ rfl rfl)
    refine ⟨_, k, ⟨rfl, rfl, rfl, rfl, .inr ?_, ?_, ?_⟩, rfl⟩
    · show Cache.upd cache _ _ _ = _
      unfold Cache.upd
      rw [if_neg (fun h => below_ne folder x h.symm), h5]
    · intro y hy
      have n1 : y ≠ x := fun h => hy (by simp [h])
      have n2 := h6 y (fun h => hy (by simp [h]))
      have n3 : folder ++ "/" ++ y ≠ folder ++ "/" ++ x := fun h => n1 (below_inj h)
      show Cache.upd cache _ _ _ = _
      unfold Cache.upd
      rw [if_neg n3, n2]
    · intro y hy
      show Cache.upd cache _ _ _ = _
      unfold Cache.upd
      split
      · rfl
      · next hne =>
        have : y ≠ x := fun h => hne (by rw [h])
        exact h7 y (by simpa [this] using hy)

/-- **C158 fails.** Every name that is no slug of the folder leaves an entry for ever when it is asked for: after calls for any number of
such names, all answered with an error, the cache has an (empty) entry for each. -/
theorem C158_grows_fails (be : Backend H B S) (allowed : Req → Prop) (folder : String) (h : H) (hd : be.discover folder none)
    (hh : be.hydrate folder (some (some h, none))) (names : List String) (hn : names.Nodup)
    (ha : ∀ x ∈ names, allowed (.renderable folder x))
    (hr : ∀ x ∈ names, ¬ ((EndsIn x ".xhtml" ∨ EndsIn x ".htm") ∧ be.entryName h = x) ∧ ∃ e, be.renderable x h (some (none, some e))) :
    ∃ s : State H B S, Steps be false allowed State.init s ∧ s.threads = [] ∧ s.pending = [] ∧
      (∀ p ∈ s.log, ¬ Succeeds p.2) ∧ s.log.length = names.length ∧
      ∀ x ∈ names, ∀ later t, Steps be false later s t → t.cache (folder ++ "/" ++ x) ≠ none := by
  have key : ∀ names : List String, names.Nodup → (∀ x ∈ names, allowed (.renderable folder x)) →
      (∀ x ∈ names, ¬ ((EndsIn x ".xhtml" ∨ EndsIn x ".htm") ∧ be.entryName h = x) ∧ ∃ e, be.renderable x h (some (none, some e))) →
      ∃ s : State H B S, Steps be false allowed State.init s ∧ Asked folder h names s ∧
        (∀ p ∈ s.log, ¬ Succeeds p.2) ∧ s.log.length = names.length := by
    intro names
    induction names with
    | nil =>
      intro _ _ _
      exact ⟨State.init, .refl _, ⟨rfl, rfl, rfl, rfl, .inl rfl, fun _ _ => rfl, fun _ h => by simp at h⟩,
        fun _ h => by simp [State.init] at h, rfl⟩
    | cons x xs ih =>
      intro hn ha hr
      rw [List.nodup_cons] at hn
      obtain ⟨s, k, hs, hl, hlen⟩ := ih hn.2 (fun y hy => ha y (List.mem_cons_of_mem _ hy)) (fun y hy => hr y (List.mem_cons_of_mem _ hy))
      obtain ⟨hdoc, e, he⟩ := hr x List.mem_cons_self
      rw [← fileExt_cases] at hdoc
      obtain ⟨t, k', ht, hlog⟩ := ask_once hs hn.1 (ha x List.mem_cons_self) hd hh hdoc he
      refine ⟨t, Telefacts.Cache.steps_trans k k', ht, ?_, by rw [hlog]; simp [hlen]⟩
      intro p hp
      rw [hlog] at hp
      rcases List.mem_cons.1 hp with rfl | hp
      · exact fun h => h
      · exact hl p hp
  obtain ⟨s, k, hs, hl, hlen⟩ := key names hn ha hr
  refine ⟨s, k, hs.threads, hs.pending, hl, hlen, fun x hx later t ht => C158_kept ht _ ?_⟩
  rw [hs.empty x hx]
  simp

/-- `n` zeros -/
def zeros (n : Nat) : String := String.ofList (List.replicate n '0')

theorem zeros_length (n : Nat) : (zeros n).toList.length = n := by simp [zeros]

/-- **C158 fails**, for every folder that can be loaded from disk: however large `n`, requests about it can leave `n` entries in the cache
for ever although none of them was answered with anything. -/
theorem C158_server_fails (site : Site) (folder : String) (w : Hydrate.World) (fo : Files) (h : Hydratable) (hl : Loads site folder w fo h)
    (n : Nat) :
    ∃ (s : State Loaded Store.Bytes Unit) (keys : List String),
      Steps (backend site) false (fun r => ∃ i, r = .renderable folder (zeros (33 + i))) State.init s ∧
      (∀ p ∈ s.log, ¬ Succeeds p.2) ∧ keys.Nodup ∧ keys.length = n ∧
      ∀ k ∈ keys, ∀ later t, Steps (backend site) false later s t → t.cache k ≠ none := by
  have hd : (backend site).discover folder none := by
    obtain ⟨_, _, fuel, sched, hp, hl, _⟩ := hl
    obtain ⟨fo0, h1, _⟩ := load_some hl
    exact discovers_ok hp h1
  have hnd : ((List.range n).map fun i => zeros (33 + i)).Nodup := by
    refine List.Nodup.map ?_ List.nodup_range
    intro a b hab
    have := congrArg (fun s : String => s.toList.length) hab
    simp only [zeros_length] at this
    omega
  obtain ⟨s, k, _, _, hlog, _, hc⟩ := C158_grows_fails (backend site) (fun r => ∃ i, r = .renderable folder (zeros (33 + i))) folder
    ⟨folder, w, fo, h⟩ hd ⟨rfl, hl⟩ _ hnd (by
      intro x hx
      obtain ⟨i, _, rfl⟩ := List.mem_map.1 hx
      exact ⟨i, rfl⟩) (by
    intro x hx
    obtain ⟨i, _, rfl⟩ := List.mem_map.1 hx
    have hmem : ∀ c ∈ (zeros (33 + i)).toList, c = '0' := by
      intro c hc
      simp only [zeros, String.toList_ofList] at hc
      exact List.eq_of_mem_replicate hc
    refine ⟨?_, "object not found", demoChoice h, demoChoice_fair _, ?_⟩
    · rintro ⟨⟨p, hp⟩ | ⟨p, hp⟩, _⟩
      · exact absurd (hmem '.' (by rw [hp]; simp)) (by decide)
      · exact absurd (hmem '.' (by rw [hp]; simp)) (by decide)
    · have hsel : select (zeros (33 + i)) (sortedEntities (values h.instances)) (sortedRSets (values h.schemas)) = none := by
        unfold select
        rw [List.find?_eq_none]
        intro p _ hp
        have hp := of_decide_eq_true hp
        have h32 := (C36_slug_shape (stringify p.1) p.2.roleURI p.2.title).1
        rw [← hp, zeros_length] at h32
        omega
      show Returns (render site (demoChoice h) (zeros (33 + i)) ⟨folder, w, fo, h⟩) _
      unfold render
      rw [hsel]
      exact rfl)
  refine ⟨s, ((List.range n).map fun i => zeros (33 + i)).map (fun x => folder ++ "/" ++ x), k, hlog, ?_, by simp, ?_⟩
  · exact List.Nodup.map (fun a b h => below_inj h) hnd
  · intro x hx later t ht
    obtain ⟨y, hy, rfl⟩ := List.mem_map.1 hx
    exact hc y hy later t ht

/-- A folder that can be loaded from disk. -/
example : ∃ fo h, Loads demoSite "a-1" diskWorld fo h := by
  obtain ⟨fo, h, hl, _⟩ := demo_load
  exact ⟨fo, h, demo_loads hl⟩

/-- The calls of `C158_server_fails` about that folder are normal. -/
example : Normal (fun r => ∃ i, r = .renderable "a-1" (zeros (33 + i))) where
  ok := by
    rintro r ⟨i, rfl⟩
    refine ⟨by unfold IdOk; decide, ?_, ?_⟩
    · intro h
      have := congrArg (fun s : String => s.toList.length) h
      simp [zeros_length] at this
    · intro h
      simp only [zeros, String.toList_ofList] at h
      exact absurd (List.eq_of_mem_replicate h) (by decide)
  express := by
    rintro _ _ _ _ _ _ ⟨_, h⟩
    cases h

/-- A folder that is not discovered. -/
example : okBackend.Sane ∧ ¬ okBackend.discover "b-2" none ∧
    Normal (fun r => r = .catalog "b-2") ∧ folderOf (.catalog "b-2") = some "b-2" := by
  refine ⟨okBackend_sane, by simp [okBackend], ⟨?_, ?_⟩, rfl⟩
  · rintro r rfl
    unfold ReqOk IdOk
    decide
  · rintro _ _ _ _ _ _ h
    cases h

end Telefacts
