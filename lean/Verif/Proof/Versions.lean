import Verif.Proof.CacheRuns
import Verif.Spec.Versions
/-! # Runs of a server whose files change -/
namespace Telefacts.Cache
open Telefacts
variable {H B S : Type}

/-- `own` for one folder, anything for the others. -/
def blend (id : String) (own : Backend H B S) : Backend H B S where
  discover i x := i = id → own.discover i x
  hydrate i x := (i = id → own.hydrate i x) ∧ ∀ h e, x = some (h, e) → (h = none ↔ e ≠ none)
  catalog := own.catalog
  renderable := own.renderable
  express := own.express
  entryName := own.entryName
  docBytes := own.docBytes
  schema _ _ := True
  utr _ := True
  names _ := True

theorem blend_sane (id : String) (own : Backend H B S) : (blend id own).Sane := fun _ h e hh => hh.2 h e rfl

theorem computes_same {a b : Backend H B S} (h : SameRest a b) {r : Req} {x : H} {y : Option (Option B × Option String)} :
    Computes a r x y ↔ Computes b r x y := by
  obtain ⟨h1, h2, h3, h4, h5⟩ := h
  cases r <;> simp [Computes, h1, h2, h3, h4, h5]

theorem blend_rest (id : String) (own : Backend H B S) : SameRest own (blend id own) := ⟨rfl, rfl, rfl, rfl, rfl⟩

theorem SameRest.trans {a b c : Backend H B S} (h : SameRest a b) (h' : SameRest b c) : SameRest a c :=
  ⟨h.catalog.trans h'.catalog, h.renderable.trans h'.renderable, h.express.trans h'.express, h.entryName.trans h'.entryName,
    h.docBytes.trans h'.docBytes⟩

theorem SameRest.symm {a b : Backend H B S} (h : SameRest a b) : SameRest b a :=
  ⟨h.catalog.symm, h.renderable.symm, h.express.symm, h.entryName.symm, h.docBytes.symm⟩

/-- Calls about the folder have the answers of `own`. -/
theorem direct_blend {id : String} {own : Backend H B S} {r : Req} (hf : folderOf r = some id) {o : Out H B S}
    (h : Direct (blend id own) r o) : Direct own r o := by
  have hc : ∀ {x : H} {y : Option (Option B × Option String)}, Computes (blend id own) r x y → Computes own r x y :=
    fun h => (computes_same (blend_rest id own)).2 h
  have hid : ∀ i, folderOf r = some i → i = id := fun i hi => by rw [hf] at hi; exact (Option.some.inj hi).symm
  cases h with
  | undiscovered _ i m h1 h2 => exact .undiscovered _ i m h1 (h2 (hid i h1))
  | hydratePanic _ i h1 h2 h3 => exact .hydratePanic _ i h1 (h2 (hid i h1)) (h3.1 (hid i h1))
  | unhydrated _ i h m h1 h2 h3 => exact .unhydrated _ i h m h1 (h2 (hid i h1)) (h3.1 (hid i h1))
  | computePanic _ i h h1 h2 h3 h4 => exact .computePanic _ i h h1 (h2 (hid i h1)) (h3.1 (hid i h1)) (hc h4)
  | computed _ i h b e h1 h2 h3 h4 => exact .computed _ i h b e h1 (h2 (hid i h1)) (h3.1 (hid i h1)) (hc h4)
  | _ => cases hf

theorem allowed_blend {id : String} {own : Backend H B S} {r : Req} (hf : folderOf r = some id) {o : Out H B S}
    (h : Allowed (blend id own) r o) : AnswersAs own r o := by
  rcases h with h | ⟨_, b, e, h1, h2⟩ | ⟨_, h1, e, h2⟩
  · exact .inl (direct_blend hf h)
  · exact .inr (.inl ⟨b, e, h1, direct_blend hf h2⟩)
  · exact .inr (.inr ⟨h1, e, direct_blend hf h2⟩)

/-- What one version has stored that is not of the folder is legitimate whatever the folder is. -/
theorem legit_other {id : String} {be own : Backend H B S} {allowed : Req → Prop} (hs : be.Sane) (hr : SameRest be own) {k : String}
    {v : Val H B S} (h : Legit be allowed k v) (hk : k ≠ id) (hb : ∀ r, allowed r → folderOf r = some id → k ≠ resultKey r) :
    Legit (blend id own) allowed k v := by
  have hc : ∀ {r : Req} {x : H} {y : Option (Option B × Option String)}, Computes be r x y → Computes (blend id own) r x y :=
    fun h => (computes_same (hr.trans (blend_rest id own))).1 h
  cases h with
  | hyd r _ h e h1 h2 h3 h4 =>
    refine .hyd r k h e h1 h2 (fun he => absurd he hk) ⟨fun he => absurd he hk, ?_⟩
    rintro h' e' he
    cases he
    exact hs _ _ _ h4
  | bytes r i h b e h1 h2 h3 h4 h5 =>
    have hi : i ≠ id := fun he => hb r h1 (he ▸ h2) rfl
    refine .bytes r i h b e h1 h2 (fun he => absurd he hi) ⟨fun he => absurd he hi, ?_⟩ (hc h5)
    rintro h' e' he
    cases he
    exact hs _ _ _ h4
  | schema _ s h1 h2 => exact .schema _ s h1 trivial
  | utr s h1 => exact .utr s trivial
  | names s h1 => exact .names s trivial

/-! ## Programs with fewer possibilities -/

/-- `p` is `q` with fewer possibilities, when the keys of `P` are in the cache. -/
inductive Fewer (P : String → Prop) : Prog H B S → Prog H B S → Prop
  | done (o) : Fewer P (.done o) (.done o)
  | get (l key kind hit hit' miss miss') : (∀ v, Fewer P (hit v) (hit' v)) → (¬ P key → Fewer P miss miss') →
      Fewer P (.get l key kind hit miss) (.get l key kind hit' miss')
  | spawn (l key v next next') : Fewer P next next' → Fewer P (.spawn l key v next) (.spawn l key v next')
  | chooseErr (p p' k k') : (∀ x, p x → p' x) → (∀ x, Fewer P (k x) (k' x)) → Fewer P (.chooseErr p k) (.chooseErr p' k')
  | chooseHyd (p p' k k') : (∀ x, p x → p' x) → (∀ x, Fewer P (k x) (k' x)) → Fewer P (.chooseHyd p k) (.chooseHyd p' k')
  | chooseBytes (p p' k k') : (∀ x, p x → p' x) → (∀ x, Fewer P (k x) (k' x)) → Fewer P (.chooseBytes p k) (.chooseBytes p' k')
  | chooseGlobal (p p' k k') : (∀ x, p x → p' x) → (∀ x, Fewer P (k x) (k' x)) → Fewer P (.chooseGlobal p k) (.chooseGlobal p' k')

theorem Fewer.refl (P : String → Prop) (p : Prog H B S) : Fewer P p p := by
  induction p with
  | done o => exact .done o
  | get l key kind hit miss ih1 ih2 => exact .get _ _ _ _ _ _ _ ih1 fun _ => ih2
  | spawn l key v next ih => exact .spawn _ _ _ _ _ ih
  | chooseErr p k ih => exact .chooseErr _ _ _ _ (fun _ h => h) ih
  | chooseHyd p k ih => exact .chooseHyd _ _ _ _ (fun _ h => h) ih
  | chooseBytes p k ih => exact .chooseBytes _ _ _ _ (fun _ h => h) ih
  | chooseGlobal p k ih => exact .chooseGlobal _ _ _ _ (fun _ h => h) ih

/-- The version `be'` as seen by folder calls. -/
theorem fewer_hydratable {P : String → Prop} {be be' : Backend H B S} {dry : Bool} {i : String}
    (h : (P i ∧ dry = false) ∨ ((∀ x, be'.discover i x → be.discover i x) ∧ ∀ x, be'.hydrate i x → be.hydrate i x))
    {k : Option H → Option String → Prog H B S} : Fewer P (hydratable be' dry i k) (hydratable be dry i k) := by
  have fresh : ((∀ x, be'.discover i x → be.discover i x) ∧ ∀ x, be'.hydrate i x → be.hydrate i x) → ∀ d : Bool,
      Fewer P (Prog.chooseErr (be'.discover i) (fun
        | some m => k none (some ("failed to discover folder, " ++ m))
        | none => .chooseHyd (be'.hydrate i) fun
          | none => .done .panic
          | some (ret, err) => if d then k ret err else .spawn .app i (.hyd ret) (k ret err)))
      (Prog.chooseErr (be.discover i) (fun
        | some m => k none (some ("failed to discover folder, " ++ m))
        | none => .chooseHyd (be.hydrate i) fun
          | none => .done .panic
          | some (ret, err) => if d then k ret err else .spawn .app i (.hyd ret) (k ret err))) := by
    intro h d
    refine .chooseErr _ _ _ _ h.1 ?_
    rintro (_ | m)
    · refine .chooseHyd _ _ _ _ h.2 ?_
      exact fun x => .refl P _
    · exact .refl P _
  unfold hydratable
  cases dry with
  | true => exact fresh (h.resolve_left (by simp)) true
  | false =>
    refine .get _ _ _ _ _ _ _ (fun v => .refl P _) fun hP => ?_
    rcases h with ⟨h, _⟩ | h
    · exact absurd h hP
    · exact fresh h false

/-- The programs of a version have fewer possibilities than those of the blend, if the folder is in the cache or the versions agree about it. -/
theorem fewer_prog {P : String → Prop} {id : String} {own be : Backend H B S} (hs : be.Sane) (hr : SameRest own be) {dry : Bool}
    (h : (P id ∧ dry = false) ∨ ((∀ x, be.discover id x → own.discover id x) ∧ ∀ x, be.hydrate id x → own.hydrate id x)) (r : Req) :
    Fewer P (prog be dry r) (prog (blend id own) dry r) := by
  have hyd : ∀ (i : String) (k : Option H → Option String → Prog H B S),
      Fewer P (hydratable be dry i k) (hydratable (blend id own) dry i k) := by
    intro i k
    refine fewer_hydratable ?_
    by_cases hi : i = id
    · subst hi
      rcases h with h | ⟨h1, h2⟩
      · exact .inl h
      · refine .inr ⟨fun x hx _ => h1 x hx, fun x hx => ⟨fun _ => h2 x hx, ?_⟩⟩
        rintro a e rfl
        exact hs _ _ _ hx
    · refine .inr ⟨fun x _ hh => absurd hh hi, fun x hx => ⟨fun hh => absurd hh hi, ?_⟩⟩
      rintro a e rfl
      exact hs _ _ _ hx
  have e1 : (blend id own).catalog = be.catalog := hr.catalog
  have e2 : (blend id own).renderable = be.renderable := hr.renderable
  have e3 : (blend id own).express = be.express := hr.express
  have e4 : (blend id own).entryName = be.entryName := hr.entryName
  have e5 : (blend id own).docBytes = be.docBytes := hr.docBytes
  cases r with
  | catalog i => simp only [prog, catalogProg, e1]; exact hyd i _
  | express i n c => simp only [prog, expressProg, e3]; exact hyd i _
  | renderable i hash =>
    have e6 : renderableFresh (blend id own) dry i hash = renderableFresh be dry i hash := by
      funext h
      simp only [renderableFresh, e2, e4, e5]
    simp only [prog, renderableProg, e6]
    unfold cachedBytes
    split
    · exact hyd i _
    · exact .get _ _ _ _ _ _ _ (fun v => .refl P _) fun _ => hyd i _
  | schema u => exact .get _ _ _ _ _ _ _ (fun v => .refl P _) fun _ => .chooseGlobal _ _ _ _ (fun _ _ => trivial) fun _ => .refl P _
  | utr => exact .get _ _ _ _ _ _ _ (fun v => .refl P _) fun _ => .chooseGlobal _ _ _ _ (fun _ _ => trivial) fun _ => .refl P _
  | names => exact .get _ _ _ _ _ _ _ (fun v => .refl P _) fun _ => .chooseGlobal _ _ _ _ (fun _ _ => trivial) fun _ => .refl P _

/-! ## Runs -/

/-- `Safe`, when the keys of `P` are in the cache. -/
def Keeps (be : Backend H B S) (allowed : Req → Prop) (P : String → Prop) (ok : Out H B S → Prop) : Prog H B S → Prop
  | .done o => ok o
  | .get _ key kind hit miss =>
    (∀ v, Legit be allowed key v → v.kind = kind ∧ Keeps be allowed P ok (hit v)) ∧ (¬ P key → Keeps be allowed P ok miss)
  | .spawn _ key v next => Legit be allowed key v ∧ Keeps be allowed P ok next
  | .chooseErr p k => ∀ x, p x → Keeps be allowed P ok (k x)
  | .chooseHyd p k => ∀ x, p x → Keeps be allowed P ok (k x)
  | .chooseBytes p k => ∀ x, p x → Keeps be allowed P ok (k x)
  | .chooseGlobal p k => ∀ x, p x → Keeps be allowed P ok (k x)

theorem Safe.keeps {be : Backend H B S} {allowed : Req → Prop} (P : String → Prop) {ok : Out H B S → Prop} (p : Prog H B S) :
    Safe be allowed ok p → Keeps be allowed P ok p := by
  induction p with
  | done o => exact fun h => h
  | get l key kind hit miss ih1 ih2 => exact fun h => ⟨fun v hv => ⟨(h.1 v hv).1, ih1 v (h.1 v hv).2⟩, fun _ => ih2 h.2⟩
  | spawn l key v next ih => exact fun h => ⟨h.1, ih h.2⟩
  | chooseErr p k ih => exact fun h x hx => ih x (h x hx)
  | chooseHyd p k ih => exact fun h x hx => ih x (h x hx)
  | chooseBytes p k ih => exact fun h x hx => ih x (h x hx)
  | chooseGlobal p k ih => exact fun h x hx => ih x (h x hx)

theorem Fewer.keeps {be : Backend H B S} {allowed : Req → Prop} {P : String → Prop} {ok : Out H B S → Prop} {p q : Prog H B S}
    (h : Fewer P p q) : Keeps be allowed P ok q → Keeps be allowed P ok p := by
  induction h with
  | done o => exact fun h => h
  | get l key kind hit hit' miss miss' _ _ ih1 ih2 =>
    exact fun h => ⟨fun v hv => ⟨(h.1 v hv).1, ih1 v (h.1 v hv).2⟩, fun hP => ih2 hP (h.2 hP)⟩
  | spawn l key v next next' _ ih => exact fun h => ⟨h.1, ih h.2⟩
  | chooseErr p p' k k' hp _ ih => exact fun h x hx => ih x (h x (hp x hx))
  | chooseHyd p p' k k' hp _ ih => exact fun h x hx => ih x (h x (hp x hx))
  | chooseBytes p p' k k' hp _ ih => exact fun h x hx => ih x (h x (hp x hx))
  | chooseGlobal p p' k k' hp _ ih => exact fun h x hx => ih x (h x (hp x hx))

/-- Invariant of a version. -/
structure Stands (bl : Backend H B S) (allowed : Req → Prop) (P : String → Prop) (ok : Req → Out H B S → Prop)
    (log0 : List (Req × Out H B S)) (s : State H B S) : Prop where
  cache : ∀ k v, s.cache k = some v → Legit bl allowed k v
  pending : ∀ l k v, (l, k, v) ∈ s.pending → Legit bl allowed k v
  present : ∀ k, P k → s.cache k ≠ none
  threads : ∀ z ∈ s.threads, allowed z.1 ∧ Keeps bl allowed P (ok z.1) z.2
  log : ∃ new, s.log = new ++ log0 ∧ ∀ z ∈ new, allowed z.1 ∧ ok z.1 z.2
  leaked : ∀ l, s.leaked l = 0
  waiting : ∀ l, s.waiting l = false

theorem stands_step {bl be : Backend H B S} {allowed : Req → Prop} {P : String → Prop} {ok : Req → Out H B S → Prop}
    {log0 : List (Req × Out H B S)} {dry : Bool} (hk : ∀ r, allowed r → Keeps bl allowed P (ok r) (prog be dry r)) {s t : State H B S}
    (hi : Stands bl allowed P ok log0 s) (h : Step be dry allowed s t) : Stands bl allowed P ok log0 t := by
  have hth := hi.threads
  have rep : ∀ {pre post : List (Req × Prog H B S)} {r : Req} {p q : Prog H B S}, s.threads = pre ++ (r, p) :: post →
      (Keeps bl allowed P (ok r) p → Keeps bl allowed P (ok r) q) →
      ∀ z ∈ pre ++ (r, q) :: post, allowed z.1 ∧ Keeps bl allowed P (ok z.1) z.2 := by
    intro pre post r p q he hq
    exact threads_replace (P := fun z => allowed z.1 ∧ Keeps bl allowed P (ok z.1) z.2) (x := (r, p)) (y := (r, q)) he hth
      (fun hx => ⟨hx.1, hq hx.2⟩)
  cases h with
  | start r hr =>
    refine { hi with threads := ?_ }
    intro z hz
    rcases List.mem_cons.1 hz with rfl | h
    · exact ⟨hr, hk r hr⟩
    · exact hth _ h
  | done pre post r o he =>
    refine { hi with threads := ?_, log := ?_ }
    · intro z hz
      refine hth z ?_
      rw [he]; simp at hz ⊢; rcases hz with h | h <;> simp [h]
    · obtain ⟨new, h1, h2⟩ := hi.log
      refine ⟨(r, o) :: new, by simp [h1], ?_⟩
      intro z hz
      rcases List.mem_cons.1 hz with rfl | h
      · exact hth (r, .done o) (by rw [he]; simp)
      · exact h2 _ h
  | hit pre post r l key kind hit miss v he hw hc hkd =>
    exact { hi with threads := rep he fun hx => (hx.1 v (hi.cache _ _ hc)).2 }
  | clash pre post r l key kind hit miss v he hw hc hkd =>
    exact absurd ((hth _ (by rw [he]; simp : (r, Prog.get l key kind hit miss) ∈ s.threads)).2.1 v (hi.cache _ _ hc)).1 hkd
  | miss pre post r l key kind hit miss he hw hc =>
    exact { hi with threads := rep he fun hx => hx.2 fun hP => hi.present key hP hc }
  | spawn pre post r l key v next he =>
    have hthis := hth _ (by rw [he]; simp : (r, Prog.spawn l key v next) ∈ s.threads)
    refine { hi with threads := rep he fun hx => hx.2, pending := ?_ }
    intro l' k' v' hp
    rcases List.mem_cons.1 hp with h | h
    · cases h; exact hthis.2.1
    · exact hi.pending _ _ _ h
  | chooseErr pre post r possible k x he hx => exact { hi with threads := rep he fun hz => hz x hx }
  | chooseHyd pre post r possible k x he hx => exact { hi with threads := rep he fun hz => hz x hx }
  | chooseBytes pre post r possible k x he hx => exact { hi with threads := rep he fun hz => hz x hx }
  | chooseGlobal pre post r possible k x he hx => exact { hi with threads := rep he fun hz => hz x hx }
  | commit pre post l key v he hl =>
    refine { hi with cache := ?_, pending := ?_, present := ?_ }
    · intro k' v' hc
      simp only [upd] at hc
      split at hc
      · rename_i h; subst h; cases hc
        exact hi.pending l k' v (by rw [he]; simp)
      · exact hi.cache _ _ hc
    · intro l' k' v' hp
      refine hi.pending l' k' v' ?_
      rw [he]; simp at hp ⊢; rcases hp with h | h <;> simp [h]
    · intro k' hP
      simp only [upd]
      split
      · simp
      · exact hi.present k' hP
  | block pre post l key v he hl => exact absurd (hi.leaked l) (by omega)

theorem stands_steps {bl be : Backend H B S} {allowed : Req → Prop} {P : String → Prop} {ok : Req → Out H B S → Prop}
    {log0 : List (Req × Out H B S)} {dry : Bool} (hk : ∀ r, allowed r → Keeps bl allowed P (ok r) (prog be dry r)) {s t : State H B S}
    (hi : Stands bl allowed P ok log0 s) (h : Steps be dry allowed s t) : Stands bl allowed P ok log0 t := by
  induction h with
  | refl => exact hi
  | tail _ hstep ih => exact stands_step hk ih hstep

/-! ## Answers are kept together with their folder -/

/-- `p` stores bytes only for a folder of `D`, or one that it has stored. -/
def Rooted (allowed : Req → Prop) : (String → Prop) → Prog H B S → Prop
  | _, .done _ => True
  | D, .get _ key _ hit miss => (∀ v, Rooted allowed (fun k => D k ∨ k = key) (hit v)) ∧ Rooted allowed D miss
  | D, .spawn _ key v next => (v.kind = .bytes → ∃ r id, allowed r ∧ resultKey r = key ∧ folderOf r = some id ∧ D id) ∧
      Rooted allowed (fun k => D k ∨ k = key) next
  | D, .chooseErr _ k => ∀ x, Rooted allowed D (k x)
  | D, .chooseHyd _ k => ∀ x, Rooted allowed D (k x)
  | D, .chooseBytes _ k => ∀ x, Rooted allowed D (k x)
  | D, .chooseGlobal _ k => ∀ x, Rooted allowed D (k x)

theorem rooted_mono {allowed : Req → Prop} (p : Prog H B S) : ∀ {D D' : String → Prop}, (∀ k, D k → D' k) → Rooted allowed D p →
    Rooted allowed D' p := by
  induction p with
  | done o => exact fun _ _ => trivial
  | get l key kind hit miss ih1 ih2 => exact fun h hc => ⟨fun v => ih1 v (fun k hk => hk.imp_left (h k)) (hc.1 v), ih2 h hc.2⟩
  | spawn l key v next ih =>
    refine fun h hc => ⟨fun hv => ?_, ih (fun k hk => hk.imp_left (h k)) hc.2⟩
    obtain ⟨r, id, h1, h2, h3, h4⟩ := hc.1 hv
    exact ⟨r, id, h1, h2, h3, h _ h4⟩
  | chooseErr p k ih => exact fun h hc x => ih x h (hc x)
  | chooseHyd p k ih => exact fun h hc x => ih x h (hc x)
  | chooseBytes p k ih => exact fun h hc x => ih x h (hc x)
  | chooseGlobal p k ih => exact fun h hc x => ih x h (hc x)

theorem rooted_hydratable {be : Backend H B S} {allowed : Req → Prop} {D : String → Prop} {id : String}
    {k : Option H → Option String → Prog H B S} (hk : ∀ h e, Rooted allowed (fun k => D k ∨ k = id) (k h e))
    (hk' : ∀ m, Rooted allowed D (k none (some m))) : Rooted allowed D (hydratable be false id k) := by
  refine ⟨?_, ?_⟩
  · intro v
    cases v with
    | hyd h => exact hk _ _
    | _ => trivial
  · rintro (_ | m)
    · rintro (_ | ⟨h, e⟩)
      · trivial
      · exact ⟨(fun h => by cases h), hk h e⟩
    · exact hk' _

theorem rooted_finish {allowed : Req → Prop} {D : String → Prop} {r : Req} {id : String} (hr : allowed r) (hf : folderOf r = some id)
    (hD : D id) (x : Option (Option B × Option String)) : Rooted (H := H) (S := S) allowed D (finish false (resultKey r) x) := by
  cases x with
  | none => trivial
  | some p => exact ⟨fun _ => ⟨r, id, hr, rfl, hf, hD⟩, trivial⟩

theorem rooted_prog (be : Backend H B S) {allowed : Req → Prop} (D : String → Prop) {r : Req} (hr : allowed r) :
    Rooted allowed D (prog be false r) := by
  have glob : ∀ (l : LockId) (key : String) (kd : Kind) (f : Val H B S → Prog H B S) (p : Option S → Prop) (k : Option S → Prog H B S),
      (∀ v, ∃ o, f v = .done o) → (∀ x, Rooted allowed D (k x)) → Rooted allowed D (.get l key kd f (.chooseGlobal p k)) := by
    intro l key kd f p k hf hk
    refine ⟨fun v => ?_, hk⟩
    obtain ⟨o, ho⟩ := hf v
    rw [ho]; trivial
  cases r with
  | catalog id =>
    unfold prog catalogProg
    refine rooted_hydratable (fun h e => ?_) fun m => trivial
    cases e with
    | some m => trivial
    | none =>
      refine ⟨fun v => trivial, ?_⟩
      cases h with
      | none => trivial
      | some h => exact fun x => rooted_finish (r := .catalog id) hr rfl (.inr rfl) x
  | express id n c =>
    unfold prog expressProg
    refine rooted_hydratable (fun h e => ?_) fun m => trivial
    cases e with
    | some m => trivial
    | none =>
      refine ⟨fun v => trivial, ?_⟩
      cases h with
      | none => trivial
      | some h => exact fun x => rooted_finish (r := .express id n c) hr rfl (.inr rfl) x
  | renderable id hash =>
    refine ⟨fun v => trivial, ?_⟩
    refine rooted_hydratable (fun h e => ?_) fun m => trivial
    cases e with
    | some m => trivial
    | none =>
      cases h with
      | none => trivial
      | some h =>
        show Rooted allowed _ (renderableFresh be false id hash h)
        unfold renderableFresh
        split
        · cases be.docBytes h with
          | none => trivial
          | some d => exact rooted_finish (r := .renderable id hash) hr rfl (.inr rfl) _
        · exact fun x => rooted_finish (r := .renderable id hash) hr rfl (.inr rfl) x
  | schema u =>
    refine glob _ _ _ _ _ _ (fun v => ⟨_, rfl⟩) ?_
    rintro (_ | s)
    · trivial
    · exact ⟨(fun h => by cases h), trivial⟩
  | utr =>
    refine glob _ _ _ _ _ _ (fun v => ⟨_, rfl⟩) ?_
    rintro (_ | s)
    · trivial
    · exact ⟨(fun h => by cases h), trivial⟩
  | names =>
    refine glob _ _ _ _ _ _ (fun v => ⟨_, rfl⟩) ?_
    rintro (_ | s)
    · trivial
    · exact ⟨(fun h => by cases h), trivial⟩

/-- Stored bytes belong to a folder that is stored; successful answers have left their keys. -/
structure Together (allowed : Req → Prop) (s : State H B S) : Prop where
  bytes : ∀ k v, (s.cache k = some v ∨ ∃ l, (l, k, v) ∈ s.pending) → v.kind = .bytes →
    ∃ r id, allowed r ∧ resultKey r = k ∧ folderOf r = some id ∧ dom s id
  threads : ∀ z ∈ s.threads, Rooted allowed (dom s) z.2 ∧ (folderOf z.1 = none ∨ Cov z.1 (dom s) z.2)
  log : ∀ z ∈ s.log, folderOf z.1 = none ∨ (Succeeds z.2 → covers (dom s) z.1)

theorem together_inv (be : Backend H B S) (allowed : Req → Prop) : ThreadInv be false allowed (fun _ => True)
    (fun s _ p => Rooted allowed (dom s) p) where
  mono := fun s t r p h _ hc => rooted_mono p (dom_step h) hc
  start := fun s r _ hr => rooted_prog be _ hr
  hit := by
    intro s r l key kind hit miss v _ h _ hc _
    refine rooted_mono _ ?_ (h.1 v)
    rintro k (hk | rfl)
    · exact hk
    · exact .inl (by simp [hc])
  clash := fun _ _ _ _ _ _ _ _ _ _ _ _ _ => trivial
  miss := fun s r l key kind hit miss _ h _ _ => h.2
  spawn := by
    intro s t r l key v next _ h hp hc _
    refine rooted_mono _ ?_ h.2
    rintro k ((hk | ⟨l', v', hk⟩) | rfl)
    · exact .inl (by rw [hc]; exact hk)
    · exact .inr ⟨l', v', by rw [hp]; simp [hk]⟩
    · exact .inr ⟨l, v, by rw [hp]; simp⟩
  chooseErr := fun _ _ _ _ x _ h _ => h x
  chooseHyd := fun _ _ _ _ x _ h _ => h x
  chooseBytes := fun _ _ _ _ x _ h _ => h x
  chooseGlobal := fun _ _ _ _ x _ h _ => h x

theorem together_step {be : Backend H B S} {allowed : Req → Prop} {s t : State H B S} (hi : Together allowed s)
    (h : Step be false allowed s t) : Together allowed t := by
  have hm := dom_step h
  have hb' : ∀ k v, (s.cache k = some v ∨ ∃ l, (l, k, v) ∈ s.pending) → v.kind = .bytes →
      ∃ r id, allowed r ∧ resultKey r = k ∧ folderOf r = some id ∧ dom t id := by
    intro k v hk hv
    obtain ⟨r, id, h1, h2, h3, h4⟩ := hi.bytes k v hk hv
    exact ⟨r, id, h1, h2, h3, hm _ h4⟩
  have hl' : ∀ z ∈ s.log, folderOf z.1 = none ∨ (Succeeds z.2 → covers (dom t) z.1) :=
    fun z hz => (hi.log z hz).imp_right fun h hs => covers_mono hm (h hs)
  refine ⟨?_, fun z hz => ⟨(together_inv be allowed).step trivial (fun z hz => (hi.threads z hz).1) h z hz,
    (cov_inv allowed).step trivial (fun z hz => (hi.threads z hz).2) h z hz⟩, ?_⟩
  · cases h with
    | spawn pre post r l key v next he =>
      rintro k w (hk | ⟨l', hk⟩) hv
      · exact hb' k w (.inl hk) hv
      · rcases List.mem_cons.1 hk with h | h
        · cases h
          obtain ⟨r', id, h1, h2, h3, h4⟩ := (hi.threads (r, .spawn l key v next) (by rw [he]; simp)).1.1 hv
          exact ⟨r', id, h1, h2, h3, hm _ h4⟩
        · exact hb' k w (.inr ⟨l', h⟩) hv
    | commit pre post l key v he hl =>
      rintro k w (hk | ⟨l', hk⟩) hv
      · simp only [upd] at hk
        split at hk
        · rename_i h
          subst h
          cases hk
          exact hb' k v (.inr ⟨l, by rw [he]; simp⟩) hv
        · exact hb' k w (.inl hk) hv
      · refine hb' k w (.inr ⟨l', ?_⟩) hv
        rw [he]; simp at hk ⊢; rcases hk with h | h <;> simp [h]
    | _ => exact hb'
  · cases h with
    | done pre post r o he =>
      intro z hz
      rcases List.mem_cons.1 hz with rfl | hz
      · exact (hi.threads (r, .done o) (by rw [he]; simp)).2.imp_right fun h hs => covers_mono hm (h hs)
      · exact hl' z hz
    | _ => exact hl'

theorem together_steps {be : Backend H B S} {allowed : Req → Prop} {s t : State H B S} (hi : Together allowed s)
    (h : Steps be false allowed s t) : Together allowed t := by
  induction h with
  | refl => exact hi
  | tail _ hstep ih => exact together_step ih hstep

theorem together_init (allowed : Req → Prop) : Together (H := H) (B := B) (S := S) allowed State.init where
  bytes := by simp [State.init]
  threads := by simp [State.init]
  log := by simp [State.init]

/-! ## One version after another -/

/-- What the server knows of the folder is of the version `own`. -/
structure Version (allowed : Req → Prop) (id : String) (own : Backend H B S) (s : State H B S) : Prop where
  cache : ∀ k v, s.cache k = some v → Legit (blend id own) allowed k v
  pending : ∀ l k v, (l, k, v) ∈ s.pending → Legit (blend id own) allowed k v
  leaked : ∀ l, s.leaked l = 0
  waiting : ∀ l, s.waiting l = false
  together : Together allowed s
  logged : ∀ z ∈ s.log, allowed z.1

theorem version_init (allowed : Req → Prop) (id : String) (own : Backend H B S) : Version allowed id own State.init where
  cache := by simp [State.init]
  pending := by simp [State.init]
  leaked := by simp [State.init]
  waiting := by simp [State.init]
  together := together_init allowed
  logged := by simp [State.init]

theorem version_next {allowed : Req → Prop} (hn : Normal allowed) {id : String} {own be : Backend H B S} {s t : State H B S}
    (hv : Version allowed id own s) (ht : s.threads = []) (hs : be.Sane) (hr : SameRest own be) (h : s.cache id ≠ none ∨ own = be)
    (hst : Steps be false allowed s t) :
    Version allowed id own t ∧ ∃ new, t.log = new ++ s.log ∧ ∀ z ∈ new, folderOf z.1 = some id → AnswersAs own z.1 z.2 := by
  have hk : ∀ r, allowed r → Keeps (blend id own) allowed (fun k => k = id ∧ s.cache id ≠ none) (Allowed (blend id own) r)
      (prog be false r) := by
    intro r hr'
    refine (fewer_prog (id := id) (own := own) hs hr ?_ r).keeps (Safe.keeps _ _ (safe_prog hn (blend_sane id own) false hr'))
    rcases h with h | rfl
    · exact .inl ⟨⟨rfl, h⟩, rfl⟩
    · exact .inr ⟨fun _ h => h, fun _ h => h⟩
  have h0 : Stands (blend id own) allowed (fun k => k = id ∧ s.cache id ≠ none) (Allowed (blend id own)) s.log s :=
    ⟨hv.cache, hv.pending, fun k hk => hk.1 ▸ hk.2, by simp [ht], ⟨[], rfl, by simp⟩, hv.leaked, hv.waiting⟩
  have h1 := stands_steps hk h0 hst
  obtain ⟨new, h2, h3⟩ := h1.log
  refine ⟨⟨h1.cache, h1.pending, h1.leaked, h1.waiting, together_steps hv.together hst, ?_⟩, new, h2, fun z hz hf => allowed_blend hf (h3 z hz).2⟩
  intro z hz
  rw [h2] at hz
  rcases List.mem_append.1 hz with hz | hz
  · exact (h3 z hz).1
  · exact hv.logged z hz

/-- Nothing of a folder is stored that is not loaded. -/
theorem version_none {allowed : Req → Prop} (hn : Normal allowed) {id : String} {own : Backend H B S} {s : State H B S}
    (hv : Version allowed id own s) (hp : s.pending = []) (hc : s.cache id = none) {r : Req} (hr : allowed r) (hf : folderOf r = some id) :
    s.cache (resultKey r) = none := by
  cases hk : s.cache (resultKey r) with
  | none => rfl
  | some v =>
    obtain ⟨h, b, e, rfl, _⟩ := legit_result hn hr hf (hv.cache _ _ hk)
    obtain ⟨r', id', h1, h2, h3, h4⟩ := hv.together.bytes _ _ (.inl hk) rfl
    have := resultKey_inj hn h1 hr h3 hf h2
    subst this
    rw [hf] at h3
    cases h3
    rcases h4 with h4 | ⟨_, _, h4⟩
    · exact absurd hc h4
    · rw [hp] at h4
      cases h4

/-- A folder that is not loaded is as good as new. -/
theorem version_switch {allowed : Req → Prop} (hn : Normal allowed) {id : String} {own be : Backend H B S} {s : State H B S}
    (hv : Version allowed id own s) (hp : s.pending = []) (hc : s.cache id = none) (hr : SameRest own be) : Version allowed id be s := by
  refine { hv with cache := ?_, pending := by simp [hp] }
  intro k v hk
  refine legit_other (blend_sane id own) ((blend_rest id own).symm.trans hr) (hv.cache k v hk) ?_ ?_
  · rintro rfl; rw [hc] at hk; cases hk
  · rintro r h1 h2 rfl
    rw [version_none hn hv hp hc h1 h2] at hk
    cases hk

/-- A successful answer leaves its folder. -/
theorem version_loaded {allowed : Req → Prop} (hn : Normal allowed) {id : String} {own : Backend H B S} {s : State H B S}
    (hv : Version allowed id own s) (hp : s.pending = []) {r : Req} {o : Out H B S} (ho : (r, o) ∈ s.log) (hf : folderOf r = some id)
    (hs : Succeeds o) : s.cache id ≠ none := by
  intro hc
  have h1 : covers (dom s) r := ((hv.together.log _ ho).resolve_left (by simp [hf])) hs
  rcases h1.1 with h | ⟨_, _, h⟩
  · exact h (version_none hn hv hp hc (hv.logged _ ho) hf)
  · rw [hp] at h
    cases h

/-! ## Only what was asked -/

theorem steps_mono {be : Backend H B S} {dry : Bool} {a b : Req → Prop} (h : ∀ r, a r → b r) {s t : State H B S}
    (hs : Steps be dry a s t) : Steps be dry b s t := by
  induction hs with
  | refl => exact .refl _
  | tail _ st ih =>
    refine ih.tail ?_
    cases st with
    | start r hr => exact .start _ r (h r hr)
    | done pre post r o he => exact .done _ pre post r o he
    | hit pre post r l key kind hit miss v h1 h2 h3 h4 => exact .hit _ pre post r l key kind hit miss v h1 h2 h3 h4
    | clash pre post r l key kind hit miss v h1 h2 h3 h4 => exact .clash _ pre post r l key kind hit miss v h1 h2 h3 h4
    | miss pre post r l key kind hit miss h1 h2 h3 => exact .miss _ pre post r l key kind hit miss h1 h2 h3
    | spawn pre post r l key v next h1 => exact .spawn _ pre post r l key v next h1
    | chooseErr pre post r p k x h1 h2 => exact .chooseErr _ pre post r p k x h1 h2
    | chooseHyd pre post r p k x h1 h2 => exact .chooseHyd _ pre post r p k x h1 h2
    | chooseBytes pre post r p k x h1 h2 => exact .chooseBytes _ pre post r p k x h1 h2
    | chooseGlobal pre post r p k x h1 h2 => exact .chooseGlobal _ pre post r p k x h1 h2
    | commit pre post l key v h1 h2 => exact .commit _ pre post l key v h1 h2
    | block pre post l key v h1 h2 => exact .block _ pre post l key v h1 h2

/-- The calls that have arrived. -/
def Arrived (s : State H B S) (r : Req) : Prop := (∃ o, (r, o) ∈ s.log) ∨ ∃ p, (r, p) ∈ s.threads

theorem arrived_step {be : Backend H B S} {dry : Bool} {allowed : Req → Prop} {s t : State H B S} (h : Step be dry allowed s t) {r : Req}
    (ha : Arrived s r) : Arrived t r := by
  have rep : ∀ {pre post : List (Req × Prog H B S)} {r' : Req} {p q : Prog H B S}, s.threads = pre ++ (r', p) :: post →
      (∃ p, (r, p) ∈ s.threads) → ∃ p, (r, p) ∈ pre ++ (r', q) :: post := by
    rintro pre post r' p q he ⟨p', hp⟩
    rw [he] at hp
    rcases List.mem_append.1 hp with hp | hp
    · exact ⟨p', by simp [hp]⟩
    · rcases List.mem_cons.1 hp with hp | hp
      · cases hp; exact ⟨q, by simp⟩
      · exact ⟨p', by simp [hp]⟩
  cases h with
  | start r' hr => exact ha.imp_right fun ⟨p, hp⟩ => ⟨p, List.mem_cons_of_mem _ hp⟩
  | done pre post r' o he =>
    rcases ha with ⟨o', ho⟩ | ⟨p, hp⟩
    · exact .inl ⟨o', List.mem_cons_of_mem _ ho⟩
    · rw [he] at hp
      rcases List.mem_append.1 hp with hp | hp
      · exact .inr ⟨p, by simp [hp]⟩
      · rcases List.mem_cons.1 hp with hp | hp
        · cases hp; exact .inl ⟨o, by simp⟩
        · exact .inr ⟨p, by simp [hp]⟩
  | hit pre post r' l key kind hit miss v h1 h2 h3 h4 => exact ha.imp_right (rep h1)
  | clash pre post r' l key kind hit miss v h1 h2 h3 h4 => exact ha.imp_right (rep h1)
  | miss pre post r' l key kind hit miss h1 h2 h3 => exact ha.imp_right (rep h1)
  | spawn pre post r' l key v next h1 => exact ha.imp_right (rep h1)
  | chooseErr pre post r' p k x h1 h2 => exact ha.imp_right (rep h1)
  | chooseHyd pre post r' p k x h1 h2 => exact ha.imp_right (rep h1)
  | chooseBytes pre post r' p k x h1 h2 => exact ha.imp_right (rep h1)
  | chooseGlobal pre post r' p k x h1 h2 => exact ha.imp_right (rep h1)
  | commit pre post l key v h1 h2 => exact ha
  | block pre post l key v h1 h2 => exact ha

/-- A run is a run in which only the calls arrive that have arrived. -/
theorem steps_arrived {be : Backend H B S} {dry : Bool} {allowed : Req → Prop} {s0 s : State H B S} (h : Steps be dry allowed s0 s) :
    Steps be dry (fun r => allowed r ∧ Arrived s r) s0 s := by
  induction h with
  | refl => exact .refl _
  | @tail t u _ st ih =>
    have hmono := steps_mono (b := fun r => allowed r ∧ Arrived u r) (fun r hr => ⟨hr.1, arrived_step st hr.2⟩) ih
    refine hmono.tail ?_
    clear hmono ih
    cases st with
    | start r hr => exact .start _ r ⟨hr, .inr ⟨_, List.mem_cons_self ..⟩⟩
    | done pre post r o he => exact .done _ pre post r o he
    | hit pre post r l key kind hit miss v h1 h2 h3 h4 => exact .hit _ pre post r l key kind hit miss v h1 h2 h3 h4
    | clash pre post r l key kind hit miss v h1 h2 h3 h4 => exact .clash _ pre post r l key kind hit miss v h1 h2 h3 h4
    | miss pre post r l key kind hit miss h1 h2 h3 => exact .miss _ pre post r l key kind hit miss h1 h2 h3
    | spawn pre post r l key v next h1 => exact .spawn _ pre post r l key v next h1
    | chooseErr pre post r p k x h1 h2 => exact .chooseErr _ pre post r p k x h1 h2
    | chooseHyd pre post r p k x h1 h2 => exact .chooseHyd _ pre post r p k x h1 h2
    | chooseBytes pre post r p k x h1 h2 => exact .chooseBytes _ pre post r p k x h1 h2
    | chooseGlobal pre post r p k x h1 h2 => exact .chooseGlobal _ pre post r p k x h1 h2
    | commit pre post l key v h1 h2 => exact .commit _ pre post l key v h1 h2
    | block pre post l key v h1 h2 => exact .block _ pre post l key v h1 h2

theorem normal_mono {a b : Req → Prop} (h : ∀ r, a r → b r) (hn : Normal b) : Normal a :=
  ⟨fun r hr => hn.ok r (h r hr), fun i n c i' n' c' h1 h2 => hn.express i n c i' n' c' (h _ h1) (h _ h2)⟩

/-! ## Folders that cannot be loaded -/

/-- `p` ends only with the folder stored. -/
def Anchored (be : Backend H B S) (allowed : Req → Prop) (id : String) : (String → Prop) → Prog H B S → Prop
  | D, .done _ => D id
  | D, .get _ key kind hit miss => (∀ v, Legit be allowed key v → v.kind = kind ∧ Anchored be allowed id (fun k => D k ∨ k = key) (hit v)) ∧
      Anchored be allowed id D miss
  | D, .spawn _ key _ next => Anchored be allowed id (fun k => D k ∨ k = key) next
  | D, .chooseErr p k => ∀ x, p x → Anchored be allowed id D (k x)
  | D, .chooseHyd p k => ∀ x, p x → Anchored be allowed id D (k x)
  | D, .chooseBytes p k => ∀ x, p x → Anchored be allowed id D (k x)
  | D, .chooseGlobal p k => ∀ x, p x → Anchored be allowed id D (k x)

theorem anchored_mono {be : Backend H B S} {allowed : Req → Prop} {id : String} (p : Prog H B S) : ∀ {D D' : String → Prop},
    (∀ k, D k → D' k) → Anchored be allowed id D p → Anchored be allowed id D' p := by
  induction p with
  | done o => exact fun h hc => h _ hc
  | get l key kind hit miss ih1 ih2 =>
    exact fun h hc => ⟨fun v hv => ⟨(hc.1 v hv).1, ih1 v (fun k hk => hk.imp_left (h k)) (hc.1 v hv).2⟩, ih2 h hc.2⟩
  | spawn l key v next ih => exact fun h hc => ih (fun k hk => hk.imp_left (h k)) hc
  | chooseErr p k ih => exact fun h hc x hx => ih x h (hc x hx)
  | chooseHyd p k ih => exact fun h hc x hx => ih x h (hc x hx)
  | chooseBytes p k ih => exact fun h hc x hx => ih x h (hc x hx)
  | chooseGlobal p k ih => exact fun h hc x hx => ih x h (hc x hx)

/-- The folder is found, and loading it fails. -/
def Unloadable (be : Backend H B S) (id : String) : Prop :=
  (∀ x, be.discover id x → x = none) ∧ ∀ x, be.hydrate id x → ∃ m, x = some (none, some m)

theorem anchored_hydratable {be : Backend H B S} {allowed : Req → Prop} (hn : Normal allowed) {id : String} (hid : IdOk id)
    (hu : Unloadable be id) {D : String → Prop} {next : H → Prog H B S} (g : Prog H B S → Prog H B S)
    (hg : ∀ p D, Anchored be allowed id D p → Anchored be allowed id D (g p)) :
    Anchored be allowed id D (hydratable be false id fun h e => orFail e (g (withHyd h next))) := by
  refine ⟨?_, ?_⟩
  · intro v hv
    obtain ⟨h, e, rfl, h1, h2⟩ := legit_id hn hid hv
    obtain ⟨m, hm⟩ := hu.2 _ h2
    cases hm
    exact ⟨rfl, hg _ _ (.inr rfl)⟩
  · intro x hx
    cases hu.1 x hx
    intro y hy
    obtain ⟨m, rfl⟩ := hu.2 y hy
    exact Or.inr rfl

theorem anchored_prog {be : Backend H B S} {allowed : Req → Prop} (hn : Normal allowed) {id : String} (hu : Unloadable be id) {r : Req}
    (hr : allowed r) (hf : folderOf r = some id) (D : String → Prop) : Anchored be allowed id D (prog be false r) := by
  have hid := folder_idOk hn hr hf
  have hno : ∀ v, ¬ Legit be allowed (resultKey r) v := by
    intro v hv
    obtain ⟨h, b, e, _, _, h2, _⟩ := legit_result hn hr hf hv
    obtain ⟨m, hm⟩ := hu.2 _ h2
    cases hm
  cases r with
  | catalog i =>
    cases hf
    exact anchored_hydratable hn hid hu (cachedBytes false (id ++ "/")) fun p D hp => ⟨fun v hv => absurd hv (hno v), hp⟩
  | express i n c =>
    cases hf
    exact anchored_hydratable hn hid hu (cachedBytes false (expressKey id n c)) fun p D hp => ⟨fun v hv => absurd hv (hno v), hp⟩
  | renderable i hash =>
    cases hf
    exact ⟨fun v hv => absurd hv (hno v), anchored_hydratable hn hid hu (fun p => p) fun p D hp => hp⟩
  | schema u => cases hf
  | utr => cases hf
  | names => cases hf

theorem anchored_inv {be : Backend H B S} {allowed : Req → Prop} (hn : Normal allowed) {id : String} (hu : Unloadable be id) :
    ThreadInv be false allowed (Inv be allowed (Allowed be)) (fun s r p => folderOf r = some id → Anchored be allowed id (dom s) p) where
  mono := fun s t r p h _ hc hf => anchored_mono p (dom_step h) (hc hf)
  start := fun s r _ hr hf => anchored_prog hn hu hr hf _
  hit := by
    intro s r l key kind hit miss v hi h _ hc _ hf
    refine anchored_mono _ ?_ ((h hf).1 v (hi.cache _ _ hc)).2
    rintro k (hk | rfl)
    · exact hk
    · exact .inl (by simp [hc])
  clash := fun s r l key kind hit miss v hi h _ hc hk hf => absurd ((h hf).1 v (hi.cache _ _ hc)).1 hk
  miss := fun s r l key kind hit miss _ h _ _ hf => (h hf).2
  spawn := by
    intro s t r l key v next _ h hp hc _ hf
    refine anchored_mono _ ?_ (h hf)
    rintro k ((hk | ⟨l', v', hk⟩) | rfl)
    · exact .inl (by rw [hc]; exact hk)
    · exact .inr ⟨l', v', by rw [hp]; simp [hk]⟩
    · exact .inr ⟨l, v, by rw [hp]; simp⟩
  chooseErr := fun _ _ _ _ x _ h hx hf => h hf x hx
  chooseHyd := fun _ _ _ _ x _ h hx hf => h hf x hx
  chooseBytes := fun _ _ _ _ x _ h hx hf => h hf x hx
  chooseGlobal := fun _ _ _ _ x _ h hx hf => h hf x hx

end Telefacts.Cache
