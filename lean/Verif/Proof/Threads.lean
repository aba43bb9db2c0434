import Verif.Spec.Threads
/-!
# Data races of goroutines that fork, join and lock
-/
namespace Telefacts.Threads
open Telefacts.Spec

variable {A M : Type}

theorem Step.mono {H H' : M → Prop} {c d : Conf A M} {t : List A} (h : Step H c t d)
    (hH : ∀ n, H' n → H n) : Step H' c t d := by
  induction h generalizing H' with
  | act => exact .act _ _ _
  | lock _ m as k hm => exact .lock _ _ _ _ (fun h => hm (hH _ h))
  | body => exact .body _ _ _ _ _
  | unlock => exact .unlock _ _ _
  | fork => exact .fork _ _ _ _
  | left _ l r k t l' _ ih => exact .left _ _ _ _ _ _ (ih fun n h => h.imp (hH n) (fun x => x))
  | right _ l r k t r' _ ih => exact .right _ _ _ _ _ _ (ih fun n h => h.imp (hH n) (fun x => x))
  | join => exact .join _ _

theorem Steps.mono {H H' : M → Prop} {c d : Conf A M} {t : List A} (h : Steps H c t d)
    (hH : ∀ n, H' n → H n) : Steps H' c t d := by
  induction h with
  | refl => exact .refl _
  | step h1 _ ih => exact .step (h1.mono hH) ih

theorem Steps.trans {H : M → Prop} {c d e : Conf A M} {t u : List A} (h : Steps H c t d)
    (h' : Steps H d u e) : Steps H c (t ++ u) e := by
  induction h with
  | refl => exact h'
  | step h1 _ ih => rw [List.append_assoc]; exact .step h1 (ih h')

theorem Steps.one {H : M → Prop} {c d : Conf A M} {t : List A} (h : Step H c t d) : Steps H c t d := by
  simpa using Steps.step h (.refl d)

theorem Steps.left {H : M → Prop} {l l' r : Conf A M} {t : List A} (k : Prog A M)
    (h : Steps (fun n => H n ∨ r.holds n) l t l') : Steps H (.wait l r k) t (.wait l' r k) := by
  induction h with
  | refl => exact .refl _
  | step h1 _ ih => exact .step (.left _ _ _ _ _ _ h1) ih

theorem Steps.right {H : M → Prop} {l r r' : Conf A M} {t : List A} (k : Prog A M)
    (h : Steps (fun n => H n ∨ l.holds n) r t r') : Steps H (.wait l r k) t (.wait l r' k) := by
  induction h with
  | refl => exact .refl _
  | step h1 _ ih => exact .step (.right _ _ _ _ _ _ h1) ih

/-! ## What a program does -/

/-- All accesses of a program, with the mutex held. -/
def guarded : Prog A M → List (A × Option M)
  | .done => []
  | .act a k => (a, none) :: guarded k
  | .crit m as k => as.map (fun a => (a, some m)) ++ guarded k
  | .par p q k => guarded p ++ guarded q ++ guarded k

/-- The accesses that remain. -/
def remaining : Conf A M → List (A × Option M)
  | .run p => guarded p
  | .inside m as k => as.map (fun a => (a, some m)) ++ guarded k
  | .wait l r k => remaining l ++ remaining r ++ guarded k

theorem step_remaining {H : M → Prop} {c d : Conf A M} {t : List A} (h : Step H c t d) :
    ((remaining c).map Prod.fst).Perm (t ++ (remaining d).map Prod.fst) := by
  induction h with
  | act => simp [remaining, guarded]
  | lock => simp [remaining, guarded]
  | body => simp [remaining]
  | unlock => simp [remaining]
  | fork => simp [remaining, guarded]
  | left _ l r k t l' _ ih =>
    simp only [remaining, List.map_append, ← List.append_assoc]
    exact (ih.append_right _).append_right _
  | right _ l r k t r' _ ih =>
    simp only [remaining, List.map_append, ← List.append_assoc]
    refine List.Perm.append_right _ ?_
    refine (List.Perm.append_left _ ih).trans ?_
    rw [← List.append_assoc]
    exact List.perm_append_comm.append_right _
  | join => simp [remaining, guarded]

theorem steps_remaining {H : M → Prop} {c d : Conf A M} {t : List A} (h : Steps H c t d) :
    ((remaining c).map Prod.fst).Perm (t ++ (remaining d).map Prod.fst) := by
  induction h with
  | refl => simp
  | step h1 _ ih =>
    refine (step_remaining h1).trans ?_
    rw [List.append_assoc]
    exact List.Perm.append_left _ ih

/-- An execution to the end does each access of the program once. -/
theorem runs_perm {p : Prog A M} {t : List A} (h : Runs p t (.run .done)) :
    t.Perm ((guarded p).map Prod.fst) := by
  have := steps_remaining h
  simpa [remaining, guarded] using this.symm

/-! ## Going on -/

theorem inside_out (H : M → Prop) (m : M) (as : List A) (k : Prog A M) :
    ∃ t, Steps H (.inside m as k) t (.run k) := by
  induction as with
  | nil => exact ⟨_, .one (.unlock _ _ _)⟩
  | cons a as ih => obtain ⟨t, h⟩ := ih; exact ⟨_, .step (.body _ _ _ _ _) h⟩

theorem finish_run (H : M → Prop) (hH : ∀ m, ¬ H m) (p : Prog A M) :
    ∃ t, Steps H (.run p) t (.run .done) := by
  induction p generalizing H with
  | done => exact ⟨_, .refl _⟩
  | act a k ih => obtain ⟨t, h⟩ := ih H hH; exact ⟨_, .step (.act _ _ _) h⟩
  | crit m as k ih =>
    obtain ⟨t, h⟩ := ih H hH
    obtain ⟨u, h'⟩ := inside_out H m as k
    exact ⟨_, .step (.lock _ _ _ _ (hH m)) (h'.trans h)⟩
  | par p q k ihp ihq ihk =>
    obtain ⟨t, h⟩ := ihp (fun n => H n ∨ (Conf.run q : Conf A M).holds n) (by
      intro m hm; exact hm.elim (hH m) (fun x => x))
    obtain ⟨u, h'⟩ := ihq (fun n => H n ∨ (Conf.run .done : Conf A M).holds n) (by
      intro m hm; exact hm.elim (hH m) (fun x => x))
    obtain ⟨v, h''⟩ := ihk H hH
    exact ⟨_, .step (.fork _ _ _ _) ((h.left k).trans ((h'.right k).trans (.step (.join _ _) h'')))⟩

/-- All critical sections are left. -/
theorem release (H : M → Prop) (c : Conf A M) :
    ∃ t d, Steps H c t d ∧ ∀ m, ¬ d.holds m := by
  induction c generalizing H with
  | run p => exact ⟨_, _, .refl _, fun m h => h⟩
  | inside m as k => obtain ⟨t, h⟩ := inside_out H m as k; exact ⟨_, _, h, fun m h => h⟩
  | wait l r k ihl ihr =>
    obtain ⟨t, l', h, hl⟩ := ihl (fun n => H n ∨ r.holds n)
    obtain ⟨u, r', h', hr⟩ := ihr (fun n => H n ∨ l'.holds n)
    exact ⟨_, _, (h.left k).trans (h'.right k), fun m hm => hm.elim (hl m) (hr m)⟩

theorem finish_free (H : M → Prop) (hH : ∀ m, ¬ H m) (c : Conf A M) (hc : ∀ m, ¬ c.holds m) :
    ∃ t, Steps H c t (.run .done) := by
  induction c generalizing H with
  | run p => exact finish_run H hH p
  | inside m as k => exact absurd rfl (hc m)
  | wait l r k ihl ihr =>
    obtain ⟨t, h⟩ := ihl (fun n => H n ∨ r.holds n)
      (fun m hm => hm.elim (hH m) (fun x => hc m (.inr x))) (fun m hm => hc m (.inl hm))
    obtain ⟨u, h'⟩ := ihr (fun n => H n ∨ (Conf.run .done : Conf A M).holds n)
      (fun m hm => hm.elim (hH m) (fun x => x)) (fun m hm => hc m (.inr hm))
    obtain ⟨v, h''⟩ := finish_run H hH k
    exact ⟨_, (h.left k).trans ((h'.right k).trans (.step (.join _ _) h''))⟩

/-- No program gets stuck. -/
theorem never_stuck (p : Prog A M) : NeverStuck p := by
  intro t c _
  obtain ⟨u, d, h, hd⟩ := release (fun _ => False) c
  obtain ⟨v, h'⟩ := finish_free (fun _ => False) (fun _ x => x) d hd
  exact ⟨_, _, h.trans h', rfl⟩

/-! ## Mutual exclusion -/

/-- No mutex is held twice. -/
def Excl : Conf A M → Prop
  | .wait l r _ => (∀ m, l.holds m → ¬ r.holds m) ∧ Excl l ∧ Excl r
  | _ => True

theorem step_excl {H : M → Prop} {c d : Conf A M} {t : List A} (h : Step H c t d) (he : Excl c)
    (hH : ∀ m, H m → ¬ c.holds m) : Excl d ∧ ∀ m, H m → ¬ d.holds m := by
  induction h with
  | act => exact ⟨trivial, fun m _ h => h⟩
  | lock _ m as k hm => exact ⟨trivial, fun n hn (e : n = m) => hm (e ▸ hn)⟩
  | body => exact ⟨trivial, hH⟩
  | unlock => exact ⟨trivial, fun m _ h => h⟩
  | fork => exact ⟨⟨fun m h => h.elim, trivial, trivial⟩, fun m _ h => h.elim (fun x => x) (fun x => x)⟩
  | left _ l r k t l' _ ih =>
    obtain ⟨h1, h2, h3⟩ := he
    obtain ⟨h4, h5⟩ := ih h2 (fun m hm => hm.elim (fun x y => hH m x (.inl y)) (fun x y => h1 m y x))
    exact ⟨⟨fun m a b => h5 m (.inr b) a, h4, h3⟩,
      fun m hm hx => hx.elim (h5 m (.inl hm)) (fun y => hH m hm (.inr y))⟩
  | right _ l r k t r' _ ih =>
    obtain ⟨h1, h2, h3⟩ := he
    obtain ⟨h4, h5⟩ := ih h3 (fun m hm => hm.elim (fun x y => hH m x (.inr y)) (fun x y => h1 m x y))
    exact ⟨⟨fun m a b => h5 m (.inr a) b, h2, h4⟩,
      fun m hm hx => hx.elim (fun y => hH m hm (.inl y)) (h5 m (.inl hm))⟩
  | join => exact ⟨trivial, fun m _ h => h⟩

/-! ## Races are pairs of accesses in parallel branches that hold no common mutex -/

/-- The two accesses conflict and are not protected by the same mutex. -/
def Clash (cf : A → A → Prop) (x y : A × Option M) : Prop :=
  cf x.1 y.1 ∧ ¬ ∃ m, x.2 = some m ∧ y.2 = some m

/-- Some two parallel branches have accesses that clash. -/
def Unsafe (cf : A → A → Prop) : Prog A M → Prop
  | .done => False
  | .act _ k => Unsafe cf k
  | .crit _ _ k => Unsafe cf k
  | .par p q k => (∃ x ∈ guarded p, ∃ y ∈ guarded q, Clash cf x y) ∨ Unsafe cf p ∨ Unsafe cf q ∨ Unsafe cf k

def ConfUnsafe (cf : A → A → Prop) : Conf A M → Prop
  | .run p => Unsafe cf p
  | .inside _ _ k => Unsafe cf k
  | .wait l r k => (∃ x ∈ remaining l, ∃ y ∈ remaining r, Clash cf x y) ∨
      ConfUnsafe cf l ∨ ConfUnsafe cf r ∨ Unsafe cf k

theorem step_subset {H : M → Prop} {c d : Conf A M} {t : List A} (h : Step H c t d) :
    ∀ x ∈ remaining d, x ∈ remaining c := by
  induction h with
  | act => intro x hx; exact List.mem_cons_of_mem _ hx
  | lock => intro x hx; exact hx
  | body => intro x hx; exact List.mem_cons_of_mem _ hx
  | unlock => intro x hx; simpa [remaining] using hx
  | fork => intro x hx; exact hx
  | left _ l r k t l' _ ih =>
    intro x hx
    simp only [remaining, List.mem_append] at hx ⊢
    exact hx.imp (Or.imp (ih x) (fun y => y)) (fun y => y)
  | right _ l r k t r' _ ih =>
    intro x hx
    simp only [remaining, List.mem_append] at hx ⊢
    exact hx.imp (Or.imp (fun y => y) (ih x)) (fun y => y)
  | join => intro x hx; simpa [remaining, guarded] using hx

theorem step_unsafe {cf : A → A → Prop} {H : M → Prop} {c d : Conf A M} {t : List A} (h : Step H c t d)
    (hd : ConfUnsafe cf d) : ConfUnsafe cf c := by
  induction h with
  | act => exact hd
  | lock => exact hd
  | body => exact hd
  | unlock => exact hd
  | fork => exact hd
  | left _ l r k t l' hs ih =>
    rcases hd with ⟨x, hx, y, hy, hc⟩ | h | h | h
    · exact .inl ⟨x, step_subset hs x hx, y, hy, hc⟩
    · exact .inr (.inl (ih h))
    · exact .inr (.inr (.inl h))
    · exact .inr (.inr (.inr h))
  | right _ l r k t r' hs ih =>
    rcases hd with ⟨x, hx, y, hy, hc⟩ | h | h | h
    · exact .inl ⟨x, hx, y, step_subset hs y hy, hc⟩
    · exact .inr (.inl h)
    · exact .inr (.inr (.inl (ih h)))
    · exact .inr (.inr (.inr h))
  | join => exact .inr (.inr (.inr hd))

theorem steps_unsafe {cf : A → A → Prop} {c d : Conf A M} {t : List A}
    (h : Steps (fun _ => False) c t d) (he : Excl c) (hd : ConfUnsafe cf d ∨ (Excl d → ConfUnsafe cf d)) :
    ConfUnsafe cf c := by
  induction h with
  | refl => exact hd.elim (fun x => x) (fun x => x he)
  | step h1 _ ih => exact step_unsafe h1 (ih (step_excl h1 he (fun _ x => x.elim)).1 hd)

theorem next_remaining {c : Conf A M} {a : A} (h : Next c a) :
    ∃ g : Option M, (a, g) ∈ remaining c ∧ ∀ m, g = some m → c.holds m := by
  induction c with
  | run p =>
    cases p with
    | act b k => cases h; exact ⟨none, by simp [remaining, guarded], by simp⟩
    | done => exact absurd h (fun x => x)
    | crit m as k => exact absurd h (fun x => x)
    | par p q k => exact absurd h (fun x => x)
  | inside m as k =>
    cases as with
    | nil => exact absurd h (fun x => x)
    | cons b as => cases h; exact ⟨some m, by simp [remaining], fun n hn => by cases hn; rfl⟩
  | wait l r k ihl ihr =>
    rcases h with h | h
    · obtain ⟨g, h1, h2⟩ := ihl h
      exact ⟨g, by simp [remaining, h1], fun m hm => .inl (h2 m hm)⟩
    · obtain ⟨g, h1, h2⟩ := ihr h
      exact ⟨g, by simp [remaining, h1], fun m hm => .inr (h2 m hm)⟩

theorem racing_unsafe {cf : A → A → Prop} {c : Conf A M} (h : Racing cf c) (he : Excl c) :
    ConfUnsafe cf c := by
  induction c with
  | run p => exact absurd h (fun x => x)
  | inside m as k => exact absurd h (fun x => x)
  | wait l r k ihl ihr =>
    obtain ⟨h1, h2, h3⟩ := he
    rcases h with ⟨a, b, ha, hb, hc⟩ | h | h
    · obtain ⟨g, g1, g2⟩ := next_remaining ha
      obtain ⟨g', g3, g4⟩ := next_remaining hb
      refine .inl ⟨_, g1, _, g3, hc, ?_⟩
      rintro ⟨m, e1, e2⟩
      exact h1 m (g2 m e1) (g4 m e2)
    · exact .inr (.inl (ihl h h2))
    · exact .inr (.inr (.inl (ihr h h3)))

/-- From here the access `x` can be reached while nothing is held but its own mutex. -/
def Ready (c : Conf A M) (x : A × Option M) : Prop :=
  (∀ m, ¬ c.holds m) ∧ ∀ H : M → Prop, (∀ m, x.2 = some m → ¬ H m) →
    ∃ t d, Steps H c t d ∧ Next d x.1 ∧ ∀ m, d.holds m → x.2 = some m

theorem inside_next (H : M → Prop) (m : M) (as : List A) (k : Prog A M) (a : A) (h : a ∈ as) :
    ∃ t bs, Steps H (.inside m as k) t (.inside m (a :: bs) k) := by
  induction as with
  | nil => cases h
  | cons b as ih =>
    rcases List.mem_cons.1 h with rfl | h
    · exact ⟨_, as, .refl _⟩
    · obtain ⟨t, bs, h⟩ := ih h
      exact ⟨_, bs, .step (.body _ _ _ _ _) h⟩

theorem reach_ready (p : Prog A M) (x : A × Option M) (hx : x ∈ guarded p) :
    ∃ t c, Runs p t c ∧ Ready c x := by
  unfold Runs
  induction p with
  | done => cases hx
  | act a k ih =>
    rcases List.mem_cons.1 hx with rfl | hx
    · refine ⟨_, _, .refl _, fun m h => h, fun H _ => ⟨_, _, .refl _, rfl, fun m h => h.elim⟩⟩
    · obtain ⟨t, c, h, hr⟩ := ih hx
      exact ⟨_, c, .step (.act _ _ _) h, hr⟩
  | crit m as k ih =>
    rcases List.mem_append.1 hx with hx | hx
    · obtain ⟨a, ha, rfl⟩ := List.mem_map.1 hx
      refine ⟨_, _, .refl _, fun m h => h, fun H hH => ?_⟩
      obtain ⟨t, bs, h⟩ := inside_next H m as k a ha
      exact ⟨_, _, .step (.lock _ _ _ _ (hH m rfl)) h, rfl, fun n (hn : n = m) => by rw [hn]⟩
    · obtain ⟨t, c, h, hr⟩ := ih hx
      obtain ⟨u, h'⟩ := inside_out (fun _ => False) m as k
      exact ⟨_, c, .step (.lock _ _ _ _ (fun h => h)) (h'.trans h), hr⟩
  | par p q k ihp ihq ihk =>
    rcases List.mem_append.1 hx with hx | hx
    · rcases List.mem_append.1 hx with hx | hx
      · obtain ⟨t, c, h, h1, h2⟩ := ihp hx
        refine ⟨_, _, .step (.fork _ _ _ _) (Steps.left k (h.mono fun n hn => hn.elim (fun x => x) (fun x => x))),
          fun m hm => hm.elim (h1 m) (fun x => x), ?_⟩
        intro H hH
        obtain ⟨u, d, g1, g2, g3⟩ := h2 (fun n => H n ∨ (Conf.run q : Conf A M).holds n)
          (fun m hm hx => hx.elim (hH m hm) (fun x => x))
        exact ⟨_, _, g1.left k, .inl g2, fun m hm => hm.elim (g3 m) (fun x => x.elim)⟩
      · obtain ⟨t, c, h, h1, h2⟩ := ihq hx
        refine ⟨_, _, .step (.fork _ _ _ _) (Steps.right k (h.mono fun n hn => hn.elim (fun x => x) (fun x => x))),
          fun m hm => hm.elim (fun x => x) (h1 m), ?_⟩
        intro H hH
        obtain ⟨u, d, g1, g2, g3⟩ := h2 (fun n => H n ∨ (Conf.run p : Conf A M).holds n)
          (fun m hm hx => hx.elim (hH m hm) (fun x => x))
        exact ⟨_, _, g1.right k, .inr g2, fun m hm => hm.elim (fun x => x.elim) (g3 m)⟩
    · obtain ⟨t, c, h, hr⟩ := ihk hx
      obtain ⟨u, h'⟩ := finish_run (fun n => False ∨ (Conf.run q : Conf A M).holds n)
        (fun m hm => hm.elim (fun x => x) (fun x => x)) p
      obtain ⟨v, h''⟩ := finish_run (fun n => False ∨ (Conf.run .done : Conf A M).holds n)
        (fun m hm => hm.elim (fun x => x) (fun x => x)) q
      exact ⟨_, c, .step (.fork _ _ _ _) ((h'.left k).trans ((h''.right k).trans (.step (.join _ _) h))), hr⟩

theorem racy_of_unsafe {cf : A → A → Prop} {p : Prog A M} (h : Unsafe cf p) : Racy cf p := by
  unfold Racy Runs
  induction p with
  | done => exact h.elim
  | act a k ih =>
    obtain ⟨t, c, h1, h2⟩ := ih h
    exact ⟨_, c, .step (.act _ _ _) h1, h2⟩
  | crit m as k ih =>
    obtain ⟨t, c, h1, h2⟩ := ih h
    obtain ⟨u, h'⟩ := inside_out (fun _ => False) m as k
    exact ⟨_, c, .step (.lock _ _ _ _ (fun h => h)) (h'.trans h1), h2⟩
  | par p q k ihp ihq ihk =>
    rcases h with ⟨x, hx, y, hy, hc, hm⟩ | h | h | h
    · obtain ⟨t, c, h1, f1, g1⟩ := reach_ready p x hx
      obtain ⟨u, d, h2, f2, g2⟩ := reach_ready q y hy
      obtain ⟨v, c', h3, n3, o3⟩ := g1 (fun n => False ∨ d.holds n)
        (fun m _ hx => hx.elim (fun x => x) (f2 m))
      obtain ⟨w, d', h4, n4, o4⟩ := g2 (fun n => False ∨ c'.holds n)
        (fun m hy hx => hx.elim (fun x => x) (fun x => hm ⟨m, o3 m x, hy⟩))
      refine ⟨_, .wait c' d' k, .step (.fork _ _ _ _)
        ((Steps.left k (h1.mono ?_)).trans ((Steps.right k (h2.mono ?_)).trans
          ((h3.left k).trans (h4.right k)))), .inl ⟨_, _, n3, n4, hc⟩⟩
      · intro n hn; exact hn.elim (fun x => x) (fun x => x)
      · intro n hn; exact hn.elim (fun x => x) (f1 n)
    · obtain ⟨t, c, h1, h2⟩ := ihp h
      exact ⟨_, _, .step (.fork _ _ _ _) (Steps.left k (h1.mono fun n hn => hn.elim (fun x => x) (fun x => x))),
        .inr (.inl h2)⟩
    · obtain ⟨t, c, h1, h2⟩ := ihq h
      exact ⟨_, _, .step (.fork _ _ _ _) (Steps.right k (h1.mono fun n hn => hn.elim (fun x => x) (fun x => x))),
        .inr (.inr h2)⟩
    · obtain ⟨t, c, h1, h2⟩ := ihk h
      obtain ⟨u, h'⟩ := finish_run (fun n => False ∨ (Conf.run q : Conf A M).holds n)
        (fun m hm => hm.elim (fun x => x) (fun x => x)) p
      obtain ⟨v, h''⟩ := finish_run (fun n => False ∨ (Conf.run .done : Conf A M).holds n)
        (fun m hm => hm.elim (fun x => x) (fun x => x)) q
      exact ⟨_, c, .step (.fork _ _ _ _) ((h'.left k).trans ((h''.right k).trans (.step (.join _ _) h1))), h2⟩

/-- A program has a data race if and only if two of its parallel branches have accesses that
conflict and are not protected by the same mutex. -/
theorem racy_iff (cf : A → A → Prop) (p : Prog A M) : Racy cf p ↔ Unsafe cf p := by
  constructor
  · rintro ⟨t, c, h, hr⟩
    exact steps_unsafe h trivial (.inr (racing_unsafe hr))
  · exact racy_of_unsafe

end Telefacts.Threads
