import Verif.Model.Store
/-! # Lemmas for the folder store -/
namespace Telefacts.Store

theorem writeAt_take (c : Bytes) (n : Nat) (b : UInt8) (h : c[n]? = some b) :
    writeAt (c.take n) n b = c.take (n + 1) := by
  have hn : n < c.length := by
    by_contra hc
    rw [List.getElem?_eq_none (by omega)] at h; cases h
  rw [writeAt, List.take_take, Nat.min_self, List.drop_eq_nil_of_le (by simp; omega), List.take_add_one, h]
  rfl

/-- The directory created by a call and the metadata it has written so far. -/
def holds (ctx : Ctx) (c : Call) : Option (String × Option Bytes) :=
  match c.pc with
  | .openMeta id => some (id, none)
  | .write id n => some (id, some ((ctx.enc c.u).take n))
  | .done id none => some (id, some (ctx.enc c.u))
  | _ => none

/-- The call is between `Mkdir` and its return. -/
def Active (c : Call) (id : String) : Prop :=
  match c.pc with
  | .openMeta i => i = id
  | .write i _ => i = id
  | _ => False

structure Inv (ctx : Ctx) (s : Sys) : Prop where
  held : ∀ i c id m, s.calls i = some c → holds ctx c = some (id, m) → s.disk id = some ⟨m⟩
  one : ∀ i j c c' id m m', s.calls i = some c → s.calls j = some c' → holds ctx c = some (id, m) →
    holds ctx c' = some (id, m') → i = j
  keyed : ∀ i c id, s.calls i = some c → c.key ≠ "" →
    (c.pc = .stat id ∨ c.pc = .mkdir id ∨ (∃ e, c.pc = .stat2 id e) ∨ c.pc = .openMeta id ∨
      (∃ n, c.pc = .write id n) ∨ (∃ e, c.pc = .done id e ∧ id ≠ "")) → id = ctx.md5 c.key

/-- What a step does to the disk and to what the call holds. -/
theorem step_cases {ctx : Ctx} {faults : Bool} {c : Call} {d d' : Disk} {pc' : PC}
    (hI : ∀ id m, holds ctx c = some (id, m) → d id = some ⟨m⟩)
    (h : Step ctx faults c.key c.u (d, c.pc) (d', pc')) :
    (d' = d ∧ (holds ctx { c with pc := pc' } = none ∨ holds ctx { c with pc := pc' } = holds ctx c)) ∨
    (∃ id, d id = none ∧ holds ctx c = none ∧ d' = Function.update d id (some ⟨none⟩) ∧
      holds ctx { c with pc := pc' } = some (id, none)) ∨
    (∃ id m m', holds ctx c = some (id, m) ∧ Active c id ∧ d' = Function.update d id (some ⟨m'⟩) ∧
      holds ctx { c with pc := pc' } = some (id, m')) := by
  obtain ⟨key, u, pc⟩ := c
  simp only at h hI
  cases h with
  | noWd => left; simp [holds]
  | keyed => left; simp [holds]
  | random => left; simp [holds]
  | statExist => left; simp [holds]
  | statAgain => left; simp [holds]
  | statNone => left; simp [holds]
  | statFault => left; simp [holds]
  | mkdirOk _ id hn => right; left; exact ⟨id, hn, rfl, rfl, rfl⟩
  | mkdirExist => left; simp [holds]
  | mkdirFault => left; simp [holds]
  | stat2Ok => left; simp [holds]
  | stat2None => left; simp [holds]
  | stat2Fault => left; simp [holds]
  | openOk _ id x hx =>
    right; right
    have := hI id none rfl
    rw [hx] at this; cases this
    exact ⟨id, none, some [], rfl, rfl, rfl, rfl⟩
  | openFault => left; simp [holds]
  | writeByte _ id n c b hx hb =>
    right; right
    have := hI id _ rfl
    rw [hx] at this
    simp only [Option.some.injEq, Dir.mk.injEq] at this
    subst this
    refine ⟨id, _, some ((ctx.enc u).take (n + 1)), rfl, rfl, ?_, rfl⟩
    rw [writeAt_take _ _ _ hb]
  | writeFault => left; simp [holds]
  | finish _ id n hn => left; subst hn; refine ⟨rfl, .inr ?_⟩; simp [holds]

theorem inv_fresh (ctx : Ctx) (d : Disk) : Inv ctx (fresh d) where
  held := by intro i c id m h; cases h
  one := by intro i j c c' id m m' h; cases h
  keyed := by intro i c id h; cases h

theorem inv_event {ctx : Ctx} {faults : Bool} {s s' : Sys} (hI : Inv ctx s) (h : Event ctx faults s s') :
    Inv ctx s' := by
  cases h with
  | crash =>
    refine ⟨?_, ?_, ?_⟩
    · intro i c id m h; cases h
    · intro i j c c' id m m' h; cases h
    · intro i c id h; cases h
  | begin i key u hn =>
    refine ⟨?_, ?_, ?_⟩
    · intro j c id m hc hh
      simp only at hc
      by_cases hj : j = i
      · subst hj; simp at hc; subst hc; simp [holds] at hh
      · rw [Function.update_of_ne hj] at hc; exact hI.held j c id m hc hh
    · intro j k c c' id m m' hc hc' hh hh'
      simp only at hc hc'
      by_cases hj : j = i
      · subst hj; simp at hc; subst hc; simp [holds] at hh
      · by_cases hk : k = i
        · subst hk; simp at hc'; subst hc'; simp [holds] at hh'
        · rw [Function.update_of_ne hj] at hc; rw [Function.update_of_ne hk] at hc'
          exact hI.one j k c c' id m m' hc hc' hh hh'
    · intro j c id hc hk hp
      simp only at hc
      by_cases hj : j = i
      · subst hj; simp at hc; subst hc; simp at hp
      · rw [Function.update_of_ne hj] at hc; exact hI.keyed j c id hc hk hp
  | step i c d' pc' hc hst =>
    have hcs := step_cases (fun id m => hI.held i c id m hc) hst
    have hcalls : ∀ j x, (Function.update s.calls i (some { c with pc := pc' })) j = some x →
        (j = i ∧ x = { c with pc := pc' }) ∨ (j ≠ i ∧ s.calls j = some x) := by
      intro j x hx
      by_cases hj : j = i
      · subst hj; simp at hx; exact .inl ⟨rfl, hx.symm⟩
      · rw [Function.update_of_ne hj] at hx; exact .inr ⟨hj, hx⟩
    have hkeyed : ∀ id, c.key ≠ "" →
        (pc' = .stat id ∨ pc' = .mkdir id ∨ (∃ e, pc' = .stat2 id e) ∨ pc' = .openMeta id ∨
        (∃ n, pc' = .write id n) ∨ (∃ e, pc' = .done id e ∧ id ≠ "")) → id = ctx.md5 c.key := by
      intro id hk hp
      have hK := fun id => hI.keyed i c id hc hk
      obtain ⟨key, u, pc⟩ := c
      simp only at hst hK hk ⊢
      cases hst <;> simp_all
    refine ⟨?_, ?_, ?_⟩
    · intro j x id m hx hh
      simp only at hx ⊢
      rcases hcs with ⟨rfl, hno | hsame⟩ | ⟨id0, hd0, hn0, rfl, hnew⟩ | ⟨id0, m0, m0', hold, _, rfl, hnew⟩
      · rcases hcalls j x hx with ⟨rfl, rfl⟩ | ⟨_, hx⟩
        · rw [hno] at hh; cases hh
        · exact hI.held j x id m hx hh
      · rcases hcalls j x hx with ⟨rfl, rfl⟩ | ⟨_, hx⟩
        · rw [hsame] at hh; exact hI.held _ c id m hc hh
        · exact hI.held j x id m hx hh
      · rcases hcalls j x hx with ⟨rfl, rfl⟩ | ⟨_, hx⟩
        · rw [hnew] at hh; cases hh; simp
        · have hh' := hI.held j x id m hx hh
          have : id ≠ id0 := by rintro rfl; rw [hd0] at hh'; cases hh'
          rw [Function.update_of_ne this]; exact hh'
      · rcases hcalls j x hx with ⟨rfl, rfl⟩ | ⟨hj, hx⟩
        · rw [hnew] at hh; cases hh; simp
        · have : id ≠ id0 := by
            rintro rfl; exact hj (hI.one j i x c id m m0 hx hc hh hold)
          rw [Function.update_of_ne this]; exact hI.held j x id m hx hh
    · intro j k x y id m m' hx hy hh hh'
      simp only at hx hy
      have key : ∀ j x m id m', j ≠ i → s.calls j = some x → holds ctx x = some (id, m) →
          holds ctx { c with pc := pc' } = some (id, m') → False := by
        intro j x m id m' hj hx hh hn
        rcases hcs with ⟨_, hno | hsame⟩ | ⟨id0, hd0, hn0, _, hnew⟩ | ⟨id0, m0, m0', hold, _, _, hnew⟩
        · rw [hno] at hn; cases hn
        · rw [hsame] at hn; exact hj (hI.one j i x c id m m' hx hc hh hn)
        · rw [hnew] at hn; cases hn
          rw [hI.held j x _ m hx hh] at hd0; cases hd0
        · rw [hnew] at hn; cases hn
          exact hj (hI.one j i x c _ m m0 hx hc hh hold)
      rcases hcalls j x hx with ⟨rfl, rfl⟩ | ⟨hj, hx⟩ <;> rcases hcalls k y hy with ⟨hke, rfl⟩ | ⟨hk, hy⟩
      · exact hke.symm
      · exact (key k y m' id m hk hy hh' hh).elim
      · exact (key j x m id m' hj hx hh hh').elim
      · exact hI.one j k x y id m m' hx hy hh hh'
    · intro j x id hx hk hp
      simp only at hx
      rcases hcalls j x hx with ⟨rfl, rfl⟩ | ⟨hj, hx⟩
      · exact hkeyed id hk hp
      · exact hI.keyed j x id hx hk hp

theorem inv_run {ctx : Ctx} {faults : Bool} {s s' : Sys} (hI : Inv ctx s) (h : Run ctx faults s s') :
    Inv ctx s' := by
  induction h with
  | refl => exact hI
  | tail _ he ih => exact inv_event ih he

/-- A directory that no running call is creating. -/
def Settled (s : Sys) (id : String) (x : Dir) : Prop :=
  s.disk id = some x ∧ ∀ i c, s.calls i = some c → ¬ Active c id

theorem active_holds {ctx : Ctx} {c : Call} {id : String} (h : Active c id) : ∃ m, holds ctx c = some (id, m) := by
  obtain ⟨key, u, pc⟩ := c
  cases pc <;> simp [Active] at h <;> subst h <;> exact ⟨_, rfl⟩

theorem settled_event {ctx : Ctx} {faults : Bool} {s s' : Sys} {id : String} {x : Dir} (hI : Inv ctx s)
    (hs : Settled s id x) (h : Event ctx faults s s') : Settled s' id x := by
  cases h with
  | crash => exact ⟨hs.1, by intro i c h; cases h⟩
  | begin i key u hn =>
    refine ⟨hs.1, ?_⟩
    intro j c hc
    simp only at hc
    by_cases hj : j = i
    · subst hj; simp at hc; subst hc; simp [Active]
    · rw [Function.update_of_ne hj] at hc; exact hs.2 j c hc
  | step i c d' pc' hc hst =>
    have hcs := step_cases (fun id m => hI.held i c id m hc) hst
    have hI' := inv_event hI (.step s i c d' pc' hc hst)
    have hd : d' id = some x := by
      rcases hcs with ⟨rfl, _⟩ | ⟨id0, hd0, _, rfl, _⟩ | ⟨id0, m0, m0', _, hact, rfl, _⟩
      · exact hs.1
      · rw [Function.update_of_ne]
        · exact hs.1
        · rintro rfl; rw [hs.1] at hd0; cases hd0
      · rw [Function.update_of_ne]
        · exact hs.1
        · rintro rfl; exact hs.2 i c hc hact
    refine ⟨hd, ?_⟩
    intro j y hy hact
    simp only at hy
    by_cases hj : j = i
    · subst hj
      simp at hy; subst hy
      obtain ⟨m, hm⟩ := active_holds (ctx := ctx) hact
      have hnot := hs.2 j c hc
      rcases hcs with ⟨_, hno | hsame⟩ | ⟨id0, hd0, _, _, hnew⟩ | ⟨id0, m0, m0', _, hact', _, hnew⟩
      · rw [hno] at hm; cases hm
      · -- holding without being active means having returned
        rw [hsame] at hm
        obtain ⟨key, u, pc⟩ := c
        cases pc with
        | openMeta k => simp [holds] at hm; exact hnot (by simp [Active, hm.1])
        | write k n => simp [holds] at hm; exact hnot (by simp [Active, hm.1])
        | done k e => simp only at hst; cases hst
        | _ => simp [holds] at hm
      · rw [hnew] at hm; cases hm; rw [hs.1] at hd0; cases hd0
      · rw [hnew] at hm; cases hm; exact hnot hact'
    · rw [Function.update_of_ne hj] at hy; exact hs.2 j y hy hact

theorem settled_run {ctx : Ctx} {faults : Bool} {s s' : Sys} {id : String} {x : Dir} (hI : Inv ctx s)
    (hs : Settled s id x) (h : Run ctx faults s s') : Settled s' id x := by
  induction h with
  | refl => exact hs
  | tail hr he ih => exact settled_event (inv_run hI hr) ih he

theorem exists_event {ctx : Ctx} {faults : Bool} {s s' : Sys} {id : String} (hI : Inv ctx s)
    (hs : s.disk id ≠ none) (h : Event ctx faults s s') : s'.disk id ≠ none := by
  cases h with
  | crash => exact hs
  | begin => exact hs
  | step i c d' pc' hc hst =>
    have hcs := step_cases (fun id m => hI.held i c id m hc) hst
    rcases hcs with ⟨rfl, _⟩ | ⟨id0, hd0, _, rfl, _⟩ | ⟨id0, m0, m0', _, hact, rfl, _⟩
    · exact hs
    · simp only [Function.update_apply]; split <;> simp [hs]
    · simp only [Function.update_apply]; split <;> simp [hs]

theorem exists_run {ctx : Ctx} {faults : Bool} {s s' : Sys} {id : String} (hI : Inv ctx s)
    (hs : s.disk id ≠ none) (h : Run ctx faults s s') : s'.disk id ≠ none := by
  induction h with
  | refl => exact hs
  | tail hr he ih => exact exists_event (inv_run hI hr) ih he

/-- A call that did not hold a directory and holds `id` later: the directory was created meanwhile. -/
theorem created_event {ctx : Ctx} {faults : Bool} {s s' : Sys} {i : Nat} {id : String} (hI : Inv ctx s)
    (hnone : s.disk id ≠ none)
    (hbefore : ∀ c m, s.calls i = some c → holds ctx c ≠ some (id, m)) (h : Event ctx faults s s') :
    ∀ c m, s'.calls i = some c → holds ctx c ≠ some (id, m) := by
  intro x m hx hh
  cases h with
  | crash => cases hx
  | begin j key u hn =>
    simp only at hx
    by_cases hj : i = j
    · subst hj; simp at hx; subst hx; simp [holds] at hh
    · rw [Function.update_of_ne hj] at hx; exact hbefore x m hx hh
  | step j c d' pc' hc hst =>
    simp only at hx
    by_cases hj : i = j
    · subst hj
      simp at hx; subst hx
      have hcs := step_cases (fun id m => hI.held i c id m hc) hst
      rcases hcs with ⟨rfl, hno | hsame⟩ | ⟨id0, hd0, _, rfl, hnew⟩ | ⟨id0, m0, m0', hold, _, rfl, hnew⟩
      · rw [hno] at hh; cases hh
      · rw [hsame] at hh; exact hbefore c m hc hh
      · rw [hnew] at hh; cases hh; exact hnone hd0
      · rw [hnew] at hh; cases hh; exact hbefore c m0 hc hold
    · rw [Function.update_of_ne hj] at hx; exact hbefore x m hx hh

theorem created_run {ctx : Ctx} {faults : Bool} {s s' : Sys} {i : Nat} {id : String} (hI : Inv ctx s)
    (hnone : s.disk id ≠ none)
    (hbefore : ∀ c m, s.calls i = some c → holds ctx c ≠ some (id, m)) (h : Run ctx faults s s') :
    ∀ c m, s'.calls i = some c → holds ctx c ≠ some (id, m) := by
  induction h with
  | refl => exact hbefore
  | tail hr he ih => exact created_event (inv_run hI hr) (exists_run hI hnone hr) ih he

/-- Without faults, a keyed call that starts when its directory exists answers with that directory and
`ErrExist`. -/
def Doomed (ctx : Ctx) (c : Call) : Prop :=
  c.pc = .start ∨ c.pc = .stat (ctx.md5 c.key) ∨ c.pc = .done (ctx.md5 c.key) (some .exist)

theorem doomed_run {ctx : Ctx} {s s' : Sys} (hI : Inv ctx s) (hwd : ctx.wd ≠ "") {i : Nat} {key : String}
    (hk : key ≠ "") (hex : s.disk (ctx.md5 key) ≠ none)
    (hb : ∀ c, s.calls i = some c → c.key = key → Doomed ctx c) (h : Run ctx false s s') :
    ∀ c, s'.calls i = some c → c.key = key → Doomed ctx c := by
  induction h with
  | refl => exact hb
  | @tail t t' hr he ih =>
    have hex' := exists_run hI hex hr
    intro x hx hkx
    cases he with
    | crash => cases hx
    | begin j key' u hn =>
      simp only at hx
      by_cases hj : i = j
      · subst hj; simp at hx; subst hx; exact .inl rfl
      · rw [Function.update_of_ne hj] at hx; exact ih x hx hkx
    | step j c d' pc' hc hst =>
      simp only at hx
      by_cases hj : i = j
      · subst hj
        simp at hx; subst hx
        have hD := ih c hc hkx
        obtain ⟨k, u, pc⟩ := c
        simp only at hkx hst
        subst hkx
        simp only [Doomed] at hD ⊢
        rcases hD with rfl | rfl | rfl
        · cases hst <;> simp_all
        · cases hst <;> simp_all
        · cases hst
      · rw [Function.update_of_ne hj] at hx; exact ih x hx hkx

end Telefacts.Store
