import Verif.Proof.Runs
import Verif.Proof.Threads
import Verif.Model.Goroutines
/-! # The accesses of goroutines as merges -/
namespace Telefacts.Threads
open Telefacts.Disc

section
variable {A M : Type}

/-- The accesses of a program in the orders they may come, if critical sections are not respected. -/
def Traces : Prog A M → List A → Prop
  | .done, t => t = []
  | .act a k, t => ∃ u, t = a :: u ∧ Traces k u
  | .crit _ as k, t => ∃ u, t = as ++ u ∧ Traces k u
  | .par p q k, t => ∃ a b d u, Traces p a ∧ Traces q b ∧ Merge a b d ∧ t = d ++ u ∧ Traces k u

/-- Those that remain. -/
def Left : Conf A M → List A → Prop
  | .run p, t => Traces p t
  | .inside _ as k, t => ∃ u, t = as ++ u ∧ Traces k u
  | .wait l r k, t => ∃ a b d u, Left l a ∧ Left r b ∧ Merge a b d ∧ t = d ++ u ∧ Traces k u

theorem merge_left_append {α : Type} {a b d : List α} (t : List α) (h : Merge a b d) : Merge (t ++ a) b (t ++ d) := by
  induction t with
  | nil => exact h
  | cons x t ih => exact .left x ih

theorem merge_right_append {α : Type} {a b d : List α} (t : List α) (h : Merge a b d) : Merge a (t ++ b) (t ++ d) :=
  merge_comm (merge_left_append t (merge_comm h))

theorem step_left {H : M → Prop} {c d : Conf A M} {t : List A} (h : Step H c t d) {u : List A} (hu : Left d u) : Left c (t ++ u) := by
  induction h generalizing u with
  | act H a k => exact ⟨u, rfl, hu⟩
  | lock => exact hu
  | body H m a as k =>
    obtain ⟨v, rfl, hv⟩ := hu
    exact ⟨v, rfl, hv⟩
  | unlock => exact ⟨u, rfl, hu⟩
  | fork => exact hu
  | left H l r k t l' _ ih =>
    obtain ⟨a, b, d, v, ha, hb, hm, rfl, hv⟩ := hu
    exact ⟨t ++ a, b, t ++ d, v, ih ha, hb, merge_left_append t hm, by simp, hv⟩
  | right H l r k t r' _ ih =>
    obtain ⟨a, b, d, v, ha, hb, hm, rfl, hv⟩ := hu
    exact ⟨a, t ++ b, t ++ d, v, ha, ih hb, merge_right_append t hm, by simp, hv⟩
  | join H k => exact ⟨[], [], [], u, rfl, rfl, .nil, rfl, hu⟩

theorem steps_left {H : M → Prop} {c d : Conf A M} {t : List A} (h : Steps H c t d) {u : List A} (hu : Left d u) : Left c (t ++ u) := by
  induction h with
  | refl => exact hu
  | step h1 _ ih => rw [List.append_assoc]; exact step_left h1 (ih hu)

/-- Critical sections of at most one access. -/
def Single : Prog A M → Prop
  | .done => True
  | .act _ k => Single k
  | .crit _ as k => as.length ≤ 1 ∧ Single k
  | .par p q k => Single p ∧ Single q ∧ Single k

/-- Nobody is inside of one. -/
def Free : Conf A M → Prop
  | .run p => Single p
  | .inside _ _ _ => False
  | .wait l r k => Free l ∧ Free r ∧ Single k

theorem free_holds {c : Conf A M} (h : Free c) (m : M) : ¬ c.holds m := by
  induction c with
  | run p => exact fun x => x
  | inside => exact h.elim
  | wait l r k ihl ihr => exact fun x => x.elim (ihl h.1) (ihr h.2.1)

/-- It can be gone on with the access that the trace has next, or to the end. -/
def Goes (c : Conf A M) : Prop := ∀ H : M → Prop, (∀ m, ¬ H m) →
  (Left c [] → Steps H c [] (.run .done)) ∧ ∀ x u, Left c (x :: u) → ∃ d, Steps H c [x] d ∧ Free d ∧ Left d u

theorem merge_nil {α : Type} {a b : List α} (h : Merge a b []) : a = [] ∧ b = [] := by
  have := (merge_perm h).symm.eq_nil
  exact List.append_eq_nil_iff.1 this

theorem goes_wait {l r : Conf A M} {k : Prog A M} (fl : Free l) (fr : Free r) (fk : Single k) (hl : Goes l) (hr : Goes r) (hk : Goes (.run k)) :
    Goes (.wait l r k) := by
  intro H hH
  have e1 : ∀ c : Conf A M, Free c → ∀ m, ¬ (H m ∨ c.holds m) := fun c hc m h => h.elim (hH m) (free_holds hc m)
  have ends : ∀ {a b : List A}, Left l a → Left r b → Merge a b [] → Steps H (.wait l r k) [] (.run k) := by
    intro a b ha hb hm
    obtain ⟨rfl, rfl⟩ := merge_nil hm
    have h1 := ((hl _ (e1 r fr)).1 ha).left k
    have h2 := ((hr _ (e1 (.run .done) trivial)).1 hb).right k
    exact (h1.trans h2).trans (.one (.join _ _))
  constructor
  · rintro ⟨a, b, d, u, ha, hb, hm, e, hu⟩
    obtain ⟨rfl, rfl⟩ := List.append_eq_nil_iff.1 e.symm
    exact (ends ha hb hm).trans ((hk H hH).1 hu)
  · rintro x v ⟨a, b, d, u, ha, hb, hm, e, hu⟩
    cases hm with
    | nil =>
      obtain rfl : u = x :: v := e.symm
      obtain ⟨c, h1, h2, h3⟩ := (hk H hH).2 x v hu
      exact ⟨c, (ends ha hb .nil).trans h1, h2, h3⟩
    | @left y a b d hm =>
      simp only [List.cons_append, List.cons.injEq] at e
      obtain ⟨rfl, rfl⟩ := e
      obtain ⟨c, h1, h2, h3⟩ := (hl _ (e1 r fr)).2 _ _ ha
      exact ⟨_, h1.left k, ⟨h2, fr, fk⟩, a, b, d, u, h3, hb, hm, rfl, hu⟩
    | @right y a b d hm =>
      simp only [List.cons_append, List.cons.injEq] at e
      obtain ⟨rfl, rfl⟩ := e
      obtain ⟨c, h1, h2, h3⟩ := (hr _ (e1 l fl)).2 _ _ hb
      exact ⟨_, h1.right k, ⟨fl, h2, fk⟩, a, b, d, u, ha, h3, hm, rfl, hu⟩

theorem goes_run (p : Prog A M) (hp : Single p) : Goes (.run p) := by
  induction p with
  | done =>
    intro H _
    exact ⟨fun _ => .refl _, fun x u h => by cases h⟩
  | act a k ih =>
    intro H hH
    constructor
    · rintro ⟨u, e, _⟩; cases e
    · rintro x v ⟨u, e, hu⟩
      cases e
      exact ⟨_, .one (.act _ _ _), hp, hu⟩
  | crit m as k ih =>
    intro H hH
    obtain ⟨h1, h2⟩ := hp
    match as, h1 with
    | [], _ =>
      have enter : Steps H (.run (.crit m [] k)) [] (.run k) := .step (.lock _ _ _ _ (hH m)) (.one (.unlock _ _ _))
      constructor
      · rintro ⟨u, e, hu⟩
        obtain rfl : u = [] := e.symm
        exact enter.trans ((ih h2 H hH).1 hu)
      · rintro x v ⟨u, e, hu⟩
        obtain rfl : u = x :: v := e.symm
        obtain ⟨c, a1, a2, a3⟩ := (ih h2 H hH).2 x v hu
        exact ⟨c, enter.trans a1, a2, a3⟩
    | [a], _ =>
      constructor
      · rintro ⟨u, e, _⟩; cases e
      · rintro x v ⟨u, e, hu⟩
        cases e
        exact ⟨_, .step (.lock _ _ _ _ (hH m)) (.step (.body _ _ _ _ _) (.one (.unlock _ _ _))), h2, hu⟩
  | par p q k ihp ihq ihk =>
    intro H hH
    obtain ⟨h1, h2, h3⟩ := hp
    have := goes_wait (l := .run p) (r := .run q) h1 h2 h3 (ihp h1) (ihq h2) (ihk h3) H hH
    constructor
    · intro h
      exact Steps.step (.fork _ _ _ _) (this.1 h)
    · intro x u h
      obtain ⟨c, a1, a2, a3⟩ := this.2 x u h
      exact ⟨c, Steps.step (.fork _ _ _ _) a1, a2, a3⟩

theorem goes (c : Conf A M) (hc : Free c) : Goes c := by
  induction c with
  | run p => exact goes_run p hc
  | inside => exact hc.elim
  | wait l r k ihl ihr => exact goes_wait hc.1 hc.2.1 hc.2.2 (ihl hc.1) (ihr hc.2.1) (goes_run k hc.2.2)

/-- The executions of a program whose critical sections have at most one access: all merges. -/
theorem runs_traces {p : Prog A M} (hp : Single p) (t : List A) : Runs p t (.run .done) ↔ Traces p t := by
  constructor
  · intro h
    have := steps_left h (u := []) rfl
    rw [List.append_nil] at this
    exact this
  · intro h
    have key : ∀ (t : List A) (c : Conf A M), Free c → Left c t → Steps (fun _ => False) c t (.run .done) := by
      intro t
      induction t with
      | nil => intro c hc h; exact (goes c hc _ fun _ x => x).1 h
      | cons x t ih =>
        intro c hc h
        obtain ⟨d, h1, h2, h3⟩ := (goes c hc (fun _ => False) fun _ x => x).2 x t h
        exact h1.trans (ih d h2 h3)
    exact key t _ hp h

end

/-! ## The goroutines of discovery -/

section
variable {L D : Type}

theorem merge_empty {α : Type} {a d : List α} : Merge a [] d ↔ d = a := by
  constructor
  · intro h
    generalize hb : ([] : List α) = b at h
    induction h with
    | nil => rfl
    | left x _ ih => rw [ih hb]
    | right => cases hb
  · rintro rfl
    simpa using merge_append d []

theorem traces_all {ι A M : Type} (th : ι → Prog A M) (is : List ι) (t : List A) : Traces (.all (is.map th)) t ↔ Each (fun i => Traces (th i)) is t := by
  induction is generalizing t with
  | nil => exact Iff.rfl
  | cons i is ih =>
    constructor
    · rintro ⟨a, b, d, u, ha, hb, hm, rfl, hu⟩
      obtain rfl : u = [] := hu
      exact ⟨a, b, ha, (ih b).1 hb, by simpa using hm⟩
    · rintro ⟨a, b, ha, hb, hm⟩
      exact ⟨a, b, t, [], ha, (ih b).2 hb, hm, by simp, rfl⟩

theorem traces_locked (ws : List (Disc.Write L)) (k : Prog (Disc.Write L) Unit) (t : List (Disc.Write L)) :
    Traces (locked ws k) t ↔ ∃ u, t = ws ++ u ∧ Traces k u := by
  induction ws generalizing t with
  | nil => exact ⟨fun h => ⟨t, rfl, h⟩, fun ⟨u, e, h⟩ => e ▸ h⟩
  | cons w ws ih =>
    constructor
    · rintro ⟨u, rfl, hu⟩
      obtain ⟨v, rfl, hv⟩ := (ih u).1 hu
      exact ⟨v, rfl, hv⟩
    · rintro ⟨u, rfl, hu⟩
      exact ⟨ws ++ u, rfl, (ih _).2 ⟨u, rfl, hu⟩⟩

theorem single_all {A M : Type} {ps : List (Prog A M)} (h : ∀ p ∈ ps, Single p) : Single (.all ps) := by
  induction ps with
  | nil => trivial
  | cons p ps ih => exact ⟨h p List.mem_cons_self, ih fun q hq => h q (List.mem_cons_of_mem _ hq), trivial⟩

theorem single_locked (ws : List (Disc.Write L)) {k : Prog (Disc.Write L) Unit} (h : Single k) : Single (locked ws k) := by
  induction ws with
  | nil => exact h
  | cons w ws ih => exact ⟨Nat.le_refl 1, ih⟩

/-- Goroutines that write at most once and wait for nothing. -/
theorem each_once {α : Type} {ls : List (List α)} (h : ∀ l ∈ ls, l.length ≤ 1) (c : List α) : Each (fun l a => a = l) ls c ↔ c.Perm ls.flatten := by
  induction ls generalizing c with
  | nil => simp [Each]
  | cons l ls ih =>
    have ih := ih fun l hl => h l (List.mem_cons_of_mem _ hl)
    rw [List.flatten_cons]
    constructor
    · rintro ⟨a, b, rfl, hb, hm⟩
      exact (merge_perm hm).trans (((ih b).1 hb).append_left _)
    · intro hc
      match l, h l List.mem_cons_self with
      | [], _ => exact ⟨[], c, rfl, (ih c).2 hc, merge_append [] c⟩
      | [w], _ =>
        obtain ⟨p, q, rfl⟩ := List.append_of_mem (hc.symm.subset List.mem_cons_self)
        have : (p ++ q).Perm ls.flatten := (List.perm_middle.symm.trans hc).cons_inv
        refine ⟨[w], p ++ q, rfl, (ih _).2 this, ?_⟩
        have := merge_right_append p (Merge.left w (merge_append [] q))
        simpa using this

theorem linkbaseItem_once (env : FolderEnv L D) (i : Item) : (linkbaseItem env i).length ≤ 1 := by
  unfold linkbaseItem; repeat' split
  all_goals simp

theorem linkbaseThreads_items (env : FolderEnv L D) (f : Disc.SchemaFile) :
    ∃ is : List Item, linkbaseThreads env f = .all (is.map fun i => locked (linkbaseItem env i) .done) ∧
      linkbaseRefSchema env f = (is.map (linkbaseItem env)).flatten := by
  refine ⟨f.annotation.flatMap fun ann => if ann.space ≠ XSD then [] else ann.appinfo.flatMap fun app =>
    if app.space ≠ XSD then [] else app.linkbaseRef, ?_, ?_⟩
  · unfold linkbaseThreads
    rw [List.map_flatMap]
    congr 2
    funext ann
    split
    · rfl
    · rw [List.map_flatMap]
      congr 1
      funext app
      split <;> rfl
  · unfold linkbaseRefSchema
    rw [← List.flatMap_def, List.flatMap_assoc]
    congr 1
    funext ann
    split
    · rfl
    · rw [List.flatMap_assoc]
      congr 1
      funext app
      split <;> rfl

theorem traces_linkbase (env : FolderEnv L D) (f : Disc.SchemaFile) (b : List (Disc.Write L)) :
    Traces (linkbaseThreads env f) b ↔ b.Perm (linkbaseRefSchema env f) := by
  obtain ⟨is, e1, e2⟩ := linkbaseThreads_items env f
  rw [e1, e2, traces_all, ← each_once (ls := is.map (linkbaseItem env)) (by
    intro l hl
    obtain ⟨i, _, rfl⟩ := List.mem_map.1 hl
    exact linkbaseItem_once env i)]
  clear e1 e2
  induction is generalizing b with
  | nil => exact Iff.rfl
  | cons i is ih =>
    refine exists_congr fun a => exists_congr fun c => and_congr ?_ (and_congr_left' (ih c))
    simp [traces_locked, Traces]

theorem single_visit (env : FolderEnv L D) (v : Visit) {sub : Disc.SchemaFile → Prog (Disc.Write L) Unit} (h : ∀ f, Single (sub f)) :
    Single (visitThread env v sub) := by
  refine single_locked _ ?_
  split
  · trivial
  · rename_i href f _
    obtain ⟨is, e1, _⟩ := linkbaseThreads_items env f
    refine ⟨h f, ?_, Nat.le_refl 1, trivial⟩
    rw [e1]
    refine single_all fun p hp => ?_
    obtain ⟨i, _, rfl⟩ := List.mem_map.1 hp
    exact single_locked _ trivial

theorem single_search (env : FolderEnv L D) (n : Nat) (f : Disc.SchemaFile) : Single (searchThreads env n f) := by
  induction n generalizing f with
  | zero => trivial
  | succ n ih =>
    refine ⟨single_all fun p hp => ?_, single_all fun p hp => ?_, trivial⟩ <;>
      (obtain ⟨i, _, rfl⟩ := List.mem_map.1 hp; exact single_visit env _ ih)

theorem single_schemaRef (env : FolderEnv L D) (n : Nat) (inst : Disc.InstanceFile) : Single (schemaRefThreads env n inst) := by
  refine single_all fun p hp => ?_
  obtain ⟨i, _, rfl⟩ := List.mem_map.1 hp
  exact single_visit env _ (single_search env n)

theorem traces_visit (env : FolderEnv L D) (v : Visit) {sub : Disc.SchemaFile → Prog (Disc.Write L) Unit} {sub' : Disc.SchemaFile → List (Disc.Write L) → Prop}
    (h : ∀ href f, v.next = some (href, f) → ∀ a, Traces (sub f) a ↔ sub' f a) (c : List (Disc.Write L)) :
    Traces (visitThread env v sub) c ↔ RunsVisit env v sub' c := by
  unfold visitThread RunsVisit
  rw [traces_locked]
  cases hn : v.next with
  | none => simp [Traces]
  | some p =>
    obtain ⟨href, f⟩ := p
    have h := h href f hn
    constructor
    · rintro ⟨u, rfl, a, b, d, w, ha, hb, hm, rfl, x, rfl, hx⟩
      obtain rfl : x = [] := hx
      exact ⟨a, b, d, (h a).1 ha, (traces_linkbase env f b).1 hb, hm, by simp⟩
    · rintro ⟨a, b, d, ha, hb, hm, rfl⟩
      exact ⟨d ++ [.schema href f], by simp, a, b, d, _, (h a).2 ha, (traces_linkbase env f b).2 hb, hm, rfl, [], rfl, rfl⟩

theorem each_iff {ι α : Type} {R R' : ι → List α → Prop} {is : List ι} (h : ∀ i ∈ is, ∀ c, R i c ↔ R' i c) (c : List α) : Each R is c ↔ Each R' is c := by
  induction is generalizing c with
  | nil => exact Iff.rfl
  | cons i is ih =>
    refine exists_congr fun a => exists_congr fun b => ?_
    rw [h i List.mem_cons_self, ih fun j hj => h j (List.mem_cons_of_mem _ hj)]

theorem collect_each {ι α : Type} {F : ι → Option (List α)} {is : List ι} {ws : List α} (h : collect F is = some ws) : ∀ i ∈ is, ∃ a, F i = some a := by
  induction is generalizing ws with
  | nil => simp
  | cons j is ih =>
    simp only [collect] at h
    split at h
    · rename_i a b ha hb
      intro i hi
      rcases List.mem_cons.1 hi with rfl | hi
      · exact ⟨a, ha⟩
      · exact ih hb i hi
    · cases h

theorem finish_sub {env : FolderEnv L D} {v : Visit} {sub : Disc.SchemaFile → Option (List (Disc.Write L))} {ws : List (Disc.Write L)}
    (h : finishVisit env v sub = some ws) {href : String} {f : Disc.SchemaFile} (hn : v.next = some (href, f)) : ∃ a, sub f = some a := by
  unfold finishVisit at h
  rw [hn] at h
  simp only at h
  split at h
  · cases h
  · exact ⟨_, ‹_›⟩

theorem traces_search (env : FolderEnv L D) (n : Nat) : ∀ (f : Disc.SchemaFile) {ws : List (Disc.Write L)}, searchSchema env n f = some ws →
    ∀ c, Traces (searchThreads env n f) c ↔ RunsSearch env n f c := by
  induction n with
  | zero => intro f ws h; cases h
  | succ n ih =>
    intro f ws h c
    rw [searchSchema] at h
    split at h
    · rename_i u v hu hv
      have e1 : ∀ a, Traces (.all (f.imp.map fun i => visitThread env (visitImport env i) (searchThreads env n))) a ↔
          Each (fun i => RunsVisit env (visitImport env i) (RunsSearch env n)) f.imp a := by
        intro a
        rw [traces_all]
        refine each_iff (fun i hi c => traces_visit env _ (fun href g hg a => ?_) c) a
        obtain ⟨x, hx⟩ := collect_each hu i hi
        obtain ⟨y, hy⟩ := finish_sub hx hg
        exact ih g hy a
      have e2 : ∀ a, Traces (.all (f.incl.map fun i => visitThread env (visitInclude env i) (searchThreads env n))) a ↔
          Each (fun i => RunsVisit env (visitInclude env i) (RunsSearch env n)) f.incl a := by
        intro a
        rw [traces_all]
        refine each_iff (fun i hi c => traces_visit env _ (fun href g hg a => ?_) c) a
        obtain ⟨x, hx⟩ := collect_each hv i hi
        obtain ⟨y, hy⟩ := finish_sub hx hg
        exact ih g hy a
      constructor
      · rintro ⟨a, b, d, w, ha, hb, hm, rfl, hw⟩
        obtain rfl : w = [] := hw
        exact ⟨a, b, (e1 a).1 ha, (e2 b).1 hb, by simpa using hm⟩
      · rintro ⟨a, b, ha, hb, hm⟩
        exact ⟨a, b, c, [], (e1 a).2 ha, (e2 b).2 hb, hm, by simp, rfl⟩
    · cases h

theorem traces_schemaRef {env : FolderEnv L D} {n : Nat} {inst : Disc.InstanceFile} {ws : List (Disc.Write L)} (h : schemaRef env n inst = some ws)
    (c : List (Disc.Write L)) : Traces (schemaRefThreads env n inst) c ↔ Disc.Runs env n inst c := by
  unfold schemaRefThreads
  rw [traces_all]
  refine each_iff (fun i hi c => traces_visit env _ (fun href g hg a => ?_) c) c
  obtain ⟨x, hx⟩ := collect_each h i hi
  obtain ⟨y, hy⟩ := finish_sub hx hg
  exact traces_search env n g hy a

end
end Telefacts.Threads
