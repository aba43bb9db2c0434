import Verif.Spec.Runs
import Verif.Proof.Discover
/-! # The orders that the goroutines of discovery can produce -/
namespace Telefacts.Disc
variable {L D : Type} {α ι : Type}

theorem merge_perm {a b c : List α} (h : Merge a b c) : c.Perm (a ++ b) := by
  induction h with
  | nil => exact .refl _
  | left x _ ih => exact ih.cons x
  | right x _ ih => exact (ih.cons x).trans List.perm_middle.symm

theorem merge_append (a b : List α) : Merge a b (a ++ b) := by
  induction a with
  | nil =>
    induction b with
    | nil => exact .nil
    | cons x b ih => exact .right x ih
  | cons x a ih => exact .left x ih

theorem merge_comm {a b c : List α} (h : Merge a b c) : Merge b a c := by
  induction h with
  | nil => exact .nil
  | left x _ ih => exact .right x ih
  | right x _ ih => exact .left x ih

theorem merge_filterMap {β : Type} (f : α → Option β) {a b c : List α} (h : Merge a b c) : Merge (a.filterMap f) (b.filterMap f) (c.filterMap f) := by
  induction h with
  | nil => exact .nil
  | left x _ ih =>
    cases hx : f x with
    | none => simpa [List.filterMap_cons, hx] using ih
    | some y => simpa [List.filterMap_cons, hx] using ih.left y
  | right x _ ih =>
    cases hx : f x with
    | none => simpa [List.filterMap_cons, hx] using ih
    | some y => simpa [List.filterMap_cons, hx] using ih.right y

theorem merge_last {a b c : List α} {x : α} (h : Merge a b c) (hx : c.getLast? = some x) : a.getLast? = some x ∨ b.getLast? = some x := by
  have up : ∀ {y : α} {l : List α}, l.getLast? = some x → (y :: l).getLast? = some x := by
    intro y l hl
    cases l with
    | nil => simp at hl
    | cons z l => rw [List.getLast?_cons_cons]; exact hl
  induction h with
  | nil => simp at hx
  | @left y a b c h ih =>
    cases c with
    | nil =>
      have := (merge_perm h).symm.eq_nil
      rw [List.append_eq_nil_iff] at this
      obtain ⟨rfl, rfl⟩ := this
      exact .inl hx
    | cons z c =>
      rw [List.getLast?_cons_cons] at hx
      exact (ih hx).imp up id
  | @right y a b c h ih =>
    cases c with
    | nil =>
      have := (merge_perm h).symm.eq_nil
      rw [List.append_eq_nil_iff] at this
      obtain ⟨rfl, rfl⟩ := this
      exact .inr hx
    | cons z c =>
      rw [List.getLast?_cons_cons] at hx
      exact (ih hx).imp id up

/-! ## Runs are permutations -/

theorem each_perm {F : ι → Option (List α)} {R : ι → List α → Prop} (h : ∀ i a, R i a → ∃ ws, F i = some ws ∧ a.Perm ws) {is : List ι} {c : List α}
    (hc : Each R is c) : ∃ ws, collect F is = some ws ∧ c.Perm ws := by
  induction is generalizing c with
  | nil => exact ⟨[], rfl, by rw [show c = [] from hc]⟩
  | cons i is ih =>
    obtain ⟨a, b, h1, h2, h3⟩ := hc
    obtain ⟨u, hu, pu⟩ := h i a h1
    obtain ⟨v, hv, pv⟩ := ih h2
    exact ⟨u ++ v, by simp only [collect, hu, hv], (merge_perm h3).trans (pu.append pv)⟩

theorem each_id {F : ι → Option (List α)} {R : ι → List α → Prop} (h : ∀ i a, F i = some a → R i a) {is : List ι} {ws : List α}
    (hc : collect F is = some ws) : Each R is ws := by
  induction is generalizing ws with
  | nil => cases hc; rfl
  | cons i is ih =>
    simp only [collect] at hc
    split at hc
    · rename_i a b ha hb
      cases hc
      exact ⟨a, b, h i a ha, ih hb, merge_append a b⟩
    · cases hc

theorem each_mem {R : ι → List α → Prop} {is : List ι} {c : List α} (hc : Each R is c) : ∀ i ∈ is, ∃ a, R i a := by
  induction is generalizing c with
  | nil => simp
  | cons i is ih =>
    obtain ⟨a, b, h1, h2, _⟩ := hc
    intro j hj
    rcases List.mem_cons.1 hj with rfl | hj
    · exact ⟨a, h1⟩
    · exact ih h2 j hj

theorem visit_perm {env : FolderEnv L D} {v : Visit} {sub : SchemaFile → List (Write L) → Prop} {sub' : SchemaFile → Option (List (Write L))}
    (h : ∀ f a, sub f a → ∃ ws, sub' f = some ws ∧ a.Perm ws) {c : List (Write L)} (hc : RunsVisit env v sub c) :
    ∃ ws, finishVisit env v sub' = some ws ∧ c.Perm ws := by
  unfold RunsVisit at hc
  unfold finishVisit
  split at hc
  · exact ⟨_, rfl, by rw [hc]⟩
  · rename_i href f hn
    obtain ⟨a, b, d, h1, h2, h3, rfl⟩ := hc
    obtain ⟨ws, hw, pw⟩ := h f a h1
    refine ⟨_, by rw [hw], ?_⟩
    rw [List.append_assoc (v.ns.map _) ws]
    exact (((merge_perm h3).trans (pw.append h2)).append_left _).append_right _

theorem visit_id {env : FolderEnv L D} {v : Visit} {sub : SchemaFile → List (Write L) → Prop} {sub' : SchemaFile → Option (List (Write L))}
    (h : ∀ f a, sub' f = some a → sub f a) {c : List (Write L)} (hc : finishVisit env v sub' = some c) : RunsVisit env v sub c := by
  unfold finishVisit at hc
  unfold RunsVisit
  split at hc
  · cases hc; rfl
  · rename_i href f hn
    split at hc
    · cases hc
    · rename_i ws hw
      cases hc
      exact ⟨ws, _, ws ++ linkbaseRefSchema env f, h f ws hw, .refl _, merge_append _ _, by simp⟩

theorem search_perm {env : FolderEnv L D} {n : Nat} {f : SchemaFile} {c : List (Write L)} (h : RunsSearch env n f c) :
    ∃ ws, searchSchema env n f = some ws ∧ c.Perm ws := by
  induction n generalizing f c with
  | zero => exact h.elim
  | succ n ih =>
    obtain ⟨a, b, h1, h2, h3⟩ := h
    obtain ⟨u, hu, pu⟩ := each_perm (fun i a ha => visit_perm (fun f a h => ih h) ha) h1
    obtain ⟨v, hv, pv⟩ := each_perm (fun i a ha => visit_perm (fun f a h => ih h) ha) h2
    exact ⟨u ++ v, by simp only [searchSchema, hu, hv], (merge_perm h3).trans (pu.append pv)⟩

theorem search_id {env : FolderEnv L D} {n : Nat} {f : SchemaFile} {ws : List (Write L)} (h : searchSchema env n f = some ws) :
    RunsSearch env n f ws := by
  induction n generalizing f ws with
  | zero => cases h
  | succ n ih =>
    rw [searchSchema] at h
    split at h
    · rename_i a b ha hb
      cases h
      exact ⟨a, b, each_id (F := fun i => finishVisit env (visitImport env i) (searchSchema env n)) (fun i a ha => visit_id (sub := RunsSearch env n) (fun f a h => ih h) ha) ha,
        each_id (F := fun i => finishVisit env (visitInclude env i) (searchSchema env n)) (fun i a ha => visit_id (sub := RunsSearch env n) (fun f a h => ih h) ha) hb, merge_append a b⟩
    · cases h

theorem runs_perm {env : FolderEnv L D} {fuel : Nat} {inst : InstanceFile} {c : List (Write L)} (h : Runs env fuel inst c) :
    ∃ ws, schemaRef env fuel inst = some ws ∧ c.Perm ws :=
  each_perm (fun _ _ ha => visit_perm (fun _ _ h => search_perm h) ha) h

/-- One goroutine after the other. -/
theorem runs_id {env : FolderEnv L D} {fuel : Nat} {inst : InstanceFile} {ws : List (Write L)} (h : schemaRef env fuel inst = some ws) :
    Runs env fuel inst ws :=
  each_id (F := fun i => finishVisit env (visitRef env i) (searchSchema env fuel)) (fun _ _ ha => visit_id (sub := RunsSearch env fuel) (fun _ _ h => search_id h) ha) h

theorem realised_id (env : FolderEnv L D) (fuel : Nat) : Realised env fuel id := fun _ _ _ _ _ _ hw => runs_id hw

/-! ## The last location -/

/-- The locations given to a namespace, in order. -/
def given (n : String) (c : List (Write L)) : List String :=
  c.filterMap fun w => match w with | .ns k v => if k = n then some v else none | _ => none

theorem mem_given {n l : String} {c : List (Write L)} : l ∈ given n c ↔ .ns n l ∈ c := by
  unfold given
  rw [List.mem_filterMap]
  constructor
  · rintro ⟨w, hw, h⟩
    split at h
    · split at h
      · rename_i e; cases h; subst e; exact hw
      · cases h
    · cases h
  · intro h
    exact ⟨_, h, by simp⟩

theorem given_append (n : String) (a b : List (Write L)) : given n (a ++ b) = given n a ++ given n b := List.filterMap_append

theorem given_links (n : String) (env : FolderEnv L D) (f : SchemaFile) {b : List (Write L)} (h : b.Perm (linkbaseRefSchema env f)) : given n b = [] := by
  refine List.eq_nil_iff_forall_not_mem.2 fun l hl => ?_
  rw [mem_given, h.mem_iff, mem_linkbaseRefSchema] at hl
  obtain ⟨_, _, _, e, _⟩ := hl
  cases e

theorem given_schema (n : String) (href : String) (f : SchemaFile) : given (L := L) n [.schema href f] = [] := rfl

theorem given_ns {n l : String} {v : Visit} (hv : v.ns.length ≤ 1) (h : (n, l) ∈ v.ns) : given (L := L) n (v.ns.map fun p => .ns p.1 p.2) = [l] := by
  match hn : v.ns, hv with
  | [], _ => rw [hn] at h; simp at h
  | [p], _ =>
    rw [hn, List.mem_singleton] at h
    subst h
    simp [given]

theorem mem_given_ns {n l : String} {v : Visit} (h : l ∈ given (L := L) n (v.ns.map fun p => .ns p.1 p.2)) : (n, l) ∈ v.ns := by
  rw [mem_given, List.mem_map] at h
  obtain ⟨p, hp, e⟩ := h
  cases e
  exact hp

theorem merge_given_nil {n : String} {a b d : List (Write L)} (h : Merge a b d) (hb : given n b = []) : (given n d).Perm (given n a) := by
  have := merge_perm (merge_filterMap (fun w => match w with | .ns k v => if k = n then some v else none | _ => none) h)
  change (given n d).Perm (given n a ++ given n b) at this
  rwa [hb, List.append_nil] at this

theorem merge_given_last {n l : String} {a b d : List (Write L)} (h : Merge a b d) (hl : (given n d).getLast? = some l) :
    (given n a).getLast? = some l ∨ (given n b).getLast? = some l :=
  merge_last (merge_filterMap _ h) hl

theorem visit_last {env : FolderEnv L D} {v : Visit} {sub : SchemaFile → List (Write L) → Prop} {c : List (Write L)} (hc : RunsVisit env v sub c)
    {n l : String} (hl : (given n c).getLast? = some l) :
    ((n, l) ∈ v.ns ∧ ∀ loc f, v.next = some (loc, f) → ∃ a, sub f a ∧ given n a = []) ∨
      ∃ loc f a, v.next = some (loc, f) ∧ sub f a ∧ (given n a).getLast? = some l := by
  unfold RunsVisit at hc
  split at hc
  · rename_i hn
    subst hc
    refine .inl ⟨mem_given_ns (List.mem_of_getLast? hl), fun loc f hf => ?_⟩
    rw [hn] at hf; cases hf
  · rename_i href f hn
    obtain ⟨a, b, d, h1, h2, h3, rfl⟩ := hc
    rw [given_append, given_append, given_schema, List.append_nil] at hl
    have hb := given_links n env f h2
    by_cases ha : given n a = []
    · have hd : given n d = [] := by have := merge_given_nil h3 hb; rw [ha] at this; exact this.eq_nil
      rw [hd, List.append_nil] at hl
      refine .inl ⟨mem_given_ns (List.mem_of_getLast? hl), fun loc g hg => ?_⟩
      rw [hn] at hg
      cases hg
      exact ⟨a, h1, ha⟩
    · have hd : given n d ≠ [] := by
        intro e
        have := merge_given_nil h3 hb
        rw [e] at this
        exact ha this.symm.eq_nil
      rw [List.getLast?_append_of_ne_nil _ hd] at hl
      rcases merge_given_last h3 hl with hl | hl
      · exact .inr ⟨href, f, a, hn, h1, hl⟩
      · rw [hb] at hl; simp at hl

theorem visit_gives {env : FolderEnv L D} {v : Visit} (hv : v.ns.length ≤ 1) {sub : SchemaFile → List (Write L) → Prop} {n l : String}
    (hm : (n, l) ∈ v.ns) (h : ∀ loc f, v.next = some (loc, f) → ∃ a, sub f a ∧ given n a = []) :
    ∃ c, RunsVisit env v sub c ∧ (given n c).getLast? = some l := by
  unfold RunsVisit
  cases hn : v.next with
  | none => exact ⟨_, rfl, by rw [given_ns hv hm]; rfl⟩
  | some p =>
    obtain ⟨href, f⟩ := p
    obtain ⟨a, h1, h2⟩ := h href f hn
    refine ⟨_, ⟨a, _, _, h1, .refl _, merge_append _ _, rfl⟩, ?_⟩
    rw [given_append, given_append, given_append, given_ns hv hm, h2, given_links n env f (.refl _), given_schema]
    rfl

theorem visit_leads {env : FolderEnv L D} {v : Visit} {sub : SchemaFile → List (Write L) → Prop} {n l : String} {loc : String} {f : SchemaFile}
    {a : List (Write L)} (hn : v.next = some (loc, f)) (ha : sub f a) (hl : (given n a).getLast? = some l) :
    ∃ c, RunsVisit env v sub c ∧ (given n c).getLast? = some l := by
  unfold RunsVisit
  rw [hn]
  refine ⟨_, ⟨a, _, _, ha, .refl _, merge_append _ _, rfl⟩, ?_⟩
  have hne : given n a ≠ [] := by intro e; rw [e] at hl; simp at hl
  rw [given_append, given_append, given_append, given_links n env f (.refl _), given_schema, List.append_nil, List.append_nil,
    List.getLast?_append_of_ne_nil _ hne]
  exact hl

theorem each_last {R : ι → List (Write L) → Prop} {is : List ι} {c : List (Write L)} (hc : Each R is c) {n l : String}
    (hl : (given n c).getLast? = some l) : ∃ i ∈ is, ∃ a, R i a ∧ (given n a).getLast? = some l := by
  induction is generalizing c with
  | nil => rw [show c = [] from hc] at hl; simp [given] at hl
  | cons i is ih =>
    obtain ⟨a, b, h1, h2, h3⟩ := hc
    rcases merge_given_last h3 hl with h | h
    · exact ⟨i, List.mem_cons_self, a, h1, h⟩
    · obtain ⟨j, hj, r⟩ := ih h2 h
      exact ⟨j, List.mem_cons_of_mem _ hj, r⟩

theorem last_after {n l : String} {a b : List (Write L)} (h : (given n b).getLast? = some l) : (given n (a ++ b)).getLast? = some l := by
  have hne : given n b ≠ [] := by intro e; rw [e] at h; simp at h
  rw [given_append, List.getLast?_append_of_ne_nil _ hne]
  exact h

theorem each_makes {R : ι → List (Write L) → Prop} {is : List ι} {c0 : List (Write L)} (h0 : Each R is c0) {n l : String} {i : ι} (hi : i ∈ is)
    {a : List (Write L)} (ha : R i a) (hl : (given n a).getLast? = some l) : ∃ c, Each R is c ∧ (given n c).getLast? = some l := by
  induction is generalizing c0 with
  | nil => simp at hi
  | cons j is ih =>
    obtain ⟨u, v, h1, h2, _⟩ := h0
    rcases List.mem_cons.1 hi with rfl | hi
    · exact ⟨v ++ a, ⟨a, v, ha, h2, merge_comm (merge_append v a)⟩, last_after hl⟩
    · obtain ⟨w, hw, hlw⟩ := ih h2 hi
      exact ⟨u ++ w, ⟨u, w, h1, hw, merge_append u w⟩, last_after hlw⟩

/-! ## Which references give a namespace its location -/

theorem gives_iff {env : FolderEnv L D} {n : String} {f : SchemaFile} :
    Gives env n f ↔ ∃ l, NsOf env f n l ∨ ∃ loc g, Below env f loc g ∧ NsOf env g n l := by
  constructor
  · intro h
    induction h with
    | imp f i loc hi h => exact ⟨loc, .inl (.inl ⟨i, hi, h⟩)⟩
    | incl f i loc g hi h => exact ⟨loc, .inl (.inr ⟨i, hi, g, h⟩)⟩
    | child f loc g hc _ ih =>
      obtain ⟨l, h | ⟨loc', g', hb, h⟩⟩ := ih
      · exact ⟨l, .inr ⟨loc, g, .child _ _ _ hc, h⟩⟩
      · exact ⟨l, .inr ⟨loc', g', .step _ _ _ _ _ hc hb, h⟩⟩
  · have here : ∀ {f l}, NsOf env f n l → Gives env n f := by
      rintro f l (⟨i, hi, h⟩ | ⟨i, hi, g, h⟩)
      · exact .imp f i l hi h
      · exact .incl f i l g hi h
    rintro ⟨l, h | ⟨loc, g, hb, h⟩⟩
    · exact here h
    · induction hb with
      | child f loc g hc => exact .child _ _ _ hc (here h)
      | step f l' k loc g hc _ ih => exact .child _ _ _ hc (ih h)

theorem search_given {env : FolderEnv L D} {m : Nat} {f : SchemaFile} {a : List (Write L)} (h : RunsSearch env m f a) (n : String) :
    given n a = [] ↔ ¬ Gives env n f := by
  obtain ⟨ws, hw, hp⟩ := search_perm h
  have key : ∀ l, l ∈ given n a ↔ NsOf env f n l ∨ ∃ loc g, Below env f loc g ∧ NsOf env g n l := by
    intro l
    rw [mem_given, hp.mem_iff, mem_searchSchema hw]
    constructor
    · rintro (⟨_, _, e, h⟩ | ⟨loc, g, hb, ⟨_, _, e, h⟩ | ⟨_, _, _, e, _⟩ | e⟩)
      · cases e; exact .inl h
      · cases e; exact .inr ⟨loc, g, hb, h⟩
      · cases e
      · cases e
    · rintro (h | ⟨loc, g, hb, h⟩)
      · exact .inl ⟨_, _, rfl, h⟩
      · exact .inr ⟨loc, g, hb, .inl ⟨_, _, rfl, h⟩⟩
  rw [gives_iff, List.eq_nil_iff_forall_not_mem, not_exists]
  exact forall_congr' fun l => not_congr (key l)

theorem visitRef_single (env : FolderEnv L D) (i : Item) : (visitRef env i).ns.length ≤ 1 := by
  unfold visitRef; repeat' split
  all_goals simp

theorem visitInclude_single (env : FolderEnv L D) (i : Item) : (visitInclude env i).ns.length ≤ 1 := by
  unfold visitInclude; repeat' split
  all_goals simp

theorem visitImport_single (env : FolderEnv L D) (i : Item) : (visitImport env i).ns.length ≤ 1 := by
  unfold visitImport; repeat' split
  all_goals simp

theorem search_last {env : FolderEnv L D} {m : Nat} {f : SchemaFile} {c : List (Write L)} (h : RunsSearch env m f c) {n l : String}
    (hl : (given n c).getLast? = some l) : LastAt env f n l ∨ ∃ loc g, Below env f loc g ∧ LastAt env g n l := by
  induction m generalizing f c with
  | zero => exact h.elim
  | succ m ih =>
    obtain ⟨a, b, h1, h2, h3⟩ := h
    have down : ∀ {loc g}, Child env f loc g → (LastAt env g n l ∨ ∃ loc' g', Below env g loc' g' ∧ LastAt env g' n l) →
        LastAt env f n l ∨ ∃ loc g, Below env f loc g ∧ LastAt env g n l := by
      rintro loc g hc (h | ⟨loc', g', hb, h⟩)
      · exact .inr ⟨loc, g, .child _ _ _ hc, h⟩
      · exact .inr ⟨loc', g', .step _ _ _ _ _ hc hb, h⟩
    rcases merge_given_last h3 hl with hl | hl
    · obtain ⟨i, hi, v, hv, hlv⟩ := each_last h1 hl
      rcases visit_last hv hlv with ⟨hm, hs⟩ | ⟨loc, g, u, hn, hu, hlu⟩
      · refine .inl (.inl ⟨i, hi, (visitImport_ns _ _ _ _).1 hm, fun g hg => ?_⟩)
        obtain ⟨u, hu, e⟩ := hs l g ((visitImport_next _ _ _ _).2 ⟨n, (visitImport_ns _ _ _ _).1 hm, hg⟩)
        exact (search_given hu n).1 e
      · exact down (.inl ⟨i, hi, (visitImport_next _ _ _ _).1 hn⟩) (ih hu hlu)
    · obtain ⟨i, hi, v, hv, hlv⟩ := each_last h2 hl
      rcases visit_last hv hlv with ⟨hm, hs⟩ | ⟨loc, g, u, hn, hu, hlu⟩
      · obtain ⟨g, hg⟩ := (visitInclude_ns _ _ _ _).1 hm
        obtain ⟨u, hu, e⟩ := hs l g ((visitInclude_next _ _ _ _).2 ⟨n, hg⟩)
        exact .inl (.inr ⟨i, hi, g, hg, (search_given hu n).1 e⟩)
      · exact down (.inr ⟨i, hi, (visitInclude_next _ _ _ _).1 hn⟩) (ih hu hlu)

theorem attrVal_same {x : List Attr} {n s s' : String} (h : AttrVal x n s) (h' : AttrVal x n s') : s = s' := by
  obtain ⟨a, ha, rfl⟩ := h
  obtain ⟨b, hb, rfl⟩ := h'
  rw [firstWith_unique ha hb]

theorem local_unique {env : FolderEnv L D} {loc : String} {f g : SchemaFile} (h : Local env loc f) (h' : Local env loc g) : f = g := by
  have := h.2.2
  rw [h'.2.2] at this
  exact (Option.some.inj this).symm

theorem search_makes {env : FolderEnv L D} {m : Nat} {f : SchemaFile} {c : List (Write L)} (h : RunsSearch env m f c) {n l : String}
    (hl : LastAt env f n l ∨ ∃ loc g, Below env f loc g ∧ LastAt env g n l) : ∃ c', RunsSearch env m f c' ∧ (given n c').getLast? = some l := by
  induction m generalizing f c with
  | zero => exact h.elim
  | succ m ih =>
    obtain ⟨a, b, h1, h2, _⟩ := h
    have imp : ∀ i ∈ f.imp, (∃ v, RunsVisit env (visitImport env i) (RunsSearch env m) v ∧ (given n v).getLast? = some l) →
        ∃ c', RunsSearch env (m + 1) f c' ∧ (given n c').getLast? = some l := by
      rintro i hi ⟨v, hv, hlv⟩
      obtain ⟨w, hw, hlw⟩ := each_makes h1 hi hv hlv
      exact ⟨b ++ w, ⟨w, b, hw, h2, merge_comm (merge_append b w)⟩, last_after hlw⟩
    have incl : ∀ i ∈ f.incl, (∃ v, RunsVisit env (visitInclude env i) (RunsSearch env m) v ∧ (given n v).getLast? = some l) →
        ∃ c', RunsSearch env (m + 1) f c' ∧ (given n c').getLast? = some l := by
      rintro i hi ⟨v, hv, hlv⟩
      obtain ⟨w, hw, hlw⟩ := each_makes h2 hi hv hlv
      exact ⟨a ++ w, ⟨a, w, h1, hw, merge_append a w⟩, last_after hlw⟩
    have subImp : ∀ i ∈ f.imp, ∀ loc g, (visitImport env i).next = some (loc, g) → ∃ u, RunsSearch env m g u := by
      intro i hi loc g hn
      obtain ⟨v, hv⟩ := each_mem h1 i hi
      unfold RunsVisit at hv
      rw [hn] at hv
      obtain ⟨u, _, _, hu, _⟩ := hv
      exact ⟨u, hu⟩
    have subIncl : ∀ i ∈ f.incl, ∀ loc g, (visitInclude env i).next = some (loc, g) → ∃ u, RunsSearch env m g u := by
      intro i hi loc g hn
      obtain ⟨v, hv⟩ := each_mem h2 i hi
      unfold RunsVisit at hv
      rw [hn] at hv
      obtain ⟨u, _, _, hu, _⟩ := hv
      exact ⟨u, hu⟩
    have down : ∀ loc g, Child env f loc g → (LastAt env g n l ∨ ∃ loc' g', Below env g loc' g' ∧ LastAt env g' n l) →
        ∃ c', RunsSearch env (m + 1) f c' ∧ (given n c').getLast? = some l := by
      rintro loc g (⟨i, hi, hc⟩ | ⟨i, hi, hc⟩) hg
      · have hn := (visitImport_next env i loc g).2 hc
        obtain ⟨u, hu⟩ := subImp i hi loc g hn
        obtain ⟨u', hu', hlu⟩ := ih hu hg
        exact imp i hi (visit_leads hn hu' hlu)
      · have hn := (visitInclude_next env i loc g).2 hc
        obtain ⟨u, hu⟩ := subIncl i hi loc g hn
        obtain ⟨u', hu', hlu⟩ := ih hu hg
        exact incl i hi (visit_leads hn hu' hlu)
    rcases hl with (⟨i, hi, hm, hg⟩ | ⟨i, hi, g, hm, hg⟩) | ⟨loc, g, hb, hg⟩
    · refine imp i hi (visit_gives (visitImport_single env i) ((visitImport_ns _ _ _ _).2 hm) fun loc g hn => ?_)
      obtain ⟨u, hu⟩ := subImp i hi loc g hn
      obtain ⟨n', hm', hloc⟩ := (visitImport_next _ _ _ _).1 hn
      have : loc = l := by
        have h1 := hm.2.2.2.1
        have h2 := hm'.2.2.2.1
        exact attrVal_same h2 h1
      subst this
      exact ⟨u, hu, (search_given hu n).2 (hg g hloc)⟩
    · refine incl i hi (visit_gives (visitInclude_single env i) ((visitInclude_ns _ _ _ _).2 ⟨g, hm⟩) fun loc k hn => ?_)
      obtain ⟨u, hu⟩ := subIncl i hi loc k hn
      obtain ⟨t, hm'⟩ := (visitInclude_next _ _ _ _).1 hn
      have : loc = l := attrVal_same hm'.2.1 hm.2.1
      subst this
      rw [local_unique hm.2.2.1 hm'.2.2.1] at hg
      exact ⟨u, hu, (search_given hu n).2 hg⟩
    · cases hb with
      | child _ _ _ hc => exact down loc g hc (.inl hg)
      | step _ l' k _ _ hc hb => exact down l' k hc (.inr ⟨loc, g, hb, hg⟩)

/-- Which locations a namespace may be given last. -/
theorem runs_last {env : FolderEnv L D} {fuel : Nat} {inst : InstanceFile} {ws : List (Write L)} (hw : schemaRef env fuel inst = some ws) (n l : String) :
    (∃ c, Runs env fuel inst c ∧ (given n c).getLast? = some l) ↔ Finally env inst n l := by
  constructor
  · rintro ⟨c, hc, hl⟩
    obtain ⟨i, hi, v, hv, hlv⟩ := each_last hc hl
    rcases visit_last hv hlv with ⟨hm, hs⟩ | ⟨loc, g, u, hn, hu, hlu⟩
    · obtain ⟨g, hg⟩ := (visitRef_ns _ _ _ _).1 hm
      obtain ⟨u, hu, e⟩ := hs l g ((visitRef_next _ _ _ _).2 ⟨n, hg⟩)
      exact .inl ⟨i, hi, g, hg, (search_given hu n).1 e⟩
    · have hr : Reach env inst loc g := .root _ _ ⟨i, hi, (visitRef_next _ _ _ _).1 hn⟩
      rcases search_last hu hlu with h | ⟨loc', g', hb, h⟩
      · exact .inr ⟨loc, g, hr, h⟩
      · exact .inr ⟨loc', g', reach_below hr hb, h⟩
  · have h0 := runs_id hw
    have subRef : ∀ i ∈ inst.schemaRef, ∀ loc g, (visitRef env i).next = some (loc, g) → ∃ u, RunsSearch env fuel g u := by
      intro i hi loc g hn
      obtain ⟨v, hv⟩ := each_mem h0 i hi
      unfold RunsVisit at hv
      rw [hn] at hv
      obtain ⟨u, _, _, hu, _⟩ := hv
      exact ⟨u, hu⟩
    have down : ∀ loc g, Root env inst loc g → (LastAt env g n l ∨ ∃ loc' g', Below env g loc' g' ∧ LastAt env g' n l) →
        ∃ c, Runs env fuel inst c ∧ (given n c).getLast? = some l := by
      rintro loc g ⟨i, hi, hc⟩ hg
      have hn := (visitRef_next env i loc g).2 hc
      obtain ⟨u, hu⟩ := subRef i hi loc g hn
      obtain ⟨u', hu', hlu⟩ := search_makes hu hg
      obtain ⟨v, hv, hlv⟩ := visit_leads hn hu' hlu
      exact each_makes h0 hi hv hlv
    rintro (⟨i, hi, g, hm, hg⟩ | ⟨loc, g, hr, hg⟩)
    · obtain ⟨v, hv, hlv⟩ := visit_gives (env := env) (visitRef_single env i) ((visitRef_ns _ _ _ _).2 ⟨g, hm⟩) (sub := RunsSearch env fuel) fun loc k hn => by
        obtain ⟨u, hu⟩ := subRef i hi loc k hn
        obtain ⟨t, hm'⟩ := (visitRef_next _ _ _ _).1 hn
        have : loc = l := attrVal_same hm'.2.1 hm.2.1
        subst this
        rw [local_unique hm.2.2.1 hm'.2.2.1] at hg
        exact ⟨u, hu, (search_given hu n).2 hg⟩
      exact each_makes h0 hi hv hlv
    · rcases reach_iff.1 hr with hr | ⟨l', f, hr, hb⟩
      · exact down loc g hr (.inl hg)
      · exact down l' f hr (.inr ⟨loc, g, hb, hg⟩)

/-- What the map has in the end. -/
theorem namespaces_last (n l : String) (c : List (Write L)) (fo : Folder L D) (h0 : fo.namespaces = []) :
    mapGet (c.foldl applyWrite fo).namespaces n = some l ↔ (given n c).getLast? = some l := by
  have key : ∀ (c : List (Write L)) (fo : Folder L D), mapGet (c.foldl applyWrite fo).namespaces n = ((given n c).getLast?).or (mapGet fo.namespaces n) := by
    intro c
    induction c with
    | nil => intro fo; rfl
    | cons w c ih =>
      intro fo
      rw [List.foldl_cons, ih]
      cases w with
      | ns k v =>
        by_cases e : k = n
        · have : given n (.ns k v :: c) = v :: given n c := by simp [given, e]
          rw [this]
          cases hg : given n c with
          | nil => simp [applyWrite, e]
          | cons y ys =>
            rw [List.getLast?_cons_cons, List.getLast?_eq_some_getLast (List.cons_ne_nil y ys)]
            rfl
        · have : given n (.ns k v :: c) = given n c := by simp [given, e]
          rw [this]
          congr 1
          simp only [applyWrite]
          rw [mapGet_mapSet, if_neg (fun h => e h)]
      | schema k f => rfl
      | link kind k f => rfl
  rw [key, h0]
  simp

end Telefacts.Disc
