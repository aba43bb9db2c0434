import Verif.Spec.Domain
import Verif.Proof.Network
/-! # Lemmas on effective domains -/
namespace Telefacts.Render
open Telefacts.Spec Telefacts.Linkbase

/-! ## Order -/

/-- What the order of members compares. -/
def effKey (m : EffectiveMember) : String × Nat :=
  (m.href, (if m.isDefault = true then 0 else 2) + (if m.isStrikethrough = true then 1 else 0))

theorem effectiveLess_key (a b : EffectiveMember) :
    effectiveLess a b = true ↔ Lexi (· < ·) (fun a b : Nat => a < b) (effKey a) (effKey b) := by
  unfold effectiveLess effKey Lexi
  by_cases h : a.href = b.href
  · cases ha : a.isDefault <;> cases hb : b.isDefault <;> cases hc : a.isStrikethrough <;> cases hd : b.isStrikethrough <;>
      simp [h, String.lt_irrefl]
  · simp [h]

theorem effectiveLess_iff (a b : EffectiveMember) : effectiveLess a b = true ↔ EffectiveBefore a b := by
  unfold effectiveLess EffectiveBefore
  by_cases h : a.href = b.href
  · cases ha : a.isDefault <;> cases hb : b.isDefault <;> cases hc : a.isStrikethrough <;> cases hd : b.isStrikethrough <;>
      simp [h, String.lt_irrefl]
  · simp [h]

theorem effectiveLess_weak : StrictWeak effectiveLess :=
  strictWeak_of_key (key := effKey) (strictTotal_string.lexi strictTotal_nat) effectiveLess_key

/-- Members with distinct keys are strictly sorted. -/
theorem effective_strict {l : List EffectiveMember} (h : (l.map effKey).Nodup) :
    (stableSort effectiveLess l).Pairwise EffectiveBefore := by
  have hs := stableSort_sorted effectiveLess_weak l
  have hn : ((stableSort effectiveLess l).map effKey).Nodup := (((stableSort_perm effectiveLess l)).map effKey).nodup_iff.2 h
  unfold SortedBy at hs
  rw [List.Nodup, List.pairwise_map] at hn
  refine (hs.and hn).imp ?_
  rintro a b ⟨h1, h2⟩
  rw [← effectiveLess_iff, effectiveLess_key]
  rcases (strictTotal_string.lexi strictTotal_nat).tri (effKey a) (effKey b) with h3 | h3 | h3
  · exact h3
  · exact absurd h3 h2
  · rw [← effectiveLess_key, h1] at h3; cases h3

/-! ## The invariant of a phase -/

structure DInv (Q : EffectiveMember → Prop) (flags : List (Bool × Bool)) (d s : Bool) (st : DomainState) : Prop where
  nodup : (st.ret.map effKey).Nodup
  sound : ∀ m ∈ st.ret, Q m
  allowed : ∀ m ∈ st.ret, (m.isDefault, m.isStrikethrough) ∈ flags
  seen : ∀ m ∈ st.ret, m.isDefault = d → m.isStrikethrough = s → m.href ∈ st.seen
  flag : (d, s) ∈ flags

variable {Q : EffectiveMember → Prop} {flags : List (Bool × Bool)} {d s : Bool} {st st' : DomainState} {w : Networks}

theorem effKey_inj {a b : EffectiveMember} (h : effKey a = effKey b) :
    a.href = b.href ∧ a.isDefault = b.isDefault ∧ a.isStrikethrough = b.isStrikethrough := by
  unfold effKey at h
  rw [Prod.mk.injEq] at h
  obtain ⟨h1, h2⟩ := h
  refine ⟨h1, ?_⟩
  cases ha : a.isDefault <;> cases hb : b.isDefault <;> cases hc : a.isStrikethrough <;> cases hd : b.isStrikethrough <;>
    simp [ha, hb, hc, hd] at h2 ⊢

theorem DInv.add (h : DInv Q flags d s st) {m : EffectiveMember} (packs : List LabelPack) (hd : m.isDefault = d)
    (hs : m.isStrikethrough = s) (hq : Q m) (hn : m.href ∉ st.seen) : DInv Q flags d s ⟨st.ret ++ [m], packs, m.href :: st.seen⟩ := by
  refine ⟨?_, ?_, ?_, ?_, h.flag⟩
  · simp only [List.map_append, List.map_cons, List.map_nil]
    rw [List.nodup_append]
    refine ⟨h.nodup, by simp, ?_⟩
    intro a ha b hb e
    rw [List.mem_singleton.1 hb] at e
    obtain ⟨x, hx, rfl⟩ := List.mem_map.1 ha
    obtain ⟨e1, e2, e3⟩ := effKey_inj e
    exact hn (e1 ▸ h.seen x hx (e2.trans hd) (e3.trans hs))
  · intro x hx
    rcases List.mem_append.1 hx with hx | hx
    · exact h.sound x hx
    · rw [List.mem_singleton.1 hx]; exact hq
  · intro x hx
    rcases List.mem_append.1 hx with hx | hx
    · exact h.allowed x hx
    · rw [List.mem_singleton.1 hx, hd, hs]; exact h.flag
  · intro x hx h1 h2
    rcases List.mem_append.1 hx with hx | hx
    · exact List.mem_cons_of_mem _ (h.seen x hx h1 h2)
    · rw [List.mem_singleton.1 hx]; exact List.mem_cons_self ..

theorem DInv.reset (h : DInv Q flags d s st) : DInv Q flags d s ⟨[], [], st.seen⟩ :=
  ⟨by simp, by simp, by simp, by simp, h.flag⟩

theorem DInv.switch (h : DInv Q flags d s st) (d' s' : Bool) (hf : (d', s') ∉ flags) :
    DInv Q ((d', s') :: flags) d' s' { st with seen := [] } := by
  refine ⟨h.nodup, h.sound, fun m hm => List.mem_cons_of_mem _ (h.allowed m hm), ?_, List.mem_cons_self ..⟩
  intro m hm h1 h2
  have := h.allowed m hm
  rw [h1, h2] at this
  exact absurd this hf

theorem addDefaults_inv (ns : List Node) (hq : ∀ n ∈ ns, Q ⟨w.href n, w.label (w.href n), true, s⟩) :
    ∀ st st', DInv Q flags true s st → addDefaults w s ns st = some st' → DInv Q flags true s st' := by
  induction ns with
  | nil => intro st st' h e; cases e; exact h
  | cons n ns ih =>
    intro st st' h e
    rw [addDefaults] at e
    split at e
    · cases e
    · rename_i hn
      exact ih (fun x hx => hq x (List.mem_cons_of_mem _ hx)) _ _
        (h.add _ rfl rfl (hq n (List.mem_cons_self ..)) (by simpa using hn)) e

theorem includeDefaults_inv (dim : String) (ns : List Node)
    (hq : ∀ n ∈ ns, w.href n = dim → ∀ c ∈ n.children, Q ⟨w.href c, w.label (w.href c), true, false⟩) :
    ∀ st st', DInv Q flags true false st → includeDefaults w dim ns st = some st' → DInv Q flags true false st' := by
  induction ns with
  | nil => intro st st' h e; cases e; exact h
  | cons n ns ih =>
    intro st st' h e
    have ih := ih (fun x hx => hq x (List.mem_cons_of_mem _ hx))
    rw [includeDefaults] at e
    split at e
    · exact ih _ _ h e
    · rename_i hn
      obtain ⟨st1, h1, h2⟩ := Option.bind_eq_some_iff.1 e
      exact ih _ _ (addDefaults_inv n.children (hq n (List.mem_cons_self ..) (by simpa using hn)) _ _ h h1) h2

theorem includeCubes_inv (dim : String) (ds : List Node)
    (hq : ds ≠ [] → ∀ n ∈ w.dimensionDefault, w.href n = dim → ∀ c ∈ n.children, Q ⟨w.href c, w.label (w.href c), true, false⟩) :
    ∀ st st', DInv Q flags true false st → includeCubes w dim ds st = some st' → DInv Q flags true false st' := by
  induction ds with
  | nil => intro st st' h e; cases e; exact h
  | cons n ns ih =>
    intro st st' h e
    have hq' := hq (by simp)
    rw [includeCubes] at e
    obtain ⟨st1, h1, h2⟩ := Option.bind_eq_some_iff.1 e
    exact ih (fun _ => hq') _ _ (includeDefaults_inv dim _ hq' _ _ h h1) h2

theorem excludeDefaults_inv (ns : List Node)
    (hq : ∀ n ∈ ns, ∀ c ∈ n.children, Q ⟨w.href c, w.label (w.href c), true, true⟩) :
    ∀ st st', DInv Q flags true true st → excludeDefaults w ns st = some st' → DInv Q flags true true st' := by
  induction ns with
  | nil => intro st st' h e; cases e; exact h
  | cons n ns ih =>
    intro st st' h e
    have ih := ih (fun x hx => hq x (List.mem_cons_of_mem _ hx))
    rw [excludeDefaults] at e
    split at e
    · exact ih _ _ h e
    · obtain ⟨st1, h1, h2⟩ := Option.bind_eq_some_iff.1 e
      exact ih _ _ (addDefaults_inv n.children (hq n (List.mem_cons_self ..)) _ _ h h1) h2

theorem excludeCubes_inv (ds : List Node)
    (hq : ds ≠ [] → ∀ n ∈ w.dimensionDefault, ∀ c ∈ n.children, Q ⟨w.href c, w.label (w.href c), true, true⟩) :
    ∀ st st', DInv Q flags true true st → excludeCubes w ds st = some st' → DInv Q flags true true st' := by
  induction ds with
  | nil => intro st st' h e; cases e; exact h
  | cons n ns ih =>
    intro st st' h e
    have hq' := hq (by simp)
    rw [excludeCubes] at e
    obtain ⟨st1, h1, h2⟩ := Option.bind_eq_some_iff.1 e
    exact ih (fun _ => hq') _ _ (excludeDefaults_inv _ hq' _ _ h h1) h2


mutual
theorem traverse_inv : ∀ (n : Node) (_ : Q ⟨w.href n, w.label (w.href n), false, s⟩)
    (_ : ∀ x, Below n x → Q ⟨w.href x, w.label (w.href x), false, s⟩) (st : DomainState),
    DInv Q flags false s st → DInv Q flags false s (traverse w s n st)
  | .mk l o cs, hq, hb, st, h => by
    rw [traverse]
    split
    · exact h.reset
    · rename_i hn
      exact traverseAll_inv cs (fun c hc => ⟨hb c (.child l o cs c hc), fun x hx => hb x (.deeper l o cs c x hc hx)⟩) _
        (h.add _ rfl rfl hq (by simpa using hn))
theorem traverseAll_inv : ∀ (ns : List Node)
    (_ : ∀ n ∈ ns, Q ⟨w.href n, w.label (w.href n), false, s⟩ ∧ ∀ x, Below n x → Q ⟨w.href x, w.label (w.href x), false, s⟩)
    (st : DomainState), DInv Q flags false s st → DInv Q flags false s (traverseAll w s ns st)
  | [], _, _, h => by rw [traverseAll]; exact h
  | n :: ns, hq, st, h => by
    rw [traverseAll]
    exact traverseAll_inv ns (fun x hx => hq x (List.mem_cons_of_mem _ hx)) _
      (traverse_inv n (hq n (List.mem_cons_self ..)).1 (hq n (List.mem_cons_self ..)).2 st h)
end

theorem traversals_inv (us : List Unit)
    (hq : us ≠ [] → ∀ n ∈ w.explicitDomain, Q ⟨w.href n, w.label (w.href n), false, s⟩ ∧
      ∀ x, Below n x → Q ⟨w.href x, w.label (w.href x), false, s⟩) :
    ∀ st, DInv Q flags false s st → DInv Q flags false s (us.foldl (fun st _ => traverseAll w s w.explicitDomain st) st) := by
  induction us with
  | nil => intro st h; exact h
  | cons u us ih =>
    intro st h
    exact ih (fun _ => hq (by simp)) _ (traverseAll_inv _ (hq (by simp)) _ h)

/-! ## Which hypercubes and how often -/

theorem mem_cubes (w : Networks) (net : List Node) (primary dim cube : String) :
    cube ∈ cubes w net primary dim ↔ HasCube w net primary dim cube := by
  unfold cubes HasCube
  simp only [List.mem_flatMap]
  constructor
  · rintro ⟨n, hn, h⟩
    split at h
    · rename_i h1
      simp only [List.mem_flatMap] at h
      obtain ⟨c, hc, d, hd, h⟩ := h
      split at h
      · rename_i h2
        simp only [List.mem_flatMap] at h
        obtain ⟨x, hx, h⟩ := h
        split at h
        · rename_i h3
          have e := List.mem_singleton.1 h
          exact ⟨n, hn, h1.symm, c, hc, e.symm, d, hd, h2.symm.trans e.symm, x, hx, h3.symm⟩
        · cases h
      · cases h
    · cases h
  · rintro ⟨n, hn, h1, c, hc, h2, d, hd, h3, x, hx, h4⟩
    refine ⟨n, hn, ?_⟩
    rw [if_pos h1.symm]
    simp only [List.mem_flatMap]
    refine ⟨c, hc, d, hd, ?_⟩
    rw [if_pos (h2.trans h3.symm)]
    simp only [List.mem_flatMap]
    exact ⟨x, hx, by rw [if_pos h4.symm, h2]; exact List.mem_singleton.2 rfl⟩

theorem mem_cubeNodes (w : Networks) (hrefs : List String) (d : Node) :
    d ∈ cubeNodes w hrefs ↔ d ∈ w.hypercubeDimension ∧ w.href d ∈ hrefs := by
  unfold cubeNodes
  simp only [List.mem_flatMap]
  constructor
  · rintro ⟨x, hx, i, hi, h⟩
    split at h
    · rename_i h1
      have e := List.mem_singleton.1 h
      subst e
      exact ⟨hx, h1 ▸ hi⟩
    · cases h
  · rintro ⟨h1, h2⟩
    exact ⟨d, h1, w.href d, h2, by simp⟩

theorem cubeNodes_ne_nil (hrefs : List String) (h : cubeNodes w hrefs ≠ []) : ∃ c, c ∈ hrefs := by
  obtain ⟨d, hd⟩ := List.exists_mem_of_ne_nil _ h
  exact ⟨_, ((mem_cubeNodes w hrefs d).1 hd).2⟩

theorem traversals_ne_nil (hrefs : List String) (dim : String) (h : traversals w hrefs dim ≠ []) :
    (∃ c, c ∈ hrefs) ∧ HasDomain w dim := by
  obtain ⟨u, hu⟩ := List.exists_mem_of_ne_nil _ h
  unfold traversals at hu
  simp only [List.mem_flatMap] at hu
  obtain ⟨d, hd, x, hx, h⟩ := hu
  split at h
  · cases h
  · rename_i h1
    simp only [List.mem_flatMap] at h
    obtain ⟨r, hr, h⟩ := h
    split at h
    · cases h
    · rename_i h2
      simp only [ne_eq, not_not] at h1 h2
      exact ⟨⟨_, ((mem_cubeNodes w hrefs d).1 hd).2⟩, r, hr, (h1.trans h2).symm⟩

/-- The result of `getEffectiveDomain`: empty, or what the four phases list. -/
theorem getEffectiveDomain_cases (w : Networks) (primary dim : String) :
    ((getEffectiveDomain w primary dim).1 = []) ∨
    ((¬ ∃ c, HasCube w w.inclusive primary dim c ∧ HasCube w w.exclusive primary dim c) ∧
      ∃ st, DInv (Listed w primary dim) [(false, true), (false, false), (true, true), (true, false)] false true st ∧
        (getEffectiveDomain w primary dim).1 = stableSort effectiveLess st.ret) := by
  unfold getEffectiveDomain
  simp only
  split
  · exact .inl rfl
  · rename_i hconf
    have hconf : ¬ ∃ c, HasCube w w.inclusive primary dim c ∧ HasCube w w.exclusive primary dim c := by
      rintro ⟨c, h1, h2⟩
      apply hconf
      rw [List.any_eq_true]
      refine ⟨c, (mem_cubes ..).2 h1, ?_⟩
      rw [List.any_eq_true]
      exact ⟨c, (mem_cubes ..).2 h2, by simp⟩
    split
    · exact .inl rfl
    · rename_i st1 e1
      split
      · exact .inl rfl
      · rename_i st2 e2
        refine .inr ⟨hconf, _, ?_, rfl⟩
        have i0 : DInv (Listed w primary dim) [(true, false)] true false ⟨[], [], []⟩ :=
          ⟨by simp, by simp, by simp, by simp, by simp⟩
        have i1 := includeCubes_inv dim _ (by
          intro hne n hn h1 c hc
          obtain ⟨cube, hcube⟩ := cubeNodes_ne_nil _ hne
          refine ⟨rfl, ?_, ?_, by simp⟩
          · simpa using ⟨cube, (mem_cubes ..).1 hcube⟩
          · simpa using ⟨n, hn, h1, c, hc, rfl⟩) _ _ i0 e1
        have i2 := excludeCubes_inv _ (by
          intro hne n hn c hc
          obtain ⟨cube, hcube⟩ := cubeNodes_ne_nil _ hne
          refine ⟨rfl, ?_, ?_, by simp⟩
          · simpa using ⟨cube, (mem_cubes ..).1 hcube⟩
          · simpa using ⟨_, n, hn, rfl, c, hc, rfl⟩) _ _ (i1.switch true true (by decide)) e2
        have member : ∀ (net : List Node) (str : Bool),
            (if str = true then net = w.exclusive else net = w.inclusive) →
            traversals w (cubes w net primary dim) dim ≠ [] →
            ∀ n ∈ w.explicitDomain, Listed w primary dim ⟨w.href n, w.label (w.href n), false, str⟩ ∧
              ∀ x, Below n x → Listed w primary dim ⟨w.href x, w.label (w.href x), false, str⟩ := by
          intro net str hnet hne n hn
          obtain ⟨⟨cube, hcube⟩, hdom⟩ := traversals_ne_nil _ _ hne
          have hcube := (mem_cubes ..).1 hcube
          have hc : if str = true then ∃ cube, HasCube w w.exclusive primary dim cube
              else ∃ cube, HasCube w w.inclusive primary dim cube := by
            cases str
            · simp only [Bool.false_eq_true, if_false] at hnet ⊢
              exact ⟨cube, hnet ▸ hcube⟩
            · simp only [if_true] at hnet ⊢
              exact ⟨cube, hnet ▸ hcube⟩
          exact ⟨⟨rfl, hc, by simp, fun _ => ⟨hdom, n, hn, .inl rfl⟩⟩,
            fun x hx => ⟨rfl, hc, by simp, fun _ => ⟨hdom, n, hn, .inr ⟨x, hx, rfl⟩⟩⟩⟩
        have i3 := traversals_inv _ (member w.inclusive false (by simp)) _ (i2.switch false false (by decide))
        exact traversals_inv _ (member w.exclusive true (by simp)) _ (i3.switch false true (by decide))

/-! ## What is listed when nothing is listed twice -/

theorem flatMap_pick {α β K : Type} [DecidableEq K] (k : α → K) (g : α → List β) (key : K) :
    ∀ (l : List α), (l.map k).Nodup → ∀ n ∈ l, k n = key → l.flatMap (fun n => if key = k n then g n else []) = g n
  | [], _, n, hn, _ => by cases hn
  | x :: xs, hnd, n, hn, hk => by
    rw [List.map_cons, List.nodup_cons] at hnd
    rw [List.flatMap_cons]
    rcases List.mem_cons.1 hn with rfl | hn
    · rw [if_pos hk.symm, List.flatMap_eq_nil_iff.2, List.append_nil]
      intro y hy
      rw [if_neg]
      intro e
      exact hnd.1 (hk.trans e ▸ List.mem_map_of_mem hy)
    · rw [if_neg, List.nil_append, flatMap_pick k g key xs hnd.2 n hn hk]
      intro e
      exact hnd.1 (e.symm.trans hk.symm ▸ List.mem_map_of_mem hn)

theorem flatMap_pick_none {α β K : Type} [DecidableEq K] (k : α → K) (g : α → List β) (key : K) (l : List α)
    (h : ¬ ∃ n ∈ l, k n = key) : l.flatMap (fun n => if key = k n then g n else []) = [] := by
  rw [List.flatMap_eq_nil_iff]
  intro n hn
  rw [if_neg]
  intro e
  exact h ⟨n, hn, e.symm⟩

/-- The inner loops of `cubes` give the hypercube at most once. -/
theorem cubes_inner (hd : Distinct w w.hypercubeDimension) (dim h : String) :
    w.hypercubeDimension.flatMap (fun d => if h = w.href d then
      d.children.flatMap fun x => if dim = w.href x then [h] else [] else []) = [] ∨
    w.hypercubeDimension.flatMap (fun d => if h = w.href d then
      d.children.flatMap fun x => if dim = w.href x then [h] else [] else []) = [h] := by
  by_cases h1 : ∃ d ∈ w.hypercubeDimension, w.href d = h
  · obtain ⟨d, hd1, hd2⟩ := h1
    rw [flatMap_pick w.href _ h _ hd.roots d hd1 hd2]
    by_cases h2 : ∃ x ∈ d.children, w.href x = dim
    · obtain ⟨x, hx1, hx2⟩ := h2
      exact .inr (flatMap_pick w.href (fun _ => [h]) dim _ (hd.kids d hd1) x hx1 hx2)
    · exact .inl (flatMap_pick_none w.href (fun _ => [h]) dim _ h2)
  · exact .inl (flatMap_pick_none w.href _ h _ h1)

theorem nodup_cubes {net : List Node} (hn : Distinct w net) (hd : Distinct w w.hypercubeDimension) (primary dim : String) :
    (cubes w net primary dim).Nodup := by
  unfold cubes
  by_cases h1 : ∃ n ∈ net, w.href n = primary
  · obtain ⟨n, hn1, hn2⟩ := h1
    rw [flatMap_pick w.href _ primary _ hn.roots n hn1 hn2, List.nodup_flatMap]
    constructor
    · intro c _
      rcases cubes_inner hd dim (w.href c) with h | h <;> rw [h] <;> simp
    · have := hn.kids n hn1
      rw [List.Nodup, List.pairwise_map] at this
      refine this.imp ?_
      intro a b hab
      rcases cubes_inner hd dim (w.href a) with h | h <;> rcases cubes_inner hd dim (w.href b) with h' | h' <;>
        simp [Function.onFun, h, h', Ne.symm hab]
  · rw [flatMap_pick_none w.href _ primary _ h1]
    exact List.nodup_nil

theorem nodup_all_eq {α : Type} {l : List α} (hn : l.Nodup) (h : ∀ a ∈ l, ∀ b ∈ l, a = b) : l = [] ∨ ∃ a, l = [a] := by
  match l with
  | [] => exact .inl rfl
  | [a] => exact .inr ⟨a, rfl⟩
  | a :: b :: l =>
    have e := h a (by simp) b (by simp)
    subst e
    simp at hn

theorem addDefaults_ok (s : Bool) (ns : List Node) : ∀ st : DomainState, (ns.map w.href).Nodup →
    (∀ n ∈ ns, w.href n ∉ st.seen) → ∃ st', addDefaults w s ns st = some st' ∧ st.ret ⊆ st'.ret ∧
      (∀ n ∈ ns, ⟨w.href n, w.label (w.href n), true, s⟩ ∈ st'.ret) ∧
      ∀ h ∈ st'.seen, h ∈ st.seen ∨ h ∈ ns.map w.href := by
  induction ns with
  | nil => intro st _ _; exact ⟨st, rfl, fun _ h => h, by simp, fun h hh => .inl hh⟩
  | cons n ns ih =>
    intro st hnd hs
    rw [List.map_cons, List.nodup_cons] at hnd
    obtain ⟨st', e, h1, h2, h3⟩ := ih ⟨st.ret ++ [⟨w.href n, w.label (w.href n), true, s⟩], st.packs ++ [w.label (w.href n)],
      w.href n :: st.seen⟩ hnd.2 (by
        intro x hx hm
        rcases List.mem_cons.1 hm with hm | hm
        · exact hnd.1 (hm ▸ List.mem_map_of_mem hx)
        · exact hs x (List.mem_cons_of_mem _ hx) hm)
    refine ⟨st', ?_, ?_, ?_, ?_⟩
    · rw [addDefaults, if_neg (by simpa using hs n (List.mem_cons_self ..))]
      exact e
    · intro m hm
      exact h1 (List.mem_append_left _ hm)
    · intro x hx
      rcases List.mem_cons.1 hx with rfl | hx
      · exact h1 (List.mem_append_right _ (List.mem_singleton.2 rfl))
      · exact h2 x hx
    · intro h hh
      rcases h3 h hh with h4 | h4
      · rcases List.mem_cons.1 h4 with h4 | h4
        · exact .inr (by rw [h4]; exact List.mem_cons_self ..)
        · exact .inl h4
      · exact .inr (List.mem_cons_of_mem _ h4)

theorem includeDefaults_ok (dim : String) (ns : List Node) : ∀ st : DomainState,
    (ns.flatMap fun n => n.children.map w.href).Nodup →
    (∀ n ∈ ns, ∀ c ∈ n.children, w.href c ∉ st.seen) → ∃ st', includeDefaults w dim ns st = some st' ∧ st.ret ⊆ st'.ret ∧
      (∀ n ∈ ns, w.href n = dim → ∀ c ∈ n.children, ⟨w.href c, w.label (w.href c), true, false⟩ ∈ st'.ret) := by
  induction ns with
  | nil => intro st _ _; exact ⟨st, rfl, fun _ h => h, by simp⟩
  | cons n ns ih =>
    intro st hnd hs
    rw [List.flatMap_cons, List.nodup_append] at hnd
    obtain ⟨hn1, hn2, hn3⟩ := hnd
    rw [includeDefaults]
    split
    · rename_i hne
      obtain ⟨st', e, h1, h2⟩ := ih st hn2 (fun x hx => hs x (List.mem_cons_of_mem _ hx))
      refine ⟨st', e, h1, ?_⟩
      intro x hx hd
      rcases List.mem_cons.1 hx with rfl | hx
      · exact absurd hd hne
      · exact h2 x hx hd
    · obtain ⟨st1, e1, h1, h2, h3⟩ := addDefaults_ok false n.children st hn1 (hs n (List.mem_cons_self ..))
      obtain ⟨st', e, h4, h5⟩ := ih st1 hn2 (by
        intro x hx c hc hm
        rcases h3 _ hm with h | h
        · exact hs x (List.mem_cons_of_mem _ hx) c hc h
        · exact hn3 _ h _ (List.mem_flatMap.2 ⟨x, hx, List.mem_map_of_mem hc⟩) rfl)
      refine ⟨st', by rw [e1]; exact e, fun m hm => h4 (h1 hm), ?_⟩
      intro x hx hd c hc
      rcases List.mem_cons.1 hx with rfl | hx
      · exact h4 (h2 c hc)
      · exact h5 x hx hd c hc

theorem excludeDefaults_ok (ns : List Node) : ∀ st : DomainState,
    (ns.flatMap fun n => n.children.map w.href).Nodup →
    (∀ n ∈ ns, ∀ x ∈ ns, ∀ c ∈ x.children, w.href n ≠ w.href c) → (∀ n ∈ ns, w.href n ∉ st.seen) →
    (∀ n ∈ ns, ∀ c ∈ n.children, w.href c ∉ st.seen) → ∃ st', excludeDefaults w ns st = some st' ∧ st.ret ⊆ st'.ret ∧
      (∀ n ∈ ns, ∀ c ∈ n.children, ⟨w.href c, w.label (w.href c), true, true⟩ ∈ st'.ret) := by
  induction ns with
  | nil => intro st _ _ _ _; exact ⟨st, rfl, fun _ h => h, by simp⟩
  | cons n ns ih =>
    intro st hnd ha hr hs
    rw [List.flatMap_cons, List.nodup_append] at hnd
    obtain ⟨hn1, hn2, hn3⟩ := hnd
    rw [excludeDefaults, if_neg (by simpa using hr n (List.mem_cons_self ..))]
    obtain ⟨st1, e1, h1, h2, h3⟩ := addDefaults_ok true n.children st hn1 (hs n (List.mem_cons_self ..))
    obtain ⟨st', e, h4, h5⟩ := ih st1 hn2
      (fun a ha' b hb => ha a (List.mem_cons_of_mem _ ha') b (List.mem_cons_of_mem _ hb))
      (by
        intro x hx hm
        rcases h3 _ hm with h | h
        · exact hr x (List.mem_cons_of_mem _ hx) h
        · obtain ⟨c, hc, e⟩ := List.mem_map.1 h
          exact ha x (List.mem_cons_of_mem _ hx) n (List.mem_cons_self ..) c hc e.symm)
      (by
        intro x hx c hc hm
        rcases h3 _ hm with h | h
        · exact hs x (List.mem_cons_of_mem _ hx) c hc h
        · exact hn3 _ h _ (List.mem_flatMap.2 ⟨x, hx, List.mem_map_of_mem hc⟩) rfl)
    refine ⟨st', by rw [e1]; exact e, fun m hm => h4 (h1 hm), ?_⟩
    intro x hx c hc
    rcases List.mem_cons.1 hx with rfl | hx
    · exact h4 (h2 c hc)
    · exact h5 x hx c hc

mutual
theorem traverse_ok (s : Bool) : ∀ (n : Node) (k : Nat) (st : DomainState), (walkNode (fun l _ => w.loc l) k n).Nodup →
    (∀ h ∈ walkNode (fun l _ => w.loc l) k n, h ∉ st.seen) →
    st.ret ⊆ (traverse w s n st).ret ∧
    (∀ h ∈ walkNode (fun l _ => w.loc l) k n, ⟨h, w.label h, false, s⟩ ∈ (traverse w s n st).ret) ∧
    (∀ h ∈ (traverse w s n st).seen, h ∈ st.seen ∨ h ∈ walkNode (fun l _ => w.loc l) k n)
  | .mk l o cs, k, st, hnd, hs => by
    rw [walkNode] at hnd hs ⊢
    rw [List.nodup_cons] at hnd
    rw [traverse, if_neg (by simpa using hs _ (List.mem_cons_self ..))]
    obtain ⟨h1, h2, h3⟩ := traverseAll_ok s cs (k + 1) ⟨st.ret ++ [⟨w.loc l, w.label (w.loc l), false, s⟩], st.packs,
      w.loc l :: st.seen⟩ hnd.2 (by
        intro h hh hm
        rcases List.mem_cons.1 hm with hm | hm
        · exact hnd.1 (hm ▸ hh)
        · exact hs h (List.mem_cons_of_mem _ hh) hm)
    refine ⟨fun m hm => h1 (List.mem_append_left _ hm), ?_, ?_⟩
    · intro h hh
      rcases List.mem_cons.1 hh with rfl | hh
      · exact h1 (List.mem_append_right _ (List.mem_singleton.2 rfl))
      · exact h2 h hh
    · intro h hh
      rcases h3 h hh with h4 | h4
      · rcases List.mem_cons.1 h4 with h4 | h4
        · exact .inr (by rw [h4]; exact List.mem_cons_self ..)
        · exact .inl h4
      · exact .inr (List.mem_cons_of_mem _ h4)
theorem traverseAll_ok (s : Bool) : ∀ (ns : List Node) (k : Nat) (st : DomainState), (walkNodes (fun l _ => w.loc l) k ns).Nodup →
    (∀ h ∈ walkNodes (fun l _ => w.loc l) k ns, h ∉ st.seen) →
    st.ret ⊆ (traverseAll w s ns st).ret ∧
    (∀ h ∈ walkNodes (fun l _ => w.loc l) k ns, ⟨h, w.label h, false, s⟩ ∈ (traverseAll w s ns st).ret) ∧
    (∀ h ∈ (traverseAll w s ns st).seen, h ∈ st.seen ∨ h ∈ walkNodes (fun l _ => w.loc l) k ns)
  | [], k, st, _, _ => by
    rw [walkNodes, traverseAll]
    exact ⟨fun _ h => h, by simp, fun h hh => .inl hh⟩
  | n :: ns, k, st, hnd, hs => by
    rw [walkNodes] at hnd hs ⊢
    rw [traverseAll]
    rw [List.nodup_append] at hnd
    obtain ⟨hn1, hn2, hn3⟩ := hnd
    obtain ⟨a1, a2, a3⟩ := traverse_ok s n k st hn1 (fun h hh => hs h (List.mem_append_left _ hh))
    obtain ⟨b1, b2, b3⟩ := traverseAll_ok s ns k (traverse w s n st) hn2 (by
      intro h hh hm
      rcases a3 h hm with h4 | h4
      · exact hs h (List.mem_append_right _ hh) h4
      · exact hn3 _ h4 _ hh rfl)
    refine ⟨fun m hm => b1 (a1 hm), ?_, ?_⟩
    · intro h hh
      rcases List.mem_append.1 hh with hh | hh
      · exact b1 (a2 h hh)
      · exact b2 h hh
    · intro h hh
      rcases b3 h hh with h4 | h4
      · rcases a3 h h4 with h4 | h4
        · exact .inl h4
        · exact .inr (List.mem_append_left _ h4)
      · exact .inr (List.mem_append_right _ h4)
end

mutual
theorem mem_walkNode (w : Networks) : ∀ (n : Node) (k : Nat) (x : Node), (x = n ∨ Below n x) →
    w.href x ∈ walkNode (fun l _ => w.loc l) k n
  | .mk l o cs, k, x, h => by
    rw [walkNode]
    rcases h with rfl | h
    · exact List.mem_cons_self ..
    · cases h with
      | child _ _ _ _ hc => exact List.mem_cons_of_mem _ (mem_walkNodes w cs (k + 1) x hc x (.inl rfl))
      | deeper _ _ _ c _ hc hb => exact List.mem_cons_of_mem _ (mem_walkNodes w cs (k + 1) c hc x (.inr hb))
theorem mem_walkNodes (w : Networks) : ∀ (ns : List Node) (k : Nat) (n : Node), n ∈ ns → ∀ x, (x = n ∨ Below n x) →
    w.href x ∈ walkNodes (fun l _ => w.loc l) k ns
  | [], _, _, hn, _, _ => by cases hn
  | m :: ms, k, n, hn, x, hx => by
    rw [walkNodes]
    rcases List.mem_cons.1 hn with e | hn
    · exact List.mem_append_left _ (mem_walkNode w m k x (e ▸ hx))
    · exact List.mem_append_right _ (mem_walkNodes w ms k n hn x hx)
end

/-- The hrefs of some trees, in pre-order. -/
def hrefsBelow (w : Networks) (ns : List Node) : List String := walkNodes (fun l _ => w.loc l) 0 ns

mutual
theorem hrefsOf_node (w : Networks) : ∀ (n : Node) (k : Nat) (rest : List Node) (after : List String), HrefsOf w rest after →
    HrefsOf w (n :: rest) (walkNode (fun l _ => w.loc l) k n ++ after)
  | .mk l o cs, k, rest, after, h => by
    rw [walkNode]
    exact .cons l o cs rest _ after (hrefsOf_nodes w cs (k + 1)) h
theorem hrefsOf_nodes (w : Networks) : ∀ (ns : List Node) (k : Nat), HrefsOf w ns (walkNodes (fun l _ => w.loc l) k ns)
  | [], _ => by rw [walkNodes]; exact .nil
  | n :: ns, k => by
    rw [walkNodes]
    exact hrefsOf_node w n k ns _ (hrefsOf_nodes w ns k)
end

theorem hrefsOf_below (w : Networks) (ns : List Node) : HrefsOf w ns (hrefsBelow w ns) := hrefsOf_nodes w ns 0

theorem hrefsOf_unique {w : Networks} {ns : List Node} {l l' : List String} (h : HrefsOf w ns l) (h' : HrefsOf w ns l') : l = l' := by
  induction h generalizing l' with
  | nil => cases h'; rfl
  | cons l o cs rest b a _ _ ih1 ih2 =>
    cases h' with
    | cons _ _ _ _ b' a' h1 h2 => rw [ih1 h1, ih2 h2]

theorem mem_hrefsBelow {m : String} (h : DomainMember w m) : m ∈ hrefsBelow w w.explicitDomain := by
  obtain ⟨t, ht, h | ⟨x, hx, h⟩⟩ := h
  · exact h ▸ mem_walkNodes w _ 0 t ht t (.inl rfl)
  · exact h ▸ mem_walkNodes w _ 0 t ht x (.inr hx)

/-- With one hypercube, the loops around the traversal run it once. -/
theorem cubeNodes_one (hd : Distinct w w.hypercubeDimension) {net : List Node} {primary dim c : String}
    (h : HasCube w net primary dim c) : ∃ d ∈ w.hypercubeDimension, cubeNodes w [c] = [d] ∧ ∃ x ∈ d.children, w.href x = dim := by
  obtain ⟨_, _, _, _, _, _, d, hd1, hd2, x, hx1, hx2⟩ := h
  refine ⟨d, hd1, ?_, x, hx1, hx2⟩
  unfold cubeNodes
  have e : (fun d => [c].flatMap fun i => if i = w.href d then [d] else []) = fun d => if c = w.href d then [d] else [] := by
    funext d
    simp
  rw [e]
  exact flatMap_pick w.href (fun d => [d]) c _ hd.roots d hd1 hd2

theorem traversals_one (hd : Distinct w w.hypercubeDimension) (hr : (w.dimensionDomain.map w.href).Nodup) {net : List Node}
    {primary dim c : String} (h : HasCube w net primary dim c) (hdom : HasDomain w dim) : traversals w [c] dim = [()] := by
  obtain ⟨d, hd1, e, x, hx1, hx2⟩ := cubeNodes_one hd h
  unfold traversals
  rw [e, List.flatMap_singleton]
  have e1 : ∀ x : Node, (if dim ≠ w.href x then ([] : List Unit) else
      w.dimensionDomain.flatMap fun r => if w.href x ≠ w.href r then [] else [()]) =
      if dim = w.href x then (w.dimensionDomain.flatMap fun r => if dim = w.href r then [()] else []) else [] := by
    intro x
    by_cases hx : dim = w.href x
    · simp only [hx, ne_eq, not_true, if_false, if_true]
      congr 1
      funext r
      by_cases hr : w.href x = w.href r <;> simp [hr]
    · simp [hx]
  rw [funext e1, flatMap_pick w.href _ dim _ (hd.kids d hd1) x hx1 hx2]
  obtain ⟨r, hr1, hr2⟩ := hdom
  exact flatMap_pick w.href (fun _ => [()]) dim _ hr r hr1 hr2

/-- The walk of a tree shows its outline. -/
theorem walkTree_outline {α : Type} (row : String → Nat → α) (root : Node) (hn : NoNaN root) :
    ∃ tops out, ByOrder root.children tops ∧ Outline 0 tops out ∧ walkTree row root = out.map (fun p => row p.2 p.1) ∧
      (walkTree row root).length = sizeAll root.children := by
  unfold walkTree
  rw [sorted_children]
  obtain ⟨out, ho, e⟩ := walk_outline row _ (sortNodes root.children) 0 (Nat.le_refl _) (by
    obtain ⟨l, o, cs⟩ := root
    intro c hc x hx
    exact hn x (.deeper l o cs c x ((mem_sortNodes _ _).1 hc) hx))
  refine ⟨sortNodes root.children, out, ?_, ho, e, ?_⟩
  · obtain ⟨l, o, cs⟩ := root
    exact stableSortedOn_f64 Node.order cs fun c hc => hn c (.child l o cs c hc)
  · rw [e, List.length_map, outline_length ho, sizeAll_sortNodes]

theorem splitDomains_eq (dm dd df : List Node) :
    splitDomains dm dd df =
      (dm.filter fun n => !(dd.flatMap (fun n => n.children.map Node.locator) ++ df.flatMap (fun n => n.children.map Node.locator)).contains n.locator,
       dm.filter fun n => (dd.flatMap (fun n => n.children.map Node.locator) ++ df.flatMap (fun n => n.children.map Node.locator)).contains n.locator) := by
  unfold splitDomains
  generalize dd.flatMap (fun n => n.children.map Node.locator) ++ df.flatMap (fun n => n.children.map Node.locator) = hs
  simp only
  have key : ∀ (l : List Node) (a b : List Node), l.foldl (fun acc n =>
      if hs.contains n.locator then (acc.1, acc.2 ++ [n]) else (acc.1 ++ [n], acc.2)) (a, b) =
      (a ++ l.filter (fun n => !hs.contains n.locator), b ++ l.filter fun n => hs.contains n.locator) := by
    intro l
    induction l with
    | nil => simp
    | cons n l ih =>
      intro a b
      rw [List.foldl_cons]
      by_cases h : hs.contains n.locator = true
      · simp only [h, if_true]
        rw [ih]
        simp [List.filter_cons]
        simpa using h
      · simp only [h]
        rw [if_neg (by simp), ih]
        simp [List.filter_cons]
        simpa using h
  simpa using key dm [] []

theorem foldl_distinct {α : Type} [DecidableEq α] (l : List α) : ∀ acc : List α, acc.Nodup →
    (l.foldl (fun acc d => if acc.contains d then acc else acc ++ [d]) acc).Nodup ∧
    ∀ x, x ∈ l.foldl (fun acc d => if acc.contains d then acc else acc ++ [d]) acc ↔ x ∈ acc ∨ x ∈ l := by
  induction l with
  | nil => intro acc h; exact ⟨h, by simp⟩
  | cons y l ih =>
    intro acc h
    rw [List.foldl_cons]
    split
    · rename_i hc
      obtain ⟨h1, h2⟩ := ih acc h
      refine ⟨h1, fun x => ?_⟩
      rw [h2]
      have : y ∈ acc := by simpa using hc
      constructor
      · rintro (h | h)
        · exact .inl h
        · exact .inr (List.mem_cons_of_mem _ h)
      · rintro (h | h)
        · exact .inl h
        · rcases List.mem_cons.1 h with rfl | h
          · exact .inl this
          · exact .inr h
    · rename_i hc
      have hc : y ∉ acc := by simpa using hc
      obtain ⟨h1, h2⟩ := ih (acc ++ [y]) (by
        rw [List.nodup_append]
        refine ⟨h, by simp, ?_⟩
        intro a ha b hb e
        rw [List.mem_singleton.1 hb] at e
        exact hc (e ▸ ha))
      refine ⟨h1, fun x => ?_⟩
      rw [h2]
      simp [or_assoc]

end Telefacts.Render
