import Verif.Props.Domain
/-! # C136: a dimension that is in several hypercubes of a primary item -/
namespace Telefacts
open Telefacts.Render Telefacts.Spec Telefacts.Linkbase

/-- The members of a dimension are listed, not struck through, for a primary item. -/
def KeepsMembers (w : Networks) (primary dim : String) : Prop :=
  (∀ m, DefaultOf w dim m → ∃ x ∈ (getEffectiveDomain w primary dim).1, x.href = m ∧ x.isDefault = true ∧ x.isStrikethrough = false) ∧
  (∀ m, HasDomain w dim → DomainMember w m →
    ∃ x ∈ (getEffectiveDomain w primary dim).1, x.href = m ∧ x.isDefault = false ∧ x.isStrikethrough = false)

private theorem two_of {α : Type} {l : List α} {a b : α} (ha : a ∈ l) (hb : b ∈ l) (h : a ≠ b) : ∃ x y r, l = x :: y :: r := by
  match l, ha, hb with
  | [x], ha, hb => simp only [List.mem_singleton] at ha hb; exact absurd (ha.trans hb.symm) h
  | x :: y :: r, _, _ => exact ⟨x, y, r, rfl⟩

variable {w : Networks}

private theorem addDefaults_seen (s : Bool) (ns : List Node) : ∀ {st st' : DomainState}, addDefaults w s ns st = some st' →
    (∀ x ∈ st.seen, x ∈ st'.seen) ∧ (∀ n ∈ ns, w.href n ∈ st'.seen) ∧ (∀ n ∈ ns, w.href n ∉ st.seen) ∧ (ns = [] → st' = st) := by
  induction ns with
  | nil => intro st st' h; cases h; exact ⟨fun _ h => h, by simp, by simp, fun _ => rfl⟩
  | cons n ns ih =>
    intro st st' h
    simp only [addDefaults] at h
    split at h
    · cases h
    · next hn =>
      obtain ⟨h1, h2, h3, _⟩ := ih h
      refine ⟨fun x hx => h1 x (List.mem_cons_of_mem _ hx), ?_, ?_, by simp⟩
      · intro m hm
        rcases List.mem_cons.1 hm with rfl | hm
        · exact h1 _ (List.mem_cons_self ..)
        · exact h2 m hm
      · intro m hm
        rcases List.mem_cons.1 hm with rfl | hm
        · simpa using hn
        · exact fun hx => h3 m hm (List.mem_cons_of_mem _ hx)

private theorem includeDefaults_seen (dim : String) (ns : List Node) : ∀ {st st' : DomainState}, includeDefaults w dim ns st = some st' →
    (∀ x ∈ st.seen, x ∈ st'.seen) ∧ (∀ n ∈ ns, w.href n = dim → ∀ c ∈ n.children, w.href c ∈ st'.seen ∧ w.href c ∉ st.seen) ∧
    ((∀ n ∈ ns, w.href n = dim → n.children = []) → st' = st) := by
  induction ns with
  | nil => intro st st' h; cases h; exact ⟨fun _ h => h, by simp, fun _ => rfl⟩
  | cons n ns ih =>
    intro st st' h
    simp only [includeDefaults] at h
    split at h
    · next hn =>
      obtain ⟨h1, h2, h3⟩ := ih h
      refine ⟨h1, ?_, fun ha => h3 fun m hm => ha m (List.mem_cons_of_mem _ hm)⟩
      intro m hm e
      rcases List.mem_cons.1 hm with rfl | hm
      · exact absurd e hn
      · exact h2 m hm e
    · next hn =>
      cases ha : addDefaults w false n.children st with
      | none => rw [ha] at h; cases h
      | some s1 =>
        rw [ha] at h
        obtain ⟨g1, g2, g3, g4⟩ := addDefaults_seen false n.children ha
        obtain ⟨h1, h2, h3⟩ := ih h
        refine ⟨fun x hx => h1 x (g1 x hx), ?_, ?_⟩
        · intro m hm e c hc
          rcases List.mem_cons.1 hm with rfl | hm
          · exact ⟨h1 _ (g2 c hc), g3 c hc⟩
          · exact ⟨(h2 m hm e c hc).1, fun hx => (h2 m hm e c hc).2 (g1 _ hx)⟩
        · intro hall
          have e1 := g4 (hall n (List.mem_cons_self ..) (not_not.1 hn))
          rw [← e1]
          exact h3 fun m hm => hall m (List.mem_cons_of_mem _ hm)

/-- With two hypercubes: the result is empty, or there are no defaults and nothing is listed so far. -/
private theorem includeCubes_two (dim : String) (x y : Node) (r : List Node) (st : DomainState)
    (h : includeCubes w dim (x :: y :: r) ⟨[], [], []⟩ = some st) : st.ret = [] ∧ ∀ m, ¬ DefaultOf w dim m := by
  have none : ∀ m, ¬ DefaultOf w dim m := by
    rintro m ⟨n, hn, e, c, hc, _⟩
    simp only [includeCubes] at h
    cases h1 : includeDefaults w dim w.dimensionDefault ⟨[], [], []⟩ with
    | none => rw [h1] at h; cases h
    | some s1 =>
      rw [h1] at h
      simp only [Option.bind_some] at h
      cases h2 : includeDefaults w dim w.dimensionDefault s1 with
      | none => rw [h2] at h; cases h
      | some s2 =>
        exact ((includeDefaults_seen dim _ h2).2.1 n hn e c hc).2 ((includeDefaults_seen dim _ h1).2.1 n hn e c hc).1
  refine ⟨?_, none⟩
  have hnil : ∀ n ∈ w.dimensionDefault, w.href n = dim → n.children = [] := by
    intro n hn e
    cases hc : n.children with
    | nil => rfl
    | cons c cs => exact absurd ⟨n, hn, e, c, by simp [hc], rfl⟩ (none (w.href c))
  have key : ∀ (ds : List Node) (s s' : DomainState), includeCubes w dim ds s = some s' → s' = s := by
    intro ds
    induction ds with
    | nil => intro s s' h; cases h; rfl
    | cons d ds ih =>
      intro s s' h
      simp only [includeCubes] at h
      cases h1 : includeDefaults w dim w.dimensionDefault s with
      | none => rw [h1] at h; cases h
      | some s1 =>
        rw [h1] at h
        rw [ih s1 s' h]
        exact (includeDefaults_seen dim _ h1).2.2 hnil
  rw [key _ _ _ h]

/-- Members that are struck through only. -/
private def Struck (st : DomainState) : Prop := ∀ m ∈ st.ret, m.isStrikethrough = true

private theorem addDefaults_struck (ns : List Node) : ∀ {st st' : DomainState}, Struck st → addDefaults w true ns st = some st' →
    Struck st' := by
  induction ns with
  | nil => intro st st' hs h; cases h; exact hs
  | cons n ns ih =>
    intro st st' hs h
    simp only [addDefaults] at h
    split at h
    · cases h
    · refine ih ?_ h
      intro m hm
      rcases List.mem_append.1 hm with hm | hm
      · exact hs m hm
      · simp only [List.mem_singleton] at hm; subst hm; rfl

private theorem excludeDefaults_struck (ns : List Node) : ∀ {st st' : DomainState}, Struck st → excludeDefaults w ns st = some st' →
    Struck st' := by
  induction ns with
  | nil => intro st st' hs h; cases h; exact hs
  | cons n ns ih =>
    intro st st' hs h
    simp only [excludeDefaults] at h
    split at h
    · exact ih hs h
    · cases h1 : addDefaults w true n.children st with
      | none => rw [h1] at h; cases h
      | some s1 => rw [h1] at h; exact ih (addDefaults_struck _ hs h1) h

private theorem excludeCubes_struck (ds : List Node) : ∀ {st st' : DomainState}, Struck st → excludeCubes w ds st = some st' →
    Struck st' := by
  induction ds with
  | nil => intro st st' hs h; cases h; exact hs
  | cons d ds ih =>
    intro st st' hs h
    simp only [excludeCubes] at h
    cases h1 : excludeDefaults w w.dimensionDefault st with
    | none => rw [h1] at h; cases h
    | some s1 => rw [h1] at h; exact ih (excludeDefaults_struck _ hs h1) h

mutual
private theorem traverse_struck : ∀ (n : Node) (st : DomainState), Struck st → Struck (traverse w true n st)
  | .mk l o cs, st, h => by
    simp only [traverse]
    split
    · intro m hm; cases hm
    · refine traverseAll_struck cs _ ?_
      intro m hm
      rcases List.mem_append.1 hm with hm | hm
      · exact h m hm
      · simp only [List.mem_singleton] at hm; subst hm; rfl
private theorem traverseAll_struck : ∀ (ns : List Node) (st : DomainState), Struck st → Struck (traverseAll w true ns st)
  | [], _, h => h
  | n :: ns, st, h => traverseAll_struck ns _ (traverse_struck n st h)
end

mutual
private theorem traverse_seen (s : Bool) : ∀ (n : Node) (st : DomainState),
    (∀ x ∈ st.seen, x ∈ (traverse w s n st).seen) ∧ w.href n ∈ (traverse w s n st).seen
  | .mk l o cs, st => by
    simp only [traverse]
    split
    · next h => exact ⟨fun _ h => h, by simpa [Networks.href, Node.locator] using h⟩
    · have := (traverseAll_seen s cs ⟨st.ret ++ [⟨w.loc l, w.label (w.loc l), false, s⟩], st.packs, w.loc l :: st.seen⟩).1
      exact ⟨fun x hx => this x (List.mem_cons_of_mem _ hx), this _ (List.mem_cons_self ..)⟩
private theorem traverseAll_seen (s : Bool) : ∀ (ns : List Node) (st : DomainState),
    (∀ x ∈ st.seen, x ∈ (traverseAll w s ns st).seen) ∧ ∀ n ∈ ns, w.href n ∈ (traverseAll w s ns st).seen
  | [], _ => ⟨fun _ h => h, by simp⟩
  | n :: ns, st => by
    simp only [traverseAll]
    have h1 := traverse_seen s n st
    have h2 := traverseAll_seen s ns (traverse w s n st)
    refine ⟨fun x hx => h2.1 x (h1.1 x hx), ?_⟩
    intro m hm
    rcases List.mem_cons.1 hm with rfl | hm
    · exact h2.1 _ h1.2
    · exact h2.2 m hm
end

/-- A second traversal empties the result. -/
private theorem traverseAll_again (s : Bool) (ns : List Node) : ∀ st : DomainState, (∀ n ∈ ns, w.href n ∈ st.seen) →
    (traverseAll w s ns st).seen = st.seen ∧ (ns ≠ [] → (traverseAll w s ns st).ret = []) := by
  induction ns with
  | nil => intro st _; exact ⟨rfl, fun h => absurd rfl h⟩
  | cons n ns ih =>
    intro st h
    simp only [traverseAll]
    have e : traverse w s n st = ⟨[], [], st.seen⟩ := by
      cases n with
      | mk l o cs =>
        have := h _ (List.mem_cons_self ..)
        simp only [traverse]
        rw [if_pos (by simpa [Networks.href, Node.locator] using this)]
    rw [e]
    obtain ⟨h1, h2⟩ := ih ⟨[], [], st.seen⟩ fun m hm => h m (List.mem_cons_of_mem _ hm)
    refine ⟨h1, fun _ => ?_⟩
    cases ns with
    | nil => rfl
    | cons => exact h2 (by simp)

private theorem traversals_two (us : List Unit) (x y : Unit) (st : DomainState) (hne : w.explicitDomain ≠ []) :
    ((x :: y :: us).foldl (fun st _ => traverseAll w false w.explicitDomain st) st).ret = [] := by
  simp only [List.foldl_cons]
  have h1 := (traverseAll_seen (w := w) false w.explicitDomain st).2
  generalize traverseAll w false w.explicitDomain st = s1 at h1 ⊢
  obtain ⟨h2, h3⟩ := traverseAll_again false w.explicitDomain s1 h1
  have h3 := h3 hne
  rw [← h2] at h1
  generalize traverseAll w false w.explicitDomain s1 = s2 at h1 h3 ⊢
  clear h2
  induction us generalizing s2 with
  | nil => exact h3
  | cons _ us ih =>
    obtain ⟨h4, h5⟩ := traverseAll_again false w.explicitDomain s2 h1
    rw [List.foldl_cons]
    exact ih _ (by rw [h4]; exact h1) (h5 hne)

/-- **C136 (fails).** If two hypercubes that a primary item includes have the dimension, no member of the dimension is listed for it
except struck through. -/
theorem C136_fails (w : Networks) (primary dim c c' : String) (hc : HasCube w w.inclusive primary dim c)
    (hc' : HasCube w w.inclusive primary dim c') (hne : c ≠ c') (m : EffectiveMember)
    (hm : m ∈ (getEffectiveDomain w primary dim).1) : m.isStrikethrough = true := by
  have i1 := (mem_cubes ..).2 hc
  have i2 := (mem_cubes ..).2 hc'
  obtain ⟨_, _, _, _, _, _, d, hd, e, a, ha, ea⟩ := hc
  obtain ⟨_, _, _, _, _, _, d', hd', e', a', ha', ea'⟩ := hc'
  have m1 : d ∈ cubeNodes w (cubes w w.inclusive primary dim) := (mem_cubeNodes ..).2 ⟨hd, by rw [e]; exact i1⟩
  have m2 : d' ∈ cubeNodes w (cubes w w.inclusive primary dim) := (mem_cubeNodes ..).2 ⟨hd', by rw [e']; exact i2⟩
  have hdd : d ≠ d' := fun h => hne (by rw [← e, ← e', h])
  simp only [getEffectiveDomain] at hm
  split at hm
  · cases hm
  · obtain ⟨x, y, r, hl⟩ := two_of m1 m2 hdd
    cases h1 : includeCubes w dim (cubeNodes w (cubes w w.inclusive primary dim)) ⟨[], [], []⟩ with
    | none => simp only [h1] at hm; cases hm
    | some s1 =>
      simp only [h1] at hm
      rw [hl] at h1
      obtain ⟨hr, _⟩ := includeCubes_two dim x y r s1 h1
      cases h2 : excludeCubes w (cubeNodes w (cubes w w.exclusive primary dim)) { s1 with seen := [] } with
      | none => simp only [h2] at hm; cases hm
      | some s2 =>
        simp only [h2] at hm
        have hs2 : Struck s2 := excludeCubes_struck _ (by intro m hm; simp only [hr] at hm; cases hm) h2
        have hs3 : Struck ((traversals w (cubes w w.inclusive primary dim) dim).foldl
            (fun st _ => traverseAll w false w.explicitDomain st) { s2 with seen := [] }) := by
          by_cases hx : w.explicitDomain = []
          · rw [hx]
            have : ∀ (us : List Unit) (s : DomainState), us.foldl (fun st _ => traverseAll w false [] st) s = s := by
              intro us
              induction us with
              | nil => intro s; rfl
              | cons _ us ih => intro s; rw [List.foldl_cons]; exact ih s
            rw [this]
            exact hs2
          · by_cases hdom : ∃ r ∈ w.dimensionDomain, w.href r = dim
            · obtain ⟨rd, hrd, er⟩ := hdom
              have sub : ∀ n ∈ cubeNodes w (cubes w w.inclusive primary dim), ∀ q ∈ n.children, w.href q = dim →
                  1 ≤ (n.children.flatMap fun x => if dim ≠ w.href x then [] else
                    w.dimensionDomain.flatMap fun r => if w.href x ≠ w.href r then [] else [()]).length := by
                intro n _ q hq eq
                refine List.length_pos_of_mem (a := ()) (List.mem_flatMap.2 ⟨q, hq, ?_⟩)
                rw [if_neg (by simp [eq])]
                exact List.mem_flatMap.2 ⟨rd, hrd, by rw [if_neg (by simp [eq, er])]; simp⟩
              have two : 2 ≤ (traversals w (cubes w w.inclusive primary dim) dim).length := by
                have p : ∃ n1 n2 rest, (cubeNodes w (cubes w w.inclusive primary dim)).Perm (n1 :: n2 :: rest) ∧ n1 = d ∧ n2 = d' := by
                  obtain ⟨l1, p1⟩ : ∃ l1, (cubeNodes w (cubes w w.inclusive primary dim)).Perm (d :: l1) :=
                    by obtain ⟨s, t, e⟩ := List.append_of_mem m1; exact ⟨s ++ t, e ▸ List.perm_middle⟩
                  have m3 : d' ∈ l1 := by
                    rcases List.mem_cons.1 (p1.mem_iff.1 m2) with h | h
                    · exact absurd h.symm hdd
                    · exact h
                  obtain ⟨s, t, e⟩ := List.append_of_mem m3
                  exact ⟨d, d', s ++ t, p1.trans ((e ▸ List.perm_middle : l1.Perm (d' :: (s ++ t))).cons d), rfl, rfl⟩
                obtain ⟨n1, n2, rest, p, rfl, rfl⟩ := p
                have hlen := (p.flatMap_right fun d => d.children.flatMap fun x =>
                  if dim ≠ w.href x then [] else
                    w.dimensionDomain.flatMap fun r => if w.href x ≠ w.href r then [] else [()]).length_eq
                have t1 := sub n1 m1 a ha ea
                have t2 := sub n2 m2 a' ha' ea'
                simp only [List.flatMap_cons, List.length_append] at hlen
                show 2 ≤ (List.flatMap _ _).length
                omega
              match hu : traversals w (cubes w w.inclusive primary dim) dim, two with
              | u :: v :: us, _ =>
                intro m hm
                rw [traversals_two us u v _ hx] at hm
                cases hm
            · have : traversals w (cubes w w.inclusive primary dim) dim = [] := by
                by_contra hn
                obtain ⟨_, h⟩ := traversals_ne_nil _ _ hn
                exact hdom h
              rw [this]
              exact hs2
        have hs4 : ∀ (us : List Unit) (s : DomainState), Struck s →
            Struck (us.foldl (fun st _ => traverseAll w true w.explicitDomain st) s) := by
          intro us
          induction us with
          | nil => intro s h; exact h
          | cons _ us ih => intro s h; exact ih _ (traverseAll_struck _ _ h)
        exact hs4 _ { ((traversals w (cubes w w.inclusive primary dim) dim).foldl
            (fun st _ => traverseAll w false w.explicitDomain st) { s2 with seen := [] }) with seen := [] } hs3 m
          ((stableSort_perm ..).mem_iff.1 hm)

/-- Primary item `p` with hypercubes `c` and `e`, which both have dimension `d1`. -/
def twoCubes : Networks := { twoDims with
  inclusive := [.mk "p" .zero [.mk "c" .zero [], .mk "e" .zero []]]
  hypercubeDimension := [.mk "c" .zero [.mk "d1" .zero []], .mk "e" .zero [.mk "d1" .zero []]] }

/-- The members of `d1` are listed for `p` with hypercube `c` only, and none with both; the dimension has members. -/
theorem C136_witness : HasCube twoCubes twoCubes.inclusive "p" "d1" "c" ∧ HasCube twoCubes twoCubes.inclusive "p" "d1" "e" ∧
    DefaultOf twoCubes "d1" "m1" ∧ HasDomain twoCubes "d1" ∧ DomainMember twoCubes "x1" ∧
    (getEffectiveDomain twoCubes "p" "d1").1 = [] ∧ ¬ KeepsMembers twoCubes "p" "d1" := by
  have hd : DefaultOf twoCubes "d1" "m1" := ⟨_, List.mem_cons_self .., rfl, _, List.mem_cons_self .., rfl⟩
  have hz : (getEffectiveDomain twoCubes "p" "d1").1 = [] := by decide +kernel
  refine ⟨(mem_cubes ..).1 (by decide +kernel), (mem_cubes ..).1 (by decide +kernel), hd,
    ⟨_, List.mem_cons_self .., rfl⟩, ⟨_, List.mem_cons_self .., .inr ⟨_, .child _ _ _ _ (List.mem_cons_self ..), rfl⟩⟩, hz, ?_⟩
  intro h
  obtain ⟨x, hx, _⟩ := h.1 _ hd
  rw [hz] at hx
  cases hx

/-- **C136 (partial).** With one hypercube for the dimension, its members are listed. Missing: several hypercubes (`C136_fails`). -/
theorem C136_one_partial (w : Networks) (primary dim c : String) (ht : Tidy w primary dim) (hc : HasCube w w.inclusive primary dim c) :
    KeepsMembers w primary dim := by
  refine ⟨fun m hd => ⟨⟨m, w.label m, true, false⟩, ?_, rfl, rfl, rfl⟩, fun m hd hm => ⟨⟨m, w.label m, false, false⟩, ?_, rfl, rfl, rfl⟩⟩
  · exact (C69_complete w primary dim ht _).2 ⟨rfl, ⟨c, hc⟩, fun _ => hd, (fun h => by cases h)⟩
  · exact (C69_complete w primary dim ht _).2 ⟨rfl, ⟨c, hc⟩, (fun h => by cases h), fun _ => ⟨hd, hm⟩⟩

end Telefacts
