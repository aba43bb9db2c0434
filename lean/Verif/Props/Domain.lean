import Verif.Proof.Domain
import Verif.Props.Network
/-! # C69, C70, C83 - C86: effective domains and root domains -/
namespace Telefacts
open Telefacts.Render Telefacts.Instance Telefacts.Linkbase Telefacts.Spec

/-- **C69.** An effective domain is strictly ordered: by href, then default members first, then struck-through members
last. In particular no member is listed twice in the same way. -/
theorem C69_sorted (w : Networks) (primary dim : String) :
    (getEffectiveDomain w primary dim).1.Pairwise EffectiveBefore := by
  rcases getEffectiveDomain_cases w primary dim with h | ⟨_, st, h1, h2⟩
  · rw [h]; exact .nil
  · rw [h2]; exact effective_strict h1.nodup

/-- **C69.** Every listed member has a reason to be listed: its mark as struck-through says whether an exclusive or an
inclusive hypercube of the primary item has the dimension; its mark as default says that it is a default member. No
hypercube is both included and excluded. -/
theorem C69_listed (w : Networks) (primary dim : String) (m : EffectiveMember) (h : m ∈ (getEffectiveDomain w primary dim).1) :
    Listed w primary dim m ∧ ∀ c, ¬ (HasCube w w.inclusive primary dim c ∧ HasCube w w.exclusive primary dim c) := by
  rcases getEffectiveDomain_cases w primary dim with e | ⟨hc, st, h1, h2⟩
  · rw [e] at h; cases h
  · rw [h2, mem_stableSort] at h
    exact ⟨h1.sound m h, fun c hh => hc ⟨c, hh⟩⟩

/-- **C69.** When nothing is listed twice, every member that has a reason to be listed is listed; in particular every
default member of the dimension under an inclusive hypercube, marked default. -/
theorem C69_complete (w : Networks) (primary dim : String) (ht : Tidy w primary dim) (m : EffectiveMember) :
    m ∈ (getEffectiveDomain w primary dim).1 ↔ Listed w primary dim m := by
  refine ⟨fun h => (C69_listed w primary dim m h).1, ?_⟩
  intro hl
  have hinc : cubes w w.inclusive primary dim = [] ∨ ∃ c, cubes w w.inclusive primary dim = [c] :=
    nodup_all_eq (nodup_cubes ht.inclusive ht.dimensions primary dim)
      fun a ha b hb => ht.oneInclusive a b ((mem_cubes ..).1 ha) ((mem_cubes ..).1 hb)
  have hexc : cubes w w.exclusive primary dim = [] ∨ ∃ c, cubes w w.exclusive primary dim = [c] :=
    nodup_all_eq (nodup_cubes ht.exclusive ht.dimensions primary dim)
      fun a ha b hb => ht.oneExclusive a b ((mem_cubes ..).1 ha) ((mem_cubes ..).1 hb)
  -- the two phases of defaults
  have ok1 : ∀ ns, ns = cubeNodes w (cubes w w.inclusive primary dim) →
      ∃ st, includeCubes w dim ns ⟨[], [], []⟩ = some st ∧
        ((∃ c, HasCube w w.inclusive primary dim c) → ∀ h, DefaultOf w dim h → ⟨h, w.label h, true, false⟩ ∈ st.ret) := by
    intro ns hns
    rcases hinc with e | ⟨c, e⟩
    · rw [hns, e]
      refine ⟨_, by rw [show cubeNodes w [] = [] by unfold cubeNodes; simp]; rfl, ?_⟩
      rintro ⟨c, hc⟩
      have := (mem_cubes ..).2 hc
      rw [e] at this; cases this
    · have hc : HasCube w w.inclusive primary dim c := (mem_cubes ..).1 (e ▸ List.mem_singleton.2 rfl)
      obtain ⟨d, _, e1, _⟩ := cubeNodes_one ht.dimensions hc
      obtain ⟨st, h1, h2, h3⟩ := includeDefaults_ok dim w.dimensionDefault ⟨[], [], []⟩ ht.oneDimension (by simp)
      refine ⟨st, ?_, ?_⟩
      · rw [hns, e, e1, includeCubes, h1]; rfl
      · rintro _ h ⟨n, hn, hd, x, hx, rfl⟩
        exact h3 n hn hd x hx
  have ok2 : ∀ ns st, ns = cubeNodes w (cubes w w.exclusive primary dim) → st.seen = [] →
      ∃ st', excludeCubes w ns st = some st' ∧ st.ret ⊆ st'.ret ∧
        ((∃ c, HasCube w w.exclusive primary dim c) → ∀ dim' h, DefaultOf w dim' h → ⟨h, w.label h, true, true⟩ ∈ st'.ret) := by
    intro ns st hns hs
    rcases hexc with e | ⟨c, e⟩
    · rw [hns, e]
      refine ⟨st, by rw [show cubeNodes w [] = [] by unfold cubeNodes; simp]; rfl, fun _ h => h, ?_⟩
      rintro ⟨c, hc⟩
      have := (mem_cubes ..).2 hc
      rw [e] at this; cases this
    · have hc : HasCube w w.exclusive primary dim c := (mem_cubes ..).1 (e ▸ List.mem_singleton.2 rfl)
      obtain ⟨d, _, e1, _⟩ := cubeNodes_one ht.dimensions hc
      obtain ⟨st', h1, h2, h3⟩ := excludeDefaults_ok w.dimensionDefault st ht.oneDimension
        (fun n hn x hx c hc e => ht.apart n hn (w.href x) ⟨x, hx, rfl, c, hc, e.symm⟩) (by simp [hs]) (by simp [hs])
      refine ⟨st', ?_, h2, ?_⟩
      · rw [hns, e, e1, excludeCubes, h1]; rfl
      · rintro _ dim' h ⟨n, hn, _, x, hx, rfl⟩
        exact h3 n hn x hx
  have ok3 : ∀ (net : List Node) (str : Bool) (st : DomainState), (cubes w net primary dim = [] ∨ ∃ c, cubes w net primary dim = [c]) →
      st.seen = [] → let st' := (traversals w (cubes w net primary dim) dim).foldl (fun st _ => traverseAll w str w.explicitDomain st) st
      st.ret ⊆ st'.ret ∧ ((∃ c, HasCube w net primary dim c) → HasDomain w dim → ∀ h, DomainMember w h →
        ⟨h, w.label h, false, str⟩ ∈ st'.ret) := by
    intro net str st hcu hs
    rcases hcu with e | ⟨c, e⟩
    · rw [e, show traversals w [] dim = [] by unfold traversals cubeNodes; simp]
      refine ⟨fun _ h => h, ?_⟩
      rintro ⟨c, hc⟩
      have := (mem_cubes ..).2 hc
      rw [e] at this; cases this
    · have hc : HasCube w net primary dim c := (mem_cubes ..).1 (e ▸ List.mem_singleton.2 rfl)
      rw [e]
      by_cases hdom : HasDomain w dim
      · rw [traversals_one ht.dimensions ht.domains hc hdom]
        obtain ⟨h1, h2, _⟩ := traverseAll_ok str w.explicitDomain 0 st (ht.members _ (hrefsOf_below w _)) (by simp [hs])
        exact ⟨h1, fun _ _ h hh => h2 h (mem_hrefsBelow hh)⟩
      · have : traversals w [c] dim = [] := by
          by_contra hne
          exact hdom (traversals_ne_nil _ _ hne).2
        rw [this]
        exact ⟨fun _ h => h, fun _ h => absurd h hdom⟩
  have hno : (cubes w w.inclusive primary dim).any (fun i => (cubes w w.exclusive primary dim).any fun e => decide (i = e)) = false := by
    rw [Bool.eq_false_iff]
    intro h
    rw [List.any_eq_true] at h
    obtain ⟨i, hi, h⟩ := h
    rw [List.any_eq_true] at h
    obtain ⟨e, he, h⟩ := h
    have : i = e := by simpa using h
    subst this
    exact ht.noConflict i ⟨(mem_cubes ..).1 hi, (mem_cubes ..).1 he⟩
  obtain ⟨st1, e1, a1⟩ := ok1 _ rfl
  obtain ⟨st2, e2, b1, b2⟩ := ok2 _ { st1 with seen := [] } rfl rfl
  unfold getEffectiveDomain
  simp only [hno, Bool.false_eq_true, if_false, e1, e2, mem_stableSort]
  obtain ⟨c1, c2⟩ := ok3 w.inclusive false { st2 with seen := [] } hinc rfl
  generalize List.foldl (fun st _ => traverseAll w false w.explicitDomain st) { st2 with seen := [] }
    (traversals w (cubes w w.inclusive primary dim) dim) = st3 at c1 c2 ⊢
  obtain ⟨d1, d2⟩ := ok3 w.exclusive true { st3 with seen := [] } hexc rfl
  obtain ⟨href, label, isDef, isStr⟩ := m
  obtain ⟨l1, l2, l3, l4⟩ := hl
  simp only at l1 l2 l3 l4
  subst l1
  cases isDef with
  | true =>
    have l3 := l3 rfl
    cases isStr with
    | true =>
      simp only [if_true] at l2 l3
      obtain ⟨dim', l3⟩ := l3
      exact d1 (c1 (b2 l2 dim' href l3))
    | false =>
      simp only [Bool.false_eq_true, if_false] at l2 l3
      exact d1 (c1 (b1 (a1 l2 href l3)))
  | false =>
    obtain ⟨l4, l5⟩ := l4 rfl
    cases isStr with
    | true =>
      simp only [if_true] at l2
      exact d2 l2 l4 href l5
    | false =>
      simp only [Bool.false_eq_true, if_false] at l2
      exact d1 (c2 l2 l4 href l5)

/-- **C70.** Every root of the domain-member network is either a primary item or an explicit domain, in the same order; it
is an explicit domain iff it is the target of an arc in the dimension-domain or the dimension-default network. -/
theorem C70_partition (dm dd df : List Node) (primary explicit : List Node) (h : splitDomains dm dd df = (primary, explicit)) :
    primary.Sublist dm ∧ explicit.Sublist dm ∧ (primary ++ explicit).Perm dm ∧
    (∀ n, n ∈ explicit ↔ n ∈ dm ∧ ∃ r ∈ dd ++ df, ∃ c ∈ r.children, c.locator = n.locator) ∧
    (∀ n, n ∈ primary ↔ n ∈ dm ∧ ¬ ∃ r ∈ dd ++ df, ∃ c ∈ r.children, c.locator = n.locator) := by
  rw [splitDomains_eq, Prod.mk.injEq] at h
  obtain ⟨rfl, rfl⟩ := h
  have hmem : ∀ n : Node, (dd.flatMap (fun n => n.children.map Node.locator) ++ df.flatMap (fun n => n.children.map Node.locator)).contains n.locator = true ↔
      ∃ r ∈ dd ++ df, ∃ c ∈ r.children, c.locator = n.locator := by
    intro n
    simp only [List.contains_iff_mem, List.mem_append, List.mem_flatMap, List.mem_map]
    constructor
    · rintro (⟨r, h1, h2⟩ | ⟨r, h1, h2⟩)
      · exact ⟨r, .inl h1, h2⟩
      · exact ⟨r, .inr h1, h2⟩
    · rintro ⟨r, h1 | h1, h2⟩
      · exact .inl ⟨r, h1, h2⟩
      · exact .inr ⟨r, h1, h2⟩
  refine ⟨List.filter_sublist, List.filter_sublist, ?_, ?_, ?_⟩
  · exact (List.perm_append_comm).trans (List.filter_append_perm _ dm)
  · intro n
    rw [List.mem_filter, hmem]
  · intro n
    rw [List.mem_filter, ← hmem, Bool.not_eq_true', Bool.not_eq_true]

/-- Two dimensions with a domain and a default each; hypercube `c` is included for `p` and excluded for `q`. -/
def twoDims : Networks where
  dimensionDomain := [.mk "d1" .zero [.mk "m1" .zero []], .mk "d2" .zero [.mk "m2" .zero []]]
  explicitDomain := [.mk "m1" .zero [.mk "x1" .zero []], .mk "m2" .zero [.mk "x2" .zero []]]
  exclusive := [.mk "q" .zero [.mk "c" .zero []]]
  inclusive := [.mk "p" .zero [.mk "c" .zero []]]
  hypercubeDimension := [.mk "c" .zero [.mk "d1" .zero [], .mk "d2" .zero []]]
  dimensionDefault := [.mk "d1" .zero [.mk "m1" .zero []], .mk "d2" .zero [.mk "m2" .zero []]]
  loc := id
  label := fun _ => []

/-- Non-vacuity of `C69_complete`. -/
example : Tidy twoDims "p" "d1" := by
  have inc : ∀ c, HasCube twoDims twoDims.inclusive "p" "d1" c → c = "c" := by
    intro c hc
    have := (mem_cubes ..).2 hc
    revert this
    rw [show cubes twoDims twoDims.inclusive "p" "d1" = ["c"] by decide +kernel]
    simp
  have exc : ∀ c, ¬ HasCube twoDims twoDims.exclusive "p" "d1" c := by
    intro c hc
    have := (mem_cubes ..).2 hc
    revert this
    rw [show cubes twoDims twoDims.exclusive "p" "d1" = [] by decide +kernel]
    simp
  refine ⟨⟨by decide, by simp [twoDims, Node.children]⟩, ⟨by decide, by simp [twoDims, Node.children]⟩, ⟨by decide, ?_⟩,
    ⟨by decide, by simp [twoDims, Node.children]⟩, by decide, fun l h => hrefsOf_unique (hrefsOf_below _ _) h ▸ (by decide), by decide, ?_,
    fun c c' h h' => (inc c h).trans (inc c' h').symm, fun c _ h _ => absurd h (exc c), fun c h => exc c h.2⟩
  · intro n hn
    simp only [twoDims, List.mem_singleton] at hn
    subst hn
    decide
  · rintro n hn dim' ⟨r, hr, _, x, hx, e⟩
    simp only [twoDims, List.mem_cons, List.not_mem_nil, or_false] at hn hr
    rcases hn with rfl | rfl <;> rcases hr with rfl | rfl <;> simp only [Node.children, List.mem_singleton] at hx <;> subst hx <;>
      revert e <;> decide

/-- **C83 (fails).** The effective domain of dimension `d1` lists the members `m2` and `x2` of dimension `d2`. -/
theorem C83_fails : (getEffectiveDomain twoDims "p" "d1").1.map (fun m => (m.href, m.isDefault, m.isStrikethrough)) =
    [("m1", true, false), ("m1", false, false), ("m2", false, false), ("x1", false, false), ("x2", false, false)] ∧
    ¬ MemberOfDimension twoDims "d1" "x2" := by
  refine ⟨by decide +kernel, ?_⟩
  rintro (⟨n, hn, h1, c, hc, h2⟩ | ⟨r, hr, h1, c, hc, t, ht, h2, h3⟩)
  · simp only [twoDims, List.mem_cons, List.not_mem_nil, or_false] at hn
    rcases hn with rfl | rfl
    · simp only [Node.children, List.mem_singleton] at hc; subst hc; revert h2; decide
    · revert h1; decide
  · have hr' : r = .mk "d1" .zero [.mk "m1" .zero []] := by
      simp only [twoDims, List.mem_append, List.mem_cons, List.not_mem_nil, or_false] at hr
      rcases hr with (rfl | rfl) | (rfl | rfl)
      · rfl
      · exfalso; revert h1; decide
      · rfl
      · exfalso; revert h1; decide
    subst hr'
    simp only [Node.children, List.mem_singleton] at hc
    subst hc
    simp only [twoDims, List.mem_cons, List.not_mem_nil, or_false] at ht
    rcases ht with rfl | rfl
    · rcases h3 with h3 | ⟨x, hx, h3⟩
      · revert h3; decide
      · cases hx with
        | child _ _ _ _ hc => simp only [List.mem_singleton] at hc; subst hc; revert h3; decide
        | deeper _ _ _ c _ hc hb =>
          simp only [List.mem_singleton] at hc; subst hc
          cases hb with
          | child _ _ _ _ hc => cases hc
          | deeper _ _ _ _ _ hc _ => cases hc
    · revert h2; decide

/-- **C83 (partial).** If the only dimension with domains or defaults is the dimension asked for, and the explicit domains
are those of the domain-member network, every listed member is a member of that dimension. Missing: links with two
dimensions (`C83_fails`). -/
theorem C83_one_partial (w : Networks) (primary dim : String) (dm : List Node)
    (hs : w.explicitDomain = (splitDomains dm w.dimensionDomain w.dimensionDefault).2)
    (hone : ∀ r ∈ w.dimensionDomain ++ w.dimensionDefault, w.href r = dim) (m : EffectiveMember)
    (h : m ∈ (getEffectiveDomain w primary dim).1) : MemberOfDimension w dim m.href := by
  obtain ⟨hl, _⟩ := C69_listed w primary dim m h
  cases hd : m.isDefault with
  | true =>
    have h1 := hl.default hd
    left
    cases hstr : m.isStrikethrough with
    | true =>
      rw [hstr, if_pos rfl] at h1
      obtain ⟨dim', n, hn, _, hc⟩ := h1
      exact ⟨n, hn, hone n (List.mem_append_right _ hn), hc⟩
    | false =>
      rw [hstr, if_neg (by simp)] at h1
      exact h1
  | false =>
    obtain ⟨_, t, ht, h2⟩ := hl.member hd
    have ht' := ht
    rw [hs] at ht'
    obtain ⟨_, _, _, h3, _⟩ := C70_partition dm w.dimensionDomain w.dimensionDefault _ _ rfl
    obtain ⟨_, r, hr, c, hc, e⟩ := (h3 t).1 ht'
    exact .inr ⟨r, hr, hone r hr, c, hc, t, ht, e.symm, h2⟩

/-- **C84 (fails).** The default member `m2` of dimension `d2` is listed, struck through, as a default of `d1`. -/
theorem C84_fails : ∃ m ∈ (getEffectiveDomain twoDims "q" "d1").1, m.href = "m2" ∧ m.isDefault = true ∧
    ¬ DefaultOf twoDims "d1" "m2" := by
  refine ⟨⟨"m2", [], true, true⟩, by decide +kernel, rfl, rfl, ?_⟩
  rintro ⟨n, hn, h1, c, hc, h2⟩
  simp only [twoDims, List.mem_cons, List.not_mem_nil, or_false] at hn
  rcases hn with rfl | rfl
  · simp only [Node.children, List.mem_singleton] at hc; subst hc; revert h2; decide
  · revert h1; decide

/-- **C84 (partial).** A member that is marked default and not struck through is a default of the dimension. Missing:
struck-through members (`C84_fails`). -/
theorem C84_default_partial (w : Networks) (primary dim : String) (m : EffectiveMember)
    (h : m ∈ (getEffectiveDomain w primary dim).1) (hd : m.isDefault = true) (hs : m.isStrikethrough = false) :
    DefaultOf w dim m.href := by
  have := (C69_listed w primary dim m h).1.default hd
  rw [hs, if_neg (by simp)] at this
  exact this

/-- **C86 (partial).** The effective dimensions of a link are without duplicates. With one definition linkbase they are
exactly the targets of its hypercube-dimension arcs. Missing: with several linkbases the locators are looked up in all of
them (`C86_fails`). -/
theorem C86_dimensions_partial (lbs : List (Lb DArc)) (role : String) (arcs : List DArc) :
    (effectiveDimensionHrefs lbs role arcs).Nodup ∧
    ∀ lb, lbs = [lb] → ∀ d, d ∈ effectiveDimensionHrefs lbs role arcs ↔
      ∃ a ∈ arcs, a.arcrole = "http://xbrl.org/int/dim/arcrole/hypercube-dimension" ∧ mapLocator role lb a.to = d := by
  unfold effectiveDimensionHrefs
  obtain ⟨h1, h2⟩ := foldl_distinct (lbs.flatMap fun lb => (arcs.filter fun a => decide (a.arcrole = HypercubeDimensionArcrole)).map fun a =>
    mapLocator role lb a.to) [] List.nodup_nil
  refine ⟨h1, ?_⟩
  rintro lb rfl d
  rw [h2]
  simp [and_assoc]
  rfl

/-- **C86 (fails).** A second definition linkbase, without the role, adds the dimension `#d`, which is no target of an arc. -/
theorem C86_fails : effectiveDimensionHrefs [drsLb, ⟨[], []⟩] "r" (drsLb.links.flatMap Link.arcs) = ["x#Dim", "#d"] := by
  decide +kernel

theorem mem_roleLinks (role : String) (lbs : List (Lb DArc)) (lb : Lb DArc) (k : Link DArc) :
    (lb, k) ∈ roleLinks role lbs ↔ lb ∈ lbs ∧ (∃ r ∈ lb.roleRefs, r.roleURI = role) ∧ k ∈ lb.links ∧ k.role = role := by
  unfold roleLinks refLinks
  simp only [List.mem_flatMap, List.mem_map, List.mem_filter, decide_eq_true_iff, Prod.mk.injEq]
  constructor
  · rintro ⟨lb', h1, k', ⟨h2, h3⟩, rfl, rfl⟩
    split at h2
    · rename_i hr
      rw [List.any_eq_true] at hr
      obtain ⟨r, hr1, hr2⟩ := hr
      exact ⟨h1, ⟨r, hr1, by simpa [eq_comm] using hr2⟩, h2, h3⟩
    · simp at h2
  · rintro ⟨h1, ⟨r, hr1, hr2⟩, h2, h3⟩
    refine ⟨lb, h1, k, ⟨?_, h3⟩, rfl, rfl⟩
    rw [if_pos (List.any_eq_true.2 ⟨r, hr1, by simp [hr2]⟩)]
    exact h2

theorem rootStep_shows {Φ : Type} (f : Folder) (mo : GoMap String RelevantMember → GoMap String RelevantMember)
    (source : List Lang → FactSource Φ) (entity : String) (w : Networks) (dims : List String) (st st' : RootState Φ) (root : Node)
    (h : rootStep f mo source entity w dims st root = .done st') :
    ∃ r, st'.domains = st.domains ++ [r] ∧ ShowsRoot f source entity w dims root r := by
  unfold rootStep at h
  simp only at h
  generalize hi : walkTree (fun l level => (⟨w.loc l, f.label (w.loc l), level⟩ : PrimaryItem)) root = items at h
  cases hr : getRelevantContexts f entity (w.href root :: items.map PrimaryItem.href) with
  | panic => rw [hr] at h; simp [Run.andThen] at h
  | loop => rw [hr] at h; simp [Run.andThen] at h
  | done rel =>
    rw [hr] at h
    simp only [Run.andThen] at h
    cases hg : getMemberGrid mo rel.contexts rel.segmentTrees rel.scenarioTrees with
    | panic => rw [hg] at h; simp at h
    | loop => rw [hg] at h; simp at h
    | done g =>
      rw [hg] at h
      simp only [Run.done.injEq] at h
      subst h
      refine ⟨_, rfl, rfl, rfl, ?_, rfl, ?_, ?_, rel, _, hr, rfl, rfl⟩
      · intro hn
        obtain ⟨tops, out, h1, h2, h3, _⟩ := walkTree_outline (fun l level => (⟨w.loc l, f.label (w.loc l), level⟩ : PrimaryItem)) root hn
        exact ⟨tops, out, h1, h2, hi ▸ h3⟩
      · intro i j x
        exact cellAt_map2 (fun h d => (getEffectiveDomain w h d).1) _ _ i j x
      · unfold getEffectiveDomainGrid HasShape
        simp

theorem rootLoop_shows {Φ : Type} (step : RootState Φ → Node → Run (RootState Φ)) (P : Node → RootDomain Φ → Prop)
    (hstep : ∀ st st' n, step st n = .done st' → ∃ r, st'.domains = st.domains ++ [r] ∧ P n r) (ns : List Node) :
    ∀ st st', rootLoop step st ns = .done st' → ∃ rs, st'.domains = st.domains ++ rs ∧ List.Forall₂ P ns rs := by
  induction ns with
  | nil => intro st st' h; cases h; exact ⟨[], by simp, .nil⟩
  | cons n ns ih =>
    intro st st' h
    rw [rootLoop] at h
    cases hs : step st n with
    | panic => rw [hs] at h; simp [Run.andThen] at h
    | loop => rw [hs] at h; simp [Run.andThen] at h
    | done st1 =>
      rw [hs] at h
      simp only [Run.andThen] at h
      obtain ⟨r, h1, h2⟩ := hstep st st1 n hs
      obtain ⟨rs, h3, h4⟩ := ih st1 st' h
      exact ⟨r :: rs, by rw [h3, h1]; simp, .cons h2 h4⟩

theorem linkNetworks_spec (f : Folder) (role : String) (lb : Lb DArc) (k : Link DArc) :
    NetworksOf f role lb k (linkNetworks f role lb k).1 (linkNetworks f role lb k).2 := by
  unfold linkNetworks
  simp only
  obtain ⟨h1, h2, h3, h4, h5⟩ := C70_partition (f.tree (dArcs k.arcs) DomainMemberArcrole).children
    (f.tree (dArcs k.arcs) DimensionDomainArcrole).children (f.tree (dArcs k.arcs) DimensionDefaultArcrole).children _ _ rfl
  exact ⟨rfl, rfl, rfl, rfl, rfl, ⟨_, rfl, h1, h2, h3⟩, fun n hn => ((h4 n).1 hn).2, fun n hn => ((h5 n).1 hn).2, rfl, rfl⟩

/-- **C85.** A definition grid shows one root domain for every primary item root of every definition link of the role, in
order. Its rows are the root and the outline below it, with levels; its columns are the effective dimensions; the grid of
effective domains has exactly these rows and columns, and so have the facts. -/
theorem C85_roots {Φ : Type} (f : Folder) (mo : GoMap String RelevantMember → GoMap String RelevantMember)
    (source : List Lang → FactSource Φ) (entity role : String) (again : Nat → List (Lb DArc))
    (lbs : List (Lb DArc)) (domains : List (RootDomain Φ))
    (roles : List LabelRole) (langs : List Lang)
    (h : getRootDomains f mo source entity role again lbs = .done (domains, roles, langs)) :
    ∃ nets : Lb DArc × Link DArc → List Node × Networks, (∀ e, NetworksOf f role e.1 e.2 (nets e).1 (nets e).2) ∧
      List.Forall₂ (fun (e : ((Lb DArc × Link DArc) × Nat) × Node) r =>
          ShowsRoot f source entity (nets e.1.1).2 (effectiveDimensionHrefs (again e.1.2) role e.1.1.2.arcs) e.2 r)
        ((definitionLinks role lbs).zipIdx.flatMap fun e => (nets e.1).1.map fun n => (e, n)) domains := by
  refine ⟨fun e => linkNetworks f role e.1 e.2, fun e => linkNetworks_spec f role e.1 e.2, ?_⟩
  rw [definitionLinks_eq]
  change List.Forall₂ _ ((roleLinks role lbs).zipIdx.flatMap _) _
  have key : ∀ (links : List ((Lb DArc × Link DArc) × Nat)) st st',
      linkLoop (linkStep f mo source entity role again) st links = .done st' →
      ∃ rs, st'.domains = st.domains ++ rs ∧ List.Forall₂ (fun (e : ((Lb DArc × Link DArc) × Nat) × Node) r =>
          ShowsRoot f source entity (linkNetworks f role e.1.1.1 e.1.1.2).2 (effectiveDimensionHrefs (again e.1.2) role e.1.1.2.arcs) e.2 r)
        (links.flatMap fun e => (linkNetworks f role e.1.1 e.1.2).1.map fun n => (e, n)) rs := by
    intro links
    induction links with
    | nil => intro st st' h; cases h; exact ⟨[], by simp, .nil⟩
    | cons e links ih =>
      intro st st' h
      rw [linkLoop] at h
      cases hs : linkStep f mo source entity role again st e with
      | panic => rw [hs] at h; simp [Run.andThen] at h
      | loop => rw [hs] at h; simp [Run.andThen] at h
      | done st1 =>
        rw [hs] at h
        simp only [Run.andThen] at h
        obtain ⟨rs2, h3, h4⟩ := ih st1 st' h
        unfold linkStep at hs
        simp only at hs
        obtain ⟨rs1, h1, h2⟩ := rootLoop_shows _ _ (fun st st' n hn => rootStep_shows f mo source entity _ _ st st' n hn) _ _ _ hs
        refine ⟨rs1 ++ rs2, by rw [h3, h1]; simp, ?_⟩
        rw [List.flatMap_cons]
        refine List.rel_append ?_ h4
        rw [List.forall₂_map_left_iff]
        exact h2
  unfold getRootDomains at h
  cases hl : linkLoop (linkStep f mo source entity role again) ⟨[], [], [], []⟩ (roleLinks role lbs).zipIdx with
  | panic => rw [hl] at h; simp [Run.andThen] at h
  | loop => rw [hl] at h; simp [Run.andThen] at h
  | done st =>
    rw [hl] at h
    simp only [Run.andThen, Run.done.injEq, Prod.mk.injEq] at h
    obtain ⟨rfl, _, _⟩ := h
    obtain ⟨rs, h1, h2⟩ := key _ _ _ hl
    rw [h1]
    exact h2

/-- A folder with the facts `x#P` and `x#I` in one context. `x#I` is below `x#P`; the hypercube has one dimension. -/
def domainFolder : Folder where
  insts := [⟨"i", [ctxExample "c" "s" "1" "2020-12-31" []], [], [], [factExample "x#P" "c", factExample "x#I" "c"]⟩]
  concept := fun h => if h = "x#P" ∨ h = "x#I" then some (conceptExample h false) else none
  label := fun h => [(Default, [(PureLabel, h)])]
  tree := fun _ arcrole =>
    if arcrole = DomainMemberArcrole then .mk "" .zero [.mk "p" .zero [.mk "i" .zero []], .mk "m" .zero [.mk "n" .zero []]]
    else if arcrole = DimensionDomainArcrole then .mk "" .zero [.mk "d" .zero [.mk "m" .zero []]]
    else if arcrole = HypercubeDimensionArcrole then .mk "" .zero [.mk "c" .zero [.mk "d" .zero []]]
    else if arcrole = HasInclusiveHypercubeArcrole then .mk "" .zero [.mk "p" .zero [.mk "c" .zero []]]
    else .mk "" .zero []

def domainLb : Lb DArc := ⟨[⟨"r", ""⟩], [⟨"r", [⟨"x#P", "p"⟩, ⟨"x#I", "i"⟩, ⟨"x#Cube", "c"⟩, ⟨"x#Dim", "d"⟩, ⟨"x#Dom", "m"⟩,
    ⟨"x#Mem", "n"⟩],
  [⟨F64.ofInt 1, HypercubeDimensionArcrole, "c", "d", false, false, "", ""⟩]⟩]⟩

def domainResult : List (RootDomain (List Lang)) :=
  match getRootDomains domainFolder id sourceExample "s/1" "r" (fun _ => [domainLb]) [domainLb] with
  | .done (ds, _, _) => ds
  | _ => []

/-- Non-vacuity of `C85_roots`. -/
example : (domainResult.map fun r => (r.href, r.primaryItems.map fun i => (i.href, i.level))) = [("x#P", [("x#I", 0)])] ∧
    (domainResult.map fun r => r.domains.map fun row => row.map fun c => c.map EffectiveMember.href) = [[[["x#Dom", "x#Mem"]], [[]]]] ∧
    (domainResult.map fun r => r.quadrant.facts.length) = [2] := by decide +kernel

end Telefacts
