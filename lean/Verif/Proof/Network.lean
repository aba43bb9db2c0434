import Verif.Spec.Network
import Verif.Proof.Member
import Verif.Proof.Order
/-! # Lemmas on networks -/
namespace Telefacts

/-! ## Sorting -/

theorem insertStable_congr {α : Type} {less less' : α → α → Bool} {x : α} {l : List α}
    (h : ∀ y ∈ l, less y x = less' y x) : insertStable less x l = insertStable less' x l := by
  induction l with
  | nil => rfl
  | cons y ys ih =>
    unfold insertStable
    rw [h y (by simp), ih (fun z hz => h z (by simp [hz]))]

theorem stableSort_congr {α : Type} {less less' : α → α → Bool} {l : List α}
    (h : ∀ a ∈ l, ∀ b ∈ l, less a b = less' a b) : stableSort less l = stableSort less' l := by
  induction l with
  | nil => rfl
  | cons x xs ih =>
    unfold stableSort
    rw [← ih (fun a ha b hb => h a (by simp [ha]) b (by simp [hb]))]
    apply insertStable_congr
    intro y hy
    exact h y (by simp [(mem_stableSort less).1 hy]) x (by simp)

theorem insertStable_map {α β : Type} (g : α → β) {less : β → β → Bool} (x : α) (l : List α) :
    insertStable less (g x) (l.map g) = (insertStable (fun a b => less (g a) (g b)) x l).map g := by
  induction l with
  | nil => rfl
  | cons y ys ih =>
    simp only [List.map_cons, insertStable]
    split
    · rw [List.map_cons, ih]
    · rfl

theorem stableSort_map {α β : Type} (g : α → β) (less : β → β → Bool) (l : List α) :
    stableSort less (l.map g) = (stableSort (fun a b => less (g a) (g b)) l).map g := by
  induction l with
  | nil => rfl
  | cons x xs ih => simp only [List.map_cons, stableSort, ih, insertStable_map]

/-- A total order that agrees with `<` on numbers. -/
def F64.before (a b : F64) : Prop := F64.lt a b = true ∨ (a = .nan ∧ b ≠ .nan)

instance (a b : F64) : Decidable (F64.before a b) := by unfold F64.before; infer_instance

theorem strictTotal_f64 : StrictTotal F64.before where
  irrefl a h := by
    rcases h with h | ⟨h, h'⟩
    · cases a <;> simp [F64.lt] at h
    · exact h' h
  trans a b c h1 h2 := by
    unfold F64.before at *
    cases a <;> cases b <;> cases c <;> simp_all [F64.lt]
    omega
  tri a b := by
    unfold F64.before
    cases a <;> cases b <;> simp [F64.lt]
    omega

theorem f64_before_iff {a b : F64} (h : a ≠ .nan) : F64.before a b ↔ F64.lt a b = true := by
  unfold F64.before
  simp [h]

open Telefacts.Spec in
open Telefacts.Render in
theorem less_iff (a b : F64) : F64.lt a b = true ↔ Less a b := by
  unfold Less
  cases a <;> cases b <;> simp [F64.lt]

open Telefacts.Spec Telefacts.Render in
/-- Sorting by an order attribute that is a number. -/
theorem stableSortedOn_f64 {α : Type} (key : α → F64) (l : List α) (h : ∀ a ∈ l, key a ≠ .nan) :
    StableSortedOn Less key l (stableSort (fun a b => F64.lt (key a) (key b)) l) := by
  have e : stableSort (fun a b => F64.lt (key a) (key b)) l =
      stableSort (fun a b => decide (F64.before (key a) (key b))) l := by
    apply stableSort_congr
    intro a ha b hb
    rw [Bool.eq_iff_iff, decide_eq_true_iff, f64_before_iff (h a ha)]
  rw [e]
  obtain ⟨h1, h2, h3⟩ := stableSortedOn_stableSort (key := key) strictTotal_f64
    (less := fun a b => decide (F64.before (key a) (key b))) (by simp) l
  refine ⟨h1, h2.imp ?_, h3⟩
  intro a b hn hl
  exact hn (.inl ((less_iff _ _).2 hl))

open Telefacts.Spec in
theorem stableSortedOn_filter {α K : Type} [DecidableEq K] {before : K → K → Prop} {key : α → K} {l out : List α}
    (p : α → Bool) (h : StableSortedOn before key l out) : StableSortedOn before key (l.filter p) (out.filter p) := by
  obtain ⟨h1, h2, h3⟩ := h
  refine ⟨h1.filter p, h2.filter p, ?_⟩
  intro k
  have := congrArg (List.filter p) (h3 k)
  simp only [List.filter_filter] at this ⊢
  rw [show (fun a => decide (key a = k) && p a) = fun a => p a && decide (key a = k) from funext fun a => Bool.and_comm _ _]
  exact this

namespace Render
open Telefacts.Spec Telefacts.Linkbase Telefacts.Instance

/-! ## Locators -/

theorem locHref_some (locator : String) (l : Loc) (h : String) :
    locHref locator l = some h ↔ (l.label = locator ∧ '#' ∈ l.href.toList) ∧ l.href = h := by
  unfold locHref
  split
  · split <;> simp_all
  · simp_all

theorem findSome_firstWith {α β : Type} (g : α → Option β) (P : α → Prop) (v : α → β) (hg : ∀ a b, g a = some b ↔ P a ∧ v a = b)
    (l : List α) (b : β) : l.findSome? g = some b ↔ ∃ a, FirstWith P l a ∧ v a = b := by
  induction l with
  | nil => simp [not_firstWith_nil]
  | cons x xs ih =>
    rw [List.findSome?_cons]
    cases h : g x with
    | none =>
      have hx : ¬ P x := by
        intro hx
        have := (hg x (v x)).2 ⟨hx, rfl⟩
        rw [h] at this
        simp at this
      simp only [firstWith_cons_neg _ hx]
      exact ih
    | some y =>
      obtain ⟨hx, e⟩ := (hg x y).1 h
      simp only [firstWith_cons_pos _ hx, exists_eq_left, e, Option.some.injEq]

theorem findSome_flatMap {α β γ : Type} (g : β → Option γ) (h : α → List β) (l : List α) :
    (l.flatMap h).findSome? g = l.findSome? fun a => (h a).findSome? g := by
  induction l with
  | nil => rfl
  | cons x xs ih =>
    rw [List.flatMap_cons, List.findSome?_append, List.findSome?_cons, ih]
    cases (h x).findSome? g <;> rfl

theorem linksHref_eq {A : Type} (role locator : String) (links : List (Link A)) :
    linksHref role locator links =
      ((links.filter fun k => decide (k.role = role)).flatMap Link.locs).findSome? (locHref locator) := by
  unfold linksHref
  rw [findSome_flatMap]
  induction links with
  | nil => rfl
  | cons k ks ih =>
    rw [List.findSome?_cons, List.filter_cons]
    by_cases h : k.role = role
    · simp only [h, if_true, decide_true, List.findSome?_cons]
      cases k.locs.findSome? (locHref locator) with
      | none => exact ih
      | some x => rfl
    · simp only [h, if_false, decide_false]
      exact ih

theorem locator_search {A : Type} (role : String) (lb : Lb A) (locator href : String) :
    lb.roleRefs.findSome? (fun r => if role = r.roleURI then linksHref role locator lb.links else none) = some href ↔
      LocatorHref role lb locator href := by
  unfold LocatorHref
  have h1 : (∃ l, FirstWith (fun l : Loc => l.label = locator ∧ '#' ∈ l.href.toList) (roleLocs role lb) l ∧ l.href = href) ↔
      linksHref role locator lb.links = some href := by
    rw [linksHref_eq, findSome_firstWith _ _ Loc.href (locHref_some locator)]
    rfl
  rw [h1]
  induction lb.roleRefs with
  | nil => simp
  | cons r rs ih =>
    rw [List.findSome?_cons]
    by_cases hr : role = r.roleURI
    · simp only [hr, if_true]
      cases hl : linksHref r.roleURI locator lb.links with
      | none =>
        simp only [ite_self, reduceCtorEq, and_false, iff_false]
        clear ih
        induction rs with
        | nil => simp
        | cons _ rs ih => rw [List.findSome?_cons]; exact ih
      | some x => simp
    · simp only [hr, if_false, ih]
      constructor
      · rintro ⟨⟨r', hr', e⟩, h⟩; exact ⟨⟨r', by simp [hr'], e⟩, h⟩
      · rintro ⟨⟨r', hr', e⟩, h⟩
        rcases List.mem_cons.1 hr' with rfl | hr'
        · exact absurd e.symm hr
        · exact ⟨⟨r', hr', e⟩, h⟩

theorem mapLocator_iff {A : Type} (role : String) (lb : Lb A) (locator href : String) :
    mapLocator role lb locator = href ↔
      LocatorHref role lb locator href ∨ ((¬ ∃ h, LocatorHref role lb locator h) ∧ href = "#" ++ locator) := by
  unfold mapLocator
  cases h : lb.roleRefs.findSome? (fun r => if role = r.roleURI then linksHref role locator lb.links else none) with
  | none =>
    have hn : ¬ ∃ h, LocatorHref role lb locator h := by
      rintro ⟨x, hx⟩
      rw [← locator_search, h] at hx
      simp at hx
    simp only
    constructor
    · intro e; exact .inr ⟨hn, e.symm⟩
    · rintro (hx | ⟨_, e⟩)
      · exact absurd ⟨_, hx⟩ hn
      · exact e.symm
  | some x =>
    have hx := (locator_search role lb locator x).1 h
    simp only
    constructor
    · rintro rfl; exact .inl hx
    · rintro (hy | ⟨hn, _⟩)
      · rw [← locator_search, h] at hy
        exact Option.some.inj hy
      · exact absurd ⟨x, hx⟩ hn

/-! ## Walks -/

theorem order_sorted (n : Node) : n.sorted.order = n.order := by obtain ⟨l, o, cs⟩ := n; rw [Node.sorted]; rfl

theorem sorted_children (n : Node) : n.sorted.children = (sortNodes n.children).map Node.sorted := by
  obtain ⟨l, o, cs⟩ := n
  rw [Node.sorted, Node.children, sortedAll_eq_map]
  unfold sortNodes
  rw [stableSort_map]
  simp only [order_sorted]
  rfl

theorem perm_sum {a b : List Nat} (h : a.Perm b) : a.sum = b.sum := by
  induction h with
  | nil => rfl
  | cons x _ ih => simp [ih]
  | swap x y l => simp; omega
  | trans _ _ ih1 ih2 => exact ih1.trans ih2

theorem firstWith_exists {α : Type} {P : α → Prop} {l : List α} (h : ∃ x ∈ l, P x) : ∃ a, FirstWith P l a := by
  classical
  obtain ⟨x, hx, hp⟩ := h
  cases hf : l.find? (fun a => decide (P a)) with
  | none =>
    rw [List.find?_eq_none] at hf
    exact absurd (decide_eq_true hp) (hf x hx)
  | some a =>
    rw [← firstWith_iff_find] at hf
    exact ⟨a, by simpa using hf⟩

theorem sizeAll_eq_sum (cs : List Node) : sizeAll cs = (cs.map Node.size).sum := by
  induction cs with
  | nil => rfl
  | cons c cs ih => rw [sizeAll, ih]; rfl

theorem sizeAll_sortNodes (cs : List Node) : sizeAll (sortNodes cs) = sizeAll cs := by
  rw [sizeAll_eq_sum, sizeAll_eq_sum]
  exact perm_sum ((stableSort_perm _ cs).map Node.size)

theorem walk_outline {α : Type} (row : String → Nat → α) (n : Nat) : ∀ (cs : List Node) (k : Nat), sizeAll cs ≤ n →
    (∀ c ∈ cs, NoNaN c) → ∃ out, Outline k cs out ∧
      walkNodes row k (cs.map Node.sorted) = out.map fun p => row p.2 p.1 := by
  induction n with
  | zero =>
    intro cs k hs _
    cases cs with
    | nil => exact ⟨[], .nil k, by simp [walkNodes]⟩
    | cons c cs =>
      obtain ⟨l, o, d⟩ := c
      simp only [sizeAll, Node.size] at hs
      omega
  | succ n ih =>
    intro cs k hs hn
    induction cs with
    | nil => exact ⟨[], .nil k, by simp [walkNodes]⟩
    | cons c cs ihc =>
      obtain ⟨l, o, d⟩ := c
      simp only [sizeAll, Node.size] at hs
      obtain ⟨after, ha, ea⟩ := ihc (by omega) (fun c hc => hn c (by simp [hc]))
      have hd : NoNaN (.mk l o d) := hn _ (by simp)
      obtain ⟨below, hb, eb⟩ := ih (sortNodes d) (k + 1) (by rw [sizeAll_sortNodes]; omega) (by
        intro c hc x hx
        exact hd x (.deeper l o d c x ((mem_sortNodes _ _).1 hc) hx))
      refine ⟨(k, l) :: (below ++ after), .cons k l o d (sortNodes d) cs below after ?_ hb ha, ?_⟩
      · exact stableSortedOn_f64 Node.order d fun c hc => hd c (.child l o d c hc)
      · have hch := sorted_children (.mk l o d)
        have hsrt : (Node.mk l o d).sorted = .mk l o ((sortNodes d).map Node.sorted) := by
          rw [Node.sorted]
          rw [Node.sorted] at hch
          exact congrArg (Node.mk l o) hch
        rw [List.map_cons, hsrt, walkNodes, walkNode, eb, ea]
        simp

theorem outline_length {k : Nat} {cs : List Node} {out : List (Nat × String)} (h : Outline k cs out) :
    out.length = sizeAll cs := by
  induction h with
  | nil => rfl
  | cons k l o cs cs' rest below after hb _ _ ih1 ih2 =>
    have : sizeAll cs' = sizeAll cs := by
      rw [sizeAll_eq_sum, sizeAll_eq_sum]
      exact perm_sum (hb.1.map Node.size)
    simp only [List.length_cons, List.length_append, ih1, ih2, sizeAll, Node.size, this]
    omega

theorem firstLink_some {A : Type} (role : String) (lbs : List (Lb A)) (lb : Lb A) (k : Link A) :
    firstLink role lbs = some (lb, k) ↔
      FirstWith (fun lb => ∃ k, HoldsLink role lb k) lbs lb ∧ HoldsLink role lb k := by
  have hone : ∀ (lb : Lb A) (k : Link A), (refLinks role lb).find? (fun k => decide (k.role = role)) = some k ↔ HoldsLink role lb k := by
    intro lb k
    unfold refLinks HoldsLink
    by_cases hr : ∃ r ∈ lb.roleRefs, r.roleURI = role
    · rw [if_pos (by
        rw [List.any_eq_true]
        obtain ⟨r, h1, h2⟩ := hr
        exact ⟨r, h1, by simp [h2]⟩), ← firstWith_iff_find]
      simp only [decide_eq_true_iff, hr, true_and]
    · rw [if_neg (by
        rw [List.any_eq_true]
        rintro ⟨r, h1, h2⟩
        exact hr ⟨r, h1, by simpa [eq_comm] using h2⟩)]
      simp [hr]
  induction lbs with
  | nil => simp [firstLink, not_firstWith_nil]
  | cons x xs ih =>
    unfold firstLink
    cases h : (refLinks role x).find? (fun k => decide (k.role = role)) with
    | none =>
      have hx : ¬ ∃ k, HoldsLink role x k := by
        rintro ⟨k, hk⟩
        rw [← hone, h] at hk
        simp at hk
      simp only [firstWith_cons_neg (fun lb => ∃ k, HoldsLink role lb k) hx]
      exact ih
    | some y =>
      have hx := (hone x y).1 h
      simp only [firstWith_cons_pos (fun lb => ∃ k, HoldsLink role lb k) ⟨y, hx⟩]
      constructor
      · intro e; cases e; exact ⟨rfl, hx⟩
      · rintro ⟨rfl, hk⟩
        rw [← hone, h] at hk
        rw [Option.some.inj hk]

theorem firstLink_none {A : Type} (role : String) (lbs : List (Lb A)) :
    firstLink role lbs = none ↔ ∀ lb ∈ lbs, ¬ ∃ k, HoldsLink role lb k := by
  constructor
  · intro h lb hlb hk
    obtain ⟨lb', hf⟩ : ∃ lb', FirstWith (fun lb => ∃ k, HoldsLink role lb k) lbs lb' := firstWith_exists ⟨lb, hlb, hk⟩
    obtain ⟨_, k', hk'⟩ := firstWith_mem hf
    have := (firstLink_some role lbs lb' k').2 ⟨hf, hk'⟩
    rw [h] at this
    simp at this
  · intro h
    cases hf : firstLink role lbs with
    | none => rfl
    | some p =>
      obtain ⟨lb, k⟩ := p
      obtain ⟨h1, h2⟩ := (firstLink_some role lbs lb k).1 hf
      exact absurd ⟨k, h2⟩ (h lb (firstWith_mem h1).1)

/-! ## Calculation -/

theorem tenths_nearest (z : Nat) :
    2 * (10 * z) ≤ (2 * tenths z + 1) * 2 ^ 1074 ∧ 2 * tenths z * 2 ^ 1074 ≤ 2 * (10 * z) + 2 ^ 1074 := by
  unfold tenths
  generalize 10 * z = n
  have hb : 0 < 2 ^ 1074 := Nat.two_pow_pos _
  generalize 2 ^ 1074 = b at hb
  have h := Nat.div_add_mod n b
  have hl := Nat.mod_lt n hb
  generalize n / b = q at *
  generalize n % b = r at *
  subst h
  have e0 : b * q = q * b := Nat.mul_comm _ _
  have e1 : (2 * q + 1) * b = 2 * (q * b) + b := by rw [Nat.add_mul, Nat.mul_assoc, Nat.one_mul]
  have e2 : 2 * q * b = 2 * (q * b) := Nat.mul_assoc _ _ _
  have e3 : (2 * (q + 1) + 1) * b = 2 * (q * b) + 3 * b := by
    rw [show 2 * (q + 1) + 1 = 2 * q + 3 from by omega, Nat.add_mul, Nat.mul_assoc]
  have e4 : 2 * (q + 1) * b = 2 * (q * b) + 2 * b := by
    rw [show 2 * (q + 1) = 2 * q + 2 from by omega, Nat.add_mul, Nat.mul_assoc]
  simp only
  split
  · rw [e1, e2, e0]; omega
  · split
    · rw [e3, e4, e0]; omega
    · split
      · rw [e1, e2, e0]; omega
      · rw [e3, e4, e0]; omega

theorem fixed1_nearest (w : F64) : NearestTenths w (fixed1 (F64.abs w)) := by
  intro z hz
  subst hz
  exact ⟨tenths z.natAbs, rfl, tenths_nearest z.natAbs⟩

theorem negative_iff (w : F64) : F64.lt w F64.zero = true ↔ Negative w := by
  unfold Negative F64.zero
  cases w <;> simp [F64.lt]

/-- The sums grouped by their total. -/
theorem calcGroups (role : String) (lb : Lb CArc) (arcs : List CArc) :
    MapWF (arcs.foldl (addCalc role lb) []) ∧ ∀ h, mapGet (arcs.foldl (addCalc role lb) []) h =
      if (arcs.filter fun a => decide (a.arcrole = CalculationArcrole ∧ mapLocator role lb a.frm = h)) = [] then none
      else some ((arcs.filter fun a => decide (a.arcrole = CalculationArcrole ∧ mapLocator role lb a.frm = h)).map
        (cStruct role lb)) := by
  induction arcs using snocInd with
  | nil => exact ⟨MapWF.nil, by simp⟩
  | snoc l a ih =>
    rw [List.foldl_append, List.foldl_cons, List.foldl_nil]
    generalize l.foldl (addCalc role lb) [] = m at ih
    obtain ⟨hw, ih⟩ := ih
    unfold addCalc
    by_cases ha : a.arcrole = CalculationArcrole
    · rw [if_pos ha]
      refine ⟨hw.mapSet _ _, ?_⟩
      intro h
      rw [mapGet_mapSet, List.filter_append]
      by_cases hh : mapLocator role lb a.frm = h
      · subst hh
        rw [ih]
        rw [if_pos rfl]
        have ht : List.filter (fun a_1 => decide (a_1.arcrole = CalculationArcrole ∧
            mapLocator role lb a_1.frm = mapLocator role lb a.frm)) [a] = [a] := by simp [ha]
        rw [ht]
        generalize l.filter _ = g
        cases g <;> simp
      · rw [if_neg hh, ih h]
        simp [hh]
    · rw [if_neg ha]
      refine ⟨hw, ?_⟩
      intro h
      rw [ih h, List.filter_append]
      simp [ha]

theorem mapGet_map_value {V W : Type} (g : V → W) (m : GoMap String V) (h : String) :
    mapGet (m.map fun e => (e.1, g e.2)) h = (mapGet m h).map g := by
  induction m with
  | nil => rfl
  | cons e m ih =>
    obtain ⟨k, v⟩ := e
    rw [List.map_cons, mapGet, mapGet, ih]
    split <;> rfl

theorem calcMap_spec (role : String) (lb : Lb CArc) (arcs : List CArc) :
    MapWF (calcMap role lb arcs) ∧
    (∀ h, (mapGet (calcMap role lb arcs) h).isSome ↔ ∃ a ∈ arcs, IsCalcArc role lb h a) ∧
    (∀ h cs, mapGet (calcMap role lb arcs) h = some cs →
      cs = (stableSort (fun a b => F64.lt a.order b.order)
        (arcs.filter fun a => decide (a.arcrole = CalculationArcrole ∧ mapLocator role lb a.frm = h))).map (cStruct role lb)) := by
  obtain ⟨hw, hg⟩ := calcGroups role lb arcs
  have hget : ∀ h, mapGet (calcMap role lb arcs) h = (mapGet (arcs.foldl (addCalc role lb) []) h).map
      (stableSort (fun a b => F64.lt a.order b.order)) := by
    intro h
    unfold calcMap
    exact mapGet_map_value _ _ _
  refine ⟨?_, ?_, ?_⟩
  · unfold calcMap MapWF mapKeys
    rw [List.map_map]
    exact hw
  · intro h
    rw [hget, Option.isSome_map, hg]
    have : (arcs.filter fun a => decide (a.arcrole = CalculationArcrole ∧ mapLocator role lb a.frm = h)) ≠ [] ↔
        ∃ a ∈ arcs, IsCalcArc role lb h a := by
      rw [ne_eq, List.filter_eq_nil_iff]
      simp only [decide_eq_true_iff, Classical.not_forall, Classical.not_not]
      constructor
      · rintro ⟨a, h1, h2⟩; exact ⟨a, h1, h2⟩
      · rintro ⟨a, h1, h2⟩; exact ⟨a, h1, h2⟩
    rw [← this]
    generalize arcs.filter _ = g
    cases g <;> simp
  · intro h cs hc
    rw [hget, hg] at hc
    split at hc
    · simp at hc
    · rw [Option.map_some, Option.some.injEq] at hc
      rw [← hc, stableSort_map]
      rfl

/-- What does not depend on languages or facts in an item. -/
def itemCore {Φ : Type} (i : SummationItem Φ) : String × LabelPack × String × List Contributing :=
  (i.href, i.label, i.balance, i.contributing)

/-- The item of a map entry. -/
def coreOf (f : Folder) (m : GoMap String (List CStruct)) (e : String × List CStruct) :
    Option (String × LabelPack × String × List Contributing) :=
  match f.concept e.1 with
  | none => none
  | some c => some (e.1, f.label e.1, c.balance, e.2.filterMap (contributing f m))

theorem summationStep_items {Φ : Type} {f : Folder} {env : GridEnv Φ} {entity : String} {m : GoMap String (List CStruct)}
    {st st' : CalcState Φ} {e : String × List CStruct} (h : summationStep f env entity m st e = .done st') :
    st'.items.map itemCore = st.items.map itemCore ++ (coreOf f m e).toList := by
  unfold summationStep at h
  simp only at h
  cases hr : getRelevantContexts f entity (List.map Contributing.href (e.2.filterMap (contributing f m)) ++ [e.1]) with
  | panic => rw [hr] at h; simp [Run.andThen] at h
  | loop => rw [hr] at h; simp [Run.andThen] at h
  | done rel =>
    rw [hr] at h
    simp only [Run.andThen] at h
    unfold coreOf
    cases hc : f.concept e.1 with
    | none =>
      rw [hc] at h
      cases h
      simp
    | some c =>
      rw [hc] at h
      simp only at h
      cases hg : getMemberGrid env.memberOrder rel.contexts rel.segmentTrees rel.scenarioTrees with
      | panic => rw [hg] at h; simp at h
      | loop => rw [hg] at h; simp at h
      | done g =>
        rw [hg] at h
        cases h
        simp [itemCore]

theorem summationLoop_items {Φ : Type} {f : Folder} {env : GridEnv Φ} {entity : String} {m : GoMap String (List CStruct)}
    {es : GoMap String (List CStruct)} {st st' : CalcState Φ} (h : summationLoop f env entity m st es = .done st') :
    st'.items.map itemCore = st.items.map itemCore ++ es.filterMap (coreOf f m) := by
  induction es generalizing st with
  | nil => unfold summationLoop at h; cases h; simp
  | cons e es ih =>
    unfold summationLoop at h
    cases hs : summationStep f env entity m st e with
    | panic => rw [hs] at h; simp [Run.andThen] at h
    | loop => rw [hs] at h; simp [Run.andThen] at h
    | done st1 =>
      rw [hs] at h
      simp only [Run.andThen] at h
      rw [ih h, summationStep_items hs, List.filterMap_cons, List.append_assoc]
      cases coreOf f m e <;> simp

/-- The items are the entries with a known total, in order of their hrefs. -/
theorem summationItems_core {Φ : Type} {f : Folder} {env : GridEnv Φ} {entity role : String} {lb : Lb CArc} {k : Link CArc}
    {items : List (SummationItem Φ)} {roles : List LabelRole} {langs : List Lang}
    (hl : ∀ h, getPureLabel (f.label h) = h) (h : summationItems f env entity role lb k = .done (items, roles, langs)) :
    items.map itemCore = stableSort (fun a b => decide (a.1 < b.1))
      ((env.mapOrder (calcMap role lb k.arcs)).filterMap (coreOf f (calcMap role lb k.arcs))) := by
  unfold summationItems at h
  simp only at h
  cases hs : summationLoop f env entity (calcMap role lb k.arcs) ⟨[], [], [], []⟩ (env.mapOrder (calcMap role lb k.arcs)) with
  | panic => rw [hs] at h; simp [Run.andThen] at h
  | loop => rw [hs] at h; simp [Run.andThen] at h
  | done st =>
    rw [hs] at h
    simp only [Run.andThen] at h
    cases h
    have hi := summationLoop_items hs
    rw [List.map_nil, List.nil_append] at hi
    have hlab : ∀ i ∈ st.items, getPureLabel i.label = i.href := by
      intro i hi'
      have : itemCore i ∈ st.items.map itemCore := List.mem_map_of_mem hi'
      rw [hi, List.mem_filterMap] at this
      obtain ⟨e, _, he⟩ := this
      unfold coreOf at he
      split at he
      · simp at he
      · unfold itemCore at he
        rw [Option.some.injEq, Prod.mk.injEq, Prod.mk.injEq] at he
        rw [← he.1, ← he.2.1, hl]
    rw [← hi, stableSort_map]
    congr 1
    apply stableSort_congr
    intro a ha b hb
    rw [hlab a ha, hlab b hb]
    rfl

theorem coreOf_href {f : Folder} {m : GoMap String (List CStruct)} {e : String × List CStruct}
    {c : String × LabelPack × String × List Contributing} (h : coreOf f m e = some c) : c.1 = e.1 := by
  unfold coreOf at h
  split at h
  · simp at h
  · cases h; rfl

theorem nodup_cores (f : Folder) (m es : GoMap String (List CStruct)) (h : (mapKeys es).Nodup) :
    ((es.filterMap (coreOf f m)).map Prod.fst).Nodup := by
  induction es with
  | nil => simp
  | cons e es ih =>
    unfold mapKeys at h ih
    rw [List.map_cons, List.nodup_cons] at h
    rw [List.filterMap_cons]
    cases hc : coreOf f m e with
    | none => exact ih h.2
    | some c =>
      rw [List.map_cons, List.nodup_cons]
      refine ⟨?_, ih h.2⟩
      intro hm
      obtain ⟨c', hc', e'⟩ := List.mem_map.1 hm
      obtain ⟨e2, he2, hc2⟩ := List.mem_filterMap.1 hc'
      apply h.1
      rw [← coreOf_href hc, ← e', coreOf_href hc2]
      exact List.mem_map_of_mem he2

theorem coreLess_strictWeak : StrictWeak (fun a b : String × LabelPack × String × List Contributing => decide (a.1 < b.1)) :=
  strictWeak_of_key (key := Prod.fst) strictTotal_string (by simp)

end Render
end Telefacts
