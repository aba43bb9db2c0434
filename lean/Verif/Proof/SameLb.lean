import Verif.Proof.Chance
import Verif.Props.SameCell
import Verif.Model.GridJson
/-! # Linkbases with the same links, in any order of the roles -/
namespace Telefacts
open Telefacts.Linkbase Telefacts.Render Telefacts.Instance

/-- The linkbases have the same role references, and for every role the same links in the same order. -/
structure SameLb {A : Type} (a b : Lb A) : Prop where
  refs : a.roleRefs = b.roleRefs
  links : ∀ r, a.links.filter (fun k => decide (k.role = r)) = b.links.filter fun k => decide (k.role = r)

theorem find_filter {A : Type} (p : A → Bool) (l : List A) : l.find? p = (l.filter p).head? := by
  exact List.head?_filter.symm

theorem findSome_filter {A B : Type} (p : A → Prop) [DecidablePred p] (g : A → Option B) (l : List A) :
    l.findSome? (fun k => if p k then g k else none) = (l.filter fun k => decide (p k)).findSome? g := by
  induction l with
  | nil => rfl
  | cons a l ih =>
    by_cases h : p a
    · simp only [List.findSome?_cons, if_pos h, decide_eq_true h, List.filter_cons_of_pos, ih]
    · simp only [List.findSome?_cons, if_neg h, ih]
      rw [List.filter_cons_of_neg (by simpa using h)]

variable {A : Type} {a b : Lb A}

theorem SameLb.locator (e : SameLb a b) (role loc : String) : mapLocator role a loc = mapLocator role b loc := by
  have : linksHref role loc a.links = linksHref role loc b.links := by
    unfold linksHref
    rw [findSome_filter (fun k : Link A => k.role = role), findSome_filter (fun k : Link A => k.role = role), e.links]
  unfold mapLocator
  rw [e.refs, this]

theorem SameLb.refLinks (e : SameLb a b) (role r : String) :
    (refLinks role a).filter (fun k => decide (k.role = r)) = (refLinks role b).filter fun k => decide (k.role = r) := by
  unfold Render.refLinks
  rw [e.refs]
  split
  · exact e.links r
  · rfl

/-- Linkbases and links that belong together. -/
def SameAt {L : Type} (x y : Lb A × L) : Prop := SameLb x.1 y.1 ∧ x.2 = y.2

theorem firstLink_same (role : String) {as bs : List (Lb A)} (h : List.Forall₂ SameLb as bs) :
    (firstLink role as = none ∧ firstLink role bs = none) ∨
      ∃ x y, firstLink role as = some x ∧ firstLink role bs = some y ∧ SameAt x y := by
  induction h with
  | nil => exact .inl ⟨rfl, rfl⟩
  | @cons a b as bs hab _ ih =>
    have e : (Render.refLinks role a).find? (fun k => decide (k.role = role)) = (Render.refLinks role b).find? fun k => decide (k.role = role) := by
      rw [find_filter, find_filter, hab.refLinks]
    simp only [firstLink, e]
    cases (Render.refLinks role b).find? (fun k => decide (k.role = role)) with
    | none => exact ih
    | some k => exact .inr ⟨_, _, rfl, rfl, hab, rfl⟩

theorem indented_same (f : Folder) (role : String) {as bs : List (Lb PArc)} (h : List.Forall₂ SameLb as bs) :
    getIndentedLabels f as role = getIndentedLabels f bs role := by
  unfold getIndentedLabels
  rcases firstLink_same role h with ⟨e, e'⟩ | ⟨⟨x, k⟩, ⟨y, k'⟩, e, e', hs, hk⟩
  · rw [e, e']
  · rw [e, e']
    cases hk
    simp only [hs.locator]

theorem calc_same {Φ : Type} (f : Folder) (env : GridEnv Φ) (entity role : String) {as bs : List (Lb CArc)} (h : List.Forall₂ SameLb as bs) :
    ∀ ls ls' : List (Link CArc), ls.filter (fun k => decide (k.role = role)) = ls'.filter (fun k => decide (k.role = role)) →
    getSummationItems f env entity role ls as = getSummationItems f env entity role ls' bs ∧ Json.calcFound role ls as = Json.calcFound role ls' bs := by
  induction h with
  | nil => intro _ _ _; exact ⟨rfl, rfl⟩
  | @cons a b as bs hab _ ih =>
    intro ls ls' hl
    have e : (if a.roleRefs.any (fun r => decide (role = r.roleURI)) then a.links else ls).filter (fun k => decide (k.role = role)) =
        (if b.roleRefs.any (fun r => decide (role = r.roleURI)) then b.links else ls').filter (fun k => decide (k.role = role)) := by
      rw [hab.refs]
      split
      · exact hab.links role
      · exact hl
    have hm : ∀ k : Link CArc, calcMap role a k.arcs = calcMap role b k.arcs := by
      intro k
      have : addCalc role a = addCalc role b := by
        funext m x
        unfold addCalc cStruct
        simp only [hab.locator]
      unfold calcMap
      rw [this]
    obtain ⟨ih1, ih2⟩ := ih _ _ e
    constructor
    · simp only [getSummationItems]
      rw [find_filter, e, ← find_filter, ih1]
      simp only [summationItems, hm]
    · simp only [Json.calcFound]
      rw [find_filter, e, ← find_filter, ih2]

theorem forall₂_flatMap {X Y X' Y' : Type} {R : X → Y → Prop} {S : X' → Y' → Prop} {f : X → List X'} {g : Y → List Y'} {xs : List X} {ys : List Y}
    (h : List.Forall₂ R xs ys) (hf : ∀ x y, R x y → List.Forall₂ S (f x) (g y)) : List.Forall₂ S (xs.flatMap f) (ys.flatMap g) := by
  induction h with
  | nil => exact .nil
  | cons h _ ih => exact List.rel_append (hf _ _ h) ih

theorem forall₂_map_same {X X' Y' : Type} {S : X' → Y' → Prop} {f : X → X'} {g : X → Y'} (xs : List X) (hf : ∀ x, S (f x) (g x)) :
    List.Forall₂ S (xs.map f) (xs.map g) := by
  induction xs with
  | nil => exact .nil
  | cons x _ ih => exact .cons (hf x) ih

theorem roleLinks_same (role : String) {as bs : List (Lb DArc)} (h : List.Forall₂ SameLb as bs) :
    List.Forall₂ SameAt (roleLinks role as) (roleLinks role bs) := by
  refine forall₂_flatMap h fun x y hxy => ?_
  rw [hxy.refLinks]
  exact forall₂_map_same _ fun k => ⟨hxy, rfl⟩

theorem roleArcs_same (role : String) {as bs : List (Lb DArc)} (h : List.Forall₂ SameLb as bs) :
    List.Forall₂ SameAt (roleArcs role as) (roleArcs role bs) := by
  refine forall₂_flatMap h fun x y hxy => ?_
  rw [hxy.refLinks]
  refine forall₂_flatMap (R := Eq) (List.forall₂_eq_eq_eq ▸ rfl) fun k k' hk => ?_
  subst hk
  exact forall₂_map_same _ fun k => ⟨hxy, rfl⟩

theorem drs_same (f : Folder) (fmt : F64 → String) (ord : GoMap String Nat → GoMap String Nat) (role : String) {as bs : List (Lb DArc)}
    (h : List.Forall₂ SameLb as bs) : getDRS f fmt ord as role = getDRS f fmt ord bs role := by
  have ha := roleArcs_same role h
  unfold getDRS countHrefs
  generalize roleArcs role as = xs at ha
  generalize roleArcs role bs = ys at ha
  have e1 : ∀ m, xs.foldl (fun m e => incr (incr m (targetHref role e.1 e.2)) (mapLocator role e.1 e.2.frm)) m =
      ys.foldl (fun m e => incr (incr m (targetHref role e.1 e.2)) (mapLocator role e.1 e.2.frm)) m := by
    induction ha with
    | nil => intro m; rfl
    | @cons x y _ _ hxy _ ih =>
      intro m
      simp only [List.foldl_cons]
      rw [ih]
      congr 1
      simp only [targetHref, hxy.1.locator, hxy.2]
  have e2 : xs.map (fun e => drsLink fmt role e.1 e.2) = ys.map fun e => drsLink fmt role e.1 e.2 := by
    clear e1
    induction ha with
    | nil => rfl
    | @cons x y _ _ hxy _ ih =>
      simp only [List.map_cons, ih]
      congr 1
      simp only [drsLink, targetHref, hxy.1.locator, hxy.2]
  simp only [e1, e2]

theorem dimHrefs_same (role : String) (arcs : List DArc) {as bs : List (Lb DArc)} (h : List.Forall₂ SameLb as bs) :
    effectiveDimensionHrefs as role arcs = effectiveDimensionHrefs bs role arcs := by
  have : (as.flatMap fun lb => (arcs.filter fun a => decide (a.arcrole = HypercubeDimensionArcrole)).map fun a => mapLocator role lb a.to) =
      bs.flatMap fun lb => (arcs.filter fun a => decide (a.arcrole = HypercubeDimensionArcrole)).map fun a => mapLocator role lb a.to := by
    induction h with
    | nil => rfl
    | @cons x y _ _ hxy _ ih => simp only [List.flatMap_cons, ih, hxy.locator]
  unfold effectiveDimensionHrefs
  rw [this]

theorem rootDomains_same {Φ : Type} (f : Folder) (mo : GoMap String RelevantMember → GoMap String RelevantMember)
    (source : List Lang → FactSource Φ) (entity role : String) {again again' : Nat → List (Lb DArc)}
    {as bs : List (Lb DArc)} (h : List.Forall₂ SameLb as bs) (hag : ∀ i, List.Forall₂ SameLb (again i) (again' i)) :
    getRootDomains f mo source entity role again as = getRootDomains f mo source entity role again' bs := by
  have hl := roleLinks_same role h
  unfold getRootDomains
  generalize roleLinks role as = xs at hl
  generalize roleLinks role bs = ys at hl
  have : ∀ i st, linkLoop (linkStep f mo source entity role again) st (xs.zipIdx i) =
      linkLoop (linkStep f mo source entity role again') st (ys.zipIdx i) := by
    induction hl with
    | nil => intro i st; rfl
    | @cons x y _ _ hxy _ ih =>
      intro i st
      have hs : linkStep f mo source entity role again st (x, i) = linkStep f mo source entity role again' st (y, i) := by
        have hn : linkNetworks f role x.1 y.2 = linkNetworks f role y.1 y.2 := by
          unfold linkNetworks
          rw [show mapLocator role x.1 = mapLocator role y.1 from funext fun l => hxy.1.locator role l]
        unfold linkStep
        simp only [hxy.2, hn, dimHrefs_same role y.2.arcs (hag i)]
      simp only [List.zipIdx_cons, linkLoop, hs]
      congr 1
      funext st
      exact ih (i + 1) st
  rw [this]

/-- The books of two loads. -/
structure SameBooks (b b' : Books) : Prop where
  presentation : List.Forall₂ SameLb b.presentation b'.presentation
  definition : List.Forall₂ SameLb b.definition b'.definition
  dimensionOrder : ∀ i, List.Forall₂ SameLb (b.dimensionOrder i) (b'.dimensionOrder i)
  definitionAgain : List.Forall₂ SameLb b.definitionAgain b'.definitionAgain
  calculation : List.Forall₂ SameLb b.calculation b'.calculation
  fmt : b.fmt = b'.fmt
  drsOrder : b.drsOrder = b'.drsOrder

theorem renderGrids_same {Φ : Type} (f : Folder) (env : GridEnv Φ) (spanish : Date → Option String) (sched : Schedule) {b b' : Books}
    (h : SameBooks b b') (entity role : String) :
    renderGrids f env spanish sched b entity role = renderGrids f env spanish sched b' entity role := by
  have h1 : pGrid f env entity role b.presentation = pGrid f env entity role b'.presentation := by
    unfold pGrid
    rw [indented_same f role h.presentation]
  have h2 : dGrid f env entity role b = dGrid f env entity role b' := by
    unfold dGrid
    rw [rootDomains_same f env.memberOrder env.source entity role h.definition h.dimensionOrder, h.fmt, h.drsOrder,
      drs_same f b'.fmt b'.drsOrder role h.definitionAgain]
  have h3 : cGrid f env entity role b = cGrid f env entity role b' := (calc_same f env entity role h.calculation [] [] rfl).1
  unfold renderGrids
  rw [h1, h2, h3]

/-! ## Links deduplicated in another order -/

theorem filter_short {k : List (Link A)} (h : (k.map Link.role).Nodup) (r : String) : (k.filter fun x => decide (x.role = r)).length ≤ 1 := by
  induction k with
  | nil => simp
  | cons x k ih =>
    rw [List.map_cons, List.nodup_cons] at h
    by_cases e : x.role = r
    · rw [List.filter_cons_of_pos (by simpa using e)]
      have : k.filter (fun x => decide (x.role = r)) = [] := by
        rw [List.filter_eq_nil_iff]
        intro y hy hr
        exact h.1 (List.mem_map.2 ⟨y, hy, (of_decide_eq_true hr).trans e.symm⟩)
      rw [this]
      simp
    · rw [List.filter_cons_of_neg (by simpa using e)]
      exact ih h.2

theorem dedup_same (ord ord' : GoMap String (Link A) → GoMap String (Link A)) (ho : ∀ m, (ord m).Perm m) (ho' : ∀ m, (ord' m).Perm m)
    (arc : List Attr → Option A) (es : List LinkElem) (r : String) :
    (dedupLinks ord (hydrateLinks arc es)).filter (fun k => decide (k.role = r)) =
      (dedupLinks ord' (hydrateLinks arc es)).filter fun k => decide (k.role = r) := by
  have hn := (dedupLinks_merged (arc := arc) (arcOf := fun x y => arc x = some y) (fun _ _ => Iff.rfl) ord' ho' es).1
  refine perm_short (List.Perm.filter _ ?_) (filter_short hn r)
  unfold dedupLinks
  exact ((ho _).trans (ho' _).symm).map _

end Telefacts
