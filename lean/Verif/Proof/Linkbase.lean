import Verif.Spec.Linkbase
import Verif.Proof.AttrVal
import Verif.Proof.Prelude
/-! # Lemmas for linkbases -/
namespace Telefacts.Linkbase
open Telefacts.Spec

theorem collected_iff {α β : Type} {R : α → β → Prop} {f : α → Option β}
    (h : ∀ x y, f x = some y ↔ R x y) (l : List α) (out : List β) :
    Collected R l out ↔ out = l.filterMap f := by
  induction l generalizing out with
  | nil =>
    constructor
    · intro hc; cases hc; rfl
    · rintro rfl; exact .nil
  | cons x xs ih =>
    cases hf : f x with
    | some y =>
      rw [List.filterMap_cons_some hf]
      constructor
      · intro hc
        cases hc with
        | keep _ y' _ ys hr hc =>
          rw [← h, hf] at hr; cases hr
          rw [(ih ys).1 hc]
        | skip _ _ _ hn _ => exact absurd ((h x y).1 hf) (hn y)
      · rintro rfl
        exact .keep _ _ _ _ ((h x y).1 hf) ((ih _).2 rfl)
    | none =>
      rw [List.filterMap_cons_none hf]
      constructor
      · intro hc
        cases hc with
        | keep _ y' _ ys hr hc => rw [← h, hf] at hr; cases hr
        | skip _ _ _ hn hc => exact (ih out).1 hc
      · rintro rfl
        refine .skip _ _ _ (fun y hr => ?_) ((ih _).2 rfl)
        rw [← h, hf] at hr; cases hr

theorem plainAttr_iff (attrs : List Attr) (n v : String) : plainAttr attrs n = some v ↔ AttrVal attrs n v := by
  rw [attrVal_iff, plainAttr]
  cases findAttr attrs n <;> simp

theorem findAttr_none (attrs : List Attr) (n : String) :
    findAttr attrs n = none ↔ ∀ a ∈ attrs, a.name.loc ≠ n := by
  induction attrs with
  | nil => simp [findAttr]
  | cons a as ih =>
    by_cases h : a.name.loc = n <;> simp [findAttr, h, ih]

theorem optAttr_iff (attrs : List Attr) (n v : String) : optAttr attrs n = v ↔ OptVal attrs n v := by
  rw [OptVal, attrVal_iff, optAttr, ← findAttr_none]
  cases findAttr attrs n <;> simp [eq_comm]

theorem guard_some (p : Prop) [Decidable p] (u : Unit) : (guard p : Option Unit) = some u ↔ p := by
  by_cases h : p <;> simp [guard, h]

theorem hydrateLoc_iff (attrs : List Attr) (l : Loc) : hydrateLoc attrs = some l ↔ LocOf attrs l := by
  obtain ⟨href, label⟩ := l
  simp only [LocOf, xlinkVal_iff, ← plainAttr_iff, hydrateLoc, Option.bind_eq_bind, Option.bind_eq_some_iff,
    guard_some, Option.pure_def, Option.some.injEq, Loc.mk.injEq]
  constructor
  · rintro ⟨t, h1, _, h2, l, h3, _, h4, h, h5, _, h6, rfl, rfl⟩
    subst h2
    exact ⟨h1, h3, h4, h5, h6⟩
  · rintro ⟨h1, h2, h3, h4, h5⟩
    exact ⟨_, h1, (), rfl, _, h2, (), h3, _, h4, (), h5, rfl, rfl⟩

theorem linkRole_iff (e : LinkElem) (r : String) : linkRole e.attrs = some r ↔ HasRole e r := by
  simp only [HasRole, xlinkVal_iff, ← plainAttr_iff, linkRole, Option.bind_eq_bind, Option.bind_eq_some_iff,
    guard_some, Option.pure_def, Option.some.injEq]
  constructor
  · rintro ⟨t, h1, _, h2, l, h3, _, h4, rfl⟩
    subst h2
    exact ⟨h1, h3, h4⟩
  · rintro ⟨h1, h2, h3⟩
    exact ⟨_, h1, (), rfl, _, h2, (), h3, rfl⟩

theorem arcEnds_iff (attrs : List Attr) (a f t : String) :
    arcEnds attrs = some (a, f, t) ↔ ArcEnds attrs a f t := by
  simp only [ArcEnds, xlinkVal_iff, arcEnds, Option.bind_eq_bind, Option.bind_eq_some_iff,
    guard_some, Option.pure_def, Option.some.injEq, Prod.mk.injEq]
  constructor
  · rintro ⟨t, h1, _, h2, l, h3, _, h4, m, h5, _, h6, n, h7, _, h8, rfl, rfl, rfl⟩
    subst h2
    exact ⟨h1, h3, h4, h5, h6, h7, h8⟩
  · rintro ⟨h1, h2, h3, h4, h5, h6, h7⟩
    exact ⟨_, h1, (), rfl, _, h2, (), h3, _, h4, (), h5, _, h6, (), h7, rfl, rfl, rfl⟩

theorem largest_eq : F64.maxFinite = largest := by
  simp only [F64.maxFinite, largest, F64.fin.injEq]
  rw [Int.mul_assoc, ← Int.pow_add]

theorem numVal_iff (parse : String → F64 × Bool) (attrs : List Attr) (n : String) (dflt v : F64) :
    NumVal parse attrs n dflt v ↔ ∃ s, plainAttr attrs n = some s ∧ s ≠ "" ∧
      v = if (parse s).2 then (parse s).1 else dflt := by
  simp only [NumVal, plainAttr_iff]
  constructor
  · rintro ⟨s, h1, h2, ⟨h3, h4⟩ | ⟨h3, h4⟩⟩ <;> exact ⟨s, h1, h2, by simp [h3, h4]⟩
  · rintro ⟨s, h1, h2, rfl⟩
    refine ⟨s, h1, h2, ?_⟩
    cases (parse s).2 <;> simp

theorem presentationArc_iff (parse : String → F64 × Bool) (attrs : List Attr) (a : PArc) :
    presentationArc parse attrs = some a ↔ PArcOf parse attrs a := by
  obtain ⟨o, r, f, t, l⟩ := a
  simp only [PArcOf, ← arcEnds_iff, numVal_iff, ← optAttr_iff, presentationArc, Option.bind_eq_bind,
    Option.bind_eq_some_iff, guard_some, Option.pure_def, Option.some.injEq, PArc.mk.injEq, ← largest_eq]
  constructor
  · rintro ⟨s, h1, _, h2, ⟨r', f', t'⟩, h3, rfl, rfl, rfl, rfl, rfl⟩
    exact ⟨h3, ⟨s, h1, h2, rfl⟩, rfl⟩
  · rintro ⟨h3, ⟨s, h1, h2, rfl⟩, rfl⟩
    exact ⟨s, h1, (), h2, _, h3, rfl, rfl, rfl, rfl, rfl⟩

theorem calculationArc_iff (parse : String → F64 × Bool) (attrs : List Attr) (a : CArc) :
    calculationArc parse attrs = some a ↔ CArcOf parse attrs a := by
  obtain ⟨o, r, f, t, w⟩ := a
  simp only [CArcOf, ← arcEnds_iff, numVal_iff, calculationArc, Option.bind_eq_bind,
    Option.bind_eq_some_iff, guard_some, Option.pure_def, Option.some.injEq, CArc.mk.injEq, ← largest_eq]
  constructor
  · rintro ⟨s, h1, _, h2, ⟨r', f', t'⟩, h3, s', h4, _, h5, rfl, rfl, rfl, rfl, rfl⟩
    exact ⟨h3, ⟨s, h1, h2, rfl⟩, ⟨s', h4, h5, rfl⟩⟩
  · rintro ⟨h3, ⟨s, h1, h2, rfl⟩, ⟨s', h4, h5, rfl⟩⟩
    exact ⟨s, h1, (), h2, _, h3, s', h4, (), h5, rfl, rfl, rfl, rfl, rfl⟩

theorem definitionArc_iff (parse : String → F64 × Bool) (attrs : List Attr) (a : DArc) :
    definitionArc parse attrs = some a ↔
      DArcOf parse attrs a ∧ a.closed = closedFlag attrs ∧ a.usable = usableFlag attrs := by
  obtain ⟨o, r, f, t, c, u, ce, tr⟩ := a
  simp only [DArcOf, ← arcEnds_iff, numVal_iff, ← optAttr_iff, definitionArc, Option.bind_eq_bind,
    Option.bind_eq_some_iff, guard_some, Option.pure_def, Option.some.injEq, DArc.mk.injEq, ← largest_eq]
  constructor
  · rintro ⟨s, h1, _, h2, ⟨r', f', t'⟩, h3, rfl, rfl, rfl, rfl, rfl, rfl, rfl, rfl⟩
    exact ⟨⟨h3, ⟨s, h1, h2, rfl⟩, rfl, rfl⟩, rfl, rfl⟩
  · rintro ⟨⟨h3, ⟨s, h1, h2, rfl⟩, rfl, rfl⟩, rfl, rfl⟩
    exact ⟨s, h1, (), h2, _, h3, rfl, rfl, rfl, rfl, rfl, rfl, rfl, rfl⟩

/-! ## Merging -/

theorem merge_inv {A : Type} (done : List (Link A)) (m : GoMap String (Link A)) (todo : List (Link A))
    (wf : MapWF m)
    (h : ∀ r l, mapGet m r = some l ↔ (∃ k ∈ done, k.role = r) ∧ l.role = r ∧
      l.locs = (done.filter (·.role = r)).flatMap Link.locs ∧ l.arcs = (done.filter (·.role = r)).flatMap Link.arcs) :
    let m' := todo.foldl mergeLink m
    MapWF m' ∧ ∀ r l, mapGet m' r = some l ↔ (∃ k ∈ done ++ todo, k.role = r) ∧ l.role = r ∧
      l.locs = ((done ++ todo).filter (·.role = r)).flatMap Link.locs ∧
      l.arcs = ((done ++ todo).filter (·.role = r)).flatMap Link.arcs := by
  induction todo generalizing done m with
  | nil => simpa using ⟨wf, h⟩
  | cons x xs ih =>
    rw [List.foldl_cons, show done ++ x :: xs = (done ++ [x]) ++ xs by simp]
    apply ih
    · unfold mergeLink; split <;> exact wf.mapSet _ _
    · intro r l
      unfold mergeLink
      split
      · rename_i k hk
        obtain ⟨⟨k0, hk0, hk0r⟩, e1, e2, e3⟩ := (h x.role k).1 hk
        rw [mapGet_mapSet]
        by_cases hr : x.role = r
        · subst hr
          simp only [if_true, Option.some.injEq, List.filter_append, List.flatMap_append, ← e2, ← e3]
          constructor
          · rintro rfl
            exact ⟨⟨x, by simp, rfl⟩, e1, by simp, by simp⟩
          · rintro ⟨_, h1, h2, h3⟩
            obtain ⟨a, b, c⟩ := l
            simp_all
        · rw [if_neg hr, h r l]
          simp [List.filter_append, hr]
      · rename_i hk
        rw [mapGet_mapSet]
        have hno : ∀ k ∈ done, k.role ≠ x.role := by
          intro k hk' hkr
          have := (h x.role ⟨x.role, (done.filter (·.role = x.role)).flatMap Link.locs, (done.filter (·.role = x.role)).flatMap Link.arcs⟩).2
            ⟨⟨k, hk', hkr⟩, rfl, rfl, rfl⟩
          rw [hk] at this; cases this
        by_cases hr : x.role = r
        · subst hr
          have hf : done.filter (fun l => l.role = x.role) = [] := by
            rw [List.filter_eq_nil_iff]; intro k hk'; simpa using hno k hk'
          simp only [if_true, Option.some.injEq, List.filter_append, List.flatMap_append, hf]
          constructor
          · rintro rfl
            exact ⟨⟨x, by simp, rfl⟩, rfl, by simp, by simp⟩
          · rintro ⟨_, h1, h2, h3⟩
            obtain ⟨a, b, c⟩ := l
            obtain ⟨a', b', c'⟩ := x
            simp_all
        · rw [if_neg hr, h r l]
          simp [List.filter_append, hr]

theorem hydrateLinks_filter {A B : Type} (arc : List Attr → Option A) (r : String) (g : Link A → List B)
    (g' : LinkElem → List B)
    (hg : ∀ e r, g ⟨r, e.locs.filterMap hydrateLoc, e.arcs.filterMap arc⟩ = g' e) (es : List LinkElem) :
    ((hydrateLinks arc es).filter (·.role = r)).flatMap g =
      (es.filterMap fun e => if linkRole e.attrs = some r then some (g' e) else none).flatten := by
  induction es with
  | nil => rfl
  | cons e es ih =>
    simp only [hydrateLinks] at ih ⊢
    cases hr : linkRole e.attrs with
    | none =>
      have h1 : hydrateLink arc e = none := by simp [hydrateLink, hr]
      rw [List.filterMap_cons_none h1, List.filterMap_cons_none (by simp [hr]), ih]
    | some r' =>
      have h1 : hydrateLink arc e = some ⟨r', e.locs.filterMap hydrateLoc, e.arcs.filterMap arc⟩ := by
        simp [hydrateLink, hr]
      rw [List.filterMap_cons_some h1]
      by_cases h : r' = r
      · subst h
        rw [List.filterMap_cons_some (b := g' e) (by simp [hr])]
        simp [ih, hg]
      · rw [List.filterMap_cons_none (by simp [hr, h]), ← ih]
        simp [h]

theorem mem_hydrateLinks_role {A : Type} (arc : List Attr → Option A) (es : List LinkElem) (r : String) :
    (∃ k ∈ hydrateLinks arc es, k.role = r) ↔ ∃ e ∈ es, HasRole e r := by
  simp only [hydrateLinks, List.mem_filterMap, ← linkRole_iff]
  constructor
  · rintro ⟨k, ⟨e, he, h⟩, rfl⟩
    refine ⟨e, he, ?_⟩
    cases hr : linkRole e.attrs with
    | none => simp [hydrateLink, hr] at h
    | some r' => simp [hydrateLink, hr] at h; subst h; rfl
  · rintro ⟨e, he, h⟩
    exact ⟨⟨r, _, _⟩, ⟨e, he, by simp [hydrateLink, h]; exact ⟨rfl, rfl⟩⟩, rfl⟩

theorem dedupLinks_merged {A : Type} {arc : List Attr → Option A} {arcOf : List Attr → A → Prop}
    (harc : ∀ x y, arc x = some y ↔ arcOf x y)
    (ord : GoMap String (Link A) → GoMap String (Link A)) (hord : ∀ m, (ord m).Perm m) (es : List LinkElem) :
    Merged arcOf es (dedupLinks ord (hydrateLinks arc es)) := by
  obtain ⟨wf, hm⟩ := merge_inv [] [] (hydrateLinks arc es) MapWF.nil (by simp)
  simp only [List.nil_append] at hm wf
  set m := (hydrateLinks arc es).foldl mergeLink [] with hmdef
  have hmem : ∀ l, l ∈ dedupLinks ord (hydrateLinks arc es) ↔ mapGet m l.role = some l := by
    intro l
    simp only [dedupLinks, ← hmdef, List.mem_map, (hord m).mem_iff, Prod.exists, exists_eq_right]
    constructor
    · rintro ⟨r, hr⟩
      have := mapGet_of_mem wf hr
      have hrole := ((hm r l).1 this).2.1
      rw [hrole]; exact this
    · intro h; exact ⟨_, mem_of_mapGet h⟩
  refine ⟨?_, ?_, ?_⟩
  · have hkeys : (dedupLinks ord (hydrateLinks arc es)).map Link.role = mapKeys (ord m) := by
      simp only [dedupLinks, ← hmdef, List.map_map, mapKeys]
      apply List.map_congr_left
      rintro ⟨r, l⟩ hp
      exact ((hm r l).1 (mapGet_of_mem wf ((hord m).mem_iff.1 hp))).2.1
    rw [hkeys]; exact wf.perm (hord m).symm
  · intro r
    rw [← mem_hydrateLinks_role arc]
    constructor
    · rintro ⟨l, hl, rfl⟩
      exact ((hm _ _).1 ((hmem l).1 hl)).1
    · intro hex
      have := (hm r ⟨r, _, _⟩).2 ⟨hex, rfl, rfl, rfl⟩
      exact ⟨⟨r, _, _⟩, (hmem _).2 this, rfl⟩
  · intro l hl
    obtain ⟨_, _, h1, h2⟩ := (hm _ _).1 ((hmem l).1 hl)
    constructor
    · rw [hydrateLinks_filter arc l.role Link.locs (fun e => e.locs.filterMap hydrateLoc) (fun _ _ => rfl)] at h1
      refine ⟨_, ?_, h1⟩
      rw [collected_iff]
      intro e p
      rw [collected_iff hydrateLoc_iff, ← linkRole_iff]
      by_cases hr : linkRole e.attrs = some l.role <;> simp [hr, eq_comm]
    · rw [hydrateLinks_filter arc l.role Link.arcs (fun e => e.arcs.filterMap arc) (fun _ _ => rfl)] at h2
      refine ⟨_, ?_, h2⟩
      rw [collected_iff]
      intro e p
      rw [collected_iff harc, ← linkRole_iff]
      by_cases hr : linkRole e.attrs = some l.role <;> simp [hr, eq_comm]

theorem collected_mem {α β : Type} {R : α → β → Prop} {l : List α} {out : List β} (h : Collected R l out)
    (y : β) : y ∈ out → ∃ x ∈ l, R x y := by
  induction h with
  | nil => simp
  | keep x y' xs ys hr _ ih =>
    intro hy
    rcases List.mem_cons.1 hy with rfl | hy
    · exact ⟨x, by simp, hr⟩
    · obtain ⟨x', hx', hr'⟩ := ih hy; exact ⟨x', by simp [hx'], hr'⟩
  | skip x xs ys hn _ ih =>
    intro hy
    obtain ⟨x', hx', hr'⟩ := ih hy; exact ⟨x', by simp [hx'], hr'⟩

theorem collected_of_mem {α β : Type} {R : α → β → Prop} {l : List α} {out : List β} (h : Collected R l out)
    (hf : ∀ x y y', R x y → R x y' → y = y') {x : α} (hx : x ∈ l) {y : β} (hr : R x y) : y ∈ out := by
  induction h with
  | nil => cases hx
  | keep x' y' xs ys hr' _ ih =>
    rcases List.mem_cons.1 hx with rfl | hx
    · rw [hf _ _ _ hr hr']; simp
    · exact List.mem_cons_of_mem _ (ih hx)
  | skip x' xs ys hn _ ih =>
    rcases List.mem_cons.1 hx with rfl | hx
    · exact absurd hr (hn y)
    · exact ih hx

theorem collected_unique {α β : Type} {R : α → β → Prop} (hf : ∀ x y y', R x y → R x y' → y = y')
    {l : List α} {o o' : List β} (h : Collected R l o) (h' : Collected R l o') : o = o' := by
  induction h generalizing o' with
  | nil => cases h'; rfl
  | keep x y xs ys hr _ ih =>
    cases h' with
    | keep _ y' _ ys' hr' h' => rw [hf _ _ _ hr hr', ih h']
    | skip _ _ _ hn _ => exact absurd hr (hn _)
  | skip x xs ys hn _ ih =>
    cases h' with
    | keep _ y' _ ys' hr' h' => exact absurd hr' (hn _)
    | skip _ _ _ _ h' => exact ih h'

end Telefacts.Linkbase
