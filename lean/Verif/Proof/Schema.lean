import Verif.Spec.Schema
import Verif.Proof.Linkbase
import Verif.Props.Attr
/-! # Lemmas about schemas and concept queries -/
namespace Telefacts.Schema
open Telefacts.Spec Telefacts.Linkbase

theorem parseBool_true (s : String) : parseBool s = some true ↔
    (s = "1" ∨ s = "t" ∨ s = "T" ∨ s = "true" ∨ s = "TRUE" ∨ s = "True") := by
  unfold parseBool
  by_cases h : s ∈ ["1", "t", "T", "true", "TRUE", "True"]
  · simp only [if_pos h, true_iff]; simpa using h
  · rw [if_neg h]
    have : ¬ (s = "1" ∨ s = "t" ∨ s = "T" ∨ s = "true" ∨ s = "TRUE" ∨ s = "True") := by simpa using h
    simp only [this, iff_false]
    split <;> simp

theorem boolAttr_iff (attrs : List Attr) (n : String) : boolAttr attrs n = true ↔ IsSet attrs n := by
  simp only [IsSet, attrVal_iff, ← parseBool_true, boolAttr]
  cases findAttr attrs n with
  | none => simp
  | some a => cases h : parseBool a.value <;> simp [h]

theorem spacedAttr_iff (space : String) (attrs : List Attr) (n v : String) :
    spacedAttr space attrs n = v ↔ SpacedVal space attrs n v := by
  simp only [SpacedVal, ← findAttr_iff, spacedAttr]
  cases findAttr attrs n with
  | none => simp [eq_comm]
  | some a =>
    by_cases h : a.name.space = space
    · simp [h]
    · simp [h, eq_comm (a := "")]

theorem cut_pre_empty (s : String) (c : Char) : (∃ b, cut c s = some ("", b)) ↔ s.toList.head? = some c := by
  simp only [cut_eq_some]
  constructor
  · rintro ⟨b, rfl, _⟩; simp
  · intro h
    cases hs : s.toList with
    | nil => simp [hs] at h
    | cons x xs =>
      simp [hs] at h; subst h
      refine ⟨String.ofList xs, ?_, by simp⟩
      apply String.ext; simp [hs]

theorem typedDomain_iff (fileName : String) (attrs : List Attr) (v : String) :
    typedDomain fileName attrs = v ↔ ∃ r, SpacedVal "http://xbrl.org/2005/xbrldt" attrs "typedDomainRef" r ∧
      v = if r.toList.head? = some '#' then fileName ++ r else r := by
  have key : typedDomain fileName attrs =
      (fun r => if r.toList.head? = some '#' then fileName ++ r else r) (spacedAttr XBRLDT attrs "typedDomainRef") := by
    unfold typedDomain spacedAttr
    cases findAttr attrs "typedDomainRef" with
    | none => simp
    | some a =>
      by_cases h : a.name.space = XBRLDT
      · simp only [if_pos h]
        cases hc : cut '#' a.value with
        | none =>
          have : ¬ a.value.toList.head? = some '#' := by
            rw [← cut_pre_empty, hc]; simp
          simp [this]
        | some p =>
          obtain ⟨pre, b⟩ := p
          by_cases hp : pre = ""
          · subst hp
            have : a.value.toList.head? = some '#' := by rw [← cut_pre_empty]; exact ⟨b, hc⟩
            simp [this]
          · have : ¬ a.value.toList.head? = some '#' := by
              rw [← cut_pre_empty, hc]; simp [hp]
            simp [this, hp]
      · simp [h]
  rw [key]
  constructor
  · intro h; exact ⟨_, (spacedAttr_iff _ _ _ _).1 rfl, h.symm⟩
  · rintro ⟨r, hr, rfl⟩
    have := (spacedAttr_iff _ _ _ _).2 hr
    simp only [XBRLDT, this]

theorem substGroup_iff (tl attrs : List Attr) (v : XName) : substGroup tl attrs = v ↔
    ∃ g, OptVal attrs "substitutionGroup" g ∧ ((g = "" ∧ v = ⟨"", ""⟩) ∨ (g ≠ "" ∧ QName tl g v)) := by
  have key : ∀ g, ((g = "" ∧ v = ⟨"", ""⟩) ∨ (g ≠ "" ∧ QName tl g v)) ↔ v = if g = "" then ⟨"", ""⟩ else xmlns tl g := by
    intro g
    rw [← C01_xmlns_resolves]
    by_cases hg : g = ""
    · simp [hg]
    · simp [hg, eq_comm (a := v)]
  simp only [key]
  simp only [← optAttr_iff, substGroup, optAttr]
  cases findAttr attrs "substitutionGroup" with
  | none => simp [eq_comm (b := v)]
  | some a =>
    constructor
    · intro h; exact ⟨a.value, rfl, h.symm⟩
    · rintro ⟨g, rfl, h⟩; exact h.symm

theorem hydrateConcept_iff (tl : List Attr) (fileName : String) (e : Elem) (c : Concept) :
    hydrateConcept tl fileName e = some c ↔ ConceptOf tl fileName e c := by
  simp only [hydrateConcept, Option.bind_eq_bind, Option.bind_eq_some_iff, guard_some, Option.pure_def,
    Option.some.injEq]
  constructor
  · rintro ⟨_, hs, id, hid, _, hid0, nm, hn, _, hn0, ty, ht, _, ht0, rfl⟩
    exact {
      space := hs
      id := ⟨(plainAttr_iff _ _ _).1 hid, hid0⟩
      name := ⟨(plainAttr_iff _ _ _).1 hn, hn0⟩
      target := (optAttr_iff _ _ _).1 rfl
      type := ⟨ty, (plainAttr_iff _ _ _).1 ht, ht0, (C01_xmlns_resolves _ _ _).1 rfl⟩
      subst := (substGroup_iff _ _ _).1 rfl
      nillable := boolAttr_iff _ _
      abstract := boolAttr_iff _ _
      period := (spacedAttr_iff _ _ _ _).1 rfl
      balance := (spacedAttr_iff _ _ _ _).1 rfl
      typed := (typedDomain_iff _ _ _).1 rfl }
  · intro h
    obtain ⟨ty, ht, ht0, hty⟩ := h.type
    replace hty := ((C01_xmlns_resolves _ _ _).2 hty).symm
    refine ⟨(), h.space, c.id, (plainAttr_iff _ _ _).2 h.id.1, (), h.id.2, c.name.loc,
      (plainAttr_iff _ _ _).2 h.name.1, (), h.name.2, ty, (plainAttr_iff _ _ _).2 ht, (), ht0, ?_⟩
    have e1 := (optAttr_iff _ _ _).2 h.target
    have e2 := (substGroup_iff _ _ _).2 h.subst
    have e3 := (spacedAttr_iff _ _ _ _).2 h.period
    have e4 := (spacedAttr_iff _ _ _ _).2 h.balance
    have e5 := (typedDomain_iff _ _ _).2 h.typed
    have e6 : boolAttr e.attrs "nillable" = c.nillable := Bool.eq_iff_iff.2 ((boolAttr_iff _ _).trans h.nillable.symm)
    have e7 : boolAttr e.attrs "abstract" = c.abstract := Bool.eq_iff_iff.2 ((boolAttr_iff _ _).trans h.abstract.symm)
    rw [e1, e2, e5, e6, e7]
    simp only [XBRLI, e3, e4, ← hty]

theorem hydrateRoleType_iff (e : RoleTypeElem) (r : RoleType) :
    hydrateRoleType e = some r ↔ RoleTypeOf e r := by
  have hu : ∀ (u : String × String) s, hydrateUsedOn u = some s ↔
      (u.1 = "http://www.xbrl.org/2003/linkbase" ∧ s = u.2) := by
    intro u s
    unfold hydrateUsedOn
    by_cases h : u.1 = LINK
    · simp [h, LINK, eq_comm]
    · have : ¬ u.1 = "http://www.xbrl.org/2003/linkbase" := h
      simp [h, this]
  obtain ⟨uri, id, d, us⟩ := r
  simp only [hydrateRoleType, RoleTypeOf, collected_iff hu, ← plainAttr_iff, Option.bind_eq_bind,
    Option.bind_eq_some_iff, guard_some, Option.pure_def, Option.some.injEq, RoleType.mk.injEq]
  constructor
  · rintro ⟨_, h1, i, h2, _, h3, u, h4, _, h5, rfl, rfl, rfl, rfl⟩
    exact ⟨h1, h2, h3, h4, h5, by rintro d ds h; simp [h], by intro h; simp [h], rfl⟩
  · rintro ⟨h1, h2, h3, h4, h5, h6, h7, h8⟩
    refine ⟨(), h1, id, h2, (), h3, uri, h4, (), h5, rfl, rfl, ?_, h8.symm⟩
    cases hd : e.definitions with
    | nil => simp [h7 hd]
    | cons x xs => simp [h6 x xs hd]

theorem conceptsAt_iff (h : Env) (l : String) (cs : List Concept) :
    conceptsAt h l = .ok cs ↔ ∃ file, FileAt h l file ∧ Collected (ConceptOf file.attrs l) file.elements cs := by
  have hc : ∀ file : SchemaFile, Collected (ConceptOf file.attrs l) file.elements cs ↔ cs = hydrateConcepts file l :=
    fun file => collected_iff (hydrateConcept_iff file.attrs l) file.elements cs
  simp only [hc, FileAt, conceptsAt]
  by_cases hl : l = ""
  · subst hl
    simp only [ne_eq, not_true_eq_false, false_and, exists_false, iff_false]
    cases hv : h.validUrl "" with
    | true =>
      simp only [if_true, globalSchema]
      cases h.discover "" <;> simp [hydrateSchema]
    | false => simp [hydrateSchema]
  · cases hv : h.validUrl l with
    | true =>
      simp only [if_true, globalSchema]
      cases hd : h.discover l <;> simp [hydrateSchema, hl, eq_comm]
    | false =>
      cases hm : mapGet h.schemas l <;> simp [hydrateSchema, hl, eq_comm, SchemaFile.empty]

theorem fileAt_unique {h : Env} {l : String} {f f' : SchemaFile} (h1 : FileAt h l f) (h2 : FileAt h l f') : f = f' := by
  obtain ⟨_, h1⟩ := h1
  obtain ⟨_, h2⟩ := h2
  rcases h1 with ⟨v, d⟩ | ⟨v, d⟩ <;> rcases h2 with ⟨v', d'⟩ | ⟨v', d'⟩
  · rw [d] at d'; exact Option.some.inj d'
  · simp [v] at v'
  · simp [v] at v'
  · rcases d with d | ⟨d, rfl⟩ <;> rcases d' with d' | ⟨d', rfl⟩ <;> simp_all

theorem mem_concepts {h : Env} {l : String} {cs : List Concept} (hcs : conceptsAt h l = .ok cs) (c : Concept) :
    c ∈ cs ↔ Declares h l c := by
  obtain ⟨file, hf, hcol⟩ := (conceptsAt_iff h l cs).1 hcs
  have hcol' := (collected_iff (hydrateConcept_iff file.attrs l) file.elements cs).1 hcol
  rw [hcol', List.mem_filterMap]
  constructor
  · rintro ⟨e, he, hc⟩; exact ⟨file, hf, e, he, (hydrateConcept_iff _ _ _ _).1 hc⟩
  · rintro ⟨file', hf', e, he, hc⟩
    have := fileAt_unique hf hf'; subst this
    exact ⟨e, he, (hydrateConcept_iff _ _ _ _).2 hc⟩

theorem declares_ok {h : Env} {l : String} {c : Concept} (hd : Declares h l c) :
    ∃ cs, conceptsAt h l = .ok cs ∧ c ∈ cs := by
  obtain ⟨file, hf, e, he, hc⟩ := hd
  have h1 : conceptsAt h l = .ok (hydrateConcepts file l) :=
    (conceptsAt_iff h l _).2 ⟨file, hf, (collected_iff (hydrateConcept_iff file.attrs l) _ _).2 rfl⟩
  exact ⟨_, h1, (mem_concepts h1 c).2 ⟨file, hf, e, he, hc⟩⟩

theorem Declares.id_ne {h : Env} {l : String} {c : Concept} (hd : Declares h l c) : c.id ≠ "" ∧ c.name.loc ≠ "" := by
  obtain ⟨file, hf, e, he, hc⟩ := hd
  exact ⟨hc.id.2, hc.name.2⟩

/-- What a successful name query means. -/
theorem nameQuery_some {h : Env} {ns loc href : String} {c : Concept}
    (hq : nameQuery h ns loc = .ok (some (href, c))) :
    ∃ l, mapGet h.namespaces ns = some l ∧ l ≠ "" ∧ href = l ++ "#" ++ c.id ∧ Declares h l c ∧ c.name = ⟨ns, loc⟩ := by
  unfold nameQuery at hq
  cases hm : mapGet h.namespaces ns with
  | none => simp [hm] at hq
  | some l =>
    by_cases hl : l = ""
    · simp [hm, hl] at hq
    · simp only [hm, Option.getD_some, if_neg hl] at hq
      cases hcs : conceptsAt h l with
      | err m => simp [hcs] at hq
      | panic => simp [hcs] at hq
      | ok cs =>
        simp only [hcs] at hq
        cases hf : cs.find? (fun c => decide (loc = c.name.loc ∧ ns = c.name.space)) with
        | none => rw [hf] at hq; simp at hq
        | some c' =>
          simp only [hf, Res.ok.injEq, Option.some.injEq, Prod.mk.injEq] at hq
          obtain ⟨rfl, rfl⟩ := hq
          have hmem := List.mem_of_find?_eq_some hf
          have hp := List.find?_some hf
          simp only [decide_eq_true_eq] at hp
          refine ⟨l, rfl, hl, rfl, (mem_concepts hcs _).1 hmem, ?_⟩
          obtain ⟨⟨s, n⟩, _⟩ := c'
          simp only at hp; rw [hp.1, hp.2]

/-- The outcome of a name query. -/
theorem nameQuery_iff (h : Env) (n : XName) (href : String) (c : Concept) :
    nameQuery h n.space n.loc = .ok (some (href, c)) ↔ NameOf h n href c := by
  have hp : (fun c : Concept => decide (n.loc = c.name.loc ∧ n.space = c.name.space)) = fun c => decide (c.name = n) := by
    funext c
    obtain ⟨s, l⟩ := n
    obtain ⟨⟨s', l'⟩, _⟩ := c
    simp only [XName.mk.injEq, decide_eq_decide]
    constructor
    · rintro ⟨rfl, rfl⟩; exact ⟨rfl, rfl⟩
    · rintro ⟨rfl, rfl⟩; exact ⟨rfl, rfl⟩
  unfold nameQuery
  rw [hp]
  constructor
  · intro hq
    cases hm : mapGet h.namespaces n.space with
    | none => simp [hm] at hq
    | some l =>
      by_cases hl : l = ""
      · simp [hm, hl] at hq
      · simp only [hm, Option.getD_some, if_neg hl] at hq
        cases hcs : conceptsAt h l with
        | err m => simp [hcs] at hq
        | panic => simp [hcs] at hq
        | ok cs =>
          simp only [hcs] at hq
          cases hf : cs.find? (fun c => decide (c.name = n)) with
          | none => rw [hf] at hq; simp at hq
          | some c' =>
            simp only [hf, Res.ok.injEq, Option.some.injEq, Prod.mk.injEq] at hq
            obtain ⟨rfl, rfl⟩ := hq
            obtain ⟨file, h1, h2⟩ := (conceptsAt_iff h l cs).1 hcs
            exact ⟨l, file, cs, hm, h1, h2, by have := (firstWith_iff_find (fun c : Concept => decide (c.name = n)) cs c').2 hf; simpa using this, rfl⟩
  · rintro ⟨l, file, cs, hm, h1, h2, h3, rfl⟩
    have hcs := (conceptsAt_iff h l cs).2 ⟨file, h1, h2⟩
    have hf : cs.find? (fun c => decide (c.name = n)) = some c := (firstWith_iff_find (fun c : Concept => decide (c.name = n)) cs c).1 (by simpa using h3)
    simp only [hm, Option.getD_some, if_neg h1.1, hcs, hf]

theorem namespaceOf_mem (order : GoMap String String) (base : String) :
    (∃ k, (k, base) ∈ order) → (namespaceOf order base, base) ∈ order := by
  have key : ∀ (order : GoMap String String) (acc : String),
      (order.foldl (fun acc e => if e.2 = base then e.1 else acc) acc = acc ∧ ∀ k, (k, base) ∉ order) ∨
      (order.foldl (fun acc e => if e.2 = base then e.1 else acc) acc, base) ∈ order := by
    intro order
    induction order with
    | nil => intro acc; left; simp
    | cons e es ih =>
      intro acc
      simp only [List.foldl_cons]
      rcases ih (if e.2 = base then e.1 else acc) with ⟨h1, h2⟩ | h1
      · by_cases he : e.2 = base
        · right; rw [h1, if_pos he, ← he]; exact List.mem_cons_self
        · left
          rw [h1, if_neg he]
          refine ⟨rfl, ?_⟩
          intro k hk
          rcases List.mem_cons.1 hk with h3 | h3
          · exact he (by rw [← h3])
          · exact h2 k h3
      · right; exact List.mem_cons_of_mem _ h1
  rintro ⟨k, hk⟩
  rcases key order "" with ⟨_, h⟩ | h
  · exact absurd hk (h k)
  · exact h

/-- A declared concept is found by its id. -/
theorem hashQuery_declared {h : Env} {l : String} {c : Concept} (order : GoMap String String)
    (hd : Declares h l c) (hl : '#' ∉ l.toList) :
    ∃ c', hashQuery h order (l ++ "#" ++ c.id) = .ok (namespaceOf order l, c') ∧ c'.id = c.id ∧ Declares h l c' := by
  have hl0 : l ≠ "" := by obtain ⟨f, hf, _⟩ := hd; exact hf.1
  have hcut : cut '#' (l ++ "#" ++ c.id) = some (l, c.id) := cut_eq_some.2 ⟨rfl, hl⟩
  obtain ⟨cs, hcs, hmem⟩ := declares_ok hd
  unfold hashQuery
  simp only [hcut, if_neg hl0, if_neg hd.id_ne.1, hcs]
  cases hf : cs.find? (fun x => decide (c.id = x.id)) with
  | none =>
    have := List.find?_eq_none.1 hf c hmem
    simp at this
  | some c' =>
    refine ⟨c', rfl, ?_, (mem_concepts hcs _).1 (List.mem_of_find?_eq_some hf)⟩
    have := List.find?_some hf
    simp only [decide_eq_true_eq] at this
    exact this.symm

theorem conceptsAt_ne_panic (h : Env) (l : String) : conceptsAt h l ≠ .panic := by
  unfold conceptsAt globalSchema hydrateSchema
  by_cases hl : l = "" <;> by_cases hv : h.validUrl l = true <;> cases h.discover l <;> simp_all

theorem nameQuery_ne_panic (h : Env) (ns loc : String) : nameQuery h ns loc ≠ .panic := by
  unfold nameQuery
  have := conceptsAt_ne_panic h ((mapGet h.namespaces ns).getD "")
  intro hp
  simp only at hp
  revert hp
  split
  · simp
  · split
    · simp
    · simp_all
    · split <;> simp

theorem hashQuery_ne_panic (h : Env) (order : GoMap String String) (q : String) : hashQuery h order q ≠ .panic := by
  unfold hashQuery
  split
  · simp
  · rename_i base fragment _
    have := conceptsAt_ne_panic h base
    split
    · simp
    · split
      · simp
      · split
        · simp
        · simp_all
        · split <;> simp

end Telefacts.Schema
