import Verif.Proof.Linkbase
/-! # C19 - C21, C71, C72: linkbases -/
namespace Telefacts
open Telefacts.Linkbase Telefacts.Spec

theorem boolText_iff (s : String) : BoolText s ↔ parseBool s ≠ none := by
  unfold BoolText parseBool
  rw [show ["1", "t", "T", "true", "TRUE", "True", "0", "f", "F", "false", "FALSE", "False"] =
    ["1", "t", "T", "true", "TRUE", "True"] ++ ["0", "f", "F", "false", "FALSE", "False"] from rfl, List.mem_append]
  by_cases h1 : s ∈ ["1", "t", "T", "true", "TRUE", "True"]
  · simp only [if_pos h1, h1]; simp
  · by_cases h2 : s ∈ ["0", "f", "F", "false", "FALSE", "False"]
    · simp only [if_neg h1, if_pos h2, h2]; simp
    · simp only [if_neg h1, if_neg h2]; simp [h1, h2]

/-- **C19.** Extended links of the same role are merged: whatever the map iteration order, each role of
the file occurs once, with all its locators and arcs in document order. -/
theorem C19_presentation (parse : String → F64 × Bool)
    (ord : GoMap String (Link PArc) → GoMap String (Link PArc)) (hord : ∀ m, (ord m).Perm m)
    (es : List LinkElem) : Merged (PArcOf parse) es (hydratePresentationLink parse ord es) :=
  dedupLinks_merged (presentationArc_iff parse) ord hord es

theorem C19_calculation (parse : String → F64 × Bool)
    (ord : GoMap String (Link CArc) → GoMap String (Link CArc)) (hord : ∀ m, (ord m).Perm m)
    (es : List LinkElem) : Merged (CArcOf parse) es (hydrateCalculationLink parse ord es) :=
  dedupLinks_merged (calculationArc_iff parse) ord hord es

theorem C19_definition (parse : String → F64 × Bool)
    (ord : GoMap String (Link DArc) → GoMap String (Link DArc)) (hord : ∀ m, (ord m).Perm m)
    (es : List LinkElem) :
    Merged (fun x a => DArcOf parse x a ∧ a.closed = false ∧
      (a.usable = true ↔ ∃ s, AttrVal x "usable" s ∧ BoolText s)) es
      (hydrateDefinitionLink parse ord es) := by
  apply dedupLinks_merged _ ord hord es
  intro x a
  rw [definitionArc_iff]
  have h1 : closedFlag x = false := by
    unfold closedFlag; split
    · rfl
    · split <;> rfl
  have h2 : usableFlag x = true ↔ ∃ s, AttrVal x "usable" s ∧ BoolText s := by
    simp only [attrVal_iff, usableFlag, boolText_iff]
    cases findAttr x "usable" with
    | none => simp
    | some b => cases hb : parseBool b.value <;> simp [hb]
  rw [h1, ← h2]
  constructor
  · rintro ⟨ha, hb, hc⟩; exact ⟨ha, hb, by rw [hc]⟩
  · rintro ⟨ha, hb, hc⟩; exact ⟨ha, hb, Bool.eq_iff_iff.2 hc⟩

/-- What `Merged` says about one arc. -/
theorem merged_mem_iff {A : Type} {arcOf : List Attr → A → Prop} {es : List LinkElem} {ls : List (Link A)}
    (h : Merged arcOf es ls) (hf : ∀ x a a', arcOf x a → arcOf x a' → a = a') (r : String) (a : A) :
    (∃ l ∈ ls, l.role = r ∧ a ∈ l.arcs) ↔ ∃ e ∈ es, HasRole e r ∧ ∃ x ∈ e.arcs, arcOf x a := by
  constructor
  · rintro ⟨l, hl, rfl, ha⟩
    obtain ⟨_, parts, hp, he⟩ := h.2.2 l hl
    rw [he] at ha
    obtain ⟨p, hpm, hap⟩ := List.mem_flatten.1 ha
    obtain ⟨e, hem, hr, hc⟩ := collected_mem hp p hpm
    obtain ⟨x, hx, hax⟩ := collected_mem hc a hap
    exact ⟨e, hem, hr, x, hx, hax⟩
  · rintro ⟨e, he, hr, x, hx, hax⟩
    obtain ⟨l, hl, rfl⟩ := (h.2.1 r).2 ⟨e, he, hr⟩
    refine ⟨l, hl, rfl, ?_⟩
    obtain ⟨_, parts, hp, heq⟩ := h.2.2 l hl
    rw [heq]
    have hex : ∃ p, Collected arcOf e.arcs p := by
      clear hx hp heq
      induction e.arcs with
      | nil => exact ⟨[], .nil⟩
      | cons y ys ih =>
        obtain ⟨p, hp⟩ := ih
        by_cases hy : ∃ b, arcOf y b
        · obtain ⟨b, hb⟩ := hy; exact ⟨b :: p, .keep _ _ _ _ hb hp⟩
        · exact ⟨p, .skip _ _ _ (fun b hb => hy ⟨b, hb⟩) hp⟩
    obtain ⟨p, hpc⟩ := hex
    have hmem := collected_of_mem hp (fun e p p' h1 h2 => collected_unique hf h1.2 h2.2) he ⟨hr, hpc⟩
    exact List.mem_flatten.2 ⟨p, hmem, collected_of_mem hpc hf hx hax⟩

theorem PArcOf.unique (parse : String → F64 × Bool) (x : List Attr) (a a' : PArc)
    (h : PArcOf parse x a) (h' : PArcOf parse x a') : a = a' := by
  rw [← presentationArc_iff] at h h'; rw [h] at h'; exact Option.some.inj h'

theorem CArcOf.unique (parse : String → F64 × Bool) (x : List Attr) (a a' : CArc)
    (h : CArcOf parse x a) (h' : CArcOf parse x a') : a = a' := by
  rw [← calculationArc_iff] at h h'; rw [h] at h'; exact Option.some.inj h'

/-- **C20.** The hydrated arcs of a role are exactly those of the well-formed arc elements of its links,
verbatim; there is nothing else and nothing is missing (their order is part of C19). -/
theorem C20_presentation (parse : String → F64 × Bool)
    (ord : GoMap String (Link PArc) → GoMap String (Link PArc)) (hord : ∀ m, (ord m).Perm m)
    (es : List LinkElem) (r : String) (a : PArc) :
    (∃ l ∈ hydratePresentationLink parse ord es, l.role = r ∧ a ∈ l.arcs) ↔
      ∃ e ∈ es, HasRole e r ∧ ∃ x ∈ e.arcs, PArcOf parse x a :=
  merged_mem_iff (C19_presentation parse ord hord es) (PArcOf.unique parse) r a

theorem C20_calculation (parse : String → F64 × Bool)
    (ord : GoMap String (Link CArc) → GoMap String (Link CArc)) (hord : ∀ m, (ord m).Perm m)
    (es : List LinkElem) (r : String) (a : CArc) :
    (∃ l ∈ hydrateCalculationLink parse ord es, l.role = r ∧ a ∈ l.arcs) ↔
      ∃ e ∈ es, HasRole e r ∧ ∃ x ∈ e.arcs, CArcOf parse x a :=
  merged_mem_iff (C19_calculation parse ord hord es) (CArcOf.unique parse) r a

theorem C20_definition (parse : String → F64 × Bool)
    (ord : GoMap String (Link DArc) → GoMap String (Link DArc)) (hord : ∀ m, (ord m).Perm m)
    (es : List LinkElem) (r : String) (a : DArc) :
    (∃ l ∈ hydrateDefinitionLink parse ord es, l.role = r ∧ a ∈ l.arcs) ↔
      ∃ e ∈ es, HasRole e r ∧ ∃ x ∈ e.arcs, DArcOf parse x a ∧ a.closed = false ∧
        (a.usable = true ↔ ∃ s, AttrVal x "usable" s ∧ BoolText s) := by
  refine merged_mem_iff (C19_definition parse ord hord es) ?_ r a
  rintro x a a' ⟨h1, h2, h3⟩ ⟨h1', h2', h3'⟩
  have hu : a.usable = a'.usable := Bool.eq_iff_iff.2 (h3.trans h3'.symm)
  have : ∀ b : DArc, DArcOf parse x b → definitionArc parse x = some { b with closed := closedFlag x, usable := usableFlag x } := by
    intro b hb
    rw [definitionArc_iff]; exact ⟨hb, rfl, rfl⟩
  have e := this a h1
  rw [this a' h1'] at e
  obtain ⟨o, ar, f, t, c, u, ce, tr⟩ := a
  obtain ⟨o', ar', f', t', c', u', ce', tr'⟩ := a'
  simp_all

/-- The well-formed arc of the examples. -/
def exArc (extra : List (String × String)) : List Attr :=
  ([("type", "arc"), ("arcrole", "r"), ("from", "a"), ("to", "b"), ("order", "1")] ++ extra).map
    fun p => ⟨⟨XLINK, p.1⟩, p.2⟩
def exLink (role : String) (arcs : List (List Attr)) : LinkElem :=
  { attrs := [⟨⟨XLINK, "type"⟩, "extended"⟩, ⟨⟨XLINK, "role"⟩, role⟩], locs := [], arcs := arcs }
def exParse (_ : String) : F64 × Bool := (.fin 1, true)

/-- Two links of one role with another in between, with a broken arc: merged in document order. -/
example : hydratePresentationLink exParse List.reverse
    [exLink "p" [exArc [("preferredLabel", "x")]], exLink "q" [], exLink "p" [[], exArc []]] =
    [⟨"q", [], []⟩, ⟨"p", [], [⟨.fin 1, "r", "a", "b", "x"⟩, ⟨.fin 1, "r", "a", "b", ""⟩]⟩] := by
  decide

/-- **C21** as stated is false of the code: an arc with `closed="true"` is hydrated as not closed, one
with `usable="false"` as usable, and one without `usable` as not usable. -/
theorem C21_fails :
    (∃ x a, XsTrue "true" ∧ AttrVal x "closed" "true" ∧ definitionArc exParse x = some a ∧ a.closed = false) ∧
    (∃ x a, XsFalse "false" ∧ AttrVal x "usable" "false" ∧ definitionArc exParse x = some a ∧ a.usable = true) ∧
    (∃ x a, (∀ b ∈ x, b.name.loc ≠ "usable") ∧ definitionArc exParse x = some a ∧ a.usable = false) := by
  refine ⟨⟨exArc [("closed", "true")], ⟨.fin 1, "r", "a", "b", false, false, "", ""⟩, .inl rfl, ?_, by decide, rfl⟩,
    ⟨exArc [("usable", "false")], ⟨.fin 1, "r", "a", "b", false, true, "", ""⟩, .inl rfl, ?_, by decide, rfl⟩,
    ⟨exArc [], ⟨.fin 1, "r", "a", "b", false, false, "", ""⟩, by decide, by decide, rfl⟩⟩
  · exact (attrVal_iff _ _ _).2 ⟨⟨⟨XLINK, "closed"⟩, "true"⟩, by decide, rfl⟩
  · exact (attrVal_iff _ _ _).2 ⟨⟨⟨XLINK, "usable"⟩, "false"⟩, by decide, rfl⟩

/-- **C21, the part that holds.** The flags are as documented for arcs that are not declared closed and
have a true `usable` attribute. Missing: closed arcs, unusable arcs, arcs without `usable`. -/
theorem C21_flags_partial (parse : String → F64 × Bool) (x : List Attr) (a : DArc)
    (h : definitionArc parse x = some a) (hc : ¬ ∃ s, AttrVal x "closed" s ∧ XsTrue s)
    (hu : ∃ s, AttrVal x "usable" s ∧ XsTrue s) :
    (a.closed = true ↔ ∃ s, AttrVal x "closed" s ∧ XsTrue s) ∧
    (a.usable = false ↔ ∃ s, AttrVal x "usable" s ∧ XsFalse s) := by
  obtain ⟨_, h1, h2⟩ := (definitionArc_iff parse x a).1 h
  have hcl : closedFlag x = false := by
    unfold closedFlag; split
    · rfl
    · split <;> rfl
  obtain ⟨s, hs, ht⟩ := hu
  obtain ⟨b, hb, rfl⟩ := (attrVal_iff _ _ _).1 hs
  have hus : usableFlag x = true := by
    unfold usableFlag; rw [hb]
    rcases ht with ht | ht <;> simp [ht, parseBool]
  refine ⟨by simp [h1, hcl, hc], ?_⟩
  rw [h2, hus]
  simp only [Bool.true_eq_false, false_iff]
  rintro ⟨s', hs', hf⟩
  obtain ⟨b', hb', rfl⟩ := (attrVal_iff _ _ _).1 hs'
  rw [hb] at hb'; cases hb'
  rcases ht with ht | ht <;> rcases hf with hf | hf <;> rw [ht] at hf <;> revert hf <;> decide

/-- The hypotheses of `C21_flags_partial` are met. -/
example : definitionArc exParse (exArc [("usable", "true")]) = some ⟨.fin 1, "r", "a", "b", false, true, "", ""⟩ ∧
    (¬ ∃ s, AttrVal (exArc [("usable", "true")]) "closed" s ∧ XsTrue s) ∧
    (∃ s, AttrVal (exArc [("usable", "true")]) "usable" s ∧ XsTrue s) := by
  refine ⟨by decide, ?_, "true", (attrVal_iff _ _ _).2 ⟨⟨⟨XLINK, "usable"⟩, "true"⟩, by decide, rfl⟩, .inl rfl⟩
  rintro ⟨s, hs, _⟩
  obtain ⟨b, hb, rfl⟩ := (attrVal_iff _ _ _).1 hs
  have : findAttr (exArc [("usable", "true")]) "closed" = none := by decide
  rw [this] at hb; cases hb

/-! ## C71: label links -/

theorem labelArcs_eq (parse : String → F64 × Bool) (n i : Nat) (l : List (List Attr)) :
    labelArcs parse n i l = (l.zipIdx i).filterMap fun p => labelArc parse n p.2 p.1 := by
  induction l generalizing i with
  | nil => rfl
  | cons a as ih =>
    rw [labelArcs, List.zipIdx_cons]
    cases h : labelArc parse n i a with
    | none => rw [List.filterMap_cons_none (by simpa using h)]; exact ih _
    | some x => rw [List.filterMap_cons_some (b := x) (by simpa using h)]; simp [ih]

theorem labelArc_iff (parse : String → F64 × Bool) (n i : Nat) (x : List Attr) (a : LArc) :
    labelArc parse n i x = some a ↔ LArcOf parse n i x a := by
  obtain ⟨o, r, f, t⟩ := a
  simp only [LArcOf, ← arcEnds_iff, labelArc, Option.bind_eq_bind, Option.bind_eq_some_iff,
    Option.pure_def, Option.some.injEq, LArc.mk.injEq, Prod.exists]
  have ho : ∀ v, (match plainAttr x "order" with
      | none => F64.ofInt (n + i)
      | some v => if v = "" then F64.ofInt (n + i) else (parse v).1) = v ↔
      ((∃ s, AttrVal x "order" s ∧ s ≠ "" ∧ v = (parse s).1) ∨ (OptVal x "order" "" ∧ v = F64.ofInt (n + i))) := by
    intro v
    rw [← optAttr_iff]
    simp only [← plainAttr_iff, plainAttr, optAttr]
    cases findAttr x "order" with
    | none => simp [eq_comm]
    | some b => by_cases hb : b.value = "" <;> simp [hb, eq_comm]
  constructor
  · rintro ⟨r', f', t', h, h1, rfl, rfl, rfl⟩
    exact ⟨h, (ho o).1 h1⟩
  · rintro ⟨h, h1⟩
    exact ⟨r, f, t, h, (ho o).2 h1, rfl, rfl, rfl⟩

theorem hydrateLabel_iff (x : List Attr × String) (l : Label) : hydrateLabel x = some l ↔ LabelOf x l := by
  obtain ⟨a, b, c, d⟩ := l
  simp only [LabelOf, xlinkVal_iff, ← plainAttr_iff, hydrateLabel, Option.bind_eq_bind, Option.bind_eq_some_iff,
    guard_some, Option.pure_def, Option.some.injEq, Label.mk.injEq]
  constructor
  · rintro ⟨a', h1, _, h2, b', h3, _, h4, c', h5, _, h6, rfl, rfl, rfl, rfl⟩
    exact ⟨h1, h2, h3, h4, h5, h6, rfl⟩
  · rintro ⟨h1, h2, h3, h4, h5, h6, rfl⟩
    exact ⟨a, h1, (), h2, b, h3, (), h4, c, h5, (), h6, rfl, rfl, rfl, rfl⟩

/-- **C71.** Label links are hydrated one by one in document order, each with its well-formed locators,
labels and arcs; an arc without order is ordered after all numbered ones by its position. -/
theorem C71_label_links (parse : String → F64 × Bool) (es : List LinkElem) (ls : List LabelLink) :
    Collected (LabelLinkOf parse) es ls ↔ ls = hydrateLabelLink parse es := by
  apply collected_iff
  intro e l
  obtain ⟨r, lo, la, ar⟩ := l
  rw [LabelLinkOf, collected_iff hydrateLoc_iff, collected_iff hydrateLabel_iff,
    collected_iff (fun p a => labelArc_iff parse e.arcs.length p.2 p.1 a), ← linkRole_iff,
    ← labelArcs_eq, hydrateOneLabelLink]
  cases linkRole e.attrs with
  | none => simp
  | some r' => simp [eq_comm]

/-- An arc without order gets its position after the numbered ones. -/
example : hydrateLabelLink exParse [exLink "p" [exArc [], (exArc []).dropLast]] =
    [⟨"p", [], [], [⟨.fin 1, "r", "a", "b"⟩, ⟨F64.ofInt ((2 : Nat) + (1 : Nat)), "r", "a", "b"⟩]⟩] := rfl

/-! ## C72: role references -/

/-- **C72.** The role references are exactly those of the well-formed roleRef elements, in order. -/
theorem C72_role_refs (es : List RoleRefElem) (rs : List RoleRef) :
    Collected RoleRefOf es rs ↔ rs = hydrateRoleRefs es := by
  apply collected_iff
  intro e r
  obtain ⟨u, h⟩ := r
  simp only [RoleRefOf, xlinkVal_iff, ← plainAttr_iff, hydrateRoleRef, Option.bind_eq_bind,
    Option.bind_eq_some_iff, guard_some, Option.pure_def, Option.some.injEq, RoleRef.mk.injEq]
  change _ ↔ e.space = LINK ∧ _
  constructor
  · rintro ⟨_, h0, u', h1, _, h2, h', h3, _, h4, rfl, rfl⟩
    exact ⟨h0, h1, h2, h3, h4⟩
  · rintro ⟨h0, h1, h2, h3, h4⟩
    exact ⟨(), h0, u, h1, (), h2, h, h3, (), h4, rfl, rfl⟩

example : hydrateRoleRefs [⟨LINK, [⟨⟨"", "roleURI"⟩, "u"⟩, ⟨⟨XLINK, "href"⟩, "h"⟩]⟩, ⟨LINK, []⟩] = [⟨"u", "h"⟩] := by
  decide

end Telefacts
