import Verif.Proof.Relations
import Verif.Props.Domain
import Verif.Props.Linkbase
/-!
# C126-C132: relationships in the sense of XBRL
-/
namespace Telefacts
open Telefacts.Spec Telefacts.Linkbase Telefacts.Render Telefacts.Instance

/-! ## C126: prohibited relationships -/

theorem findAttr_filter (x : List Attr) (names : List String) (n : String) (h : n ∉ names) :
    findAttr (x.filter fun a => decide (a.name.loc ∉ names)) n = findAttr x n := by
  induction x with
  | nil => rfl
  | cons a x ih =>
    rw [findAttr]
    by_cases ha : a.name.loc ∈ names
    · rw [List.filter_cons_of_neg (by simpa using ha), ih, if_neg]
      rintro rfl
      exact h ha
    · rw [List.filter_cons_of_pos (by simpa using ha), findAttr, ih]

theorem arcEnds_filter (x : List Attr) (names : List String) (h : ∀ n ∈ ["type", "arcrole", "from", "to"], n ∉ names) :
    arcEnds (x.filter fun a => decide (a.name.loc ∉ names)) = arcEnds x := by
  unfold arcEnds xlinkAttr
  simp only [findAttr_filter x names _ (h "type" (by simp)), findAttr_filter x names _ (h "arcrole" (by simp)),
    findAttr_filter x names _ (h "from" (by simp)), findAttr_filter x names _ (h "to" (by simp))]

theorem presentationArc_filter (parse : String → F64 × Bool) (x : List Attr) (names : List String)
    (h : ∀ n ∈ ["type", "arcrole", "from", "to", "order", "preferredLabel"], n ∉ names) :
    presentationArc parse (x.filter fun a => decide (a.name.loc ∉ names)) = presentationArc parse x := by
  unfold presentationArc plainAttr optAttr
  rw [arcEnds_filter x names (fun n hn => h n (by revert hn; simp; tauto)), findAttr_filter x names _ (h "order" (by simp)),
    findAttr_filter x names _ (h "preferredLabel" (by simp))]

theorem calculationArc_filter (parse : String → F64 × Bool) (x : List Attr) (names : List String)
    (h : ∀ n ∈ ["type", "arcrole", "from", "to", "order", "weight"], n ∉ names) :
    calculationArc parse (x.filter fun a => decide (a.name.loc ∉ names)) = calculationArc parse x := by
  unfold calculationArc plainAttr
  rw [arcEnds_filter x names (fun n hn => h n (by revert hn; simp; tauto)), findAttr_filter x names _ (h "order" (by simp)),
    findAttr_filter x names _ (h "weight" (by simp))]

theorem definitionArc_filter (parse : String → F64 × Bool) (x : List Attr) (names : List String)
    (h : ∀ n ∈ ["type", "arcrole", "from", "to", "order", "closed", "usable", "contextElement", "targetRole"], n ∉ names) :
    definitionArc parse (x.filter fun a => decide (a.name.loc ∉ names)) = definitionArc parse x := by
  unfold definitionArc plainAttr optAttr closedFlag usableFlag
  rw [arcEnds_filter x names (fun n hn => h n (by revert hn; simp; tauto)), findAttr_filter x names _ (h "order" (by simp)),
    findAttr_filter x names _ (h "closed" (by simp)), findAttr_filter x names _ (h "usable" (by simp)),
    findAttr_filter x names _ (h "contextElement" (by simp)), findAttr_filter x names _ (h "targetRole" (by simp))]

theorem hydrateLinks_without {A : Type} (arc : List Attr → Option A) (names : List String)
    (h : ∀ x, arc (x.filter fun a => decide (a.name.loc ∉ names)) = arc x) (es : List LinkElem) :
    hydrateLinks arc (es.map (withoutAttrs names)) = hydrateLinks arc es := by
  unfold hydrateLinks
  rw [List.filterMap_map]
  congr 1
  funext e
  unfold Function.comp hydrateLink withoutAttrs
  simp only
  rw [List.filterMap_map]
  congr 2
  funext role
  congr 2
  congr 1
  funext x
  exact h x

/-- A linkbase with one arc, which is prohibited. -/
def prohibitedLink : LinkElem where
  attrs := [⟨⟨XLINK, "type"⟩, "extended"⟩, ⟨⟨XLINK, "role"⟩, "r"⟩]
  locs := []
  arcs := [exArc [("use", "prohibited"), ("priority", "1")]]

/-- **C126 (fails).** Prohibition has no effect: hydration is the same with and without the attributes `use` and `priority`. A
relationship whose only arc is prohibited is hydrated. -/
theorem C126_fails (parse : String → F64 × Bool) (es : List LinkElem) :
    (∀ ord, hydratePresentationLink parse ord (es.map (withoutAttrs ["use", "priority"])) = hydratePresentationLink parse ord es) ∧
    (∀ ord, hydrateCalculationLink parse ord (es.map (withoutAttrs ["use", "priority"])) = hydrateCalculationLink parse ord es) ∧
    (∀ ord, hydrateDefinitionLink parse ord (es.map (withoutAttrs ["use", "priority"])) = hydrateDefinitionLink parse ord es) ∧
    ∃ a, hydratePresentationLink exParse (·) [prohibitedLink] = [⟨"r", [], [a]⟩] ∧
      ¬ InForce (PArcOf exParse) [prohibitedLink] "r" a := by
  refine ⟨fun ord => ?_, fun ord => ?_, fun ord => ?_, ⟨.fin 1, "r", "a", "b", ""⟩, by decide +kernel, ?_⟩
  · unfold hydratePresentationLink
    rw [hydrateLinks_without _ _ fun x => presentationArc_filter parse x _ (by decide)]
  · unfold hydrateCalculationLink
    rw [hydrateLinks_without _ _ fun x => calculationArc_filter parse x _ (by decide)]
  · unfold hydrateDefinitionLink
    rw [hydrateLinks_without _ _ fun x => definitionArc_filter parse x _ (by decide)]
  · rintro ⟨x, ⟨e, he, _, hx⟩, _, hn, _⟩
    rw [List.mem_singleton] at he
    subst he
    simp only [prohibitedLink, List.mem_singleton] at hx
    subst hx
    exact hn ((attrVal_iff _ _ _).2 ⟨⟨⟨XLINK, "use"⟩, "prohibited"⟩, by decide, rfl⟩)

/-- **C126 (partial).** If no arc of the role is prohibiting, the hydrated arcs are the relationships in force. Missing: files with
prohibiting arcs (`C126_fails`). -/
theorem C126_partial (parse : String → F64 × Bool) (es : List LinkElem) (r : String) (hp : ∀ x, ArcElem es r x → ¬ Prohibits x) :
    (∀ ord : GoMap String (Link PArc) → GoMap String (Link PArc), (∀ m, (ord m).Perm m) → ∀ a,
      (∃ l ∈ hydratePresentationLink parse ord es, l.role = r ∧ a ∈ l.arcs) ↔ InForce (PArcOf parse) es r a) ∧
    (∀ ord : GoMap String (Link CArc) → GoMap String (Link CArc), (∀ m, (ord m).Perm m) → ∀ a,
      (∃ l ∈ hydrateCalculationLink parse ord es, l.role = r ∧ a ∈ l.arcs) ↔ InForce (CArcOf parse) es r a) := by
  have key : ∀ {A : Type} (arcOf : List Attr → A → Prop) (a : A),
      (∃ e ∈ es, HasRole e r ∧ ∃ x ∈ e.arcs, arcOf x a) ↔ InForce arcOf es r a := by
    intro A arcOf a
    constructor
    · rintro ⟨e, he, hr, x, hx, h⟩
      exact ⟨x, ⟨e, he, hr, hx⟩, h, hp x ⟨e, he, hr, hx⟩, fun y hy _ hy' => absurd hy' (hp y hy)⟩
    · rintro ⟨x, ⟨e, he, hr, hx⟩, h, _⟩
      exact ⟨e, he, hr, x, hx, h⟩
  exact ⟨fun ord hord a => (C20_presentation parse ord hord es r a).trans (key _ a),
    fun ord hord a => (C20_calculation parse ord hord es r a).trans (key _ a)⟩

example : ∀ x, ArcElem [exLink "p" [exArc []]] "p" x → ¬ Prohibits x := by
  rintro x ⟨e, he, _, hx⟩ h
  rw [List.mem_singleton] at he
  subst he
  simp only [exLink, List.mem_singleton] at hx
  subst hx
  obtain ⟨b, hb, _⟩ := (attrVal_iff _ _ _).1 h
  rw [show findAttr (exArc []) "use" = none by decide] at hb
  cases hb

theorem inForce_exact {A : Type} (arcOf : List Attr → A → Prop) (es : List LinkElem) (r : String) (hyd : A → Prop)
    (h : ∀ a, hyd a ↔ ∃ e ∈ es, HasRole e r ∧ ∃ x ∈ e.arcs, arcOf x a) :
    (∀ a, InForce arcOf es r a → hyd a) ∧
    ((∀ a, hyd a ↔ InForce arcOf es r a) ↔ ∀ y a, ArcElem es r y → Prohibits y → arcOf y a → InForce arcOf es r a) := by
  have h1 : ∀ a, InForce arcOf es r a → hyd a := by
    rintro a ⟨x, ⟨e, he, hr, hx⟩, hxa, _⟩
    exact (h a).2 ⟨e, he, hr, x, hx, hxa⟩
  refine ⟨h1, ⟨?_, ?_⟩⟩
  · rintro hh y a ⟨e, he, hr, hy⟩ _ hya
    exact (hh a).1 ((h a).2 ⟨e, he, hr, y, hy, hya⟩)
  · refine fun hh a => ⟨fun ha => ?_, h1 a⟩
    obtain ⟨e, he, hr, x, hx, hxa⟩ := (h a).1 ha
    by_cases hp : ∃ y, ArcElem es r y ∧ Prohibits y ∧ arcOf y a
    · obtain ⟨y, hy, hy', hya⟩ := hp
      exact hh y a hy hy' hya
    · exact ⟨x, ⟨e, he, hr, hx⟩, hxa, fun hx' => hp ⟨x, ⟨e, he, hr, hx⟩, hx', hxa⟩, fun y hy hya hy' => absurd ⟨y, hy, hy', hya⟩ hp⟩

/-- **C126, exactly.** For all files, what is in force is hydrated; nothing else is hydrated exactly if every relationship that an arc
prohibits is in force all the same, by an arc of a higher priority. (An arc of a definition linkbase is what the code reads of it.) -/
theorem C126_exact (parse : String → F64 × Bool) (es : List LinkElem) (r : String) :
    (∀ ord : GoMap String (Link PArc) → GoMap String (Link PArc), (∀ m, (ord m).Perm m) →
      (∀ a, InForce (PArcOf parse) es r a → ∃ l ∈ hydratePresentationLink parse ord es, l.role = r ∧ a ∈ l.arcs) ∧
      ((∀ a, (∃ l ∈ hydratePresentationLink parse ord es, l.role = r ∧ a ∈ l.arcs) ↔ InForce (PArcOf parse) es r a) ↔
        ∀ y a, ArcElem es r y → Prohibits y → PArcOf parse y a → InForce (PArcOf parse) es r a)) ∧
    (∀ ord : GoMap String (Link CArc) → GoMap String (Link CArc), (∀ m, (ord m).Perm m) →
      (∀ a, InForce (CArcOf parse) es r a → ∃ l ∈ hydrateCalculationLink parse ord es, l.role = r ∧ a ∈ l.arcs) ∧
      ((∀ a, (∃ l ∈ hydrateCalculationLink parse ord es, l.role = r ∧ a ∈ l.arcs) ↔ InForce (CArcOf parse) es r a) ↔
        ∀ y a, ArcElem es r y → Prohibits y → CArcOf parse y a → InForce (CArcOf parse) es r a)) ∧
    ∀ arcOf : List Attr → DArc → Prop, (∀ x a, arcOf x a ↔ DArcOf parse x a ∧ a.closed = false ∧
      (a.usable = true ↔ ∃ s, AttrVal x "usable" s ∧ BoolText s)) →
    ∀ ord : GoMap String (Link DArc) → GoMap String (Link DArc), (∀ m, (ord m).Perm m) →
      (∀ a, InForce arcOf es r a → ∃ l ∈ hydrateDefinitionLink parse ord es, l.role = r ∧ a ∈ l.arcs) ∧
      ((∀ a, (∃ l ∈ hydrateDefinitionLink parse ord es, l.role = r ∧ a ∈ l.arcs) ↔ InForce arcOf es r a) ↔
        ∀ y a, ArcElem es r y → Prohibits y → arcOf y a → InForce arcOf es r a) := by
  refine ⟨fun ord hord => inForce_exact _ es r _ (C20_presentation parse ord hord es r),
    fun ord hord => inForce_exact _ es r _ (C20_calculation parse ord hord es r),
    fun arcOf harc ord hord => inForce_exact arcOf es r _ fun a => ?_⟩
  simp only [harc]
  exact C20_definition parse ord hord es r a

/-- A prohibition that a third arc overrides. -/
example : ∃ y a, ArcElem [{ prohibitedLink with arcs := [exArc [("use", "prohibited"), ("priority", "1")], exArc [("priority", "2")]] }] "r" y ∧ Prohibits y ∧ PArcOf exParse y a ∧
    ¬ Prohibits (exArc [("priority", "2")]) ∧ PArcOf exParse (exArc [("priority", "2")]) a := by
  refine ⟨exArc [("use", "prohibited"), ("priority", "1")], ⟨.fin 1, "r", "a", "b", ""⟩, ?_, ?_, ?_, ?_, ?_⟩
  · exact ⟨_, List.mem_singleton.2 rfl, by rw [← linkRole_iff]; decide, by simp⟩
  · exact (attrVal_iff _ _ _).2 ⟨⟨⟨XLINK, "use"⟩, "prohibited"⟩, by decide, rfl⟩
  · rw [← presentationArc_iff]; decide +kernel
  · intro h
    obtain ⟨b, hb, _⟩ := (attrVal_iff _ _ _).1 h
    rw [show findAttr (exArc [("priority", "2")]) "use" = none by decide] at hb
    cases hb
  · rw [← presentationArc_iff]; decide +kernel

/-! ## C127: locators are local to their link -/

theorem merged_loc {A : Type} {arcOf : List Attr → A → Prop} {es : List LinkElem} {lb : Lb A} (h : Merged arcOf es lb.links)
    (r : String) (l : Loc) : l ∈ roleLocs r lb ↔ ∃ e ∈ es, HasRole e r ∧ ∃ x ∈ e.locs, LocOf x l := by
  have huniq : ∀ x (l l' : Loc), LocOf x l → LocOf x l' → l = l' := by
    intro x l l' h h'
    rw [← hydrateLoc_iff] at h h'; rw [h] at h'; exact Option.some.inj h'
  unfold roleLocs
  simp only [List.mem_flatMap, List.mem_filter, decide_eq_true_eq]
  constructor
  · rintro ⟨k, ⟨hk, rfl⟩, hl⟩
    obtain ⟨⟨parts, hp, he⟩, _⟩ := h.2.2 k hk
    rw [he] at hl
    obtain ⟨p, hpm, hap⟩ := List.mem_flatten.1 hl
    obtain ⟨e, hem, hr, hc⟩ := collected_mem hp p hpm
    obtain ⟨x, hx, hax⟩ := collected_mem hc l hap
    exact ⟨e, hem, hr, x, hx, hax⟩
  · rintro ⟨e, he, hr, x, hx, hax⟩
    obtain ⟨k, hk, rfl⟩ := (h.2.1 r).2 ⟨e, he, hr⟩
    refine ⟨k, ⟨hk, rfl⟩, ?_⟩
    obtain ⟨⟨parts, hp, heq⟩, _⟩ := h.2.2 k hk
    rw [heq]
    have hex : ∃ p, Collected LocOf e.locs p := by
      clear hx hp heq
      induction e.locs with
      | nil => exact ⟨[], .nil⟩
      | cons y ys ih =>
        obtain ⟨p, hp⟩ := ih
        by_cases hy : ∃ b, LocOf y b
        · obtain ⟨b, hb⟩ := hy; exact ⟨b :: p, .keep _ _ _ _ hb hp⟩
        · exact ⟨p, .skip _ _ _ (fun b hb => hy ⟨b, hb⟩) hp⟩
    obtain ⟨p, hpc⟩ := hex
    have hmem := collected_of_mem hp (fun e p p' h1 h2 => collected_unique huniq h1.2 h2.2) he ⟨hr, hpc⟩
    exact List.mem_flatten.2 ⟨p, hmem, collected_of_mem hpc huniq hx hax⟩

/-- **C127 (partial).** A locator label stands for the concept of the locator in the link of the arc, if the locators of that label in
all links of the role point at the same concept. Missing: labels that are used for several concepts in one role (`C127_fails`). -/
theorem C127_own_partial {A : Type} (arcOf : List Attr → A → Prop) (es : List LinkElem) (lb : Lb A) (hm : Merged arcOf es lb.links)
    (role : String) (hr : ∃ r ∈ lb.roleRefs, r.roleURI = role) (e : LinkElem) (he : e ∈ es) (her : HasRole e role) (x : List Attr)
    (hx : x ∈ e.locs) (l : Loc) (hl : LocOf x l) (hf : '#' ∈ l.href.toList)
    (hu : ∀ e' ∈ es, HasRole e' role → ∀ x' ∈ e'.locs, ∀ l', LocOf x' l' → l'.label = l.label → l'.href = l.href) :
    mapLocator role lb l.label = l.href := by
  rw [C80_locator]
  left
  refine ⟨hr, ?_⟩
  obtain ⟨l', h'⟩ : ∃ l', FirstWith (fun l' : Loc => l'.label = l.label ∧ '#' ∈ l'.href.toList) (roleLocs role lb) l' :=
    firstWith_exists ⟨l, (merged_loc hm role l).2 ⟨e, he, her, x, hx, hl⟩, rfl, hf⟩
  obtain ⟨h1, h2, _⟩ := firstWith_mem h'
  obtain ⟨e', he', her', x', hx', hl'⟩ := (merged_loc hm role l').1 h1
  exact ⟨l', h', hu e' he' her' x' hx' l' hl' h2⟩

/-- A link of role `r` from `p` to `c`, which stand for the given concepts. -/
def pairLink (parent child : String) : LinkElem where
  attrs := [⟨⟨XLINK, "type"⟩, "extended"⟩, ⟨⟨XLINK, "role"⟩, "r"⟩]
  locs := [("p", parent), ("c", child)].map fun q =>
    [⟨⟨XLINK, "type"⟩, "locator"⟩, ⟨⟨XLINK, "label"⟩, q.1⟩, ⟨⟨XLINK, "href"⟩, q.2⟩]
  arcs := [([("type", "arc"), ("arcrole", PresentationArcrole), ("from", "p"), ("to", "c"), ("order", "1")]).map
    fun q => ⟨⟨XLINK, q.1⟩, q.2⟩]

/-- The linkbase of some links. -/
def pairLb (es : List LinkElem) : Lb PArc := ⟨[⟨"r", "x.xsd#r"⟩], hydratePresentationLink exParse (·) es⟩

/-- **C127 (fails).** A file with two links of the role: assets consist of cash, and equity of stock. Both use the labels `p` and
`c`. The labels are looked up among the locators of both links: no row is about equity or stock, whatever tree is built. -/
theorem C127_fails : mapLocator "r" (pairLb [pairLink "x#Assets" "x#Cash", pairLink "x#Equity" "x#Stock"]) "p" = "x#Assets" ∧
    (∀ f, ∀ row ∈ getIndentedLabels f [pairLb [pairLink "x#Assets" "x#Cash", pairLink "x#Equity" "x#Stock"]] "r",
      row.href ≠ "x#Equity" ∧ row.href ≠ "x#Stock") ∧
    mapLocator "r" (pairLb [pairLink "x#Equity" "x#Stock"]) "p" = "x#Equity" := by
  refine ⟨by decide +kernel, ?_, by decide +kernel⟩
  intro f row hrow
  have hk : firstLink "r" [pairLb [pairLink "x#Assets" "x#Cash", pairLink "x#Equity" "x#Stock"]] =
      some (pairLb [pairLink "x#Assets" "x#Cash", pairLink "x#Equity" "x#Stock"],
        ⟨"r", [⟨"x#Assets", "p"⟩, ⟨"x#Cash", "c"⟩, ⟨"x#Equity", "p"⟩, ⟨"x#Stock", "c"⟩],
          [⟨.fin 1, PresentationArcrole, "p", "c", ""⟩, ⟨.fin 1, PresentationArcrole, "p", "c", ""⟩]⟩) := by
    decide +kernel
  unfold getIndentedLabels at hrow
  rw [hk] at hrow
  simp only [walkTree, walk_rows, List.mem_map] at hrow
  obtain ⟨p, _, rfl⟩ := hrow
  simp only
  have hlocs : roleLocs "r" (pairLb [pairLink "x#Assets" "x#Cash", pairLink "x#Equity" "x#Stock"]) =
      [⟨"x#Assets", "p"⟩, ⟨"x#Cash", "c"⟩, ⟨"x#Equity", "p"⟩, ⟨"x#Stock", "c"⟩] := by decide +kernel
  generalize hh : mapLocator "r" (pairLb [pairLink "x#Assets" "x#Cash", pairLink "x#Equity" "x#Stock"]) p.2 = h
  rcases (C80_locator _ _ _ _).1 hh with ⟨_, l, hl, rfl⟩ | ⟨_, rfl⟩
  · rw [hlocs] at hl
    obtain ⟨pre, post, e, ⟨hlab, _⟩, hpre⟩ := hl
    match pre, e with
    | [], e => cases e; decide
    | [_], e => cases e; decide
    | [_, _], e =>
      cases e
      exact absurd ⟨hlab, by decide⟩ (hpre ⟨"x#Assets", "p"⟩ (by simp))
    | [_, _, _], e =>
      cases e
      exact absurd ⟨hlab, by decide⟩ (hpre ⟨"x#Cash", "c"⟩ (by simp))
    | _ :: _ :: _ :: _ :: _, e =>
      have := congrArg List.length e
      simp at this
  · constructor <;> · intro e
                      have := congrArg (fun s => s.toList.head?) e
                      revert this
                      simp

/-- The hypotheses of `C127_own_partial` are met. -/
example : Merged (PArcOf exParse) [pairLink "x#Assets" "x#Cash"] (pairLb [pairLink "x#Assets" "x#Cash"]).links ∧
    HasRole (pairLink "x#Assets" "x#Cash") "r" ∧
    LocOf [⟨⟨XLINK, "type"⟩, "locator"⟩, ⟨⟨XLINK, "label"⟩, "p"⟩, ⟨⟨XLINK, "href"⟩, "x#Assets"⟩] ⟨"x#Assets", "p"⟩ := by
  refine ⟨C19_presentation _ _ (fun m => List.Perm.refl m) _, (linkRole_iff _ _).1 (by decide +kernel), (hydrateLoc_iff _ _).1 (by decide +kernel)⟩

/-! ## C128: preferred labels -/

theorem refLinks_mapArcs {A : Type} (g : A → A) (role : String) (lb : Lb A) :
    refLinks role (mapArcs g lb) = (refLinks role lb).map fun k => { k with arcs := k.arcs.map g } := by
  unfold refLinks mapArcs
  simp only
  split <;> rfl

theorem mapLocator_mapArcs {A : Type} (g : A → A) (role : String) (lb : Lb A) (locator : String) :
    mapLocator role (mapArcs g lb) locator = mapLocator role lb locator := by
  unfold mapLocator linksHref mapArcs
  simp only [List.findSome?_map, Function.comp_def]

theorem firstLink_mapArcs {A : Type} (g : A → A) (role : String) (lbs : List (Lb A)) :
    firstLink role (lbs.map (mapArcs g)) =
      (firstLink role lbs).map fun e => (mapArcs g e.1, { e.2 with arcs := e.2.arcs.map g }) := by
  induction lbs with
  | nil => rfl
  | cons lb lbs ih =>
    rw [List.map_cons, firstLink, firstLink, refLinks_mapArcs, List.find?_map, ih]
    simp only [Function.comp_def]
    cases List.find? (fun k : Link A => decide (k.role = role)) (refLinks role lb) <;> rfl

/-- **C128 (fails).** The rows of a presentation do not depend on the preferred labels of the arcs. There are rows, and arcs that
prefer different labels. -/
theorem C128_fails (f : Folder) (lbs : List (Lb PArc)) (role : String) (prefer : PArc → String) :
    getIndentedLabels f (lbs.map (mapArcs fun a => { a with preferredLabel := prefer a })) role = getIndentedLabels f lbs role ∧
    ∃ f lbs, getIndentedLabels f lbs "r" ≠ [] ∧
      lbs.map (mapArcs fun a => { a with preferredLabel := "http://www.xbrl.org/2003/role/totalLabel" }) ≠ lbs := by
  refine ⟨?_, flatFolder, [flatLb "a"], by decide +kernel, by decide +kernel⟩
  unfold getIndentedLabels
  rw [firstLink_mapArcs]
  cases firstLink role lbs with
  | none => rfl
  | some e =>
    obtain ⟨lb, k⟩ := e
    simp only [Option.map_some, mapLocator_mapArcs]
    unfold pArcs
    rw [List.map_map]
    rfl

/-- **C128 (partial).** A row has all the labels of its concept, the preferred one among them. Missing: which one is preferred
(`C128_fails`). -/
theorem C128_labels_partial (f : Folder) (lbs : List (Lb PArc)) (role : String) (row : IndentedLabel)
    (h : row ∈ getIndentedLabels f lbs role) : row.label = f.label row.href := by
  unfold getIndentedLabels at h
  split at h
  · cases h
  · simp only [walkTree, walk_rows, List.mem_map] at h
    obtain ⟨p, _, rfl⟩ := h
    rfl

example : ∃ row ∈ getIndentedLabels flatFolder [flatLb "a"] "r", row.href = "x#a" := ⟨⟨"x#a", [(Default, [(PureLabel, "x#a")])], 0⟩, by
  decide +kernel, rfl⟩

/-! ## C129: hypercubes are inherited -/

/-- `p` has hypercube `c`; `q` is below `p`. -/
def inheritItems : List Node := [.mk "p" .zero [.mk "q" .zero []]]

/-- **C129 (fails).** A primary item without hypercubes of its own has empty effective domains, whatever is above it. In `twoDims`
the item `i`, below `p`, inherits hypercube `c` of `p`; `p` has members for dimension `d1` and `i` has none. -/
theorem C129_fails (w : Networks) (primary dim : String) (h : ∀ n ∈ w.inclusive ++ w.exclusive, w.href n ≠ primary) :
    (getEffectiveDomain w primary dim).1 = [] ∧
    InheritsCube twoDims [.mk "p" .zero [.mk "i" .zero []]] twoDims.inclusive "i" "d1" "c" ∧
    (getEffectiveDomain twoDims "p" "d1").1 ≠ [] ∧ (getEffectiveDomain twoDims "i" "d1").1 = [] := by
  refine ⟨?_, ?_, by decide +kernel, by decide +kernel⟩
  · rw [List.eq_nil_iff_forall_not_mem]
    intro m hm
    have hl := (C69_listed w primary dim m hm).1.cube
    split at hl <;> obtain ⟨c, n, hn, e, _⟩ := hl <;> exact h n (by simp [hn]) e
  · refine .inr ⟨_, List.mem_singleton.2 rfl, _, .inl rfl, ?_, .mk "i" .zero [], .child _ _ _ _ (by simp), rfl⟩
    exact (mem_cubes ..).1 (by decide +kernel)

/-- Hypothesis of the first part: `i` has no hypercubes in `twoDims`. -/
example : ∀ n ∈ twoDims.inclusive ++ twoDims.exclusive, twoDims.href n ≠ "i" := by
  intro n hn
  simp only [twoDims, List.cons_append, List.nil_append, List.mem_cons, List.not_mem_nil, or_false] at hn
  rcases hn with rfl | rfl <;> decide

/-- **C129 (partial).** For a primary item that has itself all hypercubes that are above it, the effective domain is that of the
inherited hypercubes. Missing: items that inherit hypercubes (`C129_fails`). -/
theorem C129_own_partial (w : Networks) (items : List Node) (primary dim : String) (ht : Tidy w primary dim)
    (hi : ∀ c, InheritsCube w items w.inclusive primary dim c → HasCube w w.inclusive primary dim c)
    (he : ∀ c, InheritsCube w items w.exclusive primary dim c → HasCube w w.exclusive primary dim c) (m : EffectiveMember) :
    m ∈ (getEffectiveDomain w primary dim).1 ↔ ListedInherited w items primary dim m := by
  rw [C69_complete w primary dim ht]
  constructor
  · intro h
    refine ⟨h.label, ?_, h.default, h.member⟩
    have := h.cube
    split at this
    · obtain ⟨c, hc⟩ := this
      rw [if_pos (by assumption)]
      exact ⟨c, .inl hc⟩
    · obtain ⟨c, hc⟩ := this
      rw [if_neg (by assumption)]
      exact ⟨c, .inl hc⟩
  · intro h
    refine ⟨h.label, ?_, h.default, h.member⟩
    have := h.cube
    split at this
    · obtain ⟨c, hc⟩ := this
      rw [if_pos (by assumption)]
      exact ⟨c, he c hc⟩
    · obtain ⟨c, hc⟩ := this
      rw [if_neg (by assumption)]
      exact ⟨c, hi c hc⟩

/-- The root of the primary items of `twoDims` inherits nothing. -/
example (net : List Node) (c : String) (h : InheritsCube twoDims inheritItems net "p" "d1" c) : HasCube twoDims net "p" "d1" c := by
  rcases h with h | ⟨t, ht, n, hn, _, x, hx, e⟩
  · exact h
  · exfalso
    simp only [inheritItems, List.mem_singleton] at ht
    subst ht
    have leaf : ∀ y, ¬ Below (.mk "q" .zero []) y := by
      intro y hy
      obtain ⟨c, hc, _⟩ := (below_iff _ _).1 hy
      cases hc
    have only : ∀ y, Below (.mk "p" .zero [.mk "q" .zero []]) y → y = .mk "q" .zero [] := by
      intro y hy
      obtain ⟨c, hc, h⟩ := (below_iff _ _).1 hy
      simp only [Node.children, List.mem_singleton] at hc
      subst hc
      rcases h with h | h
      · exact h
      · exact absurd h (leaf y)
    rcases hn with rfl | hn
    · rw [only x hx] at e
      revert e
      decide
    · rw [only n hn] at hx
      exact leaf x hx

/-! ## C130, C131: flags of definition arcs -/

theorem roleLinks_mapArcs (g : DArc → DArc) (role : String) (lbs : List (Lb DArc)) :
    roleLinks role (lbs.map (mapArcs g)) =
      (roleLinks role lbs).map fun e => (mapArcs g e.1, { e.2 with arcs := e.2.arcs.map g }) := by
  unfold roleLinks
  rw [List.flatMap_map, List.map_flatMap]
  congr 1
  funext lb
  rw [refLinks_mapArcs, List.filter_map, List.map_map, List.map_map]
  rfl

/-- Changes to arcs that keep arcrole, order and ends are not seen by root domains, the linkbases being ranged over in the same
orders. -/
theorem getRootDomains_mapArcs {Φ : Type} (g : DArc → DArc)
    (hg : ∀ a, (g a).arcrole = a.arcrole ∧ (g a).order = a.order ∧ (g a).frm = a.frm ∧ (g a).to = a.to)
    (f : Folder) (mo : GoMap String RelevantMember → GoMap String RelevantMember)
    (source : List Lang → FactSource Φ) (entity role : String) (again again' : Nat → List (Lb DArc))
    (hagain : ∀ i, again' i = (again i).map (mapArcs g))
    (lbs : List (Lb DArc)) :
    getRootDomains f mo source entity role again' (lbs.map (mapArcs g)) = getRootDomains f mo source entity role again lbs := by
  have hd : ∀ arcs : List DArc, dArcs (arcs.map g) = dArcs arcs := by
    intro arcs
    unfold dArcs
    rw [List.map_map]
    congr 1
    funext a
    obtain ⟨h1, h2, h3, h4⟩ := hg a
    simp [h1, h2, h3, h4]
  have hdim : ∀ (lbs : List (Lb DArc)) (arcs : List DArc), effectiveDimensionHrefs (lbs.map (mapArcs g)) role (arcs.map g) = effectiveDimensionHrefs lbs role arcs := by
    intro lbs arcs
    unfold effectiveDimensionHrefs
    rw [List.flatMap_map]
    congr 2
    funext lb
    rw [List.filter_map, List.map_map]
    congr 1
    · funext a
      simp only [Function.comp_def, mapLocator_mapArcs, (hg a).2.2.2]
    · congr 1
      funext a
      simp only [Function.comp_def, (hg a).1]
  have hnet : ∀ (lb : Lb DArc) (k : Link DArc), linkNetworks f role (mapArcs g lb) { k with arcs := k.arcs.map g } = linkNetworks f role lb k := by
    intro lb k
    unfold linkNetworks
    simp only [hd, show mapLocator role (mapArcs g lb) = mapLocator role lb from funext (mapLocator_mapArcs g role lb)]
  unfold getRootDomains
  rw [roleLinks_mapArcs, List.zipIdx_map]
  congr 1
  generalize (⟨[], [], [], []⟩ : RootState Φ) = st
  induction (roleLinks role lbs).zipIdx generalizing st with
  | nil => rfl
  | cons e es ih =>
    rw [List.map_cons, linkLoop, linkLoop]
    have : linkStep f mo source entity role again' st (Prod.map (fun e : Lb DArc × Link DArc => (mapArcs g e.1, { e.2 with arcs := e.2.arcs.map g })) id e) =
        linkStep f mo source entity role again st e := by
      unfold linkStep
      simp only [Prod.map, id, hagain, hdim, hnet]
    rw [this]
    congr 1
    funext st'
    exact ih st'

/-! A tree builder for the examples -/

/-- What is below a locator, for a number of levels. -/
def kidsOf (arcs : List Arc) (arcrole : String) : Nat → String → List Node
  | 0, _ => []
  | n + 1, l => (arcs.filter fun a => decide (a.arcrole = arcrole ∧ a.frm = l)).map fun a => .mk a.to a.order (kidsOf arcs arcrole n a.to)

/-- The sources that are no targets, with what is below them. -/
def forest (n : Nat) (arcs : List Arc) (arcrole : String) : Node :=
  .mk "" .zero ((((arcs.filter fun a => decide (a.arcrole = arcrole)).map Arc.frm).eraseDups.filter fun l =>
    !(arcs.any fun a => decide (a.arcrole = arcrole ∧ a.to = l))).map fun l => .mk l .zero (kidsOf arcs arcrole n l))

theorem forest_isForest (arcs : List Arc) (arcrole : String) (rank : String → Nat) (n : Nat)
    (hr : ∀ a ∈ arcs, a.arcrole = arcrole → rank a.frm < rank a.to ∧ rank a.to ≤ n) : IsForest arcs arcrole (forest (n + 1) arcs arcrole) := by
  have inv : ∀ x, Below (forest (n + 1) arcs arcrole) x → ∃ m, n < m + rank x.locator ∧ x.children = kidsOf arcs arcrole m x.locator := by
    have down : ∀ y x, Below y x → (∃ m, n < m + rank y.locator ∧ y.children = kidsOf arcs arcrole m y.locator) →
        ∃ m, n < m + rank x.locator ∧ x.children = kidsOf arcs arcrole m x.locator := by
      have step : ∀ (l : String) (_ : F64) (cs : List Node) (c : Node), c ∈ cs → (∃ m, n < m + rank l ∧ cs = kidsOf arcs arcrole m l) →
          ∃ m, n < m + rank c.locator ∧ c.children = kidsOf arcs arcrole m c.locator := by
        rintro l o cs c hc ⟨m, hm, rfl⟩
        cases m with
        | zero => cases hc
        | succ m =>
          rw [kidsOf, List.mem_map] at hc
          obtain ⟨a, ha, rfl⟩ := hc
          rw [List.mem_filter, decide_eq_true_eq] at ha
          obtain ⟨h1, h2, rfl⟩ := ha
          have := hr a h1 h2
          exact ⟨m, by show n < m + rank a.to; omega, rfl⟩
      intro y x h
      induction h with
      | child l o cs c hc => exact step l o cs c hc
      | deeper l o cs c x hc _ ih => exact fun h => ih (step l o cs c hc h)
    intro x hx
    obtain ⟨c, hc, h⟩ := (below_iff _ _).1 hx
    simp only [forest, Node.children, List.mem_map] at hc
    obtain ⟨l, _, rfl⟩ := hc
    have h0 : ∃ m, n < m + rank (Node.mk l .zero (kidsOf arcs arcrole (n + 1) l)).locator ∧
        (Node.mk l .zero (kidsOf arcs arcrole (n + 1) l)).children = kidsOf arcs arcrole m (Node.mk l .zero (kidsOf arcs arcrole (n + 1) l)).locator :=
      ⟨n + 1, by omega, rfl⟩
    rcases h with rfl | h
    · exact h0
    · exact down _ x h h0
  constructor
  · intro l
    simp only [forest, Node.children, List.mem_map, List.mem_filter, List.mem_eraseDups, Bool.not_eq_true', List.any_eq_false,
      decide_eq_true_eq]
    constructor
    · rintro ⟨c, ⟨l', ⟨⟨a, ⟨h1, h2⟩, rfl⟩, h3⟩, rfl⟩, rfl⟩
      refine ⟨⟨a, h1, h2, rfl⟩, ?_⟩
      rintro ⟨b, hb, hb2, hb3⟩
      exact h3 b hb ⟨hb2, hb3⟩
    · rintro ⟨⟨a, h1, h2, rfl⟩, h3⟩
      exact ⟨_, ⟨a.frm, ⟨⟨a, ⟨h1, h2⟩, rfl⟩, fun b hb h => h3 ⟨b, hb, h⟩⟩, rfl⟩, rfl⟩
  · intro x hx l o
    obtain ⟨m, hm, hc⟩ := inv x hx
    rw [hc]
    cases m with
    | zero =>
      constructor
      · rintro ⟨c, hc, _⟩; cases hc
      · rintro ⟨a, ha, h1, h2, _⟩
        have := hr a ha h1
        rw [h2] at this
        omega
    | succ m =>
      simp only [kidsOf, List.mem_map, List.mem_filter, decide_eq_true_eq]
      constructor
      · rintro ⟨c, ⟨a, ⟨h1, h2, h3⟩, rfl⟩, rfl, rfl⟩
        exact ⟨a, h1, h2, h3, rfl, rfl⟩
      · rintro ⟨a, h1, h2, h3, rfl, rfl⟩
        exact ⟨_, ⟨a, ⟨h1, h2, h3⟩, rfl⟩, rfl, rfl⟩

theorem le_sum_of_mem {n : Nat} {l : List Nat} (h : n ∈ l) : n ≤ l.sum := by
  induction l with
  | nil => cases h
  | cons a l ih =>
    rw [List.sum_cons]
    rcases List.mem_cons.1 h with rfl | h
    · omega
    · have := ih h; omega

/-- A tree exists for all arcs without cycles. -/
theorem forest_exists (arcs : List Arc) (arcrole : String) (h : Acyclic arcs arcrole) : ∃ root, IsForest arcs arcrole root := by
  obtain ⟨rank, hr⟩ := h
  refine ⟨_, forest_isForest arcs arcrole rank ((arcs.map fun a => rank a.to).sum) fun a ha h => ⟨hr a ha h, ?_⟩⟩
  exact le_sum_of_mem (List.mem_map_of_mem ha)

/-- A folder with this builder. -/
def forestFolder : Folder where
  insts := []
  concept := fun _ => none
  label := fun _ => []
  tree := forest 6

/-- A definition arc element of the examples. -/
def defArc (arcrole frm dest : String) (extra : List (String × String)) : List Attr :=
  ([("type", "arc"), ("arcrole", arcrole), ("from", frm), ("to", dest), ("order", "1")] ++ extra).map fun p => ⟨⟨XLINK, p.1⟩, p.2⟩

def defLink (role : String) (locs : List String) (arcs : List (List Attr)) : LinkElem where
  attrs := [⟨⟨XLINK, "type"⟩, "extended"⟩, ⟨⟨XLINK, "role"⟩, role⟩]
  locs := locs.map fun l => [⟨⟨XLINK, "type"⟩, "locator"⟩, ⟨⟨XLINK, "label"⟩, l⟩, ⟨⟨XLINK, "href"⟩, "x#" ++ l⟩]
  arcs := arcs

/-- Primary items `p` and `q`, hypercube `c` of `p` with dimension `d`, whose domain `m` has the member `u` that is not usable. -/
def unusableLink : LinkElem := defLink "r" ["p", "q", "c", "d", "m", "u"] [
  defArc DomainMemberArcrole "p" "q" [], defArc HasInclusiveHypercubeArcrole "p" "c" [("contextElement", "segment")],
  defArc HypercubeDimensionArcrole "c" "d" [], defArc DimensionDomainArcrole "d" "m" [],
  defArc DomainMemberArcrole "m" "u" [("usable", "false")]]

def defLb (es : List LinkElem) : Lb DArc := ⟨[⟨"r", "x.xsd#r"⟩, ⟨"s", "x.xsd#s"⟩], hydrateDefinitionLink exParse (·) es⟩

/-- The networks of the first link of a linkbase. -/
def firstNetworks (lb : Lb DArc) : Networks := (linkNetworks forestFolder "r" lb (lb.links.headD ⟨"", [], []⟩)).2

/-- **C130 (fails).** Root domains are the same whatever arcs are declared usable. A member whose only arc has `usable="false"` is
listed, just as the members that are usable. -/
theorem C130_fails {Φ : Type} (f : Folder) (mo : GoMap String RelevantMember → GoMap String RelevantMember)
    (source : List Lang → FactSource Φ) (entity role : String) (flag : DArc → Bool)
    (again again' : Nat → List (Lb DArc))
    (hagain : ∀ i, again' i = (again i).map (mapArcs fun a => { a with usable := flag a }))
    (lbs : List (Lb DArc)) :
    getRootDomains f mo source entity role again' (lbs.map (mapArcs fun a => { a with usable := flag a })) =
      getRootDomains f mo source entity role again lbs ∧
    ((getEffectiveDomain (firstNetworks (defLb [unusableLink])) "x#p" "x#d").1.map fun m => (m.href, m.isStrikethrough)) =
      [("x#m", false), ("x#u", false)] ∧
    (∃ x ∈ unusableLink.arcs, AttrVal x "to" "u" ∧ AttrVal x "usable" "false") ∧
    (∀ x ∈ unusableLink.arcs, AttrVal x "to" "u" → AttrVal x "usable" "false") := by
  refine ⟨getRootDomains_mapArcs (fun a => { a with usable := flag a }) (fun a => ⟨rfl, rfl, rfl, rfl⟩) f mo source entity role
    again again' hagain lbs,
    by decide +kernel, ?_, ?_⟩
  · refine ⟨defArc DomainMemberArcrole "m" "u" [("usable", "false")], by simp [unusableLink, defLink], ?_, ?_⟩
    · exact (attrVal_iff _ _ _).2 ⟨⟨⟨XLINK, "to"⟩, "u"⟩, by decide, rfl⟩
    · exact (attrVal_iff _ _ _).2 ⟨⟨⟨XLINK, "usable"⟩, "false"⟩, by decide, rfl⟩
  · intro x hx h
    obtain ⟨b, hb, e⟩ := (attrVal_iff _ _ _).1 h
    simp only [unusableLink, defLink, List.mem_cons, List.not_mem_nil, or_false] at hx
    rcases hx with rfl | rfl | rfl | rfl | rfl
    · rw [show findAttr (defArc DomainMemberArcrole "p" "q" []) "to" = some ⟨⟨XLINK, "to"⟩, "q"⟩ by decide] at hb
      cases hb; exact absurd e (by decide)
    · rw [show findAttr (defArc HasInclusiveHypercubeArcrole "p" "c" [("contextElement", "segment")]) "to" = some ⟨⟨XLINK, "to"⟩, "c"⟩ by decide] at hb
      cases hb; exact absurd e (by decide)
    · rw [show findAttr (defArc HypercubeDimensionArcrole "c" "d" []) "to" = some ⟨⟨XLINK, "to"⟩, "d"⟩ by decide] at hb
      cases hb; exact absurd e (by decide)
    · rw [show findAttr (defArc DimensionDomainArcrole "d" "m" []) "to" = some ⟨⟨XLINK, "to"⟩, "m"⟩ by decide] at hb
      cases hb; exact absurd e (by decide)
    · exact (attrVal_iff _ _ _).2 ⟨⟨⟨XLINK, "usable"⟩, "false"⟩, by decide, rfl⟩

theorem below_child (r t c : Node) (h : Below r t) (hc : c ∈ t.children) : Below r c := by
  induction h with
  | child l o cs d hd =>
    obtain ⟨l', o', cs'⟩ := d
    exact .deeper _ _ _ _ _ hd (.child _ _ _ _ hc)
  | deeper l o cs d y hd _ ih => exact .deeper _ _ _ _ _ hd (ih hc)

/-- **C130 (partial).** If the tree builder returns the tree of the domain-member arcs, a member that is listed (and is no default) and
to which no arc points that is not usable heads a domain or is the target of a usable arc. Missing: members to which an arc points that
is not usable (`C130_fails`). -/
theorem C130_usable_partial (f : Folder) (role : String) (lb : Lb DArc) (k : Link DArc) (primaries : List Node) (w : Networks)
    (hw : NetworksOf f role lb k primaries w)
    (ht : IsForest (k.arcs.map fun a => ⟨a.arcrole, a.order, a.frm, a.to⟩) "http://xbrl.org/int/dim/arcrole/domain-member"
      (f.tree (k.arcs.map fun a => ⟨a.arcrole, a.order, a.frm, a.to⟩) "http://xbrl.org/int/dim/arcrole/domain-member"))
    (primary dim : String) (m : EffectiveMember) (h : m ∈ (getEffectiveDomain w primary dim).1) (hd : m.isDefault = false)
    (hu : ∀ a ∈ k.arcs, a.arcrole = "http://xbrl.org/int/dim/arcrole/domain-member" → mapLocator role lb a.to = m.href →
      a.usable = true) :
    (∃ t ∈ w.explicitDomain, w.href t = m.href) ∨
      ∃ a ∈ k.arcs, a.arcrole = "http://xbrl.org/int/dim/arcrole/domain-member" ∧ a.usable = true ∧ mapLocator role lb a.to = m.href := by
  obtain ⟨_, t, htm, e⟩ := (C69_listed w primary dim m h).1.member hd
  rcases e with e | ⟨x, hx, e⟩
  · exact .inl ⟨t, htm, e⟩
  · right
    obtain ⟨dm, hdm, _, hsub, _⟩ := hw.members
    have hroot : t ∈ (f.tree (k.arcs.map fun a => ⟨a.arcrole, a.order, a.frm, a.to⟩) "http://xbrl.org/int/dim/arcrole/domain-member").children := by
      rw [← hdm]; exact hsub.subset htm
    have parent : ∀ r t x, Below t x → Below r t → ∃ y, Below r y ∧ x ∈ y.children := by
      intro r t x h
      induction h with
      | child l o cs c hc => exact fun h => ⟨_, h, hc⟩
      | deeper l o cs c x hc _ ih => exact fun h => ih (below_child r _ c h hc)
    obtain ⟨y, hy, hxy⟩ := parent _ t x hx ((below_iff _ _).2 ⟨t, hroot, .inl rfl⟩)
    obtain ⟨a, ha, h1, _, h3, _⟩ := (ht.kids y hy x.locator x.order).1 ⟨x, hxy, rfl, rfl⟩
    obtain ⟨b, hb, rfl⟩ := List.mem_map.1 ha
    have hl : mapLocator role lb b.to = m.href := by
      rw [← e]
      unfold Networks.href
      rw [hw.loc, ← h3]
    exact ⟨b, hb, h1, hu b hb h1 hl, hl⟩

/-- The hypotheses of `C130_usable_partial` can be met. -/
example : IsForest [⟨DomainMemberArcrole, .zero, "m", "u"⟩, ⟨DomainMemberArcrole, .zero, "p", "q"⟩] DomainMemberArcrole
    (forest 2 [⟨DomainMemberArcrole, .zero, "m", "u"⟩, ⟨DomainMemberArcrole, .zero, "p", "q"⟩] DomainMemberArcrole) :=
  forest_isForest _ _ (fun l => if l = "u" ∨ l = "q" then 1 else 0) 1 (by
    intro a ha _
    simp only [List.mem_cons, List.not_mem_nil, or_false] at ha
    rcases ha with rfl | rfl <;> decide)

/-! ## C131: target roles -/

/-- Role `r`: `p` has hypercube `c`, whose dimensions are in role `s`, where `c` has dimension `d` with domain `m`. -/
def targetLinks (extra : List (String × String)) : List LinkElem :=
  [defLink "r" ["p", "q", "c"] [defArc DomainMemberArcrole "p" "q" [], defArc HasInclusiveHypercubeArcrole "p" "c" extra],
   defLink "s" ["cube", "d", "m"] [defArc HypercubeDimensionArcrole "cube" "d" [], defArc DimensionDomainArcrole "d" "m" []]]

/-- **C131 (fails).** Root domains are the same whatever the target roles are: the dimensions of a hypercube that are in its target
role are not found. In relationship sets the end of such an arc is looked up among the locators of the target role, although it is one
of its own link: the hypercube `x#c` becomes `#c`. -/
theorem C131_fails {Φ : Type} (f : Folder) (mo : GoMap String RelevantMember → GoMap String RelevantMember)
    (source : List Lang → FactSource Φ) (entity role : String) (target : DArc → String)
    (again again' : Nat → List (Lb DArc))
    (hagain : ∀ i, again' i = (again i).map (mapArcs fun a => { a with targetRole := target a }))
    (lbs : List (Lb DArc)) :
    getRootDomains f mo source entity role again' (lbs.map (mapArcs fun a => { a with targetRole := target a })) =
      getRootDomains f mo source entity role again lbs ∧
    effectiveDimensionHrefs [defLb (targetLinks [("targetRole", "s")])] "r"
      (((defLb (targetLinks [("targetRole", "s")])).links.headD ⟨"", [], []⟩).arcs) = [] ∧
    (getDRS forestFolder (fun _ => "1") (·) [defLb (targetLinks [("targetRole", "s")])] "r").2.map DRSLink.target = ["x#q", "#c"] ∧
    (getDRS forestFolder (fun _ => "1") (·) [defLb (targetLinks [])] "r").2.map DRSLink.target = ["x#q", "x#c"] := by
  refine ⟨getRootDomains_mapArcs (fun a => { a with targetRole := target a }) (fun a => ⟨rfl, rfl, rfl, rfl⟩) f mo source entity role
    again again' hagain lbs,
    by decide +kernel, by decide +kernel, by decide +kernel⟩

/-- **C131 (partial).** The links of a relationship set name the target role of their arcs. Without a target role, and if labels are
used for one concept in the role, the ends of a link are those of the locators in the arc's own link. Missing: arcs with target roles
(`C131_fails`). -/
theorem C131_ends_partial {P : List Attr → DArc → Prop} (f : Folder) (fmt : F64 → String) (ord : GoMap String Nat → GoMap String Nat)
    (hord : ∀ m, (ord m).Perm m) (lbs : List (Lb DArc)) (role : String) (lb : Lb DArc) (a : DArc)
    (ha : (lb, a) ∈ definitionArcs role lbs) (es : List LinkElem) (hm : Merged P es lb.links) (e : LinkElem) (he : e ∈ es)
    (her : HasRole e role) (x y : List Attr) (hx : x ∈ e.locs) (hy : y ∈ e.locs) (h1 h2 : String) (hlx : LocOf x ⟨h1, a.frm⟩)
    (hly : LocOf y ⟨h2, a.to⟩) (hf1 : '#' ∈ h1.toList) (hf2 : '#' ∈ h2.toList)
    (hu : ∀ e' ∈ es, HasRole e' role → ∀ x' ∈ e'.locs, ∀ l', LocOf x' l' →
      (l'.label = a.frm → l'.href = h1) ∧ (l'.label = a.to → l'.href = h2)) :
    ∃ l ∈ (getDRS f fmt ord lbs role).2, Connects fmt a l ∧ l.source = h1 ∧ (a.targetRole = "" → l.target = h2) := by
  obtain ⟨_, _, _, hg⟩ := C47_graph f fmt ord hord lbs role
  have : ∃ l ∈ (getDRS f fmt ord lbs role).2, l.source = mapLocator role lb a.frm ∧
        l.target = mapLocator (if a.targetRole = "" then role else a.targetRole) lb a.to ∧ kinds l ≤ 1 ∧ Connects fmt a l := by
    revert hg ha
    generalize definitionArcs role lbs = u
    generalize (getDRS f fmt ord lbs role).2 = v
    intro ha hg
    induction hg with
    | nil => cases ha
    | cons h _ ih =>
      rcases List.mem_cons.1 ha with rfl | ha
      · exact ⟨_, List.mem_cons_self, h⟩
      · obtain ⟨l, hl, h⟩ := ih ha
        exact ⟨l, List.mem_cons_of_mem _ hl, h⟩
  obtain ⟨l, hl, hs, htg, _, hc⟩ := this
  have hr : ∃ r ∈ lb.roleRefs, r.roleURI = role := by
    unfold definitionArcs definitionLinks at ha
    simp only [List.mem_flatMap, List.mem_filter, List.mem_map, decide_eq_true_eq] at ha
    obtain ⟨e0, ⟨_, _, hr⟩, b, _, hb⟩ := ha
    cases hb
    exact hr
  refine ⟨l, hl, hc, ?_, ?_⟩
  · rw [hs]
    exact C127_own_partial P es lb hm role hr e he her x hx ⟨h1, a.frm⟩ hlx hf1 fun e' he' her' x' hx' l' hl' hlab =>
      (hu e' he' her' x' hx' l' hl').1 hlab
  · intro h0
    rw [htg, if_pos h0]
    exact C127_own_partial P es lb hm role hr e he her y hy ⟨h2, a.to⟩ hly hf2 fun e' he' her' x' hx' l' hl' hlab =>
      (hu e' he' her' x' hx' l' hl').2 hlab

example : (defLb [unusableLink], ⟨.fin 1, HypercubeDimensionArcrole, "c", "d", false, false, "", ""⟩) ∈ definitionArcs "r" [defLb [unusableLink]] ∧
    (getDRS forestFolder (fun _ => "1") (·) [defLb [unusableLink]] "r").2.map (fun l => (l.source, l.target)) =
      [("x#p", "x#q"), ("x#p", "x#c"), ("x#c", "x#d"), ("x#d", "x#m"), ("x#m", "x#u")] := by decide +kernel

/-! ## C132: arcs and rows -/

theorem mapLocator_labelFor {A : Type} {arcOf : List Attr → A → Prop} {es : List LinkElem} {lb : Lb A} (hm : Merged arcOf es lb.links)
    {role : String} (hr : ∃ r ∈ lb.roleRefs, r.roleURI = role) {label h : String} (hl : LabelFor es role label h) :
    mapLocator role lb label = h := by
  obtain ⟨hf, ⟨e, he, her, x, hx, hxl⟩, hu⟩ := hl
  exact C127_own_partial arcOf es lb hm role hr e he her x hx ⟨h, label⟩ hxl hf hu

/-- The rows of a grid are those of the tree. -/
theorem rows_tree (f : Folder) (lbs : List (Lb PArc)) (role : String) (lb : Lb PArc) (k : Link PArc)
    (hf : FirstWith (fun lb => ∃ k, HoldsLink role lb k) lbs lb) (hk : HoldsLink role lb k) :
    getIndentedLabels f lbs role = (rowsOf 0 (f.tree (pArcs k.arcs) PresentationArcrole).sorted.children).map
      fun p => ⟨mapLocator role lb p.2, f.label (mapLocator role lb p.2), p.1⟩ := by
  unfold getIndentedLabels
  rw [(firstLink_some role lbs lb k).2 ⟨hf, hk⟩]
  simp only [walkTree, walk_rows]

theorem childRow_map {α β : Type} {g : α → β} {level : α → Nat} {level' : β → Nat} (hl : ∀ x, level' (g x) = level x) {rows : List α}
    {i j : Nat} (h : ChildRow level rows i j) : ChildRow level' (rows.map g) i j := by
  obtain ⟨h1, ⟨x, y, hx, hy, e⟩, h3⟩ := h
  refine ⟨h1, ⟨g x, g y, by rw [List.getElem?_map, hx]; rfl, by rw [List.getElem?_map, hy]; rfl, by rw [hl, hl, e]⟩, ?_⟩
  intro m x' z hm1 hm2 hx' hz
  rw [List.getElem?_map, hx, Option.map_some, Option.some.injEq] at hx'
  rw [List.getElem?_map, Option.map_eq_some_iff] at hz
  obtain ⟨z, hz, rfl⟩ := hz
  subst hx'
  rw [hl, hl]
  exact h3 m x z hm1 hm2 hx hz

theorem holds_arcs {es : List LinkElem} {parse : String → F64 × Bool} {role : String} {lb : Lb PArc} {k : Link PArc}
    (hm : Merged (PArcOf parse) es lb.links) (hk : HoldsLink role lb k) (a : PArc) :
    a ∈ k.arcs ↔ ∃ e ∈ es, HasRole e role ∧ ∃ x ∈ e.arcs, PArcOf parse x a := by
  obtain ⟨_, hw⟩ := hk
  obtain ⟨hkm, hkr⟩ := firstWith_mem hw
  rw [← merged_mem_iff hm (PArcOf.unique parse) role a]
  constructor
  · exact fun h => ⟨k, hkm, hkr, h⟩
  · rintro ⟨l, hl, hlr, ha⟩
    have : l = k := List.inj_on_of_nodup_map hm.1 hl hkm (hlr.trans hkr.symm)
    rw [← this]; exact ha

/-- **C132.** Every parent-child arc of the links of the role is shown: there is a row of its source, and further down, one level
deeper and with only rows below the source in between, a row of its target. Conversely a row is at the outermost level and the source
of an arc, but not the target of one, or it is the target of an arc whose source is the row it belongs to. This is for arcs without
cycles, for labels that stand for one concept (`C127_fails`), and a tree builder that returns the tree of the arcs. -/
theorem C132_arcs (f : Folder) (parse : String → F64 × Bool) (lbs : List (Lb PArc)) (role : String) (lb : Lb PArc) (k : Link PArc)
    (hf : FirstWith (fun lb => ∃ k, HoldsLink role lb k) lbs lb) (hk : HoldsLink role lb k)
    (es : List LinkElem) (hm : Merged (PArcOf parse) es lb.links)
    (ht : IsForest (k.arcs.map fun a => ⟨a.arcrole, a.order, a.frm, a.to⟩) "http://www.xbrl.org/2003/arcrole/parent-child"
      (f.tree (k.arcs.map fun a => ⟨a.arcrole, a.order, a.frm, a.to⟩) "http://www.xbrl.org/2003/arcrole/parent-child"))
    (hac : Acyclic (k.arcs.map fun a => ⟨a.arcrole, a.order, a.frm, a.to⟩) "http://www.xbrl.org/2003/arcrole/parent-child")
    (x : List Attr) (hx : ArcElem es role x) (a : PArc) (ha : PArcOf parse x a)
    (har : a.arcrole = "http://www.xbrl.org/2003/arcrole/parent-child") (h1 h2 : String) (hl1 : LabelFor es role a.frm h1)
    (hl2 : LabelFor es role a.to h2) :
    ∃ (i j : Nat) (n : Nat), ChildRow IndentedLabel.indentation (getIndentedLabels f lbs role) i j ∧
      (getIndentedLabels f lbs role)[i]? = some ⟨h1, f.label h1, n⟩ ∧
      (getIndentedLabels f lbs role)[j]? = some ⟨h2, f.label h2, n + 1⟩ := by
  rw [rows_tree f lbs role lb k hf hk]
  obtain ⟨e, he, her, hxe⟩ := hx
  have hak := (holds_arcs hm hk a).2 ⟨e, he, her, x, hxe, ha⟩
  have hs := ht.sorted
  change IsForest (pArcs k.arcs) PresentationArcrole (f.tree (pArcs k.arcs) PresentationArcrole).sorted at hs
  have hmem : (⟨a.arcrole, a.order, a.frm, a.to⟩ : Arc) ∈ pArcs k.arcs := List.mem_map.2 ⟨a, hak, rfl⟩
  obtain ⟨i, p, hp, ep⟩ := forest_shown hs hac hmem har
  obtain ⟨j, hj, hj2⟩ := forest_child hs hmem har hp ep
  refine ⟨i, j, p.1, childRow_map (fun _ => rfl) hj, ?_, ?_⟩
  · rw [List.getElem?_map, hp, Option.map_some, ep, mapLocator_labelFor hm hk.1 hl1]
  · rw [List.getElem?_map, hj2, Option.map_some]
    simp only
    rw [mapLocator_labelFor hm hk.1 hl2]

theorem C132_rows (f : Folder) (parse : String → F64 × Bool) (lbs : List (Lb PArc)) (role : String) (lb : Lb PArc) (k : Link PArc)
    (hf : FirstWith (fun lb => ∃ k, HoldsLink role lb k) lbs lb) (hk : HoldsLink role lb k)
    (es : List LinkElem) (hm : Merged (PArcOf parse) es lb.links)
    (ht : IsForest (k.arcs.map fun a => ⟨a.arcrole, a.order, a.frm, a.to⟩) "http://www.xbrl.org/2003/arcrole/parent-child"
      (f.tree (k.arcs.map fun a => ⟨a.arcrole, a.order, a.frm, a.to⟩) "http://www.xbrl.org/2003/arcrole/parent-child"))
    (hl : ∀ x, ArcElem es role x → ∀ a, PArcOf parse x a → (∃ h, LabelFor es role a.frm h) ∧ ∃ h, LabelFor es role a.to h)
    (j : Nat) (row : IndentedLabel) (hj : (getIndentedLabels f lbs role)[j]? = some row) :
    (row.indentation = 0 ∧ ∃ x a, ArcElem es role x ∧ PArcOf parse x a ∧
        a.arcrole = "http://www.xbrl.org/2003/arcrole/parent-child" ∧ LabelFor es role a.frm row.href ∧
        ¬ ∃ y b, ArcElem es role y ∧ PArcOf parse y b ∧ b.arcrole = "http://www.xbrl.org/2003/arcrole/parent-child" ∧ b.to = a.frm) ∨
      ∃ i top x a, (getIndentedLabels f lbs role)[i]? = some top ∧ ChildRow IndentedLabel.indentation (getIndentedLabels f lbs role) i j ∧
        ArcElem es role x ∧ PArcOf parse x a ∧ a.arcrole = "http://www.xbrl.org/2003/arcrole/parent-child" ∧
        LabelFor es role a.frm top.href ∧ LabelFor es role a.to row.href := by
  rw [rows_tree f lbs role lb k hf hk] at hj ⊢
  have hs := ht.sorted
  change IsForest (pArcs k.arcs) PresentationArcrole (f.tree (pArcs k.arcs) PresentationArcrole).sorted at hs
  rw [List.getElem?_map, Option.map_eq_some_iff] at hj
  obtain ⟨p, hp, rfl⟩ := hj
  have back : ∀ a ∈ pArcs k.arcs, ∃ x b, ArcElem es role x ∧ PArcOf parse x b ∧ b.arcrole = a.arcrole ∧ b.frm = a.frm ∧ b.to = a.to := by
    intro a ha
    obtain ⟨b, hb, rfl⟩ := List.mem_map.1 ha
    obtain ⟨e, he, her, x, hx, hxb⟩ := (holds_arcs hm hk b).1 hb
    exact ⟨x, b, ⟨e, he, her, hx⟩, hxb, rfl, rfl, rfl⟩
  rcases forest_parent hs hp with ⟨h0, ⟨a, ha, har, haf⟩, hno⟩ | ⟨i, q, hq, hc, a, ha, har, haf, hat⟩
  · left
    obtain ⟨x, b, hx, hb, e1, e2, e3⟩ := back a ha
    refine ⟨h0, x, b, hx, hb, e1.trans har, ?_, ?_⟩
    · obtain ⟨h, hh⟩ := (hl x hx b hb).1
      have := mapLocator_labelFor hm hk.1 hh
      simp only
      rw [← haf, ← e2, this]; exact hh
    · rintro ⟨y, c, ⟨e, he, her, hye⟩, hc, hcr, hct⟩
      refine hno ⟨⟨c.arcrole, c.order, c.frm, c.to⟩, List.mem_map.2 ⟨c, (holds_arcs hm hk c).2 ⟨e, he, her, y, hye, hc⟩, rfl⟩, hcr, ?_⟩
      simp only
      rw [hct, e2, haf]
  · right
    obtain ⟨x, b, hx, hb, e1, e2, e3⟩ := back a ha
    refine ⟨i, _, x, b, by rw [List.getElem?_map, hq, Option.map_some], childRow_map (fun _ => rfl) hc, hx, hb, e1.trans har, ?_, ?_⟩
    · obtain ⟨h, hh⟩ := (hl x hx b hb).1
      have := mapLocator_labelFor hm hk.1 hh
      simp only
      rw [← haf, ← e2, this]; exact hh
    · obtain ⟨h, hh⟩ := (hl x hx b hb).2
      have := mapLocator_labelFor hm hk.1 hh
      simp only
      rw [← hat, ← e3, this]; exact hh

/-- Two links of a role, of which one continues the other. -/
def chainLinks : List LinkElem :=
  [defLink "r" ["assets", "cash"] [defArc PresentationArcrole "assets" "cash" []],
   defLink "r" ["all", "assets", "equity"] [defArc PresentationArcrole "all" "equity" [], defArc PresentationArcrole "all" "assets" []]]

/-- The hypotheses of `C132_arcs` can be met, and the rows are those of the arcs. -/
example : HoldsLink "r" (pairLb chainLinks) ⟨"r", [⟨"x#assets", "assets"⟩, ⟨"x#cash", "cash"⟩, ⟨"x#all", "all"⟩, ⟨"x#assets", "assets"⟩,
      ⟨"x#equity", "equity"⟩], [⟨.fin 1, PresentationArcrole, "assets", "cash", ""⟩, ⟨.fin 1, PresentationArcrole, "all", "equity", ""⟩,
      ⟨.fin 1, PresentationArcrole, "all", "assets", ""⟩]⟩ ∧
    (getIndentedLabels forestFolder [pairLb chainLinks] "r").map (fun r => (r.indentation, r.href)) =
      [(0, "x#all"), (1, "x#equity"), (1, "x#assets"), (2, "x#cash")] ∧
    LabelFor chainLinks "r" "assets" "x#assets" := by
  refine ⟨((firstLink_some "r" [pairLb chainLinks] _ _).1 (by decide +kernel)).2, by decide +kernel, by decide, ?_, ?_⟩
  · refine ⟨_, List.mem_cons_self, (linkRole_iff _ _).1 (by decide +kernel), _, List.mem_cons_self, (hydrateLoc_iff _ _).1 (by decide +kernel)⟩
  · intro e he _ x hx l hl hlab
    rw [← hydrateLoc_iff] at hl
    simp only [chainLinks, List.mem_cons, List.not_mem_nil, or_false] at he
    rcases he with rfl | rfl <;> simp only [defLink, List.map_cons, List.map_nil, List.mem_cons, List.not_mem_nil, or_false] at hx
    · rcases hx with rfl | rfl
      · rw [← Option.some.inj ((show _ = some (⟨"x#assets", "assets"⟩ : Loc) by decide +kernel).symm.trans hl)]
      · rw [← Option.some.inj ((show _ = some (⟨"x#cash", "cash"⟩ : Loc) by decide +kernel).symm.trans hl)] at hlab; exact absurd hlab (by decide)
    · rcases hx with rfl | rfl | rfl
      · rw [← Option.some.inj ((show _ = some (⟨"x#all", "all"⟩ : Loc) by decide +kernel).symm.trans hl)] at hlab; exact absurd hlab (by decide)
      · rw [← Option.some.inj ((show _ = some (⟨"x#assets", "assets"⟩ : Loc) by decide +kernel).symm.trans hl)]
      · rw [← Option.some.inj ((show _ = some (⟨"x#equity", "equity"⟩ : Loc) by decide +kernel).symm.trans hl)] at hlab; exact absurd hlab (by decide)

/-! ## C134: the order of an arc is optional -/

theorem numVal_given {parse : String → F64 × Bool} {x : List Attr} {n : String} {d : F64} :
    (∃ v, NumVal parse x n d v) ↔ Given x n := by
  constructor
  · rintro ⟨v, s, h1, h2, _⟩; exact ⟨s, h1, h2⟩
  · rintro ⟨s, h1, h2⟩
    cases h : (parse s).2 with
    | true => exact ⟨_, s, h1, h2, .inl ⟨h, rfl⟩⟩
    | false => exact ⟨_, s, h1, h2, .inr ⟨h, rfl⟩⟩

theorem optVal_exists (x : List Attr) (n : String) : ∃ v, OptVal x n v := by
  exact ⟨_, (optAttr_iff _ _ _).1 rfl⟩

/-- **C134a.** A relationship is hydrated iff one of the arcs that state it has an order; in calculation linkbases, an order and a weight. -/
theorem C134_exact (parse : String → F64 × Bool) (es : List LinkElem) (r arcrole frm to' : String) :
    (∀ ord : GoMap String (Link PArc) → GoMap String (Link PArc), (∀ m, (ord m).Perm m) →
      ((∃ l ∈ hydratePresentationLink parse ord es, l.role = r ∧ ∃ a ∈ l.arcs, a.arcrole = arcrole ∧ a.frm = frm ∧ a.to = to') ↔
        ∃ x, ArcElem es r x ∧ ArcEnds x arcrole frm to' ∧ Given x "order")) ∧
    (∀ ord : GoMap String (Link DArc) → GoMap String (Link DArc), (∀ m, (ord m).Perm m) →
      ((∃ l ∈ hydrateDefinitionLink parse ord es, l.role = r ∧ ∃ a ∈ l.arcs, a.arcrole = arcrole ∧ a.frm = frm ∧ a.to = to') ↔
        ∃ x, ArcElem es r x ∧ ArcEnds x arcrole frm to' ∧ Given x "order")) ∧
    (∀ ord : GoMap String (Link CArc) → GoMap String (Link CArc), (∀ m, (ord m).Perm m) →
      ((∃ l ∈ hydrateCalculationLink parse ord es, l.role = r ∧ ∃ a ∈ l.arcs, a.arcrole = arcrole ∧ a.frm = frm ∧ a.to = to') ↔
        ∃ x, ArcElem es r x ∧ ArcEnds x arcrole frm to' ∧ Given x "order" ∧ Given x "weight")) := by
  refine ⟨fun ord ho => ⟨?_, ?_⟩, fun ord ho => ⟨?_, ?_⟩, fun ord ho => ⟨?_, ?_⟩⟩
  · rintro ⟨l, hl, hr, a, ha, rfl, rfl, rfl⟩
    obtain ⟨e, he, hr, x, hx, h1, h2, _⟩ := (C20_presentation parse ord ho es r a).1 ⟨l, hl, hr, ha⟩
    exact ⟨x, ⟨e, he, hr, hx⟩, h1, numVal_given.1 ⟨_, h2⟩⟩
  · rintro ⟨x, ⟨e, he, hr, hx⟩, h1, h2⟩
    obtain ⟨v, hv⟩ := (numVal_given (parse := parse) (d := largest)).2 h2
    obtain ⟨p, hp⟩ := optVal_exists x "preferredLabel"
    obtain ⟨l, hl, hr, ha⟩ := (C20_presentation parse ord ho es r ⟨v, arcrole, frm, to', p⟩).2 ⟨e, he, hr, x, hx, h1, hv, hp⟩
    exact ⟨l, hl, hr, _, ha, rfl, rfl, rfl⟩
  · rintro ⟨l, hl, hr, a, ha, rfl, rfl, rfl⟩
    obtain ⟨e, he, hr, x, hx, ⟨h1, h2, _⟩, _⟩ := (C20_definition parse ord ho es r a).1 ⟨l, hl, hr, ha⟩
    exact ⟨x, ⟨e, he, hr, hx⟩, h1, numVal_given.1 ⟨_, h2⟩⟩
  · rintro ⟨x, ⟨e, he, hr, hx⟩, h1, h2⟩
    obtain ⟨v, hv⟩ := (numVal_given (parse := parse) (d := largest)).2 h2
    obtain ⟨p, hp⟩ := optVal_exists x "contextElement"
    obtain ⟨t, ht⟩ := optVal_exists x "targetRole"
    obtain ⟨u, hu⟩ : ∃ u : Bool, u = true ↔ ∃ s, AttrVal x "usable" s ∧ BoolText s :=
      ⟨@decide _ (Classical.propDecidable _), @decide_eq_true_iff _ (Classical.propDecidable _)⟩
    obtain ⟨l, hl, hr, ha⟩ := (C20_definition parse ord ho es r ⟨v, arcrole, frm, to', false, u, p, t⟩).2
      ⟨e, he, hr, x, hx, ⟨h1, hv, hp, ht⟩, rfl, hu⟩
    exact ⟨l, hl, hr, _, ha, rfl, rfl, rfl⟩
  · rintro ⟨l, hl, hr, a, ha, rfl, rfl, rfl⟩
    obtain ⟨e, he, hr, x, hx, h1, h2, h3⟩ := (C20_calculation parse ord ho es r a).1 ⟨l, hl, hr, ha⟩
    exact ⟨x, ⟨e, he, hr, hx⟩, h1, numVal_given.1 ⟨_, h2⟩, numVal_given.1 ⟨_, h3⟩⟩
  · rintro ⟨x, ⟨e, he, hr, hx⟩, h1, h2, h3⟩
    obtain ⟨v, hv⟩ := (numVal_given (parse := parse) (d := largest)).2 h2
    obtain ⟨w, hw⟩ := (numVal_given (parse := parse) (d := .fin 0)).2 h3
    obtain ⟨l, hl, hr, ha⟩ := (C20_calculation parse ord ho es r ⟨v, arcrole, frm, to', w⟩).2 ⟨e, he, hr, x, hx, h1, hv, hw⟩
    exact ⟨l, hl, hr, _, ha, rfl, rfl, rfl⟩

/-- A linkbase with one arc, which has no order. -/
def orderlessLink : LinkElem where
  attrs := [⟨⟨XLINK, "type"⟩, "extended"⟩, ⟨⟨XLINK, "role"⟩, "r"⟩]
  locs := []
  arcs := [[("type", "arc"), ("arcrole", "r"), ("from", "a"), ("to", "b"), ("weight", "1")].map fun p => ⟨⟨XLINK, p.1⟩, p.2⟩]

/-- **C134 (fails).** A relationship that is stated by an arc without order is not hydrated, in any of the three linkbases. -/
theorem C134_fails : States [orderlessLink] "r" "r" "a" "b" ∧
    hydratePresentationLink exParse (·) [orderlessLink] = [⟨"r", [], []⟩] ∧
    hydrateDefinitionLink exParse (·) [orderlessLink] = [⟨"r", [], []⟩] ∧
    hydrateCalculationLink exParse (·) [orderlessLink] = [⟨"r", [], []⟩] := by
  refine ⟨⟨_, ⟨_, List.mem_singleton.2 rfl, ?_, List.mem_singleton.2 rfl⟩, ?_⟩, by decide +kernel, by decide +kernel, by decide +kernel⟩
  · rw [← linkRole_iff]; decide
  · rw [← arcEnds_iff]; decide

/-- **C134 (partial).** If all arcs of the role have an order, exactly the stated relationships are hydrated. Missing: arcs without order
(`C134_fails`), which are in force with order 1. -/
theorem C134_partial (parse : String → F64 × Bool) (es : List LinkElem) (r arcrole frm to' : String)
    (hg : ∀ x, ArcElem es r x → Given x "order") :
    (∀ ord : GoMap String (Link PArc) → GoMap String (Link PArc), (∀ m, (ord m).Perm m) →
      ((∃ l ∈ hydratePresentationLink parse ord es, l.role = r ∧ ∃ a ∈ l.arcs, a.arcrole = arcrole ∧ a.frm = frm ∧ a.to = to') ↔
        States es r arcrole frm to')) ∧
    (∀ ord : GoMap String (Link DArc) → GoMap String (Link DArc), (∀ m, (ord m).Perm m) →
      ((∃ l ∈ hydrateDefinitionLink parse ord es, l.role = r ∧ ∃ a ∈ l.arcs, a.arcrole = arcrole ∧ a.frm = frm ∧ a.to = to') ↔
        States es r arcrole frm to')) ∧
    ((∀ x, ArcElem es r x → Given x "weight") →
      ∀ ord : GoMap String (Link CArc) → GoMap String (Link CArc), (∀ m, (ord m).Perm m) →
        ((∃ l ∈ hydrateCalculationLink parse ord es, l.role = r ∧ ∃ a ∈ l.arcs, a.arcrole = arcrole ∧ a.frm = frm ∧ a.to = to') ↔
          States es r arcrole frm to')) := by
  obtain ⟨h1, h2, h3⟩ := C134_exact parse es r arcrole frm to'
  refine ⟨fun ord ho => (h1 ord ho).trans ?_, fun ord ho => (h2 ord ho).trans ?_, fun hw ord ho => (h3 ord ho).trans ?_⟩
  · exact ⟨fun ⟨x, a, b, _⟩ => ⟨x, a, b⟩, fun ⟨x, a, b⟩ => ⟨x, a, b, hg x a⟩⟩
  · exact ⟨fun ⟨x, a, b, _⟩ => ⟨x, a, b⟩, fun ⟨x, a, b⟩ => ⟨x, a, b, hg x a⟩⟩
  · exact ⟨fun ⟨x, a, b, _⟩ => ⟨x, a, b⟩, fun ⟨x, a, b⟩ => ⟨x, a, b, hg x a, hw x a⟩⟩

/-- **C134b.** Arcs to labels need no order. -/
theorem C134_labels_partial (parse : String → F64 × Bool) (es : List LinkElem) (r arcrole frm to' : String) :
    (∃ l ∈ hydrateLabelLink parse es, l.role = r ∧ ∃ a ∈ l.arcs, a.arcrole = arcrole ∧ a.frm = frm ∧ a.to = to') ↔
      States es r arcrole frm to' := by
  unfold hydrateLabelLink
  simp only [List.mem_filterMap]
  constructor
  · rintro ⟨l, ⟨e, he, hl⟩, rfl, a, ha, rfl, rfl, rfl⟩
    unfold hydrateOneLabelLink at hl
    split at hl
    · cases hl
    · rename_i role hr
      cases hl
      rw [labelArcs_eq] at ha
      obtain ⟨⟨x, i⟩, hx, h⟩ := List.mem_filterMap.1 ha
      exact ⟨x, ⟨e, he, (linkRole_iff _ _).1 hr, (List.mem_zipIdx_iff_getElem?.1 hx |> List.mem_of_getElem?)⟩, ((labelArc_iff _ _ _ _ _).1 h).1⟩
  · rintro ⟨x, ⟨e, he, hr, hx⟩, hends⟩
    refine ⟨_, ⟨e, he, by unfold hydrateOneLabelLink; rw [(linkRole_iff _ _).2 hr]⟩, rfl, ?_⟩
    obtain ⟨i, hi, hxi⟩ := List.getElem_of_mem hx
    have : ∃ a, labelArc parse e.arcs.length i x = some a ∧ a.arcrole = arcrole ∧ a.frm = frm ∧ a.to = to' := by
      unfold labelArc
      rw [(arcEnds_iff _ _ _ _).2 hends]
      exact ⟨_, rfl, rfl, rfl, rfl⟩
    obtain ⟨a, h1, h2⟩ := this
    refine ⟨a, ?_, h2⟩
    rw [labelArcs_eq]
    exact List.mem_filterMap.2 ⟨(x, i), List.mem_zipIdx_iff_getElem?.2 (by simp [hi, hxi]), h1⟩

example : ∀ x, ArcElem [exLink "p" [exArc []]] "p" x → Given x "order" := by
  rintro x ⟨e, he, _, hx⟩
  rw [List.mem_singleton] at he
  subst he
  simp only [exLink, List.mem_singleton] at hx
  subst hx
  exact ⟨"1", (attrVal_iff _ _ _).2 ⟨⟨⟨XLINK, "order"⟩, "1"⟩, by decide, rfl⟩, by decide⟩

end Telefacts
