import Verif.Props.Linkbase
import Verif.Props.Schema
import Verif.Props.Network
import Verif.Props.Label
import Verif.Props.Domain
import Verif.Props.Grid
import Mathlib.Tactic.Ring
/-!
# Exactly when

For claims that are false of the code: exactly for which inputs they hold, or that they fail for all inputs of a kind.
-/
namespace Telefacts
open Telefacts.Linkbase Telefacts.Spec

/-- The spellings that `strconv.ParseBool` reads. -/
def GoBool (s : String) : Prop :=
  s ∈ ["1", "t", "T", "true", "TRUE", "True"] ∨ s ∈ ["0", "f", "F", "false", "FALSE", "False"]

/-- **C21.** No arc is closed, and an arc is usable exactly if it has an attribute `usable` that can be read, whatever it says. -/
theorem C21_flags {parse : String → F64 × Bool} {x : List Attr} {a : DArc} (h : definitionArc parse x = some a) :
    a.closed = false ∧ (a.usable = true ↔ ∃ s, AttrVal x "usable" s ∧ GoBool s) := by
  obtain ⟨_, h1, h2⟩ := (definitionArc_iff parse x a).1 h
  refine ⟨?_, ?_⟩
  · rw [h1]
    unfold closedFlag
    split
    · rfl
    · split <;> rfl
  · rw [h2]
    unfold usableFlag
    constructor
    · intro hu
      split at hu
      · exact absurd hu (by simp)
      · rename_i b hb
        refine ⟨b.value, (attrVal_iff _ _ _).2 ⟨b, hb, rfl⟩, ?_⟩
        split at hu
        · rename_i v hv
          unfold parseBool at hv
          unfold GoBool
          split at hv
          · exact .inl ‹_›
          · split at hv
            · exact .inr ‹_›
            · exact absurd hv (by simp)
        · exact absurd hu (by simp)
    · rintro ⟨s, hs, hg⟩
      obtain ⟨b, hb, rfl⟩ := (attrVal_iff _ _ _).1 hs
      rw [hb]
      simp only
      unfold parseBool
      rcases hg with hg | hg
      · rw [if_pos hg]
      · by_cases h1 : b.value ∈ ["1", "t", "T", "true", "TRUE", "True"]
        · rw [if_pos h1]
        · rw [if_neg h1, if_pos hg]

/-- **C21.** The claim holds of an arc exactly if it is not declared closed and has an attribute `usable` that can be read and does
not say false. -/
theorem C21_exact {parse : String → F64 × Bool} {x : List Attr} {a : DArc} (h : definitionArc parse x = some a) :
    ((a.closed = true ↔ ∃ s, AttrVal x "closed" s ∧ XsTrue s) ∧ (a.usable = false ↔ ∃ s, AttrVal x "usable" s ∧ XsFalse s)) ↔
      (¬ ∃ s, AttrVal x "closed" s ∧ XsTrue s) ∧ ∃ s, AttrVal x "usable" s ∧ GoBool s ∧ ¬ XsFalse s := by
  obtain ⟨hc, hu⟩ := C21_flags h
  have huniq : ∀ s s', AttrVal x "usable" s → AttrVal x "usable" s' → s = s' := by
    intro s s' h1 h2
    obtain ⟨b, hb, rfl⟩ := (attrVal_iff _ _ _).1 h1
    obtain ⟨b', hb', rfl⟩ := (attrVal_iff _ _ _).1 h2
    rw [hb] at hb'
    cases hb'
    rfl
  rw [hc]
  refine and_congr (by simp) ?_
  constructor
  · intro h1
    by_cases ht : a.usable = true
    · obtain ⟨s, hs, hg⟩ := hu.1 ht
      refine ⟨s, hs, hg, fun hf => ?_⟩
      have := h1.2 ⟨s, hs, hf⟩
      rw [ht] at this
      exact absurd this (by simp)
    · obtain ⟨s, hs, hf⟩ := h1.1 (by simpa using ht)
      refine absurd (hu.2 ⟨s, hs, .inr ?_⟩) ht
      rcases hf with rfl | rfl <;> decide
  · rintro ⟨s, hs, hg, hf⟩
    rw [hu.2 ⟨s, hs, hg⟩]
    constructor
    · exact fun h => absurd h (by simp)
    · rintro ⟨s', hs', hf'⟩
      rw [huniq s' s hs' hs] at hf'
      exact absurd hf' hf

/-- An arc with a spelling that is not one of XML Schema; and of the other kinds. -/
example : (definitionArc exParse (exArc [("usable", "T")])).map DArc.usable = some true ∧
    (definitionArc exParse (exArc [("usable", "False")])).map DArc.usable = some true ∧
    (definitionArc exParse (exArc [("usable", "yes")])).map DArc.usable = some false := by decide

end Telefacts

namespace Telefacts
open Telefacts.Schema Telefacts.Linkbase Telefacts.Spec

/-- The role types of an appinfo or annotation of XML Schema. -/
def appinfoTypes (i : AppinfoElem) : List RoleTypeElem := if i.space = "http://www.w3.org/2001/XMLSchema" then i.roleTypes else []
def annotationTypes (a : AnnotationElem) : List RoleTypeElem :=
  if a.space = "http://www.w3.org/2001/XMLSchema" then a.appinfos.flatMap appinfoTypes else []

/-- **C74.** All role types are hydrated exactly if no well-formed one stands after the first appinfo of the first annotation. -/
theorem C74_exact (file : SchemaFile) (fileName : String) (s : HSchema) (h : hydrateSchema file fileName = .ok s) :
    Collected RoleTypeOf (file.annotations.flatMap annotationTypes) s.roleTypes ↔
      (∀ a ∈ file.annotations.tail, ∀ e ∈ annotationTypes a, ∀ r, ¬ RoleTypeOf e r) ∧
      ∀ a, file.annotations.head? = some a → a.space = "http://www.w3.org/2001/XMLSchema" →
        ∀ i ∈ a.appinfos.tail, ∀ e ∈ appinfoTypes i, ∀ r, ¬ RoleTypeOf e r := by
  have hs : s.roleTypes = hydrateAnnotation file := by
    unfold hydrateSchema at h
    split at h
    · cases h
    · cases h; rfl
  have hnone : ∀ (l : List RoleTypeElem), l.filterMap hydrateRoleType = [] ↔ ∀ e ∈ l, ∀ r, ¬ RoleTypeOf e r := by
    intro l
    rw [List.filterMap_eq_nil_iff]
    refine forall_congr' fun e => forall_congr' fun _ => ?_
    rw [Option.eq_none_iff_forall_ne_some]
    exact forall_congr' fun r => not_congr (hydrateRoleType_iff e r)
  have hflat : ∀ {α : Type} (l : List α) (g : α → List RoleTypeElem),
      (l.flatMap g).filterMap hydrateRoleType = [] ↔ ∀ a ∈ l, ∀ e ∈ g a, ∀ r, ¬ RoleTypeOf e r := by
    intro α l g
    rw [hnone]
    simp only [List.mem_flatMap]
    exact ⟨fun h a ha e he => h e ⟨a, ha, he⟩, fun h e ⟨a, ha, he⟩ => h a ha e he⟩
  rw [collected_iff hydrateRoleType_iff, hs]
  unfold hydrateAnnotation
  cases ha : file.annotations with
  | nil => simp
  | cons a as =>
    rw [List.flatMap_cons, List.filterMap_append]
    simp only [List.tail_cons, List.head?_cons, Option.some.injEq, forall_eq']
    by_cases hsp : a.space = "http://www.w3.org/2001/XMLSchema"
    · rw [if_neg (by show ¬ a.space ≠ "http://www.w3.org/2001/XMLSchema"; simp [hsp])]
      unfold annotationTypes
      rw [if_pos hsp]
      cases hi : a.appinfos with
      | nil =>
        simp only [List.flatMap_nil, List.filterMap_nil, List.nil_append, List.tail_nil, List.not_mem_nil]
        rw [eq_comm]
        have := hflat as annotationTypes
        unfold annotationTypes at this
        rw [this]
        simp
      | cons i is =>
        simp only [List.flatMap_cons, List.filterMap_append, List.tail_cons]
        have hhead : (if i.space ≠ XSD then [] else i.roleTypes.filterMap hydrateRoleType) = (appinfoTypes i).filterMap hydrateRoleType := by
          unfold appinfoTypes
          by_cases h2 : i.space = "http://www.w3.org/2001/XMLSchema"
          · rw [if_pos h2, if_neg (by show ¬ i.space ≠ "http://www.w3.org/2001/XMLSchema"; simp [h2])]
          · rw [if_neg h2, if_pos (by show i.space ≠ "http://www.w3.org/2001/XMLSchema"; exact h2)]; rfl
        rw [hhead, List.append_assoc, List.self_eq_append_right, List.append_eq_nil_iff, hflat]
        have := hflat as annotationTypes
        unfold annotationTypes at this
        rw [this]
        tauto
    · rw [if_pos (by show a.space ≠ "http://www.w3.org/2001/XMLSchema"; exact hsp)]
      have h0 : annotationTypes a = [] := by unfold annotationTypes; rw [if_neg hsp]
      rw [h0, List.filterMap_nil, List.nil_append, eq_comm, hflat]
      simp [hsp]

example : hydrateSchema sampleFile "x.xsd" = .ok ⟨"x.xsd", hydrateAnnotation sampleFile, hydrateConcepts sampleFile "x.xsd"⟩ ∧
    sampleFile.annotations.flatMap annotationTypes ≠ [] := by
  refine ⟨by simp [hydrateSchema], by decide⟩

end Telefacts

namespace Telefacts
open Telefacts.Render Telefacts.Linkbase Telefacts.Spec

/-- **C50.** There is an English text for a role exactly if a label of the concept with that role is tagged en-US. -/
theorem C50_exact (lbs : List (List LabelLink)) (href role : String) :
    (∃ t, Shown (getLabel lbs href) role "en - english" t) ↔ ∃ l ∈ labelsOf lbs href, HasLabelRole l role ∧ l.lang = "en-US" := by
  constructor
  · rintro ⟨t, h⟩
    rcases ((C49_labels lbs href).1 role _ t).1 h with h | ⟨l, hl, -⟩
    · exact absurd h (by rintro ⟨_, ⟨h, _⟩ | ⟨h, _⟩⟩ <;> revert h <;> decide)
    · obtain ⟨hm, h1, h2⟩ := lastWith_mem hl
      refine ⟨l, hm, h1, ?_⟩
      rcases h2 with ⟨h2, _⟩ | ⟨_, h2⟩
      · exact h2
      · exact absurd h2 (by decide)
  · rintro ⟨l, hl, hr, hlang⟩
    obtain ⟨l', -, -, -, h⟩ := C50_english_partial lbs href role l hl hr hlang
    exact ⟨_, h⟩

/-- **C48.** Only dimension-default arcs are marked default exactly if the role has no dimension-domain arc. -/
theorem C48_exact (f : Folder) (fmt : F64 → String) (ord : GoMap String Nat → GoMap String Nat) (lbs : List (Lb DArc)) (role : String) :
    List.Forall₂ (fun (e : Lb DArc × DArc) (l : DRSLink) => ∀ c, l.dimensionDomain = some c → c.default = true →
        e.2.arcrole = "http://xbrl.org/int/dim/arcrole/dimension-default")
      (definitionArcs role lbs) (getDRS f fmt ord lbs role).2 ↔
    ∀ e ∈ definitionArcs role lbs, e.2.arcrole ≠ "http://xbrl.org/int/dim/arcrole/dimension-domain" := by
  have h := C48_default_partial f fmt ord lbs role
  generalize definitionArcs role lbs = as at *
  generalize (getDRS f fmt ord lbs role).2 = ls at *
  induction h with
  | nil => simp
  | @cons e l as ls hx _ ih =>
    rw [List.forall₂_cons, List.forall_mem_cons]
    refine and_congr ?_ ih
    constructor
    · intro h1 h2
      obtain ⟨c, hc⟩ := hx.1.2 (.inr h2)
      have := h1 c hc (hx.2 c hc).1
      rw [this] at h2
      exact absurd h2 (by decide)
    · intro h1 c hc _
      rcases hx.1.1 ⟨c, hc⟩ with h2 | h2
      · exact h2
      · exact absurd h2 h1

/-- A role with a dimension-domain arc, and one whose only arcs are of other kinds. -/
example : (∃ e ∈ definitionArcs "r" [drsLb], e.2.arcrole = "http://xbrl.org/int/dim/arcrole/dimension-domain") ∧
    definitionArcs "q" [drsLb] = [] := by decide +kernel

/-- **C81 (fails).** Whatever linkbases follow or precede the first one that has a link of the role, the rows are the same. -/
theorem C81_first_fails (f : Folder) (lbs lbs' : List (Lb PArc)) (role : String) (lb : Lb PArc)
    (h : FirstWith (fun lb => ∃ k, HoldsLink role lb k) lbs lb) (h' : FirstWith (fun lb => ∃ k, HoldsLink role lb k) lbs' lb) :
    getIndentedLabels f lbs role = getIndentedLabels f lbs' role := by
  obtain ⟨-, k, hk⟩ := firstWith_mem h
  unfold getIndentedLabels
  rw [(firstLink_some role lbs lb k).2 ⟨h, hk⟩, (firstLink_some role lbs' lb k).2 ⟨h', hk⟩]

/-- Two linkbases of the role: the second is not looked at. -/
example : FirstWith (fun lb => ∃ k, HoldsLink "r" lb k) [flatLb "a", flatLb "b"] (flatLb "a") ∧
    FirstWith (fun lb => ∃ k, HoldsLink "r" lb k) [flatLb "a"] (flatLb "a") := by
  have h : ∃ k, HoldsLink "r" (flatLb "a") k := ⟨_, ⟨_, List.mem_singleton.2 rfl, rfl⟩, [], [], rfl, rfl, by simp⟩
  exact ⟨⟨[], [flatLb "b"], rfl, h, by simp⟩, ⟨[], [], rfl, h, by simp⟩⟩

/-- What an arc of the role points at, if it stood in the linkbase. -/
def PointsAt (role : String) (lb : Lb DArc) (a : DArc) (d : String) : Prop :=
  LocatorHref role lb a.to d ∨ ((¬ ∃ h, LocatorHref role lb a.to h) ∧ d = "#" ++ a.to)

/-- **C86.** The effective dimensions are what the hypercube-dimension arcs of the link would point at in any of the linkbases. -/
theorem C86_exact (lbs : List (Lb DArc)) (role : String) (arcs : List DArc) :
    (effectiveDimensionHrefs lbs role arcs).Nodup ∧
    ∀ d, d ∈ effectiveDimensionHrefs lbs role arcs ↔
      ∃ lb ∈ lbs, ∃ a ∈ arcs, a.arcrole = "http://xbrl.org/int/dim/arcrole/hypercube-dimension" ∧ PointsAt role lb a d := by
  unfold effectiveDimensionHrefs
  obtain ⟨h1, h2⟩ := foldl_distinct (lbs.flatMap fun lb => (arcs.filter fun a => decide (a.arcrole = HypercubeDimensionArcrole)).map fun a =>
    mapLocator role lb a.to) [] List.nodup_nil
  refine ⟨h1, fun d => ?_⟩
  rw [h2]
  simp only [List.not_mem_nil, false_or, List.mem_flatMap, List.mem_map, List.mem_filter, decide_eq_true_iff, C80_locator, and_assoc]
  rfl

/-- **C86 (fails).** A further linkbase without a locator for the target of an arc always adds a dimension that is none. -/
theorem C86_further_fails (lbs : List (Lb DArc)) (role : String) (arcs : List DArc) (lb : Lb DArc) (hlb : lb ∈ lbs) (a : DArc)
    (ha : a ∈ arcs) (hr : a.arcrole = "http://xbrl.org/int/dim/arcrole/hypercube-dimension") (h : ¬ ∃ h, LocatorHref role lb a.to h) :
    "#" ++ a.to ∈ effectiveDimensionHrefs lbs role arcs :=
  ((C86_exact lbs role arcs).2 _).2 ⟨lb, hlb, a, ha, hr, .inr ⟨h, rfl⟩⟩

/-- A linkbase without locators beside that of the example. -/
example : (⟨[], []⟩ : Lb DArc) ∈ [drsLb, ⟨[], []⟩] ∧ (∃ a ∈ drsLb.links.flatMap Link.arcs,
    a.arcrole = "http://xbrl.org/int/dim/arcrole/hypercube-dimension" ∧ ¬ ∃ h, LocatorHref "r" (⟨[], []⟩ : Lb DArc) a.to h) := by
  refine ⟨by simp, _, List.mem_flatMap.2 ⟨_, List.mem_singleton.2 rfl, List.mem_cons_self ..⟩, rfl, ?_⟩
  rintro ⟨h, hh⟩
  unfold LocatorHref at hh
  simp at hh

/-- **C46.** The text of the scale is exactly the absolute weight if and only if the weight is a multiple of one half. -/
theorem C46_exact {f : Folder} {role : String} {lb : Lb CArc} {arcs : List CArc} {a : CArc} {c : Contributing}
    (h : Contributes f role lb arcs a c) (z : Int) (hz : a.weight = .fin z) :
    (∃ q : Nat, c.scale = tenthsText q ∧ 10 * z.natAbs = q * 2 ^ 1074) ↔ ∃ n : Nat, 2 * z.natAbs = n * 2 ^ 1074 := by
  have hp : (2 : Nat) ^ 1074 = 2 * 2 ^ 1073 := by rw [Nat.pow_succ, Nat.mul_comm]
  have hpos : 0 < (2 : Nat) ^ 1073 := Nat.two_pow_pos _
  have hcop : Nat.Coprime 5 (2 ^ 1073) := Nat.Coprime.pow_right 1073 (by decide)
  obtain ⟨q, hq, h1, h2⟩ := h.scale z hz
  rw [hp] at *
  generalize (2 : Nat) ^ 1073 = P at *
  constructor
  · rintro ⟨q, -, hq⟩
    have h5 : 5 ∣ q * P := ⟨z.natAbs, by
      have : 10 * z.natAbs = 2 * (q * P) := by rw [hq]; ring
      omega⟩
    obtain ⟨n, rfl⟩ := hcop.dvd_of_dvd_mul_right h5
    refine ⟨n, ?_⟩
    have : 10 * z.natAbs = 5 * (n * (2 * P)) := by rw [hq]; ring
    omega
  · rintro ⟨n, hn⟩
    refine ⟨q, hq, ?_⟩
    have e : 10 * z.natAbs = 5 * n * (2 * P) := by
      have : 10 * z.natAbs = 5 * (2 * z.natAbs) := by ring
      rw [this, hn]; ring
    rw [e] at h1 h2 ⊢
    have h3 : 2 * (5 * n) ≤ 2 * q + 1 := by
      refine Nat.le_of_mul_le_mul_right (c := 2 * P) ?_ (by omega)
      calc 2 * (5 * n) * (2 * P) = 2 * (5 * n * (2 * P)) := by ring
        _ ≤ _ := h1
    have h4 : 2 * q ≤ 2 * (5 * n) + 1 := by
      refine Nat.le_of_mul_le_mul_right (c := 2 * P) ?_ (by omega)
      calc 2 * q * (2 * P) ≤ _ := h2
        _ = (2 * (5 * n) + 1) * (2 * P) := by ring
    rw [show q = 5 * n by omega]

/-- The weight one quarter, with the scale 0.2. -/
example : Contributes calcFolder "r" calcLb [] ⟨F64.zero, CalculationArcrole, "t1", "a", .fin (2 ^ 1072)⟩
    ⟨"+", "0.2", "", "x#A", [(Default, [(PureLabel, "x#A")])], false⟩ := by
  have hneg : ¬ Negative (.fin (2 ^ 1072)) := by
    rintro (h | ⟨z, hz, h⟩)
    · cases h
    · have h := F64.fin.inj h
      rw [← h] at hz
      exact absurd hz (by decide +kernel)
  refine ⟨by decide +kernel, by decide +kernel, ?_, ?_, ?_, ?_, ⟨conceptExample "x#A" false, by decide +kernel, by decide⟩, by simp⟩
  · exact ⟨fun h => absurd h (by decide), fun h => absurd h hneg⟩
  · exact ⟨fun _ => hneg, fun _ => rfl⟩
  · intro z hz
    have hz := F64.fin.inj hz
    rw [← hz]
    exact ⟨2, by decide +kernel, by decide +kernel, by decide +kernel⟩
  · intro n hn
    have hn := F64.fin.inj hn
    have h4 : (4 : Int) * 2 ^ 1072 = 2 ^ 1074 := by decide +kernel
    have hpos : (0 : Int) < 2 ^ 1072 := by decide +kernel
    rw [← h4] at hn
    generalize (2 : Int) ^ 1072 = p at hn hpos
    exfalso
    have h1 : p * 1 = p * (n * 4) := by rw [Int.mul_one]; rw [← Int.mul_assoc, Int.mul_comm n 4, Int.mul_assoc] at hn; rw [Int.mul_comm p, Int.mul_comm n 4, Int.mul_assoc]; exact hn
    have h2 := Int.eq_of_mul_eq_mul_left (Int.ne_of_gt hpos) h1
    omega

/-- **C83.** Exactly when only members of the dimension are listed, in networks that do not list a member twice: if a hypercube of
the item has the dimension and the dimension has a domain, then all members of all domains must be members of this dimension;
and if an exclusive hypercube has it, the defaults of all dimensions as well. -/
theorem C83_exact (w : Networks) (primary dim : String) (ht : Tidy w primary dim) :
    (∀ m ∈ (getEffectiveDomain w primary dim).1, MemberOfDimension w dim m.href) ↔
      (HasDomain w dim → (∃ c, HasCube w w.inclusive primary dim c ∨ HasCube w w.exclusive primary dim c) →
        ∀ h, DomainMember w h → MemberOfDimension w dim h) ∧
      ((∃ c, HasCube w w.exclusive primary dim c) → ∀ dim' h, DefaultOf w dim' h → MemberOfDimension w dim h) := by
  have hc := C69_complete w primary dim ht
  constructor
  · intro h
    refine ⟨?_, ?_⟩
    · rintro hd ⟨c, hcube⟩ x hx
      rcases hcube with hcube | hcube
      · exact h ⟨x, w.label x, false, false⟩ ((hc _).2 ⟨rfl, by simpa using ⟨c, hcube⟩, by simp, fun _ => ⟨hd, hx⟩⟩)
      · exact h ⟨x, w.label x, false, true⟩ ((hc _).2 ⟨rfl, by simpa using ⟨c, hcube⟩, by simp, fun _ => ⟨hd, hx⟩⟩)
    · rintro ⟨c, hcube⟩ dim' x hx
      exact h ⟨x, w.label x, true, true⟩ ((hc _).2 ⟨rfl, by simpa using ⟨c, hcube⟩, fun _ => by simpa using ⟨dim', hx⟩, by simp⟩)
  · rintro ⟨h1, h2⟩ m hm
    have hl := (hc m).1 hm
    cases hd : m.isDefault with
    | false =>
      obtain ⟨h3, h4⟩ := hl.member hd
      refine h1 h3 ?_ _ h4
      have h5 := hl.cube
      split at h5
      · obtain ⟨c, hcube⟩ := h5; exact ⟨c, .inr hcube⟩
      · obtain ⟨c, hcube⟩ := h5; exact ⟨c, .inl hcube⟩
    | true =>
      have h3 := hl.default hd
      have h5 := hl.cube
      split at h3
      · obtain ⟨dim', h4⟩ := h3
        rw [if_pos ‹_›] at h5
        exact h2 h5 dim' _ h4
      · exact .inl h3

/-- **C84.** Exactly when only defaults of the dimension are marked default, in networks that do not list a member twice. -/
theorem C84_exact (w : Networks) (primary dim : String) (ht : Tidy w primary dim) :
    (∀ m ∈ (getEffectiveDomain w primary dim).1, m.isDefault = true → DefaultOf w dim m.href) ↔
      ((∃ c, HasCube w w.exclusive primary dim c) → ∀ dim' h, DefaultOf w dim' h → DefaultOf w dim h) := by
  have hc := C69_complete w primary dim ht
  constructor
  · rintro h ⟨c, hcube⟩ dim' x hx
    exact h ⟨x, w.label x, true, true⟩
      ((hc _).2 ⟨rfl, by simpa using ⟨c, hcube⟩, fun _ => by simpa using ⟨dim', hx⟩, by simp⟩) rfl
  · intro h m hm hd
    have hl := (hc m).1 hm
    have h3 := hl.default hd
    have h5 := hl.cube
    split at h3
    · obtain ⟨dim', h4⟩ := h3
      rw [if_pos ‹_›] at h5
      exact h h5 dim' _ h4
    · exact h3

end Telefacts

namespace Telefacts
open Telefacts.Render Telefacts.Instance Telefacts.Query Telefacts.Spec

/-- **C94.** If facts that differ are shown differently, a fact of a row and of the entity is shown exactly if no other fact with its
concept and context comes before it. -/
theorem C94_exact {Φ : Type} (f : Folder) (entity : String) (s : FactSource Φ) (hrefs : List String)
    (periods : List LanguagePack) (members : List (List MemberCell)) (voids : List VoidCell) (q : Quadrant Φ)
    (hs : s.find = Query.findFact f.insts) (hinj : ∀ a b, s.render a = s.render b → a = b)
    (ha : Aligned f entity s hrefs periods members voids q)
    (i : HInstance) (hi : i ∈ f.insts) (x : Fact) (hx : x ∈ i.facts) (hrow : ConcreteRow f hrefs x.href)
    (c : Context) (hc : ContextOf i x.contextRef c) (he : OfEntity entity c) :
    (∃ n j, CellAt q.facts n j (s.render (some x))) ↔
      FirstWith (fun y : Fact => y.href = x.href ∧ y.contextRef = x.contextRef) (f.insts.flatMap HInstance.facts) x := by
  obtain ⟨cols, h1, h2, _, hmem, hshape, h3, hnotes⟩ := ha
  constructor
  · rintro ⟨n, j, h⟩
    obtain ⟨h, col, hh, hcol, hr⟩ := (h3 n j _).1 h
    have hf := (hinj _ _ hr).symm
    rw [hs, C40_found] at hf
    obtain ⟨-, e1, e2⟩ := firstWith_mem hf
    subst e1
    rw [← e2] at hf
    exact hf
  · intro hfirst
    obtain ⟨j, col, hj, hco⟩ := column_exists h1 hi he ⟨x, hx, hrow, hc⟩
    have hid : col.contextRef = x.contextRef := by
      rw [hco.1]
      exact (firstWith_mem hc).2
    obtain ⟨n, hn⟩ := List.mem_iff_getElem?.1 hrow.1
    refine ⟨n, j, (h3 n j _).2 ⟨x.href, col, hn, hj, ?_⟩⟩
    rw [hs, hid, (C40_found _ _ _ _).2 hfirst]

end Telefacts

namespace Telefacts
open Telefacts.Render Telefacts.Instance Telefacts.Spec

/-- An order of iteration that begins with a key. -/
def keyFirst (k : String) (m : GoMap String Footnote) : GoMap String Footnote :=
  m.filter (fun e => decide (e.1 = k)) ++ m.filter (fun e => !decide (e.1 = k))

theorem keyFirst_perm (k : String) (m : GoMap String Footnote) : (keyFirst k m).Perm m := List.filter_append_perm _ _

theorem keyFirst_head {k : String} {m : GoMap String Footnote} (h : ∃ n, (k, n) ∈ m) : ∃ n, (keyFirst k m)[0]? = some (k, n) := by
  obtain ⟨n, hn⟩ := h
  have hm : (k, n) ∈ m.filter (fun e => decide (e.1 = k)) := List.mem_filter.2 ⟨hn, by simp⟩
  unfold keyFirst
  cases hf : m.filter (fun e => decide (e.1 = k)) with
  | nil => rw [hf] at hm; cases hm
  | cons e es =>
    have : e ∈ m.filter (fun e => decide (e.1 = k)) := by rw [hf]; simp
    have he : e.1 = k := by simpa using (List.mem_filter.1 this).2
    exact ⟨e.2, by rw [← he]; rfl⟩

/-- **C41.** The numbers are right whatever the orders in which maps are ranged over exactly if every cell with a footnote has all
texts of footnotes of the grid. -/
theorem C41_exact {Φ : Type} (s : FactSource Φ) (hrefs : List String) (ctxs : List RelevantContext) (hco : Coherent s hrefs ctxs) :
    (∀ co lo, GoodOrders { s with cellOrder := co, lastOrder := lo } → ∀ i j ks,
      CellAt (getFactualQuadrant { s with cellOrder := co, lastOrder := lo } hrefs ctxs).numbers i j ks → ∀ k ∈ ks,
        ∃ n, NoteOf s hrefs ctxs i j n ∧
          (getFactualQuadrant { s with cellOrder := co, lastOrder := lo } hrefs ctxs).footnotes[k - 1]? = some n.inner) ↔
    ∀ i j n i' j' n', NoteOf s hrefs ctxs i j n → NoteOf s hrefs ctxs i' j' n' →
      ∃ m, NoteOf s hrefs ctxs i j m ∧ m.inner = n'.inner := by
  constructor
  · intro h i j n i' j' n' hn hn'
    let s' : FactSource Φ := { s with cellOrder := fun _ _ => keyFirst n.id, lastOrder := keyFirst n'.id }
    have hid : idMap s' hrefs ctxs = idMap s hrefs ctxs := rfl
    have nm : NoteMap (noteGrid s hrefs ctxs).flatten.flatten (idMap s hrefs ctxs) := addNotes_noteMap _
    obtain ⟨hr, c, h1, h2, h3⟩ := id hn
    obtain ⟨x, hx⟩ := keyFirst_head (nm.has n ((noteOf_flatten s hrefs ctxs n).2 ⟨i, j, hn⟩))
    obtain ⟨y, hy⟩ := keyFirst_head (nm.has n' ((noteOf_flatten s hrefs ctxs n').2 ⟨i', j', hn'⟩))
    have hcell := (numbers_cell s' hrefs ctxs i j _).2 ⟨hr, c, h1, h2, rfl⟩
    have hone : 1 ∈ cellNumbers (s'.notes (s'.find hr c.contextRef)) 1 (s'.cellOrder i j (idMap s' hrefs ctxs)) :=
      (mem_cellNumbers _ _ _ _).2 ⟨0, n.id, x, rfl, hx, n, h3, rfl⟩
    obtain ⟨m, hm, ht⟩ := h (fun _ _ => keyFirst n.id) (keyFirst n'.id) ⟨fun _ _ => keyFirst_perm _, keyFirst_perm _⟩ i j _ hcell 1 hone
    refine ⟨m, hm, ?_⟩
    have hf := footnotes_eq s' hrefs ctxs (by rintro rfl; simp at h1) (by rintro rfl; simp at h2)
    change (getFactualQuadrant s' hrefs ctxs).footnotes[1 - 1]? = _ at ht
    rw [hf, List.getElem?_map, hid, show (s'.lastOrder (idMap s hrefs ctxs))[1 - 1]? = _ from hy] at ht
    have hy' := (keyFirst_perm _ _).mem_iff.1 (List.mem_of_getElem? hy)
    obtain ⟨hy1, hy2⟩ := nm.mem _ _ hy'
    obtain ⟨i0, j0, hy3⟩ := (noteOf_flatten s hrefs ctxs y).1 hy1
    cases hco _ _ _ _ _ _ hn' hy3 hy2.symm
    simpa using ht.symm
  · intro h co lo ho i j ks hk k hkk
    have hN := C41_noted_partial _ hrefs ctxs ho
    obtain ⟨hr, c, h1, h2, hks⟩ := (numbers_cell _ hrefs ctxs i j ks).1 hk
    obtain ⟨b1, b2⟩ := (hN.keyed i j ks hr c hk h1 h2).bounds k hkk
    rw [hks] at hkk
    obtain ⟨_, _, _, _, _, n, hn, _⟩ := (mem_cellNumbers _ _ _ _).1 hkk
    have hlt : k - 1 < (getFactualQuadrant { s with cellOrder := co, lastOrder := lo } hrefs ctxs).footnotes.length := by omega
    obtain ⟨i', j', n', hn', ht⟩ := hN.only _ (List.getElem_mem hlt)
    obtain ⟨m, hm, e⟩ := h i j n i' j' n' ⟨hr, c, h1, h2, hn⟩ hn'
    exact ⟨m, hm, by rw [List.getElem?_eq_getElem hlt, ht, e]⟩

/-- A quadrant for which some orders are wrong. -/
example : ¬ ∀ i j n i' j' n', NoteOf (noteSource id) ["x", "y"] noteCols i j n → NoteOf (noteSource id) ["x", "y"] noteCols i' j' n' →
    ∃ m, NoteOf (noteSource id) ["x", "y"] noteCols i j m ∧ m.inner = n'.inner := by
  intro h
  obtain ⟨m, ⟨h0, c, h1, h2, hm⟩, e⟩ := h 0 0 noteA 0 1 noteB ⟨"x", ⟨"1", [], []⟩, rfl, rfl, by simp [noteSource]⟩
    ⟨"x", ⟨"2", [], []⟩, rfl, rfl, by simp [noteSource]⟩
  simp [noteCols] at h1 h2
  subst h1 h2
  simp [noteSource] at hm
  subst hm
  exact absurd e (by decide)

end Telefacts
