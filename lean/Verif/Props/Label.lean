import Verif.Proof.Label
/-! # C49 - C52: labels and languages -/
namespace Telefacts
open Telefacts.Render Telefacts.Linkbase Telefacts.Spec

theorem shown_iff (p : LabelPack) (role lang t : String) : Shown p role lang t ↔ getText p role lang = some t := by
  unfold Shown getText
  cases mapGet p role <;> simp

/-- **C49.** The texts of `GetLabel(h, href)` are exactly: the href as `Default`/`Unlabelled`, its fragment as
`Default`/`Truncated`, and for every role and language the last label of the concept in that role and language.
The roles are `Default` and those of the labels of the concept. -/
theorem C49_labels (lbs : List (List LabelLink)) (href : String) :
    (∀ role lang t, Shown (getLabel lbs href) role lang t ↔
      HrefText href role lang t ∨
      ∃ l, LastWith (fun l => HasLabelRole l role ∧ InLang l lang) (labelsOf lbs href) l ∧ t = l.chars) ∧
    (∀ role, HasRole (getLabel lbs href) role ↔ role = "Default" ∨ ∃ l ∈ labelsOf lbs href, HasLabelRole l role) ∧
    Shown (getLabel lbs href) "Default" "Unlabelled" href := by
  have h1 : ∀ role lang t, Shown (getLabel lbs href) role lang t ↔
      HrefText href role lang t ∨
      ∃ l, LastWith (fun l => HasLabelRole l role ∧ InLang l lang) (labelsOf lbs href) l ∧ t = l.chars := by
    intro role lang t
    rw [shown_iff, getLabel_eq, foldl_applyLabel, hrefPack_text]
    constructor
    · rintro (h | ⟨_, h⟩)
      · exact .inr h
      · exact .inl h
    · rintro (h | h)
      · refine .inr ⟨?_, h⟩
        rintro l _ ⟨_, hl⟩
        rcases h with ⟨_, ⟨h, _⟩ | ⟨h, _⟩⟩ <;> rcases hl with ⟨_, hl⟩ | ⟨_, hl⟩ <;> rw [h] at hl <;> revert hl <;> decide
      · exact .inl h
  refine ⟨h1, ?_, (h1 _ _ _).2 (.inl ⟨rfl, .inl ⟨rfl, rfl⟩⟩)⟩
  intro role
  rw [hasRole_iff, getLabel_eq, foldl_applyLabel_keys, hrefPack_keys, or_comm]

def lblDefault := "http://www.xbrl.org/2003/role/label"
def lblTerse := "http://www.xbrl.org/2003/role/terseLabel"
def lblArc := "http://www.xbrl.org/2003/arcrole/concept-label"

def lblLink (labels : List Label) : LabelLink :=
  ⟨"r", [⟨"s.xsd#Cash", "loc"⟩, ⟨"s.xsd#Debt", "loc2"⟩], labels,
    [⟨.zero, lblArc, "loc", "lab"⟩, ⟨.zero, lblArc, "loc2", "lab2"⟩]⟩

example : getLabel [[lblLink [⟨"lab", lblDefault, "en-US", "Cash"⟩, ⟨"lab", lblDefault, "es", "Efectivo"⟩,
      ⟨"lab", lblTerse, "de", "Bargeld"⟩, ⟨"lab2", lblDefault, "en-US", "Debt"⟩, ⟨"lab", lblDefault, "en-US", "Cash, total"⟩]]]
    "s.xsd#Cash" =
    [("Default", [("Unlabelled", "s.xsd#Cash"), ("Truncated", "#Cash"), ("en - english", "Cash, total"),
      ("es - español", "Efectivo")]), ("Terse", [])] := by decide +kernel

/-- **C50 (partial).** A label of the concept tagged `en-US` makes English available in its role. Missing: labels
tagged `en` (`C50_fails`). -/
theorem C50_english_partial (lbs : List (List LabelLink)) (href role : String) (l : Label) (hl : l ∈ labelsOf lbs href)
    (hr : HasLabelRole l role) (hlang : l.lang = "en-US") :
    ∃ l' ∈ labelsOf lbs href, HasLabelRole l' role ∧ l'.lang = "en-US" ∧
      Shown (getLabel lbs href) role "en - english" l'.chars := by
  obtain ⟨l', hl'⟩ := lastWith_exists (fun l => HasLabelRole l role ∧ InLang l "en - english") ⟨l, hl, hr, .inl ⟨hlang, rfl⟩⟩
  obtain ⟨hm, hr', hin⟩ := lastWith_mem hl'
  refine ⟨l', hm, hr', ?_, ((C49_labels lbs href).1 _ _ _).2 (.inr ⟨l', hl', rfl⟩)⟩
  rcases hin with ⟨h, _⟩ | ⟨_, h⟩
  · exact h
  · exact absurd h (by decide)

/-- A concept whose only label is tagged `en` has no English text. -/
theorem C50_fails : ∃ (lbs : List (List LabelLink)) (href : String) (l : Label), l ∈ labelsOf lbs href ∧
    HasLabelRole l "Default" ∧ l.lang = "en" ∧ ∀ role t, ¬ Shown (getLabel lbs href) role "en - english" t := by
  refine ⟨[[lblLink [⟨"lab", lblDefault, "en", "Cash"⟩]]], "s.xsd#Cash", ⟨"lab", lblDefault, "en", "Cash"⟩,
    by decide, .inl ⟨rfl, rfl⟩, rfl, ?_⟩
  intro role t h
  rcases ((C49_labels _ _).1 _ _ _).1 h with ⟨_, ⟨h, _⟩ | ⟨h, _⟩⟩ | ⟨l, hl, _⟩
  · revert h; decide
  · revert h; decide
  · obtain ⟨hm, _, hin⟩ := lastWith_mem hl
    have : l = ⟨"lab", lblDefault, "en", "Cash"⟩ := by
      have e : labelsOf [[lblLink [⟨"lab", lblDefault, "en", "Cash"⟩]]] "s.xsd#Cash" =
        [⟨"lab", lblDefault, "en", "Cash"⟩] := by decide
      rw [e] at hm; simpa using hm
    subst this
    rcases hin with ⟨h, _⟩ | ⟨h, _⟩ <;> revert h <;> decide

/-- **C51 (partial).** The roles offered are exactly those of the labels of the grid. The languages offered are
exactly those that the last label with some role has in that role; so every language is offered if labels that
share a role have the same languages in it. Missing: other labels (`C51_fails`). -/
theorem C51_offered_partial (packs : List LabelPack) (hw : ∀ p ∈ packs, PackWF p) :
    (∀ role, role ∈ (offered packs).1 ↔ ∃ p ∈ packs, HasRole p role) ∧
    (∀ lang, lang ∈ (offered packs).2 ↔ ∃ role p, LastWith (fun p => HasRole p role) packs p ∧ HasText p role lang) ∧
    ((∀ p ∈ packs, ∀ q ∈ packs, ∀ role lang, HasText p role lang → HasRole q role → HasText q role lang) →
      ∀ p ∈ packs, ∀ role lang, HasText p role lang → lang ∈ (offered packs).2) := by
  refine ⟨offered_roles packs, offered_langs packs hw, ?_⟩
  intro hsame p hp role lang ht
  rw [offered_langs packs hw]
  have hr : HasRole p role := by obtain ⟨l, hl, _⟩ := ht; exact ⟨l, hl⟩
  obtain ⟨q, hq⟩ := lastWith_exists (fun p => HasRole p role) ⟨p, hp, hr⟩
  exact ⟨role, q, hq, hsame p hp q (lastWith_mem hq).1 role lang ht (lastWith_mem hq).2⟩

example : (∀ p ∈ [getLabel [] "s.xsd#Cash", getLabel [] "s.xsd#Debt"], PackWF p) ∧
    offered [getLabel [] "s.xsd#Cash", getLabel [] "s.xsd#Debt"] = (["Default"], ["Unlabelled", "Truncated"]) :=
  ⟨by intro p hp; simp at hp; rcases hp with rfl | rfl <;> exact getLabel_wf _ _, by decide +kernel⟩

/-- A grid of two concepts, the first with an English label, the second without label: English is not offered. -/
theorem C51_fails : ∃ (lbs : List (List LabelLink)) (a b : String),
    HasText (getLabel lbs a) "Default" "en - english" ∧
    "en - english" ∉ (offered [getLabel lbs a, getLabel lbs b]).2 := by
  refine ⟨[[lblLink [⟨"lab", lblDefault, "en-US", "Cash"⟩]]], "s.xsd#Cash", "s.xsd#Debt", ?_, by decide +kernel⟩
  rw [hasText_iff (getLabel_wf _ _)]
  exact ⟨"Cash", by decide +kernel⟩

/-- **C52 (partial).** If the three goroutines append one after the other, in whatever order, `Lang` has exactly
the languages of the three grids, each once. For every interleaving it has no others. Missing: overlapping
appends lose languages (`C52_fails`). -/
theorem C52_languages_partial (ln : Nat → List String) (grow : Nat → Nat) (cap : Nat) :
    (∀ order : List Nat, order.Perm [0, 1, 2] → ∀ l,
      (langsAfter ln grow cap (order.flatMap fun g => [g, g, g])).Nodup ∧
      (l ∈ langsAfter ln grow cap (order.flatMap fun g => [g, g, g]) ↔ l ∈ ln 0 ∨ l ∈ ln 1 ∨ l ∈ ln 2)) ∧
    (∀ sched, ∀ l ∈ langsAfter ln grow cap sched, ∃ g, l ∈ ln g) := by
  constructor
  · intro order ho l
    refine ⟨nodup_dedup _, ?_⟩
    unfold langsAfter runAppends
    rw [mem_dedup, append_serial ln grow order (ho.nodup_iff.2 (by decide)) _ (by simp [emptySlice]) (by simp [emptySlice])]
    have : sliceElems (emptySlice cap) = [] := by simp [sliceElems, emptySlice]
    rw [this, List.nil_append, List.mem_flatMap]
    simp only [ho.mem_iff]
    simp
  · intro sched l hl
    unfold langsAfter at hl
    rw [mem_dedup] at hl
    exact (appInv_run (U := fun l => ∃ g, l ∈ ln g) (fun g x hx => ⟨g, hx⟩)).hdr.1.1 l hl

/-- Two appends that both start from the empty slice: the languages of the first grid are lost. -/
theorem C52_fails : ∃ (ln : Nat → List String) (sched : List Nat),
    (∀ g, g < 3 → sched.count g = 3) ∧ "es - español" ∈ ln 0 ∧ "es - español" ∉ langsAfter ln (fun _ => 0) 8 sched :=
  ⟨fun g => if g = 0 then ["es - español"] else if g = 1 then ["Unlabelled"] else [], [0, 1, 0, 1, 0, 1, 2, 2, 2],
    by decide, by decide, by decide +kernel⟩

end Telefacts
