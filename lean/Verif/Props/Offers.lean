import Verif.Props.Grid
/-! # C51, C52: what a grid and a renderable offer -/
namespace Telefacts
open Telefacts.Render Telefacts.Instance Telefacts.Linkbase Telefacts.Spec

theorem relevant_label {f : Folder} {entity : String} {hrefs : List String} {r : Relevant}
    (h : getRelevantContexts f entity hrefs = .done r) {col : RelevantContext} (hc : col ∈ r.contexts) {m : RelevantMember}
    (hm : m ∈ col.members) : m.dimension.label ∈ r.labels ∧ ∀ x, m.explicit = some x → x.label ∈ r.labels := by
  rw [getRelevantContexts_eq] at h
  cases hcs : allContexts entity (factualHrefs f hrefs) f.insts with
  | panic => rw [hcs] at h; simp [Run.andThen] at h
  | loop => rw [hcs] at h; simp [Run.andThen] at h
  | done cs =>
    rw [hcs] at h
    simp only [Run.andThen, Run.done.injEq] at h
    subst h
    simp only at hc ⊢
    unfold sortContexts at hc
    rw [(stableSort_perm _ _).mem_iff] at hc
    obtain ⟨c, hcm, rfl⟩ := List.mem_map.1 hc
    have hlab : ∀ p, p ∈ contextualLabels f c → p ∈ cs.flatMap (contextualLabels f) := fun p hp => List.mem_flatMap.2 ⟨c, hcm, hp⟩
    rcases ((newItem_column f c).2.2 m).1 hm with ⟨e, he, _, h1, h2, _⟩ | ⟨e, he, _, h1, h2, _⟩ | ⟨t, ht, _, _, _, _, h1, h2, _⟩
    · rw [h1, h2]
      refine ⟨hlab _ ?_, ?_⟩
      · simp only [contextualLabels, explicitLabels, List.mem_append, List.mem_flatMap]
        exact .inl (.inl (.inl ⟨e, he, by simp⟩))
      · rintro x hx
        cases hx
        apply hlab
        simp only [contextualLabels, explicitLabels, List.mem_append, List.mem_flatMap]
        exact .inl (.inl (.inl ⟨e, he, by simp⟩))
    · rw [h1, h2]
      refine ⟨hlab _ ?_, ?_⟩
      · simp only [contextualLabels, explicitLabels, List.mem_append, List.mem_flatMap]
        exact .inl (.inr ⟨e, he, by simp⟩)
      · rintro x hx
        cases hx
        apply hlab
        simp only [contextualLabels, explicitLabels, List.mem_append, List.mem_flatMap]
        exact .inl (.inr ⟨e, he, by simp⟩)
    · rw [h1, h2]
      refine ⟨hlab _ ?_, fun x hx => by cases hx⟩
      simp only [contextualLabels, typedLabels, List.mem_append, List.mem_flatMap]
      rcases ht with ht | ht
      · exact .inl (.inl (.inr ⟨t, ht, by simp⟩))
      · exact .inr ⟨t, ht, by simp⟩

/-- **C51 (partial), for grids.** A presentation grid offers the roles of the labels of its rows and of the dimensions and explicit
members of its columns, and no others than those of labels of the folder. It offers a language that one of these labels has in a role, if every
label of the folder has the language in that role or does not have the role. Missing: other languages (`C51_fails`), and the labels of
typed domains (`C51_typed_fails`). -/
theorem C51_grid_partial {Φ : Type} (f : Folder) (hw : ∀ h, PackWF (f.label h)) (env : GridEnv Φ) (entity role : String)
    (lbs : List (Lb PArc)) (g : PGrid Φ) (roles : List LabelRole) (langs : List Lang)
    (h : pGrid f env entity role lbs = .done (g, roles, langs)) :
    ∃ cols, ColumnsFor f entity (g.rows.map IndentedLabel.href) cols ∧ g.periods = cols.map RelevantContext.period ∧
      (∀ r ∈ roles, ∃ x, Render.HasRole (f.label x) r) ∧
      (∀ p, (∃ r ∈ g.rows, p = r.label) ∨ (∃ col ∈ cols, ∃ m ∈ col.members, p = m.dimension.label ∨ ∃ x, m.explicit = some x ∧ p = x.label) →
        (∀ r, Render.HasRole p r → r ∈ roles) ∧
        ∀ r lang, HasText p r lang → (∀ x, Render.HasRole (f.label x) r → HasText (f.label x) r lang) → lang ∈ langs) := by
  obtain ⟨rel, hr, hg, h1, h2, h3, h4⟩ := pGrid_done h
  have hfrom : FromFolder f (g.rows.map IndentedLabel.label ++ rel.labels) := by
    refine FromFolder.append ?_ (relevant_labels hr)
    intro p hp
    obtain ⟨r, hrm, rfl⟩ := List.mem_map.1 hp
    rw [h1] at hrm
    exact rows_label f lbs role r hrm
  have hpw : ∀ p ∈ g.rows.map IndentedLabel.label ++ rel.labels, PackWF p := by
    intro p hp
    obtain ⟨x, rfl⟩ := hfrom p hp
    exact hw x
  have e1 : roles = (offered (g.rows.map IndentedLabel.label ++ rel.labels)).1 := by rw [h4]
  have e2 : langs = (offered (g.rows.map IndentedLabel.label ++ rel.labels)).2 := by rw [h4]
  refine ⟨rel.contexts, columnsFor_of hr, h2, ?_, ?_⟩
  · intro r hrr
    rw [e1, offered_roles] at hrr
    obtain ⟨p, hp, hpr⟩ := hrr
    obtain ⟨x, rfl⟩ := hfrom p hp
    exact ⟨x, hpr⟩
  · intro p hp
    have hmem : p ∈ g.rows.map IndentedLabel.label ++ rel.labels := by
      rw [List.mem_append]
      rcases hp with ⟨r, hr', rfl⟩ | ⟨col, hc, m, hm, rfl | ⟨x, hx, rfl⟩⟩
      · exact .inl (List.mem_map_of_mem hr')
      · exact .inr (relevant_label hr hc hm).1
      · exact .inr ((relevant_label hr hc hm).2 x hx)
    refine ⟨fun r hpr => by rw [e1, offered_roles]; exact ⟨p, hmem, hpr⟩, ?_⟩
    intro r lang ht hall
    rw [e2, offered_langs _ hpw]
    have hpr : Render.HasRole p r := by obtain ⟨l, hl, _⟩ := ht; exact ⟨l, hl⟩
    obtain ⟨q, hq⟩ := lastWith_exists (fun p => Render.HasRole p r) ⟨p, hmem, hpr⟩
    obtain ⟨hqm, hqr⟩ := lastWith_mem hq
    obtain ⟨x, rfl⟩ := hfrom q hqm
    exact ⟨r, _, hq, hall x hqr⟩

/-- **C52 (partial), for renderables.** If the goroutines append one after the other, in whatever order, a renderable offers exactly the
languages and roles that its presentation, definition and calculation grids offer, each once; for every interleaving it offers no
others. Missing: overlapping appends (`C52_fails`). -/
theorem C52_renderable_partial {Φ : Type} (f : Folder) (env : GridEnv Φ) (spanish : Date → Option String) (sched : Schedule) (b : Books)
    (entity role : String) (g : Grids Φ) (h : renderGrids f env spanish sched b entity role = .done g) :
    ∃ p pr pl d dr dl c cr cl, pGrid f env entity role b.presentation = .done (p, pr, pl) ∧
      dGrid f env entity role b = .done (d, dr, dl) ∧ cGrid f env entity role b = .done (c, cr, cl) ∧
      (∀ l ∈ g.langs, l ∈ pl ∨ l ∈ dl ∨ l ∈ cl) ∧ (∀ r ∈ g.roles, r ∈ pr ∨ r ∈ dr ∨ r ∈ cr) ∧
      (∀ order : List Nat, order.Perm [0, 1, 2] → sched.langs = order.flatMap (fun i => [i, i, i]) →
        g.langs.Nodup ∧ ∀ l, l ∈ g.langs ↔ l ∈ pl ∨ l ∈ dl ∨ l ∈ cl) ∧
      ∀ order : List Nat, order.Perm [0, 1, 2] → sched.roles = order.flatMap (fun i => [i, i, i]) →
        g.roles.Nodup ∧ ∀ r, r ∈ g.roles ↔ r ∈ pr ∨ r ∈ dr ∨ r ∈ cr := by
  obtain ⟨⟨p, pr, pl⟩, ⟨d, dr, dl⟩, ⟨c, cr, cl⟩, hp, hd, hc, rfl⟩ := renderGrids_done h
  refine ⟨p, pr, pl, d, dr, dl, c, cr, cl, hp, hd, hc, ?_⟩
  simp only [formatPeriod]
  have hany : ∀ (x y z : List String) (cap : Nat) (s : List Nat), ∀ l ∈ langsAfter (sched.lists x y z) sched.grow cap s, l ∈ x ∨ l ∈ y ∨ l ∈ z := by
    intro x y z cap s l hl
    obtain ⟨k, hk⟩ := (C52_languages_partial (sched.lists x y z) sched.grow cap).2 s l hl
    match k, (sched.fair k _).mem_iff.1 hk with
    | 0, hk => exact .inl hk
    | 1, hk => exact .inr (.inl hk)
    | _ + 2, hk => exact .inr (.inr hk)
  have hmem : ∀ (x y z : List String) (l : String),
      (l ∈ sched.lists x y z 0 ∨ l ∈ sched.lists x y z 1 ∨ l ∈ sched.lists x y z 2) ↔ (l ∈ x ∨ l ∈ y ∨ l ∈ z) := fun x y z l =>
    or_congr (sched.fair 0 _).mem_iff (or_congr (sched.fair 1 _).mem_iff (sched.fair 2 _).mem_iff)
  refine ⟨hany _ _ _ _ _, hany _ _ _ _ _, ?_, ?_⟩
  · intro order ho e
    rw [e]
    have := (C52_languages_partial (sched.lists pl dl cl) sched.grow 8).1 order ho
    exact ⟨(this "").1, fun l => ((this l).2).trans (hmem _ _ _ l)⟩
  · intro order ho e
    rw [e]
    have := (C52_languages_partial (sched.lists pr dr cr) sched.grow 20).1 order ho
    exact ⟨(this "").1, fun l => ((this l).2).trans (hmem _ _ _ l)⟩

/-- The hypotheses of `C51_grid_partial` and `C52_renderable_partial` can be met. -/
example : (∀ h, PackWF (fullFolder.label h)) ∧ (∃ g, fullGrids = .done g ∧ g.roles = ["Default"]) := by
  refine ⟨fun h => getLabel_wf _ _, ?_⟩
  have : (match fullGrids with | .done g => some g.roles | _ => none) = some ["Default"] := by decide +kernel
  cases hg : fullGrids with
  | done g => rw [hg] at this; exact ⟨g, rfl, Option.some.inj this⟩
  | panic => rw [hg] at this; cases this
  | loop => rw [hg] at this; cases this

/-- A folder with a typed member in a column; the label of the typed domain is the only one with the role `Terse`. -/
def typedLabelFolder : Folder where
  insts := [⟨"i", [⟨"a", "s", "1", ⟨[], []⟩, "2020-12-31", "", "", ⟨[], [⟨"x#Dim", "", "", [("x#Dom", "1")], []⟩]⟩⟩], [], [], [factExample "x#Cash" "a"]⟩]
  concept := fun h => if h = "x#Cash" then some (conceptExample h false) else none
  label := getLabel [[⟨"r", [⟨"x#Dom", "loc"⟩], [⟨"lab", "http://www.xbrl.org/2003/role/terseLabel", "en-US", "Domain"⟩], [⟨.zero, LabelArcrole, "loc", "lab"⟩]⟩]]
  tree := fun _ role => if role = PresentationArcrole then .mk "" .zero [.mk "cash" .zero []] else .mk "" .zero [.mk "x#Dim" .zero [.mk "x#Dom" .zero []]]

def typedLabelGrid : Run (PGrid (Option Fact) × List LabelRole × List Lang) :=
  pGrid typedLabelFolder ⟨id, id, plainSource typedLabelFolder.insts⟩ "s/1" "r" [⟨[⟨"r", ""⟩], [⟨"r", [⟨"x#Cash", "cash"⟩], []⟩]⟩]

/-- **C51 (fails), for typed domains.** The grid has a row with a label that has the role `Terse` and an English text, and offers
neither. -/
theorem C51_typed_fails :
    (match typedLabelGrid with
      | .done (g, roles, langs) => some (g.voids.filterMap fun v => v.typedDomain.map fun d => (getText d.label "Terse" "en - english"), roles, langs)
      | _ => none) = some ([some "Domain"], ["Default"], ["Unlabelled", "Truncated"]) := by decide +kernel

end Telefacts
