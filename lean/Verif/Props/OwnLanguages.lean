import Verif.Spec.OwnLanguages
import Verif.Props.SameCell
import Verif.Props.Label
/-! # C96: in which languages the facts of a presentation grid have a text -/
namespace Telefacts
open Telefacts.Render Telefacts.Instance Telefacts.Linkbase Telefacts.Spec

theorem contextualLabels_named (f : Folder) (c : Context) : contextualLabels f c = (namedBy c).map f.label := by
  simp only [contextualLabels, explicitLabels, typedLabels, namedBy, namedIn, List.map_append, List.map_flatMap, List.map_cons, List.map_nil,
    List.append_assoc]

theorem relevant_named {f : Folder} {entity : String} {rows : List String} {r : Relevant}
    (h : getRelevantContexts f entity rows = .done r) : ∃ names, Names f entity rows (rows ++ names) ∧ r.labels = names.map f.label := by
  rw [getRelevantContexts_eq] at h
  cases hc : allContexts entity (factualHrefs f rows) f.insts with
  | panic => rw [hc] at h; simp [Run.andThen] at h
  | loop => rw [hc] at h; simp [Run.andThen] at h
  | done cs =>
    rw [hc] at h
    simp only [Run.andThen, Run.done.injEq] at h
    obtain ⟨css, rfl, h1⟩ := allContexts_done hc
    refine ⟨_, ⟨css, h1, rfl⟩, ?_⟩
    rw [← h, List.map_flatMap]
    exact List.flatMap_congr fun c _ => contextualLabels_named f c

/-- **C96, exactly.** A fact of the presentation grid that is not nil has a text in a language exactly if that is English, Spanish or
`Unlabelled`, and for some role the last label with that role, of those of the rows and then those of the members of the columns, has a text
in the language. -/
theorem C96_exact (f : Folder) (hl : ∀ href, ∃ labels, f.label href = getLabel labels href) (fe : FactEnv)
    (notes : Option Fact → List Footnote) (co : Nat → Nat → GoMap String Footnote → GoMap String Footnote)
    (lo : GoMap String Footnote → GoMap String Footnote) (env : GridEnv (Option MultilingualFact))
    (hs : env.source = folderSource f.insts fe notes co lo) (spanish : Date → Option String) (sched : Schedule) (b : Books)
    (entity role : String) (g : Grids (Option MultilingualFact))
    (h : renderGrids f env spanish sched b entity role = .done g) :
    ∃ names, Names f entity (g.p.rows.map IndentedLabel.href) names ∧ ∀ n j x, CellAt g.p.quadrant.facts n j x →
      ∃ row col fact, (g.p.rows.map IndentedLabel.href)[n]? = some row ∧ fact = Query.findFact f.insts row col ∧
      ((∃ y, fact = some y ∧ y.isNil = false) → ∀ lang, CellHas x lang ↔
        (lang = "en - english" ∨ lang = "es - español" ∨ lang = "Unlabelled") ∧ OwnLanguage (names.map f.label) lang) := by
  obtain ⟨⟨p, pr, pl⟩, ⟨d, dr, dl⟩, ⟨c, cr, cl⟩, hp, hd, hc, rfl⟩ := renderGrids_done h
  simp only [formatPeriod]
  obtain ⟨rel, hr, hg, h1, h2, h3, h4⟩ := pGrid_done hp
  have hrows : p.rows.map IndentedLabel.label = (p.rows.map IndentedLabel.href).map f.label := by
    rw [List.map_map, h1]
    refine List.map_congr_left fun r hm => ?_
    have := rows_href_label f b.presentation role r hm
    exact this
  obtain ⟨names, hnames, hh⟩ := relevant_named hr
  rw [hrows, hh, ← List.map_append] at h4
  refine ⟨_, hnames, ?_⟩
  obtain ⟨_, ⟨cols, _, _, _, _, _, k3, _⟩, _⟩ := C92_presentation f env entity role _ p pr pl hp
  intro n j x hx
  obtain ⟨row, col, hrow, _, rfl⟩ := (k3 n j x).1 hx
  refine ⟨row, col.contextRef, _, hrow, rfl, ?_⟩
  · rintro ⟨y, hy, hn⟩ lang
    rw [hs]
    simp only [folderSource]
    rw [hy]
    obtain ⟨m, e1, _, e2⟩ := C56_entries fe pl y hn
    rw [e1]
    have hlang := (C51_offered_partial ((p.rows.map IndentedLabel.href ++ names).map f.label) (by
      intro q hq
      obtain ⟨k, _, rfl⟩ := List.mem_map.1 hq
      obtain ⟨ls, e⟩ := hl k; rw [e]; exact getLabel_wf _ _)).2.1 lang
    rw [h4] at hlang
    unfold OwnLanguage
    rw [← hlang, and_comm, ← e2]
    constructor
    · rintro ⟨m', e, hm, he⟩
      cases hm
      exact List.mem_map.2 ⟨_, he, rfl⟩
    · intro hm
      obtain ⟨e, he, rfl⟩ := List.mem_map.1 hm
      exact ⟨m, e.2, rfl, he⟩

/-- The hypotheses are met by the folder of `C96_fails`. -/
example : (∀ href, ∃ labels, fullFolder.label href = getLabel labels href) ∧
    fullEnv.source = folderSource fullFolder.insts fullFacts (fun _ => []) (fun _ _ m => m) (fun m => m) ∧
    (fullGet (fun g => g.langs)).isSome = true := ⟨fun _ => ⟨_, rfl⟩, rfl, by rw [C96_fails.1]; rfl⟩

end Telefacts
