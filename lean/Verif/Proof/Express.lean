import Verif.Model.Express
import Verif.Proof.Member
import Verif.Proof.Context
import Verif.Props.FactText
/-! # Lemmas on fact expressions -/
namespace Telefacts.Render
open Telefacts.Instance Telefacts.Spec

theorem indentNodes_total (s : DimMaps) (paren : Bool) (cs : List Node) (h0 : ∀ x, SomeAt cs 0 x → x ≠ "") (st : IndentState) :
    ∃ st', indentNodes s paren 1 st cs = .done st' := by
  induction cs generalizing st with
  | nil => exact ⟨st, by unfold indentNodes; rfl⟩
  | cons c cs ih =>
    obtain ⟨loc, o, ds⟩ := c
    have hne := h0 loc ((someAt_cons _ _ _ _).2 (.inl (.here _ _ _)))
    have hrest := ih (fun x hx => h0 x ((someAt_cons _ _ _ _).2 (.inr hx)))
    unfold indentNodes indentNode
    cases he : enterNode s loc st with
    | none => exact hrest _
    | some st1 =>
      have hd : ∃ d, st1.dimension = some d := by
        unfold enterNode at he
        split at he
        · split at he
          · simp at he
          · cases he; exact ⟨_, rfl⟩
        · rename_i hc
          cases he
          cases hd : st.dimension with
          | none => exact absurd ⟨hd, hne⟩ hc
          | some d => exact ⟨d, rfl⟩
      obtain ⟨d, hd⟩ := hd
      obtain ⟨st2, e2, _⟩ := indentNodes_deep s paren d 2 (by omega)
        { st1 with rows := st1.rows ++ [⟨paren, 1, d, none⟩] } hd ds
      simp only [nodeRow, if_true, appendRow_of_some hd, Run.andThen, e2]
      exact hrest _

theorem someAt_perm {a b : List Node} (h : a.Perm b) (k : Nat) (x : String) : SomeAt a k x ↔ SomeAt b k x := by
  unfold SomeAt
  simp only [h.mem_iff]

theorem indentReduced_total (s : DimMaps) (paren : Bool) (trees : List Node) (h0 : ∀ x, SomeAt trees 1 x → x ≠ "") (st : IndentState) :
    ∃ st', indentNode s paren 0 st (reduceTrees trees).sorted = .done st' := by
  obtain ⟨o, cs, e, hcs⟩ := reduced_spec trees
  rw [e, indent_root]
  refine indentNodes_total s paren cs (fun x hx => h0 x (hcs 0 x hx)) st

/-- The grid is made when no dimension of a typed domain tree is empty. -/
theorem getMemberGrid_total (ord : GoMap String RelevantMember → GoMap String RelevantMember) (ctxs : List RelevantContext)
    (segTrees scenTrees : List Node) (h0 : ∀ x, SomeAt (segTrees ++ scenTrees) 1 x → x ≠ "") :
    ∃ g, getMemberGrid ord ctxs segTrees scenTrees = .done g := by
  unfold getMemberGrid
  split
  · exact ⟨_, rfl⟩
  · have hs : ∀ x, SomeAt (sortTrees segTrees) 1 x → x ≠ "" := fun x hx =>
      h0 x (by
        obtain ⟨t, ht, hn⟩ := hx
        exact ⟨t, List.mem_append_left _ ((mem_stableSort _).1 ht), hn⟩)
    have hs' : ∀ x, SomeAt (sortTrees scenTrees) 1 x → x ≠ "" := fun x hx =>
      h0 x (by
        obtain ⟨t, ht, hn⟩ := hx
        exact ⟨t, List.mem_append_right _ ((mem_stableSort _).1 ht), hn⟩)
    unfold getVoidQuadrant
    simp only
    obtain ⟨st1, e1⟩ := indentReduced_total (dimMaps ctxs) false (sortTrees segTrees) hs ⟨explicitRows ord (dimMaps ctxs), none⟩
    rw [e1]
    simp only [Run.andThen]
    obtain ⟨st2, e2⟩ := indentReduced_total (dimMaps ctxs) true (sortTrees scenTrees) hs' st1
    rw [e2]
    simp only
    split <;> exact ⟨_, rfl⟩

/-! ## Periods -/

theorem addPeriodTexts_get (sp : Date → Option String) (labels : LabelPack) (start stop : String) (pack : LanguagePack) (lang : Lang) :
    mapGet (addPeriodTexts sp pack labels start stop) lang =
      if lang = English ∧ English ∈ labels.flatMap (fun item => item.2.map Prod.fst) then some (formatEnglishDates start stop)
      else if lang = Espanol ∧ Espanol ∈ labels.flatMap (fun item => item.2.map Prod.fst) then some (formatSpanishDates sp start stop)
      else mapGet pack lang := by
  unfold addPeriodTexts
  generalize labels.flatMap (fun item => item.2.map Prod.fst) = ls
  induction ls generalizing pack with
  | nil => simp
  | cons l ls ih =>
    rw [List.foldl_cons, ih]
    have hne : English ≠ Espanol := by decide
    by_cases h1 : lang = English
    · subst h1
      by_cases hm : English ∈ ls
      · simp [hm]
      · by_cases hl : l = English
        · subst hl
          simp [hm, mapGet_mapSet, hne]
        · have : English ∉ l :: ls := by simp [hm, Ne.symm hl]
          simp only [hm, this, and_false, if_false, hne, false_and, hl]
          split
          · rw [mapGet_mapSet, if_neg (Ne.symm hne)]
          · rfl
    · by_cases h2 : lang = Espanol
      · subst h2
        by_cases hm : Espanol ∈ ls
        · simp [hm, Ne.symm hne]
        · by_cases hl : l = Espanol
          · subst hl
            simp [hm, mapGet_mapSet, Ne.symm hne]
          · have : Espanol ∉ l :: ls := by simp [hm, Ne.symm hl]
            simp only [hm, this, and_false, if_false, h1, false_and, hl]
            split
            · rw [mapGet_mapSet, if_neg hne]
            · rfl
      · simp only [h1, h2, false_and, if_false]
        split
        · rw [mapGet_mapSet, if_neg (Ne.symm h1)]
        · split
          · rw [mapGet_mapSet, if_neg (Ne.symm h2)]
          · rfl

end Telefacts.Render
