import Verif.Spec.Image
import Verif.Proof.Path
/-! # C18: inlining images -/
namespace Telefacts
open Telefacts.Image

theorem fixAttrs_length (images : GoMap String String) (l : List HAttr) :
    (fixAttrs images l).length = l.length := by
  induction l with
  | nil => rfl
  | cons a as ih => simp [fixAttrs, ih]

theorem fixAttrs_get (images : GoMap String String) (l : List HAttr) (i : Nat) (a : HAttr)
    (h : l[i]? = some a) : ∃ a', (fixAttrs images l)[i]? = some a' ∧ a'.ns = a.ns ∧ a'.key = a.key ∧
      (∀ d, a.key = "src" → mapGet images (fileBase a.val) = some d → a'.val = d) ∧
      ((¬ ∃ d, a.key = "src" ∧ mapGet images (fileBase a.val) = some d) → a'.val = a.val) := by
  induction l generalizing i with
  | nil => simp at h
  | cons b bs ih =>
    cases i with
    | succ i => simpa [fixAttrs] using ih i (by simpa using h)
    | zero =>
      simp at h; subst h
      refine ⟨_, rfl, ?_⟩
      by_cases hk : b.key = "src"
      · cases hm : mapGet images (fileBase b.val) <;> simp [hk]
      · simp [hk]

theorem replaceAll_length (images : GoMap String String) (l : List Node) :
    (replaceAll images l).length = l.length := by
  induction l with
  | nil => simp [replaceAll]
  | cons a as ih => simp [replaceAll, ih]

theorem replaceAll_get (images : GoMap String String) (l : List Node) (i : Nat) :
    (replaceAll images l)[i]? = l[i]?.map (replace images) := by
  induction l generalizing i with
  | nil => simp [replaceAll]
  | cons a as ih => cases i <;> simp [replaceAll, ih]

theorem replace_inlined (images : GoMap String String) (n : Node) : Inlined images n (replace images n) := by
  obtain ⟨e, t, d, as, ks⟩ := n
  rw [replace]
  refine ⟨rfl, rfl, rfl, by simp [Node.kids, replaceAll_length], ?_, ?_⟩
  · simp only [Node.attrs]
    split
    · split
      · exact fixAttrs_length _ _
      · rfl
    · rfl
  · intro i a h
    simp only [Node.attrs, Known, Node.elem, Node.data, fileBase_iff, exists_eq_left] at h ⊢
    by_cases he : e = true
    · by_cases hd : d = "img"
      · subst he hd
        simpa using fixAttrs_get images as i a h
      · simp [he, hd, h]
    · simp [he, h]

/-- **C18.** Position by position, the tree after the walk has the same nodes as before, except for the
sources of known images; there are no other positions. -/
theorem C18_only_image_sources (images : GoMap String String) (n : Node) :
    (∀ p m, At n p m → ∃ m', At (replace images n) p m' ∧ Inlined images m m') ∧
    (∀ p m', At (replace images n) p m' → ∃ m, At n p m ∧ Inlined images m m') := by
  constructor
  · intro p m h
    induction h with
    | here n => exact ⟨_, .here _, replace_inlined images n⟩
    | down n i p k m hk _ ih =>
      obtain ⟨m', hm', hi⟩ := ih
      refine ⟨m', .down _ i p (replace images k) _ ?_ hm', hi⟩
      obtain ⟨e, t, d, as, ks⟩ := n
      rw [replace]
      simp only [Node.kids] at hk ⊢
      rw [replaceAll_get, hk]; rfl
  · intro p
    induction p generalizing n with
    | nil => intro m' h; cases h; exact ⟨n, .here _, replace_inlined images n⟩
    | cons i p ih =>
      intro m' h
      cases h with
      | down _ _ _ k _ hk hm =>
        obtain ⟨e, t, d, as, ks⟩ := n
        rw [replace] at hk
        simp only [Node.kids] at hk
        rw [replaceAll_get] at hk
        cases hk' : ks[i]? with
        | none => rw [hk'] at hk; cases hk
        | some k0 =>
          rw [hk'] at hk
          simp only [Option.map_some, Option.some.injEq] at hk
          subst hk
          obtain ⟨m, hm0, hi⟩ := ih k0 m' hm
          exact ⟨m, .down _ i p k0 _ hk' hm0, hi⟩

/-- An image below the root whose source has a directory part: replaced. -/
example : ∃ m', At (replace [("a.png", "data:x")] (.mk true 0 "body" [] [.mk true 0 "img" [⟨"", "src", "img/a.png"⟩] []]))
    [0] m' ∧ m'.attrs = [⟨"", "src", "data:x"⟩] := by
  refine ⟨_, .down _ 0 [] _ _ (by simp [replace, replaceAll, Node.kids]; rfl) (.here _), ?_⟩
  have : fileBase "img/a.png" = "a.png" := by decide
  simp [Node.attrs, fixAttrs, this, mapGet]

end Telefacts
