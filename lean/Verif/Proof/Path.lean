import Verif.Model.Path
import Verif.Spec.Path
/-! # File names -/
namespace Telefacts

theorem extAux_iff (x r acc : List Char) (hd : '.' ∉ x) (hs : '/' ∉ x) :
    extAux r acc = '.' :: x ↔ ∃ y rest, r = y ++ '.' :: rest ∧ y.reverse ++ acc = x ∧ '.' ∉ y ∧ '/' ∉ y := by
  induction r generalizing acc with
  | nil => simp [extAux]
  | cons c cs ih =>
    unfold extAux
    by_cases h1 : c = '/'
    · rw [if_pos h1]
      subst h1
      constructor
      · intro h; cases h
      · rintro ⟨y, rest, he, _, _, hy⟩
        cases y with
        | nil => simp at he
        | cons a y => simp only [List.cons_append, List.cons.injEq] at he; exact absurd (he.1 ▸ List.mem_cons_self) hy
    · rw [if_neg h1]
      by_cases h2 : c = '.'
      · rw [if_pos h2]
        subst h2
        constructor
        · intro h; exact ⟨[], cs, rfl, (List.cons.inj h).2, by simp, by simp⟩
        · rintro ⟨y, rest, he, hx, hy, _⟩
          cases y with
          | nil => simpa using hx
          | cons a y => simp only [List.cons_append, List.cons.injEq] at he; exact absurd (he.1 ▸ List.mem_cons_self) hy
      · rw [if_neg h2, ih]
        constructor
        · rintro ⟨y, rest, rfl, hx, a, b⟩
          exact ⟨c :: y, rest, rfl, by simpa using hx, by simp [a, Ne.symm h2], by simp [b, Ne.symm h1]⟩
        · rintro ⟨y, rest, he, hx, a, b⟩
          cases y with
          | nil => simp only [List.nil_append, List.cons.injEq] at he; exact absurd he.1 h2
          | cons z y =>
            simp only [List.cons_append, List.cons.injEq] at he
            obtain ⟨rfl, rfl⟩ := he
            exact ⟨y, rest, rfl, by simpa using hx, fun h => a (List.mem_cons_of_mem _ h), fun h => b (List.mem_cons_of_mem _ h)⟩

theorem fileExt_iff {s e : String} {x : List Char} (he : e.toList = '.' :: x) (hd : '.' ∉ x) (hs : '/' ∉ x) :
    fileExt s = e ↔ EndsIn s e := by
  have h1 : fileExt s = e ↔ extAux s.toList.reverse [] = '.' :: x := by
    unfold fileExt
    rw [← he]
    constructor
    · intro h; rw [← h]; simp
    · intro h; rw [h]; simp
  rw [h1, extAux_iff x _ _ hd hs]
  constructor
  · rintro ⟨y, rest, hr, hx, _, _⟩
    refine ⟨String.ofList rest.reverse, String.toList_injective ?_⟩
    have := congrArg List.reverse hr
    simp only [List.reverse_reverse, List.reverse_append, List.reverse_cons] at this
    rw [String.toList_append, he, this, ← hx]
    simp
  · rintro ⟨p, rfl⟩
    exact ⟨x.reverse, p.toList.reverse, by simp [he], by simp, by simpa using hd, by simpa using hs⟩

theorem ext_xhtml (s : String) : fileExt s = ".xhtml" ↔ EndsIn s ".xhtml" :=
  fileExt_iff (x := ['x', 'h', 't', 'm', 'l']) rfl (by decide) (by decide)
theorem ext_htm (s : String) : fileExt s = ".htm" ↔ EndsIn s ".htm" := fileExt_iff (x := ['h', 't', 'm']) rfl (by decide) (by decide)
theorem ext_xbrl (s : String) : fileExt s = ".xbrl" ↔ EndsIn s ".xbrl" := fileExt_iff (x := ['x', 'b', 'r', 'l']) rfl (by decide) (by decide)
theorem ext_xml (s : String) : fileExt s = ".xml" ↔ EndsIn s ".xml" := fileExt_iff (x := ['x', 'm', 'l']) rfl (by decide) (by decide)

/-- A list is slashes, then a part without slashes, then nothing or a slash and more. -/
theorem base_split (r q b : List Char) (rest : List Char) (hq : ∀ c ∈ q, c = '/') (hb : '/' ∉ b) (hne : b ≠ [])
    (hrest : rest = [] ∨ ∃ r', rest = '/' :: r') (h : r = q ++ b ++ rest) :
    (r.dropWhile (· = '/')).takeWhile (· ≠ '/') = b := by
  subst h
  obtain ⟨x, b', rfl⟩ := List.exists_cons_of_ne_nil hne
  have hx : x ≠ '/' := fun h => hb (h ▸ List.mem_cons_self)
  have e1 : ((q ++ (x :: b') ++ rest).dropWhile (· = '/')) = (x :: b') ++ rest := by
    rw [List.append_assoc]
    induction q with
    | nil => simp [hx]
    | cons c q ih =>
      have hc : c = '/' := hq c List.mem_cons_self
      subst hc
      simpa using ih (fun c hc => hq c (List.mem_cons_of_mem _ hc))
  rw [e1, List.takeWhile_append_of_pos]
  · rcases hrest with rfl | ⟨r', rfl⟩ <;> simp
  · intro c hc
    have : c ≠ '/' := fun h => hb (h ▸ hc)
    simp [this]

theorem mem_takeWhile {p : Char → Bool} {l : List Char} {c : Char} (h : c ∈ l.takeWhile p) : p c = true := by
  induction l with
  | nil => cases h
  | cons a l ih =>
    rw [List.takeWhile_cons] at h
    split at h
    · rcases List.mem_cons.1 h with rfl | h
      · assumption
      · exact ih h
    · cases h

theorem dropWhile_nil {p : Char → Bool} {l : List Char} (h : ∀ c ∈ l, p c = true) : l.dropWhile p = [] := by
  induction l with
  | nil => rfl
  | cons a l ih => rw [List.dropWhile_cons, if_pos (h a List.mem_cons_self)]; exact ih fun c hc => h c (List.mem_cons_of_mem _ hc)

theorem dropWhile_split (r : List Char) : ∃ q, (∀ c ∈ q, c = '/') ∧ r = q ++ r.dropWhile (· = '/') := by
  refine ⟨r.takeWhile (· = '/'), fun c hc => by simpa using mem_takeWhile hc, (List.takeWhile_append_dropWhile).symm⟩

theorem fileBase_iff (s b : String) : BaseName s b ↔ b = fileBase s := by
  have rev : ∀ r' : List Char, r' = [] ∨ (∃ t, r' = '/' :: t) ↔ r'.reverse = [] ∨ ∃ p', r'.reverse = p' ++ ['/'] := by
    intro r'
    constructor
    · rintro (rfl | ⟨t, rfl⟩)
      · exact .inl rfl
      · exact .inr ⟨t.reverse, by simp⟩
    · rintro (h | ⟨t, h⟩)
      · exact .inl (by simpa using h)
      · exact .inr ⟨t.reverse, by have := congrArg List.reverse h; simpa using this⟩
  have fwd : ∀ b, BaseName s b → b = fileBase s := by
    rintro b (⟨rfl, rfl⟩ | ⟨h1, h2, rfl⟩ | ⟨h1, h2, p, q, h3, h4, h5⟩)
    · rfl
    · unfold fileBase
      rw [if_neg h1]
      have : fileBaseL s.toList.reverse = [] := by
        unfold fileBaseL
        have : s.toList.reverse.dropWhile (· = '/') = [] := by
          apply dropWhile_nil
          intro c hc
          simpa using h2 c (by simpa using hc)
        rw [this]; rfl
      simp [this]
    · have hbl : b.toList ≠ [] := fun h => h1 (String.toList_injective (by simpa using h))
      have hs : s ≠ "" := by
        rintro rfl
        have h3 : [] = p ++ b.toList ++ q := h3
        have h3 := List.append_eq_nil_iff.1 h3.symm
        exact hbl (List.append_eq_nil_iff.1 h3.1).2
      have := base_split s.toList.reverse q.reverse b.toList.reverse p.reverse (fun c hc => h4 c (by simpa using hc)) (by simpa using h2)
        (by simpa using hbl) ((rev _).2 (by simpa using h5)) (by rw [h3]; simp)
      unfold fileBase
      rw [if_neg hs]
      have e : fileBaseL s.toList.reverse = b.toList := by unfold fileBaseL; rw [this]; simp
      simp only [e, if_neg hbl]
      simp
  constructor
  · exact fwd b
  · intro hb
    have ex : ∃ b', BaseName s b' := by
      by_cases hs : s = ""
      · exact ⟨".", .inl ⟨hs, rfl⟩⟩
      obtain ⟨q, hq, hr⟩ := dropWhile_split s.toList.reverse
      generalize hw : s.toList.reverse.dropWhile (· = '/') = w at hr
      cases w with
      | nil =>
        refine ⟨"/", .inr (.inl ⟨hs, fun c hc => ?_, rfl⟩)⟩
        have : c ∈ s.toList.reverse := by simpa using hc
        rw [hr, List.append_nil] at this
        exact hq c this
      | cons x w =>
        have hx : x ≠ '/' := by
          intro h
          have := List.head?_dropWhile_not (p := fun c : Char => decide (c = '/')) (l := s.toList.reverse)
          rw [hw] at this
          simp [h] at this
        refine ⟨String.ofList ((x :: w).takeWhile (· ≠ '/')).reverse, .inr (.inr ⟨?_, ?_, ((x :: w).dropWhile (· ≠ '/')).reverse, q.reverse, ?_, fun c hc => hq c (by simpa using hc), ?_⟩)⟩
        · intro h
          have := congrArg String.toList h
          simp [hx] at this
        · intro h
          simp only [String.toList_ofList, List.mem_reverse] at h
          have := mem_takeWhile h
          simp at this
        · have := congrArg List.reverse hr
          rw [List.reverse_reverse] at this
          rw [this, String.toList_ofList, ← List.reverse_append, List.takeWhile_append_dropWhile]
          simp
        · refine (rev _).1 ?_
          cases hd : (x :: w).dropWhile (· ≠ '/') with
          | nil => exact .inl rfl
          | cons y t =>
            have := List.head?_dropWhile_not (p := fun c : Char => decide (c ≠ '/')) (l := x :: w)
            rw [hd] at this
            simp at this
            exact .inr ⟨t, by rw [this]⟩
    obtain ⟨b', h⟩ := ex
    rw [hb, ← fwd _ h]; exact h

end Telefacts
