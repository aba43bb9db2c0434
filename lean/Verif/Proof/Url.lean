import Verif.Spec.Url
/-! # Lemmas for taxonomy file names -/
namespace Telefacts.Url

theorem split_ne_nil (s : Str) : split s ≠ [] := by
  cases s with
  | nil => simp [split]
  | cons c r =>
    rw [split]
    split
    · simp
    · split <;> simp

theorem split_of_not_mem {s : Str} (h : '/' ∉ s) : split s = [s] := by
  induction s with
  | nil => rfl
  | cons c r ih =>
    simp only [List.mem_cons, not_or] at h
    rw [split, if_neg (Ne.symm h.1), ih h.2]

theorem split_append (p q : Str) : split (p ++ '/' :: q) = split p ++ split q := by
  induction p with
  | nil => simp [split]
  | cons c r ih =>
    rw [List.cons_append, split, ih]
    conv => rhs; rw [split]
    split
    · rfl
    · cases hs : split r with
      | nil => exact absurd hs (split_ne_nil r)
      | cons a as => simp

theorem mem_split {s : Str} : ∀ seg ∈ split s, '/' ∉ seg := by
  induction s with
  | nil => simp [split]
  | cons c r ih =>
    rw [split]
    split
    · intro seg h
      rcases List.mem_cons.1 h with rfl | h
      · simp
      · exact ih seg h
    · rename_i hc
      cases hs : split r with
      | nil => exact absurd hs (split_ne_nil r)
      | cons a as =>
        rw [hs] at ih
        intro seg h
        rcases List.mem_cons.1 h with rfl | h
        · simp only [List.mem_cons, not_or]
          exact ⟨Ne.symm hc, ih a (by simp)⟩
        · exact ih seg (by simp [h])

theorem joinSegs_cons {p : Str} {ps : List Str} (h : ps ≠ []) : joinSegs (p :: ps) = p ++ '/' :: joinSegs ps := by
  cases ps with
  | nil => exact absurd rfl h
  | cons a as => rfl

theorem joinSegs_append {a b : List Str} (ha : a ≠ []) (hb : b ≠ []) :
    joinSegs (a ++ b) = joinSegs a ++ '/' :: joinSegs b := by
  induction a with
  | nil => exact absurd rfl ha
  | cons p ps ih =>
    cases ps with
    | nil => rw [List.singleton_append, joinSegs_cons hb]; rfl
    | cons q qs =>
      rw [List.cons_append, joinSegs_cons (by simp), ih (by simp), joinSegs_cons (p := p) (ps := q :: qs) (by simp)]
      simp

theorem split_joinSegs {segs : List Str} (hne : segs ≠ []) (h : ∀ s ∈ segs, '/' ∉ s) :
    split (joinSegs segs) = segs := by
  induction segs with
  | nil => exact absurd rfl hne
  | cons p ps ih =>
    cases ps with
    | nil => exact split_of_not_mem (h p (by simp))
    | cons q qs =>
      rw [joinSegs_cons (by simp), split_append, split_of_not_mem (h p (by simp)),
        ih (by simp) (fun s hs => h s (by simp [hs]))]
      rfl

theorem joinSegs_intercalate (segs : List Str) : joinSegs segs = ['/'].intercalate segs := by
  induction segs with
  | nil => rfl
  | cons p ps ih =>
    cases ps with
    | nil => simp [joinSegs]
    | cons q qs => rw [joinSegs_cons (by simp), ih, List.intercalate_cons_cons]; simp

theorem joinSegs_inj {a b : List Str} (ha : a ≠ []) (hb : b ≠ []) (h1 : ∀ s ∈ a, '/' ∉ s)
    (h2 : ∀ s ∈ b, '/' ∉ s) (h : joinSegs a = joinSegs b) : a = b := by
  rw [← split_joinSegs ha h1, ← split_joinSegs hb h2, h]

theorem joinSegs_split (s : Str) : joinSegs (split s) = s := by
  induction s with
  | nil => rfl
  | cons c r ih =>
    rw [split]
    split
    · rename_i hc
      rw [joinSegs_cons (split_ne_nil r), ih, hc]; rfl
    · cases hs : split r with
      | nil => exact absurd hs (split_ne_nil r)
      | cons a as =>
        rw [hs] at ih
        cases as with
        | nil => simp [joinSegs] at ih ⊢; exact ih
        | cons b bs =>
          simp only
          rw [joinSegs_cons (by simp)] at ih ⊢
          rw [← ih]; rfl

/-- Splitting yields exactly the segments. -/
theorem split_iff (p : Str) (segs : List Str) : split p = segs ↔ Segs p segs := by
  constructor
  · rintro rfl
    exact ⟨split_ne_nil p, by rw [← joinSegs_intercalate, joinSegs_split], fun s hs => mem_split s hs⟩
  · rintro ⟨h1, rfl, h2⟩
    rw [← joinSegs_intercalate, split_joinSegs h1 h2]

theorem segs_split (p : Str) : Segs p (split p) := (split_iff _ _).1 rfl

theorem staysDown_iff (u : Parsed) : StaysDown u ↔ depth (u.scheme :: u.hostname :: split u.path) 0 ≠ none :=
  ⟨fun h => h _ (segs_split _), fun h segs hs => (split_iff _ _).2 hs ▸ h⟩

theorem noDots_iff (u : Parsed) :
    NoDots u ↔ ∀ s ∈ u.hostname :: split u.path, s ≠ ['.'] ∧ s ≠ ['.', '.'] :=
  ⟨fun h => h _ (segs_split _), fun h segs hs => (split_iff _ _).2 hs ▸ h⟩

/-- The non-empty segments of the path. -/
def names (u : Parsed) : List Str := (split u.path).filter (fun s => s ≠ [])

theorem samePath_iff (u u' : Parsed) : SamePath u u' ↔ names u = names u' :=
  ⟨fun h => h _ _ (segs_split _) (segs_split _), fun h segs segs' hs hs' => by
    rw [← (split_iff _ _).2 hs, ← (split_iff _ _).2 hs']; exact h⟩

/-! ## Clean stacks -/

def dotdot : Str := ['.', '.']

/-- Output stacks of `filepath.Clean` on relative paths: names over a run of `..`. -/
def CS : List Str → Prop
  | [] => True
  | a :: st => (Name a ∧ CS st) ∨ (a = dotdot ∧ ∀ x ∈ st, x = dotdot)

theorem cs_dots {st : List Str} (h : ∀ x ∈ st, x = dotdot) : CS st := by
  cases st with
  | nil => trivial
  | cons a st => exact .inr ⟨h a (by simp), fun x hx => h x (by simp [hx])⟩

theorem name_cleanStep {r : Bool} {st : List Str} {s : Str} (h : Name s) : cleanStep r st s = s :: st := by
  unfold cleanStep
  rw [if_neg (by simp [h.1, h.2.1]), if_neg h.2.2.1]

theorem cs_step {st : List Str} (h : CS st) {s : Str} (hs : '/' ∉ s) : CS (cleanStep false st s) := by
  unfold cleanStep
  split
  · exact h
  · split
    · cases st with
      | nil => exact cs_dots (by simp [dotdot])
      | cons top rest =>
        simp only
        split
        · rename_i ht
          rcases h with ⟨hn, _⟩ | ⟨_, hr⟩
          · exact absurd ht hn.2.2.1
          · refine .inr ⟨rfl, ?_⟩
            intro x hx
            rcases List.mem_cons.1 hx with rfl | hx
            · exact ht
            · exact hr x hx
        · rename_i ht
          rcases h with ⟨_, hc⟩ | ⟨he, _⟩
          · exact hc
          · exact absurd he ht
    · rename_i h1 h2
      simp only [not_or] at h1
      exact .inl ⟨⟨h1.1, h1.2, h2, hs⟩, h⟩

theorem cs_foldl {segs : List Str} (hs : ∀ s ∈ segs, '/' ∉ s) : ∀ {st : List Str}, CS st →
    CS (segs.foldl (cleanStep false) st) := by
  induction segs with
  | nil => intro st h; exact h
  | cons a r ih =>
    intro st h
    exact ih (fun s h => hs s (by simp [h])) (cs_step h (hs a (by simp)))

theorem cs_mem {st : List Str} (h : CS st) : ∀ s ∈ st, s ≠ [] ∧ '/' ∉ s := by
  induction st with
  | nil => simp
  | cons a st ih =>
    have hd : dotdot ≠ [] ∧ '/' ∉ dotdot := by decide
    intro s hs
    rcases h with ⟨hn, hc⟩ | ⟨rfl, hr⟩
    · rcases List.mem_cons.1 hs with rfl | hs
      · exact ⟨hn.1, hn.2.2.2⟩
      · exact ih hc s hs
    · rcases List.mem_cons.1 hs with rfl | hs
      · exact hd
      · rw [hr s hs]; exact hd

/-- Cleaning a clean relative path gives it back. -/
theorem foldl_reverse {st : List Str} (h : CS st) : st.reverse.foldl (cleanStep false) [] = st := by
  induction st with
  | nil => rfl
  | cons a st ih =>
    rw [List.reverse_cons, List.foldl_append]
    rcases h with ⟨hn, hc⟩ | ⟨rfl, hr⟩
    · rw [ih hc]
      exact name_cleanStep hn
    · rw [ih (cs_dots hr)]
      cases st with
      | nil => rfl
      | cons b st =>
        have := hr b (by simp)
        subst this
        rfl

/-- The text of a clean relative path. -/
def render (st : List Str) : Str := if st = [] then ['.'] else joinSegs st.reverse

theorem render_ne_nil {st : List Str} (h : CS st) : render st ≠ [] ∧ rooted (render st) = false := by
  unfold render
  split
  · exact ⟨by simp, by decide⟩
  · rename_i hne
    have hr : st.reverse ≠ [] := by simpa using hne
    cases hs : st.reverse with
    | nil => exact absurd hs hr
    | cons a as =>
      have ha := cs_mem h a (by rw [← List.mem_reverse, hs]; simp)
      cases a with
      | nil => exact absurd rfl ha.1
      | cons c r =>
        have hc : c ≠ '/' := fun e => ha.2 (by simp [e])
        cases as with
        | nil => simp [joinSegs, rooted, hc]
        | cons b bs => simp [joinSegs, rooted, hc]

theorem split_render {st : List Str} (h : CS st) :
    (split (render st)).foldl (cleanStep false) [] = st := by
  unfold render
  split
  · rename_i he; subst he; rfl
  · rename_i hne
    rw [split_joinSegs (by simpa using hne) (fun s hs => (cs_mem h s (by simpa using hs)).2)]
    exact foldl_reverse h

theorem rooted_append {p q : Str} (h : p ≠ []) : rooted (p ++ q) = rooted p := by
  cases p with
  | nil => exact absurd rfl h
  | cons c r => rfl

/-- `clean` of a relative path is the text of its stack. -/
theorem clean_rel {p : Str} (hr : rooted p = false) :
    clean p = render ((split p).foldl (cleanStep false) []) := by
  have hcs := cs_foldl (segs := split p) (fun s hs => mem_split s hs) (st := []) trivial
  unfold clean render cleanSegs
  rw [hr]
  generalize hst : (split p).foldl (cleanStep false) [] = st at hcs
  simp only [Bool.false_eq_true, if_false, List.nil_append]
  by_cases he : st = []
  · subst he; rfl
  · rw [if_neg he, if_neg]
    have := (render_ne_nil hcs).1
    rw [render, if_neg he] at this
    exact this

/-- `filepath.Join` of a clean relative path and one more element. -/
theorem join_rel {st : List Str} (h : CS st) (s : Str) :
    join [render st, s] = render ((split s).foldl (cleanStep false) st) := by
  have hn := render_ne_nil h
  rw [join, if_neg hn.1, joinSegs_cons (by simp)]
  show clean (render st ++ '/' :: s) = _
  rw [clean_rel (by rw [rooted_append hn.1, hn.2]), split_append, List.foldl_append, split_render h]

/-! ## The destination of a URL -/

/-- Stack of the relative destination. -/
def destStack (u : Parsed) : List Str :=
  (u.scheme :: u.hostname :: split u.path).foldl (cleanStep false) []

theorem cs_destStack {u : Parsed} (h : u.WF) : CS (destStack u) := by
  refine cs_foldl ?_ trivial
  intro s hs
  simp only [List.mem_cons] at hs
  rcases hs with rfl | rfl | hs
  · exact h.scheme.1
  · exact h.hostname
  · exact mem_split s hs

theorem dest_eq {u : Parsed} (h : u.WF) (hs : u.scheme ≠ []) :
    (split u.path).foldl (fun d s => join [d, s]) (join [u.scheme, u.hostname]) = render (destStack u) := by
  have h0 : join [u.scheme, u.hostname] =
      render ([u.scheme, u.hostname].foldl (cleanStep false) []) := by
    have hname : Name u.scheme := ⟨hs, h.scheme.2.1, h.scheme.2.2, h.scheme.1⟩
    have hcs : CS [u.scheme] := .inl ⟨hname, trivial⟩
    have hr : render [u.scheme] = u.scheme := rfl
    have := join_rel hcs u.hostname
    rw [hr, split_of_not_mem h.hostname] at this
    rw [this]
    show _ = render (([u.hostname]).foldl (cleanStep false) (cleanStep false [] u.scheme))
    rw [name_cleanStep hname]
  have hc0 : CS ([u.scheme, u.hostname].foldl (cleanStep false) []) := by
    refine cs_foldl ?_ trivial
    intro s hs
    simp only [List.mem_cons, List.not_mem_nil, or_false] at hs
    rcases hs with rfl | rfl
    · exact h.scheme.1
    · exact h.hostname
  have gen : ∀ (segs : List Str), (∀ s ∈ segs, '/' ∉ s) → ∀ st, CS st →
      segs.foldl (fun d s => join [d, s]) (render st) = render (segs.foldl (cleanStep false) st) := by
    intro segs
    induction segs with
    | nil => intro _ st _; rfl
    | cons a r ih =>
      intro hsl st hst
      rw [List.foldl_cons, List.foldl_cons, join_rel hst, split_of_not_mem (hsl a (by simp))]
      exact ih (fun s hs => hsl s (by simp [hs])) _ (cs_step hst (hsl a (by simp)))
  rw [h0, gen _ (fun s hs => mem_split s hs) _ hc0]
  rfl

/-- Walking never above the start: the stack consists of names. -/
theorem depth_stack {segs : List Str} (hsl : ∀ s ∈ segs, '/' ∉ s) : ∀ {st : List Str} ,
    (∀ s ∈ st, Name s) → depth segs st.length ≠ none →
    ∀ s ∈ segs.foldl (cleanStep false) st, Name s := by
  induction segs with
  | nil => intro st h _; exact h
  | cons a r ih =>
    intro st h hd
    rw [List.foldl_cons]
    have hr : ∀ s ∈ r, '/' ∉ s := fun s hs => hsl s (by simp [hs])
    rw [depth.eq_def] at hd
    simp only at hd
    unfold cleanStep
    split at hd
    · rename_i h1; rw [if_pos h1]; exact ih hr h hd
    · rename_i h1
      rw [if_neg h1]
      split at hd
      · rename_i h2
        rw [if_pos h2]
        cases st with
        | nil => simp at hd
        | cons top rest =>
          have := h top (by simp)
          simp only [if_neg this.2.2.1]
          exact ih hr (fun s hs => h s (by simp [hs])) hd
      · rename_i h2
        rw [if_neg h2]
        simp only [not_or] at h1
        refine ih hr ?_ hd
        intro s hs
        rcases List.mem_cons.1 hs with rfl | hs
        · exact ⟨h1.1, h1.2, h2, hsl _ (by simp)⟩
        · exact h s hs

theorem foldl_names {r : Bool} (segs : List Str) (h : ∀ s ∈ segs, Name s) : ∀ st,
    segs.foldl (cleanStep r) st = segs.reverse ++ st := by
  induction segs with
  | nil => intro st; rfl
  | cons a l ih =>
    intro st
    rw [List.foldl_cons, name_cleanStep (h a (by simp)), ih (fun s hs => h s (by simp [hs]))]
    simp

/-- Joining names below `gts/concepts`. -/
theorem join_concepts (gts : Str) {st : List Str} (h : ∀ s ∈ st, Name s) (hne : st ≠ []) :
    join [gts, "concepts".toList, render st] =
      join [gts, "concepts".toList] ++ '/' :: joinSegs st.reverse := by
  have hcon : Name "concepts".toList := by unfold Name; decide
  have hrev : ∀ s ∈ st.reverse, Name s := fun s hs => h s (by simpa using hs)
  have hsr : split (render st) = st.reverse := by
    rw [render, if_neg hne, split_joinSegs (by simpa using hne) (fun s hs => (hrev s hs).2.2.2)]
  have hsc : split "concepts".toList = ["concepts".toList] := by decide
  have main : ∀ (p : Str), p ≠ [] → (∃ st0 : List Str, (split p).foldl (cleanStep (rooted p)) [] =
      "concepts".toList :: st0) →
      clean (p ++ '/' :: render st) = clean p ++ '/' :: joinSegs st.reverse := by
    intro p hp ⟨st0, hst0⟩
    unfold clean cleanSegs
    rw [rooted_append hp, split_append, List.foldl_append, hst0, hsr, foldl_names _ hrev]
    simp only [List.reverse_reverse, List.reverse_append, List.reverse_cons]
    rw [joinSegs_append (by simp) (by simpa using hne)]
    have hn : ∀ l : List Str, joinSegs (l ++ ["concepts".toList]) ≠ [] := by
      intro l
      cases l with
      | nil => simp [joinSegs]
      | cons a as => rw [joinSegs_append (by simp) (by simp)]; simp
    have hx := hn st0.reverse
    generalize joinSegs (st0.reverse ++ ["concepts".toList]) = x at hx ⊢
    generalize joinSegs st.reverse = y
    generalize (if rooted p = true then ['/'] else []) = z
    rw [if_neg (by simp), if_neg (by simp [hx])]
    simp
  cases gts with
  | nil =>
    show join ["concepts".toList, render st] = join ["concepts".toList] ++ _
    exact main "concepts".toList (by decide) ⟨[], by decide⟩
  | cons c g =>
    have hp : (c :: g) ++ '/' :: "concepts".toList ≠ [] := by simp
    have := main ((c :: g) ++ '/' :: "concepts".toList) hp ?_
    · rw [join, if_neg (by simp), join, if_neg (by simp), joinSegs_cons (by simp),
        joinSegs_cons (by simp)]
      rw [List.append_assoc] at this
      exact this
    · rw [split_append, List.foldl_append, hsc]
      exact ⟨_, name_cleanStep (r := rooted ((c :: g) ++ '/' :: "concepts".toList)) hcon⟩

theorem destStack_ne_nil_of_names {u : Parsed} (hw : u.WF) (hs : u.scheme ≠ []) (hn : NoDots u)
    (hh : u.hostname ≠ []) : (destStack u).reverse = u.scheme :: u.hostname :: names u := by
  rw [noDots_iff] at hn
  have h1 : Name u.scheme := ⟨hs, hw.scheme.2.1, hw.scheme.2.2, hw.scheme.1⟩
  have h2 : Name u.hostname := ⟨hh, (hn _ (by simp)).1, (hn _ (by simp)).2, hw.hostname⟩
  have gen : ∀ segs : List Str, (∀ s ∈ segs, '/' ∉ s ∧ s ≠ ['.'] ∧ s ≠ ['.', '.']) → ∀ st,
      segs.foldl (cleanStep false) st = (segs.filter (fun s => s ≠ [])).reverse ++ st := by
    intro segs
    induction segs with
    | nil => intro _ st; rfl
    | cons a r ih =>
      intro h st
      have ha := h a (by simp)
      rw [List.foldl_cons]
      by_cases he : a = []
      · subst he
        rw [show cleanStep false st [] = st from rfl, ih (fun s hs => h s (by simp [hs]))]
        simp
      · rw [name_cleanStep ⟨he, ha.2.1, ha.2.2, ha.1⟩, ih (fun s hs => h s (by simp [hs]))]
        simp [he]
  unfold destStack
  rw [List.foldl_cons, name_cleanStep h1, List.foldl_cons, name_cleanStep h2,
    gen _ (fun s hs => ⟨mem_split s hs, hn s (by simp [hs])⟩)]
  simp [names]

end Telefacts.Url
