import Verif.Props.Url
import Verif.Props.Startup
/-! # C08: exactly where the file of a URL lies -/
namespace Telefacts
open Telefacts.Url Telefacts.Router Telefacts.Spec

/-- Cleaning a relative path first does not change where it leads. -/
theorem step_through {st : List Str} (h : CS st) {s : Str} (hs : '/' ∉ s) (b : List Str) :
    (cleanStep false st s).reverse.foldl (cleanStep true) b
      = cleanStep true (st.reverse.foldl (cleanStep true) b) s := by
  by_cases h1 : s = [] ∨ s = ['.']
  · simp [cleanStep, h1]
  · by_cases h2 : s = ['.', '.']
    · subst h2
      cases st with
      | nil => simp [cleanStep]
      | cons a st =>
        rcases h with ⟨ha, _⟩ | ⟨rfl, _⟩
        · have hd : a ≠ ['.', '.'] := ha.2.2.1
          simp [cleanStep, ha.1, ha.2.1, hd]
        · simp [cleanStep, dotdot]
    · have : cleanStep false st s = s :: st := by simp [cleanStep, h1, h2]
      rw [this]
      simp

theorem fold_through {segs : List Str} (hs : ∀ s ∈ segs, '/' ∉ s) (b : List Str) :
    ∀ {st : List Str}, CS st → (segs.foldl (cleanStep false) st).reverse.foldl (cleanStep true) b
      = segs.foldl (cleanStep true) (st.reverse.foldl (cleanStep true) b) := by
  induction segs with
  | nil => intro st _; rfl
  | cons s r ih =>
    intro st h
    have h1 : CS (cleanStep false st s) := cs_foldl (segs := [s]) (fun x hx => hs x (by simp_all)) h
    rw [List.foldl_cons, List.foldl_cons, ih (fun x hx => hs x (by simp [hx])) h1,
      step_through h (hs s (by simp))]

theorem name_concepts : Name "concepts".toList := ⟨by decide, by decide, by decide, by decide⟩

/-- The file of a URL, as a walk from the concepts folder. -/
theorem urlToFilename_walk (parse : Str → Option Parsed) {g : List Str} (hg : ∀ s ∈ g, Name s) {url : Str}
    {u : Parsed} (hu : parse url = some u) (hw : u.WF) {f : Str}
    (h : urlToFilename parse (absPath g) url = some f) {segs e : List Str} (hs : Segs u.path segs)
    (he : Walk (g ++ ["concepts".toList]) (u.scheme :: u.hostname :: segs) e) : f = absPath e := by
  obtain ⟨u', hu', h1, h2, rfl⟩ := urlToFilename_some h
  rw [hu] at hu'
  cases hu'
  rw [dest_eq hw h1]
  have hcs := cs_destStack hw
  have hsp := (split_iff _ _).2 hs
  have hgc : ∀ s ∈ g ++ ["concepts".toList], Name s := by
    intro s hs
    rcases List.mem_append.1 hs with hs | hs
    · exact hg s hs
    · rw [List.mem_singleton.1 hs]; exact name_concepts
  have hne : absPath g ≠ [] := by rw [absPath_text, text_rooted]; simp
  have hr : rooted (absPath g) = true := by rw [absPath_text, text_rooted]; rfl
  have hst : stack (absPath g) = g.reverse := by
    rw [absPath_text]; exact stack_rooted_text (fun s hs => hg s (by simpa using hs))
  have hj : join [absPath g, "concepts".toList, render (destStack u)]
      = clean ((absPath g ++ '/' :: "concepts".toList) ++ '/' :: render (destStack u)) := by
    rw [join, if_neg hne, joinSegs_cons (by simp), joinSegs_cons (by simp), List.append_assoc]
    rfl
  have hne2 : absPath g ++ '/' :: "concepts".toList ≠ [] := by simp
  rw [hj, clean_eq, stack_append hne2, rooted_append hne2, rooted_append hne, hr, stack_append hne, hr, hst]
  have hc : (split "concepts".toList).foldl (cleanStep true) g.reverse = (g ++ ["concepts".toList]).reverse := by
    have : split "concepts".toList = ["concepts".toList] := by decide
    rw [this, List.reverse_append]
    rfl
  rw [hc]
  have hrender : (split (render (destStack u))).foldl (cleanStep true) (g ++ ["concepts".toList]).reverse
      = (destStack u).reverse.foldl (cleanStep true) (g ++ ["concepts".toList]).reverse := by
    unfold render
    split
    · rename_i h0; rw [h0]; rfl
    · rename_i h0
      rw [split_joinSegs (by simpa using h0) (fun s hs => (cs_mem hcs s (by simpa using hs)).2)]
  have hslash : ∀ s ∈ u.scheme :: u.hostname :: split u.path, '/' ∉ s := by
    intro s hs
    simp only [List.mem_cons] at hs
    rcases hs with rfl | rfl | hs
    · exact hw.scheme.1
    · exact hw.hostname
    · exact mem_split s hs
  rw [hrender, destStack, fold_through hslash _ (st := []) trivial, hsp]
  rcases walk_foldl he with h' | h'
  · rw [List.reverse_nil, List.foldl_nil, h', absPath_text]
  · exact (h' hgc).elim

/-- The file of a URL is the one reached from the concepts folder by going down to the scheme and the host and
following the segments of the path, and it is in the concepts folder exactly when this walk ends below it. -/
theorem C08_exact (parse : Str → Option Parsed) {g : List Str} (hg : ∀ s ∈ g, Name s) {url : Str}
    {u : Parsed} (hu : parse url = some u) (hw : u.WF) {f : Str}
    (h : urlToFilename parse (absPath g) url = some f) {segs : List Str} (hs : Segs u.path segs) :
    ∃ e, Walk (g ++ ["concepts".toList]) (u.scheme :: u.hostname :: segs) e ∧ f = absPath e ∧
      (Inside (absPath (g ++ ["concepts".toList])) f ↔ g ++ ["concepts".toList] <+: e) := by
  obtain ⟨e, he⟩ := walk_exists (u.scheme :: u.hostname :: segs) (by
    intro s hs'
    simp only [List.mem_cons] at hs'
    rcases hs' with rfl | rfl | hs'
    · exact hw.scheme.1
    · exact hw.hostname
    · exact hs.2.2 s hs') (g ++ ["concepts".toList])
  have hgc : ∀ s ∈ g ++ ["concepts".toList], Name s := by
    intro s hs
    rcases List.mem_append.1 hs with hs | hs
    · exact hg s hs
    · rw [List.mem_singleton.1 hs]; exact name_concepts
  have hf := urlToFilename_walk parse hg hu hw h hs he
  refine ⟨e, he, hf, ?_⟩
  rw [hf]
  exact inside_absPath (by simp) hgc (walk_names he hgc)

example : ∃ f, urlToFilename (fun _ => some ⟨"http".toList, "h".toList, "/../../../secret".toList⟩)
    (absPath ["gts".toList]) "http://h/../../../secret".toList = some f ∧
    Segs "/../../../secret".toList [[], "..".toList, "..".toList, "..".toList, "secret".toList] :=
  ⟨_, rfl, by decide, by decide +kernel, by decide⟩

/-- Climbing by more levels than there are ends at the root. -/
theorem walk_climb (t e : List Str) : ∀ (n : Nat) (d : List Str), d.length ≤ n → Walk [] t e →
    Walk d (List.replicate n ['.', '.'] ++ t) e := by
  intro n
  induction n with
  | zero => intro d hd ht; rw [List.length_eq_zero_iff.1 (Nat.le_zero.1 hd)]; exact ht
  | succ n ih =>
    intro d hd ht
    rw [List.replicate_succ, List.cons_append]
    exact .up (ih _ (by rw [List.length_dropLast]; omega) ht)

/-- Whatever the folder and the host, any file of the machine is the file of some URL of that host. -/
theorem C08_anywhere_fails {g : List Str} (hg : ∀ s ∈ g, Name s) {scheme host : Str} (hsc : Name scheme)
    (hho : Name host) {t : List Str} (ht : ∀ s ∈ t, Name s) :
    ∃ path : Str, ∀ parse : Str → Option Parsed, ∀ url, parse url = some ⟨scheme, host, path⟩ →
      urlToFilename parse (absPath g) url = some (absPath t) := by
  let segs : List Str := [] :: (List.replicate (g.length + 3) ['.', '.'] ++ t)
  have hslash : ∀ s ∈ segs, '/' ∉ s := by
    intro s hs
    simp only [segs, List.mem_cons, List.mem_append, List.mem_replicate] at hs
    rcases hs with rfl | ⟨_, rfl⟩ | hs
    · simp
    · decide
    · exact (ht s hs).2.2.2
  have hs : Segs (joinSegs segs) segs := (split_iff _ _).1 (split_joinSegs (by simp [segs]) hslash)
  refine ⟨joinSegs segs, fun parse url hu => ?_⟩
  have hw : Parsed.WF ⟨scheme, host, joinSegs segs⟩ := ⟨⟨hsc.2.2.2, hsc.2.1, hsc.2.2.1⟩, hho.2.2.2⟩
  have hsome : ∃ f, urlToFilename parse (absPath g) url = some f := by
    unfold urlToFilename
    rw [hu]
    simp only [if_neg hsc.1, if_neg hho.1]
    exact ⟨_, rfl⟩
  obtain ⟨f, hf⟩ := hsome
  rw [hf, urlToFilename_walk parse hg hu hw hf hs (e := t)]
  refine .down hsc (.down hho (.stay (.inl rfl) (walk_climb t t _ _ ?_ ?_)))
  · simp only [List.length_append, List.length_cons, List.length_nil]; omega
  · have := walk_down ht []
    rwa [List.nil_append] at this

example : urlToFilename (fun _ => some ⟨"http".toList, "h".toList, "/../../../../etc/passwd".toList⟩)
    (absPath ["gts".toList]) "http://h/../../../../etc/passwd".toList = some (absPath ["etc".toList, "passwd".toList]) := by
  decide +kernel

end Telefacts
