import Verif.Spec.Router
import Verif.Proof.Url
import Verif.Proof.Discover
/-! # Lemmas for routing and for the paths of a folder -/
namespace Telefacts.Router
open Telefacts.Web Telefacts.Url Telefacts.Disc Telefacts.Spec

/-! ## Bytes and characters -/

theorem toNat_ofNat (x : Byte) : (Char.ofNat x.val).toNat = x.val := by
  revert x; decide +kernel

theorem bytes_str (b : Bytes) : bytes (str b) = b := by
  unfold bytes str
  rw [List.map_map]
  conv => rhs; rw [← List.map_id b]
  refine List.map_congr_left fun x _ => ?_
  simp only [Function.comp, id]
  apply Fin.ext
  simp only [toNat_ofNat]
  exact Nat.mod_eq_of_lt x.isLt

theorem str_inj {a b : Bytes} (h : str a = str b) : a = b := by
  rw [← bytes_str a, ← bytes_str b, h]

theorem mem_str {x : Byte} {b : Bytes} : Char.ofNat x.val ∈ str b ↔ x ∈ b := by
  unfold str
  rw [List.mem_map]
  constructor
  · rintro ⟨y, hy, he⟩
    have := congrArg Char.toNat he
    rw [toNat_ofNat, toNat_ofNat] at this
    rwa [Fin.ext this] at hy
  · intro h; exact ⟨x, h, rfl⟩

theorem segment_name {s : Bytes} : Segment s ↔ Name (str s) := by
  unfold Segment Name
  have h1 : s = [] ↔ str s = [] := by simp [str]
  have h2 : s = lit "." ↔ str s = ['.'] :=
    ⟨fun h => by rw [h]; decide, fun h => str_inj (by rw [h]; decide)⟩
  have h3 : s = lit ".." ↔ str s = ['.', '.'] :=
    ⟨fun h => by rw [h]; decide, fun h => str_inj (by rw [h]; decide)⟩
  have h4 : (47 : Byte) ∈ s ↔ '/' ∈ str s := (mem_str (x := 47) (b := s)).symm
  rw [ne_eq, ne_eq, ne_eq, h1, h2, h3, h4]
  tauto

/-! ## Stacks of paths -/

/-- The output stack of `filepath.Clean`. -/
def stack (p : Str) : List Str := (split p).foldl (cleanStep (rooted p)) []

/-- The text of a stack. -/
def text (r : Bool) (st : List Str) : Str :=
  let out := (if r then ['/'] else []) ++ joinSegs st.reverse
  if out = [] then ['.'] else out

theorem clean_eq (p : Str) : clean p = text (rooted p) (stack p) := rfl

theorem stack_append {p : Str} (hp : p ≠ []) (q : Str) :
    stack (p ++ '/' :: q) = (split q).foldl (cleanStep (rooted p)) (stack p) := by
  unfold stack
  rw [rooted_append hp, split_append, List.foldl_append]

theorem names_step {st : List Str} (h : ∀ s ∈ st, Name s) {s : Str} (hs : '/' ∉ s) :
    ∀ x ∈ cleanStep true st s, Name x := by
  unfold cleanStep
  split
  · exact h
  · rename_i h1
    split
    · cases st with
      | nil => simp
      | cons a r =>
        have := h a (by simp)
        simp only [if_neg this.2.2.1]
        exact fun x hx => h x (by simp [hx])
    · rename_i h2
      simp only [not_or] at h1
      intro x hx
      rcases List.mem_cons.1 hx with rfl | hx
      · exact ⟨h1.1, h1.2, h2, hs⟩
      · exact h x hx

theorem names_foldl {segs : List Str} (hs : ∀ s ∈ segs, '/' ∉ s) : ∀ {st : List Str}, (∀ s ∈ st, Name s) →
    ∀ x ∈ segs.foldl (cleanStep true) st, Name x := by
  induction segs with
  | nil => intro st h; exact h
  | cons a r ih =>
    intro st h
    exact ih (fun s h => hs s (by simp [h])) (names_step h (hs a (by simp)))

theorem text_rooted (st : List Str) : text true st = '/' :: joinSegs st.reverse := by
  unfold text; simp

theorem split_slash (q : Str) : split ('/' :: q) = [] :: split q := by rw [split, if_pos rfl]

theorem stack_rooted_text {st : List Str} (h : ∀ s ∈ st, Name s) : stack (text true st) = st := by
  rw [text_rooted, stack, split_slash]
  show List.foldl (cleanStep true) [] (split (joinSegs st.reverse)) = st
  by_cases he : st = []
  · subst he; rfl
  · rw [split_joinSegs (by simpa using he) (fun s hs => (h s (by simpa using hs)).2.2.2),
      foldl_names _ (fun s hs => h s (by simpa using hs))]
    simp

/-- Cleaning twice is cleaning once. -/
theorem stack_clean (p : Str) : stack (clean p) = stack p ∧ rooted (clean p) = rooted p ∧ clean p ≠ [] := by
  by_cases hr : rooted p = true
  · have hn : ∀ s ∈ stack p, Name s := by
      unfold stack; rw [hr]; exact names_foldl (fun s hs => mem_split s hs) (by simp)
    rw [clean_eq, hr]
    refine ⟨stack_rooted_text hn, ?_, ?_⟩ <;> rw [text_rooted]
    · rfl
    · simp
  · have hr : rooted p = false := by simpa using hr
    have hcs : CS (stack p) := by
      unfold stack; rw [hr]; exact cs_foldl (st := []) (fun s hs => mem_split s hs) trivial
    have hc : clean p = render (stack p) := by rw [clean_rel hr]; unfold stack; rw [hr]
    have hn := render_ne_nil hcs
    rw [hc]
    refine ⟨?_, by rw [hn.2, hr], hn.1⟩
    have := split_render hcs
    rw [stack, hn.2]
    exact this

/-- A walk that stays down only adds names on top. -/
theorem depth_foldl {r : Bool} {segs : List Str} (hsl : ∀ s ∈ segs, '/' ∉ s) : ∀ {st : List Str} (base : List Str),
    (∀ s ∈ st, Name s) → depth segs st.length ≠ none →
    ∃ st', segs.foldl (cleanStep r) (st ++ base) = st' ++ base := by
  induction segs with
  | nil => intro st base _ _; exact ⟨st, rfl⟩
  | cons a rs ih =>
    intro st base h hd
    rw [List.foldl_cons]
    have hr : ∀ s ∈ rs, '/' ∉ s := fun s hs => hsl s (by simp [hs])
    rw [depth.eq_def] at hd
    simp only at hd
    unfold cleanStep
    split at hd
    · rename_i h1; rw [if_pos h1]; exact ih hr base h hd
    · rename_i h1
      rw [if_neg h1]
      split at hd
      · rename_i h2
        rw [if_pos h2]
        cases st with
        | nil => simp at hd
        | cons top rest =>
          have := h top (by simp)
          simp only [List.cons_append, if_neg this.2.2.1]
          exact ih hr base (fun s hs => h s (by simp [hs])) hd
      · rename_i h2
        rw [if_neg h2]
        simp only [not_or] at h1
        refine ih (st := a :: st) hr base ?_ hd
        intro s hs
        rcases List.mem_cons.1 hs with rfl | hs
        · exact ⟨h1.1, h1.2, h2, hsl _ (by simp)⟩
        · exact h s hs

theorem text_inside {r : Bool} {base : List Str} (hb : ∀ s ∈ base, s ≠ []) (hne : base ≠ []) (st' : List Str) :
    Inside (text r base) (text r (st' ++ base)) := by
  by_cases he : st' = []
  · subst he; exact .inl rfl
  · right
    refine ⟨joinSegs st'.reverse, ?_⟩
    have hj : joinSegs base.reverse ≠ [] := by
      cases hbr : base.reverse with
      | nil => simp at hbr; exact (hne hbr).elim
      | cons a as =>
        have ha : a ≠ [] := hb a (by rw [← List.mem_reverse, hbr]; simp)
        cases as with
        | nil => simpa [joinSegs] using ha
        | cons b bs => rw [joinSegs_cons (by simp)]; simp
    unfold text
    rw [List.reverse_append, joinSegs_append (by simpa using hne) (by simpa using he)]
    simp only [List.append_eq_nil_iff, hj, and_false, if_false]
    rw [if_neg (by simp)]
    simp

theorem stack_nonempty_mem (p : Str) : ∀ s ∈ stack p, s ≠ [] := by
  cases hr : rooted p with
  | true =>
    intro s hs
    unfold stack at hs
    rw [hr] at hs
    exact (names_foldl (fun s hs => mem_split s hs) (by simp) s hs).1
  | false =>
    intro s hs
    unfold stack at hs
    rw [hr] at hs
    exact (cs_mem (cs_foldl (st := []) (fun s hs => mem_split s hs) trivial) s hs).1

/-- A reference that stays down names a file inside its directory. -/
theorem localFile_inside {p : Str} (hne : stack p ≠ []) {href : Str} (h : Down href) :
    Inside (clean p) (localFile (clean p) href) := by
  obtain ⟨h1, h2, h3⟩ := stack_clean p
  unfold localFile
  rw [join, if_neg h3, joinSegs_cons (by simp)]
  show Inside (clean p) (clean (clean p ++ '/' :: href))
  rw [clean_eq (clean p ++ '/' :: href), stack_append h3, rooted_append h3, h1, h2]
  obtain ⟨st', hst⟩ := depth_foldl (r := rooted p) (segs := split href) (fun s hs => mem_split s hs) (st := [])
    (stack p) (by simp) (h _ (segs_split href))
  rw [List.nil_append] at hst
  rw [hst, clean_eq p]
  exact text_inside (stack_nonempty_mem p) hne st'

/-! ## Directories of folders -/

/-- The path before cleaning. -/
def foldersPath (wd : Str) : Str := if wd = [] then "folders".toList else wd ++ '/' :: "folders".toList

theorem foldersPath_ne (wd : Str) : foldersPath wd ≠ [] := by
  unfold foldersPath; split <;> simp

theorem join_folders (wd : Str) : join [wd, "folders".toList] = clean (foldersPath wd) := by
  unfold foldersPath
  rw [join]
  split
  · rfl
  · rfl

theorem folderDir_eq (wd id : Str) : folderDir wd id = clean (foldersPath wd ++ '/' :: id) := by
  unfold folderDir foldersPath
  rw [join]
  split
  · rfl
  · rw [joinSegs_cons (by simp), joinSegs_cons (by simp)]
    simp [joinSegs]

theorem entryFile_eq (wd id : Str) : entryFile wd id = clean ((foldersPath wd ++ '/' :: id) ++ '/' :: ['_']) := by
  unfold entryFile foldersPath
  rw [join]
  split
  · rw [join, if_neg (by decide), joinSegs_cons (by simp), joinSegs_cons (by simp)]
    simp [joinSegs]
  · rw [joinSegs_cons (by simp), joinSegs_cons (by simp), joinSegs_cons (by simp)]
    simp [joinSegs]

theorem stack_foldersPath (wd : Str) : ∃ base, stack (foldersPath wd) = "folders".toList :: base := by
  have hn : Name "folders".toList := by unfold Name; decide
  have hs : split "folders".toList = ["folders".toList] := by decide
  unfold foldersPath
  split
  · exact ⟨[], by decide⟩
  · rename_i h
    rw [stack_append h, hs]
    exact ⟨_, name_cleanStep (r := rooted wd) hn⟩

theorem stack_folder {wd id : Str} (h : Name id) :
    stack (foldersPath wd ++ '/' :: id) = id :: stack (foldersPath wd) := by
  rw [stack_append (foldersPath_ne wd), split_of_not_mem h.2.2.2]
  exact name_cleanStep h

theorem text_cons {r : Bool} {s : Str} {st : List Str} (hst : st ≠ []) (hm : ∀ x ∈ st, x ≠ []) :
    text r (s :: st) = text r st ++ '/' :: s := by
  have hj : joinSegs st.reverse ≠ [] := by
    cases hbr : st.reverse with
    | nil => simp at hbr; exact (hst hbr).elim
    | cons a as =>
      have ha : a ≠ [] := hm a (by rw [← List.mem_reverse, hbr]; simp)
      cases as with
      | nil => simpa [joinSegs] using ha
      | cons b bs => rw [joinSegs_cons (by simp)]; simp
  unfold text
  rw [List.reverse_cons, joinSegs_append (by simpa using hst) (by simp)]
  simp only [List.append_eq_nil_iff, hj, and_false, if_false]
  rw [if_neg (by simp)]
  simp [joinSegs]

theorem folderDir_below (wd : Str) {id : Str} (h : Name id) :
    folderDir wd id = join [wd, "folders".toList] ++ '/' :: id := by
  obtain ⟨base, hb⟩ := stack_foldersPath wd
  rw [folderDir_eq, join_folders, clean_eq, clean_eq, rooted_append (foldersPath_ne wd), stack_folder h]
  exact text_cons (by rw [hb]; simp) (stack_nonempty_mem _)

theorem entryFile_below (wd : Str) {id : Str} (h : Name id) : entryFile wd id = folderDir wd id ++ ['/', '_'] := by
  have hs : split (['_'] : Str) = [['_']] := by decide
  have hn : Name ['_'] := by unfold Name; decide
  have hne : foldersPath wd ++ '/' :: id ≠ [] := by simp
  rw [entryFile_eq, folderDir_eq, clean_eq, clean_eq (foldersPath wd ++ '/' :: id), stack_append hne,
    rooted_append hne, hs]
  rw [List.foldl_cons, List.foldl_nil, name_cleanStep hn, text_cons (by rw [stack_folder h]; simp) (stack_nonempty_mem _)]

theorem folderDir_inside (wd : Str) {id : Str} (h : Name id) {href : Str} (hd : Down href) :
    Inside (folderDir wd id) (localFile (folderDir wd id) href) := by
  rw [folderDir_eq]
  exact localFile_inside (by rw [stack_folder h]; simp) hd

/-! ## Absolute paths -/

theorem absPath_eq_joinSegs (ns : List Str) : absPath ns = '/' :: joinSegs ns := by
  induction ns with
  | nil => rfl
  | cons a r ih =>
    cases r with
    | nil => rfl
    | cons b bs =>
      have : absPath (a :: b :: bs) = '/' :: a ++ absPath (b :: bs) := rfl
      rw [this, ih, joinSegs_cons (p := a) (by simp)]
      simp

theorem absPath_text (ns : List Str) : absPath ns = text true ns.reverse := by
  rw [text_rooted, List.reverse_reverse, absPath_eq_joinSegs]

theorem walk_foldl {d segs e : List Str} (h : Walk d segs e) :
    segs.foldl (cleanStep true) d.reverse = e.reverse ∨ ¬ ∀ s ∈ d, Name s := by
  induction h with
  | done => exact .inl rfl
  | stay h _ ih =>
    rcases ih with ih | ih
    · left
      rw [List.foldl_cons]
      unfold cleanStep
      rw [if_pos h]
      exact ih
    · exact .inr ih
  | @up d r e _ ih =>
    by_cases hd : ∀ s ∈ d, Name s
    · rcases ih with ih | ih
      · left
        rw [List.foldl_cons, ← ih]
        congr 1
        rcases List.eq_nil_or_concat d with rfl | ⟨l, a, rfl⟩
        · rfl
        · have ha := hd a (by simp)
          unfold cleanStep
          rw [if_neg (by decide), if_pos rfl]
          simp [ha.2.2.1]
      · exact (ih fun s hs => hd s (List.dropLast_subset _ hs)).elim
    · exact .inr hd
  | @down d s r e hs _ ih =>
    by_cases hd : ∀ s ∈ d, Name s
    · rcases ih with ih | ih
      · left
        rw [List.foldl_cons, name_cleanStep hs, ← ih]
        simp
      · refine (ih fun x hx => ?_).elim
        rcases List.mem_append.1 hx with hx | hx
        · exact hd x hx
        · rw [List.mem_singleton.1 hx]; exact hs
    · exact .inr hd

theorem walk_names {d segs e : List Str} (h : Walk d segs e) (hd : ∀ s ∈ d, Name s) : ∀ s ∈ e, Name s := by
  induction h with
  | done => exact hd
  | stay _ _ ih => exact ih hd
  | up _ ih => exact ih fun s hs => hd s (List.dropLast_subset _ hs)
  | down hs _ ih =>
    refine ih fun x hx => ?_
    rcases List.mem_append.1 hx with hx | hx
    · exact hd x hx
    · rw [List.mem_singleton.1 hx]; exact hs

theorem walk_exists (segs : List Str) (h : ∀ s ∈ segs, '/' ∉ s) : ∀ d, ∃ e, Walk d segs e := by
  induction segs with
  | nil => intro d; exact ⟨d, .done⟩
  | cons s r ih =>
    intro d
    have ih := ih fun s hs => h s (by simp [hs])
    by_cases h1 : s = [] ∨ s = ['.']
    · obtain ⟨e, he⟩ := ih d
      exact ⟨e, .stay h1 he⟩
    · by_cases h2 : s = ['.', '.']
      · obtain ⟨e, he⟩ := ih d.dropLast
        exact ⟨e, h2 ▸ .up he⟩
      · obtain ⟨e, he⟩ := ih (d ++ [s])
        simp only [not_or] at h1
        exact ⟨e, .down ⟨h1.1, h1.2, h2, h s (by simp)⟩ he⟩

theorem localFile_walk {d segs e : List Str} {href : Str} (hd : ∀ s ∈ d, Name s) (hs : Segs href segs)
    (h : Walk d segs e) : localFile (absPath d) href = absPath e := by
  have he := walk_names h hd
  have hsp := (split_iff href segs).2 hs
  have hne : absPath d ≠ [] := by rw [absPath_text, text_rooted]; simp
  have hr : rooted (absPath d) = true := by rw [absPath_text, text_rooted]; rfl
  have hst : stack (absPath d) = d.reverse := by
    rw [absPath_text]; exact stack_rooted_text (fun s hs => hd s (by simpa using hs))
  unfold localFile
  rw [join, if_neg hne, joinSegs_cons (by simp)]
  show clean (absPath d ++ '/' :: href) = _
  rw [clean_eq, stack_append hne, rooted_append hne, hr, hst, hsp]
  rcases walk_foldl h with h' | h'
  · rw [h', absPath_text]
  · exact (h' hd).elim

theorem absPath_snoc {l : List Str} (h : l ≠ []) (n : Str) : absPath l ++ '/' :: n = absPath (l ++ [n]) := by
  rw [absPath_eq_joinSegs, absPath_eq_joinSegs, joinSegs_append h (by simp)]
  simp [joinSegs]

theorem inside_absPath {d e : List Str} (hne : d ≠ []) (hd : ∀ s ∈ d, Name s) (he : ∀ s ∈ e, Name s) :
    Inside (absPath d) (absPath e) ↔ d <+: e := by
  have hd' : ∀ s ∈ d, '/' ∉ s := fun s hs => (hd s hs).2.2.2
  have he' : ∀ s ∈ e, '/' ∉ s := fun s hs => (he s hs).2.2.2
  rw [absPath_eq_joinSegs, absPath_eq_joinSegs]
  constructor
  · intro h
    have hen : e ≠ [] := by
      rintro rfl
      rcases h with h | ⟨rest, h⟩
      · simp only [joinSegs, List.cons.injEq, true_and] at h
        cases d with
        | nil => exact hne rfl
        | cons a as =>
          cases as with
          | nil => exact (hd a (by simp)).1 h.symm
          | cons b bs => rw [joinSegs_cons (by simp)] at h; simp at h
      · simp [joinSegs] at h
    rcases h with h | ⟨rest, h⟩
    · rw [joinSegs_inj hen hne he' hd' (List.cons.inj h).2]; exact List.prefix_rfl
    · have h : joinSegs e = joinSegs d ++ '/' :: rest := (List.cons.inj h).2
      have := congrArg split h
      rw [split_joinSegs hen he', split_append, split_joinSegs hne hd'] at this
      exact ⟨_, this.symm⟩
  · rintro ⟨r, rfl⟩
    by_cases hr : r = []
    · subst hr; left; simp
    · right
      exact ⟨joinSegs r, by rw [joinSegs_append hne hr]; simp⟩

/-! ## Routes -/

theorem lit_folders : str (lit "/folders/") = '/' :: ("folders".toList ++ ['/']) := by decide

theorem getLast_seg {p s : Str} (h : Name s) : (p ++ '/' :: s).getLast? ≠ some '/' := by
  rcases List.eq_nil_or_concat s with rfl | ⟨l, a, rfl⟩
  · exact (h.1 rfl).elim
  · have : p ++ '/' :: l.concat a = (p ++ '/' :: l) ++ [a] := by simp
    rw [this, List.getLast?_append_of_ne_nil _ (by simp)]
    simp only [List.getLast?_singleton, ne_eq, Option.some.injEq]
    rintro rfl
    exact h.2.2.2 (by simp)

/-- A rooted path of names is clean. -/
theorem cleanPath_names {ns : List Str} (hne : ns ≠ []) (h : ∀ s ∈ ns, Name s) :
    cleanPath (absPath ns) = absPath ns := by
  have hst : stack (absPath ns) = ns.reverse := by
    rw [absPath_text]; exact stack_rooted_text (fun s hs => h s (by simpa using hs))
  have hr : rooted (absPath ns) = true := by rw [absPath_eq_joinSegs]; rfl
  have hc : clean (absPath ns) = absPath ns := by
    rw [clean_eq, hst, hr, ← absPath_text]
  unfold cleanPath
  rw [if_neg (by rw [absPath_eq_joinSegs]; simp)]
  simp only [hr, if_true, hc]
  rw [if_neg]
  rintro ⟨hl, _⟩
  rcases List.eq_nil_or_concat ns with rfl | ⟨l, a, rfl⟩
  · exact hne rfl
  · have ha := h a (by simp)
    refine getLast_seg (p := if l = [] then [] else absPath l) ha ?_
    rw [← hl, absPath_eq_joinSegs]
    by_cases hle : l = []
    · subst hle; rfl
    · rw [if_neg hle, absPath_eq_joinSegs, List.concat_eq_append, joinSegs_append hle (by simp)]
      simp [joinSegs]

/-- A clean path without a final slash is a path of names. -/
theorem names_of_cleanPath {segs : List Str} (hsl : ∀ s ∈ segs, '/' ∉ s)
    (hlast : ∀ s, segs.getLast? = some s → s ≠ []) (hne : segs ≠ [])
    (h : cleanPath ('/' :: joinSegs segs) = '/' :: joinSegs segs) : ∀ s ∈ segs, Name s := by
  have hst : ∀ s ∈ stack ('/' :: joinSegs segs), Name s := by
    unfold stack
    exact names_foldl (fun s hs => mem_split s hs) (by simp)
  unfold cleanPath at h
  rw [if_neg (by simp)] at h
  simp only [show rooted ('/' :: joinSegs segs) = true from rfl, if_true] at h
  rw [if_neg] at h
  · rw [clean_eq, show rooted ('/' :: joinSegs segs) = true from rfl, text_rooted] at h
    have h := (List.cons.inj h).2
    by_cases he : stack ('/' :: joinSegs segs) = []
    · rw [he] at h
      exfalso
      rcases List.eq_nil_or_concat segs with rfl | ⟨l, a, rfl⟩
      · exact hne rfl
      · have ha := hlast a (by simp)
        rw [List.concat_eq_append] at h
        by_cases hl : l = []
        · subst hl; exact ha h.symm
        · rw [joinSegs_append hl (by simp)] at h; simp [joinSegs] at h
    · have := joinSegs_inj (by simpa using he) hne (fun s hs => (hst s (by simpa using hs)).2.2.2) hsl h
      intro s hs
      exact hst s (by rw [← this] at hs; simpa using hs)
  · rintro ⟨hl, _⟩
    rcases List.eq_nil_or_concat segs with rfl | ⟨l, a, rfl⟩
    · exact hne rfl
    · have ha := hlast a (by simp)
      rw [List.concat_eq_append] at hl
      have hlast' : a.getLast? = some '/' := by
        by_cases hle : l = []
        · subst hle
          simp only [List.nil_append, joinSegs] at hl
          rw [show '/' :: a = ['/'] ++ a from rfl, List.getLast?_append_of_ne_nil _ ha] at hl
          exact hl
        · rw [joinSegs_append hle (by simp)] at hl
          have e : '/' :: (joinSegs l ++ '/' :: joinSegs [a]) = ('/' :: joinSegs l ++ ['/']) ++ a := by
            simp [joinSegs]
          rw [e, List.getLast?_append_of_ne_nil _ ha] at hl
          exact hl
      exact hsl a (by simp) (List.mem_of_getLast? hlast')

theorem name_folders : Name "folders".toList := by unfold Name; decide

theorem name_facts : Name "facts".toList := by unfold Name; decide

theorem split_absPath {ns : List Str} (hne : ns ≠ []) (h : ∀ s ∈ ns, Name s) :
    split (absPath ns) = [] :: ns := by
  rw [absPath_eq_joinSegs, split_slash, split_joinSegs hne (fun s hs => (h s hs).2.2.2)]

/-- The three routes, on paths of names. -/
theorem route_catalog_iff (method : String) (path id : Str) :
    route method path = .catalog id ↔
      method = "GET" ∧ Name id ∧ path = absPath ["folders".toList, id] := by
  constructor
  · intro h
    unfold route at h
    split at h
    · cases h
    · rename_i hc
      simp only [ne_eq, not_not] at hc
      split at h
      · rename_i hm
        split at h
        · rename_i root f id' hs
          split at h
          · rename_i hx
            cases h
            obtain ⟨rfl, rfl, hid⟩ := hx
            have hp : path = '/' :: joinSegs ["folders".toList, id] := by
              rw [← joinSegs_split path, hs]; rfl
            have hmem : ∀ s ∈ ["folders".toList, id], '/' ∉ s := by
              intro s hs'
              exact mem_split s (by rw [hs]; simp at hs' ⊢; tauto)
            have := names_of_cleanPath hmem (by simp; exact hid) (by simp) (by rw [← hp]; exact hc)
            exact ⟨hm, this id (by simp), by rw [absPath_eq_joinSegs, ← hp]⟩
          · cases h
        · split at h
          · split at h
            · cases h
            · split at h <;> cases h
          · cases h
        · cases h
      · cases h
  · rintro ⟨rfl, hid, rfl⟩
    have hn : ∀ s ∈ ["folders".toList, id], Name s := by
      simp only [List.mem_cons, List.not_mem_nil, or_false]
      rintro s (rfl | rfl)
      · exact name_folders
      · exact hid
    unfold route
    rw [if_neg (by rw [cleanPath_names (by simp) hn]; simp), if_pos rfl, split_absPath (by simp) hn]
    simp [hid.1]

theorem route_two (method : String) (path id h : Str) (t : Target)
    (ht : t = .facts id ∧ h = "facts".toList ∨ t = .renderable id h ∧ h ≠ "facts".toList) :
    route method path = t ↔
      method = "GET" ∧ Name id ∧ Name h ∧ path = absPath ["folders".toList, id, h] := by
  constructor
  · intro hr
    unfold route at hr
    split at hr
    · rcases ht with ⟨rfl, _⟩ | ⟨rfl, _⟩ <;> cases hr
    · rename_i hc
      simp only [ne_eq, not_not] at hc
      split at hr
      · rename_i hm
        split at hr
        · split at hr <;> rcases ht with ⟨rfl, _⟩ | ⟨rfl, _⟩ <;> cases hr
        · rename_i root f id' h' hs
          split at hr
          · rename_i hx
            obtain ⟨rfl, rfl, hid⟩ := hx
            have key : id' = id ∧ h' = h ∧ h ≠ [] := by
              split at hr
              · rename_i hf
                rcases ht with ⟨rfl, rfl⟩ | ⟨rfl, _⟩
                · cases hr; exact ⟨rfl, hf, by decide⟩
                · cases hr
              · split at hr
                · rename_i hf
                  rcases ht with ⟨rfl, rfl⟩ | ⟨rfl, _⟩
                  · cases hr
                  · cases hr; exact ⟨rfl, rfl, hf⟩
                · rcases ht with ⟨rfl, _⟩ | ⟨rfl, _⟩ <;> cases hr
            obtain ⟨rfl, rfl, hne⟩ := key
            have hp : path = '/' :: joinSegs ["folders".toList, id', h'] := by
              rw [← joinSegs_split path, hs]; rfl
            have hmem : ∀ s ∈ ["folders".toList, id', h'], '/' ∉ s := by
              intro s hs'
              exact mem_split s (by rw [hs]; simp at hs' ⊢; tauto)
            have := names_of_cleanPath hmem (by simp; exact hne) (by simp) (by rw [← hp]; exact hc)
            exact ⟨hm, this id' (by simp), this h' (by simp), by rw [absPath_eq_joinSegs, ← hp]⟩
          · rcases ht with ⟨rfl, _⟩ | ⟨rfl, _⟩ <;> cases hr
        · rcases ht with ⟨rfl, _⟩ | ⟨rfl, _⟩ <;> cases hr
      · rcases ht with ⟨rfl, _⟩ | ⟨rfl, _⟩ <;> cases hr
  · rintro ⟨rfl, hid, hh, rfl⟩
    have hn : ∀ s ∈ ["folders".toList, id, h], Name s := by
      simp only [List.mem_cons, List.not_mem_nil, or_false]
      rintro s (rfl | rfl | rfl)
      · exact name_folders
      · exact hid
      · exact hh
    unfold route
    rw [if_neg (by rw [cleanPath_names (by simp) hn]; simp), if_pos rfl, split_absPath (by simp) hn]
    rcases ht with ⟨rfl, rfl⟩ | ⟨rfl, hne⟩
    · simp [hid.1]
    · simp only [hid.1, ne_eq, not_false_eq_true, and_self, if_true, if_neg hne, hh.1]

theorem str_path1 (id : Bytes) : str (lit "/folders/" ++ id) = absPath ["folders".toList, str id] := by
  have : str (lit "/folders/" ++ id) = str (lit "/folders/") ++ str id := by simp [str]
  rw [this, lit_folders, absPath_eq_joinSegs]
  simp [joinSegs]

theorem str_path2 (id h : Bytes) :
    str (lit "/folders/" ++ id ++ lit "/" ++ h) = absPath ["folders".toList, str id, str h] := by
  have : str (lit "/folders/" ++ id ++ lit "/" ++ h) = str (lit "/folders/") ++ str id ++ '/' :: str h := by
    simp [str]; rfl
  rw [this, lit_folders, absPath_eq_joinSegs]
  simp [joinSegs]

/-! ## Discovery only sees what it refers to -/

section
variable {L D : Type}

/-- Two views of a folder that agree on the files with names in `P`. -/
structure SameOn (P : String → Prop) (a b : FolderEnv L D) : Prop where
  entryName : a.entryName = b.entryName
  images : a.images = b.images
  transform : a.transform = b.transform
  isUrl : a.isUrl = b.isUrl
  doc : ∀ f, P f → a.readDoc f = b.readDoc f
  fileExists : ∀ f, P f → a.fileExists f = b.fileExists f
  inst : ∀ f, P f → a.readInstance f = b.readInstance f
  schema : ∀ f, P f → a.readSchema f = b.readSchema f
  linkbase : ∀ k f, P f → a.readLinkbase k f = b.readLinkbase k f

variable {P : String → Prop} {a b : FolderEnv L D}

theorem visitRef_congr (h : SameOn P a b) {i : Item} (hi : ∀ loc, AttrVal i.attrs "href" loc → P loc) :
    visitRef a i = visitRef b i := by
  unfold visitRef
  split
  · rfl
  · cases hf : findAttr i.attrs "href" with
    | none => rfl
    | some x =>
      have := hi x.value ((attrVal_iff _ _ _).2 ⟨x, hf, rfl⟩)
      simp only [h.isUrl, h.schema _ this]

theorem visitInclude_congr (h : SameOn P a b) {i : Item}
    (hi : ∀ loc, AttrVal i.attrs "schemaLocation" loc → P loc) : visitInclude a i = visitInclude b i := by
  unfold visitInclude
  split
  · rfl
  · cases hf : findAttr i.attrs "schemaLocation" with
    | none => rfl
    | some x =>
      have := hi x.value ((attrVal_iff _ _ _).2 ⟨x, hf, rfl⟩)
      simp only [h.isUrl, h.schema _ this]

theorem visitImport_congr (h : SameOn P a b) {i : Item} (hi : ∀ n loc, ImportNames i n loc → P loc) :
    visitImport a i = visitImport b i := by
  unfold visitImport
  split
  · rfl
  · rename_i hsp
    cases hn : findAttr i.attrs "namespace" with
    | none => rfl
    | some y =>
      simp only
      split
      · rfl
      · rename_i hy
        cases hf : findAttr i.attrs "schemaLocation" with
        | none => rfl
        | some x =>
          simp only
          split
          · rfl
          · rename_i hx
            have := hi y.value x.value ⟨not_not.1 hsp, (attrVal_iff _ _ _).2 ⟨y, hn, rfl⟩, hy,
              (attrVal_iff _ _ _).2 ⟨x, hf, rfl⟩, hx⟩
            simp only [h.isUrl, h.schema _ this]

theorem linkbaseRefSchema_congr (h : SameOn P a b) {f : SchemaFile}
    (hf : ∀ kind href, LinkIn a f kind href → P href) : linkbaseRefSchema a f = linkbaseRefSchema b f := by
  unfold linkbaseRefSchema
  refine List.flatMap_congr fun ann hann => ?_
  split
  · rfl
  · rename_i hs1
    refine List.flatMap_congr fun app happ => ?_
    split
    · rfl
    · rename_i hs2
      refine List.flatMap_congr fun i hi => ?_
      unfold linkbaseItem
      split
      · rfl
      · rename_i hs3
        split
        · rfl
        · rename_i h1
          split
          · rfl
          · rename_i h2
            cases hr : xlinkAttr i.attrs "role" with
            | none => rfl
            | some role =>
              simp only
              split
              · rfl
              · cases hh : xlinkAttr i.attrs "href" with
                | none => rfl
                | some href =>
                  simp only [← h.isUrl]
                  split
                  · rfl
                  · rename_i h3
                    split
                    · rfl
                    · rename_i h4
                      cases hk : kindOfRole role with
                      | none => rfl
                      | some kind =>
                        have hrole := (kindOfRole_iff role kind).1 hk
                        have : P href := hf kind href ⟨ann, hann, not_not.1 hs1, app, happ, not_not.1 hs2, i, hi,
                          not_not.1 hs3, (xlinkVal_iff _ _ _).2 (not_not.1 h1), (xlinkVal_iff _ _ _).2 (not_not.1 h2),
                          (xlinkVal_iff _ _ _).2 (by rw [hr, hrole]; cases kind <;> rfl),
                          (xlinkVal_iff _ _ _).2 hh, h3, by simpa using h4⟩
                        simp only [h.linkbase _ _ this]

theorem finishVisit_congr' {v : Visit} {sub sub' : SchemaFile → Option (List (Write L))}
    (h : ∀ href f, v.next = some (href, f) → sub f = sub' f ∧ linkbaseRefSchema a f = linkbaseRefSchema b f) :
    finishVisit a v sub = finishVisit b v sub' := by
  unfold finishVisit
  cases hv : v.next with
  | none => rfl
  | some p =>
    obtain ⟨href, f⟩ := p
    obtain ⟨h1, h2⟩ := h href f hv
    simp only [h1, h2]

/-- The files of a folder are tame in the sense of `P`. -/
structure Refers (P : String → Prop) (a : FolderEnv L D) (f : SchemaFile) : Prop where
  imports : ∀ i ∈ f.imp, ∀ n loc, ImportNames i n loc → P loc
  includes : ∀ i ∈ f.incl, ∀ loc, AttrVal i.attrs "schemaLocation" loc → P loc
  linkbases : ∀ kind href, LinkIn a f kind href → P href

theorem searchSchema_congr (h : SameOn P a b) {inst : InstanceFile}
    (hr : ∀ loc f, Reach a inst loc f → Refers P a f) (n : Nat) :
    ∀ loc f, Reach a inst loc f → searchSchema a n f = searchSchema b n f := by
  induction n with
  | zero => intro loc f _; rfl
  | succ n ih =>
    intro loc f hf
    have hff := hr loc f hf
    rw [searchSchema, searchSchema]
    have e1 : collect (fun i => finishVisit a (visitImport a i) (searchSchema a n)) f.imp =
        collect (fun i => finishVisit b (visitImport b i) (searchSchema b n)) f.imp := by
      refine collect_congr fun i hi => ?_
      rw [← visitImport_congr h (hff.imports i hi)]
      refine finishVisit_congr' fun href g hg => ?_
      obtain ⟨nn, h1, h2⟩ := (visitImport_next a i href g).1 hg
      have hg' := Reach.child loc f href g hf (.inl ⟨i, hi, nn, h1, h2⟩)
      exact ⟨ih _ _ hg', linkbaseRefSchema_congr h (hr _ _ hg').linkbases⟩
    have e2 : collect (fun i => finishVisit a (visitInclude a i) (searchSchema a n)) f.incl =
        collect (fun i => finishVisit b (visitInclude b i) (searchSchema b n)) f.incl := by
      refine collect_congr fun i hi => ?_
      rw [← visitInclude_congr h (hff.includes i hi)]
      refine finishVisit_congr' fun href g hg => ?_
      obtain ⟨t, h1⟩ := (visitInclude_next a i href g).1 hg
      have hg' := Reach.child loc f href g hf (.inr ⟨i, hi, t, h1⟩)
      exact ⟨ih _ _ hg', linkbaseRefSchema_congr h (hr _ _ hg').linkbases⟩
    rw [e1, e2]

theorem schemaRef_congr (h : SameOn P a b) {inst : InstanceFile}
    (hi : ∀ i ∈ inst.schemaRef, ∀ loc, AttrVal i.attrs "href" loc → P loc)
    (hr : ∀ loc f, Reach a inst loc f → Refers P a f) (n : Nat) : schemaRef a n inst = schemaRef b n inst := by
  unfold schemaRef
  refine collect_congr fun i hm => ?_
  rw [← visitRef_congr h (hi i hm)]
  refine finishVisit_congr' fun href g hg => ?_
  obtain ⟨t, h1⟩ := (visitRef_next a i href g).1 hg
  have hg' := Reach.root href g ⟨i, hm, t, h1⟩
  exact ⟨searchSchema_congr h hr n _ _ hg', linkbaseRefSchema_congr h (hr _ _ hg').linkbases⟩

theorem withInstance_congr (h : SameOn P a b) {key : String} (hk : P key)
    (hi : ∀ inst, a.readInstance key = some inst → ∀ i ∈ inst.schemaRef, ∀ loc,
      AttrVal i.attrs "href" loc → P loc)
    (hr : ∀ inst, a.readInstance key = some inst → ∀ loc f, Reach a inst loc f → Refers P a f)
    (n : Nat) (sched : List (Write L) → List (Write L)) (fo : Disc.Folder L D) :
    withInstance a n sched fo key = withInstance b n sched fo key := by
  unfold withInstance
  rw [← h.inst key hk]
  cases ha : a.readInstance key with
  | none => rfl
  | some inst => simp only [schemaRef_congr h (hi inst ha) (hr inst ha) n]

/-- Discovery gives the same result on both views. -/
theorem discover_congr (h : SameOn P a b)
    (he : ∀ e, a.entryName = some e → P e ∧ P (e ++ ".xml"))
    (hi : ∀ key inst, EntryInstance a key inst → ∀ i ∈ inst.schemaRef, ∀ loc,
      AttrVal i.attrs "href" loc → P loc)
    (hr : ∀ key inst loc f, EntryInstance a key inst → Reach a inst loc f → Refers P a f)
    (n : Nat) (sched : List (Write L) → List (Write L)) : discover a n sched = discover b n sched := by
  unfold discover
  rw [← h.entryName]
  cases hn : a.entryName with
  | none => rfl
  | some e =>
    obtain ⟨p1, p2⟩ := he e hn
    simp only
    rw [← h.doc e p1, ← h.images, ← h.transform, ← h.fileExists _ p2]
    split
    · rename_i hx
      have hx := (inline_iff e).2 hx
      cases hd : a.readDoc e with
      | none => rfl
      | some d? =>
        cases d? with
        | none => rfl
        | some d =>
          simp only
          split
          · rfl
          · rename_i hex
            have ent : ∀ inst, a.readInstance (e ++ ".xml") = some inst → EntryInstance a (e ++ ".xml") inst :=
              fun inst hin => ⟨e, hn, hin, .inl ⟨hx, rfl, ⟨d, hd⟩, by simpa using hex⟩⟩
            exact withInstance_congr h p2 (fun inst hin => hi _ inst (ent inst hin))
              (fun inst hin loc f hf => hr _ inst loc f (ent inst hin) hf) n sched _
    · split
      · rename_i hx
        have hx := (plain_iff e).2 hx
        have ent : ∀ inst, a.readInstance e = some inst → EntryInstance a e inst :=
          fun inst hin => ⟨e, hn, hin, .inr ⟨hx, rfl⟩⟩
        exact withInstance_congr h p1 (fun inst hin => hi _ inst (ent inst hin))
          (fun inst hin loc f hf => hr _ inst loc f (ent inst hin) hf) n sched _
      · rfl

end

end Telefacts.Router
