import Verif.Spec.Relative
import Verif.Props.Router
/-! # References in files of subdirectories (C163) -/
namespace Telefacts
open Telefacts.Web Telefacts.Router Telefacts.Url Telefacts.Disc Telefacts.Spec

theorem walk_det {d segs e e' : List Str} (h : Walk d segs e) (h' : Walk d segs e') : e = e' := by
  induction h with
  | done => cases h'; rfl
  | stay hs _ ih =>
    cases h' with
    | stay _ h => exact ih h
    | up h => simp at hs
    | down hn _ => rcases hs with rfl | rfl <;> simp [Name] at hn
  | up _ ih =>
    cases h' with
    | stay hs h => simp at hs
    | up h => exact ih h
    | down hn _ => simp [Name] at hn
  | down hn _ ih =>
    cases h' with
    | stay hs h => rcases hs with rfl | rfl <;> simp [Name] at hn
    | up h => simp [Name] at hn
    | down _ h => exact ih h

theorem depth_step (s : Str) (r : List Str) (d : Nat) : depth (s :: r) d =
    if s = [] ∨ s = ['.'] then depth r d
    else if s = ['.', '.'] then (match d with | 0 => none | d + 1 => depth r d)
    else depth r (d + 1) := by
  conv_lhs => rw [depth.eq_def]
  rfl

/-- The length of the path reached is the depth. -/
theorem walk_length {d segs e : List Str} (h : Walk d segs e) {m : Nat} (hm : depth segs d.length = some m) :
    e.length = m := by
  induction h with
  | done => simpa [depth] using hm
  | stay hs _ ih => rw [depth_step, if_pos hs] at hm; exact ih hm
  | up _ ih =>
    rename_i d r e _
    rw [depth_step, if_neg (by simp), if_pos rfl] at hm
    cases hd : d.length with
    | zero => rw [hd] at hm; cases hm
    | succ k =>
      rw [hd] at hm
      refine ih ?_
      rw [List.length_dropLast, hd]
      exact hm
  | down hn _ ih =>
    rw [depth_step, if_neg (by rintro (h | h) <;> simp [Name, h] at hn), if_neg (by intro h; simp [Name, h] at hn)] at hm
    refine ih ?_
    rw [List.length_append]
    exact hm

theorem depth_add (segs : List Str) : ∀ (n k : Nat) (m : Nat), depth segs n = some m → depth segs (n + k) = some (m + k) := by
  induction segs with
  | nil => intro n k m h; simpa [depth] using h
  | cons s r ih =>
    intro n k m h
    rw [depth_step] at h ⊢
    split at h
    · rename_i h1; rw [if_pos h1]; exact ih _ _ _ h
    · rename_i h1
      rw [if_neg h1]
      split at h
      · rename_i h2
        rw [if_pos h2]
        cases n with
        | zero => cases h
        | succ n =>
          rw [Nat.succ_add]
          exact ih _ _ _ h
      · rename_i h2
        rw [if_neg h2]
        have := ih _ k _ h
        rwa [Nat.add_right_comm] at this

theorem absPath_eq {a b : List Str} (ha : ∀ s ∈ a, Name s) (hb : ∀ s ∈ b, Name s) (h : absPath a = absPath b) :
    a = b := by
  rw [absPath_eq_joinSegs, absPath_eq_joinSegs] at h
  have h := (List.cons.inj h).2
  have key : ∀ l : List Str, (∀ s ∈ l, Name s) → joinSegs l = [] → l = [] := by
    intro l hl h
    match l with
    | [] => rfl
    | [x] => exact absurd h (hl x (by simp)).1
    | x :: y :: l => simp [joinSegs] at h
  by_cases ha' : a = []
  · subst ha'
    exact (key b hb h.symm).symm
  · by_cases hb' : b = []
    · subst hb'; exact key a ha h
    · exact joinSegs_inj ha' hb' (fun s hs => (ha s hs).2.2.2) (fun s hs => (hb s hs).2.2.2) h

/-- What holds: for a file directly in the directory of the folder, the file that is read for a reference is
the one that is meant. Missing: files in subdirectories, see `C163_exact`. -/
theorem C163_direct_partial {ds e : List Str} {loc href : Str} (hd : ∀ s ∈ ds, Name s) (hl : Direct ds loc)
    (hm : Meant ds loc href e) : localFile (absPath ds) href = absPath e := by
  obtain ⟨ls, p, hs, h1, h2, h3, h4⟩ := hm
  rw [hl ls p h1 h2] at h4
  exact localFile_walk hd h3 h4

/-- **C163.** Exactly when the file that is read for a reference is the one that is meant: when the reference
is in a file directly in the directory of the folder. -/
theorem C163_exact {ds e : List Str} {loc href : Str} (hd : ∀ s ∈ ds, Name s) (hl : Within ds loc)
    (hc : ¬ Climbs ds href) (hm : Meant ds loc href e) :
    localFile (absPath ds) href = absPath e ↔ Direct ds loc := by
  refine ⟨?_, fun h => C163_direct_partial hd h hm⟩
  obtain ⟨ls, p, hs, h1, h2, h3, h4⟩ := hm
  have hp := hl ls p h1 h2
  intro h ls' p' h1' h2'
  have els : ls' = ls := by rw [← (split_iff _ _).2 h1, ← (split_iff _ _).2 h1']
  subst els
  have ep := walk_det h2' h2
  subst ep
  obtain ⟨e0, h0⟩ := walk_exists hs h3.2.2 ds
  rw [localFile_walk hd h3 h0] at h
  have hpn := walk_names h2 hd
  have hn := walk_names h4 fun s hs => hpn s (List.dropLast_subset _ hs)
  have he := absPath_eq (walk_names h0 hd) hn h
  subst he
  unfold Climbs at hc
  push Not at hc
  obtain ⟨hs', h3', hne⟩ := hc
  have ehs : hs' = hs := by rw [← (split_iff _ _).2 h3, ← (split_iff _ _).2 h3']
  subst ehs
  obtain ⟨m, hm⟩ := Option.ne_none_iff_exists'.1 hne
  obtain ⟨x, hx⟩ := hp
  have l1 := walk_length h0 hm
  have l2 : e0.length = m + x.length := by
    refine walk_length h4 ?_
    rw [← hx, List.length_append]
    exact depth_add _ _ _ _ hm
  have : x = [] := List.length_eq_zero_iff.1 (by omega)
  rw [← hx, this, List.append_nil]

/-- A reference to `b.xsd` in the file `sub/a.xsd` meets the hypotheses. -/
example : ∃ e, (∀ s ∈ ["wd".toList, "a".toList], Name s) ∧ Within ["wd".toList, "a".toList] "sub/a.xsd".toList ∧
    ¬ Climbs ["wd".toList, "a".toList] "b.xsd".toList ∧
    Meant ["wd".toList, "a".toList] "sub/a.xsd".toList "b.xsd".toList e ∧
    absPath e = "/wd/a/sub/b.xsd".toList ∧ ¬ Direct ["wd".toList, "a".toList] "sub/a.xsd".toList := by
  have s1 : Segs "sub/a.xsd".toList ["sub".toList, "a.xsd".toList] := (split_iff _ _).1 (by decide +kernel)
  have s2 : Segs "b.xsd".toList ["b.xsd".toList] := (split_iff _ _).1 (by decide +kernel)
  have w1 : Walk ["wd".toList, "a".toList] ["sub".toList, "a.xsd".toList]
      ["wd".toList, "a".toList, "sub".toList, "a.xsd".toList] :=
    .down (by unfold Name; decide) (.down (by unfold Name; decide) .done)
  have w2 : Walk ["wd".toList, "a".toList, "sub".toList] ["b.xsd".toList]
      ["wd".toList, "a".toList, "sub".toList, "b.xsd".toList] := .down (by unfold Name; decide) .done
  have u : ∀ ls p, Segs "sub/a.xsd".toList ls → Walk ["wd".toList, "a".toList] ls p →
      p = ["wd".toList, "a".toList, "sub".toList, "a.xsd".toList] := by
    intro ls p h h'
    have : ls = ["sub".toList, "a.xsd".toList] := by rw [← (split_iff _ _).2 h]; decide +kernel
    subst this
    exact walk_det h' w1
  refine ⟨["wd".toList, "a".toList, "sub".toList, "b.xsd".toList], by unfold Name; decide, ?_, ?_,
    ⟨_, _, _, s1, w1, s2, w2⟩, by decide, ?_⟩
  · intro ls p h h'
    rw [u ls p h h']
    decide
  · intro h
    have := h _ s2
    revert this
    decide
  · intro h
    have := h _ _ s1 w1
    revert this
    decide

/-- **C163.** A file that no written reference names from the directory of the folder has no influence on
discovery, whether or not some reference means it. -/
theorem C163_unread_fails {L D : Type} (a b : Source L D) (wd ident q : Str) (hab : AgreeBut q a b)
    (hq : ∀ f, Written (folderEnv a wd ident) f → localFile (folderDir wd ident) f.toList ≠ q)
    (fuel : Nat) (sched : List (Write L) → List (Write L)) :
    discover (folderEnv a wd ident) fuel sched = discover (folderEnv b wd ident) fuel sched := by
  refine discover_congr (P := fun f => localFile (folderDir wd ident) f.toList ≠ q) ?_ ?_ ?_ ?_ fuel sched
  · exact {
      entryName := congrFun hab.entry _
      images := congrFun hab.images _
      transform := hab.transform
      isUrl := hab.isUrl
      doc := fun f hf => hab.doc _ hf
      fileExists := fun f hf => hab.fileExists _ hf
      inst := fun f hf => hab.inst _ hf
      schema := fun f hf => hab.schema _ hf
      linkbase := fun k f hf => hab.linkbase k _ hf }
  · exact fun e he => ⟨hq _ (.entry he), hq _ (.extracted he)⟩
  · exact fun key inst he i hi loc h => hq _ (.ref he hi h)
  · exact fun key inst loc f he hr => ⟨fun i hi n loc h => hq _ (.imp he hr hi h),
      fun i hi loc h => hq _ (.incl he hr hi h), fun kind href h => hq _ (.link he hr h)⟩

/-- A folder whose instance refers to `sub/a.xsd`, which imports `b.xsd`: there is a `b.xsd` beside it, with the
name space `urn:near`, and one in the directory of the folder, with the name space `urn:far`. -/
def subSource : Source Nat Nat where
  entry := fun p => if p = "/wd/folders/a/_".toList then some "i.xml" else none
  images := fun _ => []
  doc := fun _ => none
  fileExists := fun _ => true
  inst := fun p => if p = "/wd/folders/a/i.xml".toList then
    some ⟨[⟨"http://www.xbrl.org/2003/linkbase", [⟨⟨"http://www.w3.org/1999/xlink", "href"⟩, "sub/a.xsd"⟩]⟩], 0⟩ else none
  schema := fun p =>
    if p = "/wd/folders/a/sub/a.xsd".toList then
      some { attrs := [⟨⟨"", "targetNamespace"⟩, "urn:a"⟩], incl := [],
             imp := [⟨"http://www.w3.org/2001/XMLSchema",
              [⟨⟨"", "namespace"⟩, "urn:near"⟩, ⟨⟨"", "schemaLocation"⟩, "b.xsd"⟩]⟩], annotation := [], rest := 0 }
    else if p = "/wd/folders/a/sub/b.xsd".toList then
      some { attrs := [⟨⟨"", "targetNamespace"⟩, "urn:near"⟩], incl := [], imp := [], annotation := [], rest := 1 }
    else if p = "/wd/folders/a/b.xsd".toList then
      some { attrs := [⟨⟨"", "targetNamespace"⟩, "urn:far"⟩], incl := [], imp := [], annotation := [], rest := 2 }
    else none
  linkbase := fun _ _ => none
  transform := fun d _ => d
  isUrl := fun _ => false

/-- The claim is false: for the reference `b.xsd` in `sub/a.xsd` the file `sub/b.xsd` is meant and is there, but
another file is read and taken for it. -/
theorem C163_fails : ∃ (src : Source Nat Nat) (wd : Str) (ds e : List Str) (f g : SchemaFile) (fo : Disc.Folder Nat Nat),
    folderDir wd "a".toList = absPath ds ∧ Meant ds "sub/a.xsd".toList "b.xsd".toList e ∧
    src.schema (absPath e) = some f ∧
    discover (folderEnv src wd "a".toList) 3 (fun ws => ws) = some (.ok fo) ∧
    mapGet fo.schemas "b.xsd" = some g ∧ g ≠ f := by
  have s1 : Segs "sub/a.xsd".toList ["sub".toList, "a.xsd".toList] := (split_iff _ _).1 (by decide +kernel)
  have s2 : Segs "b.xsd".toList ["b.xsd".toList] := (split_iff _ _).1 (by decide +kernel)
  have w1 : Walk ["wd".toList, "folders".toList, "a".toList] ["sub".toList, "a.xsd".toList]
      ["wd".toList, "folders".toList, "a".toList, "sub".toList, "a.xsd".toList] :=
    .down (by unfold Name; decide) (.down (by unfold Name; decide) .done)
  have w2 : Walk ["wd".toList, "folders".toList, "a".toList, "sub".toList] ["b.xsd".toList]
      ["wd".toList, "folders".toList, "a".toList, "sub".toList, "b.xsd".toList] := .down (by unfold Name; decide) .done
  have h : (match discover (folderEnv subSource "/wd".toList "a".toList) 3 (fun ws => ws) with
      | some (.ok fo) => mapGet fo.schemas "b.xsd"
      | _ => none) = some { attrs := [⟨⟨"", "targetNamespace"⟩, "urn:far"⟩], incl := [], imp := [], annotation := [], rest := 2 } := by
    decide +kernel
  cases hd : discover (folderEnv subSource "/wd".toList "a".toList) 3 (fun ws => ws) with
  | none => rw [hd] at h; cases h
  | some r =>
    cases r with
    | ok fo =>
      rw [hd] at h
      exact ⟨subSource, "/wd".toList, ["wd".toList, "folders".toList, "a".toList],
        ["wd".toList, "folders".toList, "a".toList, "sub".toList, "b.xsd".toList],
        { attrs := [⟨⟨"", "targetNamespace"⟩, "urn:near"⟩], incl := [], imp := [], annotation := [], rest := 1 },
        _, fo, by decide +kernel, ⟨_, _, _, s1, w1, s2, w2⟩, by decide +kernel, hd, h, by decide⟩
    | err m => rw [hd] at h; cases h
    | panic => rw [hd] at h; cases h

end Telefacts
