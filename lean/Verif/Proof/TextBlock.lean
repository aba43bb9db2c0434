import Verif.Spec.TextBlock
import Verif.Proof.Instance
import Verif.Proof.Basic
/-! # Lemmas on sanitised text blocks -/
namespace Telefacts.Text
open Telefacts.Spec Telefacts.Instance

/-! ## Runs -/

theorem tbRun_append (trim : String → String) (a b : List HTok) : ∀ st, tbRun trim st (a ++ b) = (tbRun trim st a).bind fun st => tbRun trim st b := by
  induction a with
  | nil => intro st; rfl
  | cons t ts ih =>
    intro st
    rw [List.cons_append, tbRun, tbRun]
    cases tbStep trim st t with
    | none => rfl
    | some st1 => exact ih st1

theorem tbRun_snoc (trim : String → String) (a : List HTok) (t : HTok) (st : TB) :
    tbRun trim st (a ++ [t]) = (tbRun trim st a).bind fun st => tbStep trim st t := by
  rw [tbRun_append]
  congr 1
  funext st
  rw [tbRun]
  cases tbStep trim st t <;> rfl

theorem starts_snoc (name : String) (a : List HTok) (t : HTok) : starts name (a ++ [t]) = starts name a + starts name [t] := by
  unfold starts; rw [List.countP_append]
theorem ends_snoc (name : String) (a : List HTok) (t : HTok) : ends name (a ++ [t]) = ends name a + ends name [t] := by
  unfold ends; rw [List.countP_append]
/-- The number of cells shown for those of an element. -/
def width (name : String) : List HTok → Nat
  | [] => 0
  | .start n attrs :: ts =>
    (if n = name then (match colspanOf attrs with | some c => max 1 c.toNat | none => 1) else 0) + width name ts
  | _ :: ts => width name ts

theorem colspanOf_iff (attrs : List (String × String)) (c : Int) : colspanOf attrs = some c ↔
    ∃ s, FirstWith (fun a : String × String => a.1 = "colspan") attrs ("colspan", s) ∧ IntLit s c ∧ -(2 ^ 63) ≤ c ∧ c < 2 ^ 63 := by
  have hfw : ∀ a, FirstWith (fun a : String × String => a.1 = "colspan") attrs a ↔
      attrs.find? (fun a => decide (a.1 = "colspan")) = some a := fun a => by
    simpa only [decide_eq_true_eq] using firstWith_iff_find (fun a : String × String => decide (a.1 = "colspan")) attrs a
  unfold colspanOf
  cases hf : attrs.find? (fun a => decide (a.1 = "colspan")) with
  | none =>
    simp only [reduceCtorEq, false_iff]
    rintro ⟨s, h, _⟩
    rw [hfw, hf] at h; simp at h
  | some a =>
    obtain ⟨n, s⟩ := a
    have hn : n = "colspan" := by simpa using List.find?_some hf
    subst hn
    have h1 := (hfw _).2 hf
    simp only [atoi_iff]
    constructor
    · intro h; exact ⟨s, h1, h⟩
    · rintro ⟨s', h, h'⟩
      have := firstWith_unique h h1
      simp only [Prod.mk.injEq, true_and] at this
      rwa [this] at h'

theorem columns_width (attrs : List (String × String)) : Columns attrs (match colspanOf attrs with | some c => max 1 c.toNat | none => 1) := by
  cases h : colspanOf attrs with
  | some c =>
    obtain ⟨s, h1, h2, h3, h4⟩ := (colspanOf_iff attrs c).1 h
    exact .inl ⟨s, c, h1, h2, h3, h4, rfl⟩
  | none =>
    refine .inr ⟨?_, rfl⟩
    intro s c h1 h2
    by_contra hc
    have : colspanOf attrs = some c := (colspanOf_iff attrs c).2 ⟨s, h1, h2, by omega, by omega⟩
    rw [h] at this; simp at this

theorem width_spec (name : String) (toks : List HTok) : Width name toks (width name toks) := by
  induction toks with
  | nil => exact .nil
  | cons t ts ih =>
    cases t with
    | start n attrs =>
      by_cases hn : n = name
      · subst hn
        simp only [width, if_true]
        exact .cell _ _ _ _ (columns_width attrs) ih
      · simp only [width, if_neg hn, Nat.zero_add]
        exact .skip _ _ _ (by intro a h; simp only [HTok.start.injEq] at h; exact hn h.1) ih
    | _ => exact .skip _ _ _ (by simp) ih

theorem width_snoc (name : String) (a : List HTok) (t : HTok) : width name (a ++ [t]) = width name a + width name [t] := by
  induction a with
  | nil => simp [width]
  | cons x xs ih =>
    cases x <;> simp only [List.cons_append, width, ih] <;> omega
theorem texts_snoc (trim : String → String) (a : List HTok) (t : HTok) : texts trim (a ++ [t]) = texts trim a ++ texts trim [t] := by
  induction a with
  | nil => simp [texts]
  | cons x xs ih =>
    cases x <;> simp only [List.cons_append, texts, ih, List.append_assoc]

theorem NoStray.prefix {name : String} {a b : List HTok} (h : NoStray name (a ++ b)) : NoStray name a :=
  fun pre hp => h pre (hp.trans (List.prefix_append a b))

/-! ## Texts are not markup -/

theorem text_ne {s x : String} (h : x.toList.getLast? ≠ some ' ') : s ++ " " ≠ x := by
  rintro rfl
  exact h (by rw [String.toList_append]; simp)

theorem text_not_markup (s : String) : s ++ " " ∉ markup := by
  intro h
  simp only [markup, List.mem_cons, List.not_mem_nil, or_false] at h
  rcases h with h | h | h | h | h | h | h | h | h <;> exact text_ne (by decide) h

/-! ## The stacks -/

/-- A stack made of `n` blocks, each `extra c` copies of some `c ≥ 2`; `t` is its height. -/
inductive Blocks : List Int → Nat → Nat → Prop
  | nil : Blocks [] 0 0
  | block (c rest n t) : 2 ≤ c → Blocks rest n t → Blocks (List.replicate (extra c) c ++ rest) (n + 1) (t + extra c)

theorem extra_pos {c : Int} (h : 2 ≤ c) : 1 ≤ extra c := by unfold extra; omega

theorem pops_replicate (k : Nat) (c : Int) (rest : List Int) : pops k (List.replicate k c ++ rest) = some rest := by
  induction k with
  | zero => rfl
  | succ k ih => rw [List.replicate_succ, List.cons_append, pops, ih]

theorem Blocks.narrow {s : List Int} {n t : Nat} (h : Blocks s n t) (tag : String) :
    (s = [] ∧ n = 0 ∧ t = 0 ∧ Text.narrow tag s = some ([], [])) ∨
    ∃ c rest m t', n = m + 1 ∧ t = t' + extra c ∧ Blocks rest m t' ∧ Text.narrow tag s = some (rest, List.replicate (extra c) tag) := by
  cases h with
  | nil => exact .inl ⟨rfl, rfl, rfl, rfl⟩
  | block c rest m t' hc hb =>
    refine .inr ⟨c, rest, m, t', rfl, rfl, hb, ?_⟩
    have := extra_pos hc
    obtain ⟨k, hk⟩ : ∃ k, extra c = k + 1 := ⟨extra c - 1, by omega⟩
    unfold Text.narrow
    rw [hk, List.replicate_succ, List.cons_append]
    simp only
    rw [hk, ← List.cons_append, ← List.replicate_succ, pops_replicate]
    rfl

theorem Blocks.widen {s : List Int} {n t : Nat} (h : Blocks s n t) (attrs : List (String × String)) (tag : String) :
    ∃ m t', Blocks (Text.widen attrs tag s).1 m t' ∧ m ≤ n + 1 ∧ t' = t + (Text.widen attrs tag s).2.length ∧
      1 + (Text.widen attrs tag s).2.length = (match colspanOf attrs with | some c => max 1 c.toNat | none => 1) := by
  unfold Text.widen
  cases hc : colspanOf attrs with
  | none => exact ⟨n, t, h, by omega, by simp, by simp⟩
  | some c =>
    simp only [List.length_replicate]
    by_cases h2 : 2 ≤ c
    · refine ⟨n + 1, t + extra c, .block c s n t h2 h, by omega, rfl, ?_⟩
      unfold extra; omega
    · have : extra c = 0 := by unfold extra; omega
      rw [this]
      refine ⟨n, t, by simpa using h, by omega, by simp, ?_⟩
      omega

/-- What a token does to the stack of an element and to the numbers of its tags shown. -/
inductive CellMove (name : String) : HTok → List Int × Nat × Nat → List Int × Nat × Nat → Prop
  | opens (attrs tag s o c) : CellMove name (.start name attrs) (s, o, c) ((widen attrs tag s).1, o + 1 + (widen attrs tag s).2.length, c)
  | closes (tag s o c r) : Text.narrow tag s = some r → CellMove name (.finish name) (s, o, c) (r.1, o, c + 1 + r.2.length)
  | skip (t x) : starts name [t] = 0 → ends name [t] = 0 → CellMove name t x x

theorem widen_tags (attrs : List (String × String)) (tag : String) (s : List Int) :
    (widen attrs tag s).2 = List.replicate (widen attrs tag s).2.length tag := by
  unfold widen
  split <;> simp

theorem narrow_tags {tag : String} {s : List Int} {r : List Int × List String} (h : narrow tag s = some r) :
    r.2 = List.replicate r.2.length tag := by
  unfold narrow at h
  split at h
  · cases h; rfl
  · rw [Option.map_eq_some_iff] at h
    obtain ⟨a, _, rfl⟩ := h
    simp

theorem count_text {s x : String} (out : List String) (h : x.toList.getLast? ≠ some ' ') : (out ++ [s ++ " "]).count x = out.count x := by
  rw [List.count_append, List.count_singleton]
  rw [if_neg]
  · rfl
  · simpa using text_ne h

theorem breaks_tds (st : TB) (name : String) : (breaks st name).tds = st.tds ∧ (breaks st name).ths = st.ths ∧
    (breaks st name).disableBr = st.disableBr ∧
    ∀ x, x ≠ "<br /><br />" → (breaks st name).out.count x = st.out.count x := by
  unfold breaks
  split
  · split
    · refine ⟨rfl, rfl, rfl, fun x hx => ?_⟩
      simp only [List.count_append]
      rw [List.count_singleton, if_neg (by simpa using Ne.symm hx)]
      rfl
    · exact ⟨rfl, rfl, rfl, fun _ _ => rfl⟩
  · exact ⟨rfl, rfl, rfl, fun _ _ => rfl⟩

/-- The td part of the state. -/
def tdPart (st : TB) : List Int × Nat × Nat := (st.tds, st.out.count "<td>", st.out.count "</td>")
/-- The th part of the state. -/
def thPart (st : TB) : List Int × Nat × Nat := (st.ths, st.out.count "<th>", st.out.count "</th>")

theorem tbStep_td (trim : String → String) (st st' : TB) (t : HTok) (h : tbStep trim st t = some st') :
    CellMove "td" t (tdPart st) (tdPart st') := by
  cases t with
  | other => cases h; exact .skip _ _ rfl rfl
  | text d =>
    rw [tbStep] at h
    cases h
    have : tdPart (if trim d = "" then st else { st with out := st.out ++ [trim d ++ " "] }) = tdPart st := by
      split
      · rfl
      · unfold tdPart
        simp only
        rw [count_text _ (by decide), count_text _ (by decide)]
    rw [this]
    exact .skip _ _ rfl rfl
  | start n attrs =>
    rw [tbStep] at h
    cases h
    obtain ⟨h1, h2, _, h3⟩ := breaks_tds (openTag st n attrs) n
    unfold tdPart
    rw [h1, h3 _ (by decide), h3 _ (by decide)]
    unfold openTag
    by_cases a1 : n = "table"
    · subst a1; simp [List.count_append, List.count_singleton]; exact .skip _ _ rfl rfl
    by_cases a2 : n = "tr"
    · subst a2; simp [List.count_append, List.count_singleton]; exact .skip _ _ rfl rfl
    by_cases a3 : n = "th"
    · subst a3
      simp only [a1, a2, if_false, if_true]
      rw [List.count_append, List.count_append, List.count_cons, List.count_cons, widen_tags, List.count_replicate, List.count_replicate]
      simp
      exact .skip _ _ rfl rfl
    by_cases a4 : n = "td"
    · subst a4
      simp only [a1, a2, a3, if_false, if_true]
      have e1 : (st.out ++ "<td>" :: (widen attrs "<td>" st.tds).2).count "<td>" =
          st.out.count "<td>" + 1 + (widen attrs "<td>" st.tds).2.length := by
        rw [List.count_append, List.count_cons, widen_tags, List.count_replicate]
        simp; omega
      have e2 : (st.out ++ "<td>" :: (widen attrs "<td>" st.tds).2).count "</td>" = st.out.count "</td>" := by
        rw [List.count_append, List.count_cons, widen_tags, List.count_replicate]
        simp
      rw [e1, e2]
      exact .opens attrs "<td>" _ _ _
    · simp only [a1, a2, a3, a4, if_false]
      exact .skip _ _ (by simp [starts, a4]) rfl
  | finish n =>
    rw [tbStep] at h
    unfold closeTag at h
    unfold tdPart
    by_cases a1 : n = "table"
    · subst a1; simp at h; subst h; simp [List.count_append, List.count_singleton]; exact .skip _ _ rfl rfl
    by_cases a2 : n = "tr"
    · subst a2; simp at h; subst h; simp [List.count_append, List.count_singleton]; exact .skip _ _ rfl rfl
    by_cases a3 : n = "th"
    · subst a3
      simp only [a1, a2, if_false, if_true, Option.map_eq_some_iff] at h
      obtain ⟨r, hr, rfl⟩ := h
      simp only
      rw [List.count_append, List.count_append, List.count_cons, List.count_cons, narrow_tags hr, List.count_replicate, List.count_replicate]
      simp
      exact .skip _ _ rfl rfl
    by_cases a4 : n = "td"
    · subst a4
      simp only [a1, a2, a3, if_false, if_true, Option.map_eq_some_iff] at h
      obtain ⟨r, hr, rfl⟩ := h
      have e1 : (st.out ++ "</td>" :: r.2).count "<td>" = st.out.count "<td>" := by
        rw [List.count_append, List.count_cons, narrow_tags hr, List.count_replicate]
        simp
      have e2 : (st.out ++ "</td>" :: r.2).count "</td>" = st.out.count "</td>" + 1 + r.2.length := by
        rw [List.count_append, List.count_cons, narrow_tags hr, List.count_replicate]
        simp; omega
      simp only
      rw [e1, e2]
      exact .closes "</td>" _ _ _ r hr
    · simp only [a1, a2, a3, a4, if_false, Option.some.injEq] at h
      subst h
      exact .skip _ _ rfl (by simp [ends, a4])

theorem tbStep_th (trim : String → String) (st st' : TB) (t : HTok) (h : tbStep trim st t = some st') :
    CellMove "th" t (thPart st) (thPart st') := by
  cases t with
  | other => cases h; exact .skip _ _ rfl rfl
  | text d =>
    rw [tbStep] at h
    cases h
    have : thPart (if trim d = "" then st else { st with out := st.out ++ [trim d ++ " "] }) = thPart st := by
      split
      · rfl
      · unfold thPart
        simp only
        rw [count_text _ (by decide), count_text _ (by decide)]
    rw [this]
    exact .skip _ _ rfl rfl
  | start n attrs =>
    rw [tbStep] at h
    cases h
    obtain ⟨h1, h2, _, h3⟩ := breaks_tds (openTag st n attrs) n
    unfold thPart
    rw [h2, h3 _ (by decide), h3 _ (by decide)]
    unfold openTag
    by_cases a1 : n = "table"
    · subst a1; simp [List.count_append, List.count_singleton]; exact .skip _ _ rfl rfl
    by_cases a2 : n = "tr"
    · subst a2; simp [List.count_append, List.count_singleton]; exact .skip _ _ rfl rfl
    by_cases a3 : n = "th"
    · subst a3
      simp only [a1, a2, if_false, if_true]
      have e1 : (st.out ++ "<th>" :: (widen attrs "<th>" st.ths).2).count "<th>" =
          st.out.count "<th>" + 1 + (widen attrs "<th>" st.ths).2.length := by
        rw [List.count_append, List.count_cons, widen_tags, List.count_replicate]
        simp; omega
      have e2 : (st.out ++ "<th>" :: (widen attrs "<th>" st.ths).2).count "</th>" = st.out.count "</th>" := by
        rw [List.count_append, List.count_cons, widen_tags, List.count_replicate]
        simp
      rw [e1, e2]
      exact .opens attrs "<th>" _ _ _
    by_cases a4 : n = "td"
    · subst a4
      simp only [a1, a2, a3, if_false, if_true]
      rw [List.count_append, List.count_append, List.count_cons, List.count_cons, widen_tags, List.count_replicate, List.count_replicate]
      simp
      exact .skip _ _ rfl rfl
    · simp only [a1, a2, a3, a4, if_false]
      exact .skip _ _ (by simp [starts, a3]) rfl
  | finish n =>
    rw [tbStep] at h
    unfold closeTag at h
    unfold thPart
    by_cases a1 : n = "table"
    · subst a1; simp at h; subst h; simp [List.count_append, List.count_singleton]; exact .skip _ _ rfl rfl
    by_cases a2 : n = "tr"
    · subst a2; simp at h; subst h; simp [List.count_append, List.count_singleton]; exact .skip _ _ rfl rfl
    by_cases a3 : n = "th"
    · subst a3
      simp only [a1, a2, if_false, if_true, Option.map_eq_some_iff] at h
      obtain ⟨r, hr, rfl⟩ := h
      have e1 : (st.out ++ "</th>" :: r.2).count "<th>" = st.out.count "<th>" := by
        rw [List.count_append, List.count_cons, narrow_tags hr, List.count_replicate]
        simp
      have e2 : (st.out ++ "</th>" :: r.2).count "</th>" = st.out.count "</th>" + 1 + r.2.length := by
        rw [List.count_append, List.count_cons, narrow_tags hr, List.count_replicate]
        simp; omega
      simp only
      rw [e1, e2]
      exact .closes "</th>" _ _ _ r hr
    by_cases a4 : n = "td"
    · subst a4
      simp only [a1, a2, a3, if_false, if_true, Option.map_eq_some_iff] at h
      obtain ⟨r, hr, rfl⟩ := h
      simp only
      rw [List.count_append, List.count_append, List.count_cons, List.count_cons, narrow_tags hr, List.count_replicate, List.count_replicate]
      simp
      exact .skip _ _ rfl rfl
    · simp only [a1, a2, a3, a4, if_false, Option.some.injEq] at h
      subst h
      exact .skip _ _ rfl (by simp [ends, a3])

/-- The invariant of the stack and the tags of an element. -/
def CellInv (name : String) (toks : List HTok) (x : List Int × Nat × Nat) : Prop :=
  ∃ n t, Blocks x.1 n t ∧ x.2.1 = width name toks ∧ x.2.2 + t + starts name toks = ends name toks + width name toks ∧
    (NoStray name toks → n + ends name toks ≤ starts name toks)

theorem CellInv.nil (name : String) : CellInv name [] ([], 0, 0) :=
  ⟨0, 0, .nil, rfl, rfl, fun _ => by simp [ends, starts]⟩

theorem width_skip {name : String} {t : HTok} (h : starts name [t] = 0) : width name [t] = 0 := by
  cases t with
  | start n attrs =>
    have : ¬ n = name := by simpa [starts] using h
    simp [width, this]
  | _ => simp [width]

theorem CellInv.step {name : String} {toks : List HTok} {t : HTok} {x y : List Int × Nat × Nat} (h : CellInv name toks x)
    (hm : CellMove name t x y) : CellInv name (toks ++ [t]) y := by
  obtain ⟨n, k, h1, h2, h3, h4⟩ := h
  unfold CellInv
  rw [starts_snoc, ends_snoc, width_snoc]
  cases hm with
  | skip _ _ hs he =>
    rw [hs, he, width_skip hs]
    exact ⟨n, k, h1, h2, h3, fun hn => h4 hn.prefix⟩
  | opens attrs tag s o c =>
    obtain ⟨m, k', w1, w2, w3, w4⟩ := h1.widen attrs tag
    simp only at h2 h3 w1 w3 w4 ⊢
    have es : starts name [.start name attrs] = 1 := by simp [starts]
    have ee : ends name [.start name attrs] = 0 := by simp [ends]
    have ew : width name [.start name attrs] = 1 + (widen attrs tag s).2.length := by simp only [width, if_true, Nat.add_zero]; exact w4.symm
    rw [es, ee, ew]
    refine ⟨m, k', w1, by omega, by omega, fun hn => ?_⟩
    have := h4 hn.prefix
    omega
  | closes tag s o c r hr =>
    simp only at h1 h2 h3 ⊢
    have es : starts name [.finish name] = 0 := by simp [starts]
    have ee : ends name [.finish name] = 1 := by simp [ends]
    have ew : width name [.finish name] = 0 := by simp [width]
    rcases h1.narrow tag with ⟨b1, b2, b3, b4⟩ | ⟨d, rest, m, k', b1, b2, b3, b4⟩
    · rw [hr] at b4
      cases b4
      rw [es, ee, ew]
      refine ⟨0, 0, .nil, by simpa using h2, by simp; omega, fun hn => ?_⟩
      have := hn (toks ++ [.finish name]) (List.prefix_refl _)
      rw [ends_snoc, starts_snoc, es, ee] at this
      omega
    · rw [hr] at b4
      cases b4
      rw [es, ee, ew]
      refine ⟨m, k', b3, by simpa using h2, by simp; omega, fun hn => ?_⟩
      have := h4 hn.prefix
      omega

/-! ## What a token shows -/

/-- The strings shown for a start tag, given the difference of the numbers of table start tags and end tags before. -/
def startPieces (depth : Int) (name : String) (attrs : List (String × String)) : List String :=
  (if name = "table" then ["<table>"] else if name = "tr" then ["<tr>"]
    else if name = "th" then "<th>" :: (widen attrs "<th>" []).2
    else if name = "td" then "<td>" :: (widen attrs "<td>" []).2 else []) ++
  (if depth ≤ 0 ∧ name ∈ blockElems then ["<br /><br />"] else [])

theorem widen_snd (attrs : List (String × String)) (tag : String) (s : List Int) : (widen attrs tag s).2 = (widen attrs tag []).2 := by
  unfold widen; split <;> rfl

theorem step_start (trim : String → String) (st : TB) (n : String) (attrs : List (String × String)) :
    (tbStep trim st (.start n attrs)).map TB.out = some (st.out ++ startPieces st.disableBr n attrs) := by
  rw [tbStep, Option.map_some]
  congr 1
  unfold startPieces breaks openTag
  by_cases a1 : n = "table"
  · subst a1
    simp [blockElems]
  by_cases a2 : n = "tr"
  · subst a2; simp [blockElems]
  by_cases a3 : n = "th"
  · subst a3; simp [blockElems]; exact widen_snd _ _ _
  by_cases a4 : n = "td"
  · subst a4; simp [blockElems]; exact widen_snd _ _ _
  simp only [a1, a2, a3, a4, if_false]
  by_cases h : st.disableBr ≤ 0
  · by_cases h' : n ∈ blockElems
    · simp [h, h']
    · simp [h, h']
  · simp [h]

theorem step_depth (trim : String → String) (st st' : TB) (t : HTok) (h : tbStep trim st t = some st') :
    st'.disableBr = st.disableBr + starts "table" [t] - ends "table" [t] := by
  cases t with
  | other => cases h; simp [starts, ends]
  | text d =>
    rw [tbStep] at h
    cases h
    split <;> simp [starts, ends]
  | start n attrs =>
    rw [tbStep] at h
    cases h
    rw [(breaks_tds _ _).2.2.1]
    unfold openTag
    by_cases a1 : n = "table"
    · subst a1; simp [starts, ends]
    · simp only [a1, if_false]
      split
      · simp [starts, ends, a1]
      · split
        · simp [starts, ends, a1]
        · split <;> simp [starts, ends, a1]
  | finish n =>
    rw [tbStep] at h
    unfold closeTag at h
    by_cases a1 : n = "table"
    · subst a1; simp at h; subst h; simp [starts, ends]
    · simp only [a1, if_false] at h
      have e : (starts "table" [.finish n] : Int) = 0 := by simp [starts]
      have e' : (ends "table" [.finish n] : Int) = 0 := by simp [ends, a1]
      rw [e, e']
      split at h
      · cases h; simp
      · split at h
        · rw [Option.map_eq_some_iff] at h; obtain ⟨r, _, rfl⟩ := h; simp
        · split at h
          · rw [Option.map_eq_some_iff] at h; obtain ⟨r, _, rfl⟩ := h; simp
          · cases h; simp

/-- The strings added by a token that is not a start tag. -/
theorem step_finish_out (trim : String → String) (st st' : TB) (n : String) (h : tbStep trim st (.finish n) = some st') :
    ∃ d, st'.out = st.out ++ d ∧ ∀ x ∈ d, x ∈ ["</table>", "</tr>", "</th>", "</td>"] := by
  rw [tbStep] at h
  unfold closeTag at h
  split at h
  · cases h; exact ⟨_, rfl, by simp⟩
  · split at h
    · cases h; exact ⟨_, rfl, by simp⟩
    · split at h
      · rw [Option.map_eq_some_iff] at h
        obtain ⟨r, hr, rfl⟩ := h
        refine ⟨_, rfl, ?_⟩
        rw [narrow_tags hr]
        intro x hx
        rcases List.mem_cons.1 hx with rfl | hx
        · simp
        · rw [List.eq_of_mem_replicate hx]; simp
      · split at h
        · rw [Option.map_eq_some_iff] at h
          obtain ⟨r, hr, rfl⟩ := h
          refine ⟨_, rfl, ?_⟩
          rw [narrow_tags hr]
          intro x hx
          rcases List.mem_cons.1 hx with rfl | hx
          · simp
          · rw [List.eq_of_mem_replicate hx]; simp
        · cases h; exact ⟨[], by simp, by simp⟩

theorem startPieces_markup (depth : Int) (n : String) (attrs : List (String × String)) :
    ∀ x ∈ startPieces depth n attrs, x ∈ markup := by
  intro x hx
  unfold startPieces at hx
  rw [List.mem_append] at hx
  rcases hx with hx | hx
  · split at hx
    · simp [markup] at hx ⊢; simp [hx]
    · split at hx
      · simp [markup] at hx ⊢; simp [hx]
      · split at hx
        · rw [widen_tags] at hx
          rcases List.mem_cons.1 hx with rfl | hx
          · simp [markup]
          · rw [List.eq_of_mem_replicate hx]; simp [markup]
        · split at hx
          · rw [widen_tags] at hx
            rcases List.mem_cons.1 hx with rfl | hx
            · simp [markup]
            · rw [List.eq_of_mem_replicate hx]; simp [markup]
          · simp at hx
  · split at hx
    · simp [markup] at hx ⊢; simp [hx]
    · simp at hx

theorem startPieces_br (depth : Int) (n : String) (attrs : List (String × String)) :
    "<br /><br />" ∈ startPieces depth n attrs ↔ depth ≤ 0 ∧ n ∈ blockElems := by
  unfold startPieces
  rw [List.mem_append]
  constructor
  · rintro (hx | hx)
    · exfalso
      split at hx
      · simp at hx
      · split at hx
        · simp at hx
        · split at hx
          · rw [widen_tags] at hx
            rcases List.mem_cons.1 hx with hx | hx
            · simp at hx
            · have := List.eq_of_mem_replicate hx; simp at this
          · split at hx
            · rw [widen_tags] at hx
              rcases List.mem_cons.1 hx with hx | hx
              · simp at hx
              · have := List.eq_of_mem_replicate hx; simp at this
            · simp at hx
    · split at hx
      · assumption
      · simp at hx
  · intro h; right; rw [if_pos h]; simp

/-- What one token adds. -/
theorem step_out (trim : String → String) (st st' : TB) (t : HTok) (h : tbStep trim st t = some st') :
    ∃ d, st'.out = st.out ++ d ∧ d.filter (fun x => !markup.contains x) = texts trim [t] ∧
      ("<br /><br />" ∈ d ↔ ∃ n attrs, t = .start n attrs ∧ n ∈ blockElems ∧ st.disableBr ≤ 0) := by
  cases t with
  | other => cases h; exact ⟨[], by simp, by simp [texts], by simp⟩
  | text s =>
    rw [tbStep] at h
    cases h
    by_cases e : trim s = ""
    · rw [if_pos e]; exact ⟨[], by simp, by simp [texts, e], by simp⟩
    · rw [if_neg e]
      refine ⟨[trim s ++ " "], rfl, ?_, ?_⟩
      · rw [texts, if_neg e, List.filter_cons, if_pos (by simpa using text_not_markup (trim s))]
        simp [texts]
      · simp only [List.mem_singleton, reduceCtorEq, false_and, exists_false, iff_false]
        exact fun he => text_ne (s := trim s) (x := "<br /><br />") (by decide) he.symm
  | start n attrs =>
    have := step_start trim st n attrs
    rw [h, Option.map_some, Option.some.injEq] at this
    refine ⟨_, this, ?_, ?_⟩
    · simp only [texts]; rw [List.filter_eq_nil_iff]
      intro x hx
      simpa using startPieces_markup _ _ _ x hx
    · rw [startPieces_br]
      constructor
      · rintro ⟨a, b⟩; exact ⟨n, attrs, rfl, b, a⟩
      · rintro ⟨_, _, e, b, a⟩; cases e; exact ⟨a, b⟩
  | finish n =>
    obtain ⟨d, hd, hm⟩ := step_finish_out trim st st' n h
    refine ⟨d, hd, ?_, ?_⟩
    · simp only [texts]; rw [List.filter_eq_nil_iff]
      intro x hx
      have := hm x hx
      simp only [List.mem_cons, List.not_mem_nil, or_false] at this
      rcases this with rfl | rfl | rfl | rfl <;> simp [markup]
    · simp only [reduceCtorEq, false_and, exists_false, iff_false]
      intro hx
      have := hm _ hx
      simp at this

theorem step_total (trim : String → String) (st : TB) (t : HTok) {n k n' k' : Nat} (h : Blocks st.tds n k) (h' : Blocks st.ths n' k') :
    ∃ st', tbStep trim st t = some st' := by
  cases t with
  | finish nm =>
    rw [tbStep]
    unfold closeTag
    split
    · exact ⟨_, rfl⟩
    · split
      · exact ⟨_, rfl⟩
      · split
        · rcases h'.narrow "</th>" with ⟨_, _, _, e⟩ | ⟨_, _, _, _, _, _, _, e⟩ <;> rw [e] <;> exact ⟨_, rfl⟩
        · split
          · rcases h.narrow "</td>" with ⟨_, _, _, e⟩ | ⟨_, _, _, _, _, _, _, e⟩ <;> rw [e] <;> exact ⟨_, rfl⟩
          · exact ⟨_, rfl⟩
  | _ => exact ⟨_, rfl⟩

/-- All invariants of a run; in particular the run does not panic. -/
theorem tbRun_inv (trim : String → String) (toks : List HTok) : ∃ st, tbRun trim tbStart toks = some st ∧
    CellInv "td" toks (tdPart st) ∧ CellInv "th" toks (thPart st) ∧
    st.disableBr = (starts "table" toks : Int) - ends "table" toks ∧
    st.out.filter (fun x => !markup.contains x) = texts trim toks := by
  induction toks using snocInd with
  | nil => exact ⟨tbStart, rfl, CellInv.nil _, CellInv.nil _, rfl, rfl⟩
  | snoc l t ih =>
    obtain ⟨st, h0, h1, h2, h3, h5⟩ := ih
    obtain ⟨_, _, b1, _⟩ := id h1
    obtain ⟨_, _, b2, _⟩ := id h2
    obtain ⟨st', hs⟩ := step_total trim st t b1 b2
    refine ⟨st', ?_, h1.step (tbStep_td trim st st' t hs), h2.step (tbStep_th trim st st' t hs), ?_, ?_⟩
    · rw [tbRun_snoc, h0]; exact hs
    · rw [step_depth trim st st' t hs, h3, starts_snoc, ends_snoc]; omega
    · obtain ⟨d, hd, hf, _⟩ := step_out trim st st' t hs
      rw [hd, List.filter_append, h5, hf, texts_snoc]

theorem openTables_snoc (l : List HTok) (t : HTok) : openTables (l ++ [t]) =
    (match t with
    | .start name _ => if name = "table" then openTables l + 1 else openTables l
    | .finish name => if name = "table" then openTables l - 1 else openTables l
    | _ => openTables l) := by
  unfold openTables
  rw [List.foldl_append]
  rfl

theorem openTables_eq {toks : List HTok} (h : NoStray "table" toks) : openTables toks + ends "table" toks = starts "table" toks := by
  induction toks using snocInd with
  | nil => rfl
  | snoc l t ih =>
    have i := ih h.prefix
    have hp := h _ (List.prefix_refl _)
    rw [openTables_snoc]
    rw [ends_snoc, starts_snoc] at hp ⊢
    cases t with
    | start n a =>
      by_cases e : n = "table"
      · subst e
        have : starts "table" [.start "table" a] = 1 := by simp [starts]
        have : ends "table" [.start "table" a] = 0 := by simp [ends]
        simp only [if_true]; omega
      · have : starts "table" [.start n a] = 0 := by simp [starts, e]
        have : ends "table" [.start n a] = 0 := by simp [ends]
        simp only [e, if_false]; omega
    | finish n =>
      by_cases e : n = "table"
      · subst e
        have : starts "table" [.finish "table"] = 0 := by simp [starts]
        have : ends "table" [.finish "table"] = 1 := by simp [ends]
        simp only [if_true]; omega
      · have : starts "table" [.finish n] = 0 := by simp [starts]
        have : ends "table" [.finish n] = 0 := by simp [ends, e]
        simp only [e, if_false]; omega
    | text d => simpa [starts, ends] using i
    | other => simpa [starts, ends] using i

theorem CellInv.no_stray {name : String} {toks : List HTok} {x : List Int × Nat × Nat} (h : CellInv name toks x) (hn : NoStray name toks) :
    x.2.2 ≤ x.2.1 := by
  obtain ⟨n, t, _, h1, h2, h3⟩ := h
  have := hn _ (List.prefix_refl _)
  omega

theorem CellInv.balanced {name : String} {toks : List HTok} {x : List Int × Nat × Nat} (h : CellInv name toks x) (hn : Balanced name toks) :
    x.2.1 = width name toks ∧ x.2.2 = width name toks := by
  obtain ⟨s, o, c⟩ := x
  obtain ⟨n, t, b, h1, h2, h3⟩ := h
  simp only at b h1 h2 ⊢
  have e1 := h3 hn.1
  have e2 := hn.2
  have e3 : n = 0 := by omega
  subst e3
  cases b
  exact ⟨h1, by omega⟩

end Telefacts.Text
