import Verif.Spec.Tables
import Verif.Props.TextBlock
/-! # C159, C160: tables of text blocks -/
namespace Telefacts
open Telefacts.Text Telefacts.Spec Telefacts.Instance

theorem texts_append (trim : String → String) (a b : List HTok) : texts trim (a ++ b) = texts trim a ++ texts trim b := by
  induction a with
  | nil => rfl
  | cons x xs ih => cases x <;> simp only [List.cons_append, texts, ih, List.append_assoc]

/-- Inside a table. -/
structure Inside (st : TB) (d : Int) (out : List String) : Prop where
  depth : st.disableBr = d
  ths : st.ths = []
  tds : st.tds = []
  out : st.out = out

theorem columns_unique {attrs : List (String × String)} {k : Nat} (h : Columns attrs k) :
    k = (match colspanOf attrs with | some c => max 1 c.toNat | none => 1) := by
  rcases h with ⟨s, c, h1, h2, h3, h4, rfl⟩ | ⟨h, rfl⟩
  · rw [(colspanOf_iff attrs c).2 ⟨s, h1, h2, h3, h4⟩]
  · cases hc : colspanOf attrs with
    | none => rfl
    | some c =>
      obtain ⟨s, h1, h2, h3, h4⟩ := (colspanOf_iff attrs c).1 hc
      rcases h s c h1 h2 with h | h <;> omega

theorem plain_step (trim : String → String) {st : TB} {d : Int} (hd : 1 ≤ d) (he : st.disableBr = d) {t : HTok} (ht : Plain t) :
    tbStep trim st t = some { st with out := st.out ++ texts trim [t] } := by
  cases t with
  | start n a =>
    simp only [Plain, List.mem_cons, List.not_mem_nil, or_false, not_or] at ht
    obtain ⟨h1, h2, h3, h4⟩ := ht
    have hb : ¬ st.disableBr ≤ 0 := by omega
    simp only [tbStep, openTag, breaks, if_neg h1, if_neg h2, if_neg h3, if_neg h4, if_neg hb, texts, List.append_nil]
  | finish n =>
    simp only [Plain, List.mem_cons, List.not_mem_nil, or_false, not_or] at ht
    obtain ⟨h1, h2, h3, h4⟩ := ht
    simp only [tbStep, closeTag, if_neg h1, if_neg h2, if_neg h3, if_neg h4, texts, List.append_nil]
  | text s =>
    simp only [tbStep, texts, List.append_nil]
    split
    · simp
    · rfl
  | other => simp [tbStep, texts]

theorem plain_run (trim : String → String) {d : Int} (hd : 1 ≤ d) (toks : List HTok) (ht : ∀ t ∈ toks, Plain t) :
    ∀ st : TB, st.disableBr = d → tbRun trim st toks = some { st with out := st.out ++ texts trim toks } := by
  induction toks with
  | nil => intro st _; simp [tbRun, texts]
  | cons t ts ih =>
    intro st he
    rw [tbRun, plain_step trim hd he (ht t List.mem_cons_self), Option.bind_some,
      ih (fun x hx => ht x (List.mem_cons_of_mem _ hx)) { st with out := st.out ++ texts trim [t] } he]
    have := texts_append trim [t] ts
    rw [List.singleton_append] at this
    rw [this, List.append_assoc]

theorem widen_nil (attrs : List (String × String)) {k : Nat} (h : Columns attrs k) (tag : String) :
    ∃ c : Int, extra c = k - 1 ∧ 1 ≤ k ∧ widen attrs tag [] = (List.replicate (k - 1) c, List.replicate (k - 1) tag) := by
  have hk := columns_unique h
  unfold widen
  cases hc : colspanOf attrs with
  | none =>
    rw [hc] at hk
    simp only at hk
    subst hk
    exact ⟨1, rfl, by omega, rfl⟩
  | some c =>
    rw [hc] at hk
    simp only at hk
    have he : extra c = k - 1 := by unfold extra; omega
    exact ⟨c, he, by omega, by simp [he]⟩

theorem narrow_block (tag : String) (k : Nat) (c : Int) (he : extra c = k) :
    narrow tag (List.replicate k c) = some ([], List.replicate k tag) := by
  cases k with
  | zero => rfl
  | succ k =>
    rw [List.replicate_succ, narrow, he, ← List.replicate_succ]
    have := pops_replicate (k + 1) c []
    rw [List.append_nil] at this
    rw [this]
    rfl

theorem cons_replicate (k : Nat) (hk : 1 ≤ k) (x : String) : x :: List.replicate (k - 1) x = List.replicate k x := by
  rw [← List.replicate_succ]; congr 1; omega

theorem cell_run (trim : String → String) {d : Int} (hd : 1 ≤ d) (c : Cell) (hc : c.Ok) (st : TB) (out : List String)
    (hs : Inside st d out) : ∃ st', tbRun trim st c.tokens = some st' ∧ Inside st' d (out ++ c.shown trim) := by
  obtain ⟨h1, h2, h3, h4⟩ := hs
  obtain ⟨heading, attrs, span, content, after⟩ := c
  obtain ⟨hspan, hcont, haft⟩ := hc
  simp only at hspan hcont haft
  obtain ⟨db, ths, tds, o⟩ := st
  simp only at h1 h2 h3 h4
  subst h1 h2 h3 h4
  have hb : ¬ db ≤ 0 := by omega
  cases heading with
  | true =>
    obtain ⟨w, e1, e2, e3⟩ := widen_nil attrs hspan "<th>"
    have s1 : tbStep trim ⟨db, [], [], o⟩ (.start "th" attrs) =
        some ⟨db, List.replicate (span - 1) w, [], o ++ List.replicate span "<th>"⟩ := by
      simp only [tbStep, openTag, breaks, if_neg hb, e3, if_neg (show ¬ "th" = "table" by decide),
        if_neg (show ¬ "th" = "tr" by decide), if_true, cons_replicate span e2]
    have s2 := plain_run trim hd content hcont ⟨db, List.replicate (span - 1) w, [], o ++ List.replicate span "<th>"⟩ rfl
    have s3 : tbStep trim ⟨db, List.replicate (span - 1) w, [], o ++ List.replicate span "<th>" ++ texts trim content⟩ (.finish "th") =
        some ⟨db, [], [], o ++ List.replicate span "<th>" ++ texts trim content ++ List.replicate span "</th>"⟩ := by
      simp only [tbStep, closeTag, if_neg (show ¬ "th" = "table" by decide),
        if_neg (show ¬ "th" = "tr" by decide), if_true, narrow_block _ _ w e1, Option.map_some, cons_replicate span e2]
    have s4 := plain_run trim hd after haft
      ⟨db, [], [], o ++ List.replicate span "<th>" ++ texts trim content ++ List.replicate span "</th>"⟩ rfl
    refine ⟨_, Eq.trans ?_ s4, ⟨rfl, rfl, rfl, ?_⟩⟩
    · unfold Cell.tokens Cell.name
      simp only [if_true, List.cons_append]
      rw [tbRun, s1, Option.bind_some, tbRun_append, s2, Option.bind_some, tbRun, s3, Option.bind_some]
    · simp [Cell.shown]
  | false =>
    obtain ⟨w, e1, e2, e3⟩ := widen_nil attrs hspan "<td>"
    have s1 : tbStep trim ⟨db, [], [], o⟩ (.start "td" attrs) =
        some ⟨db, [], List.replicate (span - 1) w, o ++ List.replicate span "<td>"⟩ := by
      simp only [tbStep, openTag, breaks, if_neg hb, e3, if_neg (show ¬ "td" = "table" by decide),
        if_neg (show ¬ "td" = "tr" by decide), if_neg (show ¬ "td" = "th" by decide), if_true, cons_replicate span e2]
    have s2 := plain_run trim hd content hcont ⟨db, [], List.replicate (span - 1) w, o ++ List.replicate span "<td>"⟩ rfl
    have s3 : tbStep trim ⟨db, [], List.replicate (span - 1) w, o ++ List.replicate span "<td>" ++ texts trim content⟩ (.finish "td") =
        some ⟨db, [], [], o ++ List.replicate span "<td>" ++ texts trim content ++ List.replicate span "</td>"⟩ := by
      simp only [tbStep, closeTag, if_neg (show ¬ "td" = "table" by decide),
        if_neg (show ¬ "td" = "tr" by decide), if_neg (show ¬ "td" = "th" by decide), if_true, narrow_block _ _ w e1, Option.map_some,
        cons_replicate span e2]
    have s4 := plain_run trim hd after haft
      ⟨db, [], [], o ++ List.replicate span "<td>" ++ texts trim content ++ List.replicate span "</td>"⟩ rfl
    refine ⟨_, Eq.trans ?_ s4, ⟨rfl, rfl, rfl, ?_⟩⟩
    · unfold Cell.tokens Cell.name
      simp only [Bool.false_eq_true, if_false, List.cons_append]
      rw [tbRun, s1, Option.bind_some, tbRun_append, s2, Option.bind_some, tbRun, s3, Option.bind_some]
    · simp [Cell.shown]

theorem cells_run (trim : String → String) {d : Int} (hd : 1 ≤ d) (cs : List Cell) (hc : ∀ c ∈ cs, c.Ok) :
    ∀ (st : TB) (out : List String), Inside st d out →
      ∃ st', tbRun trim st (cs.flatMap Cell.tokens) = some st' ∧ Inside st' d (out ++ cs.flatMap (Cell.shown trim)) := by
  induction cs with
  | nil => intro st out hs; exact ⟨st, rfl, by simpa using hs⟩
  | cons c cs ih =>
    intro st out hs
    obtain ⟨st1, h1, h2⟩ := cell_run trim hd c (hc c List.mem_cons_self) st out hs
    obtain ⟨st2, h3, h4⟩ := ih (fun x hx => hc x (List.mem_cons_of_mem _ hx)) st1 _ h2
    refine ⟨st2, ?_, by simpa using h4⟩
    rw [List.flatMap_cons, tbRun_append, h1, Option.bind_some, h3]

theorem row_run (trim : String → String) {d : Int} (hd : 1 ≤ d) (r : Row) (hr : r.Ok) (st : TB) (out : List String)
    (hs : Inside st d out) : ∃ st', tbRun trim st r.tokens = some st' ∧ Inside st' d (out ++ r.shown trim) := by
  have hb : ¬ st.disableBr ≤ 0 := by rw [hs.depth]; omega
  have s1 : tbStep trim st (.start "tr" r.attrs) = some { st with out := st.out ++ ["<tr>"] } := by
    simp only [tbStep, openTag, breaks, if_neg hb, if_neg (show ¬ "tr" = "table" by decide), if_true]
  have s2 := plain_run trim hd r.before hr.before { st with out := st.out ++ ["<tr>"] } hs.depth
  obtain ⟨st3, s3, i3⟩ := cells_run trim hd r.cells hr.cells { st with out := st.out ++ ["<tr>"] ++ texts trim r.before }
    (out ++ ["<tr>"] ++ texts trim r.before) ⟨hs.depth, hs.ths, hs.tds, by simp [hs.out]⟩
  have s4 : tbStep trim st3 (.finish "tr") = some { st3 with out := st3.out ++ ["</tr>"] } := by
    simp only [tbStep, closeTag, if_neg (show ¬ "tr" = "table" by decide), if_true]
  have s5 := plain_run trim hd r.after hr.after { st3 with out := st3.out ++ ["</tr>"] } i3.depth
  refine ⟨_, Eq.trans ?_ s5, ⟨?_, ?_, ?_, ?_⟩⟩
  · unfold Row.tokens
    rw [List.cons_append, List.cons_append, tbRun, s1, Option.bind_some, List.append_assoc, tbRun_append, s2, Option.bind_some, tbRun_append,
      s3, Option.bind_some, tbRun, s4, Option.bind_some]
  · exact i3.depth
  · exact i3.ths
  · exact i3.tds
  · simp [i3.out, Row.shown]

theorem rows_run (trim : String → String) {d : Int} (hd : 1 ≤ d) (rs : List Row) (hr : ∀ r ∈ rs, r.Ok) :
    ∀ (st : TB) (out : List String), Inside st d out →
      ∃ st', tbRun trim st (rs.flatMap Row.tokens) = some st' ∧ Inside st' d (out ++ rs.flatMap (Row.shown trim)) := by
  induction rs with
  | nil => intro st out hs; exact ⟨st, rfl, by simpa using hs⟩
  | cons r rs ih =>
    intro st out hs
    obtain ⟨st1, h1, h2⟩ := row_run trim hd r (hr r List.mem_cons_self) st out hs
    obtain ⟨st2, h3, h4⟩ := ih (fun x hx => hr x (List.mem_cons_of_mem _ hx)) st1 _ h2
    refine ⟨st2, ?_, by simpa using h4⟩
    rw [List.flatMap_cons, tbRun_append, h1, Option.bind_some, h3]

/-- **C159**, partially: a table without tables in its cells is shown row by row and cell by cell, a cell as many columns wide as its
`colspan` says, with its text in the last of them. Missing: tables in cells (`C159_nested_fails`), and cells that span rows
(`C159_rows_fails`). -/
theorem C159_table_partial (trim : String → String) (attrs : List (String × String)) (before : List HTok) (hb : ∀ t ∈ before, Plain t)
    (rows : List Row) (hr : ∀ r ∈ rows, r.Ok) :
    sanitize trim (tableTokens attrs before rows) = some (tableShown trim before rows) := by
  have s1 : tbStep trim tbStart (.start "table" attrs) = some ⟨1, [], [], ["<table>"]⟩ := by
    simp [tbStep, openTag, breaks, tbStart]
  have s2 := plain_run trim (d := 1) (by omega) before hb ⟨1, [], [], ["<table>"]⟩ rfl
  obtain ⟨st3, s3, i3⟩ := rows_run trim (d := 1) (by omega) rows hr ⟨1, [], [], ["<table>"] ++ texts trim before⟩
    (["<table>"] ++ texts trim before) ⟨rfl, rfl, rfl, rfl⟩
  have s4 : tbStep trim st3 (.finish "table") = some { st3 with disableBr := st3.disableBr - 1, out := st3.out ++ ["</table>"] } := by
    simp only [tbStep, closeTag, if_true]
  unfold sanitize tableTokens
  rw [List.cons_append, List.cons_append, tbRun, s1, Option.bind_some, List.append_assoc, tbRun_append, s2, Option.bind_some, tbRun_append,
    s3, Option.bind_some, tbRun, s4, Option.bind_some, tbRun, Option.map_some]
  simp [i3.out, tableShown]

/-- **C159 fails**: a cell in a table in a cell that spans two columns is closed once for each of those, and so ends the outer cell. -/
theorem C159_nested_fails (trim : String → String) (hx : trim "x" = "x") (hy : trim "y" = "y") :
    sanitize trim (tableTokens [] [] [⟨[], [], [⟨false, [("colspan", "2")], 2,
      tableTokens [] [] [⟨[], [], [⟨false, [], 1, [.text "x"], []⟩], []⟩] ++ [.text "y"], []⟩], []⟩]) =
    some ["<table>", "<tr>", "<td>", "<td>", "<table>", "<tr>", "<td>", "x ", "</td>", "</td>", "</tr>", "</table>", "y ", "</td>", "</tr>",
      "</table>"] := by
  have e : colspanOf [("colspan", "2")] = some 2 := by decide
  have e' : colspanOf [] = none := rfl
  have ex : extra 2 = 1 := rfl
  simp [tableTokens, Row.tokens, Cell.tokens, Cell.name, sanitize, tbRun, tbStep, tbStart, openTag, closeTag, breaks, widen, narrow, pops, e, e', ex,
    hx, hy]

theorem spans_only (attrs : List (String × String)) : colspanOf (attrs.filter fun a => decide (a.1 = "colspan")) = colspanOf attrs := by
  unfold colspanOf
  rw [List.find?_filter]
  simp

/-- **C159 fails**: no attribute but `colspan` has an effect; a cell that spans rows is shown like one that does not, and the cells beside
its lower rows are shown in its column. -/
theorem C159_rows_fails (trim : String → String) (toks : List HTok) : sanitize trim (onlySpans toks) = sanitize trim toks := by
  have step : ∀ st t, tbStep trim st (match t with
      | .start n attrs => .start n (attrs.filter fun a => decide (a.1 = "colspan"))
      | t => t) = tbStep trim st t := by
    intro st t
    cases t with
    | start n attrs => simp only [tbStep, openTag, widen, spans_only]
    | _ => rfl
  have run : ∀ toks st, tbRun trim st (onlySpans toks) = tbRun trim st toks := by
    intro toks
    induction toks with
    | nil => intro st; rfl
    | cons t ts ih =>
      intro st
      show tbRun trim st (_ :: onlySpans ts) = _
      rw [tbRun, tbRun]
      refine Eq.trans (congrArg (Option.bind · _) (step st t)) ?_
      congr 1
      funext st
      exact ih st
  unfold sanitize
  rw [run]

/-- A row with a heading of two columns and a cell. -/
def twoCells : Row := ⟨[], [.text " "], [⟨true, [("colspan", "2")], 2, [.start "b" [], .text "a", .finish "b"], []⟩, ⟨false, [("class", "n")], 1, [.text "b"], [.text " "]⟩], []⟩

example : twoCells.Ok ∧ (sanitize id (tableTokens [] [] [twoCells])).isSome ∧
    twoCells.shown id = ["<tr>", "  ", "<th>", "<th>", "a ", "</th>", "</th>", "<td>", "b ", "</td>", "  ", "</tr>"] := by
  refine ⟨⟨?_, ?_, ?_⟩, by decide +kernel, by decide +kernel⟩
  · intro t ht
    simp only [twoCells, List.mem_singleton] at ht
    subst ht
    trivial
  · intro c hc
    simp only [twoCells, List.mem_cons, List.not_mem_nil, or_false] at hc
    rcases hc with rfl | rfl
    · refine ⟨columns_width [("colspan", "2")], ?_, ?_⟩
      · intro t ht
        simp only [List.mem_cons, List.not_mem_nil, or_false] at ht
        rcases ht with rfl | rfl | rfl <;> simp [Plain]
      · intro t ht
        simp at ht
    · refine ⟨columns_width [("class", "n")], ?_, ?_⟩
      · intro t ht
        simp only [List.mem_singleton] at ht
        subst ht
        trivial
      · intro t ht
        simp only [List.mem_singleton] at ht
        subst ht
        trivial
  · intro t ht
    simp [twoCells] at ht

/-- A cell over two rows is shown like a cell in one. -/
example : onlySpans [.start "td" [("rowspan", "2")]] = onlySpans [.start "td" []] := rfl

/-! ## C160 -/

/-- **C160 fails**: a text block of one tag is shown with more than nine trillion times a million cells. -/
theorem C160_fails (trim : String → String) (out : List String)
    (h : sanitize trim [.start "td" [("colspan", "9223372036854775807")]] = some out) : out.count "<td>" = 9223372036854775807 := by
  obtain ⟨st, h0, ⟨_, _, _, h1, _⟩, _⟩ := tbRun_inv trim [.start "td" [("colspan", "9223372036854775807")]]
  rw [sanitize, h0, Option.map_some, Option.some.injEq] at h
  subst h
  have e : colspanOf [("colspan", "9223372036854775807")] = some 9223372036854775807 := by decide +kernel
  rw [show st.out.count "<td>" = _ from h1]
  simp only [width, if_true, e]
  rfl

/-- **C160**, partially: without `colspan` attributes at most two pieces are shown for a token, each of which is a text of the block or one of
the nine tags. Missing: cells that span columns. -/
theorem C160_linear_partial (trim : String → String) (toks : List HTok) (hn : ∀ n attrs, .start n attrs ∈ toks → ∀ v, ("colspan", v) ∉ attrs)
    (out : List String) (h : sanitize trim toks = some out) : out.length ≤ 2 * toks.length := by
  have key : ∀ toks : List HTok, (∀ n attrs, .start n attrs ∈ toks → ∀ v, ("colspan", v) ∉ attrs) → ∀ st st' : TB, st.ths = [] → st.tds = [] →
      tbRun trim st toks = some st' → st'.out.length ≤ st.out.length + 2 * toks.length := by
    intro toks
    induction toks with
    | nil =>
      intro _ st st' _ _ h
      cases h
      simp
    | cons t ts ih =>
      intro hn st st' h1 h2 h
      rw [tbRun] at h
      have hs : ∃ st1, tbStep trim st t = some st1 ∧ st1.ths = [] ∧ st1.tds = [] ∧ st1.out.length ≤ st.out.length + 2 := by
        cases t with
        | other => exact ⟨st, rfl, h1, h2, by omega⟩
        | text d =>
          rw [tbStep]
          split
          · exact ⟨_, rfl, h1, h2, by omega⟩
          · exact ⟨_, rfl, h1, h2, by simp⟩
        | finish n =>
          rw [tbStep]
          unfold closeTag
          rw [h1, h2]
          split
          · exact ⟨_, rfl, rfl, rfl, by simp⟩
          · split
            · exact ⟨_, rfl, rfl, rfl, by simp⟩
            · split
              · exact ⟨_, rfl, rfl, rfl, by simp⟩
              · split
                · exact ⟨_, rfl, rfl, rfl, by simp⟩
                · exact ⟨_, rfl, h1, h2, by omega⟩
        | start n attrs =>
          have hc : colspanOf attrs = none := by
            unfold colspanOf
            rw [show attrs.find? (fun a => decide (a.1 = "colspan")) = none from ?_]
            rw [List.find?_eq_none]
            rintro ⟨a, v⟩ ha hv
            have hv := of_decide_eq_true hv
            simp only at hv
            subst hv
            exact hn n attrs List.mem_cons_self v ha
          rw [tbStep]
          refine ⟨_, rfl, ?_, ?_, ?_⟩
          · rw [(breaks_tds _ _).2.1]
            unfold openTag
            simp only [widen, hc]
            split
            · exact h1
            · split
              · exact h1
              · split
                · exact h1
                · split <;> exact h1
          · rw [(breaks_tds _ _).1]
            unfold openTag
            simp only [widen, hc]
            split
            · exact h2
            · split
              · exact h2
              · split
                · exact h2
                · split <;> exact h2
          · have o : (openTag st n attrs).out.length ≤ st.out.length + 1 := by
              unfold openTag
              simp only [widen, hc]
              split
              · simp
              · split
                · simp
                · split
                  · simp
                  · split <;> simp
            have b : (breaks (openTag st n attrs) n).out.length ≤ (openTag st n attrs).out.length + 1 := by
              unfold breaks
              split
              · split <;> simp
              · omega
            omega
      obtain ⟨st1, e1, e2, e3, e4⟩ := hs
      rw [e1, Option.bind_some] at h
      have := ih (fun n a ha => hn n a (List.mem_cons_of_mem _ ha)) st1 st' e2 e3 h
      rw [List.length_cons]
      omega
  unfold sanitize at h
  rw [Option.map_eq_some_iff] at h
  obtain ⟨st, h, rfl⟩ := h
  have := key toks hn tbStart st rfl rfl h
  simpa [tbStart] using this

example : (∀ n attrs, HTok.start n attrs ∈ [HTok.start "p" [], .text "a"] → ∀ v, ("colspan", v) ∉ attrs) ∧
    sanitize id [HTok.start "p" [], .text "a"] = some ["<br /><br />", "a "] := by
  refine ⟨?_, by decide +kernel⟩
  intro n attrs h v
  simp at h
  obtain ⟨_, rfl⟩ := h
  simp

/-! ### How large a text block becomes -/

theorem widen_length (attrs : List (String × String)) (tag : String) (stack : List Int) {k : Nat} (h : Columns attrs k) :
    (widen attrs tag stack).1.length = stack.length + (k - 1) ∧ (widen attrs tag stack).2.length = k - 1 := by
  have hk := columns_unique h
  unfold widen
  cases hc : colspanOf attrs with
  | none =>
    rw [hc] at hk
    subst hk
    exact ⟨rfl, rfl⟩
  | some c =>
    rw [hc] at hk
    have : extra c = k - 1 := by
      subst hk
      unfold extra
      simp only
      omega
    simp only [List.length_append, List.length_replicate, this]
    exact ⟨Nat.add_comm _ _, trivial⟩

theorem pops_length : ∀ (n : Nat) (s s' : List Int), pops n s = some s' → s.length = s'.length + n
  | 0, s, s', h => by cases h; rfl
  | n + 1, [], s', h => by cases h
  | n + 1, _ :: s, s', h => by
    have := pops_length n s s' h
    simp only [List.length_cons]
    omega

theorem narrow_length {tag : String} {stack : List Int} {r : List Int × List String} (h : narrow tag stack = some r) :
    stack.length = r.1.length + r.2.length := by
  cases stack with
  | nil => cases h; rfl
  | cons c s =>
    unfold narrow at h
    rw [Option.map_eq_some_iff] at h
    obtain ⟨s', h1, rfl⟩ := h
    rw [pops_length _ _ _ h1, List.length_replicate]

/-- What is shown, and what is still to be closed. -/
def sizeOfTB (st : TB) : Nat := st.out.length + st.ths.length + st.tds.length

theorem breaks_size (st : TB) (n : String) : st.out.length ≤ (breaks st n).out.length ∧ sizeOfTB (breaks st n) ≤ sizeOfTB st + 1 ∧
    (n ∉ blockElems → breaks st n = st) := by
  unfold breaks sizeOfTB
  by_cases h1 : st.disableBr ≤ 0
  · by_cases h2 : blockElems.contains n = true
    · rw [if_pos h1, if_pos h2]
      refine ⟨by simp, by simp only [List.length_append, List.length_cons, List.length_nil]; omega, fun h => absurd (List.contains_iff_mem.1 h2) h⟩
    · rw [if_pos h1, if_neg h2]
      exact ⟨Nat.le_refl _, by omega, fun _ => rfl⟩
  · rw [if_neg h1]
    exact ⟨Nat.le_refl _, by omega, fun _ => rfl⟩

theorem start_size (st : TB) (n : String) (attrs : List (String × String)) :
    (∀ k, n = "td" ∨ n = "th" → Columns attrs k → st.out.length + (k - 1) ≤ (breaks (openTag st n attrs) n).out.length ∧
      sizeOfTB (breaks (openTag st n attrs) n) ≤ sizeOfTB st + 1 + 2 * (k - 1)) ∧
    (n ≠ "td" ∧ n ≠ "th" → st.out.length ≤ (breaks (openTag st n attrs) n).out.length ∧
      sizeOfTB (breaks (openTag st n attrs) n) ≤ sizeOfTB st + 1) := by
  constructor
  · intro k hn hk
    rcases hn with rfl | rfl
    · rw [(breaks_size _ "td").2.2 (by decide)]
      obtain ⟨h1, h2⟩ := widen_length attrs "<td>" st.tds hk
      simp only [openTag, sizeOfTB, String.reduceEq, if_true, if_false, List.length_append, List.length_cons, h1, h2]
      omega
    · rw [(breaks_size _ "th").2.2 (by decide)]
      obtain ⟨h1, h2⟩ := widen_length attrs "<th>" st.ths hk
      simp only [openTag, sizeOfTB, String.reduceEq, if_true, if_false, List.length_append, List.length_cons, h1, h2]
      omega
  · rintro ⟨h1, h2⟩
    by_cases ht : n = "table"
    · subst ht
      rw [(breaks_size _ "table").2.2 (by decide)]
      simp only [openTag, sizeOfTB, if_true, List.length_append, List.length_cons, List.length_nil]
      omega
    · by_cases hr : n = "tr"
      · subst hr
        rw [(breaks_size _ "tr").2.2 (by decide)]
        simp only [openTag, sizeOfTB, String.reduceEq, if_true, if_false, List.length_append, List.length_cons, List.length_nil]
        omega
      · have e : openTag st n attrs = st := by simp only [openTag, if_neg ht, if_neg hr, if_neg h1, if_neg h2]
        rw [e]
        exact ⟨(breaks_size st n).1, (breaks_size st n).2.1⟩

theorem finish_size {st st' : TB} {n : String} (h : closeTag st n = some st') :
    st.out.length ≤ st'.out.length ∧ sizeOfTB st' ≤ sizeOfTB st + 1 := by
  unfold closeTag at h
  unfold sizeOfTB
  split at h
  · cases h
    simp only [List.length_append, List.length_cons, List.length_nil]
    omega
  · split at h
    · cases h
      simp only [List.length_append, List.length_cons, List.length_nil]
      omega
    · split at h
      · rw [Option.map_eq_some_iff] at h
        obtain ⟨r, hr, rfl⟩ := h
        have := narrow_length hr
        simp only [List.length_append, List.length_cons]
        omega
      · split at h
        · rw [Option.map_eq_some_iff] at h
          obtain ⟨r, hr, rfl⟩ := h
          have := narrow_length hr
          simp only [List.length_append, List.length_cons]
          omega
        · cases h
          omega

theorem run_size (trim : String → String) {toks : List HTok} {m : Nat} (hm : Spare toks m) :
    ∀ st st' : TB, tbRun trim st toks = some st' → st.out.length + m ≤ st'.out.length ∧ sizeOfTB st' ≤ sizeOfTB st + toks.length + 2 * m := by
  induction hm with
  | nil =>
    intro st st' h
    cases h
    exact ⟨Nat.le_refl _, Nat.le_refl _⟩
  | cell hn hk _ ih =>
    intro st st' h
    rw [tbRun, tbStep, Option.bind_some] at h
    obtain ⟨h1, h2⟩ := ih _ _ h
    obtain ⟨h3, h4⟩ := (start_size st _ _).1 _ hn hk
    rw [List.length_cons]
    omega
  | @skip t m ts hs _ ih =>
    intro st st' h
    rw [tbRun, Option.bind_eq_some_iff] at h
    obtain ⟨st1, e, h⟩ := h
    obtain ⟨h1, h2⟩ := ih _ _ h
    have : st.out.length ≤ st1.out.length ∧ sizeOfTB st1 ≤ sizeOfTB st + 1 := by
      cases t with
      | other => cases e; exact ⟨Nat.le_refl _, by omega⟩
      | text d =>
        rw [tbStep] at e
        split at e <;> cases e
        · exact ⟨Nat.le_refl _, by omega⟩
        · simp only [sizeOfTB, List.length_append, List.length_cons, List.length_nil]
          omega
      | finish n => exact finish_size e
      | start n attrs =>
        cases e
        exact (start_size st n attrs).2 (hs n attrs rfl)
    rw [List.length_cons]
    omega

/-- **C160 (exact up to the factor two)**: if the cells span `m` columns more than there are cells, there are at least `m` pieces and at most
`2 * m` pieces more than tokens. So columns are all that a text block can grow by. -/
theorem C160_bounds (trim : String → String) (toks : List HTok) (m : Nat) (hm : Spare toks m) (out : List String)
    (h : sanitize trim toks = some out) : m ≤ out.length ∧ out.length ≤ toks.length + 2 * m := by
  unfold sanitize at h
  rw [Option.map_eq_some_iff] at h
  obtain ⟨st, h, rfl⟩ := h
  obtain ⟨h1, h2⟩ := run_size trim hm _ _ h
  have e1 : tbStart.out.length = 0 := rfl
  have e2 : sizeOfTB tbStart = 0 := rfl
  rw [e1] at h1
  rw [e2] at h2
  unfold sizeOfTB at h2
  omega

/-- Both bounds are met: a cell of three columns that stays open, and one that is closed. -/
example : Spare [.start "td" [("colspan", "3")], .text "x", .finish "td"] 2 ∧
    (sanitize id [.start "td" [("colspan", "3")], .text "x", .finish "td"]).map List.length = some (3 + 2 * 2) :=
  ⟨.cell (k := 3) (m := 0) (.inl rfl) (by
    obtain ⟨s, h1, h2, h3, h4⟩ := (colspanOf_iff [("colspan", "3")] 3).1 (by decide +kernel)
    exact .inl ⟨s, 3, h1, h2, h3, h4, rfl⟩)
    (.skip (by simp) (.skip (by simp) .nil)), by decide +kernel⟩

end Telefacts
