import Verif.Proof.TextBlock
/-! # C57, C58: sanitised text blocks -/
namespace Telefacts
open Telefacts.Text

/-- C57: the sanitiser does not panic, whatever the tokens. -/
theorem C57_no_panic (trim : String → String) (toks : List HTok) : ∃ out, sanitize trim toks = some out := by
  obtain ⟨st, h, _⟩ := tbRun_inv trim toks
  exact ⟨st.out, by rw [sanitize, h]; rfl⟩

/-- C57: balanced cells stay balanced: a cell of width `c` is shown as `c` cells, all of which are closed. -/
theorem C57_balanced (trim : String → String) (toks : List HTok) (out : List String) (h : sanitize trim toks = some out) :
    (Balanced "td" toks → Width "td" toks (out.count "<td>") ∧ out.count "</td>" = out.count "<td>") ∧
    (Balanced "th" toks → Width "th" toks (out.count "<th>") ∧ out.count "</th>" = out.count "<th>") := by
  obtain ⟨st, h0, h1, h2, _⟩ := tbRun_inv trim toks
  rw [sanitize, h0, Option.map_some, Option.some.injEq] at h
  subst h
  constructor
  · intro hb
    have := h1.balanced hb
    exact ⟨by rw [show st.out.count "<td>" = _ from this.1]; exact width_spec _ toks, this.2.trans this.1.symm⟩
  · intro hb
    have := h2.balanced hb
    exact ⟨by rw [show st.out.count "<th>" = _ from this.1]; exact width_spec _ toks, this.2.trans this.1.symm⟩

/-- C57: if no end tag is stray, there are never more closing than opening cell tags. -/
theorem C57_never_overclosed (trim : String → String) (toks : List HTok) (out : List String) (h : sanitize trim toks = some out) :
    (NoStray "td" toks → out.count "</td>" ≤ out.count "<td>") ∧ (NoStray "th" toks → out.count "</th>" ≤ out.count "<th>") := by
  obtain ⟨st, h0, h1, h2, _⟩ := tbRun_inv trim toks
  rw [sanitize, h0, Option.map_some, Option.some.injEq] at h
  subst h
  exact ⟨h1.no_stray, h2.no_stray⟩

/-- A table with a cell of width 3, in which a table with a cell of width 2 is nested. -/
def tbNested : List HTok :=
  [.start "table" [], .start "tr" [], .start "td" [("colspan", "3")], .text "a", .start "table" [], .start "tr" [], .start "td" [],
    .finish "td", .start "td" [("class", "x"), ("colspan", "2")], .text " b ", .finish "td", .finish "tr", .finish "table",
    .finish "td", .finish "tr", .finish "table"]

/-- A decidable form of `NoStray`. -/
theorem noStray_of_takes {name : String} {toks : List HTok} (h : ∀ k ≤ toks.length, ends name (toks.take k) ≤ starts name (toks.take k)) :
    NoStray name toks := by
  intro pre hp
  rw [List.prefix_iff_eq_take.1 hp]
  exact h _ hp.length_le

example : Balanced "td" tbNested ∧ Balanced "th" tbNested ∧ Width "td" tbNested 6 ∧
    (sanitize id tbNested).map (fun out => (out.count "<td>", out.count "</td>")) = some (6, 6) :=
  ⟨⟨noStray_of_takes (by decide +kernel), by decide +kernel⟩, ⟨noStray_of_takes (by decide +kernel), by decide +kernel⟩,
    (by decide +kernel : width "td" tbNested = 6) ▸ width_spec "td" tbNested, by decide +kernel⟩

/-- C58: nothing but the white-listed markup and the trimmed texts is shown, and every text is shown, in order. -/
theorem C58_whitelist (trim : String → String) (toks : List HTok) (out : List String) (h : sanitize trim toks = some out) :
    (∀ x ∈ out, x ∈ markup ∨ x ∈ texts trim toks) ∧ out.filter (fun x => !markup.contains x) = texts trim toks := by
  obtain ⟨st, h0, _, _, _, h5⟩ := tbRun_inv trim toks
  rw [sanitize, h0, Option.map_some, Option.some.injEq] at h
  subst h
  refine ⟨fun x hx => ?_, h5⟩
  by_cases hm : x ∈ markup
  · exact .inl hm
  · right
    rw [← h5, List.mem_filter]
    exact ⟨hx, by simpa using hm⟩

/-- C58: exactly the start tags of block elements show a line break, when there are at most as many table start tags as
table end tags before. -/
theorem C58_breaks (trim : String → String) (pre : List HTok) (t : HTok) (out : List String) (h : sanitize trim pre = some out) :
    ∃ d, sanitize trim (pre ++ [t]) = some (out ++ d) ∧
      ("<br /><br />" ∈ d ↔ (∃ name attrs, t = .start name attrs ∧ name ∈ ["div", "p", "h1", "h2", "h3", "h4", "h5", "h6"]) ∧
        starts "table" pre ≤ ends "table" pre) := by
  obtain ⟨st, h0, ⟨_, _, b1, _⟩, ⟨_, _, b2, _⟩, h3, _⟩ := tbRun_inv trim pre
  rw [sanitize, h0, Option.map_some, Option.some.injEq] at h
  subst h
  obtain ⟨st', hs⟩ := step_total trim st t b1 b2
  obtain ⟨d, hd, _, hb⟩ := step_out trim st st' t hs
  refine ⟨d, ?_, ?_⟩
  · rw [sanitize, tbRun_snoc, h0, Option.bind_some, hs, Option.map_some, hd]
  · rw [hb, h3]
    constructor
    · rintro ⟨n, a, e, hn, hz⟩; exact ⟨⟨n, a, e, hn⟩, by omega⟩
    · rintro ⟨⟨n, a, e, hn⟩, hz⟩; exact ⟨n, a, e, hn, by omega⟩

/-- C58, partially: if no table end tag is stray, line breaks are shown exactly for block elements outside of tables.
Missing: token streams with stray table end tags, for which it fails (`C58_fails_stray`). -/
theorem C58_no_breaks_in_tables_partial (trim : String → String) (pre : List HTok) (t : HTok) (out : List String)
    (hn : NoStray "table" pre) (h : sanitize trim pre = some out) :
    ∃ d, sanitize trim (pre ++ [t]) = some (out ++ d) ∧
      ("<br /><br />" ∈ d ↔ (∃ name attrs, t = .start name attrs ∧ name ∈ ["div", "p", "h1", "h2", "h3", "h4", "h5", "h6"]) ∧
        openTables pre = 0) := by
  obtain ⟨d, h1, h2⟩ := C58_breaks trim pre t out h
  refine ⟨d, h1, h2.trans ?_⟩
  have := openTables_eq hn
  constructor
  · rintro ⟨a, b⟩; exact ⟨a, by omega⟩
  · rintro ⟨a, b⟩; exact ⟨a, by omega⟩

example : NoStray "table" tbNested ∧ openTables tbNested = 0 ∧ openTables (tbNested.take 5) = 2 ∧
    (∃ out, sanitize id (tbNested.take 5) = some out ∧ sanitize id (tbNested.take 5 ++ [.start "p" []]) = some out) ∧
    (∃ out, sanitize id tbNested = some out ∧ sanitize id (tbNested ++ [.start "p" []]) = some (out ++ ["<br /><br />"])) :=
  ⟨noStray_of_takes (by decide +kernel), by decide +kernel, by decide +kernel, ⟨_, rfl, by decide +kernel⟩, ⟨_, rfl, by decide +kernel⟩⟩

/-- C58 fails: after a stray table end tag line breaks are shown inside the next table. -/
theorem C58_fails_stray (trim : String → String) : openTables [.finish "table", .start "table" []] = 1 ∧
    sanitize trim [.finish "table", .start "table" [], .start "p" []] = some ["</table>", "<table>", "<br /><br />"] := ⟨rfl, rfl⟩

/-- C58 fails: the text of a text token is shown as it is. Text tokens hold unescaped text, so that markup which was
escaped in the fact is shown as markup, with attributes. -/
theorem C58_fails_text (trim : String → String) (h : trim "<img src=x onerror=alert(1)>" = "<img src=x onerror=alert(1)>") :
    sanitize trim [.text "<img src=x onerror=alert(1)>"] = some ["<img src=x onerror=alert(1)> "] := by
  simp only [sanitize, tbRun, tbStep, h]
  rfl

end Telefacts
