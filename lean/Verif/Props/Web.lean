import Verif.Proof.Web
/-! # Properties of the web layer (C65-C67) -/
namespace Telefacts
open Telefacts.Web

theorem finish_succeed (sniff : Bytes → String) (data : Bytes) :
    (succeed data).finish sniff = (200, if data = [] then none else some (sniff data), data) := by
  simp [succeed, Writer.finish, Writer.write, Writer.writeHeader, Writer.set, Writer.new]

theorem finish_error (sniff : Bytes → String) (msg : Bytes) (code : Nat) :
    (Writer.new.error msg code).finish sniff = (code, some "text/plain; charset=utf-8", msg ++ [10]) := by
  simp [Writer.error, Writer.finish, Writer.write, Writer.writeHeader, Writer.set, Writer.new]

theorem finish_answer (sniff : Bytes → String) (c : CacheResult) :
    ((answer c).finish sniff).1 = (match c with | .ok _ => 200 | .error _ => 500) ∧
    ∀ data, c = .ok data → ((answer c).finish sniff).2.2 = data := by
  cases c <;> simp [answer, finish_succeed, finish_error]

/-- Status of `Catalog`: 200 with the bytes, 400 or 500. -/
theorem C65_catalog (sniff : Bytes → String) (cache : Bytes → CacheResult) (r : Request) :
    let res := (catalog cache r).finish sniff
    (res.1 = 200 ↔ r.method = "GET" ∧ r.id ≠ [] ∧ ∃ data, cache r.id = .ok data) ∧
    (res.1 = 400 ↔ r.method = "GET" ∧ r.id = []) ∧
    (res.1 = 500 ↔ r.method ≠ "GET" ∨ (r.id ≠ [] ∧ ∃ e, cache r.id = .error e)) ∧
    (res.1 = 200 → cache r.id = .ok res.2.2) := by
  unfold catalog
  by_cases hm : r.method = "GET"
  · by_cases hi : r.id = []
    · simp [hm, hi, finish_error]
    · cases hc : cache r.id with
      | ok data => simp [hm, hi, answer, finish_succeed]
      | error e => simp [hm, hi, answer, finish_error]
  · simp [hm, finish_error]

/-- Status of `Renderable`. -/
theorem C65_renderable (sniff : Bytes → String) (cache : Bytes → Bytes → CacheResult) (r : Request) :
    let res := (renderable cache r).finish sniff
    (res.1 = 200 ↔ r.method = "GET" ∧ r.id ≠ [] ∧ r.hash ≠ [] ∧ ∃ data, cache r.id r.hash = .ok data) ∧
    (res.1 = 400 ↔ r.method = "GET" ∧ (r.id = [] ∨ r.hash = [])) ∧
    (res.1 = 500 ↔ r.method ≠ "GET" ∨
      (r.id ≠ [] ∧ r.hash ≠ [] ∧ ∃ e, cache r.id r.hash = .error e)) ∧
    (res.1 = 200 → cache r.id r.hash = .ok res.2.2) := by
  unfold renderable
  by_cases hm : r.method = "GET"
  · by_cases hi : r.id = []
    · simp [hm, hi, finish_error]
    · by_cases hh : r.hash = []
      · simp [hm, hi, hh, finish_error]
      · cases hc : cache r.id r.hash with
        | ok data => simp [hm, hi, hh, answer, finish_succeed]
        | error e => simp [hm, hi, hh, answer, finish_error]
  · simp [hm, finish_error]

/-- Status of `Expressable`. The parameters are decoded twice: a failure of the first decoding is 500,
of the second 400. -/
theorem C65_expressable (sniff : Bytes → String) (cache : Bytes → Bytes → Bytes → CacheResult)
    (r : Request) :
    let res := (expressable cache r).finish sniff
    (res.1 = 200 ↔ r.method = "GET" ∧ r.id ≠ [] ∧ ∃ n₀ c₀ n c, FactParams r.rawQuery n₀ c₀ ∧
      Dec n₀ n ∧ Dec c₀ c ∧ cache r.id n c = .ok res.2.2) ∧
    (res.1 = 400 ↔ r.method = "GET" ∧ (r.id = [] ∨ ∃ n₀ c₀, FactParams r.rawQuery n₀ c₀ ∧
      ¬ ((∃ n, Dec n₀ n) ∧ ∃ c, Dec c₀ c))) ∧
    (res.1 = 500 ↔ r.method ≠ "GET" ∨ (r.id ≠ [] ∧ ((¬ ∃ vs, Query r.rawQuery vs) ∨
      ∃ n₀ c₀ n c e, FactParams r.rawQuery n₀ c₀ ∧ Dec n₀ n ∧ Dec c₀ c ∧
        cache r.id n c = .error e))) := by
  have ok : ∀ n c, factQuery r.rawQuery = .ok (n, c) → ∀ x : CacheResult,
      ((∃ n₀ c₀ n c, FactParams r.rawQuery n₀ c₀ ∧ Dec n₀ n ∧ Dec c₀ c ∧ cache r.id n c = x) ↔
        cache r.id n c = x) := by
    intro n c h x
    constructor
    · rintro ⟨n₀, c₀, n', c', h1, h2, h3, h4⟩
      have := (factQuery_ok r.rawQuery n' c').2 ⟨n₀, c₀, h1, h2, h3⟩
      rw [h] at this
      cases this
      exact h4
    · intro hx
      obtain ⟨n₀, c₀, h1, h2, h3⟩ := (factQuery_ok _ _ _).1 h
      exact ⟨n₀, c₀, n, c, h1, h2, h3, hx⟩
  have noOk : (∀ n c, factQuery r.rawQuery ≠ .ok (n, c)) → ∀ P : Bytes → Bytes → Prop,
      ¬ ∃ n₀ c₀ n c, FactParams r.rawQuery n₀ c₀ ∧ Dec n₀ n ∧ Dec c₀ c ∧ P n c := by
    rintro h P ⟨n₀, c₀, n, c, h1, h2, h3, _⟩
    exact h n c ((factQuery_ok _ _ _).2 ⟨n₀, c₀, h1, h2, h3⟩)
  have swap : (∃ n₀ c₀ n c e, FactParams r.rawQuery n₀ c₀ ∧ Dec n₀ n ∧ Dec c₀ c ∧
      cache r.id n c = .error e) ↔
      ∃ e, ∃ n₀ c₀ n c, FactParams r.rawQuery n₀ c₀ ∧ Dec n₀ n ∧ Dec c₀ c ∧ cache r.id n c = .error e :=
    ⟨fun ⟨a, b, n, c, e, h⟩ => ⟨e, a, b, n, c, h⟩, fun ⟨e, a, b, n, c, h⟩ => ⟨a, b, n, c, e, h⟩⟩
  rw [← factQuery_400, ← factQuery_500]
  simp only [swap]
  unfold expressable
  by_cases hm : r.method = "GET"
  · by_cases hi : r.id = []
    · simp [hm, hi, finish_error]
    · rcases factQuery_cases r.rawQuery with ⟨n, c, h⟩ | h | h
      · simp only [ok n c h, h]
        cases hr : cache r.id n c with
        | ok data => simp [hm, hi, answer, finish_succeed]
        | error e => simp [hm, hi, answer, finish_error]
      · have no := noOk (by simp [h])
        simp only [h, no (fun n c => cache r.id n c = _)]
        simp [hm, hi, finish_error]
      · have no := noOk (by simp [h])
        simp only [h, no (fun n c => cache r.id n c = _)]
        simp [hm, hi, finish_error]
  · simp [hm, finish_error]

/-- Each status occurs. -/
example : ((catalog (fun _ => .ok (lit "{}")) ⟨"GET", lit "a", [], []⟩).finish (fun _ => "")).1 = 200 ∧
    ((catalog (fun _ => .ok (lit "{}")) ⟨"GET", [], [], []⟩).finish (fun _ => "")).1 = 400 ∧
    ((catalog (fun _ => .ok (lit "{}")) ⟨"PUT", lit "a", [], []⟩).finish (fun _ => "")).1 = 500 := by
  decide

/-- A successful response carries the sniffed type of its bytes, never the `application/json` the
handler sets; `sniff` is `http.DetectContentType`, which has no JSON type. -/
theorem C66_content_type (sniff : Bytes → String) (hsniff : ∀ d, sniff d ≠ "application/json")
    (w : Writer) (hw : (∃ cache r, w = catalog cache r) ∨ (∃ cache r, w = renderable cache r) ∨
      (∃ cache r, w = expressable cache r)) (h200 : (w.finish sniff).1 = 200) :
    (w.finish sniff).2.1 = (if (w.finish sniff).2.2 = [] then none else some (sniff (w.finish sniff).2.2)) ∧
    (w.finish sniff).2.1 ≠ some "application/json" := by
  have key : ∃ data, w = succeed data := by
    have ans : ∀ c : CacheResult, ((answer c).finish sniff).1 = 200 → ∃ data, answer c = succeed data := by
      intro c h
      cases c with
      | ok data => exact ⟨data, rfl⟩
      | error e => simp [answer, finish_error] at h
    rcases hw with ⟨cache, r, rfl⟩ | ⟨cache, r, rfl⟩ | ⟨cache, r, rfl⟩
    · unfold catalog at h200 ⊢
      split at h200
      · simp [finish_error] at h200
      · rename_i h1
        rw [if_neg h1]
        split at h200
        · simp [finish_error] at h200
        · rename_i h2; rw [if_neg h2]; exact ans _ h200
    · unfold renderable at h200 ⊢
      split at h200
      · simp [finish_error] at h200
      · rename_i h1
        rw [if_neg h1]
        split at h200
        · simp [finish_error] at h200
        · rename_i h2
          rw [if_neg h2]
          split at h200
          · simp [finish_error] at h200
          · rename_i h3; rw [if_neg h3]; exact ans _ h200
    · obtain ⟨hm, hi, n₀, c₀, n, c, h1, h2, h3, hc⟩ := (C65_expressable sniff cache r).1.1 h200
      unfold expressable
      rw [(factQuery_ok _ _ _).2 ⟨n₀, c₀, h1, h2, h3⟩]
      simp only [hm, hi, hc, answer, ne_eq, not_true_eq_false, if_false]
      exact ⟨_, rfl⟩
  obtain ⟨data, rfl⟩ := key
  rw [finish_succeed]
  refine ⟨rfl, ?_⟩
  simp only
  split
  · simp
  · simp [hsniff]

/-- A successful response with a body. -/
example : (catalog (fun _ => .ok (lit "{}")) ⟨"GET", lit "a", [], []⟩).finish (fun _ => "text/plain") =
    (200, some "text/plain", lit "{}") := by decide

/-- However the client encodes the name and the contextref, the fact handler decodes them once more: it
answers with the bytes of every fact asked for iff neither text contains `+` or `%`, and otherwise with
those of the text decoded again, or with status 400. -/
theorem C67_lookup_iff (sniff : Bytes → String) (r : Request) (hr : Get r) {n c en ec : Bytes}
    (hn : Enc n en) (hc : Enc c ec) (hq : r.rawQuery = lit "name=" ++ en ++ lit "&contextref=" ++ ec) :
    ((∀ cache data, cache r.id n c = .ok data →
        ((expressable cache r).finish sniff).1 = 200 ∧ ((expressable cache r).finish sniff).2.2 = data) ↔
      Plain n ∧ Plain c) ∧
    (∀ n' c', Dec n n' → Dec c c' → ∀ cache data, cache r.id n' c' = .ok data →
      ((expressable cache r).finish sniff).1 = 200 ∧ ((expressable cache r).finish sniff).2.2 = data) ∧
    (¬ ((∃ n', Dec n n') ∧ ∃ c', Dec c c') → ∀ cache, ((expressable cache r).finish sniff).1 = 400) := by
  have hp : FactParams r.rawQuery n c := by rw [hq]; exact factParams_url hn hc
  have second : ∀ n' c', Dec n n' → Dec c c' → ∀ cache data, cache r.id n' c' = .ok data →
      ((expressable cache r).finish sniff).1 = 200 ∧ ((expressable cache r).finish sniff).2.2 = data := by
    intro n' c' h1 h2 cache data h
    have hf := (factQuery_ok r.rawQuery n' c').2 ⟨n, c, hp, h1, h2⟩
    have : expressable cache r = succeed data := by
      unfold expressable
      rw [hf]
      simp [hr.1, hr.2, h, answer]
    rw [this, finish_succeed]
    exact ⟨rfl, rfl⟩
  refine ⟨⟨fun h => ?_, fun h => second n c (dec_plain h.1) (dec_plain h.2)⟩, second, fun h cache =>
    ((C65_expressable sniff cache r).2.1).2 ⟨hr.1, .inr ⟨n, c, hp, h⟩⟩⟩
  have h1 := (h (fun _ n' c' => if n' = n ∧ c' = c then .ok [] else .error []) [] (by simp)).1
  obtain ⟨_, _, n₀, c₀, n', c', h2, h3, h4, h5⟩ := (C65_expressable sniff _ r).1.1 h1
  obtain ⟨rfl, rfl⟩ := hp.unique h2
  by_cases he : n' = n ∧ c' = c
  · obtain ⟨rfl, rfl⟩ := he
    exact ⟨(dec_self_iff _).1 h3, (dec_self_iff _).1 h4⟩
  · simp [he] at h5

/-- Both sides occur, and the colon of a name may be sent encoded. -/
example : Plain (lit "a:b") ∧ ¬ Plain (lit "a+b") ∧ Enc (lit "a:b") (lit "a%3Ab") ∧
    Enc (lit "a b") (lit "a+b") := by
  refine ⟨by unfold Plain; decide, by unfold Plain; decide, ?_, ?_⟩
  · refine .same (by unfold Safe; decide) (.hex (hi := 3) (lo := 10) ?_ ?_ (by decide)
      (.same (by unfold Safe; decide) .nil)) <;> unfold HexDigit <;> decide
  · exact .same (by unfold Safe; decide) (.space (.same (by unfold Safe; decide) .nil))

end Telefacts
