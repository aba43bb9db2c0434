import Verif.Spec.Quadrant
import Verif.Proof.Context
/-! # Lemmas on the factual quadrant -/
namespace Telefacts.Render
open Telefacts.Instance Telefacts.Spec

/-- What is known of the map of footnotes. -/
structure NoteMap (l : List Footnote) (m : GoMap String Footnote) : Prop where
  wf : MapWF m
  mem : ∀ k n, (k, n) ∈ m → n ∈ l ∧ n.id = k
  has : ∀ n ∈ l, ∃ n', (n.id, n') ∈ m

theorem addNotes_noteMap (l : List Footnote) : NoteMap l (l.foldl addNote []) := by
  induction l using snocInd with
  | nil => exact ⟨MapWF.nil, by simp, by simp⟩
  | snoc l x ih =>
    rw [List.foldl_append, List.foldl_cons, List.foldl_nil]
    generalize l.foldl addNote [] = M at ih ⊢
    unfold addNote
    cases h : mapGet M x.id with
    | some n0 =>
      simp only
      refine ⟨ih.wf, ?_, ?_⟩
      · intro k n hk
        obtain ⟨h1, h2⟩ := ih.mem k n hk
        exact ⟨by simp [h1], h2⟩
      · intro n hn
        rcases List.mem_append.1 hn with hn | hn
        · exact ih.has n hn
        · rw [List.mem_singleton.1 hn]
          exact ⟨n0, mem_of_mapGet h⟩
    | none =>
      simp only
      have wf' := ih.wf.mapSet x.id x
      refine ⟨wf', ?_, ?_⟩
      · intro k n hk
        rw [← mapGet_iff_mem wf', mapGet_mapSet] at hk
        by_cases hx : x.id = k
        · rw [if_pos hx] at hk
          cases hk
          exact ⟨by simp, hx⟩
        · rw [if_neg hx] at hk
          obtain ⟨h1, h2⟩ := ih.mem k n (mem_of_mapGet hk)
          exact ⟨by simp [h1], h2⟩
      · intro n hn
        by_cases hx : x.id = n.id
        · exact ⟨x, mem_of_mapGet (by rw [mapGet_mapSet, if_pos hx])⟩
        · rcases List.mem_append.1 hn with hn | hn
          · obtain ⟨n', hn'⟩ := ih.has n hn
            refine ⟨n', mem_of_mapGet ?_⟩
            rw [mapGet_mapSet, if_neg hx]
            exact mapGet_of_mem ih.wf hn'
          · rw [List.mem_singleton.1 hn] at hx
            exact absurd rfl hx

theorem NoteMap.perm {l : List Footnote} {m m' : GoMap String Footnote} (h : NoteMap l m) (hp : m'.Perm m) : NoteMap l m' :=
  ⟨h.wf.perm hp.symm, fun k n hk => h.mem k n (hp.mem_iff.1 hk), fun n hn => by
    obtain ⟨n', hn'⟩ := h.has n hn
    exact ⟨n', hp.mem_iff.2 hn'⟩⟩

theorem mem_cellNumbers (notes : List Footnote) (m : GoMap String Footnote) (k0 k : Nat) :
    k ∈ cellNumbers notes k0 m ↔ ∃ d id n0, k = k0 + d ∧ m[d]? = some (id, n0) ∧ ∃ n ∈ notes, n.id = id := by
  induction m generalizing k0 with
  | nil => simp [cellNumbers]
  | cons e rest ih =>
    obtain ⟨id, n0⟩ := e
    have hstep : (∃ d id' n0', k = k0 + d ∧ ((id, n0) :: rest)[d]? = some (id', n0') ∧ ∃ n ∈ notes, n.id = id') ↔
        (k = k0 ∧ ∃ n ∈ notes, n.id = id) ∨
        (∃ d id' n0', k = k0 + 1 + d ∧ rest[d]? = some (id', n0') ∧ ∃ n ∈ notes, n.id = id') := by
      constructor
      · rintro ⟨d, id', n0', hk, hd, hn⟩
        cases d with
        | zero =>
          simp at hd
          exact .inl ⟨by omega, hd.1 ▸ hn⟩
        | succ d =>
          exact .inr ⟨d, id', n0', by omega, by simpa using hd, hn⟩
      · rintro (⟨hk, hn⟩ | ⟨d, id', n0', hk, hd, hn⟩)
        · exact ⟨0, id, n0, by omega, by simp, hn⟩
        · exact ⟨d + 1, id', n0', by omega, by simpa using hd, hn⟩
    rw [hstep, cellNumbers]
    by_cases h : notes.any (fun n => decide (n.id = id))
    · rw [if_pos h, List.mem_cons, ih]
      have h : ∃ n ∈ notes, n.id = id := by simpa using h
      simp only [h, and_true]
    · rw [if_neg h, ih]
      have h : ¬ ∃ n ∈ notes, n.id = id := by simpa using h
      simp only [h, and_false, false_or]

theorem cellNumbers_le (notes : List Footnote) (m : GoMap String Footnote) (k0 : Nat) :
    (cellNumbers notes k0 m).Pairwise (· < ·) ∧ ∀ k ∈ cellNumbers notes k0 m, k0 ≤ k ∧ k < k0 + m.length := by
  have hb : ∀ (m : GoMap String Footnote) (k0 : Nat), ∀ k ∈ cellNumbers notes k0 m, k0 ≤ k ∧ k < k0 + m.length := by
    intro m k0 k hk
    rw [mem_cellNumbers] at hk
    obtain ⟨d, id, n0, hk, hd, _⟩ := hk
    have := (List.getElem?_eq_some_iff.1 hd).1
    omega
  refine ⟨?_, hb m k0⟩
  induction m generalizing k0 with
  | nil => simp [cellNumbers]
  | cons e rest ih =>
    obtain ⟨id, n0⟩ := e
    rw [cellNumbers]
    split
    · rw [List.pairwise_cons]
      refine ⟨?_, ih _⟩
      intro k hk
      have := hb rest (k0 + 1) k hk
      omega
    · exact ih _

/-- As many numbers as identifiers of the notes that are in the map. -/
theorem cellNumbers_length (notes : List Footnote) (m : GoMap String Footnote) (k0 : Nat) :
    (cellNumbers notes k0 m).length = (m.filter fun e => notes.any (fun n => decide (n.id = e.1))).length := by
  induction m generalizing k0 with
  | nil => rfl
  | cons e rest ih =>
    obtain ⟨id, n0⟩ := e
    rw [cellNumbers, List.filter_cons]
    split <;> simp [ih]

variable {Φ : Type}

theorem noteOf_flatten (s : FactSource Φ) (hrefs : List String) (ctxs : List RelevantContext) (n : Footnote) :
    n ∈ (noteGrid s hrefs ctxs).flatten.flatten ↔ ∃ i j, NoteOf s hrefs ctxs i j n := by
  unfold noteGrid NoteOf
  simp only [List.mem_flatten, List.mem_map]
  constructor
  · rintro ⟨l, ⟨row, ⟨h, hh, rfl⟩, hl⟩, hn⟩
    obtain ⟨c, hc, rfl⟩ := List.mem_map.1 hl
    obtain ⟨i, hi⟩ := List.mem_iff_getElem?.1 hh
    obtain ⟨j, hj⟩ := List.mem_iff_getElem?.1 hc
    exact ⟨i, j, h, c, hi, hj, hn⟩
  · rintro ⟨i, j, h, c, hi, hj, hn⟩
    exact ⟨_, ⟨_, ⟨h, List.mem_iff_getElem?.2 ⟨i, hi⟩, rfl⟩, List.mem_map.2 ⟨c, List.mem_iff_getElem?.2 ⟨j, hj⟩, rfl⟩⟩, hn⟩

/-- The map of the footnotes of a grid. -/
def idMap (s : FactSource Φ) (hrefs : List String) (ctxs : List RelevantContext) : GoMap String Footnote :=
  (noteGrid s hrefs ctxs).flatten.flatten.foldl addNote []

theorem cellAt_map2 {α β : Type} (f : α → β → Φ) (as : List α) (bs : List β) (i j : Nat) (x : Φ) :
    CellAt (as.map fun a => bs.map fun b => f a b) i j x ↔ ∃ a b, as[i]? = some a ∧ bs[j]? = some b ∧ x = f a b := by
  unfold CellAt
  constructor
  · rintro ⟨row, h1, h2⟩
    rw [List.getElem?_map, Option.map_eq_some_iff] at h1
    obtain ⟨a, ha, rfl⟩ := h1
    rw [List.getElem?_map, Option.map_eq_some_iff] at h2
    obtain ⟨b, hb, rfl⟩ := h2
    exact ⟨a, b, ha, hb, rfl⟩
  · rintro ⟨a, b, ha, hb, rfl⟩
    exact ⟨_, by rw [List.getElem?_map, ha]; rfl, by rw [List.getElem?_map, hb]; rfl⟩

theorem numbers_cell (s : FactSource Φ) (hrefs : List String) (ctxs : List RelevantContext) (i j : Nat) (ks : List Nat) :
    CellAt (getFactualQuadrant s hrefs ctxs).numbers i j ks ↔
      ∃ h c, hrefs[i]? = some h ∧ ctxs[j]? = some c ∧
        ks = cellNumbers (s.notes (s.find h c.contextRef)) 1 (s.cellOrder i j (idMap s hrefs ctxs)) := by
  unfold getFactualQuadrant
  split
  · rename_i h0
    unfold CellAt
    constructor
    · rintro ⟨row, h, _⟩; simp at h
    · rintro ⟨h, c, h1, h2, _⟩
      have h1 := (List.getElem?_eq_some_iff.1 h1).1
      have h2 := (List.getElem?_eq_some_iff.1 h2).1
      omega
  · simp only
    unfold CellAt
    constructor
    · rintro ⟨row, h1, h2⟩
      rw [List.getElem?_mapIdx, Option.map_eq_some_iff] at h1
      obtain ⟨nrow, hn, rfl⟩ := h1
      rw [List.getElem?_mapIdx, Option.map_eq_some_iff] at h2
      obtain ⟨ns, hns, rfl⟩ := h2
      have := (cellAt_map2 (fun h (c : RelevantContext) => s.notes (s.find h c.contextRef)) hrefs ctxs i j ns).1 ⟨nrow, hn, hns⟩
      obtain ⟨h, c, h1, h2, rfl⟩ := this
      exact ⟨h, c, h1, h2, rfl⟩
    · rintro ⟨h, c, h1, h2, rfl⟩
      obtain ⟨nrow, hn, hns⟩ :=
        (cellAt_map2 (fun h (c : RelevantContext) => s.notes (s.find h c.contextRef)) hrefs ctxs i j _).2 ⟨h, c, h1, h2, rfl⟩
      refine ⟨nrow.mapIdx fun j fs => cellNumbers fs 1 (s.cellOrder i j (idMap s hrefs ctxs)), ?_, ?_⟩
      · rw [List.getElem?_mapIdx, show (noteGrid s hrefs ctxs)[i]? = some nrow from hn]; rfl
      · rw [List.getElem?_mapIdx, hns]; rfl

theorem footnotes_eq (s : FactSource Φ) (hrefs : List String) (ctxs : List RelevantContext) (hr : hrefs ≠ []) (hc : ctxs ≠ []) :
    (getFactualQuadrant s hrefs ctxs).footnotes = (s.lastOrder (idMap s hrefs ctxs)).map fun e => e.2.inner := by
  unfold getFactualQuadrant
  rw [if_neg (by simp [hr, hc])]
  rfl

end Telefacts.Render
