import Verif.Proof.Quadrant
import Verif.Proof.Query
/-! # C40, C41: the factual quadrant -/
namespace Telefacts
open Telefacts.Render Telefacts.Instance Telefacts.Spec

/-- **C40.** Facts and footnote numbers have a row for every href and a column for every context, or are empty when
there are no rows or no columns; the cell at row `i` and column `j` is the rendered fact found for that href and context. -/
theorem C40_quadrant {Φ : Type} (s : FactSource Φ) (hrefs : List String) (ctxs : List RelevantContext) :
    (hrefs ≠ [] → ctxs ≠ [] →
      HasShape (getFactualQuadrant s hrefs ctxs).facts hrefs.length ctxs.length ∧
      HasShape (getFactualQuadrant s hrefs ctxs).numbers hrefs.length ctxs.length) ∧
    (hrefs = [] ∨ ctxs = [] → getFactualQuadrant s hrefs ctxs = ⟨[], [], []⟩) ∧
    (∀ i j x, CellAt (getFactualQuadrant s hrefs ctxs).facts i j x ↔
      ∃ h c, hrefs[i]? = some h ∧ ctxs[j]? = some c ∧ x = s.render (s.find h c.contextRef)) := by
  refine ⟨?_, ?_, ?_⟩
  · intro hr hc
    unfold getFactualQuadrant HasShape
    rw [if_neg (by simp [hr, hc])]
    simp only
    refine ⟨⟨by simp, ?_⟩, ⟨by simp [noteGrid], ?_⟩⟩
    · intro row hrow
      obtain ⟨h, _, rfl⟩ := List.mem_map.1 hrow
      simp
    · intro row hrow
      rw [List.mem_mapIdx] at hrow
      obtain ⟨i, hi, rfl⟩ := hrow
      simp [noteGrid]
  · intro h
    unfold getFactualQuadrant
    rw [if_pos (by simpa using h)]
  · intro i j x
    unfold getFactualQuadrant
    split
    · rename_i h0
      unfold CellAt
      constructor
      · rintro ⟨row, h, _⟩; simp at h
      · rintro ⟨h, c, h1, h2, _⟩
        have h1 := (List.getElem?_eq_some_iff.1 h1).1
        have h2 := (List.getElem?_eq_some_iff.1 h2).1
        omega
    · exact cellAt_map2 (fun h (c : RelevantContext) => s.render (s.find h c.contextRef)) hrefs ctxs i j x

/-- **C40.** With the finder of a folder: the fact of a cell is the first with that href and context in the order in
which the instances are ranged over. -/
theorem C40_found (insts : List HInstance) (href ctx : String) (fact : Fact) :
    Query.findFact insts href ctx = some fact ↔
      FirstWith (fun f => f.href = href ∧ f.contextRef = ctx) (insts.flatMap HInstance.facts) fact := by
  unfold Query.findFact
  rw [← firstWith_iff_find]
  simp

/-- **C41 (partial).** When the map of footnotes is ranged over in the same order for a cell and for the list of
footnotes, every number of the cell is the position of a footnote of the cell, and every footnote of the cell is at the
position of a number of the cell. Missing: the orders need not be the same (`C41_fails`). -/
theorem C41_numbers_partial {Φ : Type} (s : FactSource Φ) (hrefs : List String) (ctxs : List RelevantContext)
    (ho : GoodOrders s) (hco : Coherent s hrefs ctxs) (i j : Nat) (ks : List Nat)
    (hs : s.cellOrder i j = s.lastOrder)
    (hk : CellAt (getFactualQuadrant s hrefs ctxs).numbers i j ks) :
    (∀ k ∈ ks, 1 ≤ k ∧ ∃ n, NoteOf s hrefs ctxs i j n ∧
      (getFactualQuadrant s hrefs ctxs).footnotes[k - 1]? = some n.inner) ∧
    (∀ n, NoteOf s hrefs ctxs i j n → ∃ k ∈ ks, (getFactualQuadrant s hrefs ctxs).footnotes[k - 1]? = some n.inner) := by
  rw [numbers_cell] at hk
  obtain ⟨h, c, hh, hc, rfl⟩ := hk
  have hr : hrefs ≠ [] := by rintro rfl; simp at hh
  have hcc : ctxs ≠ [] := by rintro rfl; simp at hc
  rw [footnotes_eq s hrefs ctxs hr hcc, hs]
  have nm := (addNotes_noteMap (noteGrid s hrefs ctxs).flatten.flatten).perm (ho.2 (idMap s hrefs ctxs))
  constructor
  · intro k hk
    rw [mem_cellNumbers] at hk
    obtain ⟨d, id, n0, rfl, hd, n, hn, rfl⟩ := hk
    obtain ⟨h1, h2⟩ := nm.mem _ _ (List.mem_iff_getElem?.2 ⟨d, hd⟩)
    obtain ⟨i', j', hn0⟩ := (noteOf_flatten s hrefs ctxs n0).1 h1
    have hno : NoteOf s hrefs ctxs i j n := ⟨h, c, hh, hc, hn⟩
    have he := hco _ _ _ _ _ _ hno hn0 h2.symm
    subst he
    refine ⟨by omega, n, hno, ?_⟩
    rw [show 1 + d - 1 = d by omega, List.getElem?_map, hd]; rfl
  · intro n hno
    obtain ⟨n', hn'⟩ := nm.has n ((noteOf_flatten s hrefs ctxs n).2 ⟨i, j, hno⟩)
    obtain ⟨h1, h2⟩ := nm.mem _ _ hn'
    obtain ⟨i', j', hn0⟩ := (noteOf_flatten s hrefs ctxs n').1 h1
    have he := hco _ _ _ _ _ _ hno hn0 h2.symm
    subst he
    obtain ⟨d, hd⟩ := List.mem_iff_getElem?.1 hn'
    obtain ⟨h', c', hh', hc', hn⟩ := hno
    rw [hh] at hh'; cases hh'
    rw [hc] at hc'; cases hc'
    refine ⟨1 + d, (mem_cellNumbers _ _ _ _).2 ⟨d, n.id, n, rfl, hd, n, hn, rfl⟩, ?_⟩
    rw [show 1 + d - 1 = d by omega, List.getElem?_map, hd]; rfl

/-- **C41 (partial).** With at most one footnote in the grid the orders cannot differ. -/
theorem C41_single_partial {Φ : Type} (s : FactSource Φ) (hrefs : List String) (ctxs : List RelevantContext)
    (ho : GoodOrders s) (hco : Coherent s hrefs ctxs)
    (hone : ∀ i j n i' j' n', NoteOf s hrefs ctxs i j n → NoteOf s hrefs ctxs i' j' n' → n.id = n'.id)
    (i j : Nat) (ks : List Nat) (hk : CellAt (getFactualQuadrant s hrefs ctxs).numbers i j ks) (k : Nat) (hkk : k ∈ ks) :
    ∃ n, NoteOf s hrefs ctxs i j n ∧ (getFactualQuadrant s hrefs ctxs).footnotes[k - 1]? = some n.inner := by
  have nm := addNotes_noteMap (noteGrid s hrefs ctxs).flatten.flatten
  have hshort : ∃ o, (∀ m : GoMap String Footnote, m.Perm (idMap s hrefs ctxs) → m = o) := by
    have hkeys : ∀ e ∈ idMap s hrefs ctxs, ∀ e' ∈ idMap s hrefs ctxs, e.1 = e'.1 := by
      intro e he e' he'
      obtain ⟨a1, a2⟩ := nm.mem e.1 e.2 he
      obtain ⟨b1, b2⟩ := nm.mem e'.1 e'.2 he'
      obtain ⟨_, _, a⟩ := (noteOf_flatten s hrefs ctxs _).1 a1
      obtain ⟨_, _, b⟩ := (noteOf_flatten s hrefs ctxs _).1 b1
      rw [← a2, ← b2]
      exact hone _ _ _ _ _ _ a b
    have hwf : MapWF (idMap s hrefs ctxs) := nm.wf
    generalize idMap s hrefs ctxs = m at hkeys hwf
    cases m with
    | nil => exact ⟨[], fun m' h => h.eq_nil⟩
    | cons e es =>
      cases es with
      | nil => exact ⟨[e], fun m' h => List.perm_singleton.1 h⟩
      | cons e' es =>
        have := hkeys e (by simp) e' (by simp)
        simp [MapWF, mapKeys, this] at hwf
  obtain ⟨o, ho'⟩ := hshort
  let s' : FactSource Φ := { s with cellOrder := fun _ _ => s.lastOrder }
  have hs' : getFactualQuadrant s hrefs ctxs = getFactualQuadrant s' hrefs ctxs := by
    unfold getFactualQuadrant
    split
    · rfl
    · simp only [s']
      congr 1
      show List.mapIdx _ (noteGrid s hrefs ctxs) = List.mapIdx _ (noteGrid s hrefs ctxs)
      congr 1
      funext i row
      congr 1
      funext j fs
      congr 1
      exact (ho' _ (ho.1 i j (idMap s hrefs ctxs))).trans (ho' _ (ho.2 (idMap s hrefs ctxs))).symm
  rw [hs'] at hk ⊢
  have ho2 : GoodOrders s' := ⟨fun _ _ m => ho.2 m, ho.2⟩
  obtain ⟨_, n, hn, hf⟩ := (C41_numbers_partial s' hrefs ctxs ho2 hco i j ks rfl hk).1 k hkk
  exact ⟨n, hn, hf⟩

/-- **C41 (partial).** For all orders: the numbers of a cell increase strictly, are positions in the list of footnotes,
and are as many as the cell has footnotes with different identifiers. -/
theorem C41_count_partial {Φ : Type} (s : FactSource Φ) (hrefs : List String) (ctxs : List RelevantContext)
    (ho : GoodOrders s) (i j : Nat) (ks : List Nat) (hk : CellAt (getFactualQuadrant s hrefs ctxs).numbers i j ks) :
    ks.Pairwise (· < ·) ∧ (∀ k ∈ ks, 1 ≤ k ∧ k ≤ (getFactualQuadrant s hrefs ctxs).footnotes.length) ∧
    ∃ h c, hrefs[i]? = some h ∧ ctxs[j]? = some c ∧
      ∃ ids : List String, ids.Nodup ∧ (∀ id, id ∈ ids ↔ ∃ n ∈ s.notes (s.find h c.contextRef), n.id = id) ∧ ks.length = ids.length := by
  rw [numbers_cell] at hk
  obtain ⟨h, c, hh, hc, rfl⟩ := hk
  have hr : hrefs ≠ [] := by rintro rfl; simp at hh
  have hcc : ctxs ≠ [] := by rintro rfl; simp at hc
  have hb := cellNumbers_le (s.notes (s.find h c.contextRef)) (s.cellOrder i j (idMap s hrefs ctxs)) 1
  refine ⟨hb.1, ?_, h, c, hh, hc, ?_⟩
  · intro k hk
    have := hb.2 k hk
    rw [footnotes_eq s hrefs ctxs hr hcc, List.length_map, (ho.2 _).length_eq]
    rw [(ho.1 i j _).length_eq] at this
    omega
  · refine ⟨dedup ((s.notes (s.find h c.contextRef)).map Footnote.id), nodup_dedup _, fun id => by simp [mem_dedup], ?_⟩
    rw [cellNumbers_length]
    have nm := (addNotes_noteMap (noteGrid s hrefs ctxs).flatten.flatten).perm (ho.1 i j (idMap s hrefs ctxs))
    generalize hns : s.notes (s.find h c.contextRef) = ns
    have hp : ((((s.cellOrder i j (idMap s hrefs ctxs)).filter fun e => ns.any (fun n => decide (n.id = e.1))).map Prod.fst)).Perm
        (dedup (ns.map Footnote.id)) := by
      rw [List.perm_ext_iff_of_nodup]
      · intro k
        simp only [List.mem_map, List.mem_filter, mem_dedup]
        constructor
        · rintro ⟨e, ⟨_, he⟩, rfl⟩
          obtain ⟨n, hn, e2⟩ := List.any_eq_true.1 he
          exact ⟨n, hn, by simpa using e2⟩
        · rintro ⟨n, hn, rfl⟩
          obtain ⟨n', hn'⟩ := nm.has n ((noteOf_flatten s hrefs ctxs n).2 ⟨i, j, h, c, hh, hc, hns ▸ hn⟩)
          exact ⟨(n.id, n'), ⟨hn', List.any_eq_true.2 ⟨n, hn, by simp⟩⟩, rfl⟩
      · exact (List.filter_sublist.map Prod.fst).nodup nm.wf
      · exact nodup_dedup _
    rw [← hp.length_eq, List.length_map]

/-- **C41 (partial).** For all orders: as many numbers as footnotes in every cell, and the footnotes of the grid are those of its facts,
each once. -/
theorem C41_noted_partial {Φ : Type} (s : FactSource Φ) (hrefs : List String) (ctxs : List RelevantContext) (ho : GoodOrders s) :
    Noted s hrefs ctxs (getFactualQuadrant s hrefs ctxs) := by
  have nm := addNotes_noteMap (noteGrid s hrefs ctxs).flatten.flatten
  by_cases hne : hrefs = [] ∨ ctxs = []
  · have hq := (C40_quadrant s hrefs ctxs).2.1 hne
    have hno : ∀ i j n, ¬ NoteOf s hrefs ctxs i j n := by
      rintro i j n ⟨h, c, h1, h2, _⟩
      rcases hne with rfl | rfl
      · simp at h1
      · simp at h2
    rw [hq]
    refine ⟨?_, fun _ i j n hn => absurd hn (hno i j n), fun t ht => by simp at ht,
      [], .nil, fun id => ⟨fun h => by simp at h, fun ⟨i, j, n, hn, _⟩ => absurd hn (hno i j n)⟩, rfl⟩
    rintro i j ks h c ⟨row, hr, _⟩
    simp at hr
  · rw [not_or] at hne
    have hf := footnotes_eq s hrefs ctxs hne.1 hne.2
    have hp := ho.2 (idMap s hrefs ctxs)
    have nm' := nm.perm hp
    refine ⟨fun i j ks h c hk hh hc => ?_, fun hco i j n hn => ?_, fun t ht => ?_,
      (idMap s hrefs ctxs).map Prod.fst, nm.wf, fun id => ?_, ?_⟩
    · obtain ⟨h1, h2, h', c', hh', hc', h3⟩ := C41_count_partial s hrefs ctxs ho i j ks hk
      rw [hh] at hh'; cases hh'
      rw [hc] at hc'; cases hc'
      exact ⟨h1, h2, h3⟩
    · obtain ⟨n', hn'⟩ := nm'.has n ((noteOf_flatten s hrefs ctxs n).2 ⟨i, j, hn⟩)
      obtain ⟨h1, h2⟩ := nm'.mem _ _ hn'
      obtain ⟨i', j', hn0⟩ := (noteOf_flatten s hrefs ctxs n').1 h1
      cases hco _ _ _ _ _ _ hn hn0 h2.symm
      rw [hf]
      exact List.mem_map.2 ⟨_, hn', rfl⟩
    · rw [hf] at ht
      obtain ⟨⟨k, n⟩, he, rfl⟩ := List.mem_map.1 ht
      obtain ⟨i, j, hn⟩ := (noteOf_flatten s hrefs ctxs n).1 (nm'.mem _ _ he).1
      exact ⟨i, j, n, hn, rfl⟩
    · rw [List.mem_map]
      constructor
      · rintro ⟨⟨k, n⟩, he, rfl⟩
        obtain ⟨h1, h2⟩ := nm.mem _ _ he
        obtain ⟨i, j, hn⟩ := (noteOf_flatten s hrefs ctxs n).1 h1
        exact ⟨i, j, n, hn, h2⟩
      · rintro ⟨i, j, n, hn, rfl⟩
        obtain ⟨n', hn'⟩ := nm.has n ((noteOf_flatten s hrefs ctxs n).2 ⟨i, j, hn⟩)
        exact ⟨_, hn', rfl⟩
    · rw [hf, List.length_map, List.length_map, hp.length_eq]

def noteA : Footnote := ⟨"a", "first", "", ""⟩
def noteB : Footnote := ⟨"b", "second", "", ""⟩

/-- Two contexts: the fact of the first has footnote `a`, that of the second has footnote `b`. -/
def noteSource (cell : GoMap String Footnote → GoMap String Footnote) : FactSource String where
  find := fun h c => some ⟨h, "", c, "", 0, false, h ++ c⟩
  notes := fun f => match f with
    | some f => if f.contextRef = "1" then [noteA] else if f.contextRef = "2" then [noteB] else []
    | none => []
  render := fun f => match f with | some f => f.inner | none => ""
  cellOrder := fun i j m => if i = 0 ∧ j = 0 then cell m else m
  lastOrder := id

def noteCols : List RelevantContext := [⟨"1", [], []⟩, ⟨"2", [], []⟩, ⟨"3", [], []⟩]

example : (getFactualQuadrant (noteSource id) ["x", "y"] noteCols).facts = [["x1", "x2", "x3"], ["y1", "y2", "y3"]] ∧
    (getFactualQuadrant (noteSource id) ["x", "y"] noteCols).numbers = [[[1], [2], []], [[1], [2], []]] ∧
    (getFactualQuadrant (noteSource id) ["x", "y"] noteCols).footnotes = ["first", "second"] := by decide +kernel

example : GoodOrders (noteSource id) ∧ Coherent (noteSource id) ["x", "y"] noteCols ∧
    (noteSource id).cellOrder 0 0 = (noteSource id).lastOrder := by
  refine ⟨⟨?_, fun m => List.Perm.refl _⟩, ?_, ?_⟩
  · intro i j m
    simp [noteSource]
  · rintro i j n i' j' n' ⟨h, c, _, _, hn⟩ ⟨h', c', _, _, hn'⟩ he
    have key : ∀ (h c : String) (n : Footnote), n ∈ (noteSource id).notes ((noteSource id).find h c) → n = noteA ∨ n = noteB := by
      intro h c n hn
      simp only [noteSource] at hn
      split at hn
      · left; simpa using hn
      · split at hn
        · right; simpa using hn
        · simp at hn
    rcases key _ _ _ hn with rfl | rfl <;> rcases key _ _ _ hn' with rfl | rfl <;>
      first | rfl | exact absurd he (by decide)
  · funext m; simp [noteSource]

/-- **C41 fails.** With two footnotes, a cell may list the number of the other footnote. -/
theorem C41_fails : ∃ (s : FactSource String) (hrefs : List String) (ctxs : List RelevantContext) (ks : List Nat) (k : Nat),
    GoodOrders s ∧ CellAt (getFactualQuadrant s hrefs ctxs).numbers 0 0 ks ∧ k ∈ ks ∧
      ∀ n, NoteOf s hrefs ctxs 0 0 n → (getFactualQuadrant s hrefs ctxs).footnotes[k - 1]? ≠ some n.inner := by
  refine ⟨noteSource List.reverse, ["x"], noteCols, [2], 2, ⟨?_, fun m => List.Perm.refl _⟩, ?_, by simp, ?_⟩
  · intro i j m
    simp only [noteSource]
    split
    · exact List.reverse_perm m
    · exact List.Perm.refl _
  · exact ⟨[[2], [2], []], by decide +kernel, by decide⟩
  · rintro n ⟨h, c, h1, h2, hn⟩
    simp at h1
    simp [noteCols] at h2
    subst h1 h2
    simp [noteSource] at hn
    subst hn
    decide +kernel

end Telefacts
