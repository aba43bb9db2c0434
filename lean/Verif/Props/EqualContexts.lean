import Verif.Props.Grid
/-! # C150: contexts that say the same -/
namespace Telefacts
open Telefacts.Render Telefacts.Spec Telefacts.Linkbase Telefacts.Instance Telefacts.Schema

theorem rawPeriod_unique {c : Context} {t t' : String} (h : RawPeriod c t) (h' : RawPeriod c t') : t = t' := by
  rcases h with ⟨a, b, rfl⟩ | ⟨a, rfl⟩ <;> rcases h' with ⟨a', b', rfl⟩ | ⟨a', rfl⟩
  · rfl
  · exact absurd ⟨a, b⟩ a'
  · exact absurd ⟨a', b'⟩ a
  · rfl

/-- **C150 fails.** Two contexts of an instance that differ in their identifiers only have two columns, with one header and the same
members; a fact of the one stands in the first column, in the second the cell of its row is that of the other context. -/
theorem C150_alike_fails {Φ : Type} (f : Folder) (entity : String) (s : FactSource Φ) (hrefs : List String)
    (periods : List LanguagePack) (members : List (List MemberCell)) (voids : List VoidCell) (q : Quadrant Φ)
    (ha : Aligned f entity s hrefs periods members voids q) (i : HInstance) (hi : i ∈ f.insts) (c c' : Context)
    (hne : c.id ≠ c'.id) (heq : c' = { c with id := c'.id }) (he : OfEntity entity c) (hc : HasFactFor f hrefs i c) (hc' : HasFactFor f hrefs i c') :
    ∃ j j', j ≠ j' ∧ (∃ p, periods[j]? = some p ∧ periods[j']? = some p) ∧
      (∀ n href, hrefs[n]? = some href → CellAt q.facts n j (s.render (s.find href c.id)) ∧ CellAt q.facts n j' (s.render (s.find href c'.id))) ∧
      ∃ col col', ColumnOf f c col ∧ ColumnOf f c' col' ∧ (∀ m, m ∈ col.members ↔ m ∈ col'.members) ∧
        MemberColumn members voids j col ∧ MemberColumn members voids j' col' := by
  obtain ⟨cols, h1, h2, _, hmem, _, h3, _⟩ := ha
  have he' : OfEntity entity c' := by rw [heq]; exact he
  obtain ⟨j, col, hj, hco⟩ := column_exists h1 hi he hc
  obtain ⟨j', col', hj', hco'⟩ := column_exists h1 hi he' hc'
  have hmc : ∀ {j col}, cols[j]? = some col → MemberColumn members voids j col := by
    intro j col hj i x
    rw [hmem]
    exact ⟨fun ⟨v, c, h1, h2, h⟩ => by rw [hj] at h2; cases h2; exact ⟨v, h1, h⟩, fun ⟨v, h1, h⟩ => ⟨v, col, h1, hj, h⟩⟩
  refine ⟨j, j', ?_, ⟨col.period, by rw [h2, List.getElem?_map, hj]; rfl, ?_⟩, fun n href hn => ?_, col, col', hco, hco', ?_, hmc hj, hmc hj'⟩
  · rintro rfl
    rw [hj] at hj'; cases hj'
    exact hne (hco.1.symm.trans hco'.1)
  · rw [h2, List.getElem?_map, hj', Option.map_some]
    obtain ⟨_, ⟨t, ht, hp⟩, _⟩ := hco
    obtain ⟨_, ⟨t', ht', hp'⟩, _⟩ := hco'
    rw [hp, hp']
    have : RawPeriod c t' := by rw [heq] at ht'; exact ht'
    rw [rawPeriod_unique this ht]
  · exact ⟨(h3 _ _ _).2 ⟨href, col, hn, hj, by rw [hco.1]⟩, (h3 _ _ _).2 ⟨href, col', hn, hj', by rw [hco'.1]⟩⟩
  · intro m
    rw [hco.2.2, hco'.2.2, heq]
    exact Iff.rfl

/-- **C150, what holds.** A grid of a folder with one instance has one column for every context. -/
theorem C150_once_partial {Φ : Type} (f : Folder) (entity : String) (s : FactSource Φ) (hrefs : List String)
    (periods : List LanguagePack) (members : List (List MemberCell)) (voids : List VoidCell) (q : Quadrant Φ)
    (ha : Aligned f entity s hrefs periods members voids q) (i : HInstance) (hi : f.insts = [i]) :
    ∃ cs : List Context, (cs.map Context.id).Nodup ∧ (∀ c, c ∈ cs ↔ OfEntity entity c ∧ HasFactFor f hrefs i c) ∧
      cs.length = periods.length ∧ ∀ j p, periods[j]? = some p → ∃ c t, cs[j]? = some c ∧ RawPeriod c t ∧ p = [("Unlabelled", t)] ∧
        ∀ n href, hrefs[n]? = some href → CellAt q.facts n j (s.render (s.find href c.id)) := by
  obtain ⟨cols, ⟨css, cols', hcs, hfo, hsort⟩, h2, _, _, _, h3, _⟩ := ha
  rw [hi] at hcs
  cases hcs with
  | cons h1 hr =>
  cases hr with
  | nil =>
  rename_i cs
  rw [List.flatten_cons, List.flatten_nil, List.append_nil] at hfo
  have hperm : ∃ cs', cs'.Perm cs ∧ List.Forall₂ (ColumnOf f) cs' cols := by
    obtain ⟨cs', h4, h5⟩ := List.perm_comp_forall₂ hsort.1 hfo.flip
    exact ⟨cs', h5, h4.flip⟩
  obtain ⟨cs', hp, hfo'⟩ := hperm
  refine ⟨cs', (hp.map _).nodup_iff.2 h1.1, fun c => by rw [hp.mem_iff]; exact h1.2 c, by rw [h2, List.length_map]; exact hfo'.length_eq, fun j p hj => ?_⟩
  rw [h2, List.getElem?_map] at hj
  obtain ⟨col, hcol, rfl⟩ := Option.map_eq_some_iff.1 hj
  obtain ⟨c, hc, hco⟩ : ∃ c, cs'[j]? = some c ∧ ColumnOf f c col := by
    clear hp h3 h2 hj hsort ‹HasShape _ _ _› ‹∀ i j x, CellAt members i j x ↔ _› ‹_ → _ → _ ∧ _› ‹GoodOrders _ → _›
    induction hfo' generalizing j with
    | nil => simp at hcol
    | cons h _ ih =>
      cases j with
      | zero =>
        simp only [List.getElem?_cons_zero, Option.some.injEq] at hcol
        subst hcol
        exact ⟨_, rfl, h⟩
      | succ j => exact ih j hcol
  obtain ⟨hid, ⟨t, ht, hpd⟩, _⟩ := hco
  exact ⟨c, t, hc, ht, hpd, fun n href hn => (h3 _ _ _).2 ⟨href, col, hn, hcol, by rw [hid]⟩⟩

/-- An instance with two contexts for one date, each with a fact. -/
def alikeFolder : Folder where
  insts := [⟨"i", [ctxExample "a" "s" "1" "2020-12-31" [], ctxExample "b" "s" "1" "2020-12-31" []], [], [],
    [⟨"x#Cash", "1", "a", "", 0, false, "one"⟩, ⟨"x#Debt", "2", "b", "", 0, false, "two"⟩]⟩]
  concept := fun h => if h = "x#Cash" then some (conceptExample "Cash" false) else if h = "x#Debt" then some (conceptExample "Debt" false) else none
  label := fun h => [(Default, [(PureLabel, h)])]
  tree := fun _ _ => .mk "" .zero [.mk "cash" F64.zero [], .mk "debt" F64.zero []]

def alikeLb : Lb PArc := ⟨[⟨"r", ""⟩], [⟨"r", [⟨"x#Cash", "cash"⟩, ⟨"x#Debt", "debt"⟩],
  [⟨F64.zero, PresentationArcrole, "root", "cash", ""⟩, ⟨F64.zero, PresentationArcrole, "root", "debt", ""⟩]⟩]⟩

def alikeGrid : Run (PGrid (Option Fact) × List LabelRole × List Lang) :=
  pGrid alikeFolder ⟨id, id, plainSource alikeFolder.insts⟩ "s/1" "r" [alikeLb]

/-- The two facts for the date stand in two columns under the same header. -/
theorem alikeGrid_eq : (match alikeGrid with
    | .done (g, _, _) => some (g.rows.map IndentedLabel.href, g.periods, g.quadrant.facts.map fun r => r.map fun x => x.map Fact.inner)
    | _ => none) = some (["x#Cash", "x#Debt"], [[("Unlabelled", "2020-12-31")], [("Unlabelled", "2020-12-31")]],
      [[some "one", none], [none, some "two"]]) := by decide +kernel

/-- The hypotheses of `C150_alike_fails` and `C150_once_partial` hold of it. -/
example : ∃ g roles langs, alikeGrid = .done (g, roles, langs) ∧
    Aligned alikeFolder "s/1" (plainSource alikeFolder.insts langs) (g.rows.map IndentedLabel.href) g.periods g.members g.voids g.quadrant ∧
    (∃ i c c', alikeFolder.insts = [i] ∧ c.id ≠ c'.id ∧ c' = { c with id := c'.id } ∧ OfEntity "s/1" c ∧
      HasFactFor alikeFolder (g.rows.map IndentedLabel.href) i c ∧ HasFactFor alikeFolder (g.rows.map IndentedLabel.href) i c') := by
  have he := alikeGrid_eq
  split at he
  · rename_i g roles langs hg
    simp only [Option.some.injEq, Prod.mk.injEq] at he
    refine ⟨g, roles, langs, hg, (C92_presentation _ _ _ _ _ g roles langs hg).2.1, _, ctxExample "a" "s" "1" "2020-12-31" [],
      ctxExample "b" "s" "1" "2020-12-31" [], rfl, by decide, rfl, by unfold OfEntity; decide, ?_, ?_⟩
    · rw [he.1]
      exact ⟨_, List.mem_of_getElem? (i := 0) rfl, ⟨by decide, _, rfl, rfl⟩, [], _, rfl, rfl, by simp⟩
    · rw [he.1]
      exact ⟨_, List.mem_of_getElem? (i := 1) rfl, ⟨by decide, _, rfl, rfl⟩, [_], _, rfl, rfl, by simp [ctxExample]⟩
  · cases he

end Telefacts
