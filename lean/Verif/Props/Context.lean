import Verif.Proof.Context
/-! # C37 - C39: the columns of a grid -/
namespace Telefacts
open Telefacts.Render Telefacts.Instance Telefacts.Schema Telefacts.Spec

/-- **C37.** The columns are, up to order, the columns of contexts chosen instance by instance: for every instance each
context identifier once, and exactly the contexts of the entity that have a fact for a concrete row. -/
theorem C37_columns (f : Folder) (entity : String) (hrefs : List String) (r : Relevant)
    (h : getRelevantContexts f entity hrefs = .done r) :
    ∃ (css : List (List Context)) (cols : List RelevantContext),
      List.Forall₂ (fun i cs => (cs.map Context.id).Nodup ∧ ∀ c, c ∈ cs ↔ OfEntity entity c ∧ HasFactFor f hrefs i c)
        f.insts css ∧
      List.Forall₂ (ColumnOf f) css.flatten cols ∧ r.contexts.Perm cols := by
  rw [getRelevantContexts_eq] at h
  cases hc : allContexts entity (factualHrefs f hrefs) f.insts with
  | panic => rw [hc] at h; simp [Run.andThen] at h
  | loop => rw [hc] at h; simp [Run.andThen] at h
  | done cs =>
    rw [hc] at h
    simp only [Run.andThen, Run.done.injEq] at h
    obtain ⟨css, rfl, hf⟩ := allContexts_done hc
    refine ⟨css, css.flatten.map (newItem f), hf, ?_, ?_⟩
    · generalize css.flatten = l
      induction l with
      | nil => exact .nil
      | cons c cs ih => exact .cons (newItem_column f c) ih
    · rw [← h]; exact stableSort_perm _ _

/-- The entity text identifies the entity when identifiers have no slash. -/
theorem C37_entity {c d : Context} {entity : String} (hc : OfEntity entity c) (hd : OfEntity entity d)
    (h1 : '/' ∉ c.ident.toList) (h2 : '/' ∉ d.ident.toList) : c.scheme = d.scheme ∧ c.ident = d.ident := by
  unfold OfEntity at hc hd
  rw [← hd] at hc
  have h := congrArg (fun s => String.ofList s.toList.reverse) hc
  have e : ∀ a b : String, String.ofList (a ++ "/" ++ b).toList.reverse =
      String.ofList b.toList.reverse ++ String.singleton '/' ++ String.ofList a.toList.reverse := by
    intro a b
    apply String.toList_injective
    simp
  simp only [e] at h
  obtain ⟨ha, hb⟩ := cut_unique h (by simpa using h1) (by simpa using h2)
  have inj : ∀ a b : String, String.ofList a.toList.reverse = String.ofList b.toList.reverse → a = b := by
    intro a b h
    have := String.ofList_injective h
    exact String.toList_injective (List.reverse_injective this)
  exact ⟨inj _ _ hb, inj _ _ ha⟩

def ctxExample (id scheme ident instant : String) (mem : List ExplicitMember) : Context :=
  ⟨id, scheme, ident, ⟨mem, []⟩, instant, "", "", ⟨[], []⟩⟩

def conceptExample (id : String) (abs : Bool) : Concept :=
  ⟨⟨"", id⟩, id, ⟨"", ""⟩, ⟨"", ""⟩, false, "", "", abs, ""⟩

def factExample (href ctx : String) : Fact := ⟨href, "", ctx, "", 0, false, ""⟩

/-- Two instances; the row `x#Head` is abstract; context `b` has no fact of a row, `c` is of another entity. -/
def folderExample : Folder where
  insts := [⟨"i", [ctxExample "a" "s" "1" "2020-12-31" [⟨"x#Dim", "", "x#Mem", ""⟩], ctxExample "b" "s" "1" "2020-12-31" [],
      ctxExample "c" "s" "2" "2020-12-31" [], ctxExample "d" "s" "1" "2019-12-31" []], [], [],
    [factExample "x#Cash" "a", factExample "x#Head" "b", factExample "x#Cash" "c", factExample "x#Debt" "a",
      factExample "x#Debt" "d"]⟩,
    ⟨"j", [ctxExample "a" "s" "1" "2020-12-31" []], [], [], [factExample "x#Cash" "a"]⟩]
  concept := fun h => if h = "x#Head" then some (conceptExample "Head" true)
    else if h = "x#Cash" ∨ h = "x#Debt" then some (conceptExample "Cash" false) else none
  label := fun _ => []
  tree := fun _ _ => .mk "" .zero []

def columnRefs (r : Run Relevant) : Option (List (String × String × Nat)) :=
  match r with
  | .done r => some (r.contexts.map fun c => (c.contextRef, pureText c.period, c.members.length))
  | _ => none

example : columnRefs (getRelevantContexts folderExample "s/1" ["x#Head", "x#Cash", "x#Debt"]) =
    some [("d", "2019-12-31", 0), ("a", "2020-12-31", 0), ("a", "2020-12-31", 1)] := by decide +kernel

/-- **C38 (partial).** Finding the columns panics exactly when a fact for a concrete row refers to a context that its
instance does not have; it always ends. Missing: such a fact should be skipped (`C38_fails`). -/
theorem C38_no_panic_partial (f : Folder) (entity : String) (hrefs : List String) :
    (getRelevantContexts f entity hrefs = .panic ↔ ∃ i ∈ f.insts, Dangling f hrefs i) ∧
    getRelevantContexts f entity hrefs ≠ .loop := by
  have h := allContexts_panic f hrefs entity f.insts
  rw [getRelevantContexts_eq, ← h.1]
  cases hc : allContexts entity (factualHrefs f hrefs) f.insts with
  | panic => simp [Run.andThen]
  | loop => exact absurd hc h.2
  | done cs => simp [Run.andThen]

/-- **C38 fails.** A folder with one fact that refers to no context. -/
theorem C38_fails : ∃ (f : Folder) (entity : String) (hrefs : List String), getRelevantContexts f entity hrefs = .panic :=
  ⟨{ folderExample with insts := [⟨"i", [], [], [], [factExample "x#Cash" "a"]⟩] }, "s/1", ["x#Cash"], by rfl⟩

example : ∀ i ∈ folderExample.insts, ¬ Dangling folderExample ["x#Head", "x#Cash", "x#Debt"] i := by
  intro i hi hd
  obtain ⟨fact, hf, _, hn⟩ := hd
  simp only [folderExample, List.mem_cons, List.not_mem_nil, or_false] at hi
  rcases hi with rfl | rfl
  all_goals
    simp only [List.mem_cons, List.not_mem_nil, or_false] at hf
    revert hn
    rcases hf with rfl | rfl | rfl | rfl | rfl <;> decide

/-- **C39.** Columns are stably sorted by raw period, number of members and first member. -/
theorem C39_sorted (l : List RelevantContext) : StableSortedOn ColumnBefore columnKey l (sortContexts l) :=
  sortContexts_sorted l

/-- **C39.** The columns of a grid are so sorted. -/
theorem C39_columns (f : Folder) (entity : String) (hrefs : List String) (r : Relevant)
    (h : getRelevantContexts f entity hrefs = .done r) :
    r.contexts.Pairwise (fun a b => ¬ ColumnBefore (columnKey b) (columnKey a)) := by
  rw [getRelevantContexts_eq] at h
  cases hc : allContexts entity (factualHrefs f hrefs) f.insts with
  | panic => rw [hc] at h; simp [Run.andThen] at h
  | loop => rw [hc] at h; simp [Run.andThen] at h
  | done cs =>
    rw [hc] at h
    simp only [Run.andThen, Run.done.injEq] at h
    rw [← h]
    exact (C39_sorted _).2.1

def colExample (ref period : String) (mem : List RelevantMember) : RelevantContext := ⟨ref, [("Unlabelled", period)], mem⟩
def memExample (dim mem : String) (seg : Bool) : RelevantMember := ⟨⟨dim, []⟩, some ⟨mem, []⟩, "", none, seg⟩

example : (sortContexts [colExample "a" "2020" [memExample "d" "m2" true], colExample "b" "2020" [], colExample "c" "2019" [],
    colExample "d" "2020" [memExample "d" "m1" false], colExample "e" "2020" [memExample "d" "m1" true],
    colExample "f" "2020" []]).map RelevantContext.contextRef = ["c", "b", "f", "e", "a", "d"] := by decide +kernel

end Telefacts
