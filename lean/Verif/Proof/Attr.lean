import Verif.Model.Attr
import Verif.Spec.Attr
import Verif.Proof.Basic
/-!
# Lemmas for names and namespaces
-/
namespace Telefacts
open Spec

/-! ## Xmlns -/

theorem ns_bound (attrs : List Attr) (p : String) : BoundTo attrs p (ns attrs p) := by
  induction attrs with
  | nil => right; simp [ns]
  | cons a as ih =>
    simp only [ns]
    by_cases h : a.name = ⟨"xmlns", p⟩
    · left
      refine ⟨a, (firstWith_cons_pos (fun a : Attr => a.name = ⟨"xmlns", p⟩) h a).2 rfl, ?_⟩
      simp [h]
    · have h' : ¬ (a.name.space = "xmlns" ∧ a.name.loc = p) := by
        intro hh; apply h; cases hn : a.name; simp_all
      rw [if_neg h']
      rcases ih with ⟨b, hb, hv⟩ | ⟨hb, hv⟩
      · left; exact ⟨b, (firstWith_cons_neg (fun a : Attr => a.name = ⟨"xmlns", p⟩) h b).2 hb, hv⟩
      · right
        refine ⟨?_, hv⟩
        intro b hb'
        rcases List.mem_cons.1 hb' with rfl | hb'
        · exact h
        · exact hb b hb'

theorem default_ns (attrs : List Attr) :
    DefaultNs attrs (match findAttr attrs "xmlns" with | some a => a.value | none => "") := by
  induction attrs with
  | nil => right; simp [findAttr]
  | cons a as ih =>
    simp only [findAttr]
    by_cases h : a.name.loc = "xmlns"
    · left
      exact ⟨a, (firstWith_cons_pos (fun a : Attr => a.name.loc = "xmlns") h a).2 rfl, by simp [h]⟩
    · rw [if_neg h]
      rcases ih with ⟨b, hb, hv⟩ | ⟨hb, hv⟩
      · left; exact ⟨b, (firstWith_cons_neg (fun a : Attr => a.name.loc = "xmlns") h b).2 hb, hv⟩
      · right
        refine ⟨?_, hv⟩
        intro b hb'
        rcases List.mem_cons.1 hb' with rfl | hb'
        · exact h
        · exact hb b hb'

theorem boundTo_unique {attrs : List Attr} {p u v : String} (h1 : BoundTo attrs p u)
    (h2 : BoundTo attrs p v) : u = v := by
  rcases h1 with ⟨a, ha, rfl⟩ | ⟨ha, rfl⟩ <;> rcases h2 with ⟨b, hb, rfl⟩ | ⟨hb, rfl⟩
  · rw [firstWith_unique ha hb]
  · exact absurd (firstWith_mem ha).2 (hb a (firstWith_mem ha).1)
  · exact absurd (firstWith_mem hb).2 (ha b (firstWith_mem hb).1)
  · rfl

theorem defaultNs_unique {attrs : List Attr} {u v : String} (h1 : DefaultNs attrs u)
    (h2 : DefaultNs attrs v) : u = v := by
  rcases h1 with ⟨a, ha, rfl⟩ | ⟨ha, rfl⟩ <;> rcases h2 with ⟨b, hb, rfl⟩ | ⟨hb, rfl⟩
  · rw [firstWith_unique ha hb]
  · exact absurd (firstWith_mem ha).2 (hb a (firstWith_mem ha).1)
  · exact absurd (firstWith_mem hb).2 (ha b (firstWith_mem hb).1)
  · rfl

theorem singleton_colon : String.singleton ':' = ":" := by decide

theorem cut_colon {p l : String} (h : ':' ∉ p.toList) : cut ':' (p ++ ":" ++ l) = some (p, l) := by
  rw [cut_eq_some, singleton_colon]; exact ⟨rfl, h⟩

/-! ## newPrefix -/

theorem toChar_lt {i : Nat} (h : i < 26) : toChar i = alphabet[i]? := by
  simp [toChar, toCharAux, h]

theorem toChar_26 : toChar 26 = none := by simp [toChar, toCharAux]

theorem toCharAux_none_iff (d i : Nat) (h : i < d) : toCharAux d i = none ↔ i % 27 = 26 := by
  induction d generalizing i with
  | zero => omega
  | succ d ih =>
    rw [toCharAux]
    by_cases h1 : i < 26
    · simp only [h1, if_true]
      rw [List.getElem?_eq_none_iff]
      simp [alphabet]; omega
    · by_cases h2 : i = 26
      · simp [h2]
      · simp only [h1, h2, if_false]
        have := ih (i - 27) (by omega)
        have e : (i - 27) % 27 = i % 27 := by omega
        rw [e] at this
        cases h3 : toCharAux d (i - 27) <;> simp_all

theorem toChar_none_iff (i : Nat) : toChar i = none ↔ i % 27 = 26 :=
  toCharAux_none_iff _ _ (by omega)

theorem newPrefixLoop_spec (origin : String) (taken : List String) (k : Nat) (acc : Nat)
    (hk : acc + k = 26) (curr : String) :
    newPrefixLoop origin taken (k + 1) acc curr =
      match (curr :: (alphabet.drop acc).map (fun c => origin ++ "-" ++ c)).find? (fun c => c ∉ taken) with
      | some c => some (.ok c)
      | none => some .panic := by
  induction k generalizing acc curr with
  | zero =>
    obtain rfl : acc = 26 := by omega
    simp only [newPrefixLoop, toChar_26]
    by_cases h : curr ∈ taken <;> simp [h, alphabet]
  | succ k ih =>
    rw [newPrefixLoop]
    by_cases h : curr ∈ taken
    · have hl : acc < 26 := by omega
      have hl' : acc < alphabet.length := by simpa [alphabet] using hl
      rw [toChar_lt hl, List.getElem?_eq_getElem hl']
      simp only [h, if_true]
      rw [ih (acc + 1) (by omega)]
      have : alphabet.drop acc = alphabet[acc] :: alphabet.drop (acc + 1) :=
        List.drop_eq_getElem_cons hl'
      rw [this, List.find?_cons_of_neg (a := curr) (by simp [h]), List.map_cons]
    · simp [h]

theorem alphabet_letters : alphabet = letters.map String.singleton := by decide

theorem candidates_eq (o : String) : candidates o = o :: alphabet.map (fun c => o ++ "-" ++ c) := by
  rw [alphabet_letters, candidates, List.map_map]; rfl

theorem newPrefix_eq (o : String) (taken : List String) :
    newPrefix o taken = match (candidates o).find? (fun c => c ∉ taken) with
      | some c => .ok c
      | none => .panic := by
  unfold newPrefix
  rw [newPrefixLoop_spec o taken 26 0 rfl o, candidates_eq]
  simp only [List.drop_zero]
  cases (o :: alphabet.map (fun c => o ++ "-" ++ c)).find? (fun c => c ∉ taken) <;> rfl

theorem newPrefix_total (o : String) (taken : List String) :
    ∃ r, newPrefixLoop o taken 27 0 o = some r := by
  rw [newPrefixLoop_spec o taken 26 0 rfl o]
  cases (o :: (alphabet.drop 0).map (fun c => o ++ "-" ++ c)).find? (fun c => c ∉ taken) <;> simp

theorem newPrefix_ok {o t : String} {taken : List String} (h : newPrefix o taken = .ok t) :
    t ∉ taken ∧ t ∈ candidates o := by
  rw [newPrefix_eq] at h
  cases hf : (candidates o).find? (fun c => c ∉ taken) with
  | none => rw [hf] at h; cases h
  | some c =>
    rw [hf] at h
    cases h
    have h1 := List.find?_some hf
    exact ⟨by simpa using h1, List.mem_of_find?_eq_some hf⟩

theorem newPrefix_ne_err {o m : String} {taken : List String} : newPrefix o taken ≠ .err m := by
  rw [newPrefix_eq]; cases (candidates o).find? (fun c => c ∉ taken) <;> simp

theorem newPrefix_panic_iff {o : String} {taken : List String} :
    newPrefix o taken = .panic ↔ ∀ c ∈ candidates o, c ∈ taken := by
  rw [newPrefix_eq]
  cases hf : (candidates o).find? (fun c => c ∉ taken) with
  | none => simp at hf ⊢; exact hf
  | some c =>
    simp only [reduceCtorEq, false_iff]
    intro h
    have h1 := List.find?_some hf
    simp at h1
    exact h1 (h c (List.mem_of_find?_eq_some hf))

/-! ## processPrefixes -/

theorem declarations_append (l : List XpathAttr) (a : XpathAttr) :
    declarations (l ++ [a]) =
      if a.namespaceURI = "xmlns" then declarations l ++ [(a.name.loc, a.value)] else declarations l := by
  unfold declarations
  by_cases h : a.namespaceURI = "xmlns" <;> simp [List.filter_append, h]

/-- What one successful round does. -/
theorem prefixStep_ok {st st' : PrefixState} {a : XpathAttr} (h : prefixStep st a = .ok st') :
    (a.namespaceURI ≠ "xmlns" ∧ st' = st) ∨
    (a.namespaceURI = "xmlns" ∧ ∃ t, targetPrefix a st.nameMap st.prefixes = .ok t ∧
      st' = ⟨mapSet st.nameMap a.value t, mapSet st.prefixes a.name.loc a.value,
             mapSet st.origin a.name.loc a.value, mapSet st.target a.name.loc t⟩) := by
  unfold prefixStep at h
  by_cases hx : a.namespaceURI = "xmlns"
  · right
    refine ⟨hx, ?_⟩
    simp only [hx, ne_eq, not_true_eq_false, if_false] at h
    cases ht : targetPrefix a st.nameMap st.prefixes with
    | ok t => rw [ht] at h; simp at h; exact ⟨t, rfl, h.symm⟩
    | err m => rw [ht] at h; simp at h
    | panic => rw [ht] at h; simp at h
  · left; simp [hx] at h; exact ⟨hx, h.symm⟩

/-- Invariant of the loop of `processPrefixes`. -/
structure PInv (pre : List XpathAttr) (st : PrefixState) : Prop where
  origin : ∀ o n, mapGet st.origin o = some n ↔ Bound pre o n
  target : ∀ o n, mapGet st.origin o = some n →
    ∃ t, mapGet st.target o = some t ∧ mapGet st.nameMap n = some t
  known : ∀ e ∈ wellKnown, mapGet st.nameMap e.1 = some e.2
  taken : ∀ p, p ∈ mapKeys st.prefixes ↔ p ∈ wellKnown.map Prod.snd ∨ p ∈ (declarations pre).map Prod.fst
  names : ∀ n, n ∈ mapKeys st.nameMap ↔ n ∈ wellKnown.map Prod.fst ∨ n ∈ (declarations pre).map Prod.snd
  targetKeys : ∀ o, mapGet st.target o ≠ none → mapGet st.origin o ≠ none
  wfOrigin : MapWF st.origin

theorem pinv_init : PInv [] initPrefixState where
  origin o n := by
    simp only [initPrefixState, mapGet_nil, Bound, declarations]
    simp [not_lastWith_nil]
  target := by simp [initPrefixState]
  known := by decide
  taken p := by simp [initPrefixState, wellKnown, mapKeys, declarations]
  names p := by
    simp [initPrefixState, wellKnown, mapKeys, declarations, XBRLI, XBRLDI, XLINK, XSI, ISO4217, LINK]
  targetKeys := by simp [initPrefixState]
  wfOrigin := MapWF.nil

theorem targetPrefix_keep {a : XpathAttr} {st : PrefixState} {t : String}
    (h : targetPrefix a st.nameMap st.prefixes = .ok t) (n t' : String)
    (hn : mapGet st.nameMap n = some t') : mapGet (mapSet st.nameMap a.value t) n = some t' := by
  rw [mapGet_mapSet]
  split
  · rename_i he
    subst he
    simp [targetPrefix, hn] at h
    rw [h]
  · exact hn

theorem pinv_step {pre : List XpathAttr} {st st' : PrefixState} {a : XpathAttr} (hi : PInv pre st)
    (h : prefixStep st a = .ok st') : PInv (pre ++ [a]) st' := by
  rcases prefixStep_ok h with ⟨hx, rfl⟩ | ⟨hx, t, ht, rfl⟩
  · have : declarations (pre ++ [a]) = declarations pre := by simp [declarations_append, hx]
    constructor
    · intro o n; rw [hi.origin]; simp [Bound, this]
    · exact hi.target
    · exact hi.known
    · intro p; rw [hi.taken, this]
    · intro p; rw [hi.names, this]
    · exact hi.targetKeys
    · exact hi.wfOrigin
  · have hd : declarations (pre ++ [a]) = declarations pre ++ [(a.name.loc, a.value)] := by
      simp [declarations_append, hx]
    constructor
    · intro o n
      simp only [mapGet_mapSet, Bound, hd, lastWith_append_singleton]
      have := hi.origin o n
      simp only [Bound] at this
      by_cases he : a.name.loc = o
      · subst he; simp; exact eq_comm
      · simp [he, this]
    · intro o n
      rw [mapGet_mapSet]
      by_cases he : a.name.loc = o
      · subst he
        simp only [if_true, Option.some.injEq]
        rintro rfl
        exact ⟨t, by simp, by simp⟩
      · simp only [he, if_false]
        intro ho
        obtain ⟨t', h1, h2⟩ := hi.target o n ho
        exact ⟨t', by simp [mapGet_mapSet, he, h1], targetPrefix_keep ht n t' h2⟩
    · intro e he
      exact targetPrefix_keep ht _ _ (hi.known e he)
    · intro p
      rw [mem_mapKeys_mapSet, hi.taken, hd]; simp; grind
    · intro p
      rw [mem_mapKeys_mapSet, hi.names, hd]; simp; grind
    · intro o
      rw [mapGet_mapSet, mapGet_mapSet]
      split
      · simp
      · exact hi.targetKeys o
    · exact hi.wfOrigin.mapSet _ _

theorem newNameProvider_ok {attrs : List XpathAttr} {np : NameProvider}
    (h : newNameProvider attrs = .ok np) :
    ∃ st, foldRes prefixStep initPrefixState attrs = .ok st ∧ PInv attrs st ∧
      np = ⟨st.origin, st.target⟩ := by
  unfold newNameProvider at h
  cases hf : foldRes prefixStep initPrefixState attrs with
  | ok st =>
    rw [hf] at h; simp at h
    refine ⟨st, rfl, ?_, h.symm⟩
    exact foldRes_inv_split PInv pinv_init (fun b p x rest b' _ hp hx => pinv_step hp hx) hf
  | err m => rw [hf] at h; simp at h
  | panic => rw [hf] at h; simp at h

theorem bound_mem {attrs : List XpathAttr} {p n : String} (h : Bound attrs p n) :
    (p, n) ∈ declarations attrs := by
  obtain ⟨pre, post, he, _, _⟩ := h; rw [he]; simp

theorem bound_unique {attrs : List XpathAttr} {p n m : String} (h1 : Bound attrs p n)
    (h2 : Bound attrs p m) : n = m := by
  unfold Bound at h1 h2
  exact congrArg Prod.snd (lastWith_unique h1 h2)

end Telefacts
