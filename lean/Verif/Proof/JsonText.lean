import Verif.Proof.Json
import Verif.Spec.Codec
/-! # Proofs about the JSON writer -/
namespace Telefacts.Json

theorem hex_hexDigit (n : Nat) (h : n < 16) : Hex (hexDigit n) n := by
  have : ∀ n < 16, unhex (hexDigit n) = some n := by decide
  exact (unhex_iff _ _).1 (this n h)

theorem piece_escape (c : Char) : Piece (escape c) c := by
  unfold escape
  split_ifs with h1 h2 h3 h4 h5 h6 h7 h8
  · rcases h1 with rfl | rfl
    · exact .quote
    · exact .backslash
  · have : c = Char.ofNat 8 := by rw [← h2, Char.ofNat_toNat]
    rw [this]; exact .b
  · have : c = Char.ofNat 12 := by rw [← h3, Char.ofNat_toNat]
    rw [this]; exact .f
  · have : c = Char.ofNat 10 := by rw [← h4, Char.ofNat_toNat]
    rw [this]; exact .n
  · have : c = Char.ofNat 13 := by rw [← h5, Char.ofNat_toNat]
    rw [this]; exact .r
  · have : c = Char.ofNat 9 := by rw [← h6, Char.ofNat_toNat]
    rw [this]; exact .t
  · have hlt : c.toNat < 128 := by
      rcases h7 with h | rfl | rfl | rfl
      · omega
      all_goals decide
    have := Piece.unit ['\\', 'u', '0', '0', hexDigit (c.toNat / 16), hexDigit (c.toNat % 16)] c.toNat
      ⟨_, _, _, _, 0, 0, c.toNat / 16, c.toNat % 16, rfl, (unhex_iff _ _).1 rfl, (unhex_iff _ _).1 rfl,
        hex_hexDigit _ (by omega), hex_hexDigit _ (by omega), by omega⟩ (by omega)
    rwa [Char.ofNat_toNat] at this
  · have := Piece.unit ['\\', 'u', '2', '0', '2', hexDigit (c.toNat % 16)] c.toNat
      ⟨_, _, _, _, 2, 0, 2, c.toNat % 16, rfl, (unhex_iff _ _).1 rfl, (unhex_iff _ _).1 rfl, (unhex_iff _ _).1 rfl,
        hex_hexDigit _ (by omega), by omega⟩ (by omega)
    rwa [Char.ofNat_toNat] at this
  · exact .plain c (fun h => h1 (.inl h)) (fun h => h1 (.inr h)) (by
      by_contra hlt
      exact h7 (.inl (by omega)))

theorem pieces_escape (s : List Char) : Pieces (s.flatMap escape) s := by
  induction s with
  | nil => exact .nil
  | cons c s ih => exact .cons _ _ c s (piece_escape c) ih

theorem quoted_quote (s : String) : Quoted (quote s) s := ⟨_, pieces_escape s.toList, rfl⟩

theorem blank_nil : Blank [] := fun _ h => by cases h

mutual
theorem reads_text : ∀ v : Json, Written v → Reads (text v) v
  | .null, _ => .null
  | .bool true, _ => .true
  | .bool false, _ => .false
  | .num lit, h => by unfold text; exact .num lit (by unfold Written at h; exact h)
  | .str s, _ => by unfold text; exact .str _ s (quoted_quote s)
  | .arr l, h => by
    have := elements_items l (by unfold Written at h; exact h)
    unfold text
    cases l with
    | nil => exact .arr0 [] blank_nil
    | cons v l => exact .arr _ v l (this v l rfl)
  | .obj l, h => by
    have := pairs_members l (by unfold Written at h; exact h)
    unfold text
    cases l with
    | nil => exact .obj0 [] blank_nil
    | cons p l => exact .obj _ p.1 p.2 l (this p.1 p.2 l rfl)

theorem elements_items : ∀ l : List Json, WrittenItems l → ∀ v l', l = v :: l' → Elements (items l) v l'
  | [], _ => fun _ _ h => by cases h
  | v :: l, h => by
    have hv := reads_text v (by unfold WrittenItems at h; exact h.1)
    have hl := elements_items l (by unfold WrittenItems at h; exact h.2)
    intro v' l' heq
    obtain ⟨rfl, rfl⟩ := List.cons.inj heq
    unfold items
    cases l with
    | nil => simpa using Elements.one [] (text v) [] v blank_nil hv blank_nil
    | cons w l => simpa using Elements.more [] (text v) [] _ v w l blank_nil hv blank_nil (hl w l rfl)

theorem pairs_members : ∀ l : List (String × Json), WrittenMembers l → ∀ k v l', l = (k, v) :: l' → Pairs (members l) k v l'
  | [], _ => fun _ _ _ h => by cases h
  | (k, v) :: l, h => by
    have hv := reads_text v (by unfold WrittenMembers at h; exact h.1)
    have hl := pairs_members l (by unfold WrittenMembers at h; exact h.2)
    intro k' v' l' heq
    obtain ⟨hp, rfl⟩ := List.cons.inj heq
    obtain ⟨rfl, rfl⟩ := Prod.mk.inj hp
    unfold members
    cases l with
    | nil => simpa using Pairs.one [] (quote k) [] [] (text v) [] k v blank_nil (quoted_quote k) blank_nil blank_nil hv blank_nil
    | cons p l =>
      simpa using Pairs.more [] (quote k) [] [] (text v) [] _ k p.1 v p.2 l blank_nil (quoted_quote k) blank_nil blank_nil hv
        blank_nil (hl p.1 p.2 l rfl)
end

theorem isText_text (v : Json) (h : Written v) (a b : List Char) (ha : Blank a) (hb : Blank b) :
    IsText (a ++ (text v ++ b)) v := ⟨a, b, _, ha, hb, reads_text v h, rfl⟩

/-! ## The characters written -/

instance (c : Char) : Decidable (Tame c) := by unfold Tame; infer_instance

theorem tame_hexDigit (n : Nat) : Tame (hexDigit n) := by
  by_cases h : n < 16
  · have : ∀ n < 16, Tame (hexDigit n) := by decide
    exact this n h
  · have : hexDigit n = '0' := by
      unfold hexDigit
      rw [List.getD_eq_getElem?_getD, List.getElem?_eq_none (by simp [hexDigits]; omega)]
      rfl
    rw [this]; decide

theorem tame_escape (c : Char) : ∀ x ∈ escape c, Tame x := by
  intro x hx
  unfold escape at hx
  split_ifs at hx with h1 h2 h3 h4 h5 h6 h7 h8
  · simp only [List.mem_cons, List.not_mem_nil, or_false] at hx
    rcases hx with rfl | rfl
    · decide
    · rcases h1 with rfl | rfl <;> decide
  all_goals simp only [List.mem_cons, List.not_mem_nil, or_false] at hx
  · rcases hx with rfl | rfl <;> decide
  · rcases hx with rfl | rfl <;> decide
  · rcases hx with rfl | rfl <;> decide
  · rcases hx with rfl | rfl <;> decide
  · rcases hx with rfl | rfl <;> decide
  · rcases hx with rfl | rfl | rfl | rfl | rfl | rfl
    · decide
    · decide
    · decide
    · decide
    · exact tame_hexDigit _
    · exact tame_hexDigit _
  · rcases hx with rfl | rfl | rfl | rfl | rfl | rfl
    · decide
    · decide
    · decide
    · decide
    · decide
    · exact tame_hexDigit _
  · subst hx
    refine ⟨?_, ?_, ?_, ?_, ?_, ?_⟩
    · by_contra h; exact h7 (.inl (by omega))
    · exact fun h => h7 (.inr (.inl h))
    · exact fun h => h7 (.inr (.inr (.inl h)))
    · exact fun h => h7 (.inr (.inr (.inr h)))
    · exact fun h => h8 (.inl h)
    · exact fun h => h8 (.inr h)

theorem tame_quote (s : String) : ∀ x ∈ quote s, Tame x := by
  intro x hx
  unfold quote at hx
  simp only [List.cons_append, List.mem_cons, List.mem_append, List.mem_flatMap, List.not_mem_nil, or_false] at hx
  rcases hx with rfl | ⟨c, _, hc⟩ | rfl
  · decide
  · exact tame_escape c x hc
  · decide

theorem tame_number (l : List Char) (h : Number l) : ∀ x ∈ l, Tame x := by
  intro x hx
  have := number_numeric l h x hx
  simp only [numeric, Bool.or_eq_true, Bool.and_eq_true, decide_eq_true_eq] at this
  rcases this with ((((h | rfl) | rfl) | rfl) | rfl) | rfl
  · refine ⟨by omega, ?_, ?_, ?_, by omega, by omega⟩ <;> (rintro rfl; revert h; decide)
  all_goals decide

mutual
theorem tame_text : ∀ v : Json, Written v → ∀ x ∈ text v, Tame x
  | .null, _ => by decide
  | .bool true, _ => by decide
  | .bool false, _ => by decide
  | .num lit, h => by unfold text; exact tame_number lit (by unfold Written at h; exact h)
  | .str s, _ => by unfold text; exact tame_quote s
  | .arr l, h => by
    intro x hx
    unfold text at hx
    simp only [List.cons_append, List.mem_cons, List.mem_append, List.not_mem_nil, or_false] at hx
    rcases hx with rfl | hx | rfl
    · decide
    · exact tame_items l (by unfold Written at h; exact h) x hx
    · decide
  | .obj l, h => by
    intro x hx
    unfold text at hx
    simp only [List.cons_append, List.mem_cons, List.mem_append, List.not_mem_nil, or_false] at hx
    rcases hx with rfl | hx | rfl
    · decide
    · exact tame_members l (by unfold Written at h; exact h) x hx
    · decide

theorem tame_items : ∀ l : List Json, WrittenItems l → ∀ x ∈ items l, Tame x
  | [], _ => fun x hx => by unfold items at hx; cases hx
  | v :: l, h => by
    intro x hx
    unfold WrittenItems at h
    unfold items at hx
    rcases List.mem_append.1 hx with hx | hx
    · exact tame_text v h.1 x hx
    · split at hx
      · cases hx
      · rcases List.mem_cons.1 hx with rfl | hx
        · decide
        · exact tame_items l h.2 x hx

theorem tame_members : ∀ l : List (String × Json), WrittenMembers l → ∀ x ∈ members l, Tame x
  | [], _ => fun x hx => by unfold members at hx; cases hx
  | (k, v) :: l, h => by
    intro x hx
    unfold WrittenMembers at h
    unfold members at hx
    simp only [List.append_assoc, List.mem_append, List.cons_append, List.mem_cons] at hx
    rcases hx with hx | rfl | hx | hx
    · exact tame_quote k x hx
    · decide
    · exact tame_text v h.1 x hx
    · split at hx
      · cases hx
      · rcases List.mem_cons.1 hx with rfl | hx
        · decide
        · exact tame_members l h.2 x hx
end

end Telefacts.Json
