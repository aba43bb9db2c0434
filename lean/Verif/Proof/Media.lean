import Verif.Spec.Media
import Verif.Proof.Query
/-! # Lemmas on data URLs -/
namespace Telefacts.Media

theorem letter_value {v : Nat} (h : v < 64) : Value (letter v) v := by
  have : ∀ v : Fin 64, Value (letter v.val) v.val := by unfold Value; decide +kernel
  exact this ⟨v, h⟩

theorem letter_mod (v : Nat) : letter v = letter (v % 64) := by unfold letter; rw [Nat.mod_mod]

theorem letter_mod_value (v : Nat) : Value (letter v) (v % 64) := by
  rw [letter_mod]; exact letter_value (Nat.mod_lt _ (by decide))

theorem value_inj {c : Char} {v w : Nat} (h : Value c v) (h' : Value c w) : v = w := by
  unfold Value at h h'
  have e1 : '+'.toNat = 43 := rfl
  have e2 : '/'.toNat = 47 := rfl
  rcases h with h | h | h | ⟨rfl, h⟩ | ⟨rfl, h⟩ <;> rcases h' with h' | h' | h' | ⟨h', h''⟩ | ⟨h', h''⟩ <;>
    first | omega | (subst h'; omega) | (simp_all; done) | (rw [h'] at h; omega)

theorem value_letter {c : Char} {v : Nat} (h : Value c v) : c = letter v := by
  have hv : v < 64 := by unfold Value at h; omega
  have h2 := letter_value hv
  have hc : c.toNat = (letter v).toNat := by
    generalize letter v = d at h2
    unfold Value at h h2
    have e1 : '+'.toNat = 43 := rfl
    have e2 : '/'.toNat = 47 := rfl
    rcases h with h | h | h | ⟨rfl, h⟩ | ⟨rfl, h⟩ <;> rcases h2 with h2 | h2 | h2 | ⟨rfl, h2⟩ | ⟨rfl, h2⟩ <;> omega
  exact Char.toNat_inj.1 hc

theorem encode_decodes : ∀ b : Bytes, Base64 (encode b) b
  | [] => .done
  | [a] => by
    rw [encode]
    refine .two (letter_mod_value _) (letter_mod_value _) ?_
    have := a.isLt; omega
  | [a, b] => by
    rw [encode]
    refine .three (letter_mod_value _) (letter_mod_value _) (letter_mod_value _) ?_
    have := a.isLt; have := b.isLt; omega
  | a :: b :: c :: rest => by
    rw [encode]
    refine .four (letter_mod_value _) (letter_mod_value _) (letter_mod_value _) (letter_mod_value _) ?_ (encode_decodes rest)
    have := a.isLt; have := b.isLt; have := c.isLt; omega

theorem value_ne {v : Nat} (h : Value '=' v) : False := by
  unfold Value at h
  have e : '='.toNat = 61 := rfl
  rcases h with h | h | h | ⟨h, _⟩ | ⟨h, _⟩
  · omega
  · omega
  · omega
  · exact absurd h (by decide)
  · exact absurd h (by decide)

theorem value_lt {c : Char} {v : Nat} (h : Value c v) : v < 64 := by unfold Value at h; omega

theorem base64_inj {s : List Char} {b b' : Bytes} (h : Base64 s b) (h' : Base64 s b') : b = b' := by
  induction h generalizing b' with
  | done => cases h'; rfl
  | @four c₁ c₂ c₃ c₄ v₁ v₂ v₃ v₄ s x y z b h1 h2 h3 h4 he _ ih =>
    cases h' with
    | four k1 k2 k3 k4 ke kr =>
      rename_i x' y' z' _
      cases value_inj h1 k1; cases value_inj h2 k2; cases value_inj h3 k3; cases value_inj h4 k4
      have := x.isLt; have := y.isLt; have := z.isLt
      have := x'.isLt; have := y'.isLt; have := z'.isLt
      have ex : x = x' := Fin.ext (by omega)
      have ey : y = y' := Fin.ext (by omega)
      have ez : z = z' := Fin.ext (by omega)
      rw [ex, ey, ez, ih kr]
    | three => exact (value_ne h4).elim
    | two => exact (value_ne h4).elim
  | @three c₁ c₂ c₃ v₁ v₂ v₃ x y h1 h2 h3 he =>
    cases h' with
    | four k1 k2 k3 k4 => exact (value_ne k4).elim
    | three k1 k2 k3 ke =>
      rename_i x' y'
      cases value_inj h1 k1; cases value_inj h2 k2; cases value_inj h3 k3
      have := x.isLt; have := y.isLt; have := x'.isLt; have := y'.isLt
      have ex : x = x' := Fin.ext (by omega)
      have ey : y = y' := Fin.ext (by omega)
      rw [ex, ey]
    | two => exact (value_ne h3).elim
  | @two c₁ c₂ v₁ v₂ x h1 h2 he =>
    cases h' with
    | four k1 k2 k3 k4 => exact (value_ne k4).elim
    | three k1 k2 k3 ke => exact (value_ne k3).elim
    | two k1 k2 ke =>
      rename_i x'
      cases value_inj h1 k1; cases value_inj h2 k2
      have := x.isLt; have := x'.isLt
      rw [show x = x' from Fin.ext (by omega)]

theorem detect_iff (b : Bytes) (m : String) (hm : m = "image/jpeg" ∨ m = "image/png") :
    detect b = m ↔ HasType b m := by
  unfold detect HasType
  have e1 : [0xFF, 0xD8, 0xFF] <+: b ↔ ∃ r, b = 0xFF :: 0xD8 :: 0xFF :: r :=
    ⟨fun ⟨r, h⟩ => ⟨r, h.symm⟩, fun ⟨r, h⟩ => ⟨r, h.symm⟩⟩
  have e2 : [0x89, 0x50, 0x4E, 0x47, 0x0D, 0x0A, 0x1A, 0x0A] <+: b ↔
      ∃ r, b = 0x89 :: 0x50 :: 0x4E :: 0x47 :: 0x0D :: 0x0A :: 0x1A :: 0x0A :: r :=
    ⟨fun ⟨r, h⟩ => ⟨r, h.symm⟩, fun ⟨r, h⟩ => ⟨r, h.symm⟩⟩
  have hx : ¬ ((∃ r, b = (0xFF : Byte) :: 0xD8 :: 0xFF :: r) ∧
      ∃ r, b = 0x89 :: 0x50 :: 0x4E :: 0x47 :: 0x0D :: 0x0A :: 0x1A :: 0x0A :: r) := by
    rintro ⟨⟨r, rfl⟩, r', h⟩
    exact absurd (List.cons.inj h).1 (by decide)
  by_cases h1 : ∃ r, b = (0xFF : Byte) :: 0xD8 :: 0xFF :: r
  · have h2 := fun h2 => hx ⟨h1, h2⟩
    rw [if_pos (e1.2 h1)]
    exact ⟨fun h => .inl ⟨h.symm, h1⟩, fun h => h.elim (fun h => h.1.symm) fun h => (h2 h.2).elim⟩
  · rw [if_neg (fun h => h1 (e1.1 h))]
    by_cases h2 : ∃ r, b = (0x89 : Byte) :: 0x50 :: 0x4E :: 0x47 :: 0x0D :: 0x0A :: 0x1A :: 0x0A :: r
    · rw [if_pos (e2.2 h2)]
      simp only [h1, h2, and_true, and_false, false_or]
      exact ⟨fun h => h.symm, fun h => h.symm⟩
    · rw [if_neg (fun h => h2 (e2.1 h))]
      simp only [h1, h2, and_false, or_false]
      rcases hm with rfl | rfl <;> decide

theorem base64_iff (s : List Char) (b : Bytes) : Base64 s b ↔ s = encode b := by
  refine ⟨fun h => ?_, fun h => h ▸ encode_decodes b⟩
  induction h with
  | done => rfl
  | @four c₁ c₂ c₃ c₄ v₁ v₂ v₃ v₄ s x y z b h1 h2 h3 h4 he _ ih =>
    have l1 := value_lt h1; have l2 := value_lt h2; have l3 := value_lt h3; have l4 := value_lt h4
    rw [encode, ← ih, value_letter h1, value_letter h2, value_letter h3, value_letter h4]
    simp only [letter_mod (_ / _), letter_mod (_ + _)]
    have e1 : (x.val * 65536 + y.val * 256 + z.val) / 262144 % 64 = v₁ := by omega
    have e2 : (x.val * 65536 + y.val * 256 + z.val) / 4096 % 64 = v₂ := by omega
    have e3 : (x.val * 65536 + y.val * 256 + z.val) / 64 % 64 = v₃ := by omega
    have e4 : (x.val * 65536 + y.val * 256 + z.val) % 64 = v₄ := by omega
    rw [e1, e2, e3, e4]
  | @three c₁ c₂ c₃ v₁ v₂ v₃ x y h1 h2 h3 he =>
    have l1 := value_lt h1; have l2 := value_lt h2; have l3 := value_lt h3
    rw [encode, value_letter h1, value_letter h2, value_letter h3]
    simp only [letter_mod (_ / _)]
    have e1 : (x.val * 65536 + y.val * 256) / 262144 % 64 = v₁ := by omega
    have e2 : (x.val * 65536 + y.val * 256) / 4096 % 64 = v₂ := by omega
    have e3 : (x.val * 65536 + y.val * 256) / 64 % 64 = v₃ := by omega
    rw [e1, e2, e3]
  | @two c₁ c₂ v₁ v₂ x h1 h2 he =>
    have l1 := value_lt h1; have l2 := value_lt h2
    rw [encode, value_letter h1, value_letter h2]
    simp only [letter_mod (_ / _)]
    have e1 : (x.val * 65536) / 262144 % 64 = v₁ := by omega
    have e2 : (x.val * 65536) / 4096 % 64 = v₂ := by omega
    rw [e1, e2]

theorem detect_types (b : Bytes) : ¬ (detect b = "image/jpeg" ∧ detect b = "image/png") := by
  rintro ⟨h, h'⟩
  rw [h] at h'
  exact absurd h' (by decide)

theorem dataUrl_iff (url : String) (b : Bytes) : DataUrl url b ↔
    (detect b = "image/jpeg" ∧ url = "data:image/jpeg;base64," ++ String.ofList (encode b)) ∨
    (detect b = "image/png" ∧ url = "data:image/png;base64," ++ String.ofList (encode b)) := by
  constructor
  · rintro ⟨mime, s, ht, hu, hb⟩
    rw [base64_iff] at hb
    subst hb
    rcases ht with ⟨rfl, r⟩ | ⟨rfl, r⟩
    · exact .inl ⟨(detect_iff _ _ (.inl rfl)).2 (.inl ⟨rfl, r⟩), hu⟩
    · exact .inr ⟨(detect_iff _ _ (.inr rfl)).2 (.inr ⟨rfl, r⟩), hu⟩
  · rintro (⟨h, hu⟩ | ⟨h, hu⟩)
    · exact ⟨_, _, (detect_iff _ _ (.inl rfl)).1 h, hu, encode_decodes b⟩
    · exact ⟨_, _, (detect_iff _ _ (.inr rfl)).1 h, hu, encode_decodes b⟩

theorem processEntry_get (m : GoMap String String) (e : Entry) (n url : String) :
    mapGet (processEntry m e) n = some url ↔
      (e.name = n ∧ Shows e url) ∨ ((e.name ≠ n ∨ ∀ u, ¬ Shows e u) ∧ mapGet m n = some url) := by
  unfold processEntry Shows
  by_cases hd : e.isDir = true
  · simp [hd]
  · simp only [hd, if_false, Bool.false_eq_true]
    cases hc : e.content with
    | none => simp
    | some b =>
      simp only [dataUrl_iff, Option.some.injEq, exists_eq_left']
      by_cases h1 : detect b = "image/jpeg"
      · have h2 : detect b ≠ "image/png" := fun h => detect_types b ⟨h1, h⟩
        simp only [h1, if_true, mapGet_mapSet]
        by_cases hn : e.name = n
        · subst hn; simp [eq_comm]
        · simp [hn, Ne.symm hn]
      · by_cases h2 : detect b = "image/png"
        · simp only [h2, if_true, if_neg (show ¬ "image/png" = "image/jpeg" by decide), mapGet_mapSet]
          by_cases hn : e.name = n
          · subst hn; simp [eq_comm]
          · simp [hn, Ne.symm hn]
        · simp [h1, h2]

theorem foldl_get : ∀ (es : List Entry) (m : GoMap String String), (es.map Entry.name).Nodup → ∀ n url,
    (mapGet (es.foldl processEntry m) n = some url ↔
      (∃ e ∈ es, e.name = n ∧ Shows e url) ∨ ((¬ ∃ e ∈ es, e.name = n ∧ ∃ u, Shows e u) ∧ mapGet m n = some url))
  | [], m, _, n, url => by simp
  | e :: es, m, hn, n, url => by
    simp only [List.map_cons, List.nodup_cons, List.mem_map, not_exists, not_and] at hn
    rw [List.foldl_cons, foldl_get es _ hn.2, processEntry_get]
    by_cases he : e.name = n
    · have h1 : ∀ e' ∈ es, e'.name ≠ n := fun e' h' hx => hn.1 e' h' (hx.trans he.symm)
      have h2 : ¬ ∃ e' ∈ es, e'.name = n ∧ Shows e' url := fun ⟨e', h', hx, _⟩ => h1 e' h' hx
      have h3 : ¬ ∃ e' ∈ es, e'.name = n ∧ ∃ u, Shows e' u := fun ⟨e', h', hx, _⟩ => h1 e' h' hx
      simp only [h2, h3, not_false_eq_true, true_and, false_or, he, ne_eq, not_true_eq_false, List.mem_cons,
        exists_eq_or_imp, or_false]
      constructor
      · rintro (h | ⟨h, h'⟩)
        · exact .inl h
        · exact .inr ⟨fun ⟨u, hu⟩ => h u hu, h'⟩
      · rintro (h | ⟨h, h'⟩)
        · exact .inl h
        · exact .inr ⟨fun u hu => h ⟨u, hu⟩, h'⟩
    · simp [he]

end Telefacts.Media
