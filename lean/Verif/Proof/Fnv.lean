import Verif.Model.Fnv
import Verif.Proof.Prelude
/-! # Hash output shape -/
namespace Telefacts

theorem hexDigit_mem (n : Nat) : hexDigit n ∈ hexDigits := by
  unfold hexDigit
  by_cases h : n < hexDigits.length
  · rw [List.getD_eq_getElem?_getD, List.getElem?_eq_getElem h]; exact List.getElem_mem h
  · rw [List.getD_eq_getElem?_getD, List.getElem?_eq_none (by omega)]; decide

theorem hexEncode_mem (bs : List Nat) : ∀ c ∈ hexEncode bs, c ∈ hexDigits := by
  intro c hc
  simp only [hexEncode, List.mem_flatMap, List.mem_cons, List.not_mem_nil, or_false] at hc
  obtain ⟨b, _, h | h⟩ := hc <;> subst h <;> exact hexDigit_mem _

theorem hexEncode_length (bs : List Nat) : (hexEncode bs).length = 2 * bs.length := by
  induction bs with
  | nil => rfl
  | cons b bs ih => simp [hexEncode] at ih ⊢; omega

theorem fnvHex_toList (s : String) : (fnvHex s).toList = hexEncode (sumBytes (fnv128a (bytesOf s))) := by
  simp [fnvHex]

theorem fnvHex_length (s : String) : (fnvHex s).toList.length = 32 := by
  rw [fnvHex_toList, hexEncode_length]; simp [sumBytes]

theorem fnvHex_mem (s : String) : ∀ c ∈ (fnvHex s).toList, c ∈ hexDigits := by
  rw [fnvHex_toList]; exact hexEncode_mem _

theorem fnvHex_not_mem (s : String) {c : Char} (h : c ∉ hexDigits) : c ∉ (fnvHex s).toList :=
  fun hc => h (fnvHex_mem s c hc)

end Telefacts
