import Verif.Model.Fnv
import Mathlib.Data.Fintype.Pigeonhole
/-! # Among endlessly many texts two have the same FNV hash -/
namespace Telefacts

theorem bounded_endless (N : Nat) (f : Nat → Nat) (h : ∀ n, f n < N) : ∃ m n, m ≠ n ∧ f m = f n := by
  obtain ⟨m, n, h1, h2⟩ := Finite.exists_ne_map_eq_of_infinite (fun n : Nat => (⟨f n, h n⟩ : Fin N))
  exact ⟨m, n, h1, congrArg Fin.val h2⟩

theorem foldl_mod_lt (f : Nat → Nat → Nat) (N : Nat) (hN : 0 < N) (bs : List Nat) :
    ∀ h0, h0 < N → bs.foldl (fun h b => f h b % N) h0 < N := by
  induction bs with
  | nil => exact fun _ h => h
  | cons b bs ih => exact fun h0 _ => ih _ (Nat.mod_lt _ hN)

theorem fnv128a_lt (bs : List Nat) : fnv128a bs < 2 ^ 128 := by
  have h : fnvOffset < 2 ^ 128 := by decide
  have hN : 0 < 2 ^ 128 := by decide
  unfold fnv128a
  generalize fnvOffset = o at h
  generalize 2 ^ 128 = N at h hN
  exact foldl_mod_lt (fun h b => (h ^^^ b) * fnvPrime) N hN bs o h

theorem fnvHex_endless (f : Nat → String) : ∃ m n, m ≠ n ∧ fnvHex (f m) = fnvHex (f n) := by
  obtain ⟨m, n, h1, h2⟩ := bounded_endless (2 ^ 128) (fun n => fnv128a (bytesOf (f n))) (fun _ => fnv128a_lt _)
  refine ⟨m, n, h1, ?_⟩
  have h3 : fnv128a (bytesOf (f m)) = fnv128a (bytesOf (f n)) := h2
  unfold fnvHex
  rw [h3]

end Telefacts
