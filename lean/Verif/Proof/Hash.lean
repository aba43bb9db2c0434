import Verif.Spec.Hash
import Verif.Proof.FnvWindow
/-! # FNV and hexadecimal numerals against their specification -/
namespace Telefacts
open Telefacts.Spec

theorem octets_eq (s : String) : octets s = s.toList.flatMap String.utf8EncodeChar := by
  unfold octets
  show s.toByteArray.data.toList = _
  rw [toByteArray_bytes]; simp

theorem octets_append (s t : String) : octets (s ++ t) = octets s ++ octets t := by simp [octets_eq]

theorem bytesOf_octets (s : String) : bytesOf s = (octets s).map UInt8.toNat := by rw [bytesOf_map, octets_eq]

theorem fnv0_iff (bs : List UInt8) (h : BitVec 128) :
    Fnv0 bs h ↔ h = bs.foldl (fun h b => (h * prime128) ^^^ b.toBitVec.setWidth 128) 0 := by
  constructor
  · intro hh
    induction hh with
    | nil => rfl
    | snoc bs b h _ ih => rw [List.foldl_append, ← ih]; rfl
  · rintro rfl
    induction bs using List.reverseRecOn with
    | nil => exact .nil
    | append_singleton bs b ih => rw [List.foldl_append]; exact .snoc _ _ _ ih

theorem fnvBasis : Fnv0 (octets "chongo <Landon Curt Noll> /\\../\\") (BitVec.ofNat 128 fnvOffset) := by
  rw [fnv0_iff, octets_eq]; decide +kernel

theorem fnv1a_iff (bs : List UInt8) (h : BitVec 128) :
    Fnv1a bs h ↔ h = bs.foldl (fun h b => (h ^^^ b.toBitVec.setWidth 128) * prime128) (BitVec.ofNat 128 fnvOffset) := by
  constructor
  · intro hh
    induction hh with
    | nil h h0 => rw [fnv0_iff] at h0; rw [h0, ← (fnv0_iff _ _).1 fnvBasis]; rfl
    | snoc bs b h _ ih => rw [List.foldl_append, ← ih]; rfl
  · rintro rfl
    induction bs using List.reverseRecOn with
    | nil => exact .nil _ fnvBasis
    | append_singleton bs b ih => rw [List.foldl_append]; exact .snoc _ _ _ ih

theorem fnv_step (h : BitVec 128) (b : UInt8) :
    ((h ^^^ b.toBitVec.setWidth 128) * prime128).toNat = ((h.toNat ^^^ b.toNat) * fnvPrime) % 2 ^ 128 := by
  have hb : b.toNat < 2 ^ 128 := lt_trans b.toNat_lt (by decide)
  rw [BitVec.toNat_mul, BitVec.toNat_xor, BitVec.toNat_setWidth]
  have e : prime128.toNat = fnvPrime := by decide +kernel
  rw [e, UInt8.toNat_toBitVec, Nat.mod_eq_of_lt hb]

theorem fnv_fold (bs : List UInt8) (h : BitVec 128) :
    (bs.foldl (fun h b => (h ^^^ b.toBitVec.setWidth 128) * prime128) h).toNat =
      (bs.map UInt8.toNat).foldl (fun h b => ((h ^^^ b) * fnvPrime) % 2 ^ 128) h.toNat := by
  induction bs generalizing h with
  | nil => rfl
  | cons b bs ih => rw [List.foldl_cons, ih, fnv_step]; rfl

theorem fnv1a_model (s : String) : ∃ h, Fnv1a (octets s) h ∧ h.toNat = fnv128a (bytesOf s) := by
  refine ⟨_, (fnv1a_iff _ _).2 rfl, ?_⟩
  rw [fnv_fold, bytesOf_octets]
  rfl

theorem hexDigit_digit (n : Nat) (h : n < 16) : SmallHex (hexDigit n) n := by
  unfold SmallHex
  revert n
  decide +kernel

theorem smallHex_unique {c c' : Char} {n : Nat} (h : SmallHex c n) (h' : SmallHex c' n) : c = c' := by
  have : c.toNat = c'.toNat := by unfold SmallHex at h h'; omega
  exact Char.toNat_inj.1 this

theorem smallHex_lt {c : Char} {n : Nat} (h : SmallHex c n) : n < 16 := by unfold SmallHex at h; omega

theorem hexNumeral_snoc {cs : List Char} {c : Char} {n : Nat} (h : HexNumeral (cs ++ [c]) n) :
    ∃ m d, n = 16 * m + d ∧ HexNumeral cs m ∧ SmallHex c d := by
  generalize e : cs ++ [c] = l at h
  cases h with
  | nil => simp at e
  | snoc cs' c' m d h1 h2 =>
    obtain ⟨rfl, e2⟩ := List.append_inj' e rfl
    cases e2
    exact ⟨m, d, rfl, h1, h2⟩

theorem hexNumeral_unique {cs : List Char} {n : Nat} (h : HexNumeral cs n) :
    ∀ cs', cs'.length = cs.length → HexNumeral cs' n → cs' = cs := by
  induction h with
  | nil => intro cs' hl _; exact List.eq_nil_of_length_eq_zero hl
  | snoc cs c n d _ hd ih =>
    intro cs' hl h'
    rcases List.eq_nil_or_concat cs' with rfl | ⟨l, x, rfl⟩
    · simp at hl
    rw [List.concat_eq_append] at h' hl ⊢
    obtain ⟨m, d', e, h1, h2⟩ := hexNumeral_snoc h'
    have := smallHex_lt hd
    have := smallHex_lt h2
    obtain ⟨rfl, rfl⟩ : m = n ∧ d' = d := by omega
    rw [ih l (by simpa using hl) h1, smallHex_unique h2 hd]

theorem hexNumeral_encode (cs : List Char) (bs : List Nat) (n : Nat) (hb : ∀ b ∈ bs, b < 256) (h : HexNumeral cs n) :
    HexNumeral (cs ++ hexEncode bs) (bs.foldl (fun n b => 256 * n + b) n) := by
  induction bs generalizing cs n with
  | nil => simpa [hexEncode] using h
  | cons b bs ih =>
    have hb1 := hb b List.mem_cons_self
    have h1 := HexNumeral.snoc _ _ _ _ h (hexDigit_digit (b / 16) (by omega))
    have h2 := HexNumeral.snoc _ _ _ _ h1 (hexDigit_digit (b % 16) (by omega))
    have h3 := ih _ _ (fun b hb' => hb b (List.mem_cons_of_mem _ hb')) h2
    have e : 16 * (16 * n + b / 16) + b % 16 = 256 * n + b := by omega
    rw [e] at h3
    simpa [hexEncode] using h3

theorem bigEndian (n h : Nat) :
    ((List.range n).map (fun i => h / 256 ^ (n - 1 - i) % 256)).foldl (fun n b => 256 * n + b) 0 = h % 256 ^ n := by
  induction n generalizing h with
  | zero => simp [Nat.mod_one]
  | succ n ih =>
    rw [List.range_succ, List.map_append, List.foldl_append]
    have e : (List.range n).map (fun i => h / 256 ^ (n + 1 - 1 - i) % 256) = (List.range n).map (fun i => h / 256 / 256 ^ (n - 1 - i) % 256) := by
      refine List.map_congr_left fun i hi => ?_
      have hi := List.mem_range.1 hi
      rw [Nat.div_div_eq_div_mul, ← Nat.pow_succ', show (n - 1 - i).succ = n + 1 - 1 - i by omega]
    rw [e, ih]
    simp only [List.map_cons, List.map_nil, List.foldl_cons, List.foldl_nil]
    rw [Nat.pow_succ', Nat.mod_mul]
    simp [Nat.add_comm]

theorem slugOf_iff (e u t s : String) : SlugOf e u t s ↔ s = fnvHex (e ++ u ++ t) := by
  obtain ⟨h, hf, hn⟩ := fnv1a_model (e ++ u ++ t)
  have hx : HexNumeral (fnvHex (e ++ u ++ t)).toList h.toNat := by
    have k : ∀ b ∈ sumBytes (fnv128a (bytesOf (e ++ u ++ t))), b < 256 := by
      intro b hb
      simp only [sumBytes, List.mem_map] at hb
      obtain ⟨i, _, rfl⟩ := hb
      exact Nat.mod_lt _ (by decide)
    have := hexNumeral_encode [] _ 0 k .nil
    rw [fnvHex_toList, hn]
    rw [List.nil_append] at this
    unfold sumBytes at this ⊢
    have e := bigEndian 16 (fnv128a (bytesOf (e ++ u ++ t)))
    rw [Nat.mod_eq_of_lt (show _ < 256 ^ 16 from fnv128a_lt _)] at e
    rw [show 16 - 1 = 15 from rfl] at e
    rw [e] at this
    exact this
  have hf' : Fnv1a (octets e ++ octets u ++ octets t) h := by rw [← octets_append, ← octets_append]; exact hf
  constructor
  · rintro ⟨h', h1, h2, h3⟩
    have : h' = h := by rw [(fnv1a_iff _ _).1 h1, (fnv1a_iff _ _).1 hf']
    subst this
    exact String.toList_inj.1 (hexNumeral_unique hx _ (by rw [h2, fnvHex_length]) h3)
  · rintro rfl
    exact ⟨h, hf', fnvHex_length _, hx⟩

end Telefacts
