import Verif.Proof.JsonText
import Verif.Proof.Prelude
/-! # Proofs about the JSON files -/
namespace Telefacts.Json
open Telefacts.Store Telefacts.Catalog

/-! ## Depth -/

mutual
theorem depth_le : ∀ (v : Json) (n : Nat), depth v ≤ n ↔ Within n v
  | .null, n => by unfold depth; exact ⟨fun _ => .null n, fun _ => Nat.zero_le _⟩
  | .bool b, n => by unfold depth; exact ⟨fun _ => .bool n b, fun _ => Nat.zero_le _⟩
  | .num l, n => by unfold depth; exact ⟨fun _ => .num n l, fun _ => Nat.zero_le _⟩
  | .str s, n => by unfold depth; exact ⟨fun _ => .str n s, fun _ => Nat.zero_le _⟩
  | .arr l, n => by
    unfold depth
    constructor
    · intro h
      obtain ⟨m, rfl⟩ : ∃ m, n = m + 1 := ⟨n - 1, by omega⟩
      exact .arr m l ((depthItems_le l m).1 (by omega))
    · intro h
      cases h with
      | arr m _ h => have := (depthItems_le l m).2 h; omega
  | .obj l, n => by
    unfold depth
    constructor
    · intro h
      obtain ⟨m, rfl⟩ : ∃ m, n = m + 1 := ⟨n - 1, by omega⟩
      exact .obj m l ((depthMembers_le l m).1 (by omega))
    · intro h
      cases h with
      | obj m _ h => have := (depthMembers_le l m).2 h; omega

theorem depthItems_le : ∀ (l : List Json) (n : Nat), depthItems l ≤ n ↔ ∀ v ∈ l, Within n v
  | [], n => by unfold depthItems; simp
  | v :: l, n => by
    unfold depthItems
    rw [Nat.max_le, depth_le v n, depthItems_le l n]
    simp

theorem depthMembers_le : ∀ (l : List (String × Json)) (n : Nat), depthMembers l ≤ n ↔ ∀ k v, (k, v) ∈ l → Within n v
  | [], n => by unfold depthMembers; simp
  | (k, v) :: l, n => by
    unfold depthMembers
    rw [Nat.max_le, depth_le v n, depthMembers_le l n]
    simp only [List.mem_cons, Prod.mk.injEq]
    constructor
    · rintro ⟨h1, h2⟩ k' v' (⟨_, rfl⟩ | h)
      · exact h1
      · exact h2 k' v' h
    · intro h
      exact ⟨h k v (.inl ⟨rfl, rfl⟩), fun k' v' hm => h k' v' (.inr hm)⟩
end

theorem unmarshal_iff (cs : List Char) (v : Json) : unmarshal cs = some v ↔ IsText cs v ∧ Within 10000 v := by
  unfold unmarshal
  rw [← parse_iff, ← depth_le]
  cases parse cs with
  | none => simp
  | some w =>
    simp only [Option.some.injEq]
    split
    · simp only [Option.some.injEq]
      constructor
      · rintro rfl; exact ⟨rfl, by assumption⟩
      · exact fun h => h.1
    · simp only [reduceCtorEq, false_iff]
      rintro ⟨rfl, h⟩
      contradiction

/-! ## The metadata file -/

theorem toNat_ofNat (n : Nat) (h : n < 0xD800) : (Char.ofNat n).toNat = n := by
  have : n.isValidChar := .inl (by omega)
  simp [Char.ofNat, this, Char.toNat, Char.ofNatAux]

theorem fold_iff (c u l : Char) (hu : 65 ≤ u.toNat ∧ u.toNat ≤ 90) (hl : l.toNat = u.toNat + 32) : fold c = u ↔ (c = u ∨ c = l) := by
  have hinj : ∀ a b : Char, a = b ↔ a.toNat = b.toNat := fun a b =>
    ⟨fun h => by rw [h], fun h => by rw [← Char.ofNat_toNat a, h, Char.ofNat_toNat]⟩
  unfold fold
  split
  · rename_i h
    have hv : (Char.ofNat (c.toNat - 32)).toNat = c.toNat - 32 := toNat_ofNat _ (by omega)
    rw [hinj, hv, hinj c, hinj c]
    omega
  · rename_i h
    rw [hinj, hinj c l]
    omega

theorem named_entry (k : String) : named "Entry" k = true ↔ IsEntry k := by
  have h : "Entry".toList.map fold = ['E', 'N', 'T', 'R', 'Y'] := by decide
  unfold named IsEntry
  rw [decide_eq_true_eq, h]
  generalize k.toList = l
  constructor
  · intro h
    obtain ⟨a, l, rfl, ha, h⟩ := List.map_eq_cons_iff.1 h
    obtain ⟨b, l, rfl, hb, h⟩ := List.map_eq_cons_iff.1 h
    obtain ⟨c, l, rfl, hc, h⟩ := List.map_eq_cons_iff.1 h
    obtain ⟨d, l, rfl, hd, h⟩ := List.map_eq_cons_iff.1 h
    obtain ⟨e, l, rfl, he, h⟩ := List.map_eq_cons_iff.1 h
    rw [List.map_eq_nil_iff] at h
    subst h
    exact ⟨a, b, c, d, e, rfl, (fold_iff _ _ 'e' (by decide) (by decide)).1 ha, (fold_iff _ _ 'n' (by decide) (by decide)).1 hb,
      (fold_iff _ _ 't' (by decide) (by decide)).1 hc, (fold_iff _ _ 'r' (by decide) (by decide)).1 hd,
      (fold_iff _ _ 'y' (by decide) (by decide)).1 he⟩
  · rintro ⟨a, b, c, d, e, rfl, ha, hb, hc, hd, he⟩
    simp only [List.map_cons, List.map_nil, List.cons.injEq, and_true]
    exact ⟨(fold_iff _ _ 'e' (by decide) (by decide)).2 ha, (fold_iff _ _ 'n' (by decide) (by decide)).2 hb,
      (fold_iff _ _ 't' (by decide) (by decide)).2 hc, (fold_iff _ _ 'r' (by decide) (by decide)).2 hd,
      (fold_iff _ _ 'y' (by decide) (by decide)).2 he⟩

theorem named_note (k : String) : named "Note" k = true ↔ IsNote k := by
  have h : "Note".toList.map fold = ['N', 'O', 'T', 'E'] := by decide
  unfold named IsNote
  rw [decide_eq_true_eq, h]
  generalize k.toList = l
  constructor
  · intro h
    obtain ⟨a, l, rfl, ha, h⟩ := List.map_eq_cons_iff.1 h
    obtain ⟨b, l, rfl, hb, h⟩ := List.map_eq_cons_iff.1 h
    obtain ⟨c, l, rfl, hc, h⟩ := List.map_eq_cons_iff.1 h
    obtain ⟨d, l, rfl, hd, h⟩ := List.map_eq_cons_iff.1 h
    rw [List.map_eq_nil_iff] at h
    subst h
    exact ⟨a, b, c, d, rfl, (fold_iff _ _ 'n' (by decide) (by decide)).1 ha, (fold_iff _ _ 'o' (by decide) (by decide)).1 hb,
      (fold_iff _ _ 't' (by decide) (by decide)).1 hc, (fold_iff _ _ 'e' (by decide) (by decide)).1 hd⟩
  · rintro ⟨a, b, c, d, rfl, ha, hb, hc, hd⟩
    simp only [List.map_cons, List.map_nil, List.cons.injEq, and_true]
    exact ⟨(fold_iff _ _ 'n' (by decide) (by decide)).2 ha, (fold_iff _ _ 'o' (by decide) (by decide)).2 hb,
      (fold_iff _ _ 't' (by decide) (by decide)).2 hc, (fold_iff _ _ 'e' (by decide) (by decide)).2 hd⟩

/-- The last pair whose key satisfies `p`, else the default. -/
def LastOr (p : String → Prop) (d : String) (l : List (String × String)) (e : String) : Prop :=
  (∃ a k b, l = a ++ (k, e) :: b ∧ p k ∧ ∀ q ∈ b, ¬ p q.1) ∨ (e = d ∧ ∀ q ∈ l, ¬ p q.1)

theorem lastOr_pos (p : String → Prop) (d : String) (k s : String) (l : List (String × String)) (e : String) (hk : p k) :
    LastOr p d ((k, s) :: l) e ↔ LastOr p s l e := by
  constructor
  · rintro (⟨a, k', b, heq, hp, hb⟩ | ⟨_, hn⟩)
    · cases a with
      | nil =>
        obtain ⟨h1, rfl⟩ := List.cons.inj heq
        obtain ⟨rfl, rfl⟩ := Prod.mk.inj h1
        exact .inr ⟨rfl, hb⟩
      | cons x a =>
        obtain ⟨rfl, rfl⟩ := List.cons.inj heq
        exact .inl ⟨a, k', b, rfl, hp, hb⟩
    · exact absurd hk (hn (k, s) (by simp))
  · rintro (⟨a, k', b, rfl, hp, hb⟩ | ⟨rfl, hn⟩)
    · exact .inl ⟨(k, s) :: a, k', b, rfl, hp, hb⟩
    · exact .inl ⟨[], k, l, rfl, hk, hn⟩

theorem lastOr_neg (p : String → Prop) (d : String) (k s : String) (l : List (String × String)) (e : String) (hk : ¬ p k) :
    LastOr p d ((k, s) :: l) e ↔ LastOr p d l e := by
  constructor
  · rintro (⟨a, k', b, heq, hp, hb⟩ | ⟨rfl, hn⟩)
    · cases a with
      | nil =>
        obtain ⟨h1, rfl⟩ := List.cons.inj heq
        obtain ⟨rfl, rfl⟩ := Prod.mk.inj h1
        exact absurd hp hk
      | cons x a =>
        obtain ⟨rfl, rfl⟩ := List.cons.inj heq
        exact .inl ⟨a, k', b, rfl, hp, hb⟩
    · exact .inr ⟨rfl, fun q hq => hn q (by simp [hq])⟩
  · rintro (⟨a, k', b, rfl, hp, hb⟩ | ⟨rfl, hn⟩)
    · exact .inl ⟨(k, s) :: a, k', b, rfl, hp, hb⟩
    · refine .inr ⟨rfl, fun q hq => ?_⟩
      rcases List.mem_cons.1 hq with rfl | hq
      · exact hk
      · exact hn q hq

theorem assign_some (old : String) (v : Json) (s : String) : assign old v = some s ↔ v = .str s ∨ (v = .null ∧ s = old) := by
  cases v <;> simp [assign, eq_comm]

theorem strings_cons (k : String) (v : Json) (l : List (String × Json)) :
    strings ((k, v) :: l) = (match v with | .str s => [(k, s)] | _ => []) ++ strings l := by
  cases v <;> rfl

theorem not_entry_note (k : String) (he : IsEntry k) : ¬ IsNote k := by
  obtain ⟨a, b, c, d, e, h, _⟩ := he
  rintro ⟨a', b', c', d', h', _⟩
  rw [h] at h'
  simp at h'

theorem assignAll_entry (l : List (String × Json)) : ∀ (u : Underscore) (e : String),
    (∃ u', assignAll u l = some u' ∧ u'.entry = e) ↔
      (∀ k x, (k, x) ∈ l → IsEntry k ∨ IsNote k → x = .null ∨ ∃ s, x = .str s) ∧ LastOr IsEntry u.entry (strings l) e := by
  induction l with
  | nil =>
    intro u e
    simp only [assignAll, Option.some.injEq, exists_eq_left', List.not_mem_nil, false_implies, implies_true, true_and]
    constructor
    · rintro rfl; exact .inr ⟨rfl, fun q hq => by cases hq⟩
    · rintro (⟨a, k, b, h, _⟩ | ⟨rfl, _⟩)
      · cases a <;> cases h
      · rfl
  | cons p l ih =>
    obtain ⟨k, v⟩ := p
    intro u e
    have hall : (∀ k' x, (k', x) ∈ (k, v) :: l → IsEntry k' ∨ IsNote k' → x = .null ∨ ∃ s, x = .str s) ↔
        ((IsEntry k ∨ IsNote k → v = .null ∨ ∃ s, v = .str s) ∧
          ∀ k' x, (k', x) ∈ l → IsEntry k' ∨ IsNote k' → x = .null ∨ ∃ s, x = .str s) := by
      constructor
      · exact fun h => ⟨h k v (by simp), fun k' x hm => h k' x (by simp [hm])⟩
      · rintro ⟨h1, h2⟩ k' x hm
        rcases List.mem_cons.1 hm with heq | hm
        · obtain ⟨rfl, rfl⟩ := Prod.mk.inj heq; exact h1
        · exact h2 k' x hm
    rw [hall]
    unfold assignAll
    by_cases he : IsEntry k
    · rw [if_pos ((named_entry k).2 he)]
      cases v with
      | str s =>
        have := ih { u with entry := s } e
        simp only [assign, Option.bind_some, this, strings_cons, List.singleton_append, lastOr_pos _ _ _ _ _ _ he]
        simp
      | null =>
        have := ih u e
        simp only [assign, Option.bind_some, this, strings_cons, List.nil_append]
        simp
      | _ => simp [assign, he]
    · rw [if_neg (fun h => he ((named_entry k).1 h))]
      by_cases hn : IsNote k
      · rw [if_pos ((named_note k).2 hn)]
        cases v with
        | str s =>
          have := ih { u with note := s } e
          simp only [assign, Option.bind_some, this, strings_cons, List.singleton_append, lastOr_neg _ _ _ _ _ _ he]
          simp
        | null =>
          have := ih u e
          simp only [assign, Option.bind_some, this, strings_cons, List.nil_append]
          simp
        | _ => simp [assign, hn]
      · rw [if_neg (fun h => hn ((named_note k).1 h)), ih u e]
        cases v with
        | str s =>
          simp only [strings_cons, List.singleton_append, lastOr_neg _ _ _ _ _ _ he]
          simp
        | _ => simp [strings_cons, he, hn]

theorem decodeEntry_iff (cs : List Char) (e : String) :
    decodeEntry cs = some e ↔ ∃ v, IsText cs v ∧ Within 10000 v ∧ HasEntry v e := by
  unfold decodeEntry
  have key : ∀ v, (∃ u, ofUnderscore v = some u ∧ u.entry = e) ↔ HasEntry v e := by
    intro v
    cases v with
    | null => simp [ofUnderscore, HasEntry, eq_comm]
    | obj l =>
      have := assignAll_entry l ⟨"", ""⟩ e
      simp only [ofUnderscore, this, HasEntry, reduceCtorEq, false_and, false_or, Json.obj.injEq, exists_eq_left', LastOr]
    | _ => simp [ofUnderscore, HasEntry]
  simp only [Option.map_eq_some_iff, Option.bind_eq_some_iff, unmarshal_iff, ← key]
  constructor
  · rintro ⟨u, ⟨v, ⟨h1, h2⟩, h3⟩, h4⟩; exact ⟨v, h1, h2, u, h3, h4⟩
  · rintro ⟨v, h1, h2, u, h3, h4⟩; exact ⟨u, ⟨v, ⟨h1, h2⟩, h3⟩, h4⟩

/-! ## names.json -/

theorem last_cons (p : String → Prop) (k : String) (v : Json) (l : List (String × Json)) (x : Json) :
    Last p ((k, v) :: l) x ↔ Last p l x ∨ (v = x ∧ p k ∧ ∀ q ∈ l, ¬ p q.1) := by
  constructor
  · rintro ⟨a, k', b, heq, hp, hb⟩
    cases a with
    | nil =>
      obtain ⟨h1, rfl⟩ := List.cons.inj heq
      obtain ⟨rfl, rfl⟩ := Prod.mk.inj h1
      exact .inr ⟨rfl, hp, hb⟩
    | cons y a =>
      obtain ⟨rfl, rfl⟩ := List.cons.inj heq
      exact .inl ⟨a, k', b, rfl, hp, hb⟩
  · rintro (⟨a, k', b, rfl, hp, hb⟩ | ⟨rfl, hp, hb⟩)
    · exact ⟨(k, v) :: a, k', b, rfl, hp, hb⟩
    · exact ⟨[], k, l, rfl, hp, hb⟩

/-- Members assigned one after the other to a map. -/
theorem fold_map {V : Type} (f : Json → Option V) (g : GoMap String V → List (String × Json) → Option (GoMap String V))
    (hnil : ∀ m, g m [] = some m) (hcons : ∀ m k v l, g m ((k, v) :: l) = (f v).bind fun x => g (mapSet m k x) l)
    (l : List (String × Json)) : ∀ m : GoMap String V,
    (∀ m', g m l = some m' → (∀ k v, (k, v) ∈ l → ∃ x, f v = some x) ∧
      ∀ k x, mapGet m' k = some x ↔ (∃ v, Last (· = k) l v ∧ f v = some x) ∨ (mapGet m k = some x ∧ ∀ q ∈ l, q.1 ≠ k)) ∧
    ((∀ k v, (k, v) ∈ l → ∃ x, f v = some x) → ∃ m', g m l = some m') := by
  induction l with
  | nil =>
    intro m
    refine ⟨?_, fun _ => ⟨m, hnil m⟩⟩
    intro m' h
    rw [hnil] at h
    cases h
    refine ⟨?_, fun k x => ?_⟩
    · intro k v h; cases h
    · simp [Last]
  | cons p l ih =>
    obtain ⟨k, v⟩ := p
    intro m
    refine ⟨?_, ?_⟩
    · intro m' h
      rw [hcons] at h
      cases hf : f v with
      | none => rw [hf] at h; cases h
      | some y =>
        rw [hf] at h
        obtain ⟨h1, h2⟩ := (ih (mapSet m k y)).1 m' h
        refine ⟨?_, ?_⟩
        · intro k' v' hm
          rcases List.mem_cons.1 hm with heq | hm
          · obtain ⟨rfl, rfl⟩ := Prod.mk.inj heq; exact ⟨y, hf⟩
          · exact h1 k' v' hm
        · intro k' x
          rw [h2, mapGet_mapSet]
          constructor
          · rintro (⟨w, hw, hx⟩ | ⟨hg, hq⟩)
            · exact .inl ⟨w, (last_cons ..).2 (.inl hw), hx⟩
            · split at hg
              · rename_i hk
                cases hg
                exact .inl ⟨v, (last_cons ..).2 (.inr ⟨rfl, hk, hq⟩), hf⟩
              · rename_i hk
                refine .inr ⟨hg, fun q hm => ?_⟩
                rcases List.mem_cons.1 hm with rfl | hm
                · exact hk
                · exact hq q hm
          · rintro (⟨w, hw, hx⟩ | ⟨hg, hq⟩)
            · rcases (last_cons ..).1 hw with hw | ⟨rfl, hk, hq⟩
              · exact .inl ⟨w, hw, hx⟩
              · rw [hf] at hx
                cases hx
                exact .inr ⟨by rw [if_pos hk], hq⟩
            · have hk : k ≠ k' := hq (k, v) (by simp)
              exact .inr ⟨by rw [if_neg hk]; exact hg, fun q hm => hq q (by simp [hm])⟩
    · intro h
      obtain ⟨y, hy⟩ := h k v (by simp)
      obtain ⟨m', hm'⟩ := (ih (mapSet m k y)).2 (fun k' v' hm => h k' v' (by simp [hm]))
      exact ⟨m', by rw [hcons, hy]; exact hm'⟩

theorem assign_iff (v : Json) : (∃ s, assign "" v = some s) ↔ (v = .null ∨ ∃ s, v = .str s) := by
  cases v <;> simp [assign]

theorem stringMap_spec (l : List (String × Json)) :
    (∀ m, stringMap [] l = some m → ∀ k s, mapGet m k = some s ↔ (Last (· = k) l (.str s) ∨ (Last (· = k) l .null ∧ s = ""))) ∧
    ((∃ m, stringMap [] l = some m) ↔ ∀ k y, (k, y) ∈ l → y = .null ∨ ∃ s, y = .str s) := by
  have := fold_map (assign "") stringMap (fun _ => rfl) (fun _ _ _ _ => rfl) l []
  refine ⟨?_, ?_⟩
  · intro m hm k s
    rw [(this.1 m hm).2 k s]
    simp only [mapGet, reduceCtorEq, false_and, or_false, assign_some]
    constructor
    · rintro ⟨v, hl, rfl | ⟨rfl, rfl⟩⟩
      · exact .inl hl
      · exact .inr ⟨hl, rfl⟩
    · rintro (h | ⟨h, rfl⟩)
      · exact ⟨_, h, .inl rfl⟩
      · exact ⟨_, h, .inr ⟨rfl, rfl⟩⟩
  · constructor
    · rintro ⟨m, hm⟩ k y hy
      exact (assign_iff y).1 ((this.1 m hm).1 k y hy)
    · exact fun h => this.2 (fun k v hv => (assign_iff v).2 (h k v hv))

theorem innerMap_iff (v : Json) : (∃ x, innerMap v = some x) ↔
    (v = .null ∨ ∃ m, v = .obj m ∧ ∀ k y, (k, y) ∈ m → y = .null ∨ ∃ s, y = .str s) := by
  cases v with
  | obj l => simp [innerMap, (stringMap_spec l).2]
  | _ => simp [innerMap]

theorem ofNames_register (v : Json) : (∃ m, ofNames v = some m) ↔ Register v := by
  unfold Register
  cases v with
  | obj l =>
    have := fold_map innerMap nameMap (fun _ => rfl) (fun _ _ _ _ => rfl) l []
    simp only [ofNames, reduceCtorEq, Json.obj.injEq, exists_eq_left', false_or]
    constructor
    · rintro ⟨m, hm⟩ k x hx
      exact (innerMap_iff x).1 ((this.1 m hm).1 k x hx)
    · exact fun h => this.2 (fun k v hv => (innerMap_iff v).2 (h k v hv))
  | _ => simp [ofNames]

theorem last_inj (p : String → Prop) (l : List (String × Json)) (v w : Json) (hv : Last p l v) (hw : Last p l w) : v = w := by
  induction l with
  | nil => obtain ⟨a, k, b, h, _⟩ := hv; cases a <;> cases h
  | cons q l ih =>
    have nil_of : ∀ x, Last p l x → ¬ ∀ q ∈ l, ¬ p q.1 := by
      rintro x ⟨a, k, b, rfl, hp, _⟩ h
      exact h (k, x) (by simp) hp
    rcases (last_cons p q.1 q.2 l v).1 hv with hv | ⟨rfl, _, hn⟩
    · rcases (last_cons p q.1 q.2 l w).1 hw with hw | ⟨rfl, _, hn⟩
      · exact ih hv hw
      · exact absurd hn (nil_of v hv)
    · rcases (last_cons p q.1 q.2 l w).1 hw with hw | ⟨rfl, _, _⟩
      · exact absurd hn (nil_of w hw)
      · rfl

theorem ofNames_registers (v : Json) (m : GoMap String (GoMap String String)) (h : ofNames v = some m)
    (scheme ident name : String) :
    (∃ x, mapGet m scheme = some x ∧ mapGet x ident = some name) ↔ Registers v scheme ident name := by
  unfold Registers
  cases v with
  | obj l =>
    have := (fold_map innerMap nameMap (fun _ => rfl) (fun _ _ _ _ => rfl) l []).1 m h
    simp only [this.2, mapGet, reduceCtorEq, false_and, or_false, Json.obj.injEq]
    constructor
    · rintro ⟨x, ⟨v, hl, hv⟩, hx⟩
      cases v with
      | obj l' =>
        exact ⟨l, l', rfl, hl, ((stringMap_spec l').1 x hv ident name).1 hx⟩
      | null => cases hv; cases hx
      | _ => cases hv
    · rintro ⟨_, l', rfl, hl, hx⟩
      obtain ⟨a, k, b, hab, hk, hb⟩ := hl
      obtain ⟨x, hx'⟩ := this.1 k (.obj l') (by rw [hab]; simp)
      exact ⟨x, ⟨.obj l', ⟨a, k, b, hab, hk, hb⟩, hx'⟩, ((stringMap_spec l').1 x hx' ident name).2 hx⟩
  | null => cases h; simp [mapGet]
  | _ => cases h

theorem register_within (v : Json) (h : Register v) (n : Nat) : Within (n + 2) v := by
  rcases h with rfl | ⟨l, rfl, h⟩
  · exact .null _
  · refine .obj _ l (fun k x hx => ?_)
    rcases h k x hx with rfl | ⟨m, rfl, hm⟩
    · exact .null _
    · refine .obj _ m (fun k' y hy => ?_)
      rcases hm k' y hy with rfl | ⟨s, rfl⟩
      · exact .null _
      · exact .str _ _

/-! ## UTF-8 -/

theorem toByteArray_append (a b : Bytes) : (a ++ b).toByteArray = a.toByteArray ++ b.toByteArray := by
  simp

theorem decode_char (c : Char) (t : Bytes) : decodeUtf8 (String.utf8EncodeChar c ++ t) = c :: decodeUtf8 t := by
  have hlen : (String.utf8EncodeChar c).length = c.utf8Size := String.length_utf8EncodeChar c
  have hd := ByteArray.utf8DecodeChar?_utf8EncodeChar_append (b := t.toByteArray) (c := c)
  rw [← toByteArray_append] at hd
  cases he : String.utf8EncodeChar c with
  | nil => have := c.utf8Size_pos; rw [he] at hlen; simp at hlen; omega
  | cons b bs =>
    rw [he] at hd hlen
    rw [List.cons_append, decodeUtf8]
    rw [List.cons_append] at hd
    rw [hd]
    simp only
    rw [← hlen, ← List.cons_append, List.drop_left]

theorem decode_encode (cs : List Char) (t : Bytes) : decodeUtf8 (encodeUtf8 cs ++ t) = cs ++ decodeUtf8 t := by
  induction cs with
  | nil => rfl
  | cons c cs ih =>
    unfold encodeUtf8 at ih ⊢
    rw [List.flatMap_cons, List.append_assoc, decode_char, ih]
    rfl

theorem decode_invalid (bs : Bytes) (h : ∀ b ∈ bs, ¬ b.IsUTF8FirstByte) :
    decodeUtf8 bs = List.replicate bs.length (Char.ofNat 0xFFFD) := by
  induction bs with
  | nil => simp [decodeUtf8]
  | cons b bs ih =>
    have hn : (b :: bs).toByteArray.utf8DecodeChar? 0 = none := by
      cases hd : (b :: bs).toByteArray.utf8DecodeChar? 0 with
      | none => rfl
      | some c =>
        have := ByteArray.isUTF8FirstByte_of_isSome_utf8DecodeChar? (b := (b :: bs).toByteArray) (i := 0) (by rw [hd]; rfl)
        exact absurd (by simpa using this) (h b (by simp))
    rw [decodeUtf8, hn]
    simp only
    rw [ih (fun x hx => h x (by simp [hx]))]
    rfl

/-- A character cut short is read as one or more U+FFFD. -/
theorem decode_cut (c : Char) (n : Nat) (h0 : 0 < n) (h : n < c.utf8Size) :
    decodeUtf8 ((String.utf8EncodeChar c).take n) = List.replicate n (Char.ofNat 0xFFFD) := by
  have hlen : (String.utf8EncodeChar c).length = c.utf8Size := String.length_utf8EncodeChar c
  have hfirst : ∀ i (hi : i < (String.utf8EncodeChar c).length), (String.utf8EncodeChar c)[i].IsUTF8FirstByte ↔ i = 0 :=
    fun i hi => UInt8.isUTF8FirstByte_getElem_utf8EncodeChar
  cases he : String.utf8EncodeChar c with
  | nil => rw [he] at hlen; simp at hlen; omega
  | cons b bs =>
    obtain ⟨m, rfl⟩ : ∃ m, n = m + 1 := ⟨n - 1, by omega⟩
    have hn : (b :: bs.take m).toByteArray.utf8DecodeChar? 0 = none := by
      cases hd : (b :: bs.take m).toByteArray.utf8DecodeChar? 0 with
      | none => rfl
      | some d =>
        have h1 := ByteArray.utf8DecodeChar?_append_eq_some hd (bs.drop m).toByteArray
        rw [← toByteArray_append, List.cons_append, List.take_append_drop, ← he] at h1
        have h2 := ByteArray.utf8DecodeChar?_utf8EncodeChar_append (b := ([] : Bytes).toByteArray) (c := c)
        rw [← toByteArray_append, List.append_nil, h1] at h2
        cases h2
        have := ByteArray.le_size_of_utf8DecodeChar?_eq_some hd
        simp at this
        omega
    rw [List.take_succ_cons, decodeUtf8, hn]
    simp only
    rw [decode_invalid]
    · rw [he] at hlen
      simp at hlen
      rw [List.length_take, Nat.min_eq_left (by omega)]
      rfl
    · intro x hx
      obtain ⟨i, hi, rfl⟩ := List.mem_iff_getElem.1 (List.mem_of_mem_take hx)
      have := hfirst (i + 1) (by rw [he]; simp; omega)
      simp only [he, List.getElem_cons_succ] at this
      rw [this]
      omega

/-- The beginning of an encoded text: it ends at a character or is read with U+FFFD at the end. -/
theorem decode_take (cs : List Char) : ∀ n : Nat, ∃ p q, cs = p ++ q ∧
    ((encodeUtf8 cs).take n = encodeUtf8 p ∧ decodeUtf8 ((encodeUtf8 cs).take n) = p ∨
     q ≠ [] ∧ ∃ k, decodeUtf8 ((encodeUtf8 cs).take n) = p ++ List.replicate (k + 1) (Char.ofNat 0xFFFD)) := by
  induction cs with
  | nil => intro n; exact ⟨[], [], rfl, .inl ⟨by simp [encodeUtf8], by simp [encodeUtf8, decodeUtf8]⟩⟩
  | cons c cs ih =>
    intro n
    have hlen : (String.utf8EncodeChar c).length = c.utf8Size := String.length_utf8EncodeChar c
    have hcons : encodeUtf8 (c :: cs) = String.utf8EncodeChar c ++ encodeUtf8 cs := rfl
    by_cases hn : c.utf8Size ≤ n
    · obtain ⟨p, q, rfl, h⟩ := ih (n - c.utf8Size)
      refine ⟨c :: p, q, rfl, ?_⟩
      have ht : (encodeUtf8 (c :: (p ++ q))).take n = String.utf8EncodeChar c ++ (encodeUtf8 (p ++ q)).take (n - c.utf8Size) := by
        rw [hcons, List.take_append, hlen, List.take_of_length_le (by omega)]
      rw [ht]
      rcases h with ⟨h1, h2⟩ | ⟨hq, k, h2⟩
      · exact .inl ⟨by rw [h1]; rfl, by rw [decode_char, h2]⟩
      · exact .inr ⟨hq, k, by rw [decode_char, h2]; rfl⟩
    · have ht : (encodeUtf8 (c :: cs)).take n = (String.utf8EncodeChar c).take n := by
        rw [hcons, List.take_append_of_le_length (by omega)]
      rw [ht]
      refine ⟨[], c :: cs, rfl, ?_⟩
      by_cases h0 : n = 0
      · subst h0
        exact .inl ⟨by simp [encodeUtf8], by simp [decodeUtf8]⟩
      · exact .inr ⟨by simp, n - 1, by rw [decode_cut c n (by omega) (by omega), Nat.sub_add_cancel (by omega)]; rfl⟩

/-! ## Beginnings of texts -/

theorem reads_last (t : List Char) (v : Json) (h : Reads t v) : ∃ u c, t = u ++ [c] ∧ c.toNat < 128 := by
  cases h with
  | null => exact ⟨"nul".toList, 'l', rfl, by decide⟩
  | true => exact ⟨"tru".toList, 'e', rfl, by decide⟩
  | false => exact ⟨"fals".toList, 'e', rfl, by decide⟩
  | num _ hn =>
    obtain ⟨x, u, rfl, _⟩ := number_head _ hn
    refine ⟨(x :: u).dropLast, (x :: u).getLast (by simp), (List.dropLast_append_getLast _).symm, ?_⟩
    have := number_numeric _ hn _ (List.getLast_mem (l := x :: u) (by simp))
    simp only [numeric, Bool.or_eq_true, Bool.and_eq_true, decide_eq_true_eq] at this
    rcases this with ((((h | h) | h) | h) | h) | h
    · omega
    all_goals (rw [h]; decide)
  | str _ s hq => obtain ⟨ps, _, rfl⟩ := hq; exact ⟨_, _, rfl, by decide⟩
  | arr0 => exact ⟨_, _, rfl, by decide⟩
  | arr => exact ⟨_, _, rfl, by decide⟩
  | obj0 => exact ⟨_, _, rfl, by decide⟩
  | obj => exact ⟨_, _, rfl, by decide⟩

theorem isText_last (x : List Char) (c : Char) (v : Json) (h : IsText (x ++ [c]) v) : c.toNat < 128 := by
  obtain ⟨a, b, t, _, hb, ht, he⟩ := h
  obtain ⟨u, d, rfl, hd⟩ := reads_last t v ht
  rcases List.eq_nil_or_concat b with rfl | ⟨b', e, rfl⟩
  · have : x ++ [c] = (a ++ u) ++ [d] := by simpa using he
    have := (List.append_inj' this rfl).2
    simp only [List.cons.injEq, and_true] at this
    rwa [this]
  · have : x ++ [c] = (a ++ (u ++ ([d] ++ b'))) ++ [e] := by simpa using he
    have := (List.append_inj' this rfl).2
    simp only [List.cons.injEq, and_true] at this
    rw [this]
    rcases hb e (by simp) with rfl | rfl | rfl | rfl <;> decide

/-- No proper beginning of the text of an object is a text. -/
theorem object_prefix (l : List (String × Json)) (hl : Written (.obj l)) (p q : List Char) (h : text (.obj l) = p ++ q) (w : Json)
    (hp : IsText p w) : q = [] := by
  obtain ⟨a, b, t, ha, _, ht, rfl⟩ := hp
  obtain ⟨x, u, rfl, hx, _⟩ := reads_head t w ht
  have hbrace : ∃ r, text (.obj l) = '{' :: r := by unfold text; exact ⟨_, rfl⟩
  obtain ⟨r, hr⟩ := hbrace
  have ha' : a = [] := by
    cases a with
    | nil => rfl
    | cons y a =>
      rw [hr] at h
      have : '{' = y := (List.cons.inj h).1
      rcases ha y (by simp) with h' | h' | h' | h' <;> rw [← this] at h' <;> exact absurd h' (by decide)
  subst ha'
  have hx' : x = '{' := by rw [hr] at h; exact ((List.cons.inj h).1).symm
  subst hx'
  have hw : ∀ n, w ≠ .num n := by
    rintro n rfl
    cases ht with
    | num _ hn =>
      obtain ⟨y, v, hy, hd⟩ := number_head _ hn
      obtain ⟨rfl, _⟩ := List.cons.inj hy
      revert hd; decide
  have hv1 := value_complete _ w ht ((text (.obj l)).length + ('{' :: u).length) (b ++ q) (by omega) (.inl hw)
  have hv2 := value_complete _ _ (reads_text _ hl) ((text (.obj l)).length + ('{' :: u).length) [] (by omega)
    (.inl (by intro n hn; cases hn))
  have he : text (.obj l) ++ [] = '{' :: u ++ (b ++ q) := by rw [List.append_nil, h]; simp
  rw [he, hv1] at hv2
  have := (Prod.mk.inj (Option.some.inj hv2)).2
  exact (List.append_eq_nil_iff.1 this).2

end Telefacts.Json
