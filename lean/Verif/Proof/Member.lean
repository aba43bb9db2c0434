import Verif.Spec.Member
import Verif.Proof.Quadrant
/-! # Lemmas on dimension rows and member cells -/
namespace Telefacts.Render
open Telefacts.Spec Telefacts.Instance

/-! ## Cells -/

theorem memberCell_iff (v : VoidCell) (m : RelevantMember) (x : MemberCell) :
    memberCell v m = some x ↔ Matches v m ∧ Shows x m := by
  obtain ⟨xe, xt⟩ := x
  unfold memberCell Matches Shows
  by_cases hd : m.dimension.href = v.dimension.href
  · simp only [hd, if_true, true_and]
    cases hm : m.typedDomain <;> cases hv : v.typedDomain
    · simp [eq_comm]
    · simp
    · simp
    · rename_i a b
      by_cases h : a.href = b.href
      · simp [h, eq_comm]
      · simp [h]
  · simp [hd]

theorem memberCell_none (v : VoidCell) (m : RelevantMember) : memberCell v m = none ↔ ¬ Matches v m := by
  constructor
  · intro h hm
    have hx : ∃ x, Shows x m := by
      cases h' : m.typedDomain with
      | none => exact ⟨⟨m.explicit, ""⟩, .inl ⟨h', rfl, rfl⟩⟩
      | some t => exact ⟨⟨none, m.typedMember⟩, .inr ⟨by simp [h'], rfl, rfl⟩⟩
    obtain ⟨x, hx⟩ := hx
    have := (memberCell_iff v m x).2 ⟨hm, hx⟩
    rw [h] at this
    simp at this
  · intro h
    cases hc : memberCell v m with
    | none => rfl
    | some x => exact absurd ((memberCell_iff v m x).1 hc).1 h

theorem findSome_memberCell (v : VoidCell) (ms : List RelevantMember) (x : MemberCell) :
    ms.findSome? (memberCell v) = some x ↔ ∃ m, FirstWith (Matches v) ms m ∧ Shows x m := by
  induction ms with
  | nil => simp [not_firstWith_nil]
  | cons m ms ih =>
    rw [List.findSome?_cons]
    cases h : memberCell v m with
    | none =>
      have hm := (memberCell_none v m).1 h
      simp only [firstWith_cons_neg _ hm]
      exact ih
    | some y =>
      have hm := ((memberCell_iff v m y).1 h).1
      simp only [firstWith_cons_pos _ hm, exists_eq_left, Option.some.injEq]
      constructor
      · rintro rfl; exact ((memberCell_iff v m y).1 h).2
      · intro hx
        have := (memberCell_iff v m x).2 ⟨hm, hx⟩
        rw [h] at this
        exact Option.some.inj this

theorem findSome_memberCell_none (v : VoidCell) (ms : List RelevantMember) :
    ms.findSome? (memberCell v) = none ↔ ∀ m ∈ ms, ¬ Matches v m := by
  rw [List.findSome?_eq_none_iff]
  simp only [memberCell_none]

theorem cellOf_iff (v : VoidCell) (c : RelevantContext) (x : MemberCell) :
    x = cellOf v c ↔ (∃ m, FirstWith (Matches v) c.members m ∧ Shows x m) ∨
      ((∀ m ∈ c.members, ¬ Matches v m) ∧ x = ⟨none, ""⟩) := by
  unfold cellOf
  rw [← findSome_memberCell, ← findSome_memberCell_none]
  cases h : c.members.findSome? (memberCell v) with
  | none => simp
  | some y => simp [eq_comm]

/-! ## Maps of dimensions -/

/-- What is known of the maps after some members. -/
structure DimInv (ms : List RelevantMember) (s : DimMaps) : Prop where
  hrefs_nodup : s.hrefs.Nodup
  hrefs_mem : ∀ h, h ∈ s.hrefs ↔ h ≠ "" ∧ ∃ m ∈ ms, m.dimension.href = h
  dim_key : ∀ h d, mapGet s.dimensions h = some d → d.href = h ∧ ∃ m ∈ ms, m.dimension = d
  dim_has : ∀ h, (mapGet s.dimensions h).isSome ↔ h ≠ "" ∧ ∃ m ∈ ms, m.dimension.href = h
  typed_has : ∀ h, (mapGet s.typedDomains h).isSome ↔ ∃ m ∈ ms, m.dimension.href ≠ "" ∧ ∃ t, m.typedDomain = some t ∧ t.href = h
  typed_key : ∀ h t, mapGet s.typedDomains h = some t → t.href = h
  side : ∀ b h, let side := if b then s.segment else s.scenario
    (∀ inner, mapGet side h = some inner → inner ≠ [] ∧ ∀ e ∈ inner, e.2 ∈ ms ∧ e.2.dimension.href = h) ∧
    ((mapGet side h).isSome ↔ h ≠ "" ∧ ∃ m ∈ ms, m.dimension.href = h ∧ m.isSegment = b ∧ m.explicit ≠ none)

theorem mapSet_ne_nil {K V : Type} [DecidableEq K] (m : GoMap K V) (k : K) (v : V) : mapSet m k v ≠ [] := by
  cases m with
  | nil => simp [mapSet]
  | cons e m =>
    obtain ⟨a, b⟩ := e
    rw [mapSet]
    split <;> simp

theorem mem_mapSet {K V : Type} [DecidableEq K] {m : GoMap K V} {k : K} {v : V} {e : K × V} (h : e ∈ mapSet m k v) :
    e ∈ m ∨ e = (k, v) := by
  induction m with
  | nil => simp [mapSet] at h; exact .inr h
  | cons x m ih =>
    obtain ⟨a, b⟩ := x
    rw [mapSet] at h
    split at h
    · rcases List.mem_cons.1 h with h | h
      · exact .inr h
      · exact .inl (by simp [h])
    · rcases List.mem_cons.1 h with h | h
      · exact .inl (by simp [h])
      · rcases ih h with h | h
        · exact .inl (by simp [h])
        · exact .inr h

theorem addMember_side {ms : List RelevantMember} {side : GoMap String (GoMap String RelevantMember)} {b : Bool}
    (h : ∀ h, (∀ inner, mapGet side h = some inner → inner ≠ [] ∧ ∀ e ∈ inner, e.2 ∈ ms ∧ e.2.dimension.href = h) ∧
      ((mapGet side h).isSome ↔ h ≠ "" ∧ ∃ m ∈ ms, m.dimension.href = h ∧ m.isSegment = b ∧ m.explicit ≠ none))
    (x : RelevantMember) (e : Labelled) (hx : x.dimension.href ≠ "") (hb : x.isSegment = b) (he : x.explicit = some e) (h' : String) :
    (∀ inner, mapGet (addMember side x.dimension.href e.href x) h' = some inner →
      inner ≠ [] ∧ ∀ y ∈ inner, y.2 ∈ ms ++ [x] ∧ y.2.dimension.href = h') ∧
    ((mapGet (addMember side x.dimension.href e.href x) h').isSome ↔
      h' ≠ "" ∧ ∃ m ∈ ms ++ [x], m.dimension.href = h' ∧ m.isSegment = b ∧ m.explicit ≠ none) := by
  unfold addMember
  rw [mapGet_mapSet]
  by_cases hh : x.dimension.href = h'
  · subst hh
    simp only [if_true]
    refine ⟨?_, ?_⟩
    · intro inner hi
      cases hi
      refine ⟨mapSet_ne_nil _ _ _, ?_⟩
      intro y hy
      rcases mem_mapSet hy with hy | rfl
      · cases hm : mapGet side x.dimension.href with
        | none => rw [hm] at hy; simp at hy
        | some inner0 =>
          rw [hm] at hy
          obtain ⟨h1, h2⟩ := ((h x.dimension.href).1 inner0 hm).2 y hy
          exact ⟨by simp [h1], h2⟩
      · simp
    · simp only [Option.isSome_some, true_iff]
      exact ⟨hx, x, by simp, rfl, hb, by simp [he]⟩
  · rw [if_neg hh]
    refine ⟨?_, ?_⟩
    · intro inner hi
      obtain ⟨h1, h2⟩ := (h h').1 inner hi
      refine ⟨h1, fun y hy => ?_⟩
      obtain ⟨h3, h4⟩ := h2 y hy
      exact ⟨by simp [h3], h4⟩
    · rw [(h h').2]
      constructor
      · rintro ⟨h1, m, hm, r⟩; exact ⟨h1, m, by simp [hm], r⟩
      · rintro ⟨h1, m, hm, r⟩
        rcases List.mem_append.1 hm with hm | hm
        · exact ⟨h1, m, hm, r⟩
        · rw [List.mem_singleton.1 hm] at r; exact absurd r.1 hh

theorem side_skip {ms : List RelevantMember} {side : GoMap String (GoMap String RelevantMember)} {b : Bool} {h : String}
    (x : RelevantMember) (hx : x.dimension.href = "" ∨ x.isSegment ≠ b ∨ x.explicit = none)
    (hs : (∀ inner, mapGet side h = some inner → inner ≠ [] ∧ ∀ e ∈ inner, e.2 ∈ ms ∧ e.2.dimension.href = h) ∧
      ((mapGet side h).isSome ↔ h ≠ "" ∧ ∃ m ∈ ms, m.dimension.href = h ∧ m.isSegment = b ∧ m.explicit ≠ none)) :
    (∀ inner, mapGet side h = some inner → inner ≠ [] ∧ ∀ e ∈ inner, e.2 ∈ ms ++ [x] ∧ e.2.dimension.href = h) ∧
      ((mapGet side h).isSome ↔ h ≠ "" ∧ ∃ m ∈ ms ++ [x], m.dimension.href = h ∧ m.isSegment = b ∧ m.explicit ≠ none) := by
  refine ⟨?_, ?_⟩
  · intro inner hi
    obtain ⟨h1, h2⟩ := hs.1 inner hi
    refine ⟨h1, fun y hy => ?_⟩
    obtain ⟨h3, h4⟩ := h2 y hy
    exact ⟨by simp [h3], h4⟩
  · rw [hs.2]
    constructor
    · rintro ⟨h1, m, hm, r⟩; exact ⟨h1, m, by simp [hm], r⟩
    · rintro ⟨h1, m, hm, r⟩
      rcases List.mem_append.1 hm with hm | hm
      · exact ⟨h1, m, hm, r⟩
      · rw [List.mem_singleton.1 hm] at r
        rcases hx with hx | hx | hx
        · exact absurd (r.1.symm.trans hx) h1
        · exact absurd r.2.1 hx
        · exact absurd hx r.2.2

theorem dimInv_addDimension {ms : List RelevantMember} {s : DimMaps} (h : DimInv ms s) (x : RelevantMember) :
    DimInv (ms ++ [x]) (addDimension s x) := by
  unfold addDimension
  by_cases hx : x.dimension.href = ""
  · rw [if_pos hx]
    have ext : ∀ P : RelevantMember → Prop, (∀ m, P m → m.dimension.href ≠ "") → ((∃ m ∈ ms ++ [x], P m) ↔ ∃ m ∈ ms, P m) := by
      intro P hP
      constructor
      · rintro ⟨m, hm, r⟩
        rcases List.mem_append.1 hm with hm | hm
        · exact ⟨m, hm, r⟩
        · rw [List.mem_singleton.1 hm] at r; exact absurd hx (hP _ r)
      · rintro ⟨m, hm, r⟩; exact ⟨m, by simp [hm], r⟩
    refine ⟨h.hrefs_nodup, ?_, ?_, ?_, ?_, h.typed_key, ?_⟩
    · intro k
      rw [h.hrefs_mem]
      by_cases hk : k = ""
      · simp [hk]
      · rw [ext _ (fun m hm => by rw [hm]; exact hk)]
    · intro k d hk
      obtain ⟨h1, m, hm, h2⟩ := h.dim_key k d hk
      exact ⟨h1, m, by simp [hm], h2⟩
    · intro k
      rw [h.dim_has]
      by_cases hk : k = ""
      · simp [hk]
      · rw [ext _ (fun m hm => by rw [hm]; exact hk)]
    · intro k
      rw [h.typed_has, ext _ (fun m hm => hm.1)]
    · intro b k
      exact side_skip x (.inl hx) (h.side b k)
  · rw [if_neg hx]
    have ext : ∀ (P : RelevantMember → Prop), (∃ m ∈ ms ++ [x], P m) ↔ (∃ m ∈ ms, P m) ∨ P x := by
      intro P
      constructor
      · rintro ⟨m, hm, r⟩
        rcases List.mem_append.1 hm with hm | hm
        · exact .inl ⟨m, hm, r⟩
        · rw [List.mem_singleton.1 hm] at r; exact .inr r
      · rintro (⟨m, hm, r⟩ | r)
        · exact ⟨m, by simp [hm], r⟩
        · exact ⟨x, by simp, r⟩
    have base : DimInv (ms ++ [{ x with explicit := none }]) { s with
        hrefs := match mapGet s.dimensions x.dimension.href with
          | some _ => s.hrefs
          | none => s.hrefs ++ [x.dimension.href]
        dimensions := mapSet s.dimensions x.dimension.href x.dimension
        typedDomains := match x.typedDomain with
          | some t => mapSet s.typedDomains t.href t
          | none => s.typedDomains } := by
      have ext' : ∀ (P : RelevantMember → Prop), (∃ m ∈ ms ++ [{ x with explicit := none }], P m) ↔
          (∃ m ∈ ms, P m) ∨ P { x with explicit := none } := by
        intro P
        constructor
        · rintro ⟨m, hm, r⟩
          rcases List.mem_append.1 hm with hm | hm
          · exact .inl ⟨m, hm, r⟩
          · rw [List.mem_singleton.1 hm] at r; exact .inr r
        · rintro (⟨m, hm, r⟩ | r)
          · exact ⟨m, by simp [hm], r⟩
          · exact ⟨{ x with explicit := none }, by simp, r⟩
      have hdim : (mapGet s.dimensions x.dimension.href).isSome = true ↔ x.dimension.href ∈ s.hrefs := by
        rw [h.dim_has, h.hrefs_mem]
      refine ⟨?_, ?_, ?_, ?_, ?_, ?_, ?_⟩
      · show List.Nodup (match mapGet s.dimensions x.dimension.href with
          | some _ => s.hrefs
          | none => s.hrefs ++ [x.dimension.href])
        cases hd : mapGet s.dimensions x.dimension.href with
        | some _ => exact h.hrefs_nodup
        | none =>
          rw [hd] at hdim
          have : x.dimension.href ∉ s.hrefs := by rw [← hdim]; simp
          exact List.nodup_append.2 ⟨h.hrefs_nodup, by simp, by
            intro a ha b hb
            rw [List.mem_singleton.1 hb]
            rintro rfl
            exact this ha⟩
      · intro k
        show k ∈ (match mapGet s.dimensions x.dimension.href with
          | some _ => s.hrefs
          | none => s.hrefs ++ [x.dimension.href]) ↔ _
        rw [ext']
        have h1 := h.hrefs_mem k
        cases hd : mapGet s.dimensions x.dimension.href with
        | some _ =>
          simp only [h1]
          constructor
          · rintro ⟨a, b⟩; exact ⟨a, .inl b⟩
          · rintro ⟨a, b | b⟩
            · exact ⟨a, b⟩
            · have := (hdim.1 (by rw [hd]; rfl))
              rw [h.hrefs_mem] at this
              exact ⟨a, b ▸ this.2⟩
        | none =>
          simp only [List.mem_append, List.mem_singleton, h1]
          constructor
          · rintro (⟨a, b⟩ | rfl)
            · exact ⟨a, .inl b⟩
            · exact ⟨hx, .inr rfl⟩
          · rintro ⟨a, b | b⟩
            · exact .inl ⟨a, b⟩
            · exact .inr b.symm
      · intro k d hk
        change mapGet (mapSet s.dimensions x.dimension.href x.dimension) k = some d at hk
        rw [mapGet_mapSet] at hk
        split at hk
        · rename_i hxk
          cases hk
          exact ⟨hxk, { x with explicit := none }, by simp, rfl⟩
        · obtain ⟨h1, m, hm, h2⟩ := h.dim_key k d hk
          exact ⟨h1, m, by simp [hm], h2⟩
      · intro k
        show (mapGet (mapSet s.dimensions x.dimension.href x.dimension) k).isSome = true ↔ _
        rw [mapGet_mapSet, ext']
        split
        · rename_i hxk
          simp only [Option.isSome_some, true_iff]
          exact ⟨hxk ▸ hx, .inr hxk⟩
        · rename_i hxk
          rw [h.dim_has]
          simp [hxk]
      · intro k
        show (mapGet (match x.typedDomain with
          | some t => mapSet s.typedDomains t.href t
          | none => s.typedDomains) k).isSome = true ↔ _
        rw [ext']
        have h1 := h.typed_has k
        cases ht : x.typedDomain with
        | none => simp [h1]
        | some t =>
          simp only [mapGet_mapSet]
          split
          · rename_i hk
            simp only [Option.isSome_some, true_iff]
            exact .inr ⟨hx, t, rfl, hk⟩
          · rename_i hk
            rw [h1]
            simp [hk]
      · intro k t hk
        change mapGet (match x.typedDomain with
          | some t => mapSet s.typedDomains t.href t
          | none => s.typedDomains) k = some t at hk
        cases ht : x.typedDomain with
        | none => rw [ht] at hk; exact h.typed_key k t hk
        | some t0 =>
          rw [ht] at hk
          simp only [mapGet_mapSet] at hk
          split at hk
          · rename_i hk'; cases hk; exact hk'
          · exact h.typed_key k t hk
      · intro b k
        exact side_skip _ (.inr (.inr rfl)) (h.side b k)
    -- exchange the last member
    have swap : ∀ (side : GoMap String (GoMap String RelevantMember) × GoMap String (GoMap String RelevantMember)),
        (∀ b h, let sd := if b then side.1 else side.2
          (∀ inner, mapGet sd h = some inner → inner ≠ [] ∧ ∀ e ∈ inner, e.2 ∈ ms ++ [x] ∧ e.2.dimension.href = h) ∧
          ((mapGet sd h).isSome ↔ h ≠ "" ∧ ∃ m ∈ ms ++ [x], m.dimension.href = h ∧ m.isSegment = b ∧ m.explicit ≠ none)) →
        DimInv (ms ++ [x]) { s with
          segment := side.1
          scenario := side.2
          hrefs := match mapGet s.dimensions x.dimension.href with
            | some _ => s.hrefs
            | none => s.hrefs ++ [x.dimension.href]
          dimensions := mapSet s.dimensions x.dimension.href x.dimension
          typedDomains := match x.typedDomain with
            | some t => mapSet s.typedDomains t.href t
            | none => s.typedDomains } := by
      intro side hside
      refine ⟨base.hrefs_nodup, ?_, ?_, ?_, ?_, base.typed_key, hside⟩
      · intro k
        rw [show _ ↔ _ from base.hrefs_mem k]
        simp
      · intro k d hk
        obtain ⟨h1, m, hm, h2⟩ := base.dim_key k d hk
        refine ⟨h1, ?_⟩
        rcases List.mem_append.1 hm with hm | hm
        · exact ⟨m, by simp [hm], h2⟩
        · rw [List.mem_singleton.1 hm] at h2
          exact ⟨x, by simp, h2⟩
      · intro k
        rw [show _ ↔ _ from base.dim_has k]
        simp
      · intro k
        rw [show _ ↔ _ from base.typed_has k]
        simp
    cases he : x.explicit with
    | none =>
      refine swap (s.segment, s.scenario) ?_
      intro b k
      exact side_skip x (.inr (.inr he)) (h.side b k)
    | some e =>
      cases hb : x.isSegment with
      | true =>
        refine swap (addMember s.segment x.dimension.href e.href x, s.scenario) ?_
        intro b k
        cases b with
        | true => exact addMember_side (fun k => h.side true k) x e hx hb he k
        | false => exact side_skip x (.inr (.inl (by simp [hb]))) (h.side false k)
      | false =>
        refine swap (s.segment, addMember s.scenario x.dimension.href e.href x) ?_
        intro b k
        cases b with
        | true => exact side_skip x (.inr (.inl (by simp [hb]))) (h.side true k)
        | false => exact addMember_side (fun k => h.side false k) x e hx hb he k

theorem dimMaps_inv (ctxs : List RelevantContext) : DimInv (ctxs.flatMap RelevantContext.members) (dimMaps ctxs) := by
  unfold dimMaps
  generalize ctxs.flatMap RelevantContext.members = ms
  induction ms using snocInd with
  | nil =>
    refine ⟨by simp, by simp, by simp, by simp, by simp, by simp, ?_⟩
    intro b h
    cases b <;> simp
  | snoc l x ih =>
    rw [List.foldl_append, List.foldl_cons, List.foldl_nil]
    exact dimInv_addDimension ih x

/-! ## Rows of explicit dimensions -/

theorem explicitRow_spec {ctxs : List RelevantContext} (b : Bool)
    (ord : GoMap String RelevantMember → GoMap String RelevantMember) (hord : ∀ m, (ord m).Perm m) (h : String) :
    let side := if b then (dimMaps ctxs).segment else (dimMaps ctxs).scenario
    (HasExplicit ctxs b h → ∃ x ∈ ctxs.flatMap RelevantContext.members, x.dimension.href = h ∧
      explicitRow ord side h = [⟨false, 0, x.dimension, none⟩]) ∧
    (¬ HasExplicit ctxs b h → explicitRow ord side h = []) := by
  intro side
  have inv := (dimMaps_inv ctxs).side b h
  change (∀ inner, mapGet side h = some inner → _) ∧ _ at inv
  have hiff : (mapGet side h).isSome ↔ HasExplicit ctxs b h := by
    rw [inv.2]
    unfold HasExplicit
    simp only [List.mem_flatMap]
    constructor
    · rintro ⟨h1, m, ⟨c, hc, hm⟩, r⟩; exact ⟨h1, c, hc, m, hm, r⟩
    · rintro ⟨h1, c, hc, m, hm, r⟩; exact ⟨h1, m, ⟨c, hc, hm⟩, r⟩
  rw [← hiff]
  unfold explicitRow
  cases hm : mapGet side h with
  | none => simp
  | some inner =>
    simp only [Option.isSome_some, not_true, false_implies, and_true, true_implies]
    obtain ⟨h1, h2⟩ := inv.1 inner hm
    have hp := hord inner
    cases ho : ord inner with
    | nil =>
      rw [ho] at hp
      exact absurd (List.Perm.nil_eq hp).symm h1
    | cons y ys =>
      rw [ho] at hp
      obtain ⟨h3, h4⟩ := h2 y (hp.subset (by simp))
      exact ⟨y.2, h3, h4, rfl⟩

theorem explicitRow_row {ctxs : List RelevantContext} (b : Bool)
    (ord : GoMap String RelevantMember → GoMap String RelevantMember) (hord : ∀ m, (ord m).Perm m) (h : String) {r : VoidCell}
    (hr : r ∈ explicitRow ord (if b then (dimMaps ctxs).segment else (dimMaps ctxs).scenario) h) :
    ∃ x ∈ ctxs.flatMap RelevantContext.members, x.dimension.href = h ∧ r = ⟨false, 0, x.dimension, none⟩ := by
  obtain ⟨h1, h2⟩ := explicitRow_spec (ctxs := ctxs) b ord hord h
  by_cases hh : HasExplicit ctxs b h
  · obtain ⟨x, hx, hd, e⟩ := h1 hh
    rw [e] at hr
    exact ⟨x, hx, hd, List.mem_singleton.1 hr⟩
  · rw [h2 hh] at hr
    simp at hr

open Classical in
theorem explicitRow_hrefs {ctxs : List RelevantContext} (b : Bool)
    (ord : GoMap String RelevantMember → GoMap String RelevantMember) (hord : ∀ m, (ord m).Perm m) (h : String) :
    (explicitRow ord (if b then (dimMaps ctxs).segment else (dimMaps ctxs).scenario) h).map (fun r => r.dimension.href) =
      List.replicate (if HasExplicit ctxs b h then 1 else 0) h := by
  obtain ⟨h1, h2⟩ := explicitRow_spec (ctxs := ctxs) b ord hord h
  by_cases hh : HasExplicit ctxs b h
  · obtain ⟨x, hx, hd, e⟩ := h1 hh
    rw [e]
    simp [hh, hd]
  · rw [h2 hh]
    simp [hh]

theorem explicitRows_hrefs {ctxs : List RelevantContext}
    (ord : GoMap String RelevantMember → GoMap String RelevantMember) (hord : ∀ m, (ord m).Perm m) :
    (explicitRows ord (dimMaps ctxs)).map (fun r => r.dimension.href) =
      (sortStrings (dimMaps ctxs).hrefs).flatMap fun h => List.replicate (explicitCount ctxs h) h := by
  classical
  unfold explicitRows
  rw [List.map_flatMap]
  congr 1
  funext h
  rw [List.map_append]
  have e1 := explicitRow_hrefs (ctxs := ctxs) true ord hord h
  have e2 := explicitRow_hrefs (ctxs := ctxs) false ord hord h
  simp only [if_true, Bool.false_eq_true, if_false] at e1 e2
  rw [e1, e2, List.replicate_append_replicate]
  rfl

theorem count_flatMap_replicate (l : List String) (n : String → Nat) (hl : l.Nodup) (x : String) :
    (l.flatMap fun h => List.replicate (n h) h).count x = if x ∈ l then n x else 0 := by
  induction l with
  | nil => simp
  | cons a l ih =>
    rw [List.nodup_cons] at hl
    rw [List.flatMap_cons, List.count_append, ih hl.2, List.count_replicate]
    by_cases h : a = x
    · subst h
      simp [hl.1]
    · have h' : ¬ x = a := fun e => h e.symm
      simp [h, h']

theorem pairwise_flatMap_replicate (l : List String) (n : String → Nat) (hl : l.Pairwise (fun a b => ¬ b < a)) :
    (l.flatMap fun h => List.replicate (n h) h).Pairwise (fun a b => ¬ b < a) := by
  induction l with
  | nil => simp
  | cons a l ih =>
    rw [List.pairwise_cons] at hl
    rw [List.flatMap_cons, List.pairwise_append]
    refine ⟨?_, ih hl.2, ?_⟩
    · rw [List.pairwise_replicate]
      exact .inr (String.lt_irrefl a)
    · intro x hx y hy
      rw [(List.mem_replicate.1 hx).2]
      obtain ⟨z, hz, hy⟩ := List.mem_flatMap.1 hy
      rw [(List.mem_replicate.1 hy).2]
      exact hl.1 z hz

theorem explicitPart_rows (ctxs : List RelevantContext)
    (ord : GoMap String RelevantMember → GoMap String RelevantMember) (hord : ∀ m, (ord m).Perm m) :
    ExplicitPart ctxs (explicitRows ord (dimMaps ctxs)) := by
  have inv := dimMaps_inv ctxs
  have hrow : ∀ r ∈ explicitRows ord (dimMaps ctxs), ∃ x ∈ ctxs.flatMap RelevantContext.members,
      r = ⟨false, 0, x.dimension, none⟩ := by
    intro r hr
    unfold explicitRows at hr
    obtain ⟨h, _, hr⟩ := List.mem_flatMap.1 hr
    rcases List.mem_append.1 hr with hr | hr
    · obtain ⟨x, hx, _, e⟩ := explicitRow_row true ord hord h hr
      exact ⟨x, hx, e⟩
    · obtain ⟨x, hx, _, e⟩ := explicitRow_row (ctxs := ctxs) false ord hord h hr
      exact ⟨x, hx, e⟩
  refine ⟨?_, ?_, ?_, ?_⟩
  · rw [explicitRows_hrefs ord hord]
    exact pairwise_flatMap_replicate _ _ (sortStrings_sorted _)
  · intro dim
    rw [explicitRows_hrefs ord hord, count_flatMap_replicate _ _ ((sortStrings_perm _).nodup_iff.2 inv.hrefs_nodup)]
    split
    · rfl
    · rename_i hno
      rw [mem_sortStrings, inv.hrefs_mem] at hno
      unfold explicitCount
      have hne : ∀ b, ¬ HasExplicit ctxs b dim := by
        rintro b ⟨h1, c, hc, m, hm, hd, _⟩
        exact hno ⟨h1, m, List.mem_flatMap.2 ⟨c, hc, hm⟩, hd⟩
      simp [hne]
  · intro r hr
    obtain ⟨x, _, rfl⟩ := hrow r hr
    exact ⟨rfl, rfl, rfl⟩
  · intro r hr
    obtain ⟨x, hx, rfl⟩ := hrow r hr
    obtain ⟨c, hc, hm⟩ := List.mem_flatMap.1 hx
    exact ⟨c, hc, x, hm, rfl⟩

/-- The rows are determined by the hrefs when dimensions are coherent. -/
theorem explicitPart_unique {ctxs : List RelevantContext} (hco : CoherentDims ctxs) {a b : List VoidCell}
    (ha : ExplicitPart ctxs a) (hb : ExplicitPart ctxs b) : a = b := by
  have hp : (a.map fun r => r.dimension.href).Perm (b.map fun r => r.dimension.href) :=
    List.perm_iff_count.2 fun x => by rw [ha.count, hb.count]
  have he : (a.map fun r => r.dimension.href) = (b.map fun r => r.dimension.href) :=
    hp.eq_of_pairwise (fun x y _ _ h1 h2 => by
      rcases str_trichotomy x y with h | h | h
      · exact absurd h h2
      · exact h
      · exact absurd h h1) ha.sorted hb.sorted
  clear hp
  have key : ∀ r ∈ a, ∀ r' ∈ b, r.dimension.href = r'.dimension.href → r = r' := by
    intro r hr r' hr' e
    obtain ⟨h1, h2, h3⟩ := ha.plain r hr
    obtain ⟨h1', h2', h3'⟩ := hb.plain r' hr'
    obtain ⟨c, hc, m, hm, hd⟩ := ha.dimension r hr
    obtain ⟨c', hc', m', hm', hd'⟩ := hb.dimension r' hr'
    have := hco c hc m hm c' hc' m' hm' (by rw [hd, hd', e])
    rw [hd, hd'] at this
    obtain ⟨_, _, _, _⟩ := r
    obtain ⟨_, _, _, _⟩ := r'
    simp_all
  clear ha hb
  induction a generalizing b with
  | nil => simp at he; exact he.symm ▸ rfl
  | cons x a ih =>
    cases b with
    | nil => simp at he
    | cons y b =>
      simp only [List.map_cons, List.cons.injEq] at he
      rw [key x (by simp) y (by simp) he.1, ih he.2 (fun r hr r' hr' => key r (by simp [hr]) r' (by simp [hr']))]

/-! ## Trees -/

theorem nodeAt_zero (l : String) (o : F64) (cs : List Node) (x : String) : NodeAt (.mk l o cs) 0 x ↔ x = l := by
  constructor
  · intro h; cases h; rfl
  · rintro rfl; exact .here _ _ _

theorem nodeAt_succ (l : String) (o : F64) (cs : List Node) (k : Nat) (x : String) :
    NodeAt (.mk l o cs) (k + 1) x ↔ SomeAt cs k x := by
  constructor
  · intro h
    cases h with
    | under _ _ _ c _ _ hc h => exact ⟨c, hc, h⟩
  · rintro ⟨c, hc, h⟩; exact .under _ _ _ c _ _ hc h

theorem someAt_zero (cs : List Node) (x : String) : SomeAt cs 0 x ↔ x ∈ cs.map Node.locator := by
  unfold SomeAt
  rw [List.mem_map]
  refine exists_congr fun c => and_congr_right fun _ => ?_
  obtain ⟨l, o, d⟩ := c
  rw [nodeAt_zero]
  exact eq_comm

theorem someAt_succ (cs : List Node) (k : Nat) (x : String) : SomeAt cs (k + 1) x ↔ SomeAt (cs.flatMap Node.children) k x := by
  unfold SomeAt
  simp only [List.mem_flatMap]
  constructor
  · rintro ⟨⟨l, o, d⟩, hc, h⟩
    obtain ⟨t, ht, h⟩ := (nodeAt_succ l o d k x).1 h
    exact ⟨t, ⟨_, hc, ht⟩, h⟩
  · rintro ⟨t, ⟨⟨l, o, d⟩, hc, ht⟩, h⟩
    exact ⟨_, hc, (nodeAt_succ l o d k x).2 ⟨t, ht, h⟩⟩

theorem someAt_cons (c : Node) (cs : List Node) (k : Nat) (x : String) :
    SomeAt (c :: cs) k x ↔ NodeAt c k x ∨ SomeAt cs k x := by
  unfold SomeAt
  simp

theorem sortedAll_eq_map (cs : List Node) : sortedAll cs = cs.map Node.sorted := by
  induction cs with
  | nil => rfl
  | cons c cs ih => rw [sortedAll, ih]; rfl

theorem mem_sortNodes (l : List Node) (n : Node) : n ∈ sortNodes l ↔ n ∈ l :=
  (stableSort_perm _ l).mem_iff

theorem nodeAt_sorted (k : Nat) (n : Node) (x : String) : NodeAt n.sorted k x ↔ NodeAt n k x := by
  induction k generalizing n with
  | zero =>
    obtain ⟨l, o, cs⟩ := n
    rw [Node.sorted, nodeAt_zero, nodeAt_zero]
  | succ k ih =>
    obtain ⟨l, o, cs⟩ := n
    rw [Node.sorted, nodeAt_succ, nodeAt_succ]
    unfold SomeAt
    simp only [mem_sortNodes, sortedAll_eq_map, List.mem_map]
    constructor
    · rintro ⟨_, ⟨c, hc, rfl⟩, h⟩; exact ⟨c, hc, (ih c).1 h⟩
    · rintro ⟨c, hc, h⟩; exact ⟨_, ⟨c, hc, rfl⟩, (ih c).2 h⟩

theorem someAt_dedup (k : Nat) (cs : List Node) (o : Nat) (x : String) : SomeAt (dedupNodes cs o) k x ↔ SomeAt cs k x := by
  induction k generalizing cs o with
  | zero =>
    rw [someAt_zero, someAt_zero]
    unfold dedupNodes
    split
    · rename_i h; simp [h]
    · rw [List.mem_map]
      simp only [List.mem_mapIdx]
      constructor
      · rintro ⟨_, ⟨i, hi, rfl⟩, rfl⟩
        exact mem_dedup.1 (List.getElem_mem hi)
      · intro h
        obtain ⟨i, hi, e⟩ := List.getElem_of_mem (mem_dedup.2 h)
        exact ⟨_, ⟨i, hi, rfl⟩, e⟩
  | succ k ih =>
    unfold dedupNodes
    split
    · rename_i h; simp [h]
    · unfold SomeAt
      simp only [List.mem_mapIdx]
      constructor
      · rintro ⟨_, ⟨i, hi, rfl⟩, h⟩
        rw [nodeAt_succ, ih] at h
        obtain ⟨t, ht, h⟩ := h
        unfold grandchildren at ht
        obtain ⟨⟨l, o, d⟩, hc, ht⟩ := List.mem_flatMap.1 ht
        exact ⟨_, (List.mem_filter.1 hc).1, (nodeAt_succ _ _ _ _ _).2 ⟨t, ht, h⟩⟩
      · rintro ⟨⟨l, o', d⟩, hc, h⟩
        obtain ⟨i, hi, e⟩ := List.getElem_of_mem (mem_dedup.2 (List.mem_map_of_mem (f := Node.locator) hc))
        refine ⟨_, ⟨i, hi, rfl⟩, ?_⟩
        rw [nodeAt_succ, ih]
        obtain ⟨t, ht, h⟩ := (nodeAt_succ _ _ _ _ _).1 h
        refine ⟨t, ?_, h⟩
        unfold grandchildren
        refine List.mem_flatMap.2 ⟨_, List.mem_filter.2 ⟨hc, ?_⟩, ht⟩
        rw [e]; simp

/-- The walked tree. -/
theorem reduced_spec (trees : List Node) : ∃ o cs, (reduceTrees trees).sorted = .mk "" o cs ∧
    ∀ k x, SomeAt cs k x → SomeAt trees (k + 1) x := by
  unfold reduceTrees
  split
  · refine ⟨_, _, rfl, ?_⟩
    intro k x h
    simp [sortedAll, sortNodes, stableSort, SomeAt] at h
  · refine ⟨_, _, rfl, ?_⟩
    intro k x h
    rw [someAt_succ]
    have h2 : NodeAt (Node.mk "" F64.zero (dedupNodes (trees.flatMap Node.children) 0)).sorted (k + 1) x :=
      (nodeAt_succ _ _ _ _ _).2 h
    rw [nodeAt_sorted, nodeAt_succ, someAt_dedup] at h2
    exact h2

/-! ## The walk -/

theorem enter_of_some {s : DimMaps} {loc : String} {st : IndentState} {d : Labelled} (h : st.dimension = some d) :
    enterNode s loc st = some st := by
  unfold enterNode
  rw [if_neg (by rw [h]; simp)]

theorem appendRow_of_some {paren : Bool} {level : Nat} {td : Option Labelled} {st : IndentState} {d : Labelled}
    (h : st.dimension = some d) :
    appendRow paren level td st = .done { st with rows := st.rows ++ [⟨paren, level, d, td⟩] } := by
  unfold appendRow
  rw [h]

mutual
/-- Below a dimension. -/
theorem indentNode_deep (s : DimMaps) (paren : Bool) (d : Labelled) (level : Nat) (hl : 2 ≤ level) (st : IndentState)
    (hd : st.dimension = some d) : ∀ n : Node, ∃ st', indentNode s paren level st n = .done st' ∧ st'.dimension = some d ∧
      (∀ r ∈ st'.rows, r ∈ st.rows ∨ (r.dimension = d ∧ 1 ≤ r.indentation ∧ r.isParenthesized = paren)) ∧
      ((∀ k x, NodeAt n k x → x = "" ∨ (mapGet s.typedDomains x).isSome) →
        ∃ T, st'.rows = st.rows ++ T ∧ ∀ r ∈ T, 1 ≤ r.indentation)
  | .mk loc o cs => by
    unfold indentNode
    rw [enter_of_some hd]
    simp only
    unfold nodeRow
    rw [if_neg (by omega)]
    by_cases hloc : loc = ""
    · rw [if_neg (by simp [hloc])]
      obtain ⟨st', e, h1, h2, h3⟩ := indentNodes_deep s paren d (level + 1) (by omega) st hd cs
      refine ⟨st', e, h1, h2, fun hk => h3 ?_⟩
      intro k x hx
      exact hk (k + 1) x ((nodeAt_succ _ _ _ _ _).2 hx)
    · rw [if_pos ⟨by omega, hloc⟩]
      cases ht : mapGet s.typedDomains loc with
      | none =>
        refine ⟨_, rfl, hd, by simp, ?_⟩
        intro hk
        rcases hk 0 loc (.here _ _ _) with h | h
        · exact absurd h hloc
        · rw [ht] at h; simp at h
      | some t =>
        simp only [appendRow_of_some hd, Run.andThen]
        obtain ⟨st', e, h1, h2, h3⟩ := indentNodes_deep s paren d (level + 1) (by omega)
          { st with rows := st.rows ++ [⟨paren, level, d, some t⟩] } hd cs
        refine ⟨st', e, h1, ?_, ?_⟩
        · intro r hr
          rcases h2 r hr with h | h
          · rcases List.mem_append.1 h with h | h
            · exact .inl h
            · rw [List.mem_singleton.1 h]
              exact .inr ⟨rfl, by show 1 ≤ level; omega, rfl⟩
          · exact .inr h
        · intro hk
          obtain ⟨T, hT, hi⟩ := h3 fun k x hx => hk (k + 1) x ((nodeAt_succ _ _ _ _ _).2 hx)
          refine ⟨⟨paren, level, d, some t⟩ :: T, by rw [hT]; simp, ?_⟩
          intro r hr
          rcases List.mem_cons.1 hr with rfl | hr
          · show 1 ≤ level; omega
          · exact hi r hr
theorem indentNodes_deep (s : DimMaps) (paren : Bool) (d : Labelled) (level : Nat) (hl : 2 ≤ level) (st : IndentState)
    (hd : st.dimension = some d) : ∀ cs : List Node, ∃ st', indentNodes s paren level st cs = .done st' ∧
      st'.dimension = some d ∧
      (∀ r ∈ st'.rows, r ∈ st.rows ∨ (r.dimension = d ∧ 1 ≤ r.indentation ∧ r.isParenthesized = paren)) ∧
      ((∀ k x, SomeAt cs k x → x = "" ∨ (mapGet s.typedDomains x).isSome) →
        ∃ T, st'.rows = st.rows ++ T ∧ ∀ r ∈ T, 1 ≤ r.indentation)
  | [] => by
    unfold indentNodes
    exact ⟨st, rfl, hd, fun r hr => .inl hr, fun _ => ⟨[], by simp, by simp⟩⟩
  | c :: cs => by
    unfold indentNodes
    obtain ⟨st1, e1, h1, h2, h3⟩ := indentNode_deep s paren d level hl st hd c
    obtain ⟨st2, e2, h1', h2', h3'⟩ := indentNodes_deep s paren d level hl st1 h1 cs
    rw [e1]
    simp only [e2]
    refine ⟨st2, rfl, h1', ?_, ?_⟩
    · intro r hr
      rcases h2' r hr with h | h
      · exact h2 r h
      · exact .inr h
    · intro hk
      obtain ⟨T, hT, hi⟩ := h3 fun k x hx => hk k x ((someAt_cons _ _ _ _).2 (.inl hx))
      obtain ⟨T', hT', hi'⟩ := h3' fun k x hx => hk k x ((someAt_cons _ _ _ _).2 (.inr hx))
      refine ⟨T ++ T', by rw [hT', hT]; simp, ?_⟩
      intro r hr
      rcases List.mem_append.1 hr with h | h
      · exact hi r h
      · exact hi' r h
end

/-- What holds of the walk: every typed row has the one dimension. -/
structure WalkInv (s : DimMaps) (D : String → Prop) (st : IndentState) : Prop where
  rows : ∀ r ∈ st.rows, 1 ≤ r.indentation → st.dimension = some r.dimension
  dimension : ∀ d, st.dimension = some d → ∃ x, D x ∧ mapGet s.dimensions x = some d

/-- At the level of dimensions. -/
theorem indentNode_dim (s : DimMaps) (paren : Bool) (D : String → Prop) {st : IndentState} (hinv : WalkInv s D st) (n : Node)
    (hn : D n.locator) {st' : IndentState} (h : indentNode s paren 1 st n = .done st') : WalkInv s D st' := by
  obtain ⟨loc, o, cs⟩ := n
  unfold indentNode at h
  cases he : enterNode s loc st with
  | none =>
    rw [he] at h
    cases h
    exact ⟨by simp, hinv.dimension⟩
  | some st1 =>
    rw [he] at h
    simp only [nodeRow, if_true] at h
    have inv1 : WalkInv s D st1 := by
      unfold enterNode at he
      split at he
      · rename_i hc
        split at he
        · simp at he
        · rename_i d hd
          cases he
          refine ⟨?_, ?_⟩
          · intro r hr hi
            have := hinv.rows r hr hi
            rw [hc.1] at this
            simp at this
          · intro d' hd'
            cases hd'
            exact ⟨loc, hn, hd⟩
      · cases he; exact hinv
    cases hd : st1.dimension with
    | none =>
      unfold appendRow at h
      rw [hd] at h
      simp [Run.andThen] at h
    | some d =>
      simp only [appendRow_of_some hd, Run.andThen] at h
      obtain ⟨st2, e, h1, h2, _⟩ := indentNodes_deep s paren d 2 (by omega)
        { st1 with rows := st1.rows ++ [⟨paren, 1, d, none⟩] } hd cs
      rw [e] at h
      cases h
      refine ⟨?_, ?_⟩
      · intro r hr hi
        rw [h1]
        rcases h2 r hr with h | h
        · rcases List.mem_append.1 h with h | h
          · rw [← inv1.rows r h hi, hd]
          · rw [List.mem_singleton.1 h]
        · rw [h.1]
      · intro d' hd'
        rw [h1] at hd'
        cases hd'
        exact inv1.dimension d hd

theorem indentNodes_dim (s : DimMaps) (paren : Bool) (D : String → Prop) {st : IndentState} (hinv : WalkInv s D st)
    (cs : List Node) (hn : ∀ c ∈ cs, D c.locator) {st' : IndentState} (h : indentNodes s paren 1 st cs = .done st') :
    WalkInv s D st' := by
  induction cs generalizing st with
  | nil => unfold indentNodes at h; cases h; exact hinv
  | cons c cs ih =>
    unfold indentNodes at h
    cases hc : indentNode s paren 1 st c with
    | panic => rw [hc] at h; simp at h
    | loop => rw [hc] at h; simp at h
    | done st1 =>
      rw [hc] at h
      exact ih (indentNode_dim s paren D hinv c (hn c (by simp)) hc) (fun x hx => hn x (by simp [hx])) h

theorem indent_root (s : DimMaps) (paren : Bool) (st : IndentState) (o : F64) (cs : List Node) :
    indentNode s paren 0 st (.mk "" o cs) = indentNodes s paren 1 st cs := by
  unfold indentNode enterNode nodeRow
  simp

/-- Known dimensions and typed domains: nothing is thrown away, nothing panics. -/
theorem indentNodes_known (s : DimMaps) (paren : Bool) (cs : List Node)
    (h0 : ∀ x, SomeAt cs 0 x → x ≠ "" ∧ (mapGet s.dimensions x).isSome)
    (h1 : ∀ k x, SomeAt cs (k + 1) x → x = "" ∨ (mapGet s.typedDomains x).isSome) (st : IndentState) :
    ∃ st' T, indentNodes s paren 1 st cs = .done st' ∧ st'.rows = st.rows ++ T ∧ ∀ r ∈ T, 1 ≤ r.indentation := by
  induction cs generalizing st with
  | nil => exact ⟨st, [], by unfold indentNodes; rfl, by simp, by simp⟩
  | cons c cs ih =>
    obtain ⟨loc, o, ds⟩ := c
    obtain ⟨hne, hdim⟩ := h0 loc ((someAt_cons _ _ _ _).2 (.inl (.here _ _ _)))
    have hent : ∃ st1 d, enterNode s loc st = some st1 ∧ st1.dimension = some d ∧ st1.rows = st.rows := by
      unfold enterNode
      split
      · cases hm : mapGet s.dimensions loc with
        | none => rw [hm] at hdim; simp at hdim
        | some d => exact ⟨_, d, rfl, rfl, rfl⟩
      · rename_i hc
        cases hd : st.dimension with
        | none => exact absurd ⟨hd, hne⟩ hc
        | some d => exact ⟨st, d, rfl, hd, rfl⟩
    obtain ⟨st1, d, e1, hd, hr⟩ := hent
    obtain ⟨st2, e2, h3, _, h5⟩ := indentNodes_deep s paren d 2 (by omega)
      { st1 with rows := st1.rows ++ [⟨paren, 1, d, none⟩] } hd ds
    obtain ⟨T, hT, hi⟩ := h5 fun k x hx => h1 k x ((someAt_cons _ _ _ _).2 (.inl ((nodeAt_succ _ _ _ _ _).2 hx)))
    obtain ⟨st3, T', e3, hT', hi'⟩ := ih (fun x hx => h0 x ((someAt_cons _ _ _ _).2 (.inr hx)))
      (fun k x hx => h1 k x ((someAt_cons _ _ _ _).2 (.inr hx))) st2
    refine ⟨st3, ⟨paren, 1, d, none⟩ :: (T ++ T'), ?_, ?_, ?_⟩
    · unfold indentNodes indentNode
      rw [e1]
      simp only [nodeRow, if_true, appendRow_of_some hd, Run.andThen, e2, e3]
    · rw [hT', hT]
      simp [hr]
    · intro r hr
      rcases List.mem_cons.1 hr with rfl | hr
      · exact Nat.le_refl 1
      · rcases List.mem_append.1 hr with h | h
        · exact hi r h
        · exact hi' r h

end Telefacts.Render
