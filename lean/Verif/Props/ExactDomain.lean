import Verif.Props.Relations
import Verif.Props.Hypercubes
/-! # C129, C136: exactly when the members of a dimension are listed -/
namespace Telefacts
open Telefacts.Render Telefacts.Spec

/-- The dimension has a member that could be listed. -/
def HasMembers (w : Networks) (dim : String) : Prop := (∃ m, DefaultOf w dim m) ∨ HasDomain w dim ∧ ∃ m, DomainMember w m

/-- Something could be struck through: a default of any dimension, or a member. -/
def HasStruck (w : Networks) (dim : String) : Prop := (∃ dim' m, DefaultOf w dim' m) ∨ HasDomain w dim ∧ ∃ m, DomainMember w m

/-- `Tidy`, however many hypercubes include the dimension for the primary item. -/
structure TidyButCubes (w : Networks) (primary dim : String) : Prop where
  inclusive : Distinct w w.inclusive
  exclusive : Distinct w w.exclusive
  dimensions : Distinct w w.hypercubeDimension
  defaults : Distinct w w.dimensionDefault
  domains : (w.dimensionDomain.map w.href).Nodup
  members : ∀ l, HrefsOf w w.explicitDomain l → l.Nodup
  oneDimension : (w.dimensionDefault.flatMap fun n => n.children.map w.href).Nodup
  apart : ∀ n ∈ w.dimensionDefault, ∀ dim', ¬ DefaultOf w dim' (w.href n)
  oneExclusive : ∀ c c', HasCube w w.exclusive primary dim c → HasCube w w.exclusive primary dim c' → c = c'
  noConflict : ∀ c, ¬ (HasCube w w.inclusive primary dim c ∧ HasCube w w.exclusive primary dim c)

/-- **C136 (exact).** In networks that do not mention a member twice, the members of a dimension are listed for a primary item exactly if
one and only one hypercube of the item has the dimension. -/
theorem C136_exact (w : Networks) (primary dim : String) (ht : TidyButCubes w primary dim) (hm : HasMembers w dim) :
    KeepsMembers w primary dim ↔ ∃ c, HasCube w w.inclusive primary dim c ∧ ∀ c', HasCube w w.inclusive primary dim c' → c' = c := by
  constructor
  · rintro ⟨h1, h2⟩
    obtain ⟨x, hx, hs⟩ : ∃ x ∈ (getEffectiveDomain w primary dim).1, x.isStrikethrough = false := by
      rcases hm with ⟨m, hm⟩ | ⟨hd, m, hm⟩
      · obtain ⟨x, hx, _, _, hs⟩ := h1 m hm
        exact ⟨x, hx, hs⟩
      · obtain ⟨x, hx, _, _, hs⟩ := h2 m hd hm
        exact ⟨x, hx, hs⟩
    have hc := (C69_listed w primary dim x hx).1.cube
    rw [hs, if_neg Bool.false_ne_true] at hc
    obtain ⟨c, hc⟩ := hc
    refine ⟨c, hc, fun c' hc' => ?_⟩
    by_contra hne
    rw [C136_fails w primary dim c' c hc' hc hne x hx] at hs
    exact Bool.noConfusion hs
  · rintro ⟨c, hc, hu⟩
    exact C136_one_partial w primary dim c
      ⟨ht.inclusive, ht.exclusive, ht.dimensions, ht.defaults, ht.domains, ht.members, ht.oneDimension, ht.apart,
        fun a b ha hb => (hu a ha).trans (hu b hb).symm, ht.oneExclusive, ht.noConflict⟩ hc

/-- **C129 (exact).** In networks that do not mention a member twice, the effective domain of a primary item is that of the hypercubes it
has and inherits exactly if an item that inherits some hypercube with the dimension has one itself, for what is included and for what is
excluded. -/
theorem C129_exact (w : Networks) (items : List Node) (primary dim : String) (ht : Tidy w primary dim) :
    (∀ m, m ∈ (getEffectiveDomain w primary dim).1 ↔ ListedInherited w items primary dim m) ↔
      (HasMembers w dim → (∃ c, InheritsCube w items w.inclusive primary dim c) → ∃ c, HasCube w w.inclusive primary dim c) ∧
      (HasStruck w dim → (∃ c, InheritsCube w items w.exclusive primary dim c) → ∃ c, HasCube w w.exclusive primary dim c) := by
  constructor
  · intro h
    refine ⟨fun hm hc => ?_, fun hm hc => ?_⟩
    · have key : ∀ m d, ListedInherited w items primary dim ⟨m, w.label m, d, false⟩ → ∃ c, HasCube w w.inclusive primary dim c := by
        intro m d hl
        have := ((C69_complete w primary dim ht _).1 ((h _).2 hl)).cube
        rwa [if_neg Bool.false_ne_true] at this
      rcases hm with ⟨m, hm⟩ | ⟨hd, m, hm⟩
      · exact key m true ⟨rfl, by rwa [if_neg Bool.false_ne_true], fun _ => by rwa [if_neg Bool.false_ne_true], fun e => by cases e⟩
      · exact key m false ⟨rfl, by rwa [if_neg Bool.false_ne_true], (fun e => by cases e), fun _ => ⟨hd, hm⟩⟩
    · have key : ∀ m d, ListedInherited w items primary dim ⟨m, w.label m, d, true⟩ → ∃ c, HasCube w w.exclusive primary dim c := by
        intro m d hl
        have := ((C69_complete w primary dim ht _).1 ((h _).2 hl)).cube
        rwa [if_pos rfl] at this
      rcases hm with ⟨d, m, hm⟩ | ⟨hd, m, hm⟩
      · exact key m true ⟨rfl, by rwa [if_pos rfl], fun _ => by rw [if_pos rfl]; exact ⟨d, hm⟩, fun e => by cases e⟩
      · exact key m false ⟨rfl, by rwa [if_pos rfl], (fun e => by cases e), fun _ => ⟨hd, hm⟩⟩
  · rintro ⟨h1, h2⟩ m
    rw [C69_complete w primary dim ht]
    have cand : ∀ {p : Prop}, (m.isDefault = true → p) → (m.isDefault = false → p) → p := fun a b => by
      cases hd : m.isDefault with
      | true => exact a hd
      | false => exact b hd
    constructor
    · intro h
      refine ⟨h.label, ?_, h.default, h.member⟩
      have hc := h.cube
      split at hc
      · rw [if_pos (by assumption)]
        exact hc.imp fun c hc => .inl hc
      · rw [if_neg (by assumption)]
        exact hc.imp fun c hc => .inl hc
    · intro h
      refine ⟨h.label, ?_, h.default, h.member⟩
      have hc := h.cube
      split at hc
      next hs =>
        rw [if_pos hs]
        refine h2 (cand (fun e => ?_) fun e => .inr ⟨(h.member e).1, _, (h.member e).2⟩) hc
        have := h.default e
        rw [if_pos hs] at this
        obtain ⟨d, hd⟩ := this
        exact .inl ⟨d, _, hd⟩
      next hs =>
        rw [if_neg hs]
        refine h1 (cand (fun e => ?_) fun e => .inr ⟨(h.member e).1, _, (h.member e).2⟩) hc
        have := h.default e
        rw [if_neg hs] at this
        exact .inl ⟨_, this⟩

/-- Hypotheses and both sides of `C136_exact`: in `twoDims` one hypercube of `p` has `d1`, in `twoCubes` two have. -/
example : HasMembers twoDims "d1" ∧ HasMembers twoCubes "d1" ∧
    (∃ c, HasCube twoDims twoDims.inclusive "p" "d1" c) ∧
    ¬ ∃ c, HasCube twoCubes twoCubes.inclusive "p" "d1" c ∧ ∀ c', HasCube twoCubes twoCubes.inclusive "p" "d1" c' → c' = c := by
  refine ⟨.inl ⟨"m1", _, List.mem_cons_self .., rfl, _, List.mem_cons_self .., rfl⟩, .inl ⟨"m1", C136_witness.2.2.1⟩,
    ⟨"c", (mem_cubes ..).1 (by decide +kernel)⟩, ?_⟩
  rintro ⟨c, _, hu⟩
  have h1 := hu _ C136_witness.1
  have h2 := hu _ C136_witness.2.1
  exact absurd (h1.trans h2.symm) (by decide)

/-- The side of `C129_exact` that does not hold: `i` inherits `c` from `p` and has no hypercube itself. -/
example : HasMembers twoDims "d1" ∧ (∃ c, InheritsCube twoDims [.mk "p" .zero [.mk "i" .zero []]] twoDims.inclusive "i" "d1" c) ∧
    ¬ ∃ c, HasCube twoDims twoDims.inclusive "i" "d1" c := by
  refine ⟨.inl ⟨"m1", _, List.mem_cons_self .., rfl, _, List.mem_cons_self .., rfl⟩, ⟨"c", .inr ⟨_, List.mem_singleton.2 rfl, _, .inl rfl, ?_, .mk "i" .zero [], .child _ _ _ _ (by simp), rfl⟩⟩, ?_⟩
  · exact (mem_cubes ..).1 (by decide +kernel)
  · rintro ⟨c, hc⟩
    have := (mem_cubes ..).2 hc
    rw [show cubes twoDims twoDims.inclusive "i" "d1" = [] by decide +kernel] at this
    cases this

end Telefacts
