import Verif.Props.Relations
import Verif.Model.Grid
/-! # C140: the arcs and the items of a calculation -/
namespace Telefacts
open Telefacts.Spec Telefacts.Linkbase Telefacts.Render Telefacts.Instance

private theorem link_arcs {A : Type} {arcOf : List Attr → A → Prop} (hf : ∀ x a a', arcOf x a → arcOf x a' → a = a') {es : List LinkElem}
    {role : String} {lb : Lb A} {k : Link A} (hm : Merged arcOf es lb.links) (hk : HoldsLink role lb k) (a : A) :
    a ∈ k.arcs ↔ ∃ e ∈ es, HasRole e role ∧ ∃ x ∈ e.arcs, arcOf x a := by
  obtain ⟨_, hw⟩ := hk
  obtain ⟨hkm, hkr⟩ := firstWith_mem hw
  rw [← merged_mem_iff hm hf role a]
  constructor
  · exact fun h => ⟨k, hkm, hkr, h⟩
  · rintro ⟨l, hl, hlr, ha⟩
    have : l = k := List.inj_on_of_nodup_map hm.1 hl hkm (hlr.trans hkr.symm)
    rw [← this]; exact ha

/-- What is common to both directions: the items and the arcs of the link. -/
private theorem items_arcs {Φ : Type} {f : Folder} {env : GridEnv Φ} {entity role : String} {lbs : List (Lb CArc)} {lb : Lb CArc}
    {k : Link CArc} (hf : FirstWith (fun lb => ∃ k, HoldsLink role lb k) lbs lb) (hk : HoldsLink role lb k)
    {items : List (SummationItem Φ)} {roles : List LabelRole} {langs : List Lang}
    (hl : ∀ h, Shown (f.label h) "Default" "Unlabelled" h) (hord : ∀ m, (env.mapOrder m).Perm m) (hn : ∀ a ∈ k.arcs, a.order ≠ .nan)
    (h : getSummationItems f env entity role [] lbs = .done (items, roles, langs)) :
    (∀ href, (∃ i ∈ items, i.href = href) ↔ (f.concept href).isSome ∧ ∃ a ∈ k.arcs, IsCalcArc role lb href a) ∧
    (∀ i ∈ items, ∃ arcs out : List CArc,
      (∀ a, a ∈ arcs ↔ a ∈ k.arcs ∧ IsCalcArc role lb i.href a ∧ (f.concept (mapLocator role lb a.to)).isSome) ∧
      out.Perm arcs ∧ List.Forall₂ (Contributes f role lb k.arcs) out i.contributing) := by
  rw [(C46_link_partial f env entity role lbs).1 lb k hf hk] at h
  obtain ⟨_, h2, h3⟩ := C46_items_partial f env entity role lb k items roles langs hl hord hn h
  refine ⟨h2, fun i hi => ?_⟩
  obtain ⟨_, _, arcs, out, a1, _, a3, a4⟩ := h3 i hi
  exact ⟨arcs, out, a1, a3.1, a4⟩

private theorem forall₂_left {α β : Type} {R : α → β → Prop} {l : List α} {m : List β} (h : List.Forall₂ R l m) {a : α} (ha : a ∈ l) :
    ∃ b ∈ m, R a b := by
  induction h with
  | nil => cases ha
  | cons hab _ ih =>
    rcases List.mem_cons.1 ha with rfl | ha
    · exact ⟨_, List.mem_cons_self .., hab⟩
    · obtain ⟨b, hb, h⟩ := ih ha
      exact ⟨b, List.mem_cons_of_mem _ hb, h⟩

private theorem forall₂_right {α β : Type} {R : α → β → Prop} {l : List α} {m : List β} (h : List.Forall₂ R l m) {b : β} (hb : b ∈ m) :
    ∃ a ∈ l, R a b := by
  induction h with
  | nil => cases hb
  | cons hab _ ih =>
    rcases List.mem_cons.1 hb with rfl | hb
    · exact ⟨_, List.mem_cons_self .., hab⟩
    · obtain ⟨b, hb, h⟩ := ih hb
      exact ⟨b, List.mem_cons_of_mem _ hb, h⟩

/-- **C140.** Every summation-item arc of the links of the role is shown: if both its concepts are known, there is an item for its
source with a contribution for its target, with the sign and the scale of the weight of the arc. This is for labels that stand for
one concept (`C127_fails`). -/
theorem C140_arcs {Φ : Type} (f : Folder) (env : GridEnv Φ) (parse : String → F64 × Bool) (entity role : String) (b : Books)
    (lb : Lb CArc) (k : Link CArc) (hf : FirstWith (fun lb => ∃ k, HoldsLink role lb k) b.calculation lb) (hk : HoldsLink role lb k)
    (es : List LinkElem) (hm : Merged (CArcOf parse) es lb.links)
    (items : List (SummationItem Φ)) (roles : List LabelRole) (langs : List Lang)
    (hlab : ∀ h, Shown (f.label h) "Default" "Unlabelled" h) (hord : ∀ m, (env.mapOrder m).Perm m) (hn : ∀ a ∈ k.arcs, a.order ≠ .nan)
    (h : cGrid f env entity role b = .done (items, roles, langs))
    (x : List Attr) (hx : ArcElem es role x) (a : CArc) (ha : CArcOf parse x a)
    (har : a.arcrole = "http://www.xbrl.org/2003/arcrole/summation-item") (h1 h2 : String) (hl1 : LabelFor es role a.frm h1)
    (hl2 : LabelFor es role a.to h2) (hc1 : (f.concept h1).isSome) (hc2 : (f.concept h2).isSome) :
    ∃ i ∈ items, i.href = h1 ∧ ∃ c ∈ i.contributing, c.href = h2 ∧ (c.sign = "-" ↔ Negative a.weight) ∧
      (c.sign = "+" ↔ ¬ Negative a.weight) ∧ NearestTenths a.weight c.scale := by
  obtain ⟨e, he, her, hxe⟩ := hx
  have hak := (link_arcs (CArcOf.unique parse) hm hk a).2 ⟨e, he, her, x, hxe, ha⟩
  have e1 := mapLocator_labelFor hm hk.1 hl1
  have e2 := mapLocator_labelFor hm hk.1 hl2
  obtain ⟨k1, k2⟩ := items_arcs hf hk hlab hord hn h
  obtain ⟨i, hi, hih⟩ := (k1 h1).2 ⟨hc1, a, hak, har, e1⟩
  obtain ⟨arcs, out, o1, o2, o3⟩ := k2 i hi
  have : a ∈ out := o2.mem_iff.2 ((o1 a).2 ⟨hak, ⟨har, hih ▸ e1⟩, by rw [e2]; exact hc2⟩)
  obtain ⟨c, hc, hcc⟩ := forall₂_left o3 this
  exact ⟨i, hi, hih, c, hc, hcc.href.trans e2, hcc.negative, hcc.positive, hcc.scale⟩

/-- **C140.** Conversely every contribution of an item is that of an arc of the links of the role, from the concept of the item, and an
item without contributions has an arc to an unknown concept. -/
theorem C140_items {Φ : Type} (f : Folder) (env : GridEnv Φ) (parse : String → F64 × Bool) (entity role : String) (b : Books)
    (lb : Lb CArc) (k : Link CArc) (hf : FirstWith (fun lb => ∃ k, HoldsLink role lb k) b.calculation lb) (hk : HoldsLink role lb k)
    (es : List LinkElem) (hm : Merged (CArcOf parse) es lb.links)
    (items : List (SummationItem Φ)) (roles : List LabelRole) (langs : List Lang)
    (hlab : ∀ h, Shown (f.label h) "Default" "Unlabelled" h) (hord : ∀ m, (env.mapOrder m).Perm m) (hn : ∀ a ∈ k.arcs, a.order ≠ .nan)
    (h : cGrid f env entity role b = .done (items, roles, langs))
    (hl : ∀ x, ArcElem es role x → ∀ a, CArcOf parse x a → (∃ h, LabelFor es role a.frm h) ∧ ∃ h, LabelFor es role a.to h)
    (i : SummationItem Φ) (hi : i ∈ items) :
    (∃ x a, ArcElem es role x ∧ CArcOf parse x a ∧ a.arcrole = "http://www.xbrl.org/2003/arcrole/summation-item" ∧
      LabelFor es role a.frm i.href) ∧
    ∀ c ∈ i.contributing, ∃ x a, ArcElem es role x ∧ CArcOf parse x a ∧
      a.arcrole = "http://www.xbrl.org/2003/arcrole/summation-item" ∧ LabelFor es role a.frm i.href ∧ LabelFor es role a.to c.href ∧
      (c.sign = "-" ↔ Negative a.weight) ∧ NearestTenths a.weight c.scale := by
  obtain ⟨k1, k2⟩ := items_arcs hf hk hlab hord hn h
  have back : ∀ a ∈ k.arcs, IsCalcArc role lb i.href a → ∃ x, ArcElem es role x ∧ CArcOf parse x a ∧ LabelFor es role a.frm i.href ∧
      LabelFor es role a.to (mapLocator role lb a.to) := by
    intro a ha hia
    obtain ⟨e, he, her, x, hx, hxa⟩ := (link_arcs (CArcOf.unique parse) hm hk a).1 ha
    obtain ⟨⟨u, hu⟩, ⟨v, hv⟩⟩ := hl x ⟨e, he, her, hx⟩ a hxa
    have eu := mapLocator_labelFor hm hk.1 hu
    have ev := mapLocator_labelFor hm hk.1 hv
    refine ⟨x, ⟨e, he, her, hx⟩, hxa, ?_, ?_⟩
    · rw [← hia.2, eu]; exact hu
    · rw [ev]; exact hv
  constructor
  · obtain ⟨_, a, ha, hia⟩ := (k1 i.href).1 ⟨i, hi, rfl⟩
    obtain ⟨x, hx, hxa, h1, _⟩ := back a ha hia
    exact ⟨x, a, hx, hxa, hia.1, h1⟩
  · intro c hc
    obtain ⟨arcs, out, o1, o2, o3⟩ := k2 i hi
    obtain ⟨a, ha, hcc⟩ := forall₂_right o3 hc
    obtain ⟨hak, hia, _⟩ := (o1 a).1 (o2.mem_iff.1 ha)
    obtain ⟨x, hx, hxa, h1, h2⟩ := back a hak hia
    exact ⟨x, a, hx, hxa, hia.1, h1, hcc.href ▸ h2, hcc.negative, hcc.scale⟩

/-- Links with two summation-item arcs. -/
def sumLinks : List LinkElem :=
  [defLink "r" ["T1", "A"] [defArc CalculationArcrole "T1" "A" [("weight", "1")]],
   defLink "r" ["T1", "T2"] [defArc CalculationArcrole "T1" "T2" [("weight", "1")]]]

def sumLb : Lb CArc := ⟨[⟨"r", ""⟩], hydrateCalculationLink (fun _ => (F64.ofInt 1, true)) id sumLinks⟩

/-- The hypotheses of `C140_arcs` can be met, and the items are those of the arcs. -/
example : (match cGrid calcFolder calcEnv "s/1" "r" ⟨[], [], [], fun _ => [], [sumLb], fun _ => "", fun m => m⟩ with
    | .done (items, _, _) => items.map fun i => (i.href, i.contributing.map fun c => (c.href, c.sign, c.scale))
    | _ => []) = [("x#T1", [("x#A", "+", "1.0"), ("x#T2", "+", "1.0")])] ∧
    (∃ k, HoldsLink "r" sumLb k ∧ ∀ a ∈ k.arcs, a.order ≠ .nan) ∧
    Merged (CArcOf fun _ => (F64.ofInt 1, true)) sumLinks sumLb.links := by
  refine ⟨by decide +kernel, ?_, C19_calculation _ id (fun _ => .refl _) _⟩
  obtain ⟨k, hk⟩ : ∃ k, firstLink "r" [sumLb] = some (sumLb, k) ∧ ∀ a ∈ k.arcs, a.order ≠ .nan :=
    ⟨((firstLink "r" [sumLb]).get (by decide +kernel)).2, by rfl, by decide +kernel⟩
  exact ⟨k, ((firstLink_some "r" [sumLb] _ _).1 hk.1).2, hk.2⟩

end Telefacts
