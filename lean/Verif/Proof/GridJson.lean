import Verif.Model.GridJson
import Verif.Spec.GridJson
import Verif.Props.Json
/-! # Proofs about the JSON of renderables -/
namespace Telefacts.Json
open Telefacts.Render Telefacts.Catalog

theorem decimal_digits (n : Nat) : Ds (decimal n) ∧ ((decimal n).head? = some '0' → decimal n = ['0']) ∧
    (decimal n).foldl (fun a c => a * 10 + (c.toNat - 48)) 0 = n ∧ decimal n ≠ [] ∧ (n ≠ 0 → (decimal n).head? ≠ some '0') := by
  have hd : ∀ k < 10, (Char.ofNat (48 + k)).toNat = 48 + k := by decide +kernel
  have h0 : ∀ k < 10, Char.ofNat (48 + k) = '0' → k = 0 := by decide +kernel
  induction n using Nat.strongRecOn with
  | _ n ih =>
    rw [decimal]
    split_ifs with h
    · refine ⟨⟨by simp, ?_⟩, ?_, ?_, by simp, ?_⟩
      · intro c hc
        rw [List.mem_singleton] at hc
        subst hc
        rw [hd n h]; omega
      · simp
      · simp [hd n h]
      · intro hn
        simp only [List.head?_cons, ne_eq, Option.some.injEq]
        intro e
        exact hn (h0 n h e)
    · obtain ⟨⟨i1, i2⟩, i3, i4, i5, i6⟩ := ih (n / 10) (by omega)
      have hm := hd (n % 10) (by omega)
      have hhead : (decimal (n / 10) ++ [Char.ofNat (48 + n % 10)]).head? = (decimal (n / 10)).head? := by
        cases hx : decimal (n / 10) with
        | nil => exact absurd hx i5
        | cons a b => rfl
      refine ⟨⟨by simp, ?_⟩, ?_, ?_, by simp, ?_⟩
      · intro c hc
        rcases List.mem_append.1 hc with hc | hc
        · exact i2 c hc
        · rw [List.mem_singleton] at hc
          subst hc
          rw [hm]; omega
      · rw [hhead]; intro e
        exact absurd e (i6 (by omega))
      · rw [List.foldl_append, i4]
        simp only [List.foldl_cons, List.foldl_nil, hm]
        omega
      · rw [hhead]; intro _; exact i6 (by omega)

theorem number_decimal (n : Nat) : Number (decimal n) := by
  obtain ⟨h1, h2, _⟩ := decimal_digits n
  exact ⟨[], decimal n, [], [], by simp, .inl rfl, h1, h2, .inl rfl, .inl rfl⟩

theorem numeral_ofNat (n : Nat) : Numeral (ofNat n) n := by
  obtain ⟨h1, _, h3, _⟩ := decimal_digits n
  exact ⟨_, rfl, h1.2, h3⟩

/-! ## Everything written can be read -/

theorem written_obj {l : List (String × Json)} : Written (.obj l) ↔ ∀ p ∈ l, Written p.2 := by
  rw [Written, writtenMembers_iff]

theorem written_arr {l : List Json} : Written (.arr l) ↔ ∀ v ∈ l, Written v := by
  rw [Written, writtenItems_iff]

theorem written_str (s : String) : Written (.str s) := by simp [Written]
theorem written_bool (b : Bool) : Written (.bool b) := by simp [Written]
theorem written_null : Written .null := by simp [Written]
theorem written_ofNat (n : Nat) : Written (ofNat n) := by
  rw [ofNat, Written]
  exact number_decimal n

theorem written_map {α : Type} (f : α → Json) (l : List α) (h : ∀ a, Written (f a)) : Written (.arr (l.map f)) := by
  rw [written_arr]
  intro v hv
  obtain ⟨a, _, rfl⟩ := List.mem_map.1 hv
  exact h a

theorem written_ofPack (p : LanguagePack) : Written (ofPack p) := by
  apply written_ofMap
  intro q hq
  obtain ⟨a, _, rfl⟩ := List.mem_map.1 hq
  exact written_str _

theorem written_ofLabel (p : LabelPack) : Written (ofLabel p) := by
  apply written_ofMap
  intro q hq
  obtain ⟨a, _, rfl⟩ := List.mem_map.1 hq
  exact written_ofPack _

theorem written_ofLabelled (h : String) (p : LabelPack) : Written (ofLabelled h p) := by
  simp [ofLabelled, written_obj, written_str, written_ofLabel]

theorem written_optional {α : Type} (f : α → Json) (name : String) (o : Option α) (h : ∀ a, Written (f a)) :
    ∀ p ∈ optional name (o.map f), Written p.2 := by
  cases o with
  | none => simp [optional]
  | some a => simp [optional, h]

theorem written_ofMember (c : MemberCell) : Written (ofMember c) := by
  rw [ofMember, written_obj]
  intro p hp
  rcases List.mem_append.1 hp with hp | hp
  · exact written_optional _ _ _ (fun a => written_ofLabelled _ _) p hp
  · split_ifs at hp
    · simp at hp
    · rw [List.mem_singleton] at hp
      subst hp
      exact written_str _

theorem written_ofVoid (c : VoidCell) : Written (ofVoid c) := by
  rw [ofVoid, written_obj]
  intro p hp
  rcases List.mem_append.1 hp with hp | hp
  · simp only [List.mem_cons, List.not_mem_nil, or_false] at hp
    rcases hp with rfl | rfl | rfl
    · exact written_bool _
    · exact written_ofNat _
    · exact written_ofLabelled _ _
  · exact written_optional _ _ _ (fun a => written_ofLabelled _ _) p hp

theorem written_ofExpression (e : FactExpression) : Written (ofExpression e) := by
  simp [ofExpression, written_obj, written_str]

theorem written_ofFact (m : MultilingualFact) : Written (ofFact m) := by
  apply written_ofMap
  intro q hq
  obtain ⟨a, _, rfl⟩ := List.mem_map.1 hq
  exact written_ofExpression _

theorem written_ofCell (m : Option MultilingualFact) : Written (ofCell m) := by
  cases m with
  | none => exact written_null
  | some m => exact written_ofFact m

theorem written_ofGrid {α : Type} (f : α → Json) (g : List (List α)) (h : ∀ a, Written (f a)) : Written (ofGrid f g) :=
  written_map _ _ fun _ => written_map _ _ h

theorem written_ofQuadrant (q : Quadrant (Option MultilingualFact)) : ∀ p ∈ ofQuadrant q, Written p.2 := by
  intro p hp
  simp only [ofQuadrant, List.mem_cons, List.not_mem_nil, or_false] at hp
  rcases hp with rfl | rfl | rfl
  · exact written_ofGrid _ _ written_ofCell
  · simp only
    split_ifs
    · exact written_null
    · exact written_ofGrid _ _ fun _ => written_map _ _ written_ofNat
  · simp only
    split_ifs
    · exact written_null
    · exact written_map _ _ written_str

theorem written_ofColumns (periods : List LanguagePack) (members : List (List MemberCell)) (voids : List VoidCell) :
    ∀ p ∈ ofColumns periods members voids, Written p.2 := by
  intro p hp
  simp only [ofColumns, List.mem_cons, List.not_mem_nil, or_false] at hp
  rcases hp with rfl | rfl | rfl
  · exact written_map _ _ written_ofPack
  · exact written_ofGrid _ _ written_ofMember
  · exact written_map _ _ written_ofVoid

theorem written_ofPGrid (g : PGrid (Option MultilingualFact)) : Written (ofPGrid g) := by
  rw [ofPGrid, written_obj]
  intro p hp
  simp only [List.mem_cons, List.mem_append] at hp
  rcases hp with rfl | hp | hp
  · exact written_map _ _ fun r => by simp [ofRow, written_obj, written_str, written_ofLabel, written_ofNat]
  · exact written_ofColumns _ _ _ p hp
  · exact written_ofQuadrant _ p hp

theorem written_ofRootDomain (r : RootDomain (Option MultilingualFact)) : Written (ofRootDomain r) := by
  rw [ofRootDomain, written_obj]
  intro p hp
  simp only [List.mem_cons, List.mem_append, List.not_mem_nil, or_false] at hp
  rcases hp with (((rfl | rfl | rfl) | hp) | hp) | rfl | rfl
  · exact written_str _
  · exact written_ofLabel _
  · exact written_map _ _ fun r => by simp [ofPrimary, written_obj, written_str, written_ofLabel, written_ofNat]
  · exact written_ofColumns _ _ _ p hp
  · exact written_ofQuadrant _ p hp
  · exact written_ofGrid _ _ fun _ => written_map _ _ fun r => by simp [ofEffective, written_obj, written_str, written_ofLabel, written_bool]
  · exact written_map _ _ fun _ => written_ofLabelled _ _

theorem written_ofDRSLink (l : DRSLink) : Written (ofDRSLink l) := by
  rw [ofDRSLink, written_obj]
  intro p hp
  simp only [List.mem_append] at hp
  rcases hp with (((hp | hp) | hp) | hp) | hp
  · simp only [List.mem_cons, List.not_mem_nil, or_false] at hp
    rcases hp with rfl | rfl <;> exact written_str _
  · exact written_optional _ _ _ (fun a => by simp [ofHypercube, written_obj, written_str, written_bool]) p hp
  · exact written_optional _ _ _ (fun a => by simp [ofHypercubeDimension, written_obj, written_str]) p hp
  · exact written_optional _ _ _ (fun a => by simp [ofDimensionDomain, written_obj, written_str, written_bool]) p hp
  · exact written_optional _ _ _ (fun a => by simp [ofDomainMember, written_obj, written_str, written_bool]) p hp

theorem written_ofDGrid (g : DGrid (Option MultilingualFact)) : Written (ofDGrid g) := by
  simp only [ofDGrid, written_obj, List.mem_cons, List.not_mem_nil, or_false, forall_eq_or_imp, forall_eq]
  exact ⟨written_map _ _ written_ofRootDomain, written_map _ _ fun _ => written_ofLabelled _ _, written_map _ _ written_ofDRSLink⟩

theorem written_ofSummationItem (i : SummationItem (Option MultilingualFact)) : Written (ofSummationItem i) := by
  rw [ofSummationItem, written_obj]
  intro p hp
  simp only [List.mem_cons, List.mem_append, List.not_mem_nil, or_false] at hp
  rcases hp with (((rfl | rfl | rfl) | hp) | rfl) | hp
  · exact written_str _
  · exact written_ofLabel _
  · exact written_str _
  · exact written_ofColumns _ _ _ p hp
  · exact written_map _ _ fun r => by simp [ofContributing, written_obj, written_str, written_ofLabel, written_bool]
  · exact written_ofQuadrant _ p hp

theorem written_ofRenderable (found : Bool) (r : Renderable (Grids (Option MultilingualFact))) : Written (ofRenderable found r) := by
  simp only [ofRenderable, written_obj, List.mem_cons, List.not_mem_nil, or_false, forall_eq_or_imp, forall_eq]
  refine ⟨by simp [ofRSet, written_obj, written_str], by simp [ofSubject, ofEntity, written_obj, written_str],
    written_map _ _ written_str, written_map _ _ written_str, written_ofPGrid _, written_ofDGrid _, ?_⟩
  simp only [ofCGrid, written_obj, List.mem_cons, List.not_mem_nil, or_false, forall_eq]
  split_ifs
  · exact written_map _ _ written_ofSummationItem
  · exact written_null

theorem written_ofExpressable (e : Expressable) : Written (ofExpressable e) := by
  simp only [ofExpressable, written_obj, List.mem_cons, List.not_mem_nil, or_false, forall_eq_or_imp, forall_eq]
  exact ⟨written_str _, written_ofLabel _, ⟨written_ofPack _, written_map _ _ written_ofVoid, written_ofGrid _ _ written_ofMember⟩,
    written_ofFact _, written_map _ _ written_str⟩

/-! ## What is written -/

theorem member_of_mem {l : List (String × Json)} (hn : (l.map Prod.fst).Nodup) {k : String} {v : Json} (h : (k, v) ∈ l) :
    Member (.obj l) k v := by
  obtain ⟨a, b, rfl⟩ := List.append_of_mem h
  refine ⟨a, b, rfl, ?_, ?_⟩
  · intro q hq e
    rw [List.map_append, List.nodup_append] at hn
    exact hn.2.2 q.1 (List.mem_map_of_mem hq) k (by simp) e
  · intro q hq e
    rw [List.map_append, List.nodup_append, List.map_cons, List.nodup_cons] at hn
    exact hn.2.1.1 (List.mem_map.2 ⟨q, hq, e⟩)

theorem elems_map {α : Type} {R : Json → α → Prop} {f : α → Json} {l : List α} (h : ∀ a ∈ l, R (f a) a) : Elems R (.arr (l.map f)) l := by
  refine ⟨_, rfl, ?_⟩
  rw [List.forall₂_map_left_iff]
  exact List.forall₂_same.2 h

theorem elems_str (l : List String) : Elems IsStr (.arr (l.map .str)) l := elems_map fun _ _ => rfl

theorem elems_grid {α : Type} {R : Json → α → Prop} {f : α → Json} {g : List (List α)} (h : ∀ row ∈ g, ∀ a ∈ row, R (f a) a) :
    Elems (Elems R) (ofGrid f g) g := elems_map fun row hr => elems_map (h row hr)

theorem packText (p : LanguagePack) (h : MapWF p) : PackText (ofPack p) p := by
  intro k x
  rw [ofPack, member_ofMap _ (mapWF_map p Json.str h)]
  simp only [List.mem_map, Prod.mk.injEq]
  constructor
  · rintro ⟨q, hq, rfl, rfl⟩; exact ⟨_, rfl, hq⟩
  · rintro ⟨s, rfl, hq⟩; exact ⟨_, hq, rfl, rfl⟩

theorem labelText (p : LabelPack) (h : LabelWF p) : LabelText (ofLabel p) p := by
  have hm := member_ofMap _ (mapWF_map p ofPack h.1)
  constructor
  · intro r q hq
    exact ⟨ofPack q, (hm _ _).2 (List.mem_map.2 ⟨_, hq, rfl⟩), packText q (h.2 r q hq)⟩
  · intro r x hx
    obtain ⟨q, hq, e⟩ := List.mem_map.1 ((hm _ _).1 hx)
    cases e
    exact ⟨_, hq⟩

theorem labelledText (href : String) (p : LabelPack) (h : LabelWF p) : LabelledText (ofLabelled href p) href p :=
  ⟨member_of_mem (by simp) (by simp), _, member_of_mem (by simp) (by simp), labelText p h⟩

theorem memberText (c : MemberCell) (h : ∀ m, c.explicit = some m → LabelWF m.label) : MemberText (ofMember c) c := by
  obtain ⟨e, t⟩ := c
  constructor
  · cases e with
    | none =>
      refine ⟨_, rfl, ?_⟩
      by_cases ht : t = "" <;> simp [optional, ht]
    | some m =>
      refine ⟨ofLabelled m.href m.label, ?_, labelledText m.href m.label (h m rfl)⟩
      by_cases ht : t = ""
      · exact member_of_mem (by simp [optional, ht]) (by simp [optional])
      · exact member_of_mem (by simp [optional, ht]) (by simp [optional])
  · by_cases ht : t = ""
    · refine .inr ⟨ht, _, rfl, ?_⟩
      cases e <;> simp [optional, ht]
    · refine .inl ⟨ht, ?_⟩
      cases e
      · exact member_of_mem (by simp [optional, ht]) (by simp [ht])
      · exact member_of_mem (by simp [optional, ht]) (by simp [ht])

theorem voidText (c : VoidCell) (h : LabelWF c.dimension.label) (ht : ∀ t, c.typedDomain = some t → LabelWF t.label) :
    VoidText (ofVoid c) c := by
  obtain ⟨p, i, d, t⟩ := c
  cases t with
  | none =>
    refine ⟨member_of_mem (by simp [optional]) (by simp), ⟨_, member_of_mem (by simp [optional]) (by simp), numeral_ofNat i⟩,
      ⟨_, member_of_mem (by simp [optional]) (by simp), labelledText _ _ h⟩, _, rfl, ?_⟩
    simp [optional]
  | some t =>
    exact ⟨member_of_mem (by simp [optional]) (by simp), ⟨_, member_of_mem (by simp [optional]) (by simp), numeral_ofNat i⟩,
      ⟨_, member_of_mem (by simp [optional]) (by simp), labelledText _ _ h⟩, _,
      member_of_mem (by simp [optional]) (by simp [optional]), labelledText _ _ (ht t rfl)⟩

theorem expressionText (e : FactExpression) : ExpressionText (ofExpression e) e :=
  ⟨member_of_mem (by simp) (by simp), member_of_mem (by simp) (by simp), member_of_mem (by simp) (by simp), member_of_mem (by simp) (by simp)⟩

theorem factText (m : MultilingualFact) (h : MapWF m) : FactText (ofFact m) m := by
  have hm := member_ofMap _ (mapWF_map m ofExpression h)
  constructor
  · intro r q hq
    exact ⟨ofExpression q, (hm _ _).2 (List.mem_map.2 ⟨_, hq, rfl⟩), expressionText q⟩
  · intro r x hx
    obtain ⟨q, hq, e⟩ := List.mem_map.1 ((hm _ _).1 hx)
    cases e
    exact ⟨_, hq⟩

theorem cellText (c : Option MultilingualFact) (h : ∃ m, c = some m ∧ MapWF m) : CellText (ofCell c) c := by
  obtain ⟨m, rfl, hm⟩ := h
  exact ⟨m, rfl, factText m hm⟩

theorem numbersText (g : List (List (List Nat))) : Elems (Elems (Elems Numeral)) (ofGrid (fun l => .arr (l.map ofNat)) g) g :=
  elems_grid fun _ _ _ _ => elems_map fun n _ => numeral_ofNat n

theorem quadrantText {l : List (String × Json)} (hn : (l.map Prod.fst).Nodup) {q : Quadrant (Option MultilingualFact)}
    (hl : ∀ p ∈ ofQuadrant q, p ∈ l) (h : QuadrantWF q) : QuadrantText (.obj l) q := by
  refine ⟨⟨_, member_of_mem hn (hl _ (by simp [ofQuadrant])), elems_grid fun row hr c hc => cellText c (h row hr c hc)⟩,
    ⟨_, member_of_mem hn (hl ("FootnoteGrid", _) (by simp [ofQuadrant]; rfl)), ?_⟩,
    ⟨_, member_of_mem hn (hl ("Footnotes", _) (by simp [ofQuadrant]; rfl)), ?_⟩⟩
  · by_cases hq : q.facts = []
    · exact .inl ⟨hq, if_pos hq⟩
    · rw [if_neg hq]; exact .inr ⟨hq, numbersText _⟩
  · by_cases hq : q.facts = []
    · exact .inl ⟨hq, if_pos hq⟩
    · rw [if_neg hq]; exact .inr ⟨hq, elems_str _⟩

theorem columnsText {l : List (String × Json)} (hn : (l.map Prod.fst).Nodup) {periods : List LanguagePack}
    {members : List (List MemberCell)} {voids : List VoidCell} (hl : ∀ p ∈ ofColumns periods members voids, p ∈ l)
    (h : ColumnsWF periods members voids) : ColumnsText (.obj l) periods members voids :=
  ⟨⟨_, member_of_mem hn (hl ("PeriodHeaders", _) (by simp [ofColumns])), elems_map fun p hp => packText p (h.1 p hp)⟩,
    ⟨_, member_of_mem hn (hl ("ContextualMemberGrid", _) (by simp [ofColumns])),
      elems_grid fun row hr c hc => memberText c (h.2.1 row hr c hc)⟩,
    _, member_of_mem hn (hl ("VoidQuadrant", _) (by simp [ofColumns])),
      elems_map fun c hc => voidText c (h.2.2 c hc).1 (h.2.2 c hc).2⟩

theorem pgridText (g : PGrid (Option MultilingualFact)) (hr : ∀ r ∈ g.rows, LabelWF r.label)
    (hc : ColumnsWF g.periods g.members g.voids) (hq : QuadrantWF g.quadrant) : PGridText (ofPGrid g) g := by
  have hn : ((("IndentedLabels", Json.arr (g.rows.map ofRow)) :: (ofColumns g.periods g.members g.voids ++ ofQuadrant g.quadrant)).map Prod.fst).Nodup := by
    simp [ofColumns, ofQuadrant]
  refine ⟨⟨_, member_of_mem hn (v := .arr (g.rows.map ofRow)) (by simp), elems_map fun r hm => ?_⟩, columnsText hn (fun p hp => by simp [hp]) hc,
    quadrantText hn (fun p hp => by simp [hp]) hq⟩
  exact ⟨⟨member_of_mem (by simp) (by simp), _, member_of_mem (by simp) (by simp), labelText _ (hr r hm)⟩, _,
    member_of_mem (by simp) (by simp), numeral_ofNat _⟩

theorem rootText (r : RootDomain (Option MultilingualFact)) (h : LabelWF r.label) (hi : ∀ i ∈ r.primaryItems, LabelWF i.label)
    (hc : ColumnsWF r.periods r.members r.voids) (hq : QuadrantWF r.quadrant)
    (hd : ∀ row ∈ r.domains, ∀ dom ∈ row, ∀ m ∈ dom, LabelWF m.label) (hs : ∀ d ∈ r.dimensions, LabelWF d.label) :
    RootText (ofRootDomain r) r := by
  unfold ofRootDomain
  generalize hl : ([("Href", Json.str r.href), ("Label", ofLabel r.label), ("PrimaryItems", .arr (r.primaryItems.map ofPrimary))] ++
    ofColumns r.periods r.members r.voids ++ ofQuadrant r.quadrant ++
    [("EffectiveDomainGrid", ofGrid (fun l => .arr (l.map ofEffective)) r.domains),
     ("EffectiveDimensions", .arr (r.dimensions.map fun d => ofLabelled d.href d.label))]) = l
  have hn : (l.map Prod.fst).Nodup := by
    rw [← hl]; simp [ofColumns, ofQuadrant]
  refine ⟨⟨member_of_mem hn (by rw [← hl]; simp), _, member_of_mem hn (by rw [← hl]; simp), labelText _ h⟩,
    ⟨_, member_of_mem hn (v := .arr (r.primaryItems.map ofPrimary)) (by rw [← hl]; simp), elems_map fun i hm => ?_⟩,
    columnsText hn (fun p hp => by rw [← hl]; simp [hp]) hc, quadrantText hn (fun p hp => by rw [← hl]; simp [hp]) hq,
    ⟨_, member_of_mem hn (v := ofGrid (fun l => .arr (l.map ofEffective)) r.domains) (by rw [← hl]; simp),
      elems_grid fun row hr dom hdom => elems_map fun m hm => ?_⟩,
    ⟨_, member_of_mem hn (v := .arr (r.dimensions.map fun d => ofLabelled d.href d.label)) (by rw [← hl]; simp),
      elems_map fun d hm => labelledText _ _ (hs d hm)⟩⟩
  · exact ⟨⟨member_of_mem (by simp) (by simp), _, member_of_mem (by simp) (by simp), labelText _ (hi i hm)⟩, _,
      member_of_mem (by simp) (by simp), numeral_ofNat _⟩
  · exact ⟨⟨member_of_mem (by simp) (by simp), _, member_of_mem (by simp) (by simp), labelText _ (hd row hr dom hdom m hm)⟩,
      member_of_mem (by simp) (by simp), member_of_mem (by simp) (by simp)⟩

theorem linkText (l : DRSLink) : LinkText (ofDRSLink l) l := by
  obtain ⟨s, t, a, b, c, d⟩ := l
  have hn : ((([("SourceHref", Json.str s), ("TargetHref", .str t)] ++
    optional "HypercubeConnection" (a.map ofHypercube) ++
    optional "HypercubeDimensionConnection" (b.map ofHypercubeDimension) ++
    optional "DimensionDomainConnection" (c.map ofDimensionDomain) ++
    optional "DomainMemberConnection" (d.map ofDomainMember))).map Prod.fst).Nodup := by
    cases a <;> cases b <;> cases c <;> cases d <;> simp [optional]
  refine ⟨member_of_mem hn (by simp), member_of_mem hn (by simp), ?_, ?_, ?_, ?_⟩
  · cases a with
    | none => refine ⟨_, rfl, ?_⟩; cases b <;> cases c <;> cases d <;> simp [optional]
    | some a =>
      exact ⟨_, member_of_mem hn (v := ofHypercube a) (by simp [optional]), member_of_mem (by simp) (by simp), member_of_mem (by simp) (by simp),
        member_of_mem (by simp) (by simp), member_of_mem (by simp) (by simp)⟩
  · cases b with
    | none => refine ⟨_, rfl, ?_⟩; cases a <;> cases c <;> cases d <;> simp [optional]
    | some b =>
      exact ⟨_, member_of_mem hn (v := ofHypercubeDimension b) (by simp [optional]), member_of_mem (by simp) (by simp), member_of_mem (by simp) (by simp)⟩
  · cases c with
    | none => refine ⟨_, rfl, ?_⟩; cases a <;> cases b <;> cases d <;> simp [optional]
    | some c =>
      exact ⟨_, member_of_mem hn (v := ofDimensionDomain c) (by simp [optional]), member_of_mem (by simp) (by simp), member_of_mem (by simp) (by simp),
        member_of_mem (by simp) (by simp), member_of_mem (by simp) (by simp)⟩
  · cases d with
    | none => refine ⟨_, rfl, ?_⟩; cases a <;> cases b <;> cases c <;> simp [optional]
    | some d =>
      exact ⟨_, member_of_mem hn (v := ofDomainMember d) (by simp [optional]), member_of_mem (by simp) (by simp), member_of_mem (by simp) (by simp),
        member_of_mem (by simp) (by simp)⟩

theorem itemText (i : SummationItem (Option MultilingualFact)) (h : LabelWF i.label) (hc : ColumnsWF i.periods i.members i.voids)
    (hi : ∀ c ∈ i.contributing, LabelWF c.label) (hq : QuadrantWF i.quadrant) : ItemText (ofSummationItem i) i := by
  unfold ofSummationItem
  generalize hl : ([("Href", Json.str i.href), ("Label", ofLabel i.label), ("BalanceType", .str i.balance)] ++
    ofColumns i.periods i.members i.voids ++ [("ContributingConcepts", .arr (i.contributing.map ofContributing))] ++
    ofQuadrant i.quadrant) = l
  have hn : (l.map Prod.fst).Nodup := by
    rw [← hl]; simp [ofColumns, ofQuadrant]
  refine ⟨⟨member_of_mem hn (by rw [← hl]; simp), _, member_of_mem hn (v := ofLabel i.label) (by rw [← hl]; simp), labelText _ h⟩,
    member_of_mem hn (by rw [← hl]; simp), columnsText hn (fun p hp => by rw [← hl]; simp [hp]) hc,
    ⟨_, member_of_mem hn (v := .arr (i.contributing.map ofContributing)) (by rw [← hl]; simp), elems_map fun c hm => ?_⟩,
    quadrantText hn (fun p hp => by rw [← hl]; simp [hp]) hq⟩
  exact ⟨⟨member_of_mem (by simp) (by simp), _, member_of_mem (by simp) (by simp), labelText _ (hi c hm)⟩,
    member_of_mem (by simp) (by simp), member_of_mem (by simp) (by simp), member_of_mem (by simp) (by simp), member_of_mem (by simp) (by simp)⟩

theorem renderableText (found : Bool) (r : Renderable (Grids (Option MultilingualFact))) (h : GridsWF r.grids)
    (hf : found = false → r.grids.c = []) : RenderableText (ofRenderable found r) r := by
  refine ⟨⟨ofRSet r.rset, member_of_mem (by simp) (by simp), member_of_mem (by simp) (by simp), member_of_mem (by simp) (by simp)⟩,
    ⟨ofSubject r.subject, member_of_mem (by simp) (by simp), member_of_mem (by simp) (by simp), ofEntity r.subject.entity,
      member_of_mem (by simp) (by simp), member_of_mem (by simp) (by simp), member_of_mem (by simp) (by simp)⟩,
    ⟨_, member_of_mem (v := .arr (r.grids.langs.map .str)) (by simp) (by simp), elems_str _⟩,
    ⟨_, member_of_mem (v := .arr (r.grids.roles.map .str)) (by simp) (by simp), elems_str _⟩,
    ⟨_, member_of_mem (v := ofPGrid r.grids.p) (by simp) (by simp), pgridText _ h.rows h.pcols h.pquad⟩,
    ⟨_, member_of_mem (v := ofDGrid r.grids.d) (by simp) (by simp), ?_⟩,
    ofCGrid found r.grids.c, _, member_of_mem (by simp) (by simp), member_of_mem (by simp) (by simp; rfl), ?_⟩
  · refine ⟨⟨.arr (r.grids.d.domains.map ofRootDomain), member_of_mem (by simp) (by simp), elems_map fun rd hm => ?_⟩, _,
      member_of_mem (by simp) (by simp; rfl),
      ⟨_, member_of_mem (v := .arr (r.grids.d.nodes.map fun n => ofLabelled n.href n.label)) (by simp) (by simp),
        elems_map fun n hm => labelledText _ _ (h.nodes n hm)⟩,
      ⟨_, member_of_mem (v := .arr (r.grids.d.links.map ofDRSLink)) (by simp) (by simp), elems_map fun l _ => linkText l⟩⟩
    obtain ⟨h1, h2, h3, h4, h5, h6⟩ := h.roots rd hm
    exact rootText rd h1 h2 h3 h4 h5 h6
  · cases found with
    | false => exact .inr ⟨rfl, hf rfl⟩
    | true =>
      refine .inl (elems_map fun i hm => ?_)
      obtain ⟨h1, h2, h3, h4⟩ := h.items i hm
      exact itemText i h1 h2 h3 h4

theorem expressableText (e : Expressable) (hl : LabelWF e.labels) (hp : MapWF e.period)
    (hv : ∀ c ∈ e.rows, LabelWF c.dimension.label ∧ ∀ t, c.typedDomain = some t → LabelWF t.label)
    (hm : ∀ row ∈ e.members, ∀ c ∈ row, ∀ m, c.explicit = some m → LabelWF m.label) (he : MapWF e.expression) :
    ExpressableText (ofExpressable e) e := by
  refine ⟨member_of_mem (by simp) (by simp), ⟨_, member_of_mem (v := ofLabel e.labels) (by simp) (by simp), labelText _ hl⟩,
    ⟨_, member_of_mem (by simp) (by simp; rfl), ⟨_, member_of_mem (v := ofPack e.period) (by simp) (by simp), packText _ hp⟩,
      ⟨_, member_of_mem (v := .arr (e.rows.map ofVoid)) (by simp) (by simp), elems_map fun c hc => voidText c (hv c hc).1 (hv c hc).2⟩,
      ⟨_, member_of_mem (v := ofGrid ofMember e.members) (by simp) (by simp), elems_grid fun row hr c hc => memberText c (hm row hr c hc)⟩⟩,
    ⟨_, member_of_mem (v := ofFact e.expression) (by simp) (by simp), factText _ he⟩,
    ⟨_, member_of_mem (v := .arr (e.footnotes.map .str)) (by simp) (by simp), elems_str _⟩⟩

end Telefacts.Json
