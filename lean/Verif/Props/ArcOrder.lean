import Verif.Proof.DecimalOrder
import Verif.Props.CalcRelations
/-! # C143, C144: orders and weights of arcs are numbers -/
namespace Telefacts
open Telefacts.Spec Telefacts.Linkbase Telefacts.Render Telefacts.Instance Telefacts.Number

theorem attrVal_unique {x : List Attr} {n s s' : String} (h : AttrVal x n s) (h' : AttrVal x n s') : s = s' := by
  obtain ⟨a, ha, rfl⟩ := h
  obtain ⟨b, hb, rfl⟩ := h'
  rw [firstWith_unique ha hb]

/-- **C143.** Decimal numbers are read as a nearest double, and never in the wrong order. Different numbers of up to 15 digits are
read as different doubles. -/
theorem C143_number (other : String → F64 × Bool) (s s' : String) (m m' : Int) (k k' : Nat) (h : DecimalText s m k)
    (h' : DecimalText s' m' k') (hr : m.natAbs ≤ 10 ^ k * 2 ^ 1023) (hr' : m'.natAbs ≤ 10 ^ k' * 2 ^ 1023) :
    ∃ z z' : Int, parseFloat other s = (.fin z, true) ∧ parseFloat other s' = (.fin z', true) ∧ Nearest m k z ∧ Nearest m' k' z' ∧
      (m * 10 ^ k' ≤ m' * 10 ^ k → z ≤ z') ∧
      (m.natAbs < 10 ^ 15 → m'.natAbs < 10 ^ 15 → k ≤ 300 → k' ≤ 300 → m * 10 ^ k' < m' * 10 ^ k → z < z') := by
  have n := inRange_nearest (m := m) (k := k) hr
  have n' := inRange_nearest (m := m') (k := k') hr'
  refine ⟨_, _, parse_decimal other h n, parse_decimal other h' n', rounded_nearest n, rounded_nearest n', rounded_mono n n', ?_⟩
  intro hm hm' hk hk' hlt
  rcases Nat.le_total k k' with hle | hle
  · obtain ⟨c, rfl⟩ := Nat.exists_eq_add_of_le hle
    rw [← rounded_scale m k c]
    refine rounded_strict hk' ?_ (.inr hm')
    rw [pow_add, ← Int.mul_assoc, Int.mul_right_comm] at hlt
    exact Int.lt_of_mul_lt_mul_right hlt (by positivity)
  · obtain ⟨c, rfl⟩ := Nat.exists_eq_add_of_le hle
    rw [← rounded_scale m' k' c]
    refine rounded_strict hk ?_ (.inl hm)
    rw [pow_add, ← Int.mul_assoc, Int.mul_right_comm] at hlt
    exact Int.lt_of_mul_lt_mul_right hlt (by positivity)

theorem fifteen {m : Int} (k : Nat) (h : m.natAbs < 10 ^ 15) : m.natAbs ≤ 10 ^ k * 2 ^ 1023 := by
  have h1 : 1 ≤ 10 ^ k := Nat.pow_pos (by omega)
  have h2 : (10 : Nat) ^ 15 ≤ 2 ^ 1023 := by decide +kernel
  calc m.natAbs ≤ 2 ^ 1023 := Nat.le_trans (Nat.le_of_lt h) h2
    _ = 1 * 2 ^ 1023 := by rw [Nat.one_mul]
    _ ≤ 10 ^ k * 2 ^ 1023 := Nat.mul_le_mul_right _ h1

/-- Orders that are read as different numbers, of which the first is smaller. -/
theorem rows_in_order (f : Folder) (other : String → F64 × Bool) (lbs : List (Lb PArc)) (role : String) (lb : Lb PArc) (k : Link PArc)
    (hf : FirstWith (fun lb => ∃ k, HoldsLink role lb k) lbs lb) (hk : HoldsLink role lb k)
    (es : List LinkElem) (hm : Merged (PArcOf (parseFloat other)) es lb.links)
    (ht : IsForest (k.arcs.map fun a => ⟨a.arcrole, a.order, a.frm, a.to⟩) "http://www.xbrl.org/2003/arcrole/parent-child"
      (f.tree (k.arcs.map fun a => ⟨a.arcrole, a.order, a.frm, a.to⟩) "http://www.xbrl.org/2003/arcrole/parent-child"))
    (hac : Acyclic (k.arcs.map fun a => ⟨a.arcrole, a.order, a.frm, a.to⟩) "http://www.xbrl.org/2003/arcrole/parent-child")
    (hn : ∀ x, ArcElem es role x → ∀ s, AttrVal x "order" s → (parseFloat other s).1 ≠ .nan)
    (x y : List Attr) (hx : ArcElem es role x) (hy : ArcElem es role y) (src t1 t2 : String)
    (ex : ArcEnds x "http://www.xbrl.org/2003/arcrole/parent-child" src t1)
    (ey : ArcEnds y "http://www.xbrl.org/2003/arcrole/parent-child" src t2)
    (s s' : String) (hs : AttrVal x "order" s) (hs' : AttrVal y "order" s') (m m' : Int) (j j' : Nat)
    (hd : DecimalText s m j) (hd' : DecimalText s' m' j') (z z' : Int) (p1 : parseFloat other s = (.fin z, true))
    (p2 : parseFloat other s' = (.fin z', true)) (hz : z < z')
    (h0 h1 h2 : String) (hl0 : LabelFor es role src h0) (hl1 : LabelFor es role t1 h1) (hl2 : LabelFor es role t2 h2) :
    ∃ (i i1 i2 : Nat) (n : Nat), i1 < i2 ∧ ChildRow IndentedLabel.indentation (getIndentedLabels f lbs role) i i1 ∧
      ChildRow IndentedLabel.indentation (getIndentedLabels f lbs role) i i2 ∧
      (getIndentedLabels f lbs role)[i]? = some ⟨h0, f.label h0, n⟩ ∧
      (getIndentedLabels f lbs role)[i1]? = some ⟨h1, f.label h1, n + 1⟩ ∧
      (getIndentedLabels f lbs role)[i2]? = some ⟨h2, f.label h2, n + 1⟩ := by
  have given : ∀ {u : String} {mm : Int} {jj : Nat}, DecimalText u mm jj → u ≠ "" := by
    rintro u mm jj ⟨sign, i, f, n, _, hne, _, _, _, h⟩ rfl
    rcases h with h | ⟨rfl, h⟩
    · have := congrArg List.length h; simp at this
    · have := congrArg List.length h
      simp only [List.append_nil, ne_eq] at hne
      have hl := List.length_pos_iff.2 hne
      simp only [String.toList_empty, List.length_nil, List.length_append] at this
      omega
  obtain ⟨pl, hpl⟩ := optVal_exists x "preferredLabel"
  obtain ⟨pl', hpl'⟩ := optVal_exists y "preferredLabel"
  have ha : PArcOf (parseFloat other) x ⟨.fin z, "http://www.xbrl.org/2003/arcrole/parent-child", src, t1, pl⟩ :=
    ⟨ex, ⟨s, hs, given hd, .inl (by rw [p1]; exact ⟨rfl, rfl⟩)⟩, hpl⟩
  have hb : PArcOf (parseFloat other) y ⟨.fin z', "http://www.xbrl.org/2003/arcrole/parent-child", src, t2, pl'⟩ :=
    ⟨ey, ⟨s', hs', given hd', .inl (by rw [p2]; exact ⟨rfl, rfl⟩)⟩, hpl'⟩
  rw [rows_tree f lbs role lb k hf hk]
  obtain ⟨e, he, her, hxe⟩ := hx
  obtain ⟨e', he', her', hye⟩ := hy
  have hak := (holds_arcs hm hk _).2 ⟨e, he, her, x, hxe, ha⟩
  have hbk := (holds_arcs hm hk _).2 ⟨e', he', her', y, hye, hb⟩
  have hma : (⟨"http://www.xbrl.org/2003/arcrole/parent-child", .fin z, src, t1⟩ : Arc) ∈ pArcs k.arcs := List.mem_map.2 ⟨_, hak, rfl⟩
  have hmb : (⟨"http://www.xbrl.org/2003/arcrole/parent-child", .fin z', src, t2⟩ : Arc) ∈ pArcs k.arcs := List.mem_map.2 ⟨_, hbk, rfl⟩
  have hnan : ∀ a ∈ pArcs k.arcs, a.order ≠ .nan := by
    intro a ha
    obtain ⟨b, hb, rfl⟩ := List.mem_map.1 ha
    obtain ⟨e, he, her, u, hu, hub⟩ := (holds_arcs hm hk b).1 hb
    obtain ⟨s, h1, _, h3⟩ := hub.2.1
    have := hn u ⟨e, he, her, hu⟩ s h1
    rcases h3 with ⟨_, h3⟩ | ⟨_, h3⟩
    · simp only [h3]; exact this
    · simp only [h3]; intro hc; cases hc
  change IsForest (pArcs k.arcs) PresentationArcrole (f.tree (pArcs k.arcs) PresentationArcrole) at ht
  obtain ⟨i, p, hp, ep⟩ := forest_shown ht.sorted hac hma rfl
  obtain ⟨i1, i2, hii, c1, c2, g1, g2⟩ := forest_ordered ht hnan hma hmb rfl rfl rfl
    (.inl ⟨z, z', rfl, rfl, hz⟩) hp ep
  refine ⟨i, i1, i2, p.1, hii, childRow_map (fun _ => rfl) c1, childRow_map (fun _ => rfl) c2, ?_, ?_, ?_⟩
  · rw [List.getElem?_map, hp, Option.map_some, ep, mapLocator_labelFor hm hk.1 hl0]
  · rw [List.getElem?_map, g1, Option.map_some]
    simp only
    rw [mapLocator_labelFor hm hk.1 hl1]
  · rw [List.getElem?_map, g2, Option.map_some]
    simp only
    rw [mapLocator_labelFor hm hk.1 hl2]

/-- **C143 (partial).** Two parent-child arcs with the same source whose orders are decimal numbers of up to 15 digits: below a row of
the source, the row of the target of the arc with the smaller number comes first. As for `C132_arcs`, this is for arcs without cycles and
labels that stand for one concept; no order of the role is read as NaN. Missing: orders with more digits, or with white space around
them (`C143_fails`). -/
theorem C143_order_partial (f : Folder) (other : String → F64 × Bool) (lbs : List (Lb PArc)) (role : String) (lb : Lb PArc) (k : Link PArc)
    (hf : FirstWith (fun lb => ∃ k, HoldsLink role lb k) lbs lb) (hk : HoldsLink role lb k)
    (es : List LinkElem) (hm : Merged (PArcOf (parseFloat other)) es lb.links)
    (ht : IsForest (k.arcs.map fun a => ⟨a.arcrole, a.order, a.frm, a.to⟩) "http://www.xbrl.org/2003/arcrole/parent-child"
      (f.tree (k.arcs.map fun a => ⟨a.arcrole, a.order, a.frm, a.to⟩) "http://www.xbrl.org/2003/arcrole/parent-child"))
    (hac : Acyclic (k.arcs.map fun a => ⟨a.arcrole, a.order, a.frm, a.to⟩) "http://www.xbrl.org/2003/arcrole/parent-child")
    (hn : ∀ x, ArcElem es role x → ∀ s, AttrVal x "order" s → (parseFloat other s).1 ≠ .nan)
    (x y : List Attr) (hx : ArcElem es role x) (hy : ArcElem es role y) (src t1 t2 : String)
    (ex : ArcEnds x "http://www.xbrl.org/2003/arcrole/parent-child" src t1)
    (ey : ArcEnds y "http://www.xbrl.org/2003/arcrole/parent-child" src t2)
    (s s' : String) (hs : AttrVal x "order" s) (hs' : AttrVal y "order" s') (m m' : Int) (j j' : Nat)
    (hd : DecimalText s m j) (hd' : DecimalText s' m' j') (hm1 : m.natAbs < 10 ^ 15) (hm2 : m'.natAbs < 10 ^ 15)
    (hj : j ≤ 300) (hj' : j' ≤ 300) (hlt : m * 10 ^ j' < m' * 10 ^ j)
    (h0 h1 h2 : String) (hl0 : LabelFor es role src h0) (hl1 : LabelFor es role t1 h1) (hl2 : LabelFor es role t2 h2) :
    ∃ (i i1 i2 : Nat) (n : Nat), i1 < i2 ∧ ChildRow IndentedLabel.indentation (getIndentedLabels f lbs role) i i1 ∧
      ChildRow IndentedLabel.indentation (getIndentedLabels f lbs role) i i2 ∧
      (getIndentedLabels f lbs role)[i]? = some ⟨h0, f.label h0, n⟩ ∧
      (getIndentedLabels f lbs role)[i1]? = some ⟨h1, f.label h1, n + 1⟩ ∧
      (getIndentedLabels f lbs role)[i2]? = some ⟨h2, f.label h2, n + 1⟩ := by
  obtain ⟨z, z', p1, p2, _, _, _, hz⟩ := C143_number other s s' m m' j j' hd hd' (fifteen j hm1) (fifteen j' hm2)
  have hz := hz hm1 hm2 hj hj' hlt
  exact rows_in_order f other lbs role lb k hf hk es hm ht hac hn x y hx hy src t1 t2 ex ey s s' hs hs' m m' j j' hd hd' z z' p1 p2 hz
    h0 h1 h2 hl0 hl1 hl2

/-- **C143 (partial, any number of digits).** The same of decimal numbers of any number of digits that are at most `2 ^ 1023`, if no double is
nearest to both. Of numbers that are read as one double, the order is lost (the third part of `C143_fails`). -/
theorem C143_separated_partial (f : Folder) (other : String → F64 × Bool) (lbs : List (Lb PArc)) (role : String) (lb : Lb PArc) (k : Link PArc)
    (hf : FirstWith (fun lb => ∃ k, HoldsLink role lb k) lbs lb) (hk : HoldsLink role lb k)
    (es : List LinkElem) (hm : Merged (PArcOf (parseFloat other)) es lb.links)
    (ht : IsForest (k.arcs.map fun a => ⟨a.arcrole, a.order, a.frm, a.to⟩) "http://www.xbrl.org/2003/arcrole/parent-child"
      (f.tree (k.arcs.map fun a => ⟨a.arcrole, a.order, a.frm, a.to⟩) "http://www.xbrl.org/2003/arcrole/parent-child"))
    (hac : Acyclic (k.arcs.map fun a => ⟨a.arcrole, a.order, a.frm, a.to⟩) "http://www.xbrl.org/2003/arcrole/parent-child")
    (hn : ∀ x, ArcElem es role x → ∀ s, AttrVal x "order" s → (parseFloat other s).1 ≠ .nan)
    (x y : List Attr) (hx : ArcElem es role x) (hy : ArcElem es role y) (src t1 t2 : String)
    (ex : ArcEnds x "http://www.xbrl.org/2003/arcrole/parent-child" src t1)
    (ey : ArcEnds y "http://www.xbrl.org/2003/arcrole/parent-child" src t2)
    (s s' : String) (hs : AttrVal x "order" s) (hs' : AttrVal y "order" s') (m m' : Int) (j j' : Nat)
    (hd : DecimalText s m j) (hd' : DecimalText s' m' j') (hr : m.natAbs ≤ 10 ^ j * 2 ^ 1023) (hr' : m'.natAbs ≤ 10 ^ j' * 2 ^ 1023)
    (hlt : m * 10 ^ j' < m' * 10 ^ j) (hsep : ∀ z, ¬ (Nearest m j z ∧ Nearest m' j' z))
    (h0 h1 h2 : String) (hl0 : LabelFor es role src h0) (hl1 : LabelFor es role t1 h1) (hl2 : LabelFor es role t2 h2) :
    ∃ (i i1 i2 : Nat) (n : Nat), i1 < i2 ∧ ChildRow IndentedLabel.indentation (getIndentedLabels f lbs role) i i1 ∧
      ChildRow IndentedLabel.indentation (getIndentedLabels f lbs role) i i2 ∧
      (getIndentedLabels f lbs role)[i]? = some ⟨h0, f.label h0, n⟩ ∧
      (getIndentedLabels f lbs role)[i1]? = some ⟨h1, f.label h1, n + 1⟩ ∧
      (getIndentedLabels f lbs role)[i2]? = some ⟨h2, f.label h2, n + 1⟩ := by
  obtain ⟨z, z', p1, p2, n1, n2, hz, _⟩ := C143_number other s s' m m' j j' hd hd' hr hr'
  have hz := lt_of_le_of_ne (hz hlt.le) (fun e => hsep z ⟨n1, e ▸ n2⟩)
  exact rows_in_order f other lbs role lb k hf hk es hm ht hac hn x y hx hy src t1 t2 ex ey s s' hs hs' m m' j j' hd hd' z z' p1 p2 hz
    h0 h1 h2 hl0 hl1 hl2

/-- `strconv.ParseFloat` where everything but decimal numbers is rejected. -/
def decimalsOnly : String → F64 × Bool := parseFloat fun _ => (.fin 0, false)

/-- An arc with an order. -/
def orderedArc (arcrole frm dest order : String) (extra : List (String × String)) : List Attr :=
  ([("type", "arc"), ("arcrole", arcrole), ("from", frm), ("to", dest), ("order", order)] ++ extra).map fun p => ⟨⟨XLINK, p.1⟩, p.2⟩

/-- Two children with the given orders. -/
def orderedLink (o1 o2 : String) : LinkElem :=
  defLink "r" ["p", "a", "b"] [orderedArc PresentationArcrole "p" "a" o1 [], orderedArc PresentationArcrole "p" "b" o2 []]

def orderedLb (o1 o2 : String) : Lb PArc := ⟨[⟨"r", "x.xsd#r"⟩], hydratePresentationLink decimalsOnly (·) [orderedLink o1 o2]⟩

def orderedRows (o1 o2 : String) : List (Nat × String) :=
  (getIndentedLabels forestFolder [orderedLb o1 o2] "r").map fun r => (r.indentation, r.href)

theorem digitsOf_cons : ∀ {cs : List Char} {n : Nat} (_ : DigitsOf cs n) (c : Char) (d : Nat), IsDigit c d →
    DigitsOf (c :: cs) (d * 10 ^ cs.length + n) := by
  intro cs n h
  induction h with
  | nil => intro c d hc; simpa using DigitsOf.snoc [] c 0 d .nil hc
  | snoc cs c' n' d' _ hd ih =>
    intro c d hc
    have := DigitsOf.snoc (c :: cs) c' _ d' (ih c d hc) hd
    rw [List.cons_append] at this
    convert this using 1
    rw [List.length_append, List.length_singleton, pow_succ]
    ring

theorem digitsOf_append {i f : List Char} {a b : Nat} (hi : DigitsOf i a) (hf : DigitsOf f b) : DigitsOf (i ++ f) (a * 10 ^ f.length + b) := by
  induction hf with
  | nil => simpa using hi
  | snoc cs c n d _ hd ih =>
    have := DigitsOf.snoc (i ++ cs) c _ d ih hd
    rw [List.append_assoc] at this
    convert this using 1
    rw [List.length_append, List.length_singleton, pow_succ]
    ring

theorem digits_sound : ∀ (s : List Char) (acc n v n' : Nat) (rest : List Char), digits acc n s = (v, n', rest) →
    ∃ cs a, s = cs ++ rest ∧ DigitsOf cs a ∧ v = acc * 10 ^ cs.length + a ∧ n' = n + cs.length := by
  intro s
  induction s with
  | nil =>
    intro acc n v n' rest h
    simp only [digits, Prod.mk.injEq] at h
    obtain ⟨rfl, rfl, rfl⟩ := h
    exact ⟨[], 0, rfl, .nil, by simp, by simp⟩
  | cons c s ih =>
    intro acc n v n' rest h
    rw [digits] at h
    split at h
    · rename_i d hd
      obtain ⟨cs, a, rfl, h1, rfl, rfl⟩ := ih _ _ _ _ _ h
      refine ⟨c :: cs, d * 10 ^ cs.length + a, rfl, digitsOf_cons h1 c d ((digit_iff c d).1 hd), ?_, ?_⟩
      · rw [List.length_cons, pow_succ]; ring
      · rw [List.length_cons]; omega
    · simp only [Prod.mk.injEq] at h
      obtain ⟨rfl, rfl, rfl⟩ := h
      exact ⟨[], 0, rfl, .nil, by simp, by simp⟩

theorem readUnsigned_sound {s : List Char} {m k : Nat} (h : readUnsigned s = some (m, k)) :
    ∃ i f, i ++ f ≠ [] ∧ DigitsOf (i ++ f) m ∧ f.length = k ∧ (s = i ++ '.' :: f ∨ f = [] ∧ s = i) := by
  unfold readUnsigned at h
  split at h
  · rename_i v rest hd
    obtain ⟨cs, a, rfl, h1, _, hz⟩ := digits_sound _ _ _ _ _ _ hd
    have : cs = [] := List.length_eq_zero_iff.1 (by omega)
    subst this
    split at h
    · cases h
    · rename_i m' k' hne hd'
      cases h
      obtain ⟨f, b, rfl, h2, rfl, rfl⟩ := digits_sound _ _ _ _ _ _ hd'
      refine ⟨[], f, ?_, by simpa using h2, by simp, .inl (by simp)⟩
      rintro rfl
      exact hne (by simp)
    · cases h
  · cases h
  · rename_i m' k' hne1 hne hd
    cases h
    obtain ⟨i, a, rfl, h1, rfl, rfl⟩ := digits_sound _ _ _ _ _ _ hd
    refine ⟨i, [], ?_, by simpa using h1, rfl, .inr ⟨rfl, by simp⟩⟩
    rintro h0
    rw [List.append_nil] at h0
    subst h0
    simp at *
  · rename_i m' k' rest hne1 hne hd
    obtain ⟨i, a, rfl, h1, rfl, rfl⟩ := digits_sound _ _ _ _ _ _ hd
    split at h
    · rename_i m2 k2 hd'
      cases h
      obtain ⟨f, b, rfl, h2, rfl, rfl⟩ := digits_sound _ _ _ _ _ _ hd'
      refine ⟨i, f, ?_, by simpa using digitsOf_append h1 h2, by simp, .inl (by simp)⟩
      rintro h0
      obtain ⟨rfl, rfl⟩ := List.append_eq_nil_iff.1 h0
      simp at *
    · cases h
  · cases h

/-- **C143.** `strconv.ParseFloat` takes no other texts for decimal numbers: what is returned for them is up to its other forms. -/
theorem C143_other (other : String → F64 × Bool) (s : String) (h : ∀ m k, ¬ DecimalText s m k) : parseFloat other s = other s := by
  unfold parseFloat
  cases hr : readDecimal s with
  | none => rfl
  | some p =>
    obtain ⟨neg, m, k⟩ := p
    exfalso
    unfold readDecimal at hr
    have use : ∀ sign rest, (sign = [] ∨ sign = ['+'] ∨ sign = ['-']) → s.toList = sign ++ rest → readUnsigned rest = some (m, k) → False := by
      intro sign rest hs e hu
      obtain ⟨i, f, h1, h2, h3, h4⟩ := readUnsigned_sound hu
      refine h _ k ⟨sign, i, f, m, hs, h1, h2, h3, rfl, ?_⟩
      rw [e]
      rcases h4 with rfl | ⟨rfl, rfl⟩
      · exact .inl (by simp)
      · exact .inr ⟨rfl, by simp⟩
    split at hr
    · rename_i rest e
      cases hu : readUnsigned rest with
      | none => simp [hu] at hr
      | some p =>
        simp only [hu, Option.map_some, Option.some.injEq, Prod.mk.injEq] at hr
        exact use ['+'] rest (.inr (.inl rfl)) e (by rw [hu, hr.2])
    · rename_i rest e
      cases hu : readUnsigned rest with
      | none => simp [hu] at hr
      | some p =>
        simp only [hu, Option.map_some, Option.some.injEq, Prod.mk.injEq] at hr
        exact use ['-'] rest (.inr (.inr rfl)) e (by rw [hu, hr.2])
    · rename_i e1 e2
      cases hu : readUnsigned s.toList with
      | none => simp [hu] at hr
      | some p =>
        simp only [hu, Option.map_some, Option.some.injEq, Prod.mk.injEq] at hr
        exact use [] s.toList (.inl rfl) rfl (by rw [hu, hr.2])

/-- Texts that are no decimal numbers. -/
example : parseFloat (fun _ => (.nan, false)) "1.5x" = (.nan, false) ∧ parseFloat (fun _ => (.nan, false)) " 1" = (.nan, false) ∧
    parseFloat (fun _ => (.nan, false)) "." = (.nan, false) := by decide +kernel

/-- Orders are compared as numbers, not as texts: 2 is before 10, and 1.5 before 2; -1 is before 0. -/
example : orderedRows "10" "2" = [(0, "x#p"), (1, "x#b"), (1, "x#a")] ∧ orderedRows "2" "1.5" = [(0, "x#p"), (1, "x#b"), (1, "x#a")] ∧
    orderedRows "0" "-1." = [(0, "x#p"), (1, "x#b"), (1, "x#a")] ∧ DecimalText "-1." (-1) 0 ∧ DecimalText "1.5" 15 1 := by
  refine ⟨by decide +kernel, by decide +kernel, by decide +kernel, ?_, ?_⟩
  · exact ⟨['-'], ['1'], [], 1, by simp, by simp, by simpa using digitsOf_cons .nil '1' 1 ⟨by omega, by decide⟩, rfl, by decide, .inl (by decide)⟩
  · exact ⟨[], ['1'], ['5'], 15, by simp, by simp,
      by simpa using digitsOf_cons (digitsOf_cons .nil '5' 5 ⟨by omega, by decide⟩) '1' 1 ⟨by omega, by decide⟩, rfl, by decide, .inl (by decide)⟩

/-- Numbers of seventeen digits that `C143_separated_partial` is about: no double is nearest to both. -/
example : orderedRows "20000000000000003" "10000000000000001" = [(0, "x#p"), (1, "x#b"), (1, "x#a")] ∧
    ∀ z, ¬ (Nearest 10000000000000001 0 z ∧ Nearest 20000000000000003 0 z) := by
  refine ⟨by decide +kernel, ?_⟩
  rintro z ⟨⟨_, h1⟩, ⟨_, h2⟩⟩
  have d1 := h1 (152587890625 * 2 ^ 1090) ⟨_, _, rfl, by decide, by decide⟩
  have d2 := h2 (152587890625 * 2 ^ 1091) ⟨_, _, rfl, by decide, by decide⟩
  have e1 : (2 : Int) ^ 1090 = 65536 * 2 ^ 1074 := by rw [show 1090 = 16 + 1074 from rfl, Int.pow_add]; rfl
  have e2 : (2 : Int) ^ 1091 = 131072 * 2 ^ 1074 := by rw [show 1091 = 17 + 1074 from rfl, Int.pow_add]; rfl
  have pu : (0 : Int) < 2 ^ 1074 := Int.pow_pos (by omega)
  rw [e1] at d1
  rw [e2] at d2
  generalize (2 : Int) ^ 1074 = u at *
  omega

/-- The other hypotheses of `C143_order_partial` can be met. -/
example : (∃ k, HoldsLink "r" (orderedLb "10" "2") k ∧
      IsForest (pArcs k.arcs) PresentationArcrole (forestFolder.tree (pArcs k.arcs) PresentationArcrole) ∧ Acyclic (pArcs k.arcs) PresentationArcrole) ∧
    Merged (PArcOf decimalsOnly) [orderedLink "10" "2"] (orderedLb "10" "2").links := by
  refine ⟨?_, C19_presentation _ (·) (fun _ => .refl _) _⟩
  obtain ⟨k, hk, hr⟩ : ∃ k, firstLink "r" [orderedLb "10" "2"] = some (orderedLb "10" "2", k) ∧
      ∀ a ∈ pArcs k.arcs, (if a.frm = "p" then 0 else 1) < (if a.to = "p" then 0 else 1 : Nat) :=
    ⟨((firstLink "r" [orderedLb "10" "2"]).get (by decide +kernel)).2, by rfl, by decide +kernel⟩
  exact ⟨k, ((firstLink_some "r" _ _ _).1 hk).2,
    forest_isForest _ _ (fun l => if l = "p" then 0 else 1) 5 (fun a ha _ => ⟨hr a ha, by split <;> omega⟩),
    ⟨fun l => if l = "p" then 0 else 1, fun a ha _ => hr a ha⟩⟩

/-- **C143 (fails).** An order with a space in front, which is a valid `xs:decimal`, is an error of `strconv.ParseFloat`, and the child
is put last: 1 after 2. Orders that differ after the sixteenth digit are the same double, and the children stay as they are in the file. -/
theorem C143_fails : orderedRows " 1" "2" = [(0, "x#p"), (1, "x#b"), (1, "x#a")] ∧
    orderedRows "1" "2" = [(0, "x#p"), (1, "x#a"), (1, "x#b")] ∧
    orderedRows "1.00000000000000001" "1" = [(0, "x#p"), (1, "x#a"), (1, "x#b")] := by
  refine ⟨by decide +kernel, by decide +kernel, by decide +kernel⟩

/-! ## C144: weights -/

/-- **C144 (partial, any number of digits).** A summation-item arc whose weight is a decimal number of up to 300 decimals that is at most
`2 ^ 1023`: under the item of its source, its target is shown with `-` if the number is negative, otherwise with `+`, and with the absolute
value of a double nearest to the number, to the nearest tenth. -/
theorem C144_nearest_partial {Φ : Type} (f : Folder) (env : GridEnv Φ) (other : String → F64 × Bool) (entity role : String)
    (b : Books) (lb : Lb CArc) (k : Link CArc) (hf : FirstWith (fun lb => ∃ k, HoldsLink role lb k) b.calculation lb)
    (hk : HoldsLink role lb k) (es : List LinkElem) (hm : Merged (CArcOf (parseFloat other)) es lb.links)
    (items : List (SummationItem Φ)) (roles : List LabelRole) (langs : List Lang)
    (hlab : ∀ h, Shown (f.label h) "Default" "Unlabelled" h) (hord : ∀ m, (env.mapOrder m).Perm m) (hn : ∀ a ∈ k.arcs, a.order ≠ .nan)
    (h : cGrid f env entity role b = .done (items, roles, langs))
    (x : List Attr) (hx : ArcElem es role x) (src tgt : String)
    (ex : ArcEnds x "http://www.xbrl.org/2003/arcrole/summation-item" src tgt) (ho : Given x "order")
    (s : String) (hs : AttrVal x "weight" s) (m : Int) (j : Nat) (hd : DecimalText s m j) (hr : m.natAbs ≤ 10 ^ j * 2 ^ 1023)
    (hj : j ≤ 300)
    (h1 h2 : String) (hl1 : LabelFor es role src h1)
    (hl2 : LabelFor es role tgt h2) (hc1 : (f.concept h1).isSome) (hc2 : (f.concept h2).isSome) :
    ∃ i ∈ items, i.href = h1 ∧ ∃ c ∈ i.contributing, c.href = h2 ∧ c.sign = (if m < 0 then "-" else "+") ∧
      ∃ (z : Int) (q : Nat), Nearest m j z ∧ c.scale = tenthsText q ∧ 2 * (10 * z.natAbs) ≤ (2 * q + 1) * 2 ^ 1074 ∧
        2 * q * 2 ^ 1074 ≤ 2 * (10 * z.natAbs) + 2 ^ 1074 := by
  have hr := inRange_nearest (m := m) (k := j) hr
  have hp := parse_decimal other hd hr
  have hne : s ≠ "" := by
    rintro rfl
    obtain ⟨sign, i, f, n, _, hne, _, _, _, h⟩ := hd
    rcases h with h | ⟨rfl, h⟩
    · have := congrArg List.length h; simp at this
    · have := congrArg List.length h
      simp only [List.append_nil, ne_eq] at hne
      have hl := List.length_pos_iff.2 hne
      simp only [String.toList_empty, List.length_nil, List.length_append] at this
      omega
  obtain ⟨v, hv⟩ := (numVal_given (parse := parseFloat other) (d := largest)).2 ho
  have ha : CArcOf (parseFloat other) x ⟨v, "http://www.xbrl.org/2003/arcrole/summation-item", src, tgt, .fin (rounded m j)⟩ :=
    ⟨ex, hv, ⟨s, hs, hne, .inl (by rw [hp]; exact ⟨rfl, rfl⟩)⟩⟩
  obtain ⟨i, hi, hih, c, hc, hch, hsn, hsp, hsc⟩ := C140_arcs f env (parseFloat other) entity role b lb k hf hk es hm items roles langs hlab hord hn h
    x hx _ ha rfl h1 h2 hl1 hl2 hc1 hc2
  have hz : Negative (.fin (rounded m j)) ↔ m < 0 := by
    have h00 : rounded 0 j = 0 := by simp [rounded, nearest_zero]
    constructor
    · rintro (h | ⟨z, hz, h⟩)
      · cases h
      · cases h
        by_contra hm0
        unfold rounded at hz
        rw [if_neg hm0] at hz
        omega
    · intro hm0
      refine .inr ⟨_, ?_, rfl⟩
      have := rounded_strict hj hm0 (.inr (by decide))
      omega
  refine ⟨i, hi, hih, c, hc, hch, ?_, ?_⟩
  · by_cases hm0 : m < 0
    · rw [if_pos hm0]; exact hsn.2 (hz.2 hm0)
    · rw [if_neg hm0]; exact hsp.2 (fun h => hm0 (hz.1 h))
  · obtain ⟨q, hq, q1, q2⟩ := hsc _ rfl
    exact ⟨_, q, rounded_nearest hr, hq, q1, q2⟩

/-- **C144 (partial).** A summation-item arc whose weight is a decimal number of up to 14 digits: under the item of its source, its
target is shown with `-` if the number is negative, otherwise with `+`, and with the absolute value of the number to the nearest tenth. This is
as for `C140_arcs`. Missing: more digits and white space around the number (`C144_fails`). -/
theorem C144_weight_partial {Φ : Type} (f : Folder) (env : GridEnv Φ) (other : String → F64 × Bool) (entity role : String)
    (b : Books) (lb : Lb CArc) (k : Link CArc) (hf : FirstWith (fun lb => ∃ k, HoldsLink role lb k) b.calculation lb)
    (hk : HoldsLink role lb k) (es : List LinkElem) (hm : Merged (CArcOf (parseFloat other)) es lb.links)
    (items : List (SummationItem Φ)) (roles : List LabelRole) (langs : List Lang)
    (hlab : ∀ h, Shown (f.label h) "Default" "Unlabelled" h) (hord : ∀ m, (env.mapOrder m).Perm m) (hn : ∀ a ∈ k.arcs, a.order ≠ .nan)
    (h : cGrid f env entity role b = .done (items, roles, langs))
    (x : List Attr) (hx : ArcElem es role x) (src tgt : String)
    (ex : ArcEnds x "http://www.xbrl.org/2003/arcrole/summation-item" src tgt) (ho : Given x "order")
    (s : String) (hs : AttrVal x "weight" s) (m : Int) (j : Nat) (hd : DecimalText s m j) (hm1 : m.natAbs < 10 ^ 14) (hj : j ≤ 300)
    (h1 h2 : String) (hl1 : LabelFor es role src h1)
    (hl2 : LabelFor es role tgt h2) (hc1 : (f.concept h1).isSome) (hc2 : (f.concept h2).isSome) :
    ∃ i ∈ items, i.href = h1 ∧ ∃ c ∈ i.contributing, c.href = h2 ∧ c.sign = (if m < 0 then "-" else "+") ∧
      ∃ q : Nat, c.scale = tenthsText q ∧ 20 * m.natAbs ≤ (2 * q + 1) * 10 ^ j ∧ 2 * q * 10 ^ j ≤ 20 * m.natAbs + 10 ^ j := by
  have hr := inRange_nearest (m := m) (k := j) (fifteen j (by omega))
  have hp := parse_decimal other hd hr
  have hne : s ≠ "" := by
    rintro rfl
    obtain ⟨sign, i, f, n, _, hne, _, _, _, h⟩ := hd
    rcases h with h | ⟨rfl, h⟩
    · have := congrArg List.length h; simp at this
    · have := congrArg List.length h
      simp only [List.append_nil, ne_eq] at hne
      have hl := List.length_pos_iff.2 hne
      simp only [String.toList_empty, List.length_nil, List.length_append] at this
      omega
  obtain ⟨v, hv⟩ := (numVal_given (parse := parseFloat other) (d := largest)).2 ho
  have ha : CArcOf (parseFloat other) x ⟨v, "http://www.xbrl.org/2003/arcrole/summation-item", src, tgt, .fin (rounded m j)⟩ :=
    ⟨ex, hv, ⟨s, hs, hne, .inl (by rw [hp]; exact ⟨rfl, rfl⟩)⟩⟩
  obtain ⟨i, hi, hih, c, hc, hch, hsn, hsp, hsc⟩ := C140_arcs f env (parseFloat other) entity role b lb k hf hk es hm items roles langs hlab hord hn h
    x hx _ ha rfl h1 h2 hl1 hl2 hc1 hc2
  have hz : Negative (.fin (rounded m j)) ↔ m < 0 := by
    have h00 : rounded 0 j = 0 := by simp [rounded, nearest_zero]
    constructor
    · rintro (h | ⟨z, hz, h⟩)
      · cases h
      · cases h
        by_contra hm0
        unfold rounded at hz
        rw [if_neg hm0] at hz
        omega
    · intro hm0
      refine .inr ⟨_, ?_, rfl⟩
      have := rounded_strict hj hm0 (.inr (by decide))
      omega
  refine ⟨i, hi, hih, c, hc, hch, ?_, ?_⟩
  · by_cases hm0 : m < 0
    · rw [if_pos hm0]; exact hsn.2 (hz.2 hm0)
    · rw [if_neg hm0]; exact hsp.2 (fun h => hm0 (hz.1 h))
  · obtain ⟨q, hq, q1, q2⟩ := hsc _ rfl
    refine ⟨q, hq, ?_⟩
    have herr := rounded_error m hj
    -- everything in absolute values
    have habs : ∃ e : Int, ((rounded m j).natAbs : Int) * 10 ^ j = m.natAbs * 2 ^ 53 * 2 ^ 1021 + e ∧ e.natAbs ≤ m.natAbs * 2 ^ 1021 := by
      refine ⟨((rounded m j).natAbs : Int) * 10 ^ j - m.natAbs * 2 ^ 53 * 2 ^ 1021, by omega, ?_⟩
      by_cases hm0 : m < 0
      · have e1 : (m.natAbs : Int) = -m := by omega
        have e2 : ((rounded m j).natAbs : Int) = -(rounded m j) := by
          unfold rounded; rw [if_pos hm0]; omega
        rw [e1, e2]
        have : -rounded m j * 10 ^ j - -m * 2 ^ 53 * 2 ^ 1021 = m * 2 ^ 53 * 2 ^ 1021 - rounded m j * 10 ^ j := by
          rw [Int.neg_mul, Int.neg_mul, Int.neg_mul]; omega
        rw [this]; exact herr
      · have e1 : (m.natAbs : Int) = m := by omega
        have e2 : ((rounded m j).natAbs : Int) = rounded m j := by
          unfold rounded; rw [if_neg hm0]; omega
        rw [e1, e2, ← Int.natAbs_neg]
        have : -(rounded m j * 10 ^ j - m * 2 ^ 53 * 2 ^ 1021) = m * 2 ^ 53 * 2 ^ 1021 - rounded m j * 10 ^ j := by omega
        rw [this]; exact herr
    obtain ⟨e, he1, he2⟩ := habs
    have e1074 : (2 : Nat) ^ 1074 = 2 ^ 53 * 2 ^ 1021 := by rw [← Nat.pow_add]
    rw [e1074] at q1 q2
    have pu : 0 < (2 : Nat) ^ 1021 := Nat.two_pow_pos _
    have c1 : ((2 ^ 1021 : Nat) : Int) = (2 : Int) ^ 1021 := Int.natCast_pow 2 1021
    have c2 : ((10 ^ j : Nat) : Int) = (10 : Int) ^ j := Int.natCast_pow 10 j
    rw [← c1, ← c2] at he1
    have pd : 0 < (10 : Nat) ^ j := Nat.pow_pos (by omega)
    generalize (2 : Nat) ^ 1021 = u at *
    generalize (10 : Nat) ^ j = d at *
    generalize (rounded m j).natAbs = z at *
    generalize m.natAbs = a at *
    -- multiply the bounds of `q` by `d`
    have r1 : 20 * (z * d) ≤ (2 * q + 1) * d * (2 ^ 53 * u) := by
      calc 20 * (z * d) = 2 * (10 * z) * d := by ring
        _ ≤ (2 * q + 1) * (2 ^ 53 * u) * d := Nat.mul_le_mul_right _ q1
        _ = _ := by ring
    have r2 : 2 * q * d * (2 ^ 53 * u) ≤ 20 * (z * d) + d * (2 ^ 53 * u) := by
      calc 2 * q * d * (2 ^ 53 * u) = 2 * q * (2 ^ 53 * u) * d := by ring
        _ ≤ (2 * (10 * z) + 2 ^ 53 * u) * d := Nat.mul_le_mul_right _ q2
        _ = _ := by ring
    have t1 : (z * d : Int) ≤ ((a * (2 ^ 53 * u) + a * u : Nat) : Int) := by
      have : ((a * (2 ^ 53 * u) + a * u : Nat) : Int) = (a : Int) * 2 ^ 53 * u + ((a * u : Nat) : Int) := by push_cast; ring
      omega
    have t2 : ((a * (2 ^ 53 * u) : Nat) : Int) ≤ z * d + ((a * u : Nat) : Int) := by
      have : ((a * (2 ^ 53 * u) : Nat) : Int) = (a : Int) * 2 ^ 53 * u := by push_cast; ring
      omega
    have t1 : z * d ≤ a * (2 ^ 53 * u) + a * u := by exact_mod_cast t1
    have t2 : a * (2 ^ 53 * u) ≤ z * d + a * u := by exact_mod_cast t2
    constructor
    · have : (20 * a * 2 ^ 53) * u ≤ ((2 * q + 1) * d * 2 ^ 53 + 20 * a) * u := by
        calc (20 * a * 2 ^ 53) * u = 20 * (a * (2 ^ 53 * u)) := by ring
          _ ≤ 20 * (z * d + a * u) := Nat.mul_le_mul_left _ t2
          _ = 20 * (z * d) + 20 * a * u := by ring
          _ ≤ (2 * q + 1) * d * (2 ^ 53 * u) + 20 * a * u := Nat.add_le_add_right r1 _
          _ = _ := by ring
      have := Nat.le_of_mul_le_mul_right this pu
      generalize (2 * q + 1) * d = g at *
      omega
    · have : (2 * q * d * 2 ^ 53) * u ≤ (20 * a * 2 ^ 53 + 20 * a + d * 2 ^ 53) * u := by
        calc (2 * q * d * 2 ^ 53) * u = 2 * q * d * (2 ^ 53 * u) := by ring
          _ ≤ 20 * (z * d) + d * (2 ^ 53 * u) := r2
          _ ≤ 20 * (a * (2 ^ 53 * u) + a * u) + d * (2 ^ 53 * u) := Nat.add_le_add_right (Nat.mul_le_mul_left _ t1) _
          _ = _ := by ring
      have := Nat.le_of_mul_le_mul_right this pu
      generalize 2 * q * d = g at *
      omega

def weightLink (w : String) : LinkElem := defLink "r" ["T1", "A"] [orderedArc CalculationArcrole "T1" "A" "1" [("weight", w)]]

def weightLb (w : String) : Lb CArc := ⟨[⟨"r", ""⟩], hydrateCalculationLink decimalsOnly (·) [weightLink w]⟩

def weightShown (w : String) : List (List (String × String)) :=
  runScales (cGrid calcFolder calcEnv "s/1" "r" ⟨[], [], [], fun _ => [], [weightLb w], fun _ => "", fun m => m⟩)

/-- The hypotheses of `C144_weight_partial` can be met. -/
example : weightShown "-1.0" = [[("-", "1.0")]] ∧ weightShown "1" = [[("+", "1.0")]] ∧ weightShown "-.26" = [[("-", "0.3")]] ∧
    Merged (CArcOf decimalsOnly) [weightLink "-1.0"] (weightLb "-1.0").links :=
  ⟨by decide +kernel, by decide +kernel, by decide +kernel, C19_calculation _ (·) (fun _ => .refl _) _⟩

/-- A number of twenty digits, which `C144_nearest_partial` is about, is shown as a double nearest to it. -/
example : weightShown "-12345678901234567890" = [[("-", "12345678901234567168.0")]] := by decide +kernel

/-- **C144 (fails).** A weight with a space in front, which is a valid `xs:decimal`, is an error of `strconv.ParseFloat`: what is
subtracted is shown as added zero times. What is after the sixteenth digit is lost, and a number that is nearer to 0.3 is shown as 0.2. -/
theorem C144_fails : weightShown " -1" = [[("+", "0.0")]] ∧ weightShown "-1" = [[("-", "1.0")]] ∧
    weightShown "0.25000000000000000001" = [[("+", "0.2")]] :=
  ⟨by decide +kernel, by decide +kernel, by decide +kernel⟩

end Telefacts
