import Verif.Proof.Alike
import Verif.Proof.XmlLoad
import Verif.Spec.Reordered
import Verif.Props.Respelled
/-! # C165: the order of the elements of an instance -/
namespace Telefacts
open Telefacts.Linkbase Telefacts.Schema Telefacts.Instance Telefacts.Decode Telefacts.Hydrate Telefacts.Server Telefacts.Cache Telefacts.Spec
  Telefacts.XmlText

/-- Sorted lists with the same elements of every key, in the same order. -/
theorem sorted_classes {β : Type} (key : β → String) : ∀ {l₁ l₂ : List β}, SortedBy (fun a b => decide (key a < key b)) l₁ →
    SortedBy (fun a b => decide (key a < key b)) l₂ →
    (∀ i, l₁.filter (fun b => decide (key b = i)) = l₂.filter fun b => decide (key b = i)) → l₁ = l₂ := by
  intro l₁
  induction l₁ with
  | nil =>
    intro l₂ _ _ h
    cases l₂ with
    | nil => rfl
    | cons y ys => have := h (key y); simp at this
  | cons x xs ih =>
    intro l₂ s1 s2 h
    cases l₂ with
    | nil => have := h (key x); simp at this
    | cons y ys =>
      have hx : x ∈ (y :: ys).filter (fun b => decide (key b = key x)) := by rw [← h]; simp
      have hy : y ∈ (x :: xs).filter (fun b => decide (key b = key y)) := by rw [h]; simp
      have hx := (List.mem_filter.1 hx).1
      have hy := (List.mem_filter.1 hy).1
      simp only [SortedBy, List.pairwise_cons] at s1 s2
      have e : key x = key y := by
        apply strLess_anti
        · rcases List.mem_cons.1 hx with rfl | hx
          · simp [String.lt_irrefl]
          · exact s2.1 x hx
        · rcases List.mem_cons.1 hy with rfl | hy
          · simp [String.lt_irrefl]
          · exact s1.1 y hy
      have h1 := h (key x)
      rw [List.filter_cons_of_pos (by simp), List.filter_cons_of_pos (by simp [e])] at h1
      simp only [List.cons.injEq] at h1
      rw [h1.1, ih s1.2 s2.2]
      intro i
      have h2 := h i
      rw [List.filter_cons, List.filter_cons, h1.1] at h2
      by_cases hi : key y = i
      · simp only [hi, decide_true, if_true, List.cons.injEq, true_and] at h2; exact h2
      · simpa only [hi, decide_false, Bool.false_eq_true, if_false] using h2

theorem keyed_weak {β : Type} (key : β → String) : StrictWeak (fun a b : β => decide (key a < key b)) where
  asymm a b := strLess_strictWeak.asymm (key a) (key b)
  negTrans a b c := strLess_strictWeak.negTrans (key a) (key b) (key c)

theorem sort_class {β : Type} (key : β → String) (l : List β) (i : String) :
    (stableSort (fun a b => decide (key a < key b)) l).filter (fun b => decide (key b = i)) = l.filter fun b => decide (key b = i) := by
  by_cases h : ∃ a ∈ l, key a = i
  · obtain ⟨a, _, rfl⟩ := h
    have e : (fun b => decide (key b = key a)) = equivBy (fun a b => decide (key a < key b)) a := by
      funext b
      simp only [equivBy]
      by_cases hb : key b = key a
      · simp [hb, String.lt_irrefl]
      · rcases str_trichotomy (key a) (key b) with h | h | h
        · simp [h, hb]
        · exact absurd h.symm hb
        · simp [h, hb]
    rw [e, stableSort_stable (keyed_weak key)]
  · have h1 : l.filter (fun b => decide (key b = i)) = [] := by
      rw [List.filter_eq_nil_iff]; intro a ha; simpa using fun e => h ⟨a, ha, e⟩
    rw [h1, List.filter_eq_nil_iff]
    intro a ha
    simpa using fun e => h ⟨a, (mem_stableSort _).1 ha, e⟩

/-- Sorting by a key: the results are equal iff the elements of every key are in the same order. -/
theorem sort_eq_iff {β : Type} (key : β → String) (l₁ l₂ : List β) :
    stableSort (fun a b => decide (key a < key b)) l₁ = stableSort (fun a b => decide (key a < key b)) l₂ ↔
    ∀ i, l₁.filter (fun b => decide (key b = i)) = l₂.filter fun b => decide (key b = i) := by
  constructor
  · intro h i
    rw [← sort_class key l₁, ← sort_class key l₂, h]
  · intro h
    refine sorted_classes key (stableSort_sorted (keyed_weak key) _) (stableSort_sorted (keyed_weak key) _) fun i => ?_
    rw [sort_class, sort_class, h]

theorem filterMap_class {α β : Type} {ka : α → String} {kb : β → String} {g : α → Option β} (hk : ∀ a b, g a = some b → kb b = ka a)
    (l : List α) (i : String) :
    (l.filterMap g).filter (fun b => decide (kb b = i)) = (l.filter fun a => decide (ka a = i)).filterMap g := by
  induction l with
  | nil => rfl
  | cons a l ih =>
    rw [List.filterMap_cons, List.filter_cons]
    cases h : g a with
    | none =>
      by_cases hi : ka a = i
      · simp [hi, h, ih]
      · simp [hi, ih]
    | some b =>
      simp only [List.filter_cons, hk a b h, ih]
      by_cases hi : ka a = i
      · simp [hi, h]
      · simp [hi]

/-- Lists with the same elements of every key, in the same order. -/
def SameClasses {α : Type} (ka : α → String) (l l' : List α) : Prop :=
  ∀ i, l'.filter (fun a => decide (ka a = i)) = l.filter fun a => decide (ka a = i)

theorem SameClasses.mem {α : Type} {ka : α → String} {l l' : List α} (h : SameClasses ka l l') (a : α) : a ∈ l' ↔ a ∈ l := by
  have := h (ka a)
  constructor
  · intro ha
    have : a ∈ l'.filter (fun b => decide (ka b = ka a)) := by simp [ha]
    rw [h] at this
    exact (List.mem_filter.1 this).1
  · intro ha
    have : a ∈ l.filter (fun b => decide (ka b = ka a)) := by simp [ha]
    rw [← h] at this
    exact (List.mem_filter.1 this).1

theorem SameClasses.filterMap {α β : Type} {ka : α → String} {kb : β → String} {g : α → Option β} (hk : ∀ a b, g a = some b → kb b = ka a)
    {l l' : List α} (h : SameClasses ka l l') :
    stableSort (fun a b => decide (kb a < kb b)) (l'.filterMap g) = stableSort (fun a b => decide (kb a < kb b)) (l.filterMap g) := by
  rw [sort_eq_iff]
  intro i
  rw [filterMap_class hk, filterMap_class hk, h]

theorem hydrateFact_id {w : Instance.World} {e : FactElem} {f : Fact} (h : hydrateFact w e = some f) : f.id = optAttr e.attrs "id" := by
  unfold hydrateFact at h
  split at h
  · cases h
  · split at h
    · split at h
      · cases h
      · split at h
        · cases h
        · split at h
          · cases h
          · cases h; rfl
    · cases h

theorem hydrateUnit_id {tl : List Attr} {e : UnitElem} {u : HUnit} (h : hydrateUnit tl e = some u) : u.id = optAttr e.attrs "id" := by
  have key : ∀ {id}, plainAttr e.attrs "id" = some id → optAttr e.attrs "id" = id := by
    intro id h
    unfold plainAttr at h
    unfold optAttr
    cases h1 : findAttr e.attrs "id" with
    | none => rw [h1] at h; cases h
    | some a => rw [h1] at h; simpa using h
  unfold hydrateUnit at h
  split at h
  · cases h
  · split at h
    · cases h
    · rename_i id hid
      split at h
      · cases h
      · rw [key hid]
        split at h
        · cases h; rfl
        · split at h
          · cases h
          · split at h
            · split at h
              · cases h; rfl
              · cases h
            · cases h

theorem hydrateContext_id {w : Instance.World} {e : CtxElem} {c : Context} (h : hydrateContext w e = .done (some c)) : c.id = optAttr e.attrs "id" := by
  have key : ∀ {id}, plainAttr e.attrs "id" = some id → optAttr e.attrs "id" = id := by
    intro id h
    unfold plainAttr at h
    unfold optAttr
    cases h1 : findAttr e.attrs "id" with
    | none => rw [h1] at h; cases h
    | some a => rw [h1] at h; simpa using h
  unfold hydrateContext at h
  split at h
  · cases h
  · split at h
    · cases h
    · rename_i id hid
      split at h
      · cases h
      · rw [key hid]
        split at h
        · cases h
        · split at h
          · cases h
          · split at h
            · cases h
            · split at h
              · cases h
              · generalize hydrateDims w false _ = r1 at h
                generalize hydrateDims w true _ = r2 at h
                cases r1 <;> cases r2 <;> simp only [Run.andThen, Run.done.injEq, Option.some.injEq, reduceCtorEq] at h
                rw [← h]

theorem collectRun_reordered {α β : Type} {f : α → Run (Option β)} {l : List α} {out : List β} (h : collectRun f l = .done out) :
    out = l.filterMap (fun a => match f a with | .done r => r | _ => none) := by
  induction l generalizing out with
  | nil => cases h; rfl
  | cons a l ih =>
    unfold collectRun at h
    cases h1 : f a with
    | panic => rw [h1] at h; cases h
    | loop => rw [h1] at h; cases h
    | done y =>
      rw [h1] at h
      simp only [Run.andThen] at h
      cases h2 : collectRun f l with
      | panic => rw [h2] at h; cases h
      | loop => rw [h2] at h; cases h
      | done ys =>
        rw [h2] at h
        simp only [Run.done.injEq] at h
        rw [List.filterMap_cons, h1, ← h, ← ih h2]
        cases y <;> rfl

theorem contexts_reordered (w : Instance.World) {l l' : List CtxElem} (h : SameClasses (fun e : CtxElem => optAttr e.attrs "id") l l')
    (hl : ∀ e ∈ l, hydrateContext w e ≠ .loop) : hydrateContexts w l' = hydrateContexts w l := by
  have hl' : ∀ e ∈ l', hydrateContext w e ≠ .loop := fun e he => hl e ((h.mem e).1 he)
  unfold hydrateContexts
  cases h1 : collectRun (hydrateContext w) l with
  | loop => obtain ⟨e, he, hx⟩ := collectRun_loop h1; exact absurd hx (hl e he)
  | panic =>
    obtain ⟨e, he, hx⟩ := (collectRun_panic l hl).1 h1
    rw [(collectRun_panic l' hl').2 ⟨e, (h.mem e).2 he, hx⟩]
  | done out =>
    obtain ⟨out', h2⟩ := (collectRun_done l').2 fun e he => (collectRun_done l).1 ⟨out, h1⟩ e ((h.mem e).1 he)
    rw [h2]
    simp only [Run.andThen, Run.done.injEq]
    rw [collectRun_reordered h1, collectRun_reordered h2]
    refine h.filterMap (kb := Context.id) fun e c hc => ?_
    cases h3 : hydrateContext w e with
    | panic => rw [h3] at hc; cases hc
    | loop => rw [h3] at hc; cases hc
    | done r => rw [h3] at hc; simp only at hc; rw [hc] at h3; exact hydrateContext_id h3

/-! ## Files -/

theorem kept_filter {P : Xml → Prop} {p : Xml → Bool} (hp : ∀ k, p k = true ↔ P k) {x x' : Xml} (h : Kept P x x') :
    x'.kids.filter p = x.kids.filter p := by
  have key : ∀ (ks l : List Xml), Collected (fun k y => P k ∧ y = k) ks l → l = ks.filter p := by
    intro ks l h
    induction h with
    | nil => rfl
    | keep k y ks l hr _ ih => rw [hr.2, List.filter_cons_of_pos ((hp k).2 hr.1), ih]
    | skip k ks l hn _ ih => rw [List.filter_cons_of_neg (fun e => hn k ⟨(hp k).1 e, rfl⟩), ih]
  obtain ⟨l, h1, h2⟩ := h
  rw [← key _ _ h1, ← key _ _ h2]

theorem kept_named {n : String} {x x' : Xml} (h : Kept (fun k => k.name.loc = n) x x') : x'.named n = x.named n :=
  kept_filter (p := fun k => k.name.loc = n) (by simp) h

theorem kept_classes {Q : Xml → Prop} {q : Xml → Bool} (hq : ∀ k, q k = true ↔ Q k) {α : Type} (g : Xml → α) (ka : α → String)
    (hg : ∀ k, ka (g k) = optAttr k.attrs "id") {x x' : Xml} (h : ∀ i, Kept (fun k => Q k ∧ OptVal k.attrs "id" i) x x') :
    SameClasses ka ((x.kids.filter q).map g) ((x'.kids.filter q).map g) := by
  intro i
  have := kept_filter (p := fun k => q k && decide (optAttr k.attrs "id" = i)) (fun k => by simp [hq, optAttr_iff]) (h i)
  rw [List.filter_map, List.filter_map, List.filter_filter, List.filter_filter]
  have e : ∀ ks : List Xml, ks.filter (fun k => ((fun a => decide (ka a = i)) ∘ g) k && q k) = ks.filter fun k => q k && decide (optAttr k.attrs "id" = i) := by
    intro ks
    congr 1
    funext k
    simp only [Function.comp, hg]
    exact Bool.and_comm _ _
  rw [e, e, this]

theorem instance_reordered (w : Hydrate.World) {fo fo' : Files} (hn : fo'.namespaces = fo.namespaces) (hc : fo'.schemas = fo.schemas) (k : String)
    {x x' : Xml} {i i' : InstFile} (h : Reordered x x') (ht : TypedEnds w.tokens x) (hi : instanceFile x = some i) (hi' : instanceFile x' = some i') :
    hydrateInstance w fo' k i' = hydrateInstance w fo k i := by
  have hx' : x'.name.loc = "xbrl" := by rw [h.name, h.root]
  have hti := ht i ((isInstance_iff x i h.root).2 hi)
  unfold instanceFile at hi hi'
  rw [if_pos h.root] at hi
  rw [if_pos hx'] at hi'
  simp only [Option.some.injEq] at hi hi'
  subst hi hi'
  have he : queryEnv w fo' = queryEnv w fo := by simp only [queryEnv, hn, hc]
  simp only [hydrateInstance, instanceWorld, he, h.attrs, kept_named h.notes]
  by_cases hk : k = ""
  · simp only [if_pos hk]
  · simp only [if_neg hk]
    have hcs : SameClasses (fun e : CtxElem => optAttr e.attrs "id") ((x.named "context").map context) ((x'.named "context").map context) :=
      kept_classes (q := fun k => k.name.loc = "context") (by simp) context _ (fun _ => rfl) h.contexts
    have hus : SameClasses (fun e : UnitElem => optAttr e.attrs "id") ((x.named "unit").map Decode.unit) ((x'.named "unit").map Decode.unit) :=
      kept_classes (q := fun k => k.name.loc = "unit") (by simp) Decode.unit _ (fun _ => rfl) h.units
    have hfs : SameClasses (fun e : FactElem => optAttr e.attrs "id") ((x.others ["schemaRef", "context", "unit", "footnoteLink"]).map fact)
        ((x'.others ["schemaRef", "context", "unit", "footnoteLink"]).map fact) :=
      kept_classes (q := fun k => k.name.loc ∉ ["schemaRef", "context", "unit", "footnoteLink"]) (by simp [Reserved]) fact _ (fun _ => rfl) h.facts
    rw [contexts_reordered _ hcs]
    · have e1 : hydrateUnits x.attrs ((x'.named "unit").map Decode.unit) = hydrateUnits x.attrs ((x.named "unit").map Decode.unit) :=
        hus.filterMap (kb := HUnit.id) fun _ _ h => hydrateUnit_id h
      have e2 : ∀ w, hydrateFacts w ((x'.others ["schemaRef", "context", "unit", "footnoteLink"]).map fact) =
          hydrateFacts w ((x.others ["schemaRef", "context", "unit", "footnoteLink"]).map fact) := fun w =>
        hfs.filterMap (kb := Fact.id) fun _ _ h => hydrateFact_id h
      rw [e1, e2]
    · intro e hm hl
      have h1 : hydrateContexts ⟨queryEnv w fo, x.attrs, w.tokens, w.trim⟩ [e] = .loop := by
        simp [hydrateContexts, collectRun, hl, Run.andThen]
      obtain ⟨e', he', d, hd, m, hm', hf⟩ := hydrateContexts_loop h1
      simp only [List.mem_singleton] at he'
      subst he'
      have := hti e' hm d hd m hm'
      rw [hf] at this
      cases this

theorem reordered_refs {x x' : Xml} {i i' : InstFile} (h : Reordered x x') (hi : instanceFile x = some i) (hi' : instanceFile x' = some i') :
    i'.schemaRef = i.schemaRef := by
  have hx' : x'.name.loc = "xbrl" := by rw [h.name, h.root]
  unfold instanceFile at hi hi'
  rw [if_pos h.root] at hi
  rw [if_pos hx'] at hi'
  simp only [Option.some.injEq] at hi hi'
  subst hi hi'
  simp only [kept_named h.refs]

theorem disk_reordered {o : Hydrate.World} {d d' : Disk} (h : ReorderedDisk o.tokens d d') : AlikeDisk o d d' := by
  refine disk_alike h.entry h.images h.exist h.doc h.url fun n => ?_
  rcases h.read n with e | ⟨x, x', e1, e2, e3, e4⟩
  · exact .inl e
  · have hx' : x'.name.loc = "xbrl" := by rw [e3.name, e3.root]
    have some : ∀ {y : Xml}, y.name.loc = "xbrl" → ∃ i, instanceFile y = some i := by
      intro y hy
      unfold instanceFile
      rw [if_pos hy]
      exact ⟨_, rfl⟩
    obtain ⟨i, hi⟩ := some e3.root
    obtain ⟨i', hi'⟩ := some hx'
    refine .inr ⟨x, x', i, i', e1, e2, hi, hi', reordered_refs e3 hi hi', fun w hw fo fo' hn hc k => ?_⟩
    have ht : w.tokens = o.tokens := by obtain ⟨p, q, c, n, l, s, t, e⟩ := hw; rw [e]
    rw [instance_reordered w hn hc k e3 (ht ▸ e4) hi hi']

theorem kept_swap {P : Xml → Prop} {x x' : Xml} (h : Kept P x x') : Kept P x' x := by
  obtain ⟨l, h1, h2⟩ := h
  exact ⟨l, h2, h1⟩

theorem reordered_swap {x x' : Xml} (h : Reordered x x') : Reordered x' x :=
  ⟨by rw [h.name, h.root], h.name.symm, h.attrs.symm, kept_swap h.refs, kept_swap h.notes, fun i => kept_swap (h.contexts i),
    fun i => kept_swap (h.units i), fun i => kept_swap (h.facts i)⟩

theorem ends_swap {tokens : String → Stream} {x x' : Xml} (h : Reordered x x') (ht : TypedEnds tokens x) : TypedEnds tokens x' := by
  intro f' hf' e he d hd m hm
  have hx' : x'.name.loc = "xbrl" := by rw [h.name, h.root]
  have hi' := (isInstance_iff x' f' hx').1 hf'
  unfold instanceFile at hi'
  rw [if_pos hx'] at hi'
  simp only [Option.some.injEq] at hi'
  subst hi'
  have hcs : SameClasses (fun e : CtxElem => optAttr e.attrs "id") ((x.named "context").map context) ((x'.named "context").map context) :=
    kept_classes (q := fun k => k.name.loc = "context") (by simp) context _ (fun _ => rfl) h.contexts
  exact ht _ ((isInstance_iff x _ h.root).2 (by unfold instanceFile; rw [if_pos h.root])) e ((hcs.mem e).1 he) d hd m hm

theorem reorderedSite_swap {site site' : Site} (h : ReorderedSite site site') : ReorderedSite site' site := by
  obtain ⟨⟨disk, e⟩, hd⟩ := h
  subst e
  refine ⟨⟨site.disk, rfl⟩, fun folder => ?_⟩
  have h := hd folder
  refine ⟨h.entry.symm, h.images.symm, h.exist.symm, h.doc.symm, h.url.symm, fun n => ?_⟩
  rcases h.read n with e | ⟨x, x', e1, e2, e3, e4⟩
  · exact .inl e.symm
  · exact .inr ⟨x', x, e2, e1, reordered_swap e3, ends_swap e3 e4⟩

/-- **C165 (partial).** If the elements of instances are put in another order, but contexts (units, facts) with the same id stay in their
order, the answers to all requests are the same. -/
theorem C165_order_partial (site site' : Site) (hs : ReorderedSite site site') (r : Req) (o : Out Loaded Store.Bytes Unit) :
    Direct (backend site') r o ↔ Direct (backend site) r o :=
  ⟨direct_alike ⟨(reorderedSite_swap hs).eq, fun folder => disk_reordered ((reorderedSite_swap hs).disk folder)⟩,
   direct_alike ⟨hs.eq, fun folder => disk_reordered (hs.disk folder)⟩⟩

/-- **C165, exactly.** The facts that are read of an instance are the same for two orders of its elements iff those with the same id (or
without id) are in the same order. -/
theorem C165_exact (w : Instance.World) (l l' : List FactElem) :
    hydrateFacts w l' = hydrateFacts w l ↔
    ∀ i, ∃ fs, Collected (fun e f => hydrateFact w e = some f ∧ OptVal e.attrs "id" i) l fs ∧
      Collected (fun e f => hydrateFact w e = some f ∧ OptVal e.attrs "id" i) l' fs := by
  have key : ∀ (i : String) (l : List FactElem) fs, Collected (fun e f => hydrateFact w e = some f ∧ OptVal e.attrs "id" i) l fs ↔
      fs = (l.filterMap (hydrateFact w)).filter fun f => decide (f.id = i) := by
    intro i l fs
    rw [collected_iff (f := fun e => (hydrateFact w e).bind fun f => if f.id = i then some f else none)]
    · rw [← List.filterMap_eq_filter, List.filterMap_filterMap]
      constructor <;> intro h <;> rw [h] <;> congr 1 <;> funext e <;> cases hydrateFact w e <;> simp [Option.guard]
    · intro e f
      rw [← optAttr_iff]
      cases h : hydrateFact w e with
      | none => simp
      | some g =>
        simp only [Option.bind_some, Option.some.injEq, ← hydrateFact_id h]
        by_cases hi : g.id = i <;> simp [hi]
  unfold hydrateFacts
  rw [sort_eq_iff Fact.id]
  constructor
  · intro h i
    exact ⟨_, (key i l _).2 rfl, (key i l' _).2 (h i).symm⟩
  · intro h i
    obtain ⟨fs, h1, h2⟩ := h i
    rw [← (key i l fs).1 h1, ← (key i l' fs).1 h2]

/-- **C165 (fails).** Of two facts with the same id (or without), concept and context the one that comes first is shown. -/
theorem C165_fails (w : Instance.World) (a b : FactElem) (f g : Fact) (ha : hydrateFact w a = some f) (hb : hydrateFact w b = some g)
    (hid : f.id = g.id) (hh : f.href = g.href) (hc : f.contextRef = g.contextRef) (cs : List Context) (us : List HUnit) (ns : List FootnoteLink)
    (k : String) :
    Query.findFact [⟨k, cs, us, ns, hydrateFacts w [a, b]⟩] f.href f.contextRef = some f ∧
    Query.findFact [⟨k, cs, us, ns, hydrateFacts w [b, a]⟩] f.href f.contextRef = some g := by
  have h1 : hydrateFacts w [a, b] = [f, g] := by
    simp [hydrateFacts, ha, hb, stableSort, insertStable, hid, String.lt_irrefl]
  have h2 : hydrateFacts w [b, a] = [g, f] := by
    simp [hydrateFacts, ha, hb, stableSort, insertStable, hid, String.lt_irrefl]
  constructor
  · simp [Query.findFact, h1]
  · simp [Query.findFact, h2, hh, hc]

/-- `moneyXml` in another order. -/
def shuffledXml : Xml := .mk moneyXml.name moneyXml.attrs "" "" moneyXml.kids.reverse

theorem kept_of_filter {P : Xml → Prop} {p : Xml → Bool} (hp : ∀ k, p k = true ↔ P k) {x x' : Xml} (h : x'.kids.filter p = x.kids.filter p) :
    Kept P x x' := by
  have key : ∀ ks : List Xml, Collected (fun k y => P k ∧ y = k) ks (ks.filter p) := by
    intro ks
    induction ks with
    | nil => exact .nil
    | cons k ks ih =>
      by_cases hk : p k = true
      · rw [List.filter_cons_of_pos hk]; exact .keep _ _ _ _ ⟨(hp k).1 hk, rfl⟩ ih
      · rw [List.filter_cons_of_neg hk]; exact .skip _ _ _ (fun y hy => hk ((hp k).2 hy.1)) ih
  exact ⟨_, key _, h ▸ key _⟩

/-- Elements whose ids are different may come in any order. -/
theorem kept_of_perm {Q : Xml → Prop} {q : Xml → Bool} (hq : ∀ k, q k = true ↔ Q k) {x x' : Xml} (hp : x'.kids.Perm x.kids)
    (hd : ((x.kids.filter q).map fun k => optAttr k.attrs "id").Nodup) (i : String) : Kept (fun k => Q k ∧ OptVal k.attrs "id" i) x x' := by
  refine kept_of_filter (p := fun k => q k && decide (optAttr k.attrs "id" = i)) (fun k => by simp [hq, optAttr_iff]) ?_
  have e : ∀ ks : List Xml, ks.filter (fun k => q k && decide (optAttr k.attrs "id" = i)) = (ks.filter q).filter fun k => decide (optAttr k.attrs "id" = i) := by
    intro ks; rw [List.filter_filter]; congr 1; funext k; exact Bool.and_comm _ _
  rw [e, e]
  have hp' := hp.filter q
  generalize x.kids.filter q = l at hd hp'
  generalize x'.kids.filter q = l' at hp'
  have hp2 := hp'.filter fun k => decide (optAttr k.attrs "id" = i)
  have one : ∀ l : List Xml, (l.map fun k => optAttr k.attrs "id").Nodup → (l.filter fun k => decide (optAttr k.attrs "id" = i)).length ≤ 1 := by
    intro l hl
    induction l with
    | nil => simp
    | cons k l ih =>
      simp only [List.map_cons, List.nodup_cons] at hl
      by_cases hk : optAttr k.attrs "id" = i
      · rw [List.filter_cons_of_pos (by simpa using hk)]
        have : l.filter (fun k => decide (optAttr k.attrs "id" = i)) = [] := by
          rw [List.filter_eq_nil_iff]
          intro a ha hai
          exact hl.1 (List.mem_map.2 ⟨a, ha, by rw [hk]; simpa using hai⟩)
        simp [this]
      · rw [List.filter_cons_of_neg (by simpa using hk)]; exact ih hl.2
  have h1 := one l hd
  generalize l.filter (fun k => decide (optAttr k.attrs "id" = i)) = m at hp2 h1
  match m, h1 with
  | [], _ => exact List.perm_nil.1 hp2
  | [k], _ => exact List.perm_singleton.1 hp2

theorem shuffled_perm : shuffledXml.kids.Perm moneyXml.kids := List.reverse_perm _

/-- C165 is about reports that are served (Props/Money.lean). -/
example : ReorderedSite moneySite { moneySite with disk := fun _ =>
    { moneyDisk with read := fun n => if n = "r.xml" then some shuffledXml else moneyDisk.read n } } := by
  refine ⟨⟨_, rfl⟩, fun _ => ⟨rfl, rfl, rfl, rfl, rfl, fun n => ?_⟩⟩
  by_cases h : n = "r.xml"
  · subst h
    refine .inr ⟨moneyXml, shuffledXml, rfl, rfl, ⟨rfl, rfl, rfl, ?_, ?_, ?_, ?_, ?_⟩, ?_⟩
    · exact kept_of_filter (p := fun k => k.name.loc = "schemaRef") (by simp) rfl
    · exact kept_of_filter (p := fun k => k.name.loc = "footnoteLink") (by simp) rfl
    · exact kept_of_perm (q := fun k => k.name.loc = "context") (by simp) shuffled_perm (by decide +kernel)
    · exact kept_of_perm (q := fun k => k.name.loc = "unit") (by simp) shuffled_perm (by decide +kernel)
    · exact kept_of_perm (q := fun k => k.name.loc ∉ ["schemaRef", "context", "unit", "footnoteLink"]) (by simp [Reserved]) shuffled_perm
        (by decide +kernel)
    · intro f hf e he d hd m hm
      have h1 : instanceFile moneyXml = some f := (isInstance_iff moneyXml f rfl).1 hf
      have h2 : (instanceFile moneyXml).all (fun f => f.contexts.all fun e => decide (e.scenarios = []) && e.entities.all fun ent =>
        decide (ent.segments = [])) = true := by decide +kernel
      rw [h1] at h2
      simp only [Option.all_some, List.all_eq_true, Bool.and_eq_true, decide_eq_true_eq] at h2
      rcases hd with hd | ⟨ent, hent, hd⟩
      · rw [(h2 e he).1] at hd; cases hd
      · rw [(h2 e he).2 ent hent] at hd; cases hd
  · exact .inl (by simp [h, moneySite])

/-- A fact that is reported twice: which amount is shown depends on the order. -/
example : ∃ a b f g, hydrateFact instWorld a = some f ∧ hydrateFact instWorld b = some g ∧ f.id = g.id ∧ f.href = g.href ∧
    f.contextRef = g.contextRef ∧ f.inner = "100" ∧ g.inner = "200" :=
  ⟨⟨⟨"http://x", "Cash"⟩, [⟨⟨"", "contextRef"⟩, "c1"⟩], "100"⟩, ⟨⟨"http://x", "Cash"⟩, [⟨⟨"", "contextRef"⟩, "c1"⟩], "200"⟩,
    (hydrateFact instWorld ⟨⟨"http://x", "Cash"⟩, [⟨⟨"", "contextRef"⟩, "c1"⟩], "100"⟩).get (by decide +kernel),
    (hydrateFact instWorld ⟨⟨"http://x", "Cash"⟩, [⟨⟨"", "contextRef"⟩, "c1"⟩], "200"⟩).get (by decide +kernel),
    by simp, by simp, by decide +kernel, by decide +kernel, by decide +kernel, by decide +kernel, by decide +kernel⟩

end Telefacts
