import Verif.Spec.Document
import Verif.Proof.Attr
import Verif.Proof.Basic
/-! # Proofs about inline documents -/
namespace Telefacts.Document
open Telefacts.Spec

theorem findXpathAttr_eq (f : InlineFact) (n : String) :
    findXpathAttr f n = f.find? (fun a => decide (a.name.loc = n)) := by
  induction f with
  | nil => rfl
  | cons a f ih => by_cases h : a.name.loc = n <;> simp [findXpathAttr, h, ih]

theorem hasVal_iff (f : InlineFact) (n v : String) : HasVal f n v ↔ ∃ a, findXpathAttr f n = some a ∧ a.value = v := by
  simp only [HasVal, findXpathAttr_eq, ← firstWith_iff_find, decide_eq_true_eq]

theorem hasVal_unique {f : InlineFact} {n v v' : String} (h : HasVal f n v) (h' : HasVal f n v') : v = v' := by
  obtain ⟨a, h, rfl⟩ := h
  obtain ⟨b, h', rfl⟩ := h'
  rw [firstWith_unique h h']

theorem xmlName_cases {html : List XpathAttr} {np : NameProvider} (h : newNameProvider html = .ok np) (s : String) :
    (':' ∉ s.toList ∧ np.provideXmlName s = .panic) ∨
    (∃ p l n, ':' ∉ p.toList ∧ s = p ++ ":" ++ l ∧ Bound html p n ∧ np.provideXmlName s = .ok ⟨n, l⟩) ∨
    (∃ p l m, ':' ∉ p.toList ∧ s = p ++ ":" ++ l ∧ (∀ n, ¬ Bound html p n) ∧ np.provideXmlName s = .err m) := by
  obtain ⟨st, _, hi, rfl⟩ := newNameProvider_ok h
  by_cases hc : ':' ∈ s.toList
  · right
    cases hcut : cut ':' s with
    | none => exact absurd hc (cut_eq_none.1 hcut)
    | some r =>
      obtain ⟨p, l⟩ := r
      obtain ⟨hs, hp⟩ := cut_eq_some.1 hcut
      cases hg : mapGet st.origin p with
      | some n =>
        exact .inl ⟨p, l, n, hp, hs, (hi.origin p n).1 hg, by simp [NameProvider.provideXmlName, hcut, hg]⟩
      | none =>
        refine .inr ⟨p, l, _, hp, hs, ?_, by simp only [NameProvider.provideXmlName, hcut, hg]; rfl⟩
        intro n hb; rw [(hi.origin p n).2 hb] at hg; simp at hg
  · exact .inl ⟨hc, by simp [NameProvider.provideXmlName, cut_eq_none.2 hc]⟩

theorem bound_unique {html : List XpathAttr} {p n n' : String} (h : Bound html p n) (h' : Bound html p n') : n = n' :=
  congrArg Prod.snd (lastWith_unique h h')

theorem prefix_unique {p p' l l' : String} (hp : ':' ∉ p.toList) (hp' : ':' ∉ p'.toList)
    (h : p ++ ":" ++ l = p' ++ ":" ++ l') : p = p' ∧ l = l' := by
  have h1 := cut_colon (l := l) hp
  rw [h, cut_colon (l := l') hp'] at h1
  simp only [Option.some.injEq, Prod.mk.injEq] at h1
  exact ⟨h1.1.symm, h1.2.symm⟩

/-- The three outcomes of the work of a goroutine. -/
theorem work_cases {html : List XpathAttr} {np : NameProvider} (h : newNameProvider html = .ok np) (f : InlineFact) :
    (Malformed html f ∧ work np f = .panic) ∨
    (∃ m, Undeclared html f ∧ work np f = .err m) ∨
    (∃ s x c, Uses html f s x c ∧ work np f = .ok (s, x, c)) := by
  unfold work
  cases hn : findXpathAttr f "name" with
  | none =>
    left
    refine ⟨.inl fun s hs => ?_, rfl⟩
    obtain ⟨a, ha, _⟩ := (hasVal_iff _ _ _).1 hs
    rw [hn] at ha; simp at ha
  | some name =>
    have hv : HasVal f "name" name.value := (hasVal_iff _ _ _).2 ⟨name, hn, rfl⟩
    rcases xmlName_cases h name.value with ⟨hc, hx⟩ | ⟨p, l, n, hp, hs, hb, hx⟩ | ⟨p, l, m, hp, hs, hb, hx⟩
    · exact .inl ⟨.inr (.inl ⟨_, hv, hc⟩), by simp only [hx]⟩
    · simp only [hx]
      cases hc : findXpathAttr f "contextRef" with
      | none =>
        left
        refine ⟨.inr (.inr ⟨fun c hcv => ?_, p, l, n, hp, hs ▸ hv, hb⟩), rfl⟩
        obtain ⟨a, ha, _⟩ := (hasVal_iff _ _ _).1 hcv
        rw [hc] at ha; simp at ha
      | some ctx =>
        exact .inr (.inr ⟨_, _, _, ⟨hv, (hasVal_iff _ _ _).2 ⟨ctx, hc, rfl⟩, p, hp, hs, hb⟩, rfl⟩)
    · exact .inr (.inl ⟨m, ⟨p, l, hp, hs ▸ hv, hb⟩, by simp only [hx]⟩)

theorem not_uses_undeclared {html : List XpathAttr} {f : InlineFact} {s : String} {x : XName} {c : String}
    (h : Uses html f s x c) : ¬ Undeclared html f := by
  rintro ⟨p, l, hp, hv, hb⟩
  obtain ⟨h1, _, p', hp', he, hb'⟩ := h
  have := hasVal_unique hv h1
  rw [he] at this
  obtain ⟨rfl, _⟩ := prefix_unique hp hp' this
  exact hb _ hb'

theorem uses_unique {html : List XpathAttr} {f : InlineFact} {s s' : String} {x x' : XName} {c c' : String}
    (h : Uses html f s x c) (h' : Uses html f s' x' c') : s = s' ∧ x = x' ∧ c = c' := by
  obtain ⟨h1, h2, p, hp, he, hb⟩ := h
  obtain ⟨h1', h2', p', hp', he', hb'⟩ := h'
  have e := hasVal_unique h1 h1'
  subst e
  rw [he] at he'
  obtain ⟨rfl, hl⟩ := prefix_unique hp hp' he'
  refine ⟨rfl, ?_, hasVal_unique h2 h2'⟩
  obtain ⟨a, b⟩ := x
  obtain ⟨a', b'⟩ := x'
  simp only at hl hb hb'
  rw [hl, bound_unique hb hb']

/-- A name means the same wherever it is used. -/
theorem uses_name {html : List XpathAttr} {f f' : InlineFact} {s : String} {x x' : XName} {c c' : String}
    (h : Uses html f s x c) (h' : Uses html f' s x' c') : x = x' := by
  obtain ⟨_, _, p, hp, he, hb⟩ := h
  obtain ⟨_, _, p', hp', he', hb'⟩ := h'
  rw [he] at he'
  obtain ⟨rfl, hl⟩ := prefix_unique hp hp' he'
  obtain ⟨a, b⟩ := x
  obtain ⟨a', b'⟩ := x'
  simp only at hl hb hb'
  rw [hl, bound_unique hb hb']

/-- The document maps hold exactly what the facts satisfying `P` use. -/
def Holds (html : List XpathAttr) (P : InlineFact → Prop) (doc : Doc) : Prop :=
  (∀ s x, mapGet doc.names s = some x ↔ ∃ f c, P f ∧ Uses html f s x c) ∧
  (∀ c b, mapGet doc.ctxs c = some b ↔ b = true ∧ ∃ f s x, P f ∧ Uses html f s x c)

theorem holds_add {html : List XpathAttr} {P Q : InlineFact → Prop} {doc : Doc} {f : InlineFact} {s : String} {x : XName}
    {c : String} (h : Holds html P doc) (hu : Uses html f s x c) (hq : ∀ g, Q g ↔ P g ∨ g = f) :
    Holds html Q ⟨mapSet doc.names s x, mapSet doc.ctxs c true⟩ := by
  constructor
  · intro s' x'
    simp only [mapGet_mapSet]
    by_cases hs : s = s'
    · subst hs
      simp only [if_true, Option.some.injEq]
      constructor
      · rintro rfl; exact ⟨f, c, (hq f).2 (.inr rfl), hu⟩
      · rintro ⟨g, c', _, hg⟩; exact uses_name hu hg
    · simp only [if_neg hs, h.1]
      constructor
      · rintro ⟨g, c', hp, hg⟩; exact ⟨g, c', (hq g).2 (.inl hp), hg⟩
      · rintro ⟨g, c', hp, hg⟩
        rcases (hq g).1 hp with hp | rfl
        · exact ⟨g, c', hp, hg⟩
        · exact absurd (uses_unique hu hg).1 hs
  · intro c' b
    simp only [mapGet_mapSet]
    by_cases hc : c = c'
    · subst hc
      simp only [if_true, Option.some.injEq]
      constructor
      · rintro rfl; exact ⟨rfl, f, s, x, (hq f).2 (.inr rfl), hu⟩
      · rintro ⟨rfl, _⟩; rfl
    · simp only [if_neg hc, h.2]
      constructor
      · rintro ⟨hb, g, s', x', hp, hg⟩; exact ⟨hb, g, s', x', (hq g).2 (.inl hp), hg⟩
      · rintro ⟨hb, g, s', x', hp, hg⟩
        rcases (hq g).1 hp with hp | rfl
        · exact ⟨hb, g, s', x', hp, hg⟩
        · exact absurd (uses_unique hu hg).2.2 hc

theorem holds_congr {html : List XpathAttr} {P Q : InlineFact → Prop} {doc : Doc} (h : Holds html P doc)
    (hq : ∀ g s x c, Uses html g s x c → (Q g ↔ P g)) : Holds html Q doc := by
  constructor
  · intro s x; rw [h.1]
    exact ⟨fun ⟨f, c, hp, hu⟩ => ⟨f, c, (hq _ _ _ _ hu).2 hp, hu⟩, fun ⟨f, c, hp, hu⟩ => ⟨f, c, (hq _ _ _ _ hu).1 hp, hu⟩⟩
  · intro c b; rw [h.2]
    exact ⟨fun ⟨hb, f, s, x, hp, hu⟩ => ⟨hb, f, s, x, (hq _ _ _ _ hu).2 hp, hu⟩,
      fun ⟨hb, f, s, x, hp, hu⟩ => ⟨hb, f, s, x, (hq _ _ _ _ hu).1 hp, hu⟩⟩

/-- Invariant of a group of goroutines over facts none of which is malformed. -/
structure GInv (html : List XpathAttr) (P : InlineFact → Prop) (facts : List InlineFact) (st : St) : Prop where
  alive : st.crashed = false
  same : st.threads.map Prod.fst = facts
  err : st.goErr ≠ none → ∃ f ∈ facts, Undeclared html f
  fin : ∀ f, (f, Pc.finished) ∈ st.threads → Undeclared html f → st.goErr ≠ none
  doc : st.goErr = none → ∃ D : InlineFact → Prop, Holds html (fun f => P f ∨ D f) st.doc ∧
    (∀ f, D f → f ∈ facts) ∧ ∀ f, (f, Pc.finished) ∈ st.threads → D f

theorem inv_step {html : List XpathAttr} {np : NameProvider} (h : newNameProvider html = .ok np)
    {P : InlineFact → Prop} {facts : List InlineFact} (hm : ∀ f ∈ facts, ¬ Malformed html f) {st : St} (i : Nat)
    (hi : GInv html P facts st) : GInv html P facts (step np st i) := by
  unfold step
  rw [if_neg (by simp [hi.alive])]
  cases ht : st.threads[i]? with
  | none => exact hi
  | some t =>
    obtain ⟨f, pc⟩ := t
    have hmem : (f, pc) ∈ st.threads := List.mem_of_getElem? ht
    have hf : f ∈ facts := by rw [← hi.same]; exact List.mem_map.2 ⟨_, hmem, rfl⟩
    have hset : ∀ pc', (st.threads.set i (f, pc')).map Prod.fst = facts := by
      intro pc'
      rw [← hi.same, List.map_set]
      apply List.ext_getElem?
      intro j
      rw [List.getElem?_set]
      by_cases hj : i = j
      · subst hj
        obtain ⟨hlt, hv⟩ := List.getElem?_eq_some_iff.1 ht
        simp [hlt, hv]
      · simp [hj]
    have hin : ∀ (g : InlineFact) (pc' : Pc), (g, Pc.finished) ∈ st.threads.set i (f, pc') →
        (g, Pc.finished) ∈ st.threads ∨ (g = f ∧ pc' = .finished) := by
      intro g pc' hg
      rcases List.mem_or_eq_of_mem_set hg with hg | hg
      · exact .inl hg
      · simp only [Prod.mk.injEq] at hg; exact .inr ⟨hg.1, hg.2.symm⟩
    cases pc with
    | finished => exact hi
    | start =>
      refine ⟨hi.alive, hset _, hi.err, ?_, ?_⟩
      · intro g hg hu
        rcases hin g _ hg with hg | ⟨rfl, hpc⟩
        · exact hi.fin g hg hu
        · intro hn
          simp only at hn
          simp [hn] at hpc
      · intro hn
        simp only at hn
        obtain ⟨D, h1, h2, h3⟩ := hi.doc hn
        refine ⟨D, h1, h2, fun g hg => ?_⟩
        rcases hin g _ hg with hg | ⟨rfl, hpc⟩
        · exact h3 g hg
        · simp [hn] at hpc
    | checked =>
      rcases work_cases h f with ⟨hmf, _⟩ | ⟨m, hu, hw⟩ | ⟨s, x, c, hu, hw⟩
      · exact absurd hmf (hm f hf)
      · simp only [hw]
        refine ⟨hi.alive, hset _, fun _ => ⟨f, hf, hu⟩, fun _ _ _ => by simp, fun hn => by simp at hn⟩
      · simp only [hw]
        refine ⟨hi.alive, hset _, hi.err, ?_, ?_⟩
        · intro g hg hug
          rcases hin g _ hg with hg | ⟨rfl, _⟩
          · exact hi.fin g hg hug
          · exact absurd hug (not_uses_undeclared hu)
        · intro hn
          obtain ⟨D, h1, h2, h3⟩ := hi.doc hn
          refine ⟨fun g => D g ∨ g = f, ?_, ?_, ?_⟩
          · exact holds_add h1 hu (fun g => by rw [or_assoc])
          · rintro g (hg | rfl)
            · exact h2 g hg
            · exact hf
          · intro g hg
            rcases hin g _ hg with hg | ⟨rfl, _⟩
            · exact .inl (h3 g hg)
            · exact .inr rfl

theorem inv_run {html : List XpathAttr} {np : NameProvider} (h : newNameProvider html = .ok np)
    {P : InlineFact → Prop} {facts : List InlineFact} (hm : ∀ f ∈ facts, ¬ Malformed html f) (sched : List Nat) {st : St}
    (hi : GInv html P facts st) : GInv html P facts (sched.foldl (step np) st) := by
  induction sched generalizing st with
  | nil => exact hi
  | cons i sched ih => exact ih (inv_step h hm i hi)

/-- The outcome of a group, whatever the schedule. -/
theorem group_outcome {html : List XpathAttr} {np : NameProvider} (h : newNameProvider html = .ok np)
    {P : InlineFact → Prop} {facts : List InlineFact} (hm : ∀ f ∈ facts, ¬ Malformed html f) {doc : Doc}
    (hd : Holds html P doc) {sched : List Nat} (he : Ended (runGroup np facts doc sched)) :
    ((∃ f ∈ facts, Undeclared html f) ∧ ∃ m, afterGroup (runGroup np facts doc sched) = .err m) ∨
    ((∀ f ∈ facts, ¬ Undeclared html f) ∧ ∃ doc', afterGroup (runGroup np facts doc sched) = .ok doc' ∧
      Holds html (fun f => P f ∨ f ∈ facts) doc') := by
  have hi : GInv html P facts (runGroup np facts doc sched) := by
    apply inv_run h hm
    refine ⟨rfl, by simp [Function.comp_def], by simp, ?_, ?_⟩
    · intro f hf; simp at hf
    · intro _
      refine ⟨fun _ => False, holds_congr hd (by simp), by simp, ?_⟩
      intro f hf; simp at hf
  have hfin : ∀ f ∈ facts, (f, Pc.finished) ∈ (runGroup np facts doc sched).threads := by
    intro f hf
    rw [← hi.same] at hf
    obtain ⟨t, ht, rfl⟩ := List.mem_map.1 hf
    rcases he with he | he
    · rw [hi.alive] at he; simp at he
    · have := he t ht
      obtain ⟨g, pc⟩ := t
      simp only at this
      rw [← this]; exact ht
  unfold afterGroup
  rw [if_neg (by simp [hi.alive])]
  cases hg : (runGroup np facts doc sched).goErr with
  | some m => exact .inl ⟨hi.err (by simp [hg]), m, rfl⟩
  | none =>
    refine .inr ⟨fun f hf hu => hi.fin f (hfin f hf) hu hg, _, rfl, ?_⟩
    obtain ⟨D, h1, h2, h3⟩ := hi.doc hg
    exact holds_congr h1 fun g _ _ _ _ =>
      ⟨fun hq => hq.imp id fun hf => h3 g (hfin g hf), fun hq => hq.imp id (h2 g)⟩

/-- How far a goroutine has come. -/
def Pc.rank : Pc → Nat
  | .start => 0
  | .checked => 1
  | .finished => 2

theorem step_crashed {np : NameProvider} {st : St} {i : Nat} (h : st.crashed = true) : step np st i = st := by
  simp [step, h]

theorem foldl_crashed {np : NameProvider} (sched : List Nat) {st : St} (h : st.crashed = true) :
    (sched.foldl (step np) st).crashed = true := by
  induction sched generalizing st with
  | nil => exact h
  | cons i l ih => rw [List.foldl_cons, step_crashed h]; exact ih h

theorem step_rank (np : NameProvider) (st : St) (i j : Nat) (t : InlineFact × Pc) (ht : st.threads[j]? = some t) :
    (step np st i).crashed = true ∨ ∃ t', (step np st i).threads[j]? = some t' ∧
      min 2 (t.2.rank + if i = j then 1 else 0) ≤ t'.2.rank := by
  have same : min 2 (t.2.rank + 0) ≤ t.2.rank := by omega
  by_cases hc : st.crashed = true
  · left; rw [step_crashed hc]; exact hc
  · by_cases hij : i = j
    · subst hij
      obtain ⟨f, pc⟩ := t
      have hlt : i < st.threads.length := by
        rw [List.getElem?_eq_some_iff] at ht; exact ht.1
      unfold step
      simp only [hc, ht, Bool.false_eq_true, if_false]
      cases pc with
      | finished => right; exact ⟨_, ht, by simp [Pc.rank]⟩
      | start =>
        right
        refine ⟨_, List.getElem?_set_self hlt, ?_⟩
        by_cases hg : st.goErr.isSome <;> simp [hg, Pc.rank]
      | checked =>
        cases hw : work np f with
        | panic => left; simp only [hw]
        | err m => right; simp only [hw]; exact ⟨_, List.getElem?_set_self hlt, by simp [Pc.rank]⟩
        | ok r => right; simp only [hw]; exact ⟨_, List.getElem?_set_self hlt, by simp [Pc.rank]⟩
    · simp only [if_neg hij]
      unfold step
      simp only [hc, Bool.false_eq_true, if_false]
      cases hi : st.threads[i]? with
      | none => right; exact ⟨t, ht, same⟩
      | some q =>
        obtain ⟨f, pc⟩ := q
        cases pc with
        | finished => right; exact ⟨t, ht, same⟩
        | start => right; exact ⟨t, by rw [List.getElem?_set_ne hij]; exact ht, same⟩
        | checked =>
          simp only
          cases hw : work np f with
          | panic => left; rfl
          | err m => right; exact ⟨t, by rw [List.getElem?_set_ne hij]; exact ht, same⟩
          | ok r => right; exact ⟨t, by rw [List.getElem?_set_ne hij]; exact ht, same⟩

theorem foldl_rank (np : NameProvider) (sched : List Nat) (st : St) (j : Nat) (t : InlineFact × Pc) (ht : st.threads[j]? = some t) :
    (sched.foldl (step np) st).crashed = true ∨ ∃ t', (sched.foldl (step np) st).threads[j]? = some t' ∧
      min 2 (t.2.rank + sched.count j) ≤ t'.2.rank := by
  induction sched generalizing st t with
  | nil => right; exact ⟨t, ht, by simp only [List.count_nil]; omega⟩
  | cons i l ih =>
    rw [List.foldl_cons]
    rcases step_rank np st i j t ht with h | ⟨t1, h1, hr⟩
    · left; exact foldl_crashed l h
    · rcases ih (step np st i) t1 h1 with h | ⟨t2, h2, hr2⟩
      · exact .inl h
      · refine .inr ⟨t2, h2, ?_⟩
        rw [List.count_cons]
        by_cases hij : i = j
        · subst hij; simp at hr ⊢; omega
        · simp [hij] at hr ⊢; omega

theorem step_length (np : NameProvider) (st : St) (i : Nat) : (step np st i).threads.length = st.threads.length := by
  unfold step
  split
  · rfl
  · split
    · rfl
    · rfl
    · simp
    · split <;> simp

theorem foldl_length (np : NameProvider) (sched : List Nat) (st : St) :
    (sched.foldl (step np) st).threads.length = st.threads.length := by
  induction sched generalizing st with
  | nil => rfl
  | cons i l ih => rw [List.foldl_cons, ih, step_length]

/-- A complete schedule brings the group to an end. -/
theorem ended_of_complete (np : NameProvider) (facts : List InlineFact) (doc : Doc) (sched : List Nat) (h : Complete facts sched) :
    Ended (runGroup np facts doc sched) := by
  by_cases hc : (runGroup np facts doc sched).crashed = true
  · exact .inl hc
  · right
    intro t ht
    obtain ⟨j, hj, hjt⟩ := List.getElem_of_mem ht
    have hl : (runGroup np facts doc sched).threads.length = facts.length := by
      unfold runGroup; rw [foldl_length]; simp
    have hj' : j < facts.length := hl ▸ hj
    have h0 : (⟨facts.map fun f => (f, Pc.start), none, false, doc⟩ : St).threads[j]? = some (facts[j], Pc.start) := by
      simp [hj']
    rcases foldl_rank np sched _ j _ h0 with h1 | ⟨t', h1, hr⟩
    · exact absurd h1 hc
    · have : t' = t := by
        have h2 : (runGroup np facts doc sched).threads[j]? = some t := by rw [List.getElem?_eq_getElem hj, hjt]
        unfold runGroup at h2
        rw [h1] at h2
        exact Option.some.inj h2
      subst this
      have h2 := h j hj'
      obtain ⟨f, pc⟩ := t'
      cases pc <;> simp [Pc.rank] at hr ⊢ <;> omega

end Telefacts.Document
