import Verif.Spec.Ways
import Verif.Proof.Discover
/-! # The files read in discovery, one for each way -/
namespace Telefacts.Disc
open Telefacts.Spec
variable {L D : Type}

theorem schemaPairs_append (a b : List (Write L)) : schemaPairs (a ++ b) = schemaPairs a ++ schemaPairs b := by
  simp [schemaPairs]

theorem schemaPairs_ns (l : List (String × String)) :
    schemaPairs (l.map fun p => (Write.ns p.1 p.2 : Write L)) = [] := by
  simp [schemaPairs]

theorem schemaPairs_linkbases (env : FolderEnv L D) (f : SchemaFile) : schemaPairs (linkbaseRefSchema env f) = [] := by
  rw [List.eq_nil_iff_forall_not_mem]
  rintro ⟨k, v⟩ h
  obtain ⟨_, _, _, h, _⟩ := (mem_linkbaseRefSchema env f _).1 ((mem_schemaPairs _ _ _).1 h)
  cases h

theorem Lists.mono {κ γ : Type} {R R' : κ → γ → Prop} {l : List γ} (h : Lists R l) (e : ∀ c v, R c v ↔ R' c v) :
    Lists R' l := by
  obtain ⟨qs, h1, h2, h3⟩ := h
  exact ⟨qs, h1, h2, fun c v => (h3 c v).trans (e c v)⟩

theorem Lists.rekey {κ κ' γ : Type} {R : κ → γ → Prop} {l : List γ} (h : Lists R l) (k : κ → κ')
    (hk : Function.Injective k) : Lists (fun c' v => ∃ c, c' = k c ∧ R c v) l := by
  obtain ⟨qs, h1, h2, h3⟩ := h
  refine ⟨qs.map fun p => (k p.1, p.2), by simpa [Function.comp_def] using h1, ?_, ?_⟩
  · have := h2.map hk
    simpa [Function.comp_def] using this
  · intro c v
    simp only [List.mem_map, Prod.mk.injEq, Prod.exists]
    constructor
    · rintro ⟨c', v', hm, rfl, rfl⟩
      exact ⟨c', rfl, (h3 _ _).1 hm⟩
    · rintro ⟨c', rfl, hr⟩
      exact ⟨c', v, (h3 _ _).2 hr, rfl, rfl⟩

theorem Lists.append {κ γ : Type} {R R' : κ → γ → Prop} {l l' : List γ} (h : Lists R l) (h' : Lists R' l')
    (hd : ∀ c v v', R c v → R' c v' → False) : Lists (fun c v => R c v ∨ R' c v) (l ++ l') := by
  obtain ⟨qs, h1, h2, h3⟩ := h
  obtain ⟨qs', h1', h2', h3'⟩ := h'
  refine ⟨qs ++ qs', by simp [h1, h1'], ?_, ?_⟩
  · rw [List.map_append, List.nodup_append]
    refine ⟨h2, h2', ?_⟩
    intro c hc c' hc' he
    obtain ⟨⟨_, v⟩, hm, rfl⟩ := List.mem_map.1 hc
    obtain ⟨⟨_, v'⟩, hm', rfl⟩ := List.mem_map.1 hc'
    simp only at he
    subst he
    exact hd _ _ _ ((h3 _ _).1 hm) ((h3' _ _).1 hm')
  · intro c v
    rw [List.mem_append, h3, h3']

theorem Lists.nil {κ γ : Type} {R : κ → γ → Prop} (h : ∀ c v, ¬ R c v) : Lists R [] :=
  ⟨[], rfl, .nil, fun c v => by simp [h c v]⟩

theorem Lists.single {κ γ : Type} (c : κ) (v : γ) : Lists (fun c' v' => c' = c ∧ v' = v) [v] :=
  ⟨[(c, v)], rfl, by simp, fun c' v' => by simp⟩

/-- Collecting over a list: the position is the first part of the key. -/
theorem collect_lists {α κ : Type} {fn : α → Option (List (Write L))} {R : α → κ → String × SchemaFile → Prop}
    (hR : ∀ x ws, fn x = some ws → Lists (R x) (schemaPairs ws)) :
    ∀ (xs : List α) (out : List (Write L)), collect fn xs = some out →
      Lists (fun (c : Nat × κ) v => ∃ x, xs[c.1]? = some x ∧ R x c.2 v) (schemaPairs out) := by
  intro xs
  induction xs with
  | nil =>
    intro out h
    simp only [collect, Option.some.injEq] at h
    subst h
    exact .nil (by simp)
  | cons x xs ih =>
    intro out h
    rw [collect] at h
    cases hx : fn x with
    | none => simp [hx] at h
    | some a =>
      cases hb : collect fn xs with
      | none => simp [hx, hb] at h
      | some b =>
        simp only [hx, hb, Option.some.injEq] at h
        subst h
        rw [schemaPairs_append]
        have h1 := (hR x a hx).rekey (fun c => ((0, c) : Nat × κ)) (fun _ _ e => by simpa using e)
        have h2 := (ih b hb).rekey (fun c => ((c.1 + 1, c.2) : Nat × κ)) (fun c c' e => by
          simp only [Prod.mk.injEq, Nat.add_right_cancel_iff] at e
          exact Prod.ext e.1 e.2)
        refine (h1.append h2 ?_).mono ?_
        · rintro c v v' ⟨_, rfl, _⟩ ⟨_, h, _⟩
          simp at h
        · rintro ⟨k, c⟩ v
          cases k with
          | zero => simp
          | succ k => simp

/-- What following one visit and then further references leads to. -/
def After (env : FolderEnv L D) (v : Visit) (q : List Hop) (r : String × SchemaFile) : Prop :=
  ∃ href f, v.next = some (href, f) ∧ ((q = [] ∧ r = (href, f)) ∨ Hops env f q r.1 r.2)

theorem Hops.ne_nil {env : FolderEnv L D} {f : SchemaFile} {q : List Hop} {loc : String} {g : SchemaFile}
    (h : Hops env f q loc g) : q ≠ [] := by cases h <;> simp

theorem finishVisit_lists {env : FolderEnv L D} {v : Visit} {sub : SchemaFile → Option (List (Write L))}
    (hs : ∀ f ws, sub f = some ws → Lists (fun q r => Hops env f q r.1 r.2) (schemaPairs ws)) (ws : List (Write L))
    (h : finishVisit env v sub = some ws) : Lists (After env v) (schemaPairs ws) := by
  unfold finishVisit at h
  cases hn : v.next with
  | none =>
    simp only [hn, Option.some.injEq] at h
    subst h
    rw [schemaPairs_ns]
    refine .nil ?_
    rintro q r ⟨_, _, h, _⟩
    rw [hn] at h; cases h
  | some p =>
    obtain ⟨href, f⟩ := p
    simp only [hn] at h
    cases hf : sub f with
    | none => simp [hf] at h
    | some ws' =>
      simp only [hf, Option.some.injEq] at h
      subst h
      rw [schemaPairs_append, schemaPairs_append, schemaPairs_append, schemaPairs_ns, schemaPairs_linkbases,
        List.nil_append, List.append_nil]
      have e : schemaPairs [(Write.schema href f : Write L)] = [(href, f)] := rfl
      rw [e]
      refine ((hs f ws' hf).append (Lists.single [] (href, f)) ?_).mono ?_
      · rintro c v v' h ⟨rfl, _⟩
        exact h.ne_nil rfl
      · intro q r
        constructor
        · rintro (h | h)
          · exact ⟨href, f, hn, .inr h⟩
          · exact ⟨href, f, hn, .inl h⟩
        · rintro ⟨_, _, h, h'⟩
          rw [hn] at h; cases h
          exact h'.symm

theorem hops_cons {env : FolderEnv L D} {f : SchemaFile} {s : Hop} {q : List Hop} {loc : String} {g : SchemaFile} :
    Hops env f (s :: q) loc g ↔ ∃ l1 g1, Leads env f s l1 g1 ∧ ((q = [] ∧ loc = l1 ∧ g = g1) ∨ Hops env g1 q loc g) := by
  constructor
  · intro h
    cases h with
    | one h => exact ⟨_, _, h, .inl ⟨rfl, rfl, rfl⟩⟩
    | more h h' => exact ⟨_, _, h, .inr h'⟩
  · rintro ⟨l1, g1, h, ⟨rfl, rfl, rfl⟩ | h'⟩
    · exact .one h
    · exact .more h h'

/-- The files read below a file. -/
theorem searchSchema_lists {env : FolderEnv L D} : ∀ (n : Nat) (f : SchemaFile) (ws : List (Write L)),
    searchSchema env n f = some ws → Lists (fun q r => Hops env f q r.1 r.2) (schemaPairs ws) := by
  intro n
  induction n with
  | zero => intro f ws h; simp [searchSchema] at h
  | succ n ih =>
    intro f ws h
    rw [searchSchema] at h
    cases ha : collect (fun i => finishVisit env (visitImport env i) (searchSchema env n)) f.imp with
    | none => simp [ha] at h
    | some a =>
      cases hb : collect (fun i => finishVisit env (visitInclude env i) (searchSchema env n)) f.incl with
      | none => simp [ha, hb] at h
      | some b =>
        simp only [ha, hb, Option.some.injEq] at h
        subst h
        rw [schemaPairs_append]
        have h1 := collect_lists (R := fun i => After env (visitImport env i))
          (fun x ws h => finishVisit_lists ih ws h) _ _ ha
        have h2 := collect_lists (R := fun i => After env (visitInclude env i))
          (fun x ws h => finishVisit_lists ih ws h) _ _ hb
        have h1 := h1.rekey (fun c => Hop.imp c.1 :: c.2) (fun c c' e => by
          simp only [List.cons.injEq, Hop.imp.injEq] at e
          exact Prod.ext e.1 e.2)
        have h2 := h2.rekey (fun c => Hop.incl c.1 :: c.2) (fun c c' e => by
          simp only [List.cons.injEq, Hop.incl.injEq] at e
          exact Prod.ext e.1 e.2)
        refine (h1.append h2 ?_).mono ?_
        · rintro c v v' ⟨_, rfl, _⟩ ⟨_, h, _⟩
          simp at h
        · rintro q ⟨loc, g⟩
          constructor
          · rintro (⟨⟨k, c⟩, rfl, i, hi, href, f', hn, hr⟩ | ⟨⟨k, c⟩, rfl, i, hi, href, f', hn, hr⟩)
            · refine hops_cons.2 ⟨href, f', ⟨i, hi, (visitImport_next env i href f').1 hn⟩, ?_⟩
              simpa using hr
            · refine hops_cons.2 ⟨href, f', ⟨i, hi, (visitInclude_next env i href f').1 hn⟩, ?_⟩
              simpa using hr
          · intro h
            cases q with
            | nil => exact absurd rfl h.ne_nil
            | cons s q =>
              obtain ⟨l1, g1, hl, hr⟩ := hops_cons.1 h
              cases s with
              | imp k =>
                obtain ⟨i, hi, hn⟩ := hl
                exact .inl ⟨(k, q), rfl, i, hi, l1, g1, (visitImport_next env i l1 g1).2 hn, by simpa using hr⟩
              | incl k =>
                obtain ⟨i, hi, hn⟩ := hl
                exact .inr ⟨(k, q), rfl, i, hi, l1, g1, (visitInclude_next env i l1 g1).2 hn, by simpa using hr⟩

/-- The files read in discovery: one for each way. -/
theorem schemaRef_lists {env : FolderEnv L D} {n : Nat} {inst : InstanceFile} {ws : List (Write L)}
    (h : schemaRef env n inst = some ws) : Lists (fun w r => Way env inst w r.1 r.2) (schemaPairs ws) := by
  have h1 := collect_lists (R := fun i => After env (visitRef env i))
    (fun x ws h => finishVisit_lists (searchSchema_lists n) ws h) _ _ h
  refine h1.mono ?_
  rintro ⟨k, q⟩ ⟨loc, g⟩
  constructor
  · rintro ⟨i, hi, href, f', hn, hr⟩
    obtain ⟨t, ht⟩ := (visitRef_next env i href f').1 hn
    exact ⟨i, hi, t, href, f', ht, by simpa using hr⟩
  · rintro ⟨i, hi, t, href, f', ht, hr⟩
    exact ⟨i, hi, href, f', (visitRef_next env i href f').2 ⟨t, ht⟩, by simpa using hr⟩

end Telefacts.Disc
