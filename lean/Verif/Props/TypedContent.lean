import Verif.Props.Instance
/-! # C25: typed members with names that are not declared -/
namespace Telefacts
open Telefacts.Instance Telefacts.Schema Telefacts.Linkbase Telefacts.Spec

/-- The element has a concept. -/
def Known (w : World) (n : XName) : Prop := ∃ href c, Resolves w (n.space ++ ":" ++ n.loc) href c

/-- The element has a namespace for which the folder has no schema. -/
def OutOfScope (w : World) (n : XName) : Prop :=
  ∃ q, Spec.QName w.tl (n.space ++ ":" ++ n.loc) q ∧ q.space ≠ "" ∧ ¬ ∃ l file, mapGet w.env.namespaces q.space = some l ∧ FileAt w.env l file

/-- The element has a namespace for which the folder has a schema, but that does not declare it. -/
def Undeclared (w : World) (n : XName) : Prop :=
  ∃ q, Spec.QName w.tl (n.space ++ ":" ++ n.loc) q ∧ q.space ≠ "" ∧ (∃ l file, mapGet w.env.namespaces q.space = some l ∧ FileAt w.env l file) ∧
    ∀ href c, ¬ NameOf w.env q href c

inductive Ending
  | fine
  | stops
  | crashes
deriving DecidableEq

/-- What comes of the content of an element, which is declared or not. -/
inductive Ends (w : World) : Bool → Forest → Ending → Prop
  | nil (d : Bool) : Ends w d .nil .fine
  | blank (d : Bool) (s : String) (r : Forest) (o : Ending) : w.trim s = "" → Ends w d r o → Ends w d (.text s r) o
  | text (s : String) (r : Forest) (o : Ending) : w.trim s ≠ "" → Ends w true r o → Ends w true (.text s r) o
  | lost (s : String) (r : Forest) : w.trim s ≠ "" → Ends w false (.text s r) .crashes
  | scope (d : Bool) (n : XName) (k r : Forest) : OutOfScope w n → Ends w d (.elem n k r) .stops
  | early (d : Bool) (n : XName) (k r : Forest) (o : Ending) : Known w n → Ends w true k o → o ≠ .fine → Ends w d (.elem n k r) o
  | known (d : Bool) (n : XName) (k r : Forest) (o : Ending) : Known w n → Ends w true k .fine → Ends w d r o → Ends w d (.elem n k r) o
  | inside (d : Bool) (n : XName) (k r : Forest) (o : Ending) : Undeclared w n → Ends w false k o → o ≠ .fine → Ends w d (.elem n k r) o
  | undeclared (d : Bool) (n : XName) (k r : Forest) : Undeclared w n → Ends w false k .fine → Ends w d (.elem n k r) .crashes

/-- The walk over the tokens goes on to the state. -/
inductive WalksTo (w : World) (dim : Concept) : WalkState → List Tok → WalkState → Prop
  | nil (st : WalkState) : WalksTo w dim st [] st
  | cons (st st1 st2 : WalkState) (t : Tok) (ts : List Tok) :
      walkStep w dim st t = .done (.ok st1) → WalksTo w dim st1 ts st2 → WalksTo w dim st (t :: ts) st2

theorem walksTo_append {w : World} {dim : Concept} : ∀ {ts us : List Tok} {st st' : WalkState}, WalksTo w dim st (ts ++ us) st' →
    ∃ st1, WalksTo w dim st ts st1 ∧ WalksTo w dim st1 us st' := by
  intro ts
  induction ts with
  | nil => intro us st st' h; exact ⟨st, .nil _, h⟩
  | cons t ts ih =>
    intro us st st' h
    cases h with
    | cons _ st1 _ _ _ h1 h2 =>
      obtain ⟨s, h3, h4⟩ := ih h2
      exact ⟨s, .cons _ _ _ _ _ h1 h3, h4⟩

theorem walkStep_ne_loop {w : World} {dim : Concept} (st : WalkState) (t : Tok) : walkStep w dim st t ≠ .loop := by
  cases t <;> simp only [walkStep]
  all_goals repeat' (first | (simp; done) | split)

/-- The walk ends with a state, gives up, or panics. -/
theorem walk_ends {w : World} {dim : Concept} : ∀ (ts : List Tok) (st : WalkState),
    (∃ st', WalksTo w dim st ts st' ∧ walk w dim st true ts = .done (st'.members, st'.arcs)) ∨
    walk w dim st true ts = .done ([], []) ∨ walk w dim st true ts = .panic := by
  intro ts
  induction ts with
  | nil => intro st; exact .inl ⟨st, .nil _, rfl⟩
  | cons t ts ih =>
    intro st
    rw [walk]
    cases h : walkStep w dim st t with
    | panic => exact .inr (.inr rfl)
    | loop =>
      exact absurd h (walkStep_ne_loop st t)
    | done r =>
      cases r with
      | error u => exact .inr (.inl rfl)
      | ok st1 =>
        rcases ih st1 with ⟨st', h1, h2⟩ | h1 | h1
        · exact .inl ⟨st', .cons _ _ _ _ _ h h1, h2⟩
        · exact .inr (.inl h1)
        · exact .inr (.inr h1)

/-- Either all elements are known and the stack is as before, or concepts were taken from it. -/
theorem walksTo_stack {w : World} {dim : Concept} (f : Forest) : ∀ {st st' : WalkState}, WalksTo w dim st f.toks st' →
    ((∀ n ∈ f.names, Known w n) ∧ st'.stack = st.stack) ∨
    ∃ c dropped, st.stack = some c :: (dropped ++ st'.stack) ∧ ∀ x ∈ dropped, x ≠ none := by
  induction f with
  | nil => intro st st' h; cases h; exact .inl ⟨by simp [Forest.names], rfl⟩
  | text s r ih =>
    intro st st' h
    cases h with
    | cons _ st1 _ _ _ h1 h2 =>
      have e : st1.stack = st.stack := by
        simp only [walkStep] at h1
        split at h1
        · cases h1; rfl
        · split at h1
          · cases h1
          · split at h1
            · cases h1
            · cases h1
            · cases h1; rfl
      have := ih h2
      rw [e] at this
      exact this
  | elem n k r ihk ihr =>
    intro st st' h
    simp only [Forest.toks] at h
    cases h with
    | cons _ st1 _ _ _ h1 h2 =>
      obtain ⟨st2, hk, h3⟩ := walksTo_append h2
      cases h3 with
      | cons _ st3 _ _ _ h4 h5 =>
        -- the end tag takes a concept
        obtain ⟨c, hc⟩ : ∃ c, st2.stack = some c :: st3.stack := by
          simp only [walkStep] at h4
          split at h4
          · cases h4
          · cases h4
          · rename_i c rest hs
            split at h4
            · cases h4
            · cases h4; exact ⟨c, hs⟩
        -- the start tag leaves the stack or puts something there
        have hstart : st1.stack = st.stack ∨ st1.stack = none :: st.stack ∨ (Known w n ∧ ∃ c, st1.stack = some c :: st.stack) := by
          simp only [walkStep] at h1
          split at h1
          · cases h1; exact .inl rfl
          · rename_i hs
            split at h1
            · cases h1
            · cases h1
            · rename_i x hq
              cases h1
              cases x with
              | none => exact .inr (.inl rfl)
              | some p => exact .inr (.inr ⟨⟨p.1, p.2, (resolves_iff _ _ _ _).2 ⟨hs, hq⟩⟩, p.2, rfl⟩)
        -- what the element as a whole takes
        have hmid : ((∀ m ∈ n :: k.names, Known w m) ∧ st3.stack = st.stack) ∨
            ∃ c dropped, st.stack = some c :: (dropped ++ st3.stack) ∧ ∀ x ∈ dropped, x ≠ none := by
          rcases ihk hk with ⟨hn, e⟩ | ⟨d, dropped, e, hd⟩
          · rcases hstart with hs | hs | ⟨hkn, d, hs⟩
            · exact .inr ⟨c, [], by rw [← hs, ← e, hc]; rfl, by simp⟩
            · rw [e, hs] at hc; cases hc
            · rw [e, hs] at hc
              refine .inl ⟨?_, (List.cons.inj hc).2.symm⟩
              intro m hm
              rcases List.mem_cons.1 hm with rfl | hm
              · exact hkn
              · exact hn m hm
          · rcases hstart with hs | hs | ⟨_, d', hs⟩
            · refine .inr ⟨d, dropped ++ [some c], by rw [← hs, e, hc]; simp, ?_⟩
              intro x hx
              rcases List.mem_append.1 hx with hx | hx
              · exact hd x hx
              · rw [List.mem_singleton] at hx; rw [hx]; simp
            · rw [hs] at e; cases e
            · rw [hs] at e
              obtain ⟨_, e⟩ := List.cons.inj e
              rw [hc] at e
              cases dropped with
              | nil => exact .inr ⟨c, [], by rw [e]; rfl, by simp⟩
              | cons y ys =>
                cases y with
                | none => exact absurd rfl (hd none (by simp))
                | some y =>
                  refine .inr ⟨y, ys ++ [some c], by rw [e]; simp, ?_⟩
                  intro x hx
                  rcases List.mem_append.1 hx with hx | hx
                  · exact hd x (List.mem_cons_of_mem _ hx)
                  · rw [List.mem_singleton] at hx; rw [hx]; simp
        rcases hmid with ⟨hn, e⟩ | ⟨d, dropped, e, hd⟩
        · rcases ihr h5 with ⟨hn', e'⟩ | ⟨d, dropped, e', hd⟩
          · refine .inl ⟨?_, e'.trans e⟩
            intro m hm
            simp only [Forest.names, List.mem_cons, List.mem_append] at hm
            rcases hm with rfl | hm | hm
            · exact hn _ (by simp)
            · exact hn _ (by simp [hm])
            · exact hn' _ hm
          · exact .inr ⟨d, dropped, by rw [← e]; exact e', hd⟩
        · rcases ihr h5 with ⟨_, e'⟩ | ⟨d', dropped', e', hd'⟩
          · exact .inr ⟨d, dropped, by rw [e']; exact e, hd⟩
          · refine .inr ⟨d, dropped ++ some d' :: dropped', by rw [e, e']; simp, ?_⟩
            intro x hx
            rcases List.mem_append.1 hx with hx | hx
            · exact hd x hx
            · rcases List.mem_cons.1 hx with rfl | hx
              · simp
              · exact hd' x hx

/-- **C25, what is not known.** A typed member with an element that has no concept has nothing recorded, or the program panics. -/
theorem C25_unknown (w : World) (dimHref inner : String) (f : Forest) (hf : w.tokens inner = ⟨f.toks, true⟩)
    (hn : ∃ n ∈ f.names, ¬ Known w n) :
    hydrateTypedMembers w dimHref inner = .done ([], []) ∨ hydrateTypedMembers w dimHref inner = .panic := by
  unfold hydrateTypedMembers
  cases hq : hashQuery w.env w.env.namespaces dimHref with
  | err m => exact .inl rfl
  | panic => exact .inr rfl
  | ok p =>
    simp only [hf]
    rcases walk_ends f.toks ⟨[], [], 0, [], dimHref, some p.2⟩ with ⟨st', h1, h2⟩ | h | h
    · exfalso
      rcases walksTo_stack f h1 with ⟨h3, _⟩ | ⟨c, dropped, e, _⟩
      · obtain ⟨n, h4, h5⟩ := hn
        exact h5 (h3 n h4)
      · cases e
    · exact .inl h
    · exact .inr h

/-- **C25, dimensions that are not found.** If the reference of the dimension refers to no concept, nothing is recorded (and nothing panics). -/
theorem C25_dimension (w : World) (dimHref inner : String)
    (h : ∀ l c, dimHref = l ++ "#" ++ c.id → '#' ∉ l.toList → ¬ Declares w.env l c) :
    hydrateTypedMembers w dimHref inner = .done ([], []) := by
  unfold hydrateTypedMembers
  cases hq : hashQuery w.env w.env.namespaces dimHref with
  | err m => rfl
  | panic => exact absurd hq (hashQuery_ne_panic _ _ _)
  | ok p =>
    exfalso
    unfold hashQuery at hq
    cases hc : cut '#' dimHref with
    | none => simp [hc] at hq
    | some bf =>
      obtain ⟨b, fr⟩ := bf
      simp only [hc] at hq
      split at hq
      · cases hq
      · split at hq
        · cases hq
        · split at hq
          · cases hq
          · cases hq
          · rename_i cs hcs
            cases hfi : cs.find? (fun c => decide (fr = c.id)) with
            | none => rw [hfi] at hq; cases hq
            | some c =>
              have hid : fr = c.id := by simpa using List.find?_some hfi
              obtain ⟨h1, h2⟩ := cut_eq_some.1 hc
              exact h b c (by rw [h1, hid]; rfl) h2 ((mem_concepts hcs c).1 (List.mem_of_find?_eq_some hfi))

theorem conceptsAt_exists {h : Env} {l : String} {file : SchemaFile} (hf : FileAt h l file) : ∃ cs, conceptsAt h l = .ok cs :=
  ⟨_, (conceptsAt_iff h l _).2 ⟨file, hf, (collected_iff (hydrateConcept_iff file.attrs l) _ _).2 rfl⟩⟩

theorem nameQuery_err_iff (h : Env) (ns loc : String) :
    (∃ m, nameQuery h ns loc = .err m) ↔ ¬ ∃ l file, mapGet h.namespaces ns = some l ∧ FileAt h l file := by
  unfold nameQuery
  cases hm : mapGet h.namespaces ns with
  | none => simp
  | some l =>
    simp only [Option.getD_some, Option.some.injEq]
    by_cases hl : l = ""
    · simp only [if_pos hl, Res.err.injEq, exists_eq', true_iff]
      rintro ⟨_, file, rfl, hf⟩
      exact hf.1 hl
    · simp only [if_neg hl]
      constructor
      · rintro ⟨m, h1⟩ ⟨_, file, rfl, hf⟩
        obtain ⟨cs, hcs⟩ := conceptsAt_exists hf
        rw [hcs] at h1
        simp only at h1
        split at h1 <;> cases h1
      · intro h1
        cases hc : conceptsAt h l with
        | err m => exact ⟨m, rfl⟩
        | panic => exact absurd hc (conceptsAt_ne_panic h l)
        | ok cs =>
          obtain ⟨file, hf, _⟩ := (conceptsAt_iff h l cs).1 hc
          exact absurd ⟨l, file, rfl, hf⟩ h1

theorem qname_xmlns {tl : List Attr} {s : String} {q : XName} (h : Spec.QName tl s q) : xmlns tl s = q := (C01_xmlns_resolves _ _ _).2 h

theorem outOfScope_iff (w : World) (n : XName) : OutOfScope w n ↔ (xmlns w.tl (n.space ++ ":" ++ n.loc)).space ≠ "" ∧
    ∃ m, nameQuery w.env (xmlns w.tl (n.space ++ ":" ++ n.loc)).space (xmlns w.tl (n.space ++ ":" ++ n.loc)).loc = .err m := by
  rw [nameQuery_err_iff]
  constructor
  · rintro ⟨q, h1, h2, h3⟩
    rw [qname_xmlns h1]; exact ⟨h2, h3⟩
  · rintro ⟨h2, h3⟩
    exact ⟨_, (C01_xmlns_resolves _ _ _).1 rfl, h2, h3⟩

theorem undeclared_iff (w : World) (n : XName) : Undeclared w n ↔ (xmlns w.tl (n.space ++ ":" ++ n.loc)).space ≠ "" ∧
    nameQuery w.env (xmlns w.tl (n.space ++ ":" ++ n.loc)).space (xmlns w.tl (n.space ++ ":" ++ n.loc)).loc = .ok none := by
  have key : ∀ q : XName, ((∃ l file, mapGet w.env.namespaces q.space = some l ∧ FileAt w.env l file) ∧ ∀ href c, ¬ NameOf w.env q href c) ↔
      nameQuery w.env q.space q.loc = .ok none := by
    intro q
    constructor
    · rintro ⟨h1, h2⟩
      cases hq : nameQuery w.env q.space q.loc with
      | err m => exact absurd h1 ((nameQuery_err_iff _ _ _).1 ⟨m, hq⟩)
      | panic => exact absurd hq (nameQuery_ne_panic _ _ _)
      | ok x =>
        cases x with
        | none => rfl
        | some p => exact absurd ((nameQuery_iff _ q p.1 p.2).1 hq) (h2 _ _)
    · intro hq
      refine ⟨?_, fun href c hc => ?_⟩
      · by_contra hn
        obtain ⟨m, hm⟩ := (nameQuery_err_iff w.env q.space q.loc).2 hn
        rw [hq] at hm; cases hm
      · rw [← nameQuery_iff, hq] at hc; cases hc
  constructor
  · rintro ⟨q, h1, h2, h3⟩
    rw [qname_xmlns h1]; exact ⟨h2, (key q).1 h3⟩
  · rintro ⟨h2, h3⟩
    exact ⟨_, (C01_xmlns_resolves _ _ _).1 rfl, h2, (key _).2 h3⟩

theorem named_cases (w : World) (n : XName) (h : (xmlns w.tl (n.space ++ ":" ++ n.loc)).space ≠ "") :
    Known w n ∨ OutOfScope w n ∨ Undeclared w n := by
  rw [outOfScope_iff, undeclared_iff]
  cases hq : nameQuery w.env (xmlns w.tl (n.space ++ ":" ++ n.loc)).space (xmlns w.tl (n.space ++ ":" ++ n.loc)).loc with
  | err m => exact .inr (.inl ⟨h, m, rfl⟩)
  | panic => exact absurd hq (nameQuery_ne_panic _ _ _)
  | ok x =>
    cases x with
    | none => exact .inr (.inr ⟨h, rfl⟩)
    | some p => exact .inl ⟨p.1, p.2, (resolves_iff _ _ _ _).2 ⟨h, hq⟩⟩

/-- Content whose elements all have a namespace comes to one of the ends. -/
theorem ends_exists (w : World) (f : Forest) : (∀ n ∈ f.names, ∃ q, Spec.QName w.tl (n.space ++ ":" ++ n.loc) q ∧ q.space ≠ "") →
    ∀ d, ∃ o, Ends w d f o := by
  induction f with
  | nil => intro _ d; exact ⟨_, .nil d⟩
  | text s r ih =>
    intro h d
    obtain ⟨o, ho⟩ := ih h d
    by_cases hs : w.trim s = ""
    · exact ⟨o, .blank _ _ _ _ hs ho⟩
    · cases d with
      | true => exact ⟨o, .text _ _ _ hs ho⟩
      | false => exact ⟨_, .lost _ _ hs⟩
  | elem n k r ihk ihr =>
    intro h d
    obtain ⟨q, hq, hs⟩ := h n (by simp [Forest.names])
    rcases named_cases w n (by rw [qname_xmlns hq]; exact hs) with hn | hn | hn
    · obtain ⟨o, ho⟩ := ihk (fun m hm => h m (by simp [Forest.names, hm])) true
      obtain ⟨o', ho'⟩ := ihr (fun m hm => h m (by simp [Forest.names, hm])) d
      by_cases e : o = .fine
      · subst e; exact ⟨o', .known _ _ _ _ _ hn ho ho'⟩
      · exact ⟨o, .early _ _ _ _ _ hn ho e⟩
    · exact ⟨_, .scope _ _ _ _ hn⟩
    · obtain ⟨o, ho⟩ := ihk (fun m hm => h m (by simp [Forest.names, hm])) false
      by_cases e : o = .fine
      · subst e; exact ⟨_, .undeclared _ _ _ _ hn ho⟩
      · exact ⟨o, .inside _ _ _ _ _ hn ho e⟩

/-- The concept in charge is that of the element, if it is declared. -/
def InCharge (w : World) (dim : Concept) (st : WalkState) (d : Bool) : Prop :=
  (st.prev = match st.stack with | [] => some dim | p :: _ => p) ∧
    match d with
    | true => ∃ pc href, st.prev = some pc ∧ nameQuery w.env pc.name.space pc.name.loc = .ok (some (href, pc))
    | false => st.prev = none

theorem ends_walk {w : World} {dim : Concept} {d : Bool} {f : Forest} {o : Ending} (h : Ends w d f o) :
    ∀ (st : WalkState) (rest : List Tok), InCharge w dim st d →
      (o = .stops → walk w dim st true (f.toks ++ rest) = .done ([], [])) ∧
      (o = .crashes → walk w dim st true (f.toks ++ rest) = .panic) ∧
      (o = .fine → ∃ st', walk w dim st true (f.toks ++ rest) = walk w dim st' true rest ∧ st'.stack = st.stack ∧ st'.prev = st.prev) := by
  induction h with
  | nil d => intro st rest _; exact ⟨(fun h => by cases h), (fun h => by cases h), fun _ => ⟨st, rfl, rfl, rfl⟩⟩
  | blank d s r o hs _ ih =>
    intro st rest hc
    simp only [Forest.toks, List.cons_append, walk, walkStep, if_pos hs]
    exact ih st rest hc
  | text s r o hs _ ih =>
    intro st rest hc
    obtain ⟨h1, pc, href, h2, h3⟩ := hc
    simp only [Forest.toks, List.cons_append, walk, walkStep, if_neg hs, h2, h3]
    exact ih _ rest ⟨by rw [← h2]; exact h1, pc, href, rfl, h3⟩
  | lost s r hs =>
    intro st rest hc
    obtain ⟨_, h2⟩ := hc
    refine ⟨(fun h => by cases h), fun _ => ?_, (fun h => by cases h)⟩
    simp only [Forest.toks, List.cons_append, walk, walkStep, if_neg hs, h2]
  | scope d n k r hn =>
    intro st rest hc
    obtain ⟨hs, m, hm⟩ := (outOfScope_iff w n).1 hn
    refine ⟨fun _ => ?_, (fun h => by cases h), (fun h => by cases h)⟩
    simp only [Forest.toks, List.cons_append, walk, walkStep, if_neg hs, hm]
  | early d n k r o hn _ ho ih =>
    intro st rest hc
    obtain ⟨href, c, hr⟩ := hn
    obtain ⟨hs, hq⟩ := (resolves_iff _ _ _ _).1 hr
    have hcn : c.name = ⟨(xmlns w.tl (n.space ++ ":" ++ n.loc)).space, (xmlns w.tl (n.space ++ ":" ++ n.loc)).loc⟩ := by
      obtain ⟨_, _, _, _, _, h⟩ := nameQuery_some hq; exact h
    simp only [Forest.toks, List.cons_append, List.append_assoc]
    rw [walk]
    simp only [walkStep, if_neg hs, hq]
    obtain ⟨h1, h2, _⟩ := ih { st with
      order := st.order + 1, stack := some c :: st.stack, arcs := st.arcs ++ [⟨st.order + 1, st.prevHref, href⟩], prev := some c, prevHref := href }
      (Tok.stop n :: (r.toks ++ rest)) ⟨rfl, c, href, rfl, by rw [hcn]; exact hq⟩
    exact ⟨h1, h2, fun e => absurd e ho⟩
  | known d n k r o hn _ _ ihk ihr =>
    intro st rest hc
    obtain ⟨href, c, hr⟩ := hn
    obtain ⟨hs, hq⟩ := (resolves_iff _ _ _ _).1 hr
    have hcn : c.name = ⟨(xmlns w.tl (n.space ++ ":" ++ n.loc)).space, (xmlns w.tl (n.space ++ ":" ++ n.loc)).loc⟩ := by
      obtain ⟨_, _, _, _, _, h⟩ := nameQuery_some hq; exact h
    simp only [Forest.toks, List.cons_append, List.append_assoc]
    rw [walk]
    simp only [walkStep, if_neg hs, hq]
    obtain ⟨_, _, h3⟩ := ihk { st with
      order := st.order + 1, stack := some c :: st.stack, arcs := st.arcs ++ [⟨st.order + 1, st.prevHref, href⟩], prev := some c, prevHref := href }
      (Tok.stop n :: (r.toks ++ rest)) ⟨rfl, c, href, rfl, by rw [hcn]; exact hq⟩
    obtain ⟨st', e1, e2, _⟩ := h3 rfl
    rw [e1, walk]
    simp only [walkStep, e2, hcn, ne_eq, not_true_eq_false, and_self, if_false]
    have hp : (match st.stack with | [] => some dim | p :: _ => p) = st.prev := hc.1.symm
    obtain ⟨r1, r2, r3⟩ := ihr { st' with stack := st.stack, prev := match st.stack with | [] => some dim | p :: _ => p } rest
      ⟨rfl, by simp only [hp]; exact hc.2⟩
    refine ⟨r1, r2, fun e => ?_⟩
    obtain ⟨st2, q1, q2, q3⟩ := r3 e
    exact ⟨st2, q1, q2, q3.trans hp⟩
  | inside d n k r o hn _ ho ih =>
    intro st rest hc
    obtain ⟨hs, hq⟩ := (undeclared_iff w n).1 hn
    simp only [Forest.toks, List.cons_append, List.append_assoc]
    rw [walk]
    simp only [walkStep, if_neg hs, hq]
    obtain ⟨h1, h2, _⟩ := ih { st with
      order := st.order + 1, stack := none :: st.stack, arcs := st.arcs ++ [⟨st.order + 1, st.prevHref, ""⟩], prev := none, prevHref := "" }
      (Tok.stop n :: (r.toks ++ rest)) ⟨rfl, rfl⟩
    exact ⟨h1, h2, fun e => absurd e ho⟩
  | undeclared d n k r hn _ ih =>
    intro st rest hc
    obtain ⟨hs, hq⟩ := (undeclared_iff w n).1 hn
    simp only [Forest.toks, List.cons_append, List.append_assoc]
    rw [walk]
    simp only [walkStep, if_neg hs, hq]
    obtain ⟨_, _, h3⟩ := ih { st with
      order := st.order + 1, stack := none :: st.stack, arcs := st.arcs ++ [⟨st.order + 1, st.prevHref, ""⟩], prev := none, prevHref := "" }
      (Tok.stop n :: (r.toks ++ rest)) ⟨rfl, rfl⟩
    obtain ⟨st', e1, e2, _⟩ := h3 rfl
    refine ⟨(fun h => by cases h), fun _ => ?_, (fun h => by cases h)⟩
    rw [e1, walk]
    simp only [walkStep, e2]

/-- The dimension is found by its reference, and by its name. -/
def DimensionFound (w : World) (dimHref : String) : Prop :=
  ∃ ns c, hashQuery w.env w.env.namespaces dimHref = .ok (ns, c) ∧ NameOf w.env c.name dimHref c

/-- **C25, the ends.** If all elements of a typed member have a namespace, the program panics exactly if the content of the member comes, in
document order, to the end or a text of an undeclared element before an element of a namespace without schema. -/
theorem C25_panics (w : World) (dimHref inner : String) (f : Forest) (hf : w.tokens inner = ⟨f.toks, true⟩) (hd : DimensionFound w dimHref)
    (hn : ∀ n ∈ f.names, ∃ q, Spec.QName w.tl (n.space ++ ":" ++ n.loc) q ∧ q.space ≠ "") :
    (hydrateTypedMembers w dimHref inner = .panic ↔ Ends w true f .crashes) ∧
    (Ends w true f .stops → hydrateTypedMembers w dimHref inner = .done ([], [])) := by
  obtain ⟨ns, c, h1, h2⟩ := hd
  unfold hydrateTypedMembers
  simp only [h1, hf]
  have hc : InCharge w c ⟨[], [], 0, [], dimHref, some c⟩ true := ⟨rfl, c, dimHref, rfl, (nameQuery_iff _ _ _ _).2 h2⟩
  have key : ∀ {o}, Ends w true f o → _ := fun {o} h => ends_walk (dim := c) h ⟨[], [], 0, [], dimHref, some c⟩ [] hc
  rw [List.append_nil] at key
  refine ⟨⟨fun hp => ?_, fun h => (key h).2.1 rfl⟩, fun h => (key h).1 rfl⟩
  obtain ⟨o, ho⟩ := ends_exists w f hn true
  cases o with
  | crashes => exact ho
  | stops => rw [(key ho).1 rfl] at hp; cases hp
  | fine =>
    obtain ⟨st', e, _⟩ := (key ho).2.2 rfl
    rw [e] at hp
    simp [walk] at hp

/-! Examples: an undeclared element, an element of an unknown namespace, and a dimension that is not found. -/

theorem instDimension : DimensionFound instWorld "x.xsd#x_Dim" :=
  (instWorld_resolved "<x:A><x:B>2</x:B></x:A>" (.elem ⟨"x", "A"⟩ (.elem ⟨"x", "B"⟩ (.text "2" .nil) .nil) .nil) (by decide +kernel) (by decide)).dim

example : instWorld.tokens "<x:Unknown/>" = ⟨(Forest.elem ⟨"x", "Unknown"⟩ .nil .nil).toks, true⟩ ∧ DimensionFound instWorld "x.xsd#x_Dim" ∧
    (∀ n ∈ (Forest.elem ⟨"x", "Unknown"⟩ .nil .nil).names, ∃ q, Spec.QName instWorld.tl (n.space ++ ":" ++ n.loc) q ∧ q.space ≠ "") ∧
    (∃ n ∈ (Forest.elem ⟨"x", "Unknown"⟩ .nil .nil).names, ¬ Known instWorld n) ∧
    Ends instWorld true (.elem ⟨"x", "Unknown"⟩ .nil .nil) .crashes := by
  have hu : Undeclared instWorld ⟨"x", "Unknown"⟩ := (undeclared_iff _ _).2 (by decide +kernel)
  refine ⟨by decide +kernel, instDimension, ?_, ?_, .undeclared _ _ _ _ hu (.nil _)⟩
  · intro n hn
    rw [List.mem_singleton.1 hn]
    exact ⟨_, (C01_xmlns_resolves _ _ _).1 rfl, by decide +kernel⟩
  · refine ⟨_, List.mem_singleton.2 rfl, ?_⟩
    rintro ⟨href, c, hr⟩
    have h1 := ((resolves_iff _ _ _ _).1 hr).2
    rw [((undeclared_iff _ _).1 hu).2] at h1
    cases h1

def twoWorld : World := { instWorld with tl := [⟨⟨"xmlns", "x"⟩, "http://x"⟩, ⟨⟨"xmlns", "y"⟩, "http://y"⟩] }

/-- Inside the undeclared element, an element of a namespace without schema stops the walk before it panics. -/
example : Ends twoWorld true (.elem ⟨"x", "Unknown"⟩ (.elem ⟨"y", "A"⟩ .nil .nil) .nil) .stops :=
  .inside _ _ _ _ _ ((undeclared_iff _ _).2 (by decide +kernel))
    (.scope _ _ _ _ ((outOfScope_iff _ _).2 ⟨by decide +kernel, "http://y is not scoped into the folder", by decide +kernel⟩)) (by decide)

example : ∀ l c, "nohash" = l ++ "#" ++ c.id → '#' ∉ l.toList → ¬ Declares instWorld.env l c := by
  intro l c h _
  have := congrArg String.toList h
  simp only [String.toList_append] at this
  have h1 : '#' ∈ "nohash".toList := by rw [this]; simp
  exact absurd h1 (by decide)

end Telefacts
