import Verif.Proof.Alike
import Verif.Spec.Respelled
import Verif.Spec.Cache
import Verif.Props.Attr
import Verif.Props.Money
/-! # C164: prefixes -/
namespace Telefacts
open Telefacts.Linkbase Telefacts.Schema Telefacts.Instance Telefacts.Decode Telefacts.Hydrate Telefacts.Server Telefacts.Cache Telefacts.Spec

theorem Spec.SameName.means {tl tl' : List Attr} {q q' : String} (h : SameName tl tl' q q') : xmlns tl' q' = xmlns tl q := by
  obtain ⟨n, _, h1, h2⟩ := h
  rw [(C01_xmlns_resolves tl q n).2 h1, (C01_xmlns_resolves tl' q' n).2 h2]

theorem Spec.SameName.ne {tl tl' : List Attr} {q q' : String} (h : SameName tl tl' q q') : q ≠ "" ∧ q' ≠ "" := by
  obtain ⟨n, h0, h1, h2⟩ := h
  have key : ∀ (l : List Attr) (s : String), QName l s n → s ≠ "" := by
    rintro l s hq rfl
    have h3 := (C01_xmlns_resolves l "" n).2 hq
    rw [← h3] at h0
    exact h0 rfl
  exact ⟨key _ _ h1, key _ _ h2⟩

theorem Spec.SameName.symm {tl tl' : List Attr} {q q' : String} (h : SameName tl tl' q q') : SameName tl' tl q' q := by
  obtain ⟨n, h0, h1, h2⟩ := h
  exact ⟨n, h0, h2, h1⟩

theorem lookup_same {w w' : Instance.World} (he : w'.env = w.env) {q q' : String} (h : SameName w.tl w'.tl q q') :
    lookup w' q' = lookup w q := by
  unfold lookup
  rw [h.means, he]

theorem findAttr_same {tl tl' : List Attr} {as as' : List Attr} (h : List.Forall₂ (SameAttr tl tl') as as') :
    (plainAttr as "dimension" = none ∧ plainAttr as' "dimension" = none) ∨
    ∃ v v', plainAttr as "dimension" = some v ∧ plainAttr as' "dimension" = some v' ∧ SameName tl tl' v v' := by
  unfold plainAttr
  induction h with
  | nil => exact .inl ⟨rfl, rfl⟩
  | @cons a a' as as' ha _ ih =>
    obtain ⟨h1, h2, h3⟩ := ha
    unfold findAttr
    rw [h1]
    by_cases hn : a.name.loc = "dimension"
    · rw [if_pos hn, if_pos hn]
      exact .inr ⟨_, _, rfl, rfl, h2 hn⟩
    · rw [if_neg hn, if_neg hn]
      exact ih

theorem dimAttr_same {tl tl' : List Attr} {as as' : List Attr} (strict : Bool) (h : List.Forall₂ (SameAttr tl tl') as as') :
    (dimAttr strict as = none ∧ dimAttr strict as' = none) ∨
    ∃ v v', dimAttr strict as = some v ∧ dimAttr strict as' = some v' ∧ SameName tl tl' v v' := by
  unfold dimAttr
  rcases findAttr_same h with ⟨h1, h2⟩ | ⟨v, v', h1, h2, h3⟩
  · left; rw [h1, h2]; exact ⟨rfl, rfl⟩
  · right
    refine ⟨v, v', ?_, ?_, h3⟩
    · rw [h1]; simp [h3.ne.1]
    · rw [h2]; simp [h3.ne.2]

theorem explicit_same {w w' : Instance.World} (he : w'.env = w.env) (strict : Bool) {m m' : MemberElem}
    (ha : List.Forall₂ (SameAttr w.tl w'.tl) m.attrs m'.attrs) (hc : SameName w.tl w'.tl m.chars m'.chars) :
    (explicitMember w' strict m').map bareExplicit = (explicitMember w strict m).map bareExplicit := by
  unfold explicitMember
  rw [lookup_same he hc]
  rcases dimAttr_same strict ha with ⟨h1, h2⟩ | ⟨v, v', h1, h2, h3⟩
  · rw [h1, h2]; rfl
  · rw [h1, h2]
    simp only [Option.bind_eq_bind, Option.bind_some, lookup_same he h3]
    cases lookup w v with
    | none => rfl
    | some d =>
      cases lookup w m.chars with
      | none => rfl
      | some x => rfl

theorem walkStep_same {w w' : Instance.World} (he : w'.env = w.env) (ht : w'.trim = w.trim) (dim : Concept) (st : WalkState) {t t' : Tok}
    (h : SameTok w.tl w'.tl t t') : walkStep w' dim st t' = walkStep w dim st t := by
  cases h with
  | start n n' h => simp only [walkStep, h.means, he]
  | stop n n' h => simp only [walkStep, h.means]
  | text s => simp only [walkStep, he, ht]
  | other => rfl

theorem walk_same {w w' : Instance.World} (he : w'.env = w.env) (ht : w'.trim = w.trim) (dim : Concept) (eof : Bool) {l l' : List Tok}
    (h : List.Forall₂ (SameTok w.tl w'.tl) l l') : ∀ st, walk w' dim st eof l' = walk w dim st eof l := by
  induction h with
  | nil => intro st; rfl
  | cons h _ ih => intro st; simp only [walk, walkStep_same he ht dim st h, ih]

theorem typed_same {w w' : Instance.World} (he : w'.env = w.env) (ht : w'.trim = w.trim) (strict : Bool) {m m' : MemberElem}
    (ha : List.Forall₂ (SameAttr w.tl w'.tl) m.attrs m'.attrs) (hc : SameStream w.tl w'.tl (w.tokens m.chars) (w'.tokens m'.chars)) :
    mapRun (Option.map bareTyped) (typedMember w' strict m') = mapRun (Option.map bareTyped) (typedMember w strict m) := by
  unfold typedMember
  rcases dimAttr_same strict ha with ⟨h1, h2⟩ | ⟨v, v', h1, h2, h3⟩
  · rw [h1, h2]
  · rw [h1, h2]
    simp only [lookup_same he h3]
    cases lookup w v with
    | none => rfl
    | some d =>
      have e : hydrateTypedMembers w' d.1 m'.chars = hydrateTypedMembers w d.1 m.chars := by
        unfold hydrateTypedMembers
        rw [he, hc.eof]
        simp only [walk_same he ht _ _ hc.toks]
      simp only [e]
      cases hydrateTypedMembers w d.1 m.chars <;> rfl

theorem collectRun_same {α β γ : Type} (g : β → γ) {f f' : α → Run (Option β)} {l l' : List α}
    (h : List.Forall₂ (fun a a' => mapRun (Option.map g) (f' a') = mapRun (Option.map g) (f a)) l l') :
    mapRun (List.map g) (collectRun f' l') = mapRun (List.map g) (collectRun f l) := by
  induction h with
  | nil => rfl
  | @cons a a' l l' h _ ih =>
    unfold collectRun
    cases h1 : f a with
    | panic => rw [h1] at h; cases h2 : f' a' with
      | panic => rfl
      | loop => rw [h2] at h; cases h
      | done _ => rw [h2] at h; cases h
    | loop => rw [h1] at h; cases h2 : f' a' with
      | panic => rw [h2] at h; cases h
      | loop => rfl
      | done _ => rw [h2] at h; cases h
    | done y => rw [h1] at h; cases h2 : f' a' with
      | panic => rw [h2] at h; cases h
      | loop => rw [h2] at h; cases h
      | done y' =>
        rw [h2] at h
        simp only [mapRun, Run.done.injEq] at h
        simp only [Run.andThen]
        cases h3 : collectRun f l with
        | panic => rw [h3] at ih; cases h4 : collectRun f' l' with
          | panic => rfl
          | loop => rw [h4] at ih; cases ih
          | done _ => rw [h4] at ih; cases ih
        | loop => rw [h3] at ih; cases h4 : collectRun f' l' with
          | panic => rw [h4] at ih; cases ih
          | loop => rfl
          | done _ => rw [h4] at ih; cases ih
        | done ys => rw [h3] at ih; cases h4 : collectRun f' l' with
          | panic => rw [h4] at ih; cases ih
          | loop => rw [h4] at ih; cases ih
          | done ys' =>
            rw [h4] at ih
            simp only [mapRun, Run.done.injEq] at ih
            cases y <;> cases y' <;> simp_all [mapRun]

theorem filterMap_same {α β γ : Type} (g : β → γ) {f f' : α → Option β} {l l' : List α}
    (h : List.Forall₂ (fun a a' => (f' a').map g = (f a).map g) l l') : (l'.filterMap f').map g = (l.filterMap f).map g := by
  induction h with
  | nil => rfl
  | @cons a a' l l' h _ ih =>
    cases h1 : f a <;> cases h2 : f' a' <;> simp_all

theorem dims_same {w w' : Instance.World} (he : w'.env = w.env) (ht : w'.trim = w.trim) (hk : w'.tokens = w.tokens) (strict : Bool)
    {l l' : List DimElem} (h : List.Forall₂ (SameDims w.tokens w.tl w'.tl) l l') :
    mapRun bareDims (hydrateDims w' strict l') = mapRun bareDims (hydrateDims w strict l) := by
  cases h with
  | nil => rfl
  | @cons d d' l l' h _ =>
    have h1 : (d'.explicit.filterMap (explicitMember w' strict)).map bareExplicit = (d.explicit.filterMap (explicitMember w strict)).map bareExplicit :=
      filterMap_same _ (h.explicit.imp fun _ _ hm => explicit_same he strict hm.1 hm.2)
    have h2 : mapRun (List.map bareTyped) (collectRun (typedMember w' strict) d'.typed) = mapRun (List.map bareTyped) (collectRun (typedMember w strict) d.typed) :=
      collectRun_same _ (h.typed.imp fun _ _ hm => typed_same he ht strict hm.1 (by rw [hk]; exact hm.2))
    simp only [hydrateDims]
    cases h3 : collectRun (typedMember w strict) d.typed <;> cases h4 : collectRun (typedMember w' strict) d'.typed <;>
      rw [h3, h4] at h2 <;> simp_all [mapRun, Run.andThen, bareDims]

theorem context_same {w w' : Instance.World} (he : w'.env = w.env) (ht : w'.trim = w.trim) (hk : w'.tokens = w.tokens)
    {c c' : CtxElem} (h : SameCtx w.tokens w.tl w'.tl c c') :
    mapRun (Option.map bareContext) (hydrateContext w' c') = mapRun (Option.map bareContext) (hydrateContext w c) := by
  obtain ⟨h1, h2, h3, h4, h5⟩ := h
  have hs := dims_same he ht hk true h5
  unfold hydrateContext
  rw [h1, h2, h4]
  by_cases k1 : c.space ≠ XBRLI
  · rw [if_pos k1, if_pos k1]
  · rw [if_neg k1, if_neg k1]
    cases plainAttr c.attrs "id" with
    | none => rfl
    | some id =>
      by_cases k2 : id = ""
      · simp only [if_pos k2]
      · simp only [if_neg k2]
        generalize c.entities = es at h3
        generalize c'.entities = es' at h3
        cases h3 with
        | nil => rfl
        | @cons e e' es es' h3 _ =>
          obtain ⟨e1, e2⟩ := h3
          simp only [e1]
          cases e.identifiers with
          | nil => rfl
          | cons i is =>
            by_cases k3 : i.2 = ""
            · simp only [if_pos k3]
            · simp only [if_neg k3]
              cases plainAttr i.1 "scheme" with
              | none => rfl
              | some scheme =>
                have hg := dims_same he ht hk false e2
                simp only
                cases h6 : hydrateDims w false e.segments <;> cases h7 : hydrateDims w' false e'.segments <;>
                  rw [h6, h7] at hg <;> first | cases hg | skip
                all_goals first | rfl | skip
                cases h8 : hydrateDims w true c.scenarios <;> cases h9 : hydrateDims w' true c'.scenarios <;>
                  rw [h8, h9] at hs <;> first | cases hs | skip
                all_goals first | rfl | skip
                simp only [mapRun, Run.done.injEq] at hg hs
                simp only [Run.andThen, mapRun, Option.map_some, bareContext, hg, hs]

theorem contexts_same {w w' : Instance.World} (he : w'.env = w.env) (ht : w'.trim = w.trim) (hk : w'.tokens = w.tokens)
    {l l' : List CtxElem} (h : List.Forall₂ (SameCtx w.tokens w.tl w'.tl) l l') :
    mapRun (List.map bareContext) (hydrateContexts w' l') = mapRun (List.map bareContext) (hydrateContexts w l) := by
  have h1 := collectRun_same bareContext (f := hydrateContext w) (f' := hydrateContext w') (h.imp fun _ _ hc => context_same he ht hk hc)
  have sort : ∀ l : List Context, (stableSort (fun a b : Context => decide (a.id < b.id)) l).map bareContext =
      stableSort (fun a b : Context => decide (a.id < b.id)) (l.map bareContext) := fun l =>
    (stableSort_map bareContext (fun a b : Context => decide (a.id < b.id)) l).symm
  unfold hydrateContexts
  cases h3 : collectRun (hydrateContext w) l <;> cases h4 : collectRun (hydrateContext w') l' <;>
    rw [h3, h4] at h1 <;> first | cases h1 | skip
  simp only [mapRun, Run.done.injEq] at h1
  simp only [mapRun, Run.andThen, sort, h1]

theorem measure_same {tl tl' : List Attr} {q q' : String} (h : SameName tl tl' q q') :
    bareMeasure (mkMeasure tl' q') = bareMeasure (mkMeasure tl q) := by
  simp [bareMeasure, mkMeasure, h.means, h.ne.1, h.ne.2]

theorem unit_same {tl tl' : List Attr} {u u' : UnitElem} (h : SameUnit tl tl' u u') :
    (hydrateUnit tl' u').map bareUnit = (hydrateUnit tl u).map bareUnit := by
  obtain ⟨h1, h2, h3, h4⟩ := h
  unfold hydrateUnit
  rw [h1, h2]
  by_cases k1 : u.space ≠ XBRLI
  · rw [if_pos k1, if_pos k1]
  · rw [if_neg k1, if_neg k1]
    cases plainAttr u.attrs "id" with
    | none => rfl
    | some id =>
      by_cases k2 : id = ""
      · simp only [if_pos k2]
      · simp only [if_neg k2]
        generalize u.measures = ms at h3
        generalize u'.measures = ms' at h3
        cases h3 with
        | cons h _ => simp only [Option.map_some, bareUnit, measure_same h]
        | nil =>
          generalize u.divides = ds at h4
          generalize u'.divides = ds' at h4
          cases h4 with
          | nil => rfl
          | @cons d d' _ _ h _ =>
            obtain ⟨hn, hd⟩ := h
            simp only
            generalize d.numerators = ns at hn
            generalize d'.numerators = ns' at hn
            generalize d.denominators = es at hd
            generalize d'.denominators = es' at hd
            cases hd with
            | nil => rfl
            | cons hd _ =>
              cases hn with
              | nil => rfl
              | cons hn _ =>
                cases hd with
                | nil => rfl
                | cons hd _ =>
                  cases hn with
                  | nil => rfl
                  | cons hn _ => simp only [Option.map_some, bareUnit, measure_same hn, measure_same hd]

theorem units_same {tl tl' : List Attr} {l l' : List UnitElem} (h : List.Forall₂ (SameUnit tl tl') l l') :
    (hydrateUnits tl' l').map bareUnit = (hydrateUnits tl l).map bareUnit := by
  have sort : ∀ l : List HUnit, (stableSort (fun a b : HUnit => decide (a.id < b.id)) l).map bareUnit =
      stableSort (fun a b : HUnit => decide (a.id < b.id)) (l.map bareUnit) := fun l =>
    (stableSort_map bareUnit (fun a b : HUnit => decide (a.id < b.id)) l).symm
  unfold hydrateUnits
  rw [sort, sort, filterMap_same bareUnit (h.imp fun _ _ hu => unit_same hu)]

theorem instance_same (w : Hydrate.World) {fo fo' : Files} (hn : fo'.namespaces = fo.namespaces) (hc : fo'.schemas = fo.schemas) (k : String)
    {x x' : InstFile} (h : SameFile w.tokens x x') :
    mapRun (Option.map bare) (hydrateInstance w fo' k x') = mapRun (Option.map bare) (hydrateInstance w fo k x) := by
  obtain ⟨_, h1, h2, h3, h4⟩ := h
  have he : queryEnv w fo' = queryEnv w fo := by simp only [queryEnv, hn, hc]
  have hx := contexts_same (w := instanceWorld w fo x) (w' := instanceWorld w fo' x') he rfl rfl h1
  have hu := units_same h2
  have hf : hydrateFacts (instanceWorld w fo' x') x.facts = hydrateFacts (instanceWorld w fo x) x.facts := by
    unfold hydrateFacts
    congr 2
    funext e
    simp only [hydrateFact, instanceWorld, he]
  unfold hydrateInstance
  by_cases hk : k = ""
  · simp only [if_pos hk]
  · simp only [if_neg hk, h3, h4, hf]
    cases h5 : hydrateContexts (instanceWorld w fo x) x.contexts <;> cases h6 : hydrateContexts (instanceWorld w fo' x') x'.contexts <;>
      rw [h5, h6] at hx <;> first | cases hx | skip
    all_goals first | rfl | skip
    simp only [mapRun, Run.done.injEq] at hx
    simp only [Run.andThen, mapRun, Option.map_some, bare, hx, hu]

theorem mapSet_value {K A B : Type} [DecidableEq K] (g : A → B) (m : GoMap K A) (k : K) (a : A) :
    (mapSet m k a).map (fun p => (p.1, g p.2)) = mapSet (m.map fun p => (p.1, g p.2)) k (g a) := by
  induction m with
  | nil => rfl
  | cons p m ih =>
    obtain ⟨k', a'⟩ := p
    simp only [mapSet, List.map_cons]
    by_cases h : k' = k
    · simp [h]
    · simp [h, ih]

theorem hydrateMap_same {A B C : Type} (g : B → C) {f f' : String → A → Run (Option B)} {l l' : GoMap String A}
    (h : List.Forall₂ (fun p p' => p'.1 = p.1 ∧ mapRun (Option.map g) (f' p'.1 p'.2) = mapRun (Option.map g) (f p.1 p.2)) l l') :
    ∀ {acc acc' : GoMap String B}, acc'.map (fun p => (p.1, g p.2)) = acc.map (fun p => (p.1, g p.2)) →
    mapRun (Option.map (List.map fun p => (p.1, g p.2))) (hydrateMap f' l' acc') =
    mapRun (Option.map (List.map fun p => (p.1, g p.2))) (hydrateMap f l acc) := by
  induction h with
  | nil => intro acc acc' e; simp only [hydrateMap, mapRun, Option.map_some, e]
  | @cons p p' l l' h _ ih =>
    intro acc acc' e
    obtain ⟨k, a⟩ := p
    obtain ⟨k', a'⟩ := p'
    obtain ⟨h1, h2⟩ := h
    simp only at h1 h2
    subst h1
    unfold hydrateMap
    cases h5 : f k' a <;> cases h6 : f' k' a' <;> rw [h5, h6] at h2 <;> first | cases h2 | skip
    all_goals first | rfl | skip
    rename_i y y'
    simp only [mapRun, Run.done.injEq] at h2
    cases y with
    | none =>
      have : y' = none := by simpa using h2
      rw [this]; rfl
    | some y =>
      cases y' with
      | none => simp at h2
      | some y' =>
        simp only [Option.map_some, Option.some.injEq] at h2
        exact ih (by rw [mapSet_value, mapSet_value, e, h2])

theorem bindRun_alike {r r' : Run (Option (GoMap String HInstance))}
    (h : mapRun (Option.map (List.map fun p => (p.1, bare p.2))) r' = mapRun (Option.map (List.map fun p => (p.1, bare p.2))) r)
    {f f' : GoMap String HInstance → Run (Option Hydratable)}
    (hf : ∀ m m' : GoMap String HInstance, m'.map (fun p => (p.1, bare p.2)) = m.map (fun p => (p.1, bare p.2)) → AlikeRun (f m) (f' m')) :
    AlikeRun (bindRun r f) (bindRun r' f') := by
  cases h5 : r <;> cases h6 : r' <;> rw [h5, h6] at h <;> first | cases h | skip
  all_goals first | trivial | skip
  rename_i y y'
  simp only [mapRun, Run.done.injEq] at h
  cases y with
  | none =>
    have : y' = none := by simpa using h
    rw [this]; trivial
  | some y =>
    cases y' with
    | none => simp at h
    | some y' =>
      simp only [Option.map_some, Option.some.injEq] at h
      exact hf y y' h

theorem bindRun_same {α : Type} (r : Run (Option α)) {f f' : α → Run (Option Hydratable)} (hf : ∀ a, AlikeRun (f a) (f' a)) :
    AlikeRun (bindRun r f) (bindRun r f') := by
  cases r with
  | panic => trivial
  | loop => trivial
  | done y =>
    cases y with
    | none => trivial
    | some y => exact hf y

theorem hydrate_same (w : Hydrate.World) {fo fo' : Files} {m : GoMap String InstFile} (he : fo' = { fo with instances := m })
    (h : List.Forall₂ (fun p p' : String × InstFile => p'.1 = p.1 ∧ ∀ fo' : Files, fo'.namespaces = fo.namespaces → fo'.schemas = fo.schemas →
      ∀ k, mapRun (Option.map bare) (hydrateInstance w fo' k p'.2) = mapRun (Option.map bare) (hydrateInstance w fo k p.2)) fo.instances m) :
    AlikeRun (hydrate w fo) (hydrate w fo') := by
  subst he
  have hi := hydrateMap_same bare (f := hydrateInstance w fo) (f' := hydrateInstance w { fo with instances := m }) (h.imp fun p p' hp =>
    ⟨hp.1, by rw [hp.1]; exact hp.2 _ rfl rfl p.1⟩) (acc := []) (acc' := []) rfl
  unfold hydrate
  refine bindRun_same _ fun _ => bindRun_same _ fun _ => bindRun_same _ fun _ => bindRun_same _ fun _ => bindRun_same _ fun _ => ?_
  refine bindRun_alike hi fun m m' hm => ?_
  cases w.registry with
  | none => trivial
  | some r =>
    refine bindRun_same _ fun _ => ⟨⟨_, rfl⟩, ?_⟩
    have := congrArg (List.map Prod.snd) hm
    simp only [List.map_map] at this
    simp only [values, List.map_map]
    exact this

/-- Instances that refer to the same schemas and are hydrated alike. -/
def AlikeFiles (o : Hydrate.World) (i i' : InstFile) : Prop :=
  i'.schemaRef = i.schemaRef ∧ ∀ w, Varies o w → ∀ fo fo' : Files, fo'.namespaces = fo.namespaces → fo'.schemas = fo.schemas → ∀ k,
    mapRun (Option.map bare) (hydrateInstance w fo' k i') = mapRun (Option.map bare) (hydrateInstance w fo k i)

theorem disk_alike {o : Hydrate.World} {d d' : Disk} (hent : d'.entryName = d.entryName) (himg : d'.images = d.images)
    (hex : d'.fileExists = d.fileExists) (hdoc : d'.doc = d.doc) (hurl : d'.isUrl = d.isUrl)
    (h0 : ∀ n, d'.read n = d.read n ∨ ∃ x x' i i', d.read n = some x ∧ d'.read n = some x' ∧
      instanceFile x = some i ∧ instanceFile x' = some i' ∧ AlikeFiles o i i') : AlikeDisk o d d' := by
  have loc : ∀ {x i}, instanceFile x = some i → x.name.loc = "xbrl" := fun {x i} hx => ((C99_instance x).2 i).1 hx |>.1
  have schemas : ∀ n, (d'.read n).bind schemaFile = (d.read n).bind schemaFile := by
    intro n
    rcases h0 n with e | ⟨x, x', i, i', e1, e2, e3, e4, _⟩
    · rw [e]
    · rw [e1, e2]
      simp only [Option.bind_some, schemaFile, loc e3, loc e4]
      rfl
  have env : d'.env = d.env := by
    have r1 : (fun n => (d'.read n).bind fun x => (instanceFile x).map fun i => (⟨i.schemaRef, 0⟩ : Disc.InstanceFile)) =
        fun n => (d.read n).bind fun x => (instanceFile x).map fun i => ⟨i.schemaRef, 0⟩ := by
      funext n
      rcases h0 n with e | ⟨x, x', i, i', e1, e2, e3, e4, e5⟩
      · rw [e]
      · rw [e1, e2]
        simp only [Option.bind_some, e3, e4, Option.map_some, e5.1]
    have r2 : (fun n => (d'.read n).bind discoveredSchema) = fun n => (d.read n).bind discoveredSchema := by
      funext n
      rcases h0 n with e | ⟨x, x', i, i', e1, e2, e3, e4, _⟩
      · rw [e]
      · rw [e1, e2]
        simp only [Option.bind_some, discoveredSchema, loc e3, loc e4]
        rfl
    have r3 : (fun kind n => (d'.read n).bind (linkbaseFile kind)) = fun kind n => (d.read n).bind (linkbaseFile kind) := by
      funext kind n
      rcases h0 n with e | ⟨x, x', i, i', e1, e2, e3, e4, _⟩
      · rw [e]
      · rw [e1, e2]
        simp only [Option.bind_some, linkbaseFile, loc e3, loc e4]
        rfl
    unfold Disk.env
    rw [r1, r2, r3, hent, himg, hex, hdoc, hurl]
  refine ⟨hent, himg, schemas, fun fuel sched hp => ⟨sched, hp, ?_, fun h => env ▸ h⟩⟩
  rw [env]
  cases Disc.discover d.env fuel sched with
  | none => trivial
  | some r =>
    cases r with
    | err m => rfl
    | panic => trivial
    | ok fo =>
      refine ⟨⟨fo.instances, rfl⟩, fun w hw => ?_⟩
      refine hydrate_same w (m := fo.instances.filterMap fun e => ((d'.read e.1).bind instanceFile).map fun x => (e.1, x)) ?_ ?_
      · simp only [filesOf, schemas]
      · show List.Forall₂ _ (fo.instances.filterMap fun e => ((d.read e.1).bind instanceFile).map fun x => (e.1, x)) _
        generalize filesOf d fo = fs
        generalize fo.instances = l
        induction l with
        | nil => exact .nil
        | cons p l ih =>
          rcases h0 p.1 with e | ⟨x, x', i, i', e1, e2, e3, e4, e5⟩
          · simp only [List.filterMap_cons, e]
            cases ((d.read p.1).bind instanceFile) with
            | none => exact ih
            | some x => exact .cons ⟨rfl, fun fo' hn hc k => by
                simp only [hydrateInstance, instanceWorld, queryEnv, hn, hc]⟩ ih
          · simp only [List.filterMap_cons, e1, e2, Option.bind_some, e3, e4, Option.map_some]
            exact .cons ⟨rfl, fun fo' hn hc k => e5.2 w hw fs fo' hn hc k⟩ ih

theorem disk_same {o : Hydrate.World} {d d' : Disk} (h : RespelledDisk o.tokens d d') : AlikeDisk o d d' := by
  refine disk_alike h.entry h.images h.exist h.doc h.url fun n => ?_
  rcases h.read n with e | ⟨x, x', i, i', e1, e2, e3, e4, e5, e6, e7⟩
  · exact .inl e
  · refine .inr ⟨x, x', i, i', e1, e2, (isInstance_iff x i e3).1 e5, (isInstance_iff x' i' e4).1 e6, e7.schemaRef, fun w hw fo fo' hn hc k => ?_⟩
    have ht : w.tokens = o.tokens := by obtain ⟨p, q, c, n, l, s, t, e⟩ := hw; rw [e]
    exact instance_same w hn hc k (ht ▸ e7)

/-- **C164**: every answer to a request is also an answer if other prefixes are used in the instances. -/
theorem C164_answers (site site' : Site) (hs : Respelled site site') (r : Req) (o : Out Loaded Store.Bytes Unit)
    (h : Direct (backend site) r o) : Direct (backend site') r o :=
  direct_alike ⟨hs.eq, fun folder => disk_same (hs.disk folder)⟩ h

/-! The relation is symmetric. -/

theorem forall₂_swap {α β : Type} {R : α → β → Prop} {S : β → α → Prop} (h : ∀ a b, R a b → S b a) {l : List α} {l' : List β}
    (hl : List.Forall₂ R l l') : List.Forall₂ S l' l := by
  induction hl with
  | nil => exact .nil
  | cons h1 _ ih => exact .cons (h _ _ h1) ih

theorem Spec.SameAttr.swap {tl tl' : List Attr} (a a' : Attr) (h : SameAttr tl tl' a a') : SameAttr tl' tl a' a :=
  ⟨h.1.symm, fun e => (h.2.1 (h.1 ▸ e)).symm, fun e => (h.2.2 (h.1 ▸ e)).symm⟩

theorem Spec.SameTok.swap {tl tl' : List Attr} (a a' : Tok) (h : SameTok tl tl' a a') : SameTok tl' tl a' a := by
  cases h with
  | start n n' h => exact .start _ _ h.symm
  | stop n n' h => exact .stop _ _ h.symm
  | text s => exact .text s
  | other => exact .other

theorem Spec.SameDims.swap {tokens : String → Stream} {tl tl' : List Attr} (a a' : DimElem) (h : SameDims tokens tl tl' a a') :
    SameDims tokens tl' tl a' a :=
  ⟨forall₂_swap (fun _ _ h => ⟨forall₂_swap SameAttr.swap h.1, h.2.symm⟩) h.explicit,
   forall₂_swap (fun _ _ h => ⟨forall₂_swap SameAttr.swap h.1, ⟨forall₂_swap SameTok.swap h.2.toks, h.2.eof.symm⟩⟩) h.typed⟩

theorem Spec.SameCtx.swap {tokens : String → Stream} {tl tl' : List Attr} (a a' : CtxElem) (h : SameCtx tokens tl tl' a a') :
    SameCtx tokens tl' tl a' a :=
  ⟨h.space.symm, h.attrs.symm, forall₂_swap (fun _ _ h => ⟨h.1.symm, forall₂_swap SameDims.swap h.2⟩) h.entities, h.periods.symm,
   forall₂_swap SameDims.swap h.scenarios⟩

theorem Spec.SameUnit.swap {tl tl' : List Attr} (a a' : UnitElem) (h : SameUnit tl tl' a a') : SameUnit tl' tl a' a :=
  have s : ∀ q q', SameName tl tl' q q' → SameName tl' tl q' q := fun _ _ h => h.symm
  ⟨h.space.symm, h.attrs.symm, forall₂_swap s h.measures,
   forall₂_swap (fun _ _ h => ⟨forall₂_swap (fun _ _ h => forall₂_swap s h) h.1, forall₂_swap (fun _ _ h => forall₂_swap s h) h.2⟩) h.divides⟩

theorem Spec.SameFile.swap {tokens : String → Stream} (a a' : InstFile) (h : SameFile tokens a a') : SameFile tokens a' a :=
  ⟨h.schemaRef.symm, forall₂_swap SameCtx.swap h.contexts, forall₂_swap SameUnit.swap h.units, h.footnoteLinks.symm, h.facts.symm⟩

theorem Spec.RespelledDisk.swap {tokens : String → Stream} (a a' : Disk) (h : RespelledDisk tokens a a') : RespelledDisk tokens a' a :=
  ⟨h.entry.symm, h.images.symm, h.exist.symm, h.doc.symm, h.url.symm, fun n => by
    rcases h.read n with e | ⟨x, x', i, i', e1, e2, e3, e4, e5, e6, e7⟩
    · exact .inl e.symm
    · exact .inr ⟨x', x, i', i, e2, e1, e4, e3, e6, e5, e7.swap⟩⟩

theorem Spec.Respelled.swap {site site' : Site} (h : Respelled site site') : Respelled site' site := by
  obtain ⟨⟨disk, e⟩, hd⟩ := h
  subst e
  exact ⟨⟨site.disk, rfl⟩, fun folder => (hd folder).swap⟩

/-- **C164**: the answers are the same whatever prefixes are used in the instances. -/
theorem C164_prefixes (site site' : Site) (hs : Respelled site site') (r : Req) (o : Out Loaded Store.Bytes Unit) :
    Direct (backend site') r o ↔ Direct (backend site) r o :=
  ⟨C164_answers site' site hs.swap r o, C164_answers site site' hs r o⟩

/-- `moneyXml` with another prefix for currencies, and with shares in the default namespace. -/
def respelledXml : Xml :=
  .mk ⟨XBRLI, "xbrl"⟩ [⟨⟨"", "xmlns"⟩, XBRLI⟩, ⟨⟨"xmlns", "cur"⟩, "http://iso"⟩] "" "" [
    .mk ⟨LINK, "schemaRef"⟩ [⟨⟨XLINK, "href"⟩, "x.xsd"⟩] "" "" [],
    moneyContext "c" "2020-12-31", moneyContext "d" "2021-12-31", moneyContext "e" "2022-12-31",
    moneyFact "c" "usd" "f1", moneyFact "d" "ps" "f2", moneyFact "e" "gone" "f3",
    moneyUnit "usd" [moneyMeasure "cur:USD"],
    moneyUnit "ps" [.mk ⟨XBRLI, "divide"⟩ [] "" "" [
      .mk ⟨XBRLI, "unitNumerator"⟩ [] "" "" [moneyMeasure "cur:USD"],
      .mk ⟨XBRLI, "unitDenominator"⟩ [] "" "" [moneyMeasure "shares"]]],
    moneyLink [moneyLoc "#f1" "l1", moneyLoc "#f2" "l2", moneyNote "n1" "restated", moneyNote "n2" "unaudited",
      moneyArc "l1" "n1", moneyArc "l2" "n2"]]

def respelledSite : Site :=
  { moneySite with disk := fun _ => { moneyDisk with read := fun n => if n = "r.xml" then some respelledXml else moneyDisk.read n } }

theorem sameName_of {tl tl' : List Attr} {q q' : String} (n : XName) (h0 : n.loc ≠ "") (h : xmlns tl q = n) (h' : xmlns tl' q' = n) :
    SameName tl tl' q q' := ⟨n, h0, (C01_xmlns_resolves tl q n).1 h, (C01_xmlns_resolves tl' q' n).1 h'⟩

/-- C164 is about reports that are served (Props/Money.lean). -/
example : Respelled moneySite respelledSite := by
  refine ⟨⟨_, rfl⟩, fun _ => ⟨rfl, rfl, rfl, rfl, rfl, fun n => ?_⟩⟩
  by_cases h : n = "r.xml"
  · subst h
    refine .inr ⟨moneyXml, respelledXml, (instanceFile moneyXml).get (by decide +kernel), (instanceFile respelledXml).get (by decide +kernel),
      rfl, rfl, rfl, rfl, (isInstance_iff _ _ rfl).2 (by simp), (isInstance_iff _ _ rfl).2 (by simp), ?_⟩
    have usd : SameName moneyXml.attrs respelledXml.attrs "iso4217:USD" "cur:USD" :=
      sameName_of ⟨"http://iso", "USD"⟩ (by decide) (by decide +kernel) (by decide +kernel)
    have shares : SameName moneyXml.attrs respelledXml.attrs "xbrli:shares" "shares" :=
      sameName_of ⟨XBRLI, "shares"⟩ (by decide) (by decide +kernel) (by decide +kernel)
    have ctx : ∀ r day, SameCtx moneyWorld.tokens moneyXml.attrs respelledXml.attrs (context (moneyContext r day)) (context (moneyContext r day)) :=
      fun r day => ⟨rfl, rfl, .cons ⟨rfl, .nil⟩ .nil, rfl, .nil⟩
    exact ⟨rfl, .cons (ctx ..) (.cons (ctx ..) (.cons (ctx ..) .nil)),
      .cons ⟨rfl, rfl, .cons usd .nil, .nil⟩ (.cons ⟨rfl, rfl, .nil, .cons ⟨.cons (.cons usd .nil) .nil, .cons (.cons shares .nil) .nil⟩ .nil⟩ .nil),
      rfl, rfl⟩
  · exact .inl (by simp [respelledSite, h, moneySite])

/-- Contexts with an explicit and a typed member. -/
example (tokens : String → Stream) (t1 : tokens "<d:Dom>7</d:Dom>" = ⟨[.start ⟨"d", "Dom"⟩, .text "7", .stop ⟨"d", "Dom"⟩], true⟩)
    (t2 : tokens "<e:Dom>7</e:Dom>" = ⟨[.start ⟨"e", "Dom"⟩, .text "7", .stop ⟨"e", "Dom"⟩], true⟩) :
    SameDims tokens [⟨⟨"xmlns", "d"⟩, "http://d"⟩] [⟨⟨"xmlns", "e"⟩, "http://d"⟩]
      ⟨[⟨[⟨⟨"", "dimension"⟩, "d:Axis"⟩], "d:Member"⟩], [⟨[⟨⟨"", "dimension"⟩, "d:Typed"⟩], "<d:Dom>7</d:Dom>"⟩]⟩
      ⟨[⟨[⟨⟨"", "dimension"⟩, "e:Axis"⟩], "e:Member"⟩], [⟨[⟨⟨"", "dimension"⟩, "e:Typed"⟩], "<e:Dom>7</e:Dom>"⟩]⟩ := by
  have nm : ∀ l : String, l ≠ "" → xmlns [⟨⟨"xmlns", "d"⟩, "http://d"⟩] ("d:" ++ l) = ⟨"http://d", l⟩ →
      xmlns [⟨⟨"xmlns", "e"⟩, "http://d"⟩] ("e:" ++ l) = ⟨"http://d", l⟩ →
      SameName [⟨⟨"xmlns", "d"⟩, "http://d"⟩] [⟨⟨"xmlns", "e"⟩, "http://d"⟩] ("d:" ++ l) ("e:" ++ l) :=
    fun l h0 h h' => sameName_of ⟨"http://d", l⟩ h0 h h'
  refine ⟨.cons ⟨.cons ⟨rfl, fun _ => nm "Axis" (by decide) (by decide +kernel) (by decide +kernel), fun h => absurd rfl h⟩ .nil,
    nm "Member" (by decide) (by decide +kernel) (by decide +kernel)⟩ .nil,
    .cons ⟨.cons ⟨rfl, fun _ => nm "Typed" (by decide) (by decide +kernel) (by decide +kernel), fun h => absurd rfl h⟩ .nil, ?_⟩ .nil⟩
  have dom := nm "Dom" (by decide) (by decide +kernel) (by decide +kernel)
  exact ⟨by rw [t1, t2]; exact .cons (.start _ _ dom) (.cons (.text _) (.cons (.stop _ _ dom) .nil)), by rw [t1, t2]⟩

end Telefacts
