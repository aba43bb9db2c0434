import Verif.Props.Reload
import Verif.Props.SameCell
/-! # Two loads of a folder: the hydrated parts -/
namespace Telefacts
open Telefacts.Hydrate Telefacts.Decode Telefacts.Schema Telefacts.Instance Telefacts.Linkbase Telefacts.Render

/-- Folders with the same queries. -/
structure SameEnv (h h' : Env) : Prop where
  ns : Disc.SameMap h.namespaces h'.namespaces
  schemas : Disc.SameMap h.schemas h'.schemas
  url : h.validUrl = h'.validUrl
  disc : h.discover = h'.discover

variable {h h' : Env}

theorem SameEnv.conceptsAt (e : SameEnv h h') (loc : String) : conceptsAt h loc = conceptsAt h' loc := by
  unfold Schema.conceptsAt globalSchema
  rw [e.url, e.disc, e.schemas]

theorem SameEnv.nameQuery (e : SameEnv h h') (s l : String) : nameQuery h s l = nameQuery h' s l := by
  unfold Schema.nameQuery
  simp only [e.ns s, e.conceptsAt]

theorem SameEnv.hash (e : SameEnv h h') (o o' : GoMap String String) (q : String) :
    (match hashQuery h o q with | .ok p => some p.2 | _ => none) = (match hashQuery h' o' q with | .ok p => some p.2 | _ => none) := by
  refine Eq.trans ?_ (hashQuery_concept h' o o' q)
  unfold hashQuery
  simp only [e.conceptsAt]
  rfl

variable {w w' : Instance.World}

/-- Instances are hydrated with the same queries. -/
structure SameInst (w w' : Instance.World) : Prop where
  env : SameEnv w.env w'.env
  tl : w.tl = w'.tl
  tokens : w.tokens = w'.tokens
  trim : w.trim = w'.trim

theorem SameInst.step (e : SameInst w w') (dim : Concept) (st : WalkState) (t : Tok) : walkStep w dim st t = walkStep w' dim st t := by
  cases t <;> simp only [walkStep, e.tl, e.trim, e.env.nameQuery]

theorem SameInst.walk (e : SameInst w w') (dim : Concept) (eof : Bool) (ts : List Tok) : ∀ st, walk w dim st eof ts = walk w' dim st eof ts := by
  induction ts with
  | nil => intro st; rfl
  | cons t ts ih =>
    intro st
    simp only [Instance.walk, e.step]
    split <;> first | rfl | exact ih _

theorem SameInst.typedMembers (e : SameInst w w') (d s : String) : hydrateTypedMembers w d s = hydrateTypedMembers w' d s := by
  unfold hydrateTypedMembers hashQuery
  simp only [e.env.conceptsAt, e.tokens]
  cases cut '#' d with
  | none => rfl
  | some p =>
    simp only
    by_cases h1 : p.1 = ""
    · simp only [if_pos h1]
    · by_cases h2 : p.2 = ""
      · simp only [if_neg h1, if_pos h2]
      · simp only [if_neg h1, if_neg h2]
        cases Schema.conceptsAt w'.env p.1 with
        | err m => rfl
        | panic => rfl
        | ok cs =>
          simp only
          cases cs.find? (fun c => decide (p.2 = c.id)) with
          | none => rfl
          | some c => exact e.walk _ _ _ _

theorem SameInst.lookup (e : SameInst w w') (q : String) : lookup w q = lookup w' q := by
  unfold Instance.lookup
  simp only [e.tl, e.env.nameQuery]

theorem SameInst.dims (e : SameInst w w') (b : Bool) (ds : List DimElem) : hydrateDims w b ds = hydrateDims w' b ds := by
  cases ds with
  | nil => rfl
  | cons d ds =>
    have h1 : typedMember w b = typedMember w' b := by
      funext m
      unfold typedMember
      simp only [e.lookup, e.typedMembers]
    have h2 : explicitMember w b = explicitMember w' b := by
      funext m
      unfold explicitMember
      simp only [e.lookup]
    unfold hydrateDims
    rw [h1, h2]

theorem SameInst.contexts (e : SameInst w w') (es : List CtxElem) : hydrateContexts w es = hydrateContexts w' es := by
  have : hydrateContext w = hydrateContext w' := by
    funext c
    unfold hydrateContext
    simp only [e.dims]
  unfold hydrateContexts
  rw [this]

theorem SameInst.facts (e : SameInst w w') (es : List FactElem) : hydrateFacts w es = hydrateFacts w' es := by
  have : hydrateFact w = hydrateFact w' := by
    funext c
    unfold hydrateFact
    simp only [e.env.nameQuery]
  unfold hydrateFacts
  rw [this]

/-! ## Maps -/

theorem sameMap_of {A B B' : Type} {f : String → A → Run (Option B)} {f' : String → A → Run (Option B')} {m m' : GoMap String A}
    (wf : MapWF m) (wf' : MapWF m') (hm : Disc.SameMap m m') {r : GoMap String B} {r' : GoMap String B'}
    (h : hydrateMap f m [] = .done (some r)) (h' : hydrateMap f' m' [] = .done (some r')) (k : String) :
    (mapGet r k = none ∧ mapGet r' k = none) ∨
      ∃ a b b', mapGet m k = some a ∧ mapGet r k = some b ∧ mapGet r' k = some b' ∧ f k a = .done (some b) ∧ f' k a = .done (some b') := by
  obtain ⟨_, h1, h2⟩ := hydrateMap_entries wf h
  obtain ⟨_, h1', h2'⟩ := hydrateMap_entries wf' h'
  cases hk : mapGet m k with
  | none =>
    refine .inl ⟨?_, ?_⟩
    · cases hr : mapGet r k with
      | none => rfl
      | some b => obtain ⟨a, ha, _⟩ := h2 k b hr; rw [hk] at ha; cases ha
    · cases hr : mapGet r' k with
      | none => rfl
      | some b => obtain ⟨a, ha, _⟩ := h2' k b hr; rw [← hm k, hk] at ha; cases ha
  | some a =>
    obtain ⟨b, hb, hf⟩ := h1 k a hk
    obtain ⟨b', hb', hf'⟩ := h1' k a (by rw [← hm k, hk])
    exact .inr ⟨a, b, b', rfl, hb, hb', hf, hf'⟩

theorem sameMap_fun {A B : Type} {f : String → A → Run (Option B)} {m m' : GoMap String A}
    (wf : MapWF m) (wf' : MapWF m') (hm : Disc.SameMap m m') {r r' : GoMap String B}
    (h : hydrateMap f m [] = .done (some r)) (h' : hydrateMap f m' [] = .done (some r')) : Disc.SameMap r r' := by
  intro k
  rcases sameMap_of wf wf' hm h h' k with ⟨a, b⟩ | ⟨a, b, b', _, hb, hb', e, e'⟩
  · rw [a, b]
  · rw [e] at e'
    cases e'
    rw [hb, hb']

theorem sameMap_perm {V : Type} {m m' : GoMap String V} (wf : MapWF m) (wf' : MapWF m') (h : Disc.SameMap m m') : m.Perm m' := by
  refine (List.perm_ext_iff_of_nodup ?_ ?_).2 fun e => ?_
  · exact List.Nodup.of_map _ wf
  · exact List.Nodup.of_map _ wf'
  · obtain ⟨k, v⟩ := e
    rw [← mapGet_iff_mem wf, ← mapGet_iff_mem wf', h k]

end Telefacts
