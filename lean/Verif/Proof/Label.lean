import Verif.Spec.Label
import Verif.Proof.Catalog
/-! # Lemmas on labels and languages -/
namespace Telefacts.Render
open Telefacts.Linkbase Telefacts.Spec

/-! ## `GetLabel` -/

theorem getText_setText (p : LabelPack) (r r' l l' s : String) :
    getText (setText p r l s) r' l' = if r = r' ∧ l = l' then some s else getText p r' l' := by
  unfold getText setText
  rw [mapGet_mapSet]
  by_cases hr : r = r'
  · subst hr
    rw [if_pos rfl]
    show mapGet (mapSet ((mapGet p r).getD []) l s) l' = _
    rw [mapGet_mapSet]
    by_cases hl : l = l'
    · simp [hl]
    · rw [if_neg hl, if_neg (by simp [hl])]
      cases mapGet p r <;> simp
  · rw [if_neg hr, if_neg (by simp [hr])]

theorem getText_ensureRole (p : LabelPack) (r r' l' : String) : getText (ensureRole p r) r' l' = getText p r' l' := by
  unfold ensureRole getText
  cases h : mapGet p r with
  | some x => simp
  | none =>
    simp only
    rw [mapGet_mapSet]
    by_cases hr : r = r'
    · subst hr; simp [h]
    · rw [if_neg hr]

theorem hasRole_setText (p : LabelPack) (r l s r' : String) :
    r' ∈ mapKeys (setText p r l s) ↔ r' = r ∨ r' ∈ mapKeys p := by
  unfold setText; rw [mem_mapKeys_mapSet]

theorem hasRole_ensureRole (p : LabelPack) (r r' : String) :
    r' ∈ mapKeys (ensureRole p r) ↔ r' = r ∨ r' ∈ mapKeys p := by
  unfold ensureRole
  cases h : mapGet p r with
  | some x =>
    have := (mapGet_isSome p r).1 ⟨x, h⟩
    constructor
    · exact .inr
    · rintro (rfl | h)
      · exact this
      · exact h
  | none => simp only; rw [mem_mapKeys_mapSet]

theorem PackWF.mapSet {p : LabelPack} (h : PackWF p) (r : String) {l : LanguagePack} (hl : MapWF l) :
    PackWF (mapSet p r l) := by
  refine ⟨h.1.mapSet r l, ?_⟩
  rintro ⟨k, v⟩ he
  have := (mapGet_iff_mem (h.1.mapSet r l)).2 he
  rw [mapGet_mapSet] at this
  split at this
  · cases this; exact hl
  · exact h.2 _ (mem_of_mapGet this)

theorem PackWF.setText {p : LabelPack} (h : PackWF p) (r l s : String) : PackWF (setText p r l s) := by
  unfold Render.setText
  refine h.mapSet r (MapWF.mapSet ?_ l s)
  cases hm : mapGet p r with
  | none => exact MapWF.nil
  | some x => exact h.2 _ (mem_of_mapGet hm)

theorem PackWF.ensureRole {p : LabelPack} (h : PackWF p) (r : String) : PackWF (ensureRole p r) := by
  unfold Render.ensureRole
  cases hm : mapGet p r with
  | none => exact h.mapSet r MapWF.nil
  | some x => exact h

theorem PackWF.appendLanguage {p : LabelPack} (h : PackWF p) (lang role chars : String) :
    PackWF (appendLanguage lang role chars p) := by
  unfold Render.appendLanguage
  split
  · exact h
  split
  · exact h.setText ..
  split
  · exact h.setText ..
  · exact h

theorem PackWF.applyLabel {p : LabelPack} (h : PackWF p) (l : Label) : PackWF (applyLabel p l) := by
  unfold Render.applyLabel
  split
  · exact (h.ensureRole _).appendLanguage ..
  split
  · exact (h.ensureRole _).appendLanguage ..
  split
  · exact (h.ensureRole _).appendLanguage ..
  · exact h

theorem getText_appendLanguage (lang role chars role' lang' : String) (p : LabelPack) :
    getText (appendLanguage lang role chars p) role' lang' =
      if role = role' ∧ ((lang = "en-US" ∧ lang' = "en - english") ∨ (lang = "es" ∧ lang' = "es - español"))
      then some chars else getText p role' lang' := by
  unfold appendLanguage
  by_cases h1 : lang = "en"
  · rw [if_pos h1, if_neg]
    rintro ⟨_, ⟨h, _⟩ | ⟨h, _⟩⟩ <;> rw [h1] at h <;> revert h <;> decide
  · rw [if_neg h1]
    by_cases h2 : lang = "en-US"
    · rw [if_pos h2, getText_setText]
      subst h2
      have : ("en-US" : String) ≠ "es" := by decide
      simp [this, English, eq_comm]
    · rw [if_neg h2]
      by_cases h3 : lang = "es"
      · rw [if_pos h3, getText_setText]
        simp [h3, Espanol, eq_comm]
      · rw [if_neg h3, if_neg]
        rintro ⟨_, ⟨h, _⟩ | ⟨h, _⟩⟩
        · exact h2 h
        · exact h3 h

theorem keys_appendLanguage (lang role chars role' : String) (p : LabelPack) (h : role ∈ mapKeys p) :
    role' ∈ mapKeys (appendLanguage lang role chars p) ↔ role' ∈ mapKeys p := by
  unfold appendLanguage
  split
  · rfl
  split
  · rw [hasRole_setText]; constructor
    · rintro (rfl | h) <;> assumption
    · exact .inr
  split
  · rw [hasRole_setText]; constructor
    · rintro (rfl | h) <;> assumption
    · exact .inr
  · rfl

/-- `applyLabel` with the role found. -/
theorem applyLabel_cases (p : LabelPack) (l : Label) :
    (∃ role, (∀ r, HasLabelRole l r ↔ r = role) ∧ applyLabel p l = appendLanguage l.lang role l.chars (ensureRole p role)) ∨
      ((∀ r, ¬ HasLabelRole l r) ∧ applyLabel p l = p) := by
  unfold applyLabel HasLabelRole LabelRoleURI TerseLabelURI VerboseLabelURI
  have e1 : ("http://www.xbrl.org/2003/role/label" : String) ≠ "http://www.xbrl.org/2003/role/terseLabel" := by decide
  have e2 : ("http://www.xbrl.org/2003/role/label" : String) ≠ "http://www.xbrl.org/2003/role/verboseLabel" := by decide
  have e3 : ("http://www.xbrl.org/2003/role/terseLabel" : String) ≠ "http://www.xbrl.org/2003/role/verboseLabel" := by decide
  by_cases h1 : l.role = "http://www.xbrl.org/2003/role/label"
  · rw [if_pos h1]
    exact .inl ⟨Default, by intro r; simp [h1, e1, e2, Default], rfl⟩
  · rw [if_neg h1]
    by_cases h2 : l.role = "http://www.xbrl.org/2003/role/terseLabel"
    · rw [if_pos h2]
      exact .inl ⟨Terse, by intro r; simp [h2, e1.symm, e3, Terse], rfl⟩
    · rw [if_neg h2]
      by_cases h3 : l.role = "http://www.xbrl.org/2003/role/verboseLabel"
      · rw [if_pos h3]
        exact .inl ⟨Verbose, by intro r; simp [h3, e2.symm, e3.symm, Verbose], rfl⟩
      · rw [if_neg h3]
        exact .inr ⟨by intro r; simp [h1, h2, h3], rfl⟩

theorem getText_applyLabel_pos (p : LabelPack) {l : Label} {role lang : String} (h1 : HasLabelRole l role)
    (h2 : InLang l lang) : getText (applyLabel p l) role lang = some l.chars := by
  rcases applyLabel_cases p l with ⟨r, hr, he⟩ | ⟨hr, _⟩
  · rw [he, getText_appendLanguage, if_pos ⟨((hr role).1 h1).symm, h2⟩]
  · exact absurd h1 (hr role)

theorem getText_applyLabel_neg (p : LabelPack) {l : Label} {role lang : String}
    (h : ¬ (HasLabelRole l role ∧ InLang l lang)) : getText (applyLabel p l) role lang = getText p role lang := by
  rcases applyLabel_cases p l with ⟨r, hr, he⟩ | ⟨_, he⟩
  · rw [he, getText_appendLanguage, if_neg, getText_ensureRole]
    rintro ⟨rfl, h2⟩
    exact h ⟨(hr r).2 rfl, h2⟩
  · rw [he]

theorem keys_applyLabel (p : LabelPack) (l : Label) (role : String) :
    role ∈ mapKeys (applyLabel p l) ↔ HasLabelRole l role ∨ role ∈ mapKeys p := by
  rcases applyLabel_cases p l with ⟨r, hr, he⟩ | ⟨hr, he⟩
  · rw [he, keys_appendLanguage, hasRole_ensureRole, hr]
    rw [hasRole_ensureRole]; exact .inl rfl
  · rw [he]; simp [hr]

/-! the loops -/

theorem foldl_if {α β : Type} (f : β → α → β) (q : α → Prop) [DecidablePred q] (l : List α) (b : β) :
    l.foldl (fun b x => if q x then f b x else b) b = (l.filter fun x => decide (q x)).foldl f b := by
  induction l generalizing b with
  | nil => rfl
  | cons x xs ih =>
    simp only [List.foldl_cons, List.filter_cons]
    by_cases h : q x
    · simp [h, ih]
    · simp [h, ih]

theorem foldl_flatMap' {α β γ : Type} (f : γ → β → γ) (g : α → List β) (l : List α) (b : γ) :
    (l.flatMap g).foldl f b = l.foldl (fun b x => (g x).foldl f b) b := by
  induction l generalizing b with
  | nil => rfl
  | cons x xs ih => simp only [List.flatMap_cons, List.foldl_append, List.foldl_cons, ih]

theorem getLabel_eq (lbs : List (List LabelLink)) (href : String) :
    getLabel lbs href = (labelsOf lbs href).foldl applyLabel (hrefPack href) := by
  unfold getLabel appendLabels labelsOf
  rw [foldl_flatMap']
  have : ∀ (lbs : List (List LabelLink)) (p : LabelPack),
      lbs.foldl (fun p links => links.foldl (locsLoop href) p) p = lbs.flatten.foldl (locsLoop href) p := by
    intro lbs
    induction lbs with
    | nil => intro p; rfl
    | cons x xs ih => intro p; simp only [List.foldl_cons, List.flatten_cons, List.foldl_append, ih]
  rw [this]
  congr 1
  funext p lk
  unfold locsLoop
  rw [foldl_if (fun (p : LabelPack) (loc : Loc) => arcsLoop lk loc.label p), foldl_flatMap']
  congr 1
  funext p loc
  unfold arcsLoop
  rw [foldl_if (fun (p : LabelPack) (a : LArc) => labelsLoop a.to lk.labels p), foldl_flatMap']
  congr 1
  funext p a
  unfold labelsLoop
  rw [foldl_if applyLabel]

theorem hrefPack_eq (href : String) :
    hrefPack href = match cut '#' href with
      | none => [("Default", [("Unlabelled", href)])]
      | some (_, frag) => [("Default", [("Unlabelled", href), ("Truncated", "#" ++ frag)])] := by
  unfold hrefPack
  cases cut '#' href with
  | none => rfl
  | some p => rfl

theorem hrefPack_text (href role lang t : String) :
    getText (hrefPack href) role lang = some t ↔ HrefText href role lang t := by
  rw [hrefPack_eq]
  unfold HrefText getText
  have e1 : ("Unlabelled" : String) ≠ "Truncated" := by decide
  cases hc : cut '#' href with
  | none =>
    have hno := cut_eq_none.1 hc
    simp only [mapGet]
    by_cases hr : role = "Default"
    · subst hr
      simp only [if_pos, true_and]
      by_cases hl : lang = "Unlabelled"
      · subst hl
        simp [e1, eq_comm, mapGet]
      · simp only [mapGet]
        rw [if_neg (Ne.symm hl)]
        simp only [hl, false_and, false_or]
        constructor
        · intro h; simp at h
        · rintro ⟨_, base, frag, rfl, _, _⟩
          simp at hno
    · rw [if_neg (Ne.symm hr)]; simp [hr]
  | some bf =>
    obtain ⟨base, frag⟩ := bf
    obtain ⟨h1, h2⟩ := cut_eq_some.1 hc
    simp only [mapGet]
    by_cases hr : role = "Default"
    · subst hr
      simp only [if_pos, true_and]
      by_cases hl : lang = "Unlabelled"
      · subst hl
        simp [e1, eq_comm, mapGet]
      · simp only [mapGet]
        rw [if_neg (Ne.symm hl)]
        simp only [hl, false_and, false_or]
        by_cases hl2 : lang = "Truncated"
        · subst hl2
          simp only [if_pos, Option.some.injEq, true_and]
          constructor
          · rintro rfl; exact ⟨base, frag, h1, h2, rfl⟩
          · rintro ⟨b', f', h3, h4, rfl⟩
            have := cut_eq_some.2 ⟨h3, h4⟩
            rw [hc] at this
            cases this; rfl
        · rw [if_neg (Ne.symm hl2)]; simp [hl2]
    · rw [if_neg (Ne.symm hr)]; simp [hr]

theorem hrefPack_keys (href role : String) : role ∈ mapKeys (hrefPack href) ↔ role = "Default" := by
  rw [hrefPack_eq]
  cases cut '#' href <;> simp [mapKeys]

theorem hrefPack_wf (href : String) : PackWF (hrefPack href) := by
  have e1 : ("Unlabelled" : String) ≠ "Truncated" := by decide
  rw [hrefPack_eq]
  cases cut '#' href <;> simp [PackWF, MapWF, mapKeys]

/-- What a fold of `applyLabel` leaves in the pack. -/
theorem foldl_applyLabel (ls : List Label) (p : LabelPack) (role lang t : String) :
    getText (ls.foldl applyLabel p) role lang = some t ↔
      (∃ l, LastWith (fun l => HasLabelRole l role ∧ InLang l lang) ls l ∧ t = l.chars) ∨
      ((∀ l ∈ ls, ¬ (HasLabelRole l role ∧ InLang l lang)) ∧ getText p role lang = some t) := by
  induction ls using snocInd with
  | nil =>
    simp only [List.foldl_nil, List.not_mem_nil, false_implies, implies_true, true_and]
    constructor
    · exact .inr
    · rintro (⟨l, h, _⟩ | h)
      · exact absurd h (not_lastWith_nil l)
      · exact h
  | snoc ls x ih =>
    rw [List.foldl_append, List.foldl_cons, List.foldl_nil]
    by_cases hx : HasLabelRole x role ∧ InLang x lang
    · rw [getText_applyLabel_pos _ hx.1 hx.2]
      constructor
      · intro h; exact .inl ⟨x, lastWith_append_singleton.2 (.inl ⟨hx, rfl⟩), (Option.some.inj h).symm⟩
      · rintro (⟨l, hl, rfl⟩ | ⟨h, _⟩)
        · rcases lastWith_append_singleton.1 hl with ⟨_, rfl⟩ | ⟨h, _⟩
          · rfl
          · exact absurd hx h
        · exact absurd hx (h x (by simp))
    · rw [getText_applyLabel_neg _ hx, ih]
      constructor
      · rintro (⟨l, hl, rfl⟩ | ⟨h, hp⟩)
        · exact .inl ⟨l, lastWith_append_singleton.2 (.inr ⟨hx, hl⟩), rfl⟩
        · refine .inr ⟨?_, hp⟩
          intro l hl
          rcases List.mem_append.1 hl with hl | hl
          · exact h l hl
          · simp at hl; exact hl ▸ hx
      · rintro (⟨l, hl, rfl⟩ | ⟨h, hp⟩)
        · rcases lastWith_append_singleton.1 hl with ⟨h, _⟩ | ⟨_, h⟩
          · exact absurd h hx
          · exact .inl ⟨l, h, rfl⟩
        · exact .inr ⟨fun l hl => h l (by simp [hl]), hp⟩

theorem foldl_applyLabel_keys (ls : List Label) (p : LabelPack) (role : String) :
    role ∈ mapKeys (ls.foldl applyLabel p) ↔ (∃ l ∈ ls, HasLabelRole l role) ∨ role ∈ mapKeys p := by
  induction ls generalizing p with
  | nil => simp
  | cons x xs ih =>
    rw [List.foldl_cons, ih, keys_applyLabel]
    simp only [List.mem_cons, exists_eq_or_imp]
    constructor
    · rintro (h | h | h)
      · exact .inl (.inr h)
      · exact .inl (.inl h)
      · exact .inr h
    · rintro ((h | h) | h)
      · exact .inr (.inl h)
      · exact .inl h
      · exact .inr (.inr h)

theorem foldl_applyLabel_wf (ls : List Label) (p : LabelPack) (h : PackWF p) : PackWF (ls.foldl applyLabel p) := by
  induction ls generalizing p with
  | nil => exact h
  | cons x xs ih => exact ih _ (h.applyLabel x)

theorem getLabel_wf (lbs : List (List LabelLink)) (href : String) : PackWF (getLabel lbs href) := by
  rw [getLabel_eq]; exact foldl_applyLabel_wf _ _ (hrefPack_wf href)

theorem hasText_iff {p : LabelPack} (h : PackWF p) (role lang : String) :
    HasText p role lang ↔ ∃ t, getText p role lang = some t := by
  unfold HasText getText
  constructor
  · rintro ⟨l, hl, t, ht⟩
    rw [mapGet_of_mem h.1 hl]
    exact ⟨t, mapGet_of_mem (h.2 _ hl) ht⟩
  · rintro ⟨t, ht⟩
    cases hm : mapGet p role with
    | none => rw [hm] at ht; simp at ht
    | some l => rw [hm] at ht; exact ⟨l, mem_of_mapGet hm, t, mem_of_mapGet ht⟩

theorem hasRole_iff (p : LabelPack) (role : String) : HasRole p role ↔ role ∈ mapKeys p := by
  simp [HasRole, mapKeys]

/-! ## `reduce`, `destruct` -/

theorem copyLang (l : LanguagePack) (h : MapWF l) (k : String) :
    mapGet (l.foldl (fun m t => mapSet m t.1 t.2) []) k = mapGet l k := by
  have := fun v => Catalog.mapGet_foldl_set Prod.fst Prod.snd l k v
  have h2 : ∀ v, mapGet l k = some v ↔ ∃ x, LastWith (fun x : String × String => x.1 = k) l x ∧ x.2 = v := by
    intro v
    rw [mapGet_iff_mem h]
    constructor
    · intro hm
      obtain ⟨x, hx⟩ := lastWith_exists (fun x : String × String => x.1 = k) ⟨_, hm, rfl⟩
      obtain ⟨hxm, hk⟩ := lastWith_mem hx
      refine ⟨x, hx, ?_⟩
      have a1 := mapGet_of_mem h hm
      have a2 := mapGet_of_mem h (show (x.1, x.2) ∈ l from hxm)
      rw [hk, a1] at a2
      exact (Option.some.inj a2).symm
    · rintro ⟨x, hx, rfl⟩
      obtain ⟨hxm, rfl⟩ := lastWith_mem hx
      exact hxm
  cases hm : mapGet l k with
  | some v => exact (this v).2 ((h2 v).1 hm)
  | none =>
    cases hr : mapGet (l.foldl (fun m t => mapSet m t.1 t.2) []) k with
    | none => rfl
    | some v => rw [(h2 v).2 ((this v).1 hr)] at hm; cases hm

theorem foldl_set_wf {α V : Type} (key : α → String) (val : α → V) (l : List α) (m : GoMap String V) (h : MapWF m) :
    MapWF (l.foldl (fun m x => mapSet m (key x) (val x)) m) := by
  induction l generalizing m with
  | nil => exact h
  | cons x xs ih => exact ih _ (h.mapSet _ _)

/-- One pack of `reduce` overwrites its roles. -/
theorem reduceStep_text (ret item : LabelPack) (hi : PackWF item) (role lang : String) :
    getText (reduceStep ret item) role lang =
      if role ∈ mapKeys item then getText item role lang else getText ret role lang := by
  unfold reduceStep
  have key : ∀ (l : LabelPack) (ret : LabelPack), (∀ e ∈ l, MapWF e.2) → (mapKeys l).Nodup →
      getText (l.foldl (fun ret e => mapSet ret e.1 (e.2.foldl (fun m t => mapSet m t.1 t.2) [])) ret) role lang =
        if role ∈ mapKeys l then getText l role lang else getText ret role lang := by
    intro l
    induction l with
    | nil => intro ret _ _; simp [mapKeys]
    | cons e es ih =>
      intro ret hw hn
      obtain ⟨k, v⟩ := e
      simp only [mapKeys, List.map_cons, List.nodup_cons] at hn
      rw [List.foldl_cons, ih _ (fun e he => hw e (by simp [he])) hn.2]
      by_cases hk : k = role
      · subst hk
        rw [if_neg (show ¬ k ∈ mapKeys es from hn.1), if_pos (by simp [mapKeys])]
        unfold getText
        rw [mapGet_mapSet, if_pos rfl, mapGet_cons, if_pos rfl]
        exact copyLang v (hw (k, v) (by simp)) lang
      · have h1 : role ∈ mapKeys ((k, v) :: es) ↔ role ∈ mapKeys es := by
          simp [mapKeys, Ne.symm hk]
        by_cases h : role ∈ mapKeys es
        · rw [if_pos h, if_pos (h1.2 h)]
          unfold getText
          rw [mapGet_cons, if_neg hk]
        · rw [if_neg h, if_neg (fun hh => h (h1.1 hh))]
          unfold getText
          rw [mapGet_mapSet, if_neg hk]
  exact key item ret hi.2 hi.1

theorem reduceStep_keys (ret item : LabelPack) (role : String) :
    role ∈ mapKeys (reduceStep ret item) ↔ role ∈ mapKeys item ∨ role ∈ mapKeys ret := by
  unfold reduceStep
  induction item generalizing ret with
  | nil => simp [mapKeys]
  | cons e es ih =>
    rw [List.foldl_cons, ih, mem_mapKeys_mapSet]
    simp only [mapKeys, List.map_cons, List.mem_cons]
    constructor
    · rintro (h | h | h)
      · exact .inl (.inr h)
      · exact .inl (.inl h)
      · exact .inr h
    · rintro ((h | h) | h)
      · exact .inr (.inl h)
      · exact .inl h
      · exact .inr (.inr h)

theorem reduceStep_wf {ret : LabelPack} (item : LabelPack) (h : PackWF ret) : PackWF (reduceStep ret item) := by
  unfold reduceStep
  induction item generalizing ret with
  | nil => exact h
  | cons e es ih => exact ih (h.mapSet _ (foldl_set_wf Prod.fst Prod.snd e.2 [] MapWF.nil))

theorem reduceFold_text (packs : List LabelPack) (hw : ∀ p ∈ packs, PackWF p) (role lang t : String) :
    getText (packs.foldl reduceStep []) role lang = some t ↔
      ∃ p, LastWith (fun p => role ∈ mapKeys p) packs p ∧ getText p role lang = some t := by
  induction packs using snocInd with
  | nil =>
    constructor
    · intro h; simp [getText] at h
    · rintro ⟨p, h, _⟩; exact absurd h (not_lastWith_nil p)
  | snoc ps x ih =>
    rw [List.foldl_append, List.foldl_cons, List.foldl_nil, reduceStep_text _ _ (hw x (by simp))]
    by_cases hx : role ∈ mapKeys x
    · rw [if_pos hx]
      constructor
      · intro h; exact ⟨x, lastWith_append_singleton.2 (.inl ⟨hx, rfl⟩), h⟩
      · rintro ⟨p, hp, h⟩
        rcases lastWith_append_singleton.1 hp with ⟨_, rfl⟩ | ⟨h', _⟩
        · exact h
        · exact absurd hx h'
    · rw [if_neg hx, ih (fun p hp => hw p (by simp [hp]))]
      constructor
      · rintro ⟨p, hp, h⟩; exact ⟨p, lastWith_append_singleton.2 (.inr ⟨hx, hp⟩), h⟩
      · rintro ⟨p, hp, h⟩
        rcases lastWith_append_singleton.1 hp with ⟨h', _⟩ | ⟨_, h'⟩
        · exact absurd h' hx
        · exact ⟨p, h', h⟩

theorem reduceFold_keys (packs : List LabelPack) (ret : LabelPack) (role : String) :
    role ∈ mapKeys (packs.foldl reduceStep ret) ↔ (∃ p ∈ packs, role ∈ mapKeys p) ∨ role ∈ mapKeys ret := by
  induction packs generalizing ret with
  | nil => simp
  | cons x xs ih =>
    rw [List.foldl_cons, ih, reduceStep_keys]
    simp only [List.mem_cons, exists_eq_or_imp]
    constructor
    · rintro (h | h | h)
      · exact .inl (.inr h)
      · exact .inl (.inl h)
      · exact .inr h
    · rintro ((h | h) | h)
      · exact .inr (.inl h)
      · exact .inl h
      · exact .inr (.inr h)

theorem reduceFold_wf (packs : List LabelPack) (ret : LabelPack) (h : PackWF ret) : PackWF (packs.foldl reduceStep ret) := by
  induction packs generalizing ret with
  | nil => exact h
  | cons x xs ih => exact ih _ (reduceStep_wf x h)

theorem lastWith_singleton {α : Type} {P : α → Prop} {x a : α} : LastWith P [x] a ↔ P x ∧ a = x := by
  have := @lastWith_append_singleton α P [] x a
  simp only [List.nil_append] at this
  rw [this]
  constructor
  · rintro (h | ⟨_, h⟩)
    · exact h
    · exact absurd h (not_lastWith_nil a)
  · exact .inl

theorem offered_roles (packs : List LabelPack) (role : String) :
    role ∈ (offered packs).1 ↔ ∃ p ∈ packs, HasRole p role := by
  simp only [hasRole_iff]
  unfold offered
  match packs with
  | [] => simp [reduce]
  | [p] => simp [reduce, destruct]
  | p :: q :: r =>
    show role ∈ mapKeys ((p :: q :: r).foldl reduceStep []) ↔ _
    rw [reduceFold_keys]; simp [mapKeys]

theorem mem_destruct_langs (p : LabelPack) (lang : String) :
    lang ∈ (destruct p).2 ↔ ∃ role, HasText p role lang := by
  unfold destruct HasText
  simp only [List.mem_flatMap, mapKeys, List.mem_map]
  constructor
  · rintro ⟨⟨r, l⟩, he, ⟨⟨k, t⟩, ht, rfl⟩⟩; exact ⟨r, l, he, t, ht⟩
  · rintro ⟨r, l, he, t, ht⟩; exact ⟨(r, l), he, (lang, t), ht, rfl⟩

theorem offered_langs (packs : List LabelPack) (hw : ∀ p ∈ packs, PackWF p) (lang : String) :
    lang ∈ (offered packs).2 ↔ ∃ role p, LastWith (fun p => HasRole p role) packs p ∧ HasText p role lang := by
  simp only [hasRole_iff]
  have one : ∀ p : LabelPack, PackWF p → ∀ role, HasText p role lang → role ∈ mapKeys p := by
    rintro p _ role ⟨l, hl, _⟩
    exact List.mem_map.2 ⟨_, hl, rfl⟩
  unfold offered
  match packs with
  | [] =>
    simp only [reduce, List.not_mem_nil, false_iff]
    rintro ⟨_, p, h, _⟩; exact not_lastWith_nil p h
  | [p] =>
    have hp := hw p (by simp)
    show lang ∈ (destruct p).2 ↔ _
    rw [mem_destruct_langs]
    constructor
    · rintro ⟨role, h⟩; exact ⟨role, p, lastWith_singleton.2 ⟨one p hp role h, rfl⟩, h⟩
    · rintro ⟨role, q, hq, h⟩
      obtain ⟨_, rfl⟩ := lastWith_singleton.1 hq
      exact ⟨role, h⟩
  | p :: q :: r =>
    show lang ∈ (destruct ((p :: q :: r).foldl reduceStep [])).2 ↔ _
    have hwf : PackWF ((p :: q :: r).foldl reduceStep []) :=
      reduceFold_wf _ _ ⟨MapWF.nil, by simp⟩
    rw [mem_destruct_langs]
    constructor
    · rintro ⟨role, h⟩
      obtain ⟨t, ht⟩ := (hasText_iff hwf role lang).1 h
      obtain ⟨x, hx, hxt⟩ := (reduceFold_text _ hw role lang t).1 ht
      exact ⟨role, x, hx, (hasText_iff (hw x (lastWith_mem hx).1) role lang).2 ⟨t, hxt⟩⟩
    · rintro ⟨role, x, hx, h⟩
      obtain ⟨t, ht⟩ := (hasText_iff (hw x (lastWith_mem hx).1) role lang).1 h
      exact ⟨role, (hasText_iff hwf role lang).2 ⟨t, (reduceFold_text _ hw role lang t).2 ⟨x, hx, ht⟩⟩⟩

/-! ## Appending goroutines -/

theorem upd_self {β : Type} (f : Nat → β) (i : Nat) (v : β) : upd f i v i = v := by simp [upd]
theorem upd_ne {β : Type} (f : Nat → β) {i j : Nat} (v : β) (h : j ≠ i) : upd f i v j = f j := by simp [upd, h]

/-- Three steps of one goroutine append atomically. -/
theorem append_run (ln : Nat → List String) (grow : Nat → Nat) (s : Shared) (g : Nat) (h : s.pcs g = .start)
    (hlen : s.hdr.len ≤ (s.heap s.hdr.arr).length) :
    let s' := [g, g, g].foldl (appendStep ln grow) s
    sliceElems s' = sliceElems s ++ ln g ∧ s'.hdr.len ≤ (s'.heap s'.hdr.arr).length ∧
      ∀ j, j ≠ g → s'.pcs j = s.pcs j := by
  simp only [List.foldl_cons, List.foldl_nil]
  have e1 : appendStep ln grow s g = { s with pcs := upd s.pcs g (.loaded s.hdr) } := by
    unfold appendStep; rw [h]
  rw [e1]
  by_cases hc : s.hdr.len + (ln g).length ≤ (s.heap s.hdr.arr).length
  · have e2 : appendStep ln grow { s with pcs := upd s.pcs g (.loaded s.hdr) } g =
        { s with heap := upd s.heap s.hdr.arr (overwrite (s.heap s.hdr.arr) s.hdr.len (ln g))
                 pcs := upd (upd s.pcs g (.loaded s.hdr)) g (.written ⟨s.hdr.arr, s.hdr.len + (ln g).length⟩) } := by
      unfold appendStep; simp [upd_self, hc]
    rw [e2]
    refine ⟨?_, ?_, ?_⟩
    · simp only [appendStep, upd_self, sliceElems, overwrite]
      have hl : ((s.heap s.hdr.arr).take s.hdr.len ++ ln g).length = s.hdr.len + (ln g).length := by simp [hlen]
      exact List.take_left' hl
    · simp only [appendStep, upd_self, overwrite]
      simp; omega
    · intro j hj
      simp [appendStep, upd_self, upd_ne _ _ hj]
  · have e2 : appendStep ln grow { s with pcs := upd s.pcs g (.loaded s.hdr) } g =
        { s with heap := upd s.heap s.next ((s.heap s.hdr.arr).take s.hdr.len ++ ln g ++
                    List.replicate (grow (s.hdr.len + (ln g).length)) "")
                 next := s.next + 1
                 pcs := upd (upd s.pcs g (.loaded s.hdr)) g (.written ⟨s.next, s.hdr.len + (ln g).length⟩) } := by
      unfold appendStep; simp [upd_self, hc]
    rw [e2]
    refine ⟨?_, ?_, ?_⟩
    · simp only [appendStep, upd_self, sliceElems]
      have hl : ((s.heap s.hdr.arr).take s.hdr.len ++ ln g).length = s.hdr.len + (ln g).length := by simp [hlen]
      exact List.take_left' hl
    · simp only [appendStep, upd_self]
      simp; omega
    · intro j hj
      simp [appendStep, upd_self, upd_ne _ _ hj]

theorem append_serial (ln : Nat → List String) (grow : Nat → Nat) (order : List Nat) (hn : order.Nodup) (s : Shared)
    (h : ∀ g ∈ order, s.pcs g = .start) (hlen : s.hdr.len ≤ (s.heap s.hdr.arr).length) :
    sliceElems ((order.flatMap fun g => [g, g, g]).foldl (appendStep ln grow) s) = sliceElems s ++ order.flatMap ln := by
  induction order generalizing s with
  | nil => simp
  | cons g gs ih =>
    obtain ⟨h1, h2, h3⟩ := append_run ln grow s g (h g (by simp)) hlen
    simp only [List.flatMap_cons, List.foldl_append]
    rw [List.nodup_cons] at hn
    rw [ih hn.2 _ ?_ h2, h1, List.append_assoc]
    intro j hj
    rw [h3 j (fun e => hn.1 (e ▸ hj))]
    exact h j (by simp [hj])

/-- Everything readable through a header comes from some goroutine. -/
def Covered (U : String → Prop) (s : Shared) (h : Hdr) : Prop :=
  (∀ x ∈ (s.heap h.arr).take h.len, U x) ∧ h.len ≤ (s.heap h.arr).length

structure AppInv (U : String → Prop) (s : Shared) : Prop where
  hdr : Covered U s s.hdr ∧ s.hdr.arr < s.next
  pcs : ∀ g h, (s.pcs g = .loaded h ∨ s.pcs g = .written h) → Covered U s h ∧ h.arr < s.next

theorem take_overwrite {U : String → Prop} {l xs : List String} {i n : Nat} (hx : ∀ x ∈ xs, U x)
    (hi : ∀ x ∈ l.take i, U x) (hn : ∀ x ∈ l.take n, U x) : ∀ x ∈ (overwrite l i xs).take n, U x := by
  intro x hxm
  unfold overwrite at hxm
  rw [List.append_assoc, List.take_append] at hxm
  rcases List.mem_append.1 hxm with h | h
  · exact hi x (List.mem_of_mem_take h)
  · rw [List.take_append] at h
    rcases List.mem_append.1 h with h | h
    · exact hx x (List.mem_of_mem_take h)
    · rw [List.length_take] at h
      by_cases hil : i ≤ l.length
      · rw [Nat.min_eq_left hil, List.take_drop] at h
        have h' := List.mem_of_mem_drop h
        apply hn
        by_cases hle : i + xs.length + (n - i - xs.length) ≤ n
        · exact (List.take_prefix_take_left hle).subset h'
        · have : n - i - xs.length = 0 := by omega
          rw [this] at h
          simp at h
      · rw [List.drop_eq_nil_of_le (by omega)] at h
        simp at h

theorem appInv_step {U : String → Prop} {ln : Nat → List String} {grow : Nat → Nat} {s : Shared} {g : Nat}
    (hu : ∀ g, ∀ x ∈ ln g, U x) (h : AppInv U s) : AppInv U (appendStep ln grow s g) := by
  unfold appendStep
  split
  · refine ⟨h.hdr, ?_⟩
    intro j h' hj
    simp only [upd] at hj
    split at hj
    · rcases hj with hj | hj
      · cases hj; exact h.hdr
      · cases hj
    · exact h.pcs j h' hj
  · rename_i hd hpc
    have hh := h.pcs g hd (.inl hpc)
    simp only
    split
    · rename_i hc
      have cov : ∀ d : Hdr, Covered U s d → Covered U { s with
          heap := upd s.heap hd.arr (overwrite (s.heap hd.arr) hd.len (ln g))
          pcs := upd s.pcs g (.written ⟨hd.arr, hd.len + (ln g).length⟩) } d := by
        intro d hd'
        unfold Covered at hd' ⊢
        simp only [upd]
        split
        · rename_i he
          rw [he] at hd'
          refine ⟨take_overwrite (hu g) hh.1.1 hd'.1, ?_⟩
          simp only [overwrite, List.length_append, List.length_take, List.length_drop]
          have := hd'.2
          omega
        · exact hd'
      refine ⟨⟨cov _ h.hdr.1, h.hdr.2⟩, ?_⟩
      intro j h' hj
      simp only [upd] at hj
      split at hj
      · rcases hj with hj | hj
        · cases hj
        · cases hj
          refine ⟨⟨?_, ?_⟩, hh.2⟩
          · intro x hx
            simp only [upd, if_pos] at hx
            unfold overwrite at hx
            rw [List.take_left'] at hx
            · rcases List.mem_append.1 hx with hx | hx
              · exact hh.1.1 x hx
              · exact hu g x hx
            · have := hh.1.2
              simp only [List.length_append, List.length_take]
              omega
          · simp only [upd, if_pos, overwrite, List.length_append, List.length_take, List.length_drop]
            have := hh.1.2
            omega
      · have := h.pcs j h' hj
        exact ⟨cov _ this.1, this.2⟩
    · have cov : ∀ d : Hdr, d.arr < s.next → Covered U s d → Covered U { s with
          heap := upd s.heap s.next ((s.heap hd.arr).take hd.len ++ ln g ++ List.replicate (grow (hd.len + (ln g).length)) "")
          next := s.next + 1
          pcs := upd s.pcs g (.written ⟨s.next, hd.len + (ln g).length⟩) } d := by
        intro d hlt hd'
        unfold Covered at hd' ⊢
        simp only [upd]
        rw [if_neg (by omega)]
        exact hd'
      refine ⟨⟨cov _ h.hdr.2 h.hdr.1, Nat.lt_succ_of_lt h.hdr.2⟩, ?_⟩
      intro j h' hj
      simp only [upd] at hj
      split at hj
      · rcases hj with hj | hj
        · cases hj
        · cases hj
          have hl := hh.1.2
          refine ⟨⟨?_, ?_⟩, Nat.lt_succ_self _⟩
          · intro x hx
            simp only [upd, if_pos] at hx
            rw [List.take_left'] at hx
            · rcases List.mem_append.1 hx with hx | hx
              · exact hh.1.1 x hx
              · exact hu g x hx
            · simp only [List.length_append, List.length_take]
              omega
          · simp only [upd, if_pos, List.length_append, List.length_take]
            omega
      · have := h.pcs j h' hj
        exact ⟨cov _ this.2 this.1, Nat.lt_succ_of_lt this.2⟩
  · rename_i hd hpc
    refine ⟨h.pcs g hd (.inr hpc), ?_⟩
    intro j h' hj
    simp only [upd] at hj
    split at hj
    · rcases hj with hj | hj <;> cases hj
    · exact h.pcs j h' hj
  · exact h

theorem appInv_run {U : String → Prop} {ln : Nat → List String} {grow : Nat → Nat} {cap : Nat} {sched : List Nat}
    (hu : ∀ g, ∀ x ∈ ln g, U x) : AppInv U (runAppends ln grow cap sched) := by
  unfold runAppends
  have : ∀ s, AppInv U s → AppInv U (sched.foldl (appendStep ln grow) s) := by
    induction sched with
    | nil => intro s h; exact h
    | cons g gs ih => intro s h; exact ih _ (appInv_step hu h)
  apply this
  refine ⟨⟨⟨by simp [emptySlice], by simp [emptySlice]⟩, by simp [emptySlice]⟩, ?_⟩
  intro g h hg
  simp [emptySlice] at hg

end Telefacts.Render
