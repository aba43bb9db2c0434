import Verif.Spec.Discover
import Verif.Proof.Prelude
import Verif.Proof.AttrVal
import Verif.Proof.Path
import Mathlib.Order.WellFounded
/-! # Lemmas for discovery -/
namespace Telefacts.Disc
open Telefacts.Spec
variable {L D : Type}

theorem inline_iff (e : String) : Inline e ↔ fileExt e = ".xhtml" ∨ fileExt e = ".htm" := by
  rw [ext_xhtml, ext_htm]; rfl

theorem plain_iff (e : String) : Plain e ↔ fileExt e = ".xbrl" ∨ fileExt e = ".xml" := by
  rw [ext_xbrl, ext_xml]; rfl

theorem inline_plain {e : String} (h : Inline e) (h' : Plain e) : False := by
  rw [inline_iff] at h
  rw [plain_iff] at h'
  rcases h with h | h <;> rcases h' with h' | h' <;> rw [h] at h' <;> revert h' <;> decide

theorem visitRef_next (env : FolderEnv L D) (i : Item) (loc : String) (f : SchemaFile) :
    (visitRef env i).next = some (loc, f) ↔ ∃ t, RefTo env i t loc f := by
  simp only [RefTo, attrVal_iff, Local, Targets, visitRef]
  change _ ↔ ∃ t, i.space = LINK ∧ _
  constructor
  · intro h
    split at h; · simp at h
    split at h; · simp at h
    split at h; · simp at h
    split at h; · simp at h
    split at h; · simp at h
    split at h; · simp at h
    split at h; · simp at h
    simp at h
    obtain ⟨rfl, rfl⟩ := h
    simp_all
  · rintro ⟨t, h1, ⟨a, h2, rfl⟩, ⟨h3, h4, h5⟩, ⟨b, h6, rfl⟩, h7⟩
    simp [h1, h2, h3, h4, h5, h6, h7]

theorem visitRef_ns (env : FolderEnv L D) (i : Item) (n loc : String) :
    (n, loc) ∈ (visitRef env i).ns ↔ ∃ f, RefTo env i n loc f := by
  simp only [RefTo, attrVal_iff, Local, Targets, visitRef]
  change _ ↔ ∃ t, i.space = LINK ∧ _
  constructor
  · intro h
    split at h; · simp at h
    split at h; · simp at h
    split at h; · simp at h
    split at h; · simp at h
    split at h; · simp at h
    split at h; · simp at h
    split at h; · simp at h
    simp at h
    obtain ⟨rfl, rfl⟩ := h
    simp_all
  · rintro ⟨t, h1, ⟨a, h2, rfl⟩, ⟨h3, h4, h5⟩, ⟨b, h6, rfl⟩, h7⟩
    simp [h1, h2, h3, h4, h5, h6, h7]

theorem visitInclude_next (env : FolderEnv L D) (i : Item) (loc : String) (f : SchemaFile) :
    (visitInclude env i).next = some (loc, f) ↔ ∃ t, IncludeTo env i t loc f := by
  simp only [IncludeTo, attrVal_iff, Local, Targets, visitInclude]
  change _ ↔ ∃ t, i.space = XSD ∧ _
  constructor
  · intro h
    split at h; · simp at h
    split at h; · simp at h
    split at h; · simp at h
    split at h; · simp at h
    split at h; · simp at h
    split at h; · simp at h
    split at h; · simp at h
    simp at h
    obtain ⟨rfl, rfl⟩ := h
    simp_all
  · rintro ⟨t, h1, ⟨a, h2, rfl⟩, ⟨h3, h4, h5⟩, ⟨b, h6, rfl⟩, h7⟩
    simp [h1, h2, h3, h4, h5, h6, h7]

theorem visitInclude_ns (env : FolderEnv L D) (i : Item) (n loc : String) :
    (n, loc) ∈ (visitInclude env i).ns ↔ ∃ f, IncludeTo env i n loc f := by
  simp only [IncludeTo, attrVal_iff, Local, Targets, visitInclude]
  change _ ↔ ∃ t, i.space = XSD ∧ _
  constructor
  · intro h
    split at h; · simp at h
    split at h; · simp at h
    split at h; · simp at h
    split at h; · simp at h
    split at h; · simp at h
    split at h; · simp at h
    split at h; · simp at h
    simp at h
    obtain ⟨rfl, rfl⟩ := h
    simp_all
  · rintro ⟨t, h1, ⟨a, h2, rfl⟩, ⟨h3, h4, h5⟩, ⟨b, h6, rfl⟩, h7⟩
    simp [h1, h2, h3, h4, h5, h6, h7]

theorem visitImport_next (env : FolderEnv L D) (i : Item) (loc : String) (f : SchemaFile) :
    (visitImport env i).next = some (loc, f) ↔ ∃ n, ImportNames i n loc ∧ Local env loc f := by
  simp only [ImportNames, attrVal_iff, Local, visitImport]
  change _ ↔ ∃ n, (i.space = XSD ∧ _) ∧ _
  constructor
  · intro h
    split at h; · simp at h
    split at h; · simp at h
    split at h; · simp at h
    split at h; · simp at h
    split at h; · simp at h
    split at h; · simp at h
    split at h; · simp at h
    simp at h
    obtain ⟨rfl, rfl⟩ := h
    simp_all
  · rintro ⟨t, ⟨h1, ⟨a, h2, rfl⟩, h3, ⟨b, h4, rfl⟩, h5⟩, _, h6, h7⟩
    simp [h1, h2, h3, h4, h5, h6, h7]

theorem visitImport_ns (env : FolderEnv L D) (i : Item) (n loc : String) :
    (n, loc) ∈ (visitImport env i).ns ↔ ImportNames i n loc := by
  simp only [ImportNames, attrVal_iff, visitImport]
  change _ ↔ i.space = XSD ∧ _
  constructor
  · intro h
    split at h; · simp at h
    split at h; · simp at h
    split at h; · simp at h
    split at h; · simp at h
    split at h; · simp at h
    rename_i t1 _ _ _ t2 _ _
    have h' : n = t1.value ∧ loc = t2.value := by
      split at h
      · simpa using h
      · split at h <;> simpa using h
    obtain ⟨rfl, rfl⟩ := h'
    simp_all
  · rintro ⟨h1, ⟨a, h2, rfl⟩, h3, ⟨b, h4, rfl⟩, h5⟩
    simp only [h1, h2, h3, h4, h5]
    simp only [ne_eq, not_true, if_false]
    split
    · simp
    · split <;> simp

theorem kindOfRole_iff (r : String) (k : LKind) : kindOfRole r = some k ↔ r = k.role := by
  constructor
  · intro h
    unfold kindOfRole at h
    repeat' split at h
    all_goals simp_all
  · rintro rfl
    cases k <;> decide

theorem role_ne_empty (k : LKind) : k.role ≠ "" := by cases k <;> decide

/-- One linkbaseRef. -/
theorem mem_linkbaseItem (env : FolderEnv L D) (i : Item) (w : Write L) :
    w ∈ linkbaseItem env i ↔ ∃ kind href l, w = .link kind href l ∧ i.space = LINK ∧
      xlinkAttr i.attrs "arcrole" = some LINKARCROLE ∧ xlinkAttr i.attrs "type" = some "simple" ∧
      xlinkAttr i.attrs "role" = some kind.role ∧ xlinkAttr i.attrs "href" = some href ∧ href ≠ "" ∧
      env.isUrl href = false ∧ env.readLinkbase kind href = some l := by
  unfold linkbaseItem
  constructor
  · intro h
    split at h; · simp at h
    split at h; · simp at h
    split at h; · simp at h
    split at h; · simp at h
    split at h; · simp at h
    split at h; · simp at h
    split at h; · simp at h
    split at h; · simp at h
    split at h; · simp at h
    rename_i hk
    rw [kindOfRole_iff] at hk
    split at h; · simp at h
    simp at h
    subst hk
    exact ⟨_, _, _, h, by simp_all⟩
  · rintro ⟨k, href, l, rfl, h1, h2, h3, h4, h5, h6, h7, h8⟩
    simp [h1, h2, h3, h4, h5, h6, h7, h8, (kindOfRole_iff _ _).2 rfl, role_ne_empty]

theorem mem_linkbaseRefSchema (env : FolderEnv L D) (f : SchemaFile) (w : Write L) :
    w ∈ linkbaseRefSchema env f ↔ ∃ kind href l, w = .link kind href l ∧ LinkIn env f kind href ∧
      env.readLinkbase kind href = some l := by
  simp only [linkbaseRefSchema, LinkIn, xlinkVal_iff]
  change _ ↔ ∃ kind href l, w = _ ∧ (∃ ann ∈ f.annotation, ann.space = XSD ∧
    ∃ app ∈ ann.appinfo, app.space = XSD ∧ ∃ i ∈ app.linkbaseRef, i.space = LINK ∧
      xlinkAttr i.attrs "arcrole" = some LINKARCROLE ∧ _) ∧ _
  simp only [List.mem_flatMap]
  constructor
  · rintro ⟨ann, ha, h⟩
    split at h; · simp at h
    rename_i hsp
    obtain ⟨app, hp, h⟩ := List.mem_flatMap.1 h
    split at h; · simp at h
    rename_i hsp'
    obtain ⟨i, hi, h⟩ := List.mem_flatMap.1 h
    obtain ⟨k, href, l, h0, h1, h2, h3, h4, h5, h6, h7, h8⟩ := (mem_linkbaseItem env i w).1 h
    exact ⟨k, href, l, h0, ⟨ann, ha, not_not.1 hsp, app, hp, not_not.1 hsp', i, hi, h1, h2, h3, h4, h5, h6, h7⟩, h8⟩
  · rintro ⟨k, href, l, h0, ⟨ann, ha, hsp, app, hp, hsp', i, hi, h1, h2, h3, h4, h5, h6, h7⟩, h8⟩
    refine ⟨ann, ha, ?_⟩
    rw [if_neg (by simp [hsp])]
    refine List.mem_flatMap.2 ⟨app, hp, ?_⟩
    rw [if_neg (by simp [hsp'])]
    exact List.mem_flatMap.2 ⟨i, hi, (mem_linkbaseItem env i w).2 ⟨k, href, l, h0, h1, h2, h3, h4, h5, h6, h7, h8⟩⟩

theorem mem_collect {α β : Type} {f : α → Option (List β)} {l : List α} {ws : List β}
    (h : collect f l = some ws) (w : β) : w ∈ ws ↔ ∃ x ∈ l, ∃ a, f x = some a ∧ w ∈ a := by
  induction l generalizing ws with
  | nil => simp [collect] at h; subst h; simp
  | cons x xs ih =>
    simp only [collect] at h
    split at h
    · rename_i a b ha hb
      simp at h; subst h
      simp [ih hb, ha]
    · simp at h

theorem collect_isSome {α β : Type} {f : α → Option (List β)} {l : List α} :
    (∃ ws, collect f l = some ws) ↔ ∀ x ∈ l, ∃ a, f x = some a := by
  induction l with
  | nil => simp [collect]
  | cons x xs ih =>
    simp only [collect, List.forall_mem_cons]
    rw [← ih]
    cases h1 : f x <;> cases h2 : collect f xs <;> simp

theorem collect_congr {α β : Type} {f g : α → Option (List β)} {l : List α}
    (h : ∀ x ∈ l, f x = g x) : collect f l = collect g l := by
  induction l with
  | nil => rfl
  | cons x xs ih =>
    simp only [collect, h x List.mem_cons_self, ih (fun y hy => h y (List.mem_cons_of_mem _ hy))]

theorem mem_finishVisit {env : FolderEnv L D} {v : Visit} {sub : SchemaFile → Option (List (Write L))}
    {ws : List (Write L)} (h : finishVisit env v sub = some ws) (w : Write L) :
    w ∈ ws ↔ (∃ n loc, (n, loc) ∈ v.ns ∧ w = .ns n loc) ∨
      ∃ loc g, v.next = some (loc, g) ∧ ∃ ws', sub g = some ws' ∧
        (w ∈ ws' ∨ w ∈ linkbaseRefSchema env g ∨ w = .schema loc g) := by
  unfold finishVisit at h
  split at h
  · rename_i hn
    simp at h; subst h
    simp [hn, eq_comm]
  · rename_i loc g hn
    split at h
    · simp at h
    · rename_i ws' hs
      simp at h; subst h
      simp only [List.mem_append, List.mem_map, Prod.exists, List.mem_singleton, hn, Option.some.injEq,
        Prod.mk.injEq]
      constructor
      · rintro (⟨n, l, h, rfl⟩ | h | h | h)
        · exact .inl ⟨n, l, h, rfl⟩
        · exact .inr ⟨loc, g, ⟨rfl, rfl⟩, ws', hs, .inl h⟩
        · exact .inr ⟨loc, g, ⟨rfl, rfl⟩, ws', hs, .inr (.inl h)⟩
        · exact .inr ⟨loc, g, ⟨rfl, rfl⟩, ws', hs, .inr (.inr h)⟩
      · rintro (⟨n, l, h, rfl⟩ | ⟨_, _, ⟨rfl, rfl⟩, ws'', hs', h⟩)
        · exact .inl ⟨n, l, h, rfl⟩
        · rw [hs] at hs'; cases hs'
          rcases h with h | h | h <;> simp [h]

theorem finishVisit_isSome {env : FolderEnv L D} {v : Visit}
    {sub : SchemaFile → Option (List (Write L))} :
    (∃ ws, finishVisit env v sub = some ws) ↔ ∀ loc g, v.next = some (loc, g) → ∃ ws, sub g = some ws := by
  unfold finishVisit
  split
  · rename_i hn; simp [hn]
  · rename_i loc g hn
    simp only [hn, Option.some.injEq, Prod.mk.injEq, and_imp]
    split
    · rename_i hs
      simp [hs]
    · rename_i ws' hs
      simp [hs]

theorem finishVisit_congr {env : FolderEnv L D} {v : Visit}
    {sub sub' : SchemaFile → Option (List (Write L))}
    (h : ∀ loc g, v.next = some (loc, g) → sub g = sub' g) :
    finishVisit env v sub = finishVisit env v sub' := by
  unfold finishVisit
  split
  · rfl
  · rename_i loc g hn
    rw [h loc g hn]

/-! ## Fuel -/

theorem searchSchema_mono {env : FolderEnv L D} {n : Nat} {f : SchemaFile} {ws : List (Write L)}
    (h : searchSchema env n f = some ws) : searchSchema env (n + 1) f = some ws := by
  induction n generalizing f ws with
  | zero => simp [searchSchema] at h
  | succ n ih =>
    have key : ∀ (vis : Item → Visit) (l : List Item) (a : List (Write L)),
        collect (fun i => finishVisit env (vis i) (searchSchema env n)) l = some a →
        collect (fun i => finishVisit env (vis i) (searchSchema env (n + 1))) l = some a := by
      intro vis l a ha
      rw [← ha]
      apply collect_congr
      intro i hi
      apply finishVisit_congr
      intro loc g hg
      obtain ⟨b, hb⟩ := collect_isSome.1 ⟨a, ha⟩ i hi
      obtain ⟨c, hc⟩ := finishVisit_isSome.1 ⟨b, hb⟩ loc g hg
      rw [hc]; exact ih hc
    rw [searchSchema] at h
    rw [searchSchema]
    split at h
    · rename_i a b ha hb
      rw [key _ _ _ ha, key _ _ _ hb]
      exact h
    · simp at h

theorem searchSchema_mono_le {env : FolderEnv L D} {n m : Nat} (hnm : n ≤ m) {f : SchemaFile}
    {ws : List (Write L)} (h : searchSchema env n f = some ws) : searchSchema env m f = some ws := by
  induction hnm with
  | refl => exact h
  | step _ ih => exact searchSchema_mono ih

theorem exists_uniform {α : Type} {P : Nat → α → Prop} (mono : ∀ n m a, n ≤ m → P n a → P m a)
    (l : List α) (h : ∀ a ∈ l, ∃ n, P n a) : ∃ n, ∀ a ∈ l, P n a := by
  induction l with
  | nil => exact ⟨0, by simp⟩
  | cons x xs ih =>
    obtain ⟨n, hn⟩ := ih fun a ha => h a (List.mem_cons_of_mem _ ha)
    obtain ⟨m, hm⟩ := h x List.mem_cons_self
    refine ⟨max n m, List.forall_mem_cons.2 ⟨mono _ _ _ (Nat.le_max_right _ _) hm, ?_⟩⟩
    intro a ha
    exact mono _ _ _ (Nat.le_max_left _ _) (hn a ha)

/-- A file refers to a file. -/
def ChildRel (env : FolderEnv L D) (g f : SchemaFile) : Prop := ∃ loc, Child env f loc g

theorem searchSchema_isSome_succ {env : FolderEnv L D} {n : Nat} {f : SchemaFile} :
    (∃ ws, searchSchema env (n + 1) f = some ws) ↔
      ∀ g, ChildRel env g f → ∃ ws, searchSchema env n g = some ws := by
  have h1 : (∃ ws, searchSchema env (n + 1) f = some ws) ↔
      (∃ a, collect (fun i => finishVisit env (visitImport env i) (searchSchema env n)) f.imp = some a) ∧
      (∃ a, collect (fun i => finishVisit env (visitInclude env i) (searchSchema env n)) f.incl = some a) := by
    rw [searchSchema]
    cases collect (fun i => finishVisit env (visitImport env i) (searchSchema env n)) f.imp <;>
      cases collect (fun i => finishVisit env (visitInclude env i) (searchSchema env n)) f.incl <;> simp
  rw [h1]
  simp only [collect_isSome, finishVisit_isSome, visitImport_next, visitInclude_next, ChildRel, Child]
  constructor
  · rintro ⟨ha, hb⟩ g ⟨loc, ⟨i, hi, h⟩ | ⟨i, hi, h⟩⟩
    · exact ha i hi loc g h
    · exact hb i hi loc g h
  · intro h
    exact ⟨fun i hi loc g hg => h g ⟨loc, .inl ⟨i, hi, hg⟩⟩, fun i hi loc g hg => h g ⟨loc, .inr ⟨i, hi, hg⟩⟩⟩

theorem childRel_finite (env : FolderEnv L D) (f : SchemaFile) :
    ∃ l : List SchemaFile, ∀ g, ChildRel env g f → g ∈ l := by
  refine ⟨(f.imp.filterMap fun i => (visitImport env i).next.map Prod.snd) ++
    (f.incl.filterMap fun i => (visitInclude env i).next.map Prod.snd), ?_⟩
  rintro g ⟨loc, ⟨i, hi, h⟩ | ⟨i, hi, h⟩⟩
  · rw [← visitImport_next] at h
    exact List.mem_append_left _ (List.mem_filterMap.2 ⟨i, hi, by simp [h]⟩)
  · rw [← visitInclude_next] at h
    exact List.mem_append_right _ (List.mem_filterMap.2 ⟨i, hi, by simp [h]⟩)

theorem searchSchema_terminates_iff {env : FolderEnv L D} {f : SchemaFile} :
    (∃ n ws, searchSchema env n f = some ws) ↔ Acc (ChildRel env) f := by
  constructor
  · rintro ⟨n, ws, h⟩
    induction n generalizing f ws with
    | zero => simp [searchSchema] at h
    | succ n ih =>
      refine ⟨_, fun g hg => ?_⟩
      obtain ⟨ws', h'⟩ := searchSchema_isSome_succ.1 ⟨ws, h⟩ g hg
      exact ih ws' h'
  · intro h
    induction h with
    | intro f _ ih =>
      obtain ⟨l, hl⟩ := childRel_finite env f
      obtain ⟨n, hn⟩ := exists_uniform
        (P := fun n g => ChildRel env g f → ∃ ws, searchSchema env n g = some ws)
        (fun n m a hnm h hc => by
          obtain ⟨ws, h⟩ := h hc
          exact ⟨ws, searchSchema_mono_le hnm h⟩) l
        (fun g _ => by
          by_cases hc : ChildRel env g f
          · obtain ⟨n, ws, h⟩ := ih g hc
            exact ⟨n, fun _ => ⟨ws, h⟩⟩
          · exact ⟨0, fun h => absurd h hc⟩)
      obtain ⟨ws, h⟩ := (searchSchema_isSome_succ (n := n)).2 fun g hg => hn g (hl g hg) hg
      exact ⟨n + 1, ws, h⟩

theorem schemaRef_isSome {env : FolderEnv L D} {n : Nat} {inst : InstanceFile} :
    (∃ ws, schemaRef env n inst = some ws) ↔
      ∀ loc f, Root env inst loc f → ∃ ws, searchSchema env n f = some ws := by
  simp only [schemaRef, collect_isSome, finishVisit_isSome, visitRef_next, Root]
  constructor
  · rintro h loc f ⟨i, hi, hr⟩; exact h i hi loc f hr
  · intro h i hi loc f hr; exact h loc f ⟨i, hi, hr⟩

theorem schemaRef_mono_le {env : FolderEnv L D} {n m : Nat} (hnm : n ≤ m) {inst : InstanceFile}
    {ws : List (Write L)} (h : schemaRef env n inst = some ws) : schemaRef env m inst = some ws := by
  rw [← h, schemaRef, schemaRef]
  apply collect_congr
  intro i hi
  apply finishVisit_congr
  intro loc g hg
  obtain ⟨t, ht⟩ := schemaRef_isSome.1 ⟨ws, h⟩ loc g ⟨i, hi, (visitRef_next _ _ _ _).1 hg⟩
  rw [ht, searchSchema_mono_le hnm ht]

theorem schemaRef_terminates_iff {env : FolderEnv L D} {inst : InstanceFile} :
    (∃ n ws, schemaRef env n inst = some ws) ↔ ¬ Endless env inst := by
  constructor
  · rintro ⟨n, ws, h⟩ ⟨c, h0, hc⟩
    obtain ⟨ws', h'⟩ := schemaRef_isSome.1 ⟨ws, h⟩ _ _ h0
    have hacc := searchSchema_terminates_iff.1 ⟨n, ws', h'⟩
    exact not_acc_iff_exists_descending_chain.2 ⟨fun n => (c n).2, rfl, fun n => ⟨_, hc n⟩⟩ hacc
  · intro h
    have hacc : ∀ loc f, Root env inst loc f → Acc (ChildRel env) f := by
      intro loc f hr
      by_contra hn
      obtain ⟨c, rfl, hc⟩ := not_acc_iff_exists_descending_chain.1 hn
      choose l hl using hc
      refine h ⟨fun n => match n with | 0 => (loc, c 0) | n + 1 => (l n, c (n + 1)), hr, ?_⟩
      intro n
      cases n <;> exact hl _
    obtain ⟨n, hn⟩ := exists_uniform
        (P := fun n (i : Item) => ∀ loc f, (∃ t, RefTo env i t loc f) → ∃ ws, searchSchema env n f = some ws)
        (fun n m a hnm h loc f hc => by
          obtain ⟨ws, h⟩ := h loc f hc
          exact ⟨ws, searchSchema_mono_le hnm h⟩) inst.schemaRef
        (fun i hi => by
          cases hnx : (visitRef env i).next with
          | none =>
            refine ⟨0, fun loc f hc => ?_⟩
            rw [← visitRef_next, hnx] at hc; cases hc
          | some p =>
            obtain ⟨loc, f⟩ := p
            obtain ⟨n, ws, hw⟩ := searchSchema_terminates_iff.2
              (hacc loc f ⟨i, hi, (visitRef_next _ _ _ _).1 hnx⟩)
            refine ⟨n, fun loc' f' hc => ?_⟩
            rw [← visitRef_next, hnx] at hc; cases hc
            exact ⟨ws, hw⟩)
    obtain ⟨ws, hw⟩ := (schemaRef_isSome (n := n)).2 fun loc f ⟨i, hi, hr⟩ => hn i hi loc f hr
    exact ⟨n, ws, hw⟩

/-! ## The writes -/

/-- Below a file. -/
inductive Below (env : FolderEnv L D) : SchemaFile → String → SchemaFile → Prop
  | child (f loc g) : Child env f loc g → Below env f loc g
  | step (f l h loc g) : Child env f l h → Below env h loc g → Below env f loc g

theorem reach_below {env : FolderEnv L D} {inst : InstanceFile} {l : String} {f : SchemaFile}
    (h : Reach env inst l f) {loc : String} {g : SchemaFile} (hb : Below env f loc g) :
    Reach env inst loc g := by
  induction hb generalizing l with
  | child f loc g hc => exact .child _ _ _ _ h hc
  | step f l' h' loc g hc _ ih => exact ih (.child _ _ _ _ h hc)

theorem below_trans {env : FolderEnv L D} {f g : SchemaFile} {l : String} (h : Below env f l g)
    {loc : String} {k : SchemaFile} (hc : Child env g loc k) : Below env f loc k := by
  induction h with
  | child f l g h => exact .step _ _ _ _ _ h (.child _ _ _ hc)
  | step f l' h' l g h _ ih => exact .step _ _ _ _ _ h (ih hc)

theorem reach_iff {env : FolderEnv L D} {inst : InstanceFile} {loc : String} {g : SchemaFile} :
    Reach env inst loc g ↔ Root env inst loc g ∨ ∃ l f, Root env inst l f ∧ Below env f loc g := by
  constructor
  · intro h
    induction h with
    | root loc f h => exact .inl h
    | child loc f loc' g _ hc ih =>
      rcases ih with h | ⟨l, k, h, hb⟩
      · exact .inr ⟨_, _, h, .child _ _ _ hc⟩
      · exact .inr ⟨_, _, h, below_trans hb hc⟩
  · rintro (h | ⟨l, f, h, hb⟩)
    · exact .root _ _ h
    · exact reach_below (.root _ _ h) hb

/-- Namespace locations given by the references of a file. -/
def NsOf (env : FolderEnv L D) (f : SchemaFile) (n loc : String) : Prop :=
  (∃ i ∈ f.imp, ImportNames i n loc) ∨ (∃ i ∈ f.incl, ∃ g, IncludeTo env i n loc g)

/-- Namespace writes due to the references of a file. -/
def NsW (env : FolderEnv L D) (f : SchemaFile) (w : Write L) : Prop :=
  ∃ n loc, w = .ns n loc ∧ NsOf env f n loc

/-- Writes due to a file at a location. -/
def Emits (env : FolderEnv L D) (loc : String) (f : SchemaFile) (w : Write L) : Prop :=
  NsW env f w ∨ (∃ kind href l, w = .link kind href l ∧ LinkIn env f kind href ∧
      env.readLinkbase kind href = some l) ∨ w = .schema loc f

theorem mem_searchSchema {env : FolderEnv L D} {n : Nat} {f : SchemaFile} {ws : List (Write L)}
    (h : searchSchema env n f = some ws) (w : Write L) :
    w ∈ ws ↔ NsW env f w ∨ ∃ loc g, Below env f loc g ∧ Emits env loc g w := by
  induction n generalizing f ws with
  | zero => simp [searchSchema] at h
  | succ n ih =>
    have hsub : ∀ loc g, Child env f loc g → ∃ ws', searchSchema env n g = some ws' := fun loc g hc =>
      searchSchema_isSome_succ.1 ⟨ws, h⟩ g ⟨loc, hc⟩
    rw [searchSchema] at h
    split at h
    swap; · simp at h
    rename_i a b ha hb
    simp at h; subst h
    rw [List.mem_append, mem_collect ha, mem_collect hb]
    constructor
    · rintro (⟨i, hi, c, hc, hw⟩ | ⟨i, hi, c, hc, hw⟩)
      · rcases (mem_finishVisit hc w).1 hw with ⟨k, l, hm, rfl⟩ | ⟨l, g, hn, ws', hs, hw⟩
        · exact .inl ⟨k, l, rfl, .inl ⟨i, hi, (visitImport_ns _ _ _ _).1 hm⟩⟩
        · have hch : Child env f l g := .inl ⟨i, hi, (visitImport_next _ _ _ _).1 hn⟩
          rcases hw with hw | hw | hw
          · rcases (ih hs).1 hw with hw | ⟨l', g', hb', he⟩
            · exact .inr ⟨l, g, .child _ _ _ hch, .inl hw⟩
            · exact .inr ⟨l', g', .step _ _ _ _ _ hch hb', he⟩
          · exact .inr ⟨l, g, .child _ _ _ hch, .inr (.inl ((mem_linkbaseRefSchema _ _ _).1 hw))⟩
          · exact .inr ⟨l, g, .child _ _ _ hch, .inr (.inr hw)⟩
      · rcases (mem_finishVisit hc w).1 hw with ⟨k, l, hm, rfl⟩ | ⟨l, g, hn, ws', hs, hw⟩
        · exact .inl ⟨k, l, rfl, .inr ⟨i, hi, (visitInclude_ns _ _ _ _).1 hm⟩⟩
        · have hch : Child env f l g := .inr ⟨i, hi, (visitInclude_next _ _ _ _).1 hn⟩
          rcases hw with hw | hw | hw
          · rcases (ih hs).1 hw with hw | ⟨l', g', hb', he⟩
            · exact .inr ⟨l, g, .child _ _ _ hch, .inl hw⟩
            · exact .inr ⟨l', g', .step _ _ _ _ _ hch hb', he⟩
          · exact .inr ⟨l, g, .child _ _ _ hch, .inr (.inl ((mem_linkbaseRefSchema _ _ _).1 hw))⟩
          · exact .inr ⟨l, g, .child _ _ _ hch, .inr (.inr hw)⟩
    · -- a file that is referred to contributes its writes
      have hchild : ∀ l g, Child env f l g → ∀ w, (∃ ws', searchSchema env n g = some ws' ∧
          (w ∈ ws' ∨ w ∈ linkbaseRefSchema env g ∨ w = .schema l g)) →
          (∃ x ∈ f.imp, ∃ c, finishVisit env (visitImport env x) (searchSchema env n) = some c ∧ w ∈ c) ∨
          (∃ x ∈ f.incl, ∃ c, finishVisit env (visitInclude env x) (searchSchema env n) = some c ∧ w ∈ c) := by
        rintro l g (⟨i, hi, hc⟩ | ⟨i, hi, hc⟩) w hw
        · obtain ⟨c, hc'⟩ := collect_isSome.1 ⟨a, ha⟩ i hi
          exact .inl ⟨i, hi, c, hc', (mem_finishVisit hc' w).2 (.inr ⟨l, g, (visitImport_next _ _ _ _).2 hc, hw⟩)⟩
        · obtain ⟨c, hc'⟩ := collect_isSome.1 ⟨b, hb⟩ i hi
          exact .inr ⟨i, hi, c, hc', (mem_finishVisit hc' w).2 (.inr ⟨l, g, (visitInclude_next _ _ _ _).2 hc, hw⟩)⟩
      rintro (⟨k, l, rfl, ⟨i, hi, hm⟩ | ⟨i, hi, hm⟩⟩ | ⟨loc, g, hbl, he⟩)
      · obtain ⟨c, hc'⟩ := collect_isSome.1 ⟨a, ha⟩ i hi
        exact .inl ⟨i, hi, c, hc', (mem_finishVisit hc' _).2 (.inl ⟨k, l, (visitImport_ns _ _ _ _).2 hm, rfl⟩)⟩
      · obtain ⟨c, hc'⟩ := collect_isSome.1 ⟨b, hb⟩ i hi
        exact .inr ⟨i, hi, c, hc', (mem_finishVisit hc' _).2 (.inl ⟨k, l, (visitInclude_ns _ _ _ _).2 hm, rfl⟩)⟩
      · cases hbl with
        | child _ _ _ hc =>
          obtain ⟨ws', hs⟩ := hsub loc g hc
          refine hchild loc g hc w ⟨ws', hs, ?_⟩
          rcases he with he | he | he
          · exact .inl ((ih hs).2 (.inl he))
          · exact .inr (.inl ((mem_linkbaseRefSchema _ _ _).2 he))
          · exact .inr (.inr he)
        | step _ l k _ _ hc hb' =>
          obtain ⟨ws', hs⟩ := hsub l k hc
          exact hchild l k hc w ⟨ws', hs, .inl ((ih hs).2 (.inr ⟨loc, g, hb', he⟩))⟩

theorem mem_schemaRef {env : FolderEnv L D} {n : Nat} {inst : InstanceFile} {ws : List (Write L)}
    (h : schemaRef env n inst = some ws) (w : Write L) :
    w ∈ ws ↔ (∃ i ∈ inst.schemaRef, ∃ t loc f, RefTo env i t loc f ∧ w = .ns t loc) ∨
      ∃ loc g, Reach env inst loc g ∧ Emits env loc g w := by
  have hsub := schemaRef_isSome.1 ⟨ws, h⟩
  have hcol : ∀ i ∈ inst.schemaRef, ∃ c, finishVisit env (visitRef env i) (searchSchema env n) = some c :=
    collect_isSome.1 ⟨ws, h⟩
  rw [schemaRef] at h
  rw [mem_collect h]
  constructor
  · rintro ⟨i, hi, c, hc, hw⟩
    rcases (mem_finishVisit hc w).1 hw with ⟨k, l, hm, rfl⟩ | ⟨l, g, hn, ws', hs, hw⟩
    · obtain ⟨f, hf⟩ := (visitRef_ns _ _ _ _).1 hm
      exact .inl ⟨i, hi, k, l, f, hf, rfl⟩
    · have hr : Root env inst l g := ⟨i, hi, (visitRef_next _ _ _ _).1 hn⟩
      right
      rcases hw with hw | hw | hw
      · rcases (mem_searchSchema hs w).1 hw with hw | ⟨l', g', hb', he⟩
        · exact ⟨l, g, .root _ _ hr, .inl hw⟩
        · exact ⟨l', g', reach_below (.root _ _ hr) hb', he⟩
      · exact ⟨l, g, .root _ _ hr, .inr (.inl ((mem_linkbaseRefSchema _ _ _).1 hw))⟩
      · exact ⟨l, g, .root _ _ hr, .inr (.inr hw)⟩
  · rintro (⟨i, hi, t, l, f, hr, rfl⟩ | ⟨loc, g, hr, he⟩)
    · obtain ⟨c, hc⟩ := hcol i hi
      exact ⟨i, hi, c, hc, (mem_finishVisit hc _).2 (.inl ⟨t, l, (visitRef_ns _ _ _ _).2 ⟨f, hr⟩, rfl⟩)⟩
    · rcases reach_iff.1 hr with hr | ⟨l, f, hr, hb⟩
      · obtain ⟨ws', hs⟩ := hsub loc g hr
        obtain ⟨i, hi, hr⟩ := hr
        obtain ⟨c, hc⟩ := hcol i hi
        refine ⟨i, hi, c, hc, (mem_finishVisit hc _).2 (.inr ⟨loc, g, (visitRef_next _ _ _ _).2 hr, ws', hs, ?_⟩)⟩
        rcases he with he | he | he
        · exact .inl ((mem_searchSchema hs w).2 (.inl he))
        · exact .inr (.inl ((mem_linkbaseRefSchema _ _ _).2 he))
        · exact .inr (.inr he)
      · obtain ⟨ws', hs⟩ := hsub l f hr
        obtain ⟨i, hi, hr⟩ := hr
        obtain ⟨c, hc⟩ := hcol i hi
        exact ⟨i, hi, c, hc, (mem_finishVisit hc _).2 (.inr ⟨l, f, (visitRef_next _ _ _ _).2 hr, ws', hs,
          .inl ((mem_searchSchema hs w).2 (.inr ⟨loc, g, hb, he⟩))⟩)⟩

theorem schema_mem_iff {env : FolderEnv L D} {n : Nat} {inst : InstanceFile} {ws : List (Write L)}
    (h : schemaRef env n inst = some ws) (loc : String) (f : SchemaFile) :
    .schema loc f ∈ ws ↔ Reach env inst loc f := by
  rw [mem_schemaRef h]
  constructor
  · rintro (⟨i, hi, t, l, f, hr, hw⟩ | ⟨l, g, hr, ⟨_, _, hw, _⟩ | ⟨_, _, _, hw, _⟩ | hw⟩)
    · cases hw
    · cases hw
    · cases hw
    · cases hw; exact hr
  · intro hr; exact .inr ⟨loc, f, hr, .inr (.inr rfl)⟩

theorem link_mem_iff {env : FolderEnv L D} {n : Nat} {inst : InstanceFile} {ws : List (Write L)}
    (h : schemaRef env n inst = some ws) (kind : LKind) (href : String) (l : L) :
    .link kind href l ∈ ws ↔ (∃ loc f, Reach env inst loc f ∧ LinkIn env f kind href) ∧
      env.readLinkbase kind href = some l := by
  rw [mem_schemaRef h]
  constructor
  · rintro (⟨i, hi, t, l, f, hr, hw⟩ | ⟨l, g, hr, ⟨_, _, hw, _⟩ | ⟨_, _, _, hw, h1, h2⟩ | hw⟩)
    · cases hw
    · cases hw
    · cases hw; exact ⟨⟨_, _, hr, h1⟩, h2⟩
    · cases hw
  · rintro ⟨⟨loc, f, hr, h1⟩, h2⟩; exact .inr ⟨loc, f, hr, .inr (.inl ⟨_, _, _, rfl, h1, h2⟩)⟩

theorem ns_mem_iff {env : FolderEnv L D} {m : Nat} {inst : InstanceFile} {ws : List (Write L)}
    (h : schemaRef env m inst = some ws) (n loc : String) :
    .ns n loc ∈ ws ↔ Locates env inst n loc := by
  rw [mem_schemaRef h]
  constructor
  · rintro (⟨i, hi, t, l, f, hr, hw⟩ | ⟨l, g, hr, ⟨_, _, hw, hn⟩ | ⟨_, _, _, hw, _⟩ | hw⟩)
    · cases hw; exact .inl ⟨i, hi, f, hr⟩
    · cases hw; exact .inr ⟨l, g, hr, hn⟩
    · cases hw
    · cases hw
  · rintro (⟨i, hi, f, hr⟩ | ⟨l, g, hr, hn⟩)
    · exact .inl ⟨i, hi, n, loc, f, hr, rfl⟩
    · exact .inr ⟨l, g, hr, .inl ⟨n, loc, rfl, hn⟩⟩

/-! ## Applying the writes -/

theorem foldl_mapSet_mem {V : Type} (l : List (String × V)) (m : GoMap String V) (k : String) (v : V)
    (h : mapGet (l.foldl (fun m p => mapSet m p.1 p.2) m) k = some v) :
    (k, v) ∈ l ∨ mapGet m k = some v := by
  induction l generalizing m with
  | nil => exact .inr h
  | cons p ps ih =>
    rcases ih _ h with h | h
    · exact .inl (List.mem_cons_of_mem _ h)
    · rw [mapGet_mapSet] at h
      split at h
      · rename_i hk
        simp at h
        left; rw [← h]; subst hk; exact List.mem_cons_self
      · exact .inr h

theorem foldl_mapSet_isSome {V : Type} (l : List (String × V)) (m : GoMap String V) (k : String)
    (h : (∃ v, (k, v) ∈ l) ∨ ∃ v, mapGet m k = some v) :
    ∃ v, mapGet (l.foldl (fun m p => mapSet m p.1 p.2) m) k = some v := by
  induction l generalizing m with
  | nil => simpa using h
  | cons p ps ih =>
    apply ih
    rcases h with ⟨v, h⟩ | ⟨v, h⟩
    · rcases List.mem_cons.1 h with rfl | h
      · right; exact ⟨v, by simp⟩
      · left; exact ⟨v, h⟩
    · right
      rw [mapGet_mapSet]
      split
      · exact ⟨_, rfl⟩
      · exact ⟨v, h⟩

/-- With at most one value per key the map holds exactly the pairs written. -/
theorem foldl_mapSet_iff {V : Type} (l : List (String × V))
    (hf : ∀ k v v', (k, v) ∈ l → (k, v') ∈ l → v = v') (k : String) (v : V) :
    mapGet (l.foldl (fun m p => mapSet m p.1 p.2) []) k = some v ↔ (k, v) ∈ l := by
  constructor
  · intro h
    rcases foldl_mapSet_mem _ _ _ _ h with h | h
    · exact h
    · simp at h
  · intro h
    obtain ⟨v', h'⟩ := foldl_mapSet_isSome l [] k (.inl ⟨v, h⟩)
    rcases foldl_mapSet_mem _ _ _ _ h' with h2 | h2
    · rw [h', hf k v v' h h2]
    · simp at h2

def nsPairs (ws : List (Write L)) : List (String × String) :=
  ws.filterMap fun w => match w with | .ns k v => some (k, v) | _ => none
def schemaPairs (ws : List (Write L)) : List (String × SchemaFile) :=
  ws.filterMap fun w => match w with | .schema k v => some (k, v) | _ => none
def linkPairs (kind : LKind) (ws : List (Write L)) : List (String × L) :=
  ws.filterMap fun w => match w with | .link kd k v => if kd = kind then some (k, v) else none | _ => none

theorem mem_nsPairs (ws : List (Write L)) (k v : String) : (k, v) ∈ nsPairs ws ↔ .ns k v ∈ ws := by
  simp only [nsPairs, List.mem_filterMap]
  constructor
  · rintro ⟨w, hw, h⟩
    split at h
    · simp at h; obtain ⟨rfl, rfl⟩ := h; exact hw
    · simp at h
  · intro h; exact ⟨_, h, rfl⟩

theorem mem_schemaPairs (ws : List (Write L)) (k : String) (v : SchemaFile) :
    (k, v) ∈ schemaPairs ws ↔ .schema k v ∈ ws := by
  simp only [schemaPairs, List.mem_filterMap]
  constructor
  · rintro ⟨w, hw, h⟩
    split at h
    · simp at h; obtain ⟨rfl, rfl⟩ := h; exact hw
    · simp at h
  · intro h; exact ⟨_, h, rfl⟩

theorem mem_linkPairs (kind : LKind) (ws : List (Write L)) (k : String) (v : L) :
    (k, v) ∈ linkPairs kind ws ↔ .link kind k v ∈ ws := by
  simp only [linkPairs, List.mem_filterMap]
  constructor
  · rintro ⟨w, hw, h⟩
    split at h
    · split at h
      · rename_i he
        simp at h; obtain ⟨rfl, rfl⟩ := h; subst he; exact hw
      · simp at h
    · simp at h
  · intro h; exact ⟨_, h, by simp⟩

theorem applyWrites_ns (ws : List (Write L)) (fo : Folder L D) :
    (ws.foldl applyWrite fo).namespaces =
      (nsPairs ws).foldl (fun m p => mapSet m p.1 p.2) fo.namespaces := by
  induction ws generalizing fo with
  | nil => rfl
  | cons w ws ih => rw [List.foldl_cons, ih]; cases w <;> rfl

theorem applyWrites_schemas (ws : List (Write L)) (fo : Folder L D) :
    (ws.foldl applyWrite fo).schemas =
      (schemaPairs ws).foldl (fun m p => mapSet m p.1 p.2) fo.schemas := by
  induction ws generalizing fo with
  | nil => rfl
  | cons w ws ih => rw [List.foldl_cons, ih]; cases w <;> rfl

theorem applyWrites_links (ws : List (Write L)) (fo : Folder L D) (kind : LKind) :
    (ws.foldl applyWrite fo).links kind =
      (linkPairs kind ws).foldl (fun m p => mapSet m p.1 p.2) (fo.links kind) := by
  induction ws generalizing fo with
  | nil => rfl
  | cons w ws ih =>
    rw [List.foldl_cons, ih]
    cases w with
    | ns => rfl
    | schema => rfl
    | link kd k v =>
      by_cases h : kind = kd
      · subst h; simp [linkPairs, applyWrite]
      · simp [linkPairs, applyWrite, h, Ne.symm h, eq_comm]

theorem applyWrites_rest (ws : List (Write L)) (fo : Folder L D) :
    (ws.foldl applyWrite fo).entry = fo.entry ∧ (ws.foldl applyWrite fo).document = fo.document ∧
    (ws.foldl applyWrite fo).instances = fo.instances := by
  induction ws generalizing fo with
  | nil => simp
  | cons w ws ih => rw [List.foldl_cons]; have := ih (applyWrite fo w); cases w <;> exact this

theorem reach_read {env : FolderEnv L D} {inst : InstanceFile} {loc : String} {f : SchemaFile}
    (h : Reach env inst loc f) : env.readSchema loc = some f := by
  cases h with
  | root _ _ h => obtain ⟨_, _, _, _, _, h, _⟩ := h; exact h.2.2
  | child _ _ _ _ _ h =>
    rcases h with ⟨_, _, _, _, h⟩ | ⟨_, _, _, _, _, h, _⟩ <;> exact h.2.2

end Telefacts.Disc
