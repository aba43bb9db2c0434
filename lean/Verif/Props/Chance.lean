import Verif.Proof.Chance
import Verif.Props.SameCell
import Verif.Props.Offers
import Verif.Props.FollowedArcsDemo
/-! # C176: what an answer owes to chance -/
namespace Telefacts
open Telefacts.Server Telefacts.Hydrate Telefacts.Schema Telefacts.Instance Telefacts.Render Telefacts.Spec Telefacts.Linkbase
  Telefacts.Document Telefacts.Json Telefacts.Catalog

theorem strs_eq {js : List Json} {ls : List String} (h : List.Forall₂ IsStr js ls) : js = ls.map .str := by
  induction h with
  | nil => rfl
  | cons h _ ih => rw [List.map_cons, ih, h]

theorem loads_one {site : Site} {l : Loaded} (hl : Loads site l.folder l.world l.files l.hyd) : (values l.hyd.instances).length ≤ 1 := by
  obtain ⟨_, _, fuel, sched, _, hload, _⟩ := hl
  rcases load_instances hload with ⟨e, _⟩ | ⟨_, _, _, _, _, _, _, _, _, e, _⟩ <;> rw [e] <;> simp

theorem expressFact_chance {env : ExpressEnv} (mo : GoMap String RelevantMember → GoMap String RelevantMember) (h : ∀ m, (env.memberOrder m).Perm m)
    (h' : ∀ m, (mo m).Perm m) (href ref : String) (fact : Fact) :
    expressFact env href ref fact = expressFact { env with memberOrder := mo } href ref fact := by
  unfold expressFact
  simp only
  split
  · rfl
  · split
    · rfl
    · rename_i c _
      cases hr : getRelevantContexts env.folder (c.scheme ++ "/" ++ c.ident) [href] with
      | panic => rfl
      | loop => rfl
      | done rel =>
        simp only [Run.andThen]
        rw [memberGrid_order hr _ (fun x hx => ?_) _ _ _ _ h h']
        rw [Option.mem_toList] at hx
        exact List.mem_of_find?_eq_some hx

/-- **C176 (partial).** The answer about a fact does not depend on the orders in which maps are ranged over, but for the order of the label
linkbases: it is the same if there is at most one, or if they are taken in the same order for every concept. Missing: folders with several
label linkbases that give a concept different texts (`C176_label_fails`). -/
theorem C176_expression_partial (site : Site) (l : Loaded) (hl : Loads site l.folder l.world l.files l.hyd) (c c' : Choice) (hc : c.Fair l.hyd)
    (hc' : c'.Fair l.hyd) (hlb : c.labelOrder = c'.labelOrder ∨ l.hyd.label.length ≤ 1) (name ref : String) : expression site c name ref l = expression site c' name ref l := by
  have hfold := folderOf_choice site hc hc' hlb
  have hone := loads_one hl
  have e0 : expressEnv site c' l = { expressEnv site c l with memberOrder := c'.memberOrder } := by
    unfold expressEnv
    rw [factEnv_choice site c' c, hfold, perm_short hc.order hone, perm_short hc'.order hone]
  unfold expression
  rw [e0]
  congr 1
  unfold express
  simp only
  split
  · rfl
  · split
    · rfl
    · split
      · rfl
      · split
        · rfl
        · rfl
        · split
          · rfl
          · exact expressFact_chance _ hc.member hc'.member _ _ _

/-- **C176 (partial).** For a folder with at most one presentation, definition, calculation, and label linkbase: a renderable that is
returned is returned whatever the orders in which maps are ranged over and however the goroutines are interleaved, with the same rows,
columns, members, domains, relationships, contributions, and facts, and the same footnotes. The answers differ in the order and numbers of the
footnotes, in the lists of languages and of label roles, and in the languages of column headers and of facts of calculations only. Missing:
these (`C176_fails`), and folders with several linkbases of a kind (`C81_fails`, `C176_label_fails`). -/
theorem C176_renderable_partial (site : Site) (l : Loaded) (hp : (values l.hyd.presentation).length ≤ 1)
    (hd : (values l.hyd.definition).length ≤ 1) (hk : (values l.hyd.calculation).length ≤ 1) (c c' : Choice) (hc : c.Fair l.hyd)
    (hc' : c'.Fair l.hyd) (hlb : c.labelOrder = c'.labelOrder ∨ l.hyd.label.length ≤ 1) (hash : String) (b : Option Store.Bytes) (e : Option String) (h : render site c hash l = .done (b, e)) :
    (e ≠ none ∧ render site c' hash l = .done (b, e)) ∨
    ∃ found subject rset g g', b = some (encodeUtf8 (marshalRenderable found ⟨subject, rset, g⟩)) ∧
      render site c' hash l = .done (some (encodeUtf8 (marshalRenderable found ⟨subject, rset, g'⟩)), e) ∧ ByChance g g' := by
  unfold render at h ⊢
  split at h
  · rename_i hsel
    cases h
    exact .inl ⟨by simp, rfl⟩
  · rename_i en r hsel
    cases hg : renderGrids (Server.folderOf site c l) (gridEnv site c l) site.spanish c.schedule (booksOf site c) (stringify en) r.roleURI with
    | panic => rw [hg] at h; simp [Run.andThen] at h
    | loop => rw [hg] at h; simp [Run.andThen] at h
    | done g =>
      rw [hg] at h
      simp only [Run.andThen] at h
      have hfold := folderOf_choice site hc' hc (hlb.imp_left Eq.symm)
      have hfe : factEnv site c' l = factEnv site c l := factEnv_choice site c' c l
      have hs : Sources (gridEnv site c l).source (gridEnv site c' l).source := by
        show Sources (folderSource _ _ _ _ _) (folderSource _ (factEnv site c' l) _ _ _)
        rw [hfe]
        exact sources_of _ _ _ _ _ _ _ hc.cell hc.last hc'.cell hc'.last
      have hcalc : c.calculation = c'.calculation := (perm_short hc.calculation hk).trans (perm_short hc'.calculation hk).symm
      obtain ⟨g', hg', hb⟩ := renderGrids_chance (b := booksOf site c) (b' := booksOf site c') (sched' := c'.schedule) hs hc.member hc'.member hc.map hc'.map (fun x => getLabel_wf _ _)
        (fun x => (C49_labels _ x).2.2) ((perm_short hc.presentation hp).trans (perm_short hc'.presentation hp).symm)
        ((perm_short hc.definition hd).trans (perm_short hc'.definition hd).symm)
        ((perm_short hc.definitionAgain hd).trans (perm_short hc'.definitionAgain hd).symm)
        (funext fun x => (perm_short (hc.dimensionOrder x) hd).trans (perm_short (hc'.dimensionOrder x) hd).symm) rfl hc.drs hc'.drs
        hcalc hg
      rw [hfold, hg']
      cases hq : entityQuery site.names en.scheme en.chars with
      | panic => rw [hq] at h; simp at h
      | err m =>
        rw [hq] at h
        cases h
        exact .inl ⟨by simp, rfl⟩
      | ok n =>
        rw [hq] at h
        simp only [Run.done.injEq, Prod.mk.injEq] at h
        obtain ⟨rfl, rfl⟩ := h
        rw [← hcalc]
        exact .inr ⟨_, _, _, g, g', rfl, rfl, hb⟩

/-! ## Languages -/

/-- Goroutine `i` has the language first. -/
def ahead (a : String) (l : List String) : List String := if a ∈ l then a :: l.erase a else l

theorem ahead_perm (a : String) (l : List String) : (ahead a l).Perm l := by
  unfold ahead
  split
  · rename_i h; exact (List.perm_cons_erase h).symm
  · exact .refl _

theorem head_dedup {a : String} {l : List String} (h : l.head? = some a) : (dedup l).head? = some a := by
  cases l with
  | nil => cases h
  | cons x xs => cases h; simp [dedup, dedupAux]

/-- One goroutine after the other, goroutine `i` first, which has the language first. -/
def favour (i : Nat) (a : String) : Schedule where
  langs := (i :: [0, 1, 2].erase i).flatMap fun g => [g, g, g]
  roles := [0, 1, 2].flatMap fun g => [g, g, g]
  grow := fun _ => 0
  turn := fun _ => ahead a
  fair := fun _ => ahead_perm a

theorem favour_first (i : Nat) (hi : i < 3) (a : String) (x y z : List String) (h : a ∈ pick x y z i) :
    (langsAfter ((favour i a).lists x y z) (favour i a).grow 8 (favour i a).langs).head? = some a := by
  unfold langsAfter runAppends
  apply head_dedup
  show (sliceElems (((i :: [0, 1, 2].erase i).flatMap fun g => [g, g, g]).foldl _ _)).head? = _
  rw [append_serial _ _ _ (by
    have : i = 0 ∨ i = 1 ∨ i = 2 := by omega
    rcases this with rfl | rfl | rfl <;> decide) _ (by simp [emptySlice]) (by simp [emptySlice])]
  have e : sliceElems (emptySlice 8) = [] := by simp [sliceElems, emptySlice]
  rw [e, List.nil_append, List.flatMap_cons]
  have : (favour i a).lists x y z i = a :: (pick x y z i).erase a := by
    show ahead a (pick x y z i) = _
    unfold ahead
    rw [if_pos h]
  rw [this]
  rfl

/-- **C176.** Each language that a renderable offers is the first one in the answer to some other request for it. -/
theorem C176_first_fails (site : Site) (l : Loaded) (c : Choice) (hc : c.Fair l.hyd) (entity role : String) (g : Grids (Option MultilingualFact))
    (hg : renderGrids (Server.folderOf site c l) (gridEnv site c l) site.spanish c.schedule (booksOf site c) entity role = .done g) (a : Lang)
    (ha : a ∈ g.langs) : ∃ sched g', { c with schedule := sched }.Fair l.hyd ∧
      renderGrids (Server.folderOf site { c with schedule := sched } l) (gridEnv site { c with schedule := sched } l) site.spanish sched
        (booksOf site { c with schedule := sched }) entity role = .done g' ∧ g'.langs.head? = some a := by
  obtain ⟨p, pr, pl, d, dr, dl, k, kr, kl, h1, h2, h3, h4, _⟩ := C52_renderable_partial _ _ _ _ _ _ _ g hg
  have hi : ∃ i, i < 3 ∧ a ∈ pick pl dl kl i := by
    rcases h4 a ha with h | h | h
    · exact ⟨0, by omega, h⟩
    · exact ⟨1, by omega, h⟩
    · exact ⟨2, by omega, h⟩
  obtain ⟨i, hi, h⟩ := hi
  refine ⟨favour i a, formatPeriod site.spanish ⟨p, d, k, langsAfter ((favour i a).lists pl dl kl) (favour i a).grow 8 (favour i a).langs,
    langsAfter ((favour i a).lists pr dr kr) (favour i a).grow 20 (favour i a).roles⟩, ⟨hc.ns, hc.label, hc.map, hc.member, hc.cell, hc.last, hc.drs, hc.presentation, hc.definition, hc.definitionAgain,
    hc.dimensionOrder, hc.calculation, hc.order⟩, ?_, favour_first i hi a pl dl kl h⟩
  unfold renderGrids
  show (pGrid _ _ entity role c.presentation).andThen _ = _
  rw [show pGrid (Server.folderOf site { c with schedule := favour i a } l) (gridEnv site { c with schedule := favour i a } l) entity role
    c.presentation = .done (p, pr, pl) from h1]
  simp only [Run.andThen]
  rw [show dGrid (Server.folderOf site { c with schedule := favour i a } l) (gridEnv site { c with schedule := favour i a } l) entity role
    (booksOf site { c with schedule := favour i a }) = .done (d, dr, dl) from h2]
  simp only
  rw [show cGrid (Server.folderOf site { c with schedule := favour i a } l) (gridEnv site { c with schedule := favour i a } l) entity role
    (booksOf site { c with schedule := favour i a }) = .done (k, kr, kl) from h3]

theorem langs_read {site : Site} {l : Loaded} {c : Choice} (hc : c.Fair l.hyd) {entity : String} {r : RSet} {subject : Subject}
    {g : Grids (Option MultilingualFact)}
    (hg : renderGrids (Server.folderOf site c l) (gridEnv site c l) site.spanish c.schedule (booksOf site c) entity r.roleURI = .done g) :
    ∀ v, IsText (marshalRenderable (calcFound r.roleURI [] c.calculation) ⟨subject, r, g⟩) v → ∃ z, Member v "Lang" z ∧ Elems IsStr z g.langs := by
  intro v hv
  obtain ⟨w, hw, _, _, hl, _⟩ := C116_renderable (Server.folderOf site c l) (fun x => getLabel_wf _ _) (factEnv site c l) (notesOf site l) c.cellOrder
    c.lastOrder (gridEnv site c l) hc.member rfl site.spanish c.schedule (booksOf site c) entity r.roleURI g hg subject r
  cases (hw v).1 hv
  exact hl

/-- **C176 (refuted).** Whenever a client finds two languages in the list of languages of a renderable, the same request may be
answered with other bytes. -/
theorem C176_fails (site : Site) (l : Loaded) (c : Choice) (hc : c.Fair l.hyd) (hash : String) (b : Store.Bytes)
    (h : render site c hash l = .done (some b, none)) (v : Json) (hv : IsText (decodeUtf8 b) v) (i j : Nat) (x y : String) (hxy : x ≠ y)
    (hx : At v [.key "Lang", .idx i] (.str x)) (hy : At v [.key "Lang", .idx j] (.str y)) :
    ∃ c' b', c'.Fair l.hyd ∧ render site c' hash l = .done (some b', none) ∧ b' ≠ b := by
  unfold render at h
  split at h
  · cases h
  rename_i en r hsel
  cases hg : renderGrids (Server.folderOf site c l) (gridEnv site c l) site.spanish c.schedule (booksOf site c) (stringify en) r.roleURI with
  | panic => rw [hg] at h; simp [Run.andThen] at h
  | loop => rw [hg] at h; simp [Run.andThen] at h
  | done g =>
    rw [hg] at h
    simp only [Run.andThen] at h
    cases hq : entityQuery site.names en.scheme en.chars with
    | panic => rw [hq] at h; simp at h
    | err m => rw [hq] at h; simp at h
    | ok n =>
      rw [hq] at h
      simp only [Run.done.injEq, Prod.mk.injEq, Option.some.injEq, and_true] at h
      rw [← h, decode_encoded] at hv
      obtain ⟨z, hz, js, rfl, hjs⟩ := langs_read hc hg v hv
      have inLangs : ∀ k t, At v [.key "Lang", .idx k] (.str t) → t ∈ g.langs := by
        rintro k t ⟨z', hz', l', y', hl', hk, ht⟩
        cases member_only hz hz'
        cases hl'
        cases ht
        rw [strs_eq hjs, List.getElem?_map, Option.map_eq_some_iff] at hk
        obtain ⟨s, hs, e⟩ := hk
        cases e
        exact List.mem_of_getElem? hs
      obtain ⟨a, ha, hne⟩ : ∃ a ∈ g.langs, g.langs.head? ≠ some a := by
        by_cases e : g.langs.head? = some x
        · exact ⟨y, inLangs _ _ hy, fun e' => hxy (Option.some.inj (e.symm.trans e'))⟩
        · exact ⟨x, inLangs _ _ hx, e⟩
      obtain ⟨sched, g', hc', hg', hhead⟩ := C176_first_fails site l c hc _ _ g hg a ha
      refine ⟨{ c with schedule := sched }, encodeUtf8 (marshalRenderable (calcFound r.roleURI [] c.calculation) ⟨⟨n, en⟩, r, g'⟩), hc', ?_, ?_⟩
      · unfold render
        simp only [hsel]
        rw [hg']
        simp only [Run.andThen, hq]
      · intro e
        rw [← h] at e
        have e := congrArg decodeUtf8 e
        rw [decode_encoded, decode_encoded] at e
        rw [← e] at hv
        obtain ⟨z', hz', hz2⟩ := langs_read hc' hg' v hv
        cases member_only hz hz'
        obtain ⟨js', ejs, hjs'⟩ := hz2
        cases ejs
        have : g.langs = g'.langs := by
          have e := (strs_eq hjs).symm.trans (strs_eq hjs')
          exact List.map_injective_iff.2 (fun a b h => Json.str.inj h) e
        rw [← this] at hhead
        exact hne hhead

/-- The hypotheses of C176 are met: a folder with one linkbase of each kind, whose renderable has two languages. -/
example : ∃ fo h b v, Loads arcSite "a-1" arcWorld fo h ∧ (demoChoice h).Fair h ∧ (values h.presentation).length ≤ 1 ∧
    (values h.definition).length ≤ 1 ∧ (values h.calculation).length ≤ 1 ∧
    render arcSite (demoChoice h) demoSlug ⟨"a-1", arcWorld, fo, h⟩ = .done (some b, none) ∧ IsText (decodeUtf8 b) v ∧
    At v [.key "Lang", .idx 0] (.str "Unlabelled") ∧ At v [.key "Lang", .idx 1] (.str "Truncated") := by
  have he : (match load arcDisk arcWorld 3 id with
    | some (.done (some (fo, h))) =>
      decide ((values h.presentation).length ≤ 1 ∧ (values h.definition).length ≤ 1 ∧ (values h.calculation).length ≤ 1) &&
      decide (select demoSlug (sortedEntities (values h.instances)) (sortedRSets (values h.schemas)) = some (⟨"s", "1"⟩, ⟨"001 - A", "r"⟩)) &&
      (match renderGrids (Server.folderOf arcSite (demoChoice h) ⟨"a-1", arcWorld, fo, h⟩) (gridEnv arcSite (demoChoice h) ⟨"a-1", arcWorld, fo, h⟩)
          arcSite.spanish (demoChoice h).schedule (booksOf arcSite (demoChoice h)) (stringify ⟨"s", "1"⟩) "r" with
        | .done g => decide (g.langs = ["Unlabelled", "Truncated"])
        | _ => false)
    | _ => false) = true := by decide +kernel
  have hn : ∃ n, entityQuery arcSite.names "s" "1" = .ok n := by
    have : (match entityQuery arcSite.names "s" "1" with | .ok _ => true | _ => false) = true := by decide +kernel
    split at this
    · exact ⟨_, ‹_›⟩
    · cases this
  obtain ⟨n, hn⟩ := hn
  split at he
  · rename_i fo h hl
    simp only [Bool.and_eq_true, decide_eq_true_eq] at he
    obtain ⟨⟨⟨h1, h2, h3⟩, h4⟩, h5⟩ := he
    split at h5
    · rename_i g hg
      have h5 := of_decide_eq_true h5
      have hr : render arcSite (demoChoice h) demoSlug ⟨"a-1", arcWorld, fo, h⟩ =
          .done (some (encodeUtf8 (marshalRenderable (calcFound "r" [] (demoChoice h).calculation) ⟨⟨n, ⟨"s", "1"⟩⟩, ⟨"001 - A", "r"⟩, g⟩)), none) := by
        unfold render
        simp only [h4]
        rw [hg]
        simp only [Run.andThen, hn]
      obtain ⟨v, hv, _⟩ := C116_renderable _ (fun x => getLabel_wf _ _) _ _ _ _ _ (demoChoice_fair h).member rfl _ _ _ _ _ g hg ⟨n, ⟨"s", "1"⟩⟩ ⟨"001 - A", "r"⟩
      have hv := (hv v).2 rfl
      obtain ⟨z, hz, js, rfl, hjs⟩ := langs_read (r := ⟨"001 - A", "r"⟩) (demoChoice_fair h) hg v hv
      rw [h5] at hjs
      have hjs := strs_eq hjs
      refine ⟨fo, h, _, v, arc_loads hl, demoChoice_fair h, h1, h2, h3, hr, by rw [decode_encoded]; exact hv, ?_, ?_⟩
      · exact ⟨_, hz, js, _, rfl, by rw [hjs]; rfl, rfl⟩
      · exact ⟨_, hz, js, _, rfl, by rw [hjs]; rfl, rfl⟩
    · cases h5
  · cases he

end Telefacts
