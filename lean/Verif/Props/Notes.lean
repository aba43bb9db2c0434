import Verif.Spec.Notes
import Verif.Props.Money
import Verif.Props.Units
/-! # C153: the footnotes of facts, from the files to the client -/
namespace Telefacts
open Telefacts.Server Telefacts.Hydrate Telefacts.Catalog Telefacts.Json Telefacts.Cache Telefacts.Schema Telefacts.Instance
  Telefacts.Render Telefacts.Decode Telefacts.Spec Telefacts.Linkbase Telefacts.Query

/-- The footnote links of the folder. -/
theorem loaded_notes {d : Disk} {w : Hydrate.World} {fuel : Nat} {sched : List (Disc.Write LinkbaseFile) → List (Disc.Write LinkbaseFile)}
    {fo : Files} {h : Hydratable} (hl : load d w fuel sched = some (.done (some (fo, h)))) {root : Xml} {inst : Disc.InstanceFile}
    (hroot : EntryRoot d root inst) : ∃ i, values h.instances = [i] ∧ ∀ ls, NoteLinks root ls → i.footnoteLinks = ls := by
  obtain ⟨key, hE, hread⟩ := hroot
  rcases load_instances hl with ⟨_, hno⟩ | ⟨key', inst', root', file', i, hE', hr', hf', _, hv, hio, _⟩
  · exact absurd hE (hno _ _)
  obtain ⟨rfl, rfl⟩ := entryInstance_unique hE hE'
  rw [hread] at hr'; cases hr'
  refine ⟨i, hv, ?_⟩
  rintro ls ⟨es, l, h1, h2, h3⟩
  obtain ⟨_, _, _, _, _, hn, _⟩ := ((C99_instance root).2 file').1 hf'
  obtain ⟨l', h2', h3'⟩ := hio.footnoteLinks
  rw [kids_iff isFootnoteLink_iff] at h1 hn
  rw [← h1] at hn
  subst hn
  rw [collected_iff hydrateFootnoteLink_iff] at h2 h2'
  rw [← h2] at h2'
  subst h2'
  exact stableSortedBy_unique h3' h3

/-- What a footnote link of a file says. -/
theorem noteLinks_named {root : Xml} {ls : List FootnoteLink} (h : NoteLinks root ls) : ∀ link ∈ ls, ∀ a ∈ link.arcs, a.frm ≠ "" ∧ a.to ≠ "" := by
  obtain ⟨es, l, _, h2, h3⟩ := h
  intro link hlink a ha
  obtain ⟨e, _, he⟩ := collected_mem h2 link (h3.1.mem_iff.1 hlink)
  obtain ⟨_, _, _, _, _, harcs⟩ := he
  obtain ⟨_, _, h⟩ := collected_mem harcs a ha
  exact ⟨h.2.2.2.2.1, h.2.2.2.2.2.2⟩

/-- Footnotes that are found are footnotes of a link. -/
theorem notes_of_links {tree : List FootnoteArc → RTree} {i : HInstance} {f : Option Fact} {fn : Footnote}
    (h : fn ∈ getFootnotes tree [i] f) : ∃ link ∈ i.footnoteLinks, fn ∈ link.footnotes := by
  cases f with
  | none => simp [getFootnotes] at h
  | some f =>
    obtain ⟨_, _, _, _, _, _, _, hq⟩ := footnotesLoop_mem h
    have e2 := List.mem_of_find?_eq_some hq
    simp only [List.mem_flatMap, List.mem_singleton] at e2
    obtain ⟨link', ⟨i', rfl, hl'⟩, hm'⟩ := e2
    exact ⟨link', hl', hm'⟩

/-- The footnotes that are found for a fact, in tidy links. -/
theorem tidy_notes {tree : List FootnoteArc → RTree} (ht : Faithful tree) {i : HInstance} {f : Fact} {ls : List FootnoteLink}
    (hi : i.footnoteLinks = ls) (hn : ∀ link ∈ ls, ∀ a ∈ link.arcs, a.frm ≠ "" ∧ a.to ≠ "") (htidy : Tidy ls) (hid : '#' ∉ f.id.toList)
    (hone : StartsOnce ls f.id) (fn : Footnote) : fn ∈ getFootnotes tree [i] (some f) ↔ FootnoteOn ls f.id fn := by
  subst hi
  have hto : ∀ link ∈ i.footnoteLinks, ∀ a ∈ link.arcs, '#' ∉ a.to.toList ∧ ∀ l ∈ i.footnoteLinks.flatMap FootnoteLink.locs, l.label ≠ a.to := by
    intro link hl a ha
    obtain ⟨_, fn, hfn, he⟩ := htidy.targets link hl a ha
    obtain ⟨h1, h2⟩ := htidy.labels link hl fn hfn
    rw [← he]
    exact ⟨h1 ▸ h2, (htidy.apart link hl fn hfn).1⟩
  have hlab : ∀ i' ∈ [i], ∀ link ∈ i'.footnoteLinks, ∀ a ∈ link.arcs, a.frm ≠ "" ∧ a.to ≠ "" ∧ '#' ∉ a.frm.toList ∧ '#' ∉ a.to.toList := by
    intro i' hi'
    rw [List.mem_singleton] at hi'
    subst hi'
    intro link hl a ha
    exact ⟨(hn link hl a ha).1, (hn link hl a ha).2, (htidy.targets link hl a ha).1, (hto link hl a ha).1⟩
  obtain ⟨k1, k2⟩ := C30_footnotes_partial tree ht [i] f hid hlab (by
    intro i' hi'
    rw [List.mem_singleton] at hi'
    subst hi'
    intro link hl a ha b hb
    obtain ⟨_, fn, hfn, he⟩ := htidy.targets link hl a ha
    rw [← he]
    exact fun h => (htidy.apart link hl fn hfn).2 b hb h.symm)
  constructor
  · intro hfn
    obtain ⟨_, i', hi', link, hl, a, ha, hr, hr'⟩ := k2 fn hfn
    rw [List.mem_singleton] at hi'
    subst hi'
    obtain ⟨link', hl', hfn'⟩ := notes_of_links hfn
    obtain ⟨h1, h2⟩ := htidy.labels link' hl' fn hfn'
    obtain ⟨_, fn₂, hfn₂, he₂⟩ := htidy.targets link hl a ha
    have hr' := hr' h2
    have hida : fn.id = a.to := by
      rcases hr' with ⟨l, _, hf, _⟩ | ⟨_, h⟩
      · obtain ⟨q1, q2⟩ := firstWith_mem hf
        exact absurd q2.1 ((hto link hl a ha).2 l q1)
      · exact h
    have : fn₂ = fn := htidy.unique link hl link' hl' fn₂ hfn₂ fn hfn' (by rw [(htidy.labels link hl fn₂ hfn₂).1, he₂, hida])
    subst this
    exact ⟨link, hl, hfn₂, a, ha, hr, he₂⟩
  · rintro ⟨link, hl, hfn, a, ha, hr, he⟩
    refine k1 i (by simp) link hl fn a.frm ⟨hfn, a, ha, hr, he⟩ ?_ ?_ (htidy.labels link hl fn hfn).1 (htidy.apart link hl fn hfn).1 ?_
    · intro i' hi'
      rw [List.mem_singleton] at hi'
      subst hi'
      exact htidy.arcs
    · intro i' hi' link' hl' a' ha' hr'
      rw [List.mem_singleton] at hi'
      subst hi'
      obtain ⟨q1, q2⟩ := hone link' hl' link hl a' ha' a ha hr' hr
      exact ⟨rfl, q1, q2⟩
    · intro i' hi'
      rw [List.mem_singleton] at hi'
      subst hi'
      intro link' hl' fn' hfn' heq
      exact htidy.unique link' hl' link hl fn' hfn' fn hfn heq

/-- Every fact has a text without a language. -/
theorem unlabelled_cell (fe : FactEnv) (f : Fact) : ∃ e : FactExpression, ∀ langs, "Unlabelled" ∈ langs →
    ∃ m, renderCell fe (some f) langs = some m ∧ ("Unlabelled", e) ∈ m := by
  cases hn : f.isNil with
  | true => exact ⟨_, fun langs _ => ⟨_, (C56_missing_nil fe langs f).2 hn, List.mem_singleton.2 rfl⟩⟩
  | false =>
    have key : ∀ langs, "Unlabelled" ∈ langs → ∃ m e, renderCell fe (some f) langs = some m ∧ ("Unlabelled", e) ∈ m := by
      intro langs hl
      obtain ⟨m, h1, _, h3⟩ := C56_entries fe langs f hn
      obtain ⟨⟨k, e⟩, hq, rfl⟩ := List.mem_map.1 ((h3 "Unlabelled").2 ⟨hl, .inr (.inr rfl)⟩)
      exact ⟨m, e, h1, hq⟩
    obtain ⟨m, e, hm, he⟩ := key ["Unlabelled"] (by simp)
    have hr := renderCell_entry fe _ f hn m hm _ e he
    refine ⟨e, fun langs hl => ?_⟩
    obtain ⟨m', e', hm', he'⟩ := key langs hl
    have hr' := renderCell_entry fe _ f hn m' hm' _ e' he'
    rw [hr] at hr'
    cases hr'
    exact ⟨m', hm', he'⟩

/-- As many footnotes as identifiers. -/
theorem notes_count {P : Footnote → Prop} :
    ∀ ids : List String, ids.Nodup → (∀ k ∈ ids, ∃ fn, P fn ∧ fn.id = k) → ∃ notes : List Footnote, notes.map Footnote.id = ids ∧ notes.Nodup ∧
      ∀ fn ∈ notes, P fn := by
  intro ids
  induction ids with
  | nil => intro _ _; exact ⟨[], rfl, .nil, by simp⟩
  | cons k ids ih =>
    intro hn hp
    obtain ⟨notes, h1, h2, h3⟩ := ih (List.nodup_cons.1 hn).2 fun k' hk => hp k' (List.mem_cons_of_mem _ hk)
    obtain ⟨fn, hfn, hk⟩ := hp k List.mem_cons_self
    refine ⟨fn :: notes, by simp [h1, hk], List.nodup_cons.2 ⟨fun hm => ?_, h2⟩, ?_⟩
    · refine (List.nodup_cons.1 hn).1 ?_
      rw [← h1, ← hk]
      exact List.mem_map.2 ⟨fn, hm, rfl⟩
    · intro g hg
      rcases List.mem_cons.1 hg with rfl | hg
      · exact hfn
      · exact h3 g hg

/-- **C153 (partial).** A client that follows the catalog of a server finds, wherever a fact of the instance on disk is shown, as many
numbers as there are footnotes on the fact, and the texts of these footnotes among the numbered texts of the grid, if the footnote links
are tidy and the arcs from the fact start in one link at one source. Missing: the numbers need not be those of the texts (`C153_fails`). -/
theorem C153_partial {site : Site} {id entity role : String} {b : Store.Bytes} (hb : Followed site id entity role b)
    (hu : Unambiguous (site.disk id)) (ht : Faithful site.noteTree) {root : Xml} {file : InstFile} {x : Xml} {c : Concept} {r l : String}
    (ho : OnDisk site id entity root file x c r l) {ls : List FootnoteLink} (hls : NoteLinks root ls) (htidy : Tidy ls) {fid : String}
    (hfid : OptVal x.attrs "id" fid) (hid : '#' ∉ fid.toList) (hone : StartsOnce ls fid) :
    ∃ v w fo hy cc, (∀ v', IsText (decodeUtf8 b) v' ↔ v' = v) ∧ Loads site id w fo hy ∧ HasContext (instanceWorld w fo file) root r cc ∧
      ShownEverywhere v (l ++ "#" ++ c.id) fun p row => ∃ j, InColumn p cc j ∧ ∀ n, row n (l ++ "#" ++ c.id) → NotesServed p n j ls fid := by
  obtain ⟨v, ld, ch, cc, f, hv, rfl, hl, hch, hcc, hfo, _, hsh⟩ := followed_fact hb hu ho
  obtain ⟨inst, _, hroot, _⟩ := ho.schema
  have hload := hl
  obtain ⟨_, _, fuel, sched, _, hload, _⟩ := hload
  obtain ⟨i, hi, hnotes⟩ := loaded_notes hload hroot
  have hnotes := hnotes ls hls
  obtain ⟨e, he⟩ := unlabelled_cell (factEnv site ch ld) f
  have hf : f.id = fid := by
    rcases hfid with h | ⟨h, rfl⟩
    · exact optVal_of hfo.id h
    · rcases hfo.id with ⟨a, ha, _⟩ | ⟨_, h'⟩
      · obtain ⟨h1, h2⟩ := firstWith_mem ha
        exact absurd h2 (h a h1)
      · exact h'
  subst hf
  have hmem := tidy_notes ht hnotes (noteLinks_named hls) htidy hid hone
  have hall : ∀ f' n, n ∈ notesOf site ld f' → ∃ link ∈ ls, n ∈ link.footnotes := by
    intro f' n hn
    unfold notesOf at hn
    rw [hi] at hn
    rw [← hnotes]
    exact notes_of_links hn
  have hsame : ∀ a b, (∃ link ∈ ls, a ∈ link.footnotes) → (∃ link ∈ ls, b ∈ link.footnotes) → a.id = b.id → a = b := by
    rintro a b ⟨k, hk, ha⟩ ⟨k', hk', hb⟩
    exact htidy.unique k hk k' hk' a ha b hb
  refine ⟨v, _, _, _, cc, hv, hl, hcc, (hsh e he).mono ?_⟩
  rintro p row ⟨j, h1, _, h3⟩
  refine ⟨j, h1, fun n hn => ?_⟩
  obtain ⟨x', ks, y, ts, a1, a2, a3, a4, hk, hlst⟩ := h3 trivial n hn
  refine ⟨x', ks, y, ts, a1, a2, a3, a4, hk.increasing, hk.bounds, ?_, ?_, ?_⟩
  · obtain ⟨ids, i1, i2, i3⟩ := hk.count
    obtain ⟨notes, n1, n2, n3⟩ := notes_count (P := FootnoteOn ls f.id) ids i1 (by
      intro k hk
      obtain ⟨fn, hfn, rfl⟩ := (i2 k).1 hk
      unfold notesOf at hfn
      rw [hi] at hfn
      exact ⟨fn, (hmem fn).1 hfn, rfl⟩)
    refine ⟨notes, n2, fun fn => ⟨n3 fn, fun hfn => ?_⟩, by rw [i3, ← n1, List.length_map], fun fn hfn => ?_⟩
    · have hin : fn.id ∈ ids := (i2 _).2 ⟨fn, by unfold notesOf; rw [hi]; exact (hmem fn).2 hfn, rfl⟩
      rw [← n1] at hin
      obtain ⟨g, hg, hge⟩ := List.mem_map.1 hin
      obtain ⟨k, hk, ha, _⟩ := hfn
      obtain ⟨k', hk', hb, _⟩ := n3 g hg
      rw [← htidy.unique k' hk' k hk g hb fn ha hge]
      exact hg
    · refine hlst.every ?_ fn (by unfold notesOf; rw [hi]; exact (hmem fn).2 (n3 fn hfn))
      intro f₁ f₂ m m' hm hm' heq
      exact hsame m m' (hall _ _ hm) (hall _ _ hm') heq
  · intro t ht
    obtain ⟨f', fn, hfn, rfl⟩ := hlst.only t ht
    obtain ⟨link, hl, hm⟩ := hall f' fn hfn
    exact ⟨link, hl, fn, hm, rfl⟩
  · obtain ⟨ids, i1, i2, i3⟩ := hlst.once
    obtain ⟨notes, n1, n2, n3⟩ := notes_count (P := fun fn => ∃ link ∈ ls, fn ∈ link.footnotes) ids i1 (by
      intro k hk
      obtain ⟨f', fn, hfn, rfl⟩ := i2 k hk
      exact ⟨fn, hall f' fn hfn, rfl⟩)
    exact ⟨notes, n2, n3, by rw [i3, ← n1, List.length_map]⟩

/-- **C153 (partial).** With a single footnote in the file the number is right. -/
theorem C153_single_partial {p : Json} {n j : Nat} {ls : List FootnoteLink} {fid : String} (h : NotesServed p n j ls fid) {fn : Footnote}
    (hon : FootnoteOn ls fid fn) (hone : ∀ link ∈ ls, ∀ fn' ∈ link.footnotes, fn' = fn) :
    ∃ x y, At p [.key "FootnoteGrid", .idx n, .idx j] x ∧ Elems Numeral x [1] ∧ At p [.key "Footnotes"] y ∧ Elems IsStr y [fn.inner] := by
  obtain ⟨x, ks, y, ts, a1, a2, a3, a4, k1, k2, ⟨notes, n1, n2, n3, n4⟩, t1, all, b1, b2, b3⟩ := h
  have hts : ts = [fn.inner] := by
    have hlen : all.length ≤ 1 := by
      rcases all with _ | ⟨a, _ | ⟨b, r⟩⟩
      · simp
      · simp
      · obtain ⟨k, hk, ha⟩ := b2 a (by simp)
        obtain ⟨k', hk', hb⟩ := b2 b (by simp)
        rw [hone k hk a ha, hone k' hk' b hb] at b1
        simp at b1
    have hmem := n4 fn ((n2 fn).2 hon)
    rw [← b3] at hlen
    rcases ts with _ | ⟨t, _ | ⟨u, r⟩⟩
    · simp at hmem
    · simp only [List.mem_singleton] at hmem
      rw [hmem]
    · simp at hlen
  have hks : ks = [1] := by
    have hn : notes.length = 1 := by
      have h1 := (n2 fn).2 hon
      rcases notes with _ | ⟨a, _ | ⟨b, r⟩⟩
      · simp at h1
      · rfl
      · obtain ⟨k, hk, ha, _⟩ := (n2 a).1 (by simp)
        obtain ⟨k', hk', hb, _⟩ := (n2 b).1 (by simp)
        rw [hone k hk a ha, hone k' hk' b hb] at n1
        simp at n1
    rw [hn] at n3
    rcases ks with _ | ⟨k, _ | ⟨u, r⟩⟩
    · simp at n3
    · have := k2 k (by simp)
      rw [hts] at this
      simp only [List.length_singleton] at this
      rw [show k = 1 by omega]
    · simp at n3
  subst hts hks
  exact ⟨x, y, a1, a2, a3, a4⟩

/-! ## The site with amounts -/

def moneyNotes : List FootnoteLink :=
  [⟨"", [⟨"n1", "restated", "en", "n1"⟩, ⟨"n2", "unaudited", "en", "n2"⟩], [⟨"#f1", "l1"⟩, ⟨"#f2", "l2"⟩],
    [⟨"l1", "n1", FactFootnoteArcrole⟩, ⟨"l2", "n2", FactFootnoteArcrole⟩]⟩]

theorem moneyNotes_links : NoteLinks moneyXml moneyNotes := by
  refine ⟨_, _, (kids_iff isFootnoteLink_iff _ _ _).2 rfl, (collected_iff hydrateFootnoteLink_iff _ _).2 rfl, ?_⟩
  have := stableSortedBy_stableSort FootnoteLink.title (List.filterMap hydrateFootnoteLink (List.map footnoteLink (moneyXml.named "footnoteLink")))
  rwa [show stableSort (fun a b : FootnoteLink => decide (a.title < b.title)) _ = moneyNotes by decide +kernel] at this

theorem moneyNotes_tidy : Tidy moneyNotes where
  arcs := by simp [moneyNotes]
  targets := by simp [moneyNotes]
  labels := by simp [moneyNotes]
  unique := by simp [moneyNotes]
  apart := by simp [moneyNotes]

theorem moneyRefers (label fid : String) (hl : '#' ∉ label.toList) (hn : label ≠ "") (hid : '#' ∉ fid.toList) :
    RefersIn moneyNotes label fid ↔ locatedID (locatorToHref ⟨"", [], [], moneyNotes, []⟩ label) = fid :=
  (refers_iff ⟨"", [], [], moneyNotes, []⟩ label fid hl hn hid).symm

theorem moneyNotes_once (fid : String) (hid : '#' ∉ fid.toList) : StartsOnce moneyNotes fid := by
  have key : ∀ a ∈ [(⟨"l1", "n1", FactFootnoteArcrole⟩ : FootnoteArc), ⟨"l2", "n2", FactFootnoteArcrole⟩], RefersIn moneyNotes a.frm fid →
      (a.frm = "l1" ∧ fid = "f1") ∨ (a.frm = "l2" ∧ fid = "f2") := by
    intro a ha hr
    simp only [List.mem_cons, List.not_mem_nil, or_false] at ha
    rcases ha with rfl | rfl
    · rw [moneyRefers _ _ (by decide) (by decide) hid, show locatedID _ = "f1" by decide +kernel] at hr
      exact .inl ⟨rfl, hr.symm⟩
    · rw [moneyRefers _ _ (by decide) (by decide) hid, show locatedID _ = "f2" by decide +kernel] at hr
      exact .inr ⟨rfl, hr.symm⟩
  intro link hl link' hl' a ha a' ha' hr hr'
  obtain rfl := List.mem_singleton.1 hl
  obtain rfl := List.mem_singleton.1 hl'
  refine ⟨rfl, ?_⟩
  rcases key a ha hr with ⟨h1, h2⟩ | ⟨h1, h2⟩ <;> rcases key a' ha' hr' with ⟨h3, h4⟩ | ⟨h3, h4⟩
  · rw [h1, h3]
  · rw [h2] at h4; exact absurd h4 (by decide)
  · rw [h2] at h4; exact absurd h4 (by decide)
  · rw [h1, h3]

theorem moneyFootnote (fn : Footnote) : FootnoteOn moneyNotes "f1" fn ↔ fn = ⟨"n1", "restated", "en", "n1"⟩ := by
  have h1 : RefersIn moneyNotes "l1" "f1" := by rw [moneyRefers _ _ (by decide) (by decide) (by decide)]; decide +kernel
  have h2 : ¬ RefersIn moneyNotes "l2" "f1" := by rw [moneyRefers _ _ (by decide) (by decide) (by decide)]; decide +kernel
  constructor
  · rintro ⟨link, hl, hfn, a, ha, hr, he⟩
    obtain rfl := List.mem_singleton.1 hl
    simp only [List.mem_cons, List.not_mem_nil, or_false] at hfn ha
    rcases ha with rfl | rfl
    · rcases hfn with rfl | rfl
      · rfl
      · exact absurd he (by decide)
    · exact absurd hr h2
  · rintro rfl
    exact ⟨_, List.mem_singleton.2 rfl, by simp, ⟨"l1", "n1", FactFootnoteArcrole⟩, by simp, h1, rfl⟩

/-- The hypotheses of `C153_partial` hold of the first amount, and there is a footnote on it. -/
example : ∃ b file, Followed moneySite "a-1" "s/1" "r" b ∧ Unambiguous (moneySite.disk "a-1") ∧ Faithful moneySite.noteTree ∧
    OnDisk moneySite "a-1" "s/1" moneyXml file (moneyFact "c" "usd" "f1") diskConcept "c" "x.xsd" ∧ NoteLinks moneyXml moneyNotes ∧
    Tidy moneyNotes ∧ OptVal (moneyFact "c" "usd" "f1").attrs "id" "f1" ∧ '#' ∉ "f1".toList ∧ StartsOnce moneyNotes "f1" ∧
    ∃ fn, FootnoteOn moneyNotes "f1" fn := by
  obtain ⟨fo, h, hl, ⟨b, hb⟩, _⟩ := money_load
  obtain ⟨file, hf⟩ := moneyOnDisk "c" "usd" "f1" "2020-12-31" (by simp [moneyRows])
  refine ⟨b, file, money_followed hl (demoChoice_fair h) hb, money_facts.1, groupTree_faithful, hf, moneyNotes_links, moneyNotes_tidy, .inl ?_,
    by decide, moneyNotes_once _ (by decide), _, (moneyFootnote _).2 rfl⟩
  rw [← plainAttr_iff]; decide

/-- The orders of a process that ranges over footnotes backwards for the numbers of cells, and forwards for the texts. -/
def moneyChoice (h : Hydratable) : Choice := { demoChoice h with cellOrder := fun _ _ m => m.reverse }

theorem moneyChoice_fair (h : Hydratable) : (moneyChoice h).Fair h :=
  { demoChoice_fair h with cell := fun _ _ m => List.reverse_perm m }

theorem money_grids : ∃ fo h g, load moneyDisk moneyWorld 3 id = some (.done (some (fo, h))) ∧
    select demoSlug (sortedEntities (values h.instances)) (sortedRSets (values h.schemas)) = some (⟨"s", "1"⟩, ⟨"001 - A", "r"⟩) ∧
    renderGrids (Server.folderOf moneySite (moneyChoice h) ⟨"a-1", moneyWorld, fo, h⟩) (gridEnv moneySite (moneyChoice h) ⟨"a-1", moneyWorld, fo, h⟩)
      moneySite.spanish (moneyChoice h).schedule (booksOf moneySite (moneyChoice h)) (stringify ⟨"s", "1"⟩) "r" = .done g ∧
    g.p.rows.map IndentedLabel.href = ["x.xsd#" ++ diskConcept.id] ∧ g.p.voids = [] ∧
    (∃ q, g.p.periods[0]? = some q ∧ ("Unlabelled", "2020-12-31") ∈ q) ∧ g.p.quadrant.facts ≠ [] ∧
    g.p.quadrant.numbers = [[[2], [1], []]] ∧ g.p.quadrant.footnotes = ["restated", "unaudited"] := by
  have he : (match load moneyDisk moneyWorld 3 id with
    | some (.done (some (fo, h))) =>
      decide (select demoSlug (sortedEntities (values h.instances)) (sortedRSets (values h.schemas)) = some (⟨"s", "1"⟩, ⟨"001 - A", "r"⟩)) &&
      (match renderGrids (Server.folderOf moneySite (moneyChoice h) ⟨"a-1", moneyWorld, fo, h⟩)
          (gridEnv moneySite (moneyChoice h) ⟨"a-1", moneyWorld, fo, h⟩) moneySite.spanish (moneyChoice h).schedule
          (booksOf moneySite (moneyChoice h)) (stringify ⟨"s", "1"⟩) "r" with
        | .done g => decide (g.p.rows.map IndentedLabel.href = ["x.xsd#" ++ diskConcept.id]) && decide (g.p.voids.length = 0) &&
          (match g.p.periods[0]? with
            | some q => decide (("Unlabelled", "2020-12-31") ∈ q)
            | none => false) &&
          decide (g.p.quadrant.facts.length ≠ 0) && decide (g.p.quadrant.numbers = [[[2], [1], []]]) &&
          decide (g.p.quadrant.footnotes = ["restated", "unaudited"])
        | _ => false)
    | _ => false) = true := by decide +kernel
  split at he
  · rename_i fo h hl
    simp only [Bool.and_eq_true, decide_eq_true_eq] at he
    obtain ⟨h1, h2⟩ := he
    split at h2
    · rename_i g hg
      simp only [Bool.and_eq_true, decide_eq_true_eq] at h2
      obtain ⟨⟨⟨⟨⟨k1, k2⟩, k3⟩, k4⟩, k5⟩, k6⟩ := h2
      refine ⟨fo, h, g, hl, h1, hg, k1, List.length_eq_zero_iff.1 k2, ?_, fun k => k4 (by rw [k]; rfl), k5, k6⟩
      split at k3
      · exact ⟨_, ‹_›, by simpa using k3⟩
      · cases k3
    · cases h2
  · cases he

/-- **C153 fails.** A client finds, beside a fact of a tidy instance with a single footnote, the number of a text that is not the
footnote's: texts are numbered for every cell anew, in whatever order the runtime ranges over a map. -/
theorem C153_fails : ∃ (site : Site) (id entity role : String) (b : Store.Bytes) (root : Xml) (file : InstFile) (x : Xml) (c : Concept)
    (r l : String) (ls : List FootnoteLink) (fid : String) (fn : Footnote), Followed site id entity role b ∧ Unambiguous (site.disk id) ∧
    Faithful site.noteTree ∧ OnDisk site id entity root file x c r l ∧ NoteLinks root ls ∧ Tidy ls ∧ OptVal x.attrs "id" fid ∧
    '#' ∉ fid.toList ∧ StartsOnce ls fid ∧ (∀ fn', FootnoteOn ls fid fn' ↔ fn' = fn) ∧
    ∃ v w fo hy cc p n j y k t, IsText (decodeUtf8 b) v ∧ Loads site id w fo hy ∧ HasContext (instanceWorld w fo file) root r cc ∧
      At v [.key "PGrid"] p ∧ PRow p n (l ++ "#" ++ c.id) ∧ InColumn p cc j ∧ At p [.key "FootnoteGrid", .idx n, .idx j] y ∧
      Elems Numeral y [k + 1] ∧ At p [.key "Footnotes", .idx k] (.str t) ∧ t ≠ fn.inner := by
  obtain ⟨fo, h, g, hl, hsel, hg, k1, k2, ⟨q, k3, k3'⟩, k4, k5, k6⟩ := money_grids
  obtain ⟨file, hf⟩ := moneyOnDisk "c" "usd" "f1" "2020-12-31" (by simp [moneyRows])
  obtain ⟨n, hn⟩ : ∃ n, entityQuery moneySite.names "s" "1" = .ok n := ⟨_, rfl⟩
  obtain ⟨v, hv, _, _, _, _, ⟨p, hp, ⟨pr, hpr, hprt⟩, ⟨⟨pp, hpp, hppt⟩, _, pv, hpv, hpvt⟩, _, ⟨pn, hpn, hpnt⟩, pf, hpf, hpft⟩, _⟩ :=
    C116_renderable (Server.folderOf moneySite (moneyChoice h) ⟨"a-1", moneyWorld, fo, h⟩) (fun x => getLabel_wf _ _)
    (factEnv moneySite (moneyChoice h) ⟨"a-1", moneyWorld, fo, h⟩) (notesOf moneySite ⟨"a-1", moneyWorld, fo, h⟩) (moneyChoice h).cellOrder
    (moneyChoice h).lastOrder (gridEnv moneySite (moneyChoice h) ⟨"a-1", moneyWorld, fo, h⟩) (moneyChoice_fair h).member rfl
    moneySite.spanish (moneyChoice h).schedule (booksOf moneySite (moneyChoice h)) (stringify ⟨"s", "1"⟩) "r" g hg ⟨n, ⟨"s", "1"⟩⟩
    ⟨"001 - A", "r"⟩
  have hb : render moneySite (moneyChoice h) demoSlug ⟨"a-1", moneyWorld, fo, h⟩ = .done (some (encodeUtf8
      (marshalRenderable (calcFound "r" [] (moneyChoice h).calculation) ⟨⟨n, ⟨"s", "1"⟩⟩, ⟨"001 - A", "r"⟩, g⟩)), none) := by
    unfold Server.render
    rw [hsel]
    simp only
    rw [hg]
    simp only [Run.andThen, hn]
  refine ⟨moneySite, "a-1", "s/1", "r", _, moneyXml, file, moneyFact "c" "usd" "f1", diskConcept, "c", "x.xsd", moneyNotes, "f1", _,
    money_followed hl (moneyChoice_fair h) hb, money_facts.1, groupTree_faithful, hf, moneyNotes_links, moneyNotes_tidy, .inl ?_,
    by decide, moneyNotes_once _ (by decide), moneyFootnote, v, moneyWorld, fo, h, ⟨"c", "s", "1", ⟨[], []⟩, "2020-12-31", "", "", ⟨[], []⟩⟩, p, 0, 0, ?_⟩
  · rw [← plainAttr_iff]; decide
  rw [k5] at hpnt
  rw [k6] at hpft
  obtain ⟨_, hpnt⟩ := hpnt.resolve_left fun h => k4 h.1
  obtain ⟨_, hpft⟩ := hpft.resolve_left fun h => k4 h.1
  obtain ⟨js, y1, e1, e2, hy1⟩ := elems_get (i := 0) hpnt rfl
  obtain ⟨js', y, e3, e4, hy⟩ := elems_get (i := 0) hy1 rfl
  obtain ⟨js'', t, e5, e6, ht⟩ := elems_get (i := 1) hpft rfl
  obtain ⟨js3, z, e7, e8, hz⟩ := elems_get (i := 0) hppt k3
  refine ⟨y, 1, "unaudited", ?_, money_loads hl, moneyHasContext _ "c" "usd" "f1" "2020-12-31" (by simp [moneyRows]),
    ⟨p, hp, rfl⟩, ?_, ?_, ?_, hy, ?_, by decide⟩
  · rw [decode_encoded]
    exact (hv v).2 rfl
  · refine (at_key hpr).2 ((elems_href (href := IndentedLabel.href) hprt fun x a h => h.1.1).2 ?_)
    rw [k1]
    rfl
  · have hnone : ∀ {x js y} {i : Nat}, Member p "VoidQuadrant" x → x = .arr js → js[i]? = some y → False := by
      intro x js y i hx e hy
      cases member_only hx hpv
      obtain ⟨a, ha, _⟩ := elems_got hpvt e hy
      rw [k2] at ha
      simp at ha
    refine ⟨"2020-12-31", .inr ⟨by simp, rfl⟩, ⟨pp, hpp, js3, z, e7, e8, _, (hz _ _).2 ⟨_, rfl, k3'⟩, rfl⟩, ?_, ?_⟩
    · rintro i dim mem ⟨x, hx, js, y, e, hy, _⟩
      exact (hnone hx e hy).elim
    · rintro i dim mem x₀ ⟨x, hx, js, y, e, hy, _⟩
      exact (hnone hx e hy).elim
  · exact ⟨pn, hpn, js, y1, e1, e2, js', y, e3, e4, rfl⟩
  · exact ⟨pf, hpf, js'', t, e5, e6, ht.symm⟩

/-- The hypotheses of `C153_single_partial` hold of a part of an answer with one footnote. -/
example : ∃ p ls fn, NotesServed p 0 0 ls "f1" ∧ FootnoteOn ls "f1" fn ∧ ∀ link ∈ ls, ∀ fn' ∈ link.footnotes, fn' = fn := by
  have hon : ∀ fn, FootnoteOn [⟨"", [⟨"n1", "restated", "en", "n1"⟩], [], [⟨"f1", "n1", FactFootnoteArcrole⟩]⟩] "f1" fn ↔
      fn = ⟨"n1", "restated", "en", "n1"⟩ := by
    intro fn
    constructor
    · rintro ⟨link, hl, hfn, _⟩
      obtain rfl := List.mem_singleton.1 hl
      exact List.mem_singleton.1 hfn
    · rintro rfl
      exact ⟨_, List.mem_singleton.2 rfl, by simp, ⟨"f1", "n1", FactFootnoteArcrole⟩, by simp, .inr ⟨by simp, rfl⟩, rfl⟩
  refine ⟨.obj [("FootnoteGrid", .arr [.arr [.arr [.num ['1']]]]), ("Footnotes", .arr [.str "restated"])], _, _,
    ⟨.arr [.num ['1']], [1], .arr [.str "restated"], ["restated"], ?_, ?_, ?_, ⟨_, rfl, .cons rfl .nil⟩, by simp, by simp, ?_, ?_, ?_⟩, (hon _).2 rfl,
    by simp⟩
  · exact ⟨.arr [.arr [.arr [.num ['1']]]], ⟨[], _, rfl, by simp, by simp⟩, _, _, rfl, rfl, _, _, rfl, rfl, rfl⟩
  · exact ⟨_, rfl, .cons ⟨_, rfl, by decide, by decide⟩ .nil⟩
  · exact ⟨_, ⟨[_], [], rfl, by simp, by simp⟩, rfl⟩
  · exact ⟨[⟨"n1", "restated", "en", "n1"⟩], by simp, fun fn => by rw [hon]; simp, rfl, by simp⟩
  · simp
  · exact ⟨[⟨"n1", "restated", "en", "n1"⟩], by simp, by simp, rfl⟩

end Telefacts
