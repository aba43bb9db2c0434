import Verif.Proof.Url
/-! # Properties of taxonomy file names (C08-C10) -/
namespace Telefacts
open Telefacts.Url

theorem urlToFilename_some {parse : Str → Option Parsed} {gts url f : Str}
    (h : urlToFilename parse gts url = some f) : ∃ u, parse url = some u ∧ u.scheme ≠ [] ∧
      u.hostname ≠ [] ∧ f = join [gts, "concepts".toList,
        (split u.path).foldl (fun d s => join [d, s]) (join [u.scheme, u.hostname])] := by
  unfold urlToFilename at h
  split at h
  · cases h
  · rename_i u hu
    split at h
    · cases h
    · rename_i h1
      split at h
      · cases h
      · rename_i h2
        exact ⟨u, hu, h1, h2, (Option.some.inj h).symm⟩

/-- The claim is false: a URL with `..` segments names a file outside the taxonomy directory. -/
theorem C08_fails : ∃ (u : Parsed) (f : Str), u.WF ∧
    urlToFilename (fun _ => some u) "/gts".toList "http://h/../../../secret".toList = some f ∧
    ¬ Inside (join ["/gts".toList, "concepts".toList]) f := by
  refine ⟨⟨"http".toList, "h".toList, "/../../../secret".toList⟩, "/gts/secret".toList,
    ⟨by decide, by decide⟩, by decide, ?_⟩
  have hj : join ["/gts".toList, "concepts".toList] = "/gts/concepts".toList := by decide
  rw [hj]
  rintro (h | ⟨rest, h⟩)
  · exact absurd h (by decide)
  · have := congrArg (List.take 6) h
    simp at this

/-- The part that holds: the file is inside `<gts>/concepts` for every URL that does not walk above the
root with `..`. Missing: URLs that do, see `C08_fails`. -/
theorem C08_inside_partial (parse : Str → Option Parsed) (gts url f : Str) (u : Parsed)
    (hu : parse url = some u) (hw : u.WF) (hd : StaysDown u)
    (h : urlToFilename parse gts url = some f) :
    Inside (join [gts, "concepts".toList]) f := by
  obtain ⟨u', hu', h1, h2, rfl⟩ := urlToFilename_some h
  rw [hu] at hu'
  cases hu'
  rw [dest_eq hw h1]
  have hn : ∀ s ∈ destStack u, Name s := by
    refine depth_stack ?_ (st := []) (by simp) ((staysDown_iff u).1 hd)
    intro s hs
    simp only [List.mem_cons] at hs
    rcases hs with rfl | rfl | hs
    · exact hw.scheme.1
    · exact hw.hostname
    · exact mem_split s hs
  by_cases he : destStack u = []
  · left
    have hc : split "concepts".toList = ["concepts".toList] := by decide
    have hfin : ∀ p : Str, p ≠ [] → clean (p ++ '/' :: ['.']) = clean p := by
      intro p hp
      have : split (['.'] : Str) = [['.']] := by decide
      unfold clean cleanSegs
      rw [rooted_append hp, split_append, List.foldl_append, this]
      rfl
    rw [he]
    show join [gts, "concepts".toList, ['.']] = _
    cases gts with
    | nil => exact hfin "concepts".toList (by decide)
    | cons c g =>
      have := hfin ((c :: g) ++ '/' :: "concepts".toList) (by simp)
      rw [join, if_neg (by simp), join, if_neg (by simp), joinSegs_cons (by simp), joinSegs_cons (by simp)]
      rw [List.append_assoc] at this
      exact this
  · exact .inr ⟨_, join_concepts gts hn he⟩

/-- A URL with `..` that stays inside, and one that does not. -/
example : StaysDown ⟨"http".toList, "www.xbrl.org".toList, "/2003/../2005/./x.xsd".toList⟩ ∧
    ¬ StaysDown ⟨"http".toList, "h".toList, "/../../../secret".toList⟩ := by
  rw [staysDown_iff, staysDown_iff]; decide

/-- Two URLs without dot segments share a file iff scheme, hostname and non-empty path segments agree. -/
theorem C09_same_file_iff (parse : Str → Option Parsed) (gts url url' : Str) (u u' : Parsed)
    (hu : parse url = some u) (hu' : parse url' = some u') (hw : u.WF) (hw' : u'.WF)
    (hn : NoDots u) (hn' : NoDots u') (hs : u.scheme ≠ [] ∧ u'.scheme ≠ [])
    (hh : u.hostname ≠ [] ∧ u'.hostname ≠ []) :
    (∃ f, urlToFilename parse gts url = some f) ∧
    (urlToFilename parse gts url = urlToFilename parse gts url' ↔
      u.scheme = u'.scheme ∧ u.hostname = u'.hostname ∧ SamePath u u') := by
  rw [samePath_iff]
  have key : ∀ (url : Str) (u : Parsed), parse url = some u → u.WF → NoDots u → u.scheme ≠ [] →
      u.hostname ≠ [] → urlToFilename parse gts url = some
        (join [gts, "concepts".toList] ++ '/' :: joinSegs (u.scheme :: u.hostname :: names u)) ∧
        ∀ s ∈ u.scheme :: u.hostname :: names u, '/' ∉ s := by
    intro url u hu hw hn h1 h2
    have hr := destStack_ne_nil_of_names hw h1 hn h2
    rw [noDots_iff] at hn
    have hsl : ∀ s ∈ u.scheme :: u.hostname :: names u, Name s := by
      intro s hs
      simp only [List.mem_cons] at hs
      rcases hs with rfl | rfl | hs
      · exact ⟨h1, hw.scheme.2.1, hw.scheme.2.2, hw.scheme.1⟩
      · exact ⟨h2, (hn _ (by simp)).1, (hn _ (by simp)).2, hw.hostname⟩
      · obtain ⟨hs, hne⟩ := List.mem_filter.1 hs
        exact ⟨by simpa using hne, (hn s (by simp [hs])).1, (hn s (by simp [hs])).2, mem_split s hs⟩
    refine ⟨?_, fun s hs => (hsl s hs).2.2.2⟩
    unfold urlToFilename
    simp only [hu, if_neg h1, if_neg h2]
    rw [dest_eq hw h1, join_concepts gts, hr]
    · intro s hs
      exact hsl s (by rw [← hr]; simpa using hs)
    · intro he
      rw [he] at hr
      simp at hr
  obtain ⟨k1, m1⟩ := key url u hu hw hn hs.1 hh.1
  obtain ⟨k2, m2⟩ := key url' u' hu' hw' hn' hs.2 hh.2
  refine ⟨⟨_, k1⟩, ?_⟩
  rw [k1, k2]
  constructor
  · intro h
    have h := List.append_cancel_left (Option.some.inj h)
    have := joinSegs_inj (by simp) (by simp) m1 m2 (List.cons.inj h).2
    simpa using this
  · rintro ⟨h1, h2, h3⟩
    rw [h1, h2, h3]

example : (⟨"http".toList, "www.xbrl.org".toList, "/2003/x.xsd".toList⟩ : Parsed).WF ∧
    NoDots ⟨"http".toList, "www.xbrl.org".toList, "/2003/x.xsd".toList⟩ ∧
    SamePath ⟨"http".toList, "www.xbrl.org".toList, "/2003//x.xsd".toList⟩
      ⟨"http".toList, "www.xbrl.org".toList, "/2003/x.xsd".toList⟩ := by
  refine ⟨⟨by decide, by decide⟩, ?_, ?_⟩
  · rw [noDots_iff]; decide
  · rw [samePath_iff]; decide

/-- `DiscoverGlobalFile` reports an error iff the URL is not accepted; for an accepted URL it returns
the bytes of the file, or no bytes and no error when the file is missing or unreadable. -/
theorem C10_discoverGlobalFile {B : Type} (parse : Str → Option Parsed) (gts : Str) (fs : FS B) (url : Str) :
    ((discoverGlobalFile parse gts fs url).2 ≠ none ↔ urlToFilename parse gts url = none) ∧
    (∀ f, urlToFilename parse gts url = some f →
      (∀ b, discoverGlobalFile parse gts fs url = (some b, none) ↔ fs.stat f = true ∧ fs.read f = some b) ∧
      (discoverGlobalFile parse gts fs url = (none, none) ↔ fs.stat f = false ∨ fs.read f = none)) := by
  unfold discoverGlobalFile
  cases hf : urlToFilename parse gts url with
  | none => simp
  | some f =>
    cases hs : fs.stat f <;> cases hr : fs.read f <;> simp [hs, hr]

/-- A missing file is not reported. -/
example : discoverGlobalFile (B := Nat) (fun _ => some ⟨"http".toList, "h".toList, "/x.xsd".toList⟩)
    "/gts".toList ⟨fun _ => false, fun _ => none⟩ "http://h/x.xsd".toList = (none, none) := by decide

end Telefacts
