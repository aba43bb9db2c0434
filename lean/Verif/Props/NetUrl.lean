import Verif.Proof.NetUrl
import Verif.Props.Url
/-! # C113-C115: URLs -/
namespace Telefacts
open Telefacts.Url

/-- **C113a.** `IsValidUrl` accepts exactly the absolute URLs with a host. -/
theorem C113_valid (s : Str) : isValidUrl s = true ↔ ∃ scheme host path, UrlText s scheme host path := by
  constructor
  · intro h
    cases hp : parseUrl s with
    | none => unfold isValidUrl at h; rw [hp] at h; simp at h
    | some u => exact ⟨u.scheme, u.host, u.path, (urlText_iff _ _ _ _).1 ⟨h, hp⟩⟩
  · rintro ⟨scheme, host, path, h⟩
    exact ((urlText_iff _ _ _ _).2 h).1

/-- **C113b.** The parts used for the file name are the scheme in lower case, the host without port and brackets, and the decoded
path; they are determined by the text. -/
theorem C113_parts (s scheme host path : Str) (h : UrlText s scheme host path) (u : Parsed) :
    urlParse s = some u ↔ u.scheme = scheme ∧ Hostname host u.hostname ∧ u.path = path := by
  have hp := ((urlText_iff _ _ _ _).2 h).2
  unfold urlParse
  rw [hp]
  simp only [Option.map_some, Option.some.injEq, ← hostname_iff]
  constructor
  · rintro rfl; exact ⟨rfl, rfl, rfl⟩
  · rintro ⟨h1, h2, h3⟩
    obtain ⟨a, b, c⟩ := u
    simp only at h1 h2 h3
    rw [h1, h2, h3]

/-- The URL of a schema. -/
def urlExample : Str := "HTTP://u:p@www.xbrl.org:80/2003/a%20b.xsd?x=1#y".toList

example : isValidUrl urlExample = true ∧
    urlParse urlExample = some ⟨"http".toList, "www.xbrl.org".toList, "/2003/a b.xsd".toList⟩ := by decide +kernel

example : isValidUrl "a.xsd".toList = false ∧ isValidUrl "../a.xsd#b".toList = false ∧ isValidUrl "/a/b.xsd".toList = false ∧
    isValidUrl "http:a.xsd".toList = false ∧ isValidUrl "http://h#f".toList = false ∧ isValidUrl "http://h/%2".toList = false ∧
    isValidUrl "http://a b/".toList = false ∧ isValidUrl "file:///a.xsd".toList = false ∧ isValidUrl "//h/a".toList = false ∧
    isValidUrl "http://h:8x/".toList = false := by decide +kernel

example : isValidUrl "http://[fe80::1%25en0]:8080/".toList = true ∧
    urlParse "http://[fe80::1%25en0]:8080/".toList = some ⟨"http".toList, "fe80::1%en0".toList, "/".toList⟩ := by decide +kernel

/-- **C114 (partial).** A valid URL has a file name exactly if there is something between the slashes and the port, and between
the brackets of an address. Missing: the others, see `C114_fails`. -/
theorem C114_named_partial (gts s scheme host path : Str) (h : UrlText s scheme host path) :
    (∃ f, urlToFilename urlParse gts s = some f) ↔ ¬ Hostname host [] := by
  have hp := ((urlText_iff _ _ _ _).2 h).2
  have hs : scheme ≠ [] := by
    obtain ⟨_, sch, _, _, _, _, _, _, ⟨c, r, rfl, _⟩, hl, _⟩ := h
    rw [(lowered_iff _ _).1 hl]
    simp
  rw [← hostname_iff]
  unfold urlToFilename urlParse
  rw [hp]
  simp only [Option.map_some, if_neg hs]
  split_ifs with hn <;> simp [hn]

/-- **C114 (fails).** `IsValidUrl` accepts a URL without host name, so that the file is looked for by URL, but it has no file name. -/
theorem C114_fails : ∃ s, isValidUrl s = true ∧ ∀ gts, urlToFilename urlParse gts s = none := by
  have key : ∀ (s gts : Str) (u : Parsed), urlParse s = some u → u.hostname = [] → urlToFilename urlParse gts s = none := by
    intro s gts u h1 h2
    unfold urlToFilename
    rw [h1]
    simp [h2]
  refine ⟨"http://:80/x.xsd".toList, by decide +kernel, fun gts => ?_⟩
  have : urlParse "http://:80/x.xsd".toList = some ⟨"http".toList, [], "/x.xsd".toList⟩ := by decide +kernel
  exact key _ _ _ this rfl

example : ∃ scheme host path, UrlText urlExample scheme host path ∧ ¬ Hostname host [] := by
  obtain ⟨scheme, host, path, h⟩ := (C113_valid urlExample).1 (by decide +kernel)
  refine ⟨scheme, host, path, h, (C114_named_partial [] _ _ _ _ h).1 (Option.isSome_iff_exists.1 (by decide +kernel))⟩

/-- **C08, C09** for URLs: the file of a URL is in the directory for taxonomies unless its path climbs out of its start, and two
valid URLs without dot segments have the same file exactly if scheme, host name and non-empty segments of the path agree; port, user,
query and fragment do not count. -/
theorem C115_same_file (gts s s' : Str) (scheme host path scheme' host' path' name name' : Str)
    (h : UrlText s scheme host path) (h' : UrlText s' scheme' host' path')
    (hn : Hostname host name) (hn' : Hostname host' name') (hne : name ≠ []) (hne' : name' ≠ [])
    (hd : NoDots ⟨scheme, name, path⟩) (hd' : NoDots ⟨scheme', name', path'⟩) :
    urlToFilename urlParse gts s = urlToFilename urlParse gts s' ↔
      scheme = scheme' ∧ name = name' ∧ SamePath ⟨scheme, name, path⟩ ⟨scheme', name', path'⟩ := by
  have hu := (C113_parts s _ _ _ h ⟨scheme, name, path⟩).2 ⟨rfl, hn, rfl⟩
  have hu' := (C113_parts s' _ _ _ h' ⟨scheme', name', path'⟩).2 ⟨rfl, hn', rfl⟩
  have hs : ∀ {s scheme host path : Str}, UrlText s scheme host path → scheme ≠ [] := by
    intro s scheme host path h
    obtain ⟨_, sch, _, _, _, _, _, _, ⟨c, r, rfl, _⟩, hl, _⟩ := h
    rw [(lowered_iff _ _).1 hl]
    simp
  exact (C09_same_file_iff urlParse gts s s' _ _ hu hu' (urlParse_wf hu) (urlParse_wf hu') hd hd' ⟨hs h, hs h'⟩ ⟨hne, hne'⟩).2

/-- **C115b.** The file of any text that has one is in the directory for taxonomies, unless the path climbs out. -/
theorem C115_inside (gts s f : Str) (u : Parsed) (hu : urlParse s = some u) (hd : StaysDown u)
    (h : urlToFilename urlParse gts s = some f) : Inside (join [gts, "concepts".toList]) f :=
  C08_inside_partial urlParse gts s f u hu (urlParse_wf hu) hd h

/-- **C08 (fails)** for URLs as text: dots and slashes written with percent signs climb out as well. -/
theorem C08_fails_url : ∃ s f, isValidUrl s = true ∧ urlToFilename urlParse "/gts".toList s = some f ∧
    ¬ Inside "/gts/concepts".toList f := by
  refine ⟨"http://h/x/%2e%2e%2F%2e%2e%2f..%2f../secret".toList, "/gts/secret".toList, by decide +kernel, by decide +kernel, ?_⟩
  rintro (h | ⟨rest, h⟩)
  · exact absurd h (by decide +kernel)
  · have := congrArg (List.take 6) h
    simp at this

/-- Two spellings of one file. -/
example : urlToFilename urlParse "/gts".toList "http://h/a/b.xsd?v=1".toList =
    urlToFilename urlParse "/gts".toList "HTTP://me@h:8080//a/%62.xsd#c".toList := by decide +kernel

end Telefacts
