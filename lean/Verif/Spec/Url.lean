import Verif.Model.Url
/-! # Specification for taxonomy file names -/
namespace Telefacts.Url

/-- What `url.Parse` guarantees: no slash in scheme or hostname, a scheme is not a dot name. -/
structure Parsed.WF (u : Parsed) : Prop where
  scheme : '/' ∉ u.scheme ∧ u.scheme ≠ ['.'] ∧ u.scheme ≠ ['.', '.']
  hostname : '/' ∉ u.hostname

/-- A path is inside a directory: the directory itself or a descendant of it by names. -/
def Inside (dir p : Str) : Prop := p = dir ∨ ∃ rest, p = dir ++ '/' :: rest

/-- A proper name: not empty, `.` or `..`, no slash. -/
def Name (s : Str) : Prop := s ≠ [] ∧ s ≠ ['.'] ∧ s ≠ ['.', '.'] ∧ '/' ∉ s

/-- Depth after walking the segments, `none` once the walk has left the start directory upwards. -/
def depth : List Str → Nat → Option Nat
  | [], d => some d
  | s :: r, d =>
    if s = [] ∨ s = ['.'] then depth r d
    else if s = ['.', '.'] then (match d with | 0 => none | d + 1 => depth r d)
    else depth r (d + 1)

/-- The segments of a path: the texts between the slashes. -/
def Segs (p : Str) (segs : List Str) : Prop :=
  segs ≠ [] ∧ p = ['/'].intercalate segs ∧ ∀ s ∈ segs, '/' ∉ s

/-- The URL never walks above its start directory. -/
def StaysDown (u : Parsed) : Prop :=
  ∀ segs, Segs u.path segs → depth (u.scheme :: u.hostname :: segs) 0 ≠ none

/-- Neither the host nor a path segment is `.` or `..`. -/
def NoDots (u : Parsed) : Prop :=
  ∀ segs, Segs u.path segs → ∀ s ∈ u.hostname :: segs, s ≠ ['.'] ∧ s ≠ ['.', '.']

/-- The paths of two URLs have the same non-empty segments. -/
def SamePath (u u' : Parsed) : Prop :=
  ∀ segs segs', Segs u.path segs → Segs u'.path segs' →
    segs.filter (fun s => s ≠ []) = segs'.filter (fun s => s ≠ [])

end Telefacts.Url
