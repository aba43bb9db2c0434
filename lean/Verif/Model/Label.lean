import Verif.Model.Linkbase
/-!
# pkg/renderables/label.go, labelPack.go and the language lists in renderable.go

`h.LabelLinkbases` is passed as the list of the label links of its values in iteration order.
-/
namespace Telefacts.Render
open Telefacts.Linkbase

abbrev LabelRole := String
abbrev Lang := String

/-- labelPack.go:6-8 -/
def Default : LabelRole := "Default"
def Terse : LabelRole := "Terse"
def Verbose : LabelRole := "Verbose"

/-- labelPack.go:12-17 (the three languages never used are left out) -/
def PureLabel : Lang := "Unlabelled"
def BriefLabel : Lang := "Truncated"
def English : Lang := "en - english"
def Espanol : Lang := "es - español"

/-- labelPack.go:20 -/
abbrev LanguagePack := GoMap Lang String
/-- labelPack.go:10 -/
abbrev LabelPack := GoMap LabelRole LanguagePack

/-- pkg/attr/literals.go:35-38 -/
def LabelArcrole := "http://www.xbrl.org/2003/arcrole/concept-label"
def LabelRoleURI := "http://www.xbrl.org/2003/role/label"
def VerboseLabelURI := "http://www.xbrl.org/2003/role/verboseLabel"
def TerseLabelURI := "http://www.xbrl.org/2003/role/terseLabel"

/-- `p[role][lang] = s` on a pack that has the role. -/
def setText (p : LabelPack) (role : LabelRole) (lang : Lang) (s : String) : LabelPack :=
  mapSet p role (mapSet ((mapGet p role).getD []) lang s)

/-- `p[role][lang]` -/
def getText (p : LabelPack) (role : LabelRole) (lang : Lang) : Option String :=
  match mapGet p role with
  | some l => mapGet l lang
  | none => none

/-- label.go:66-78 `appendLanguage`: a Go `case` without body does nothing. -/
def appendLanguage (lang : String) (role : LabelRole) (chars : String) (p : LabelPack) : LabelPack :=
  if lang = "en" then p
  else if lang = "en-US" then setText p role English chars
  else if lang = "es" then setText p role Espanol chars
  else p

/-- label.go:36-38, 42-44, 48-50 -/
def ensureRole (p : LabelPack) (role : LabelRole) : LabelPack :=
  match mapGet p role with
  | some _ => p
  | none => mapSet p role []

/-- label.go:33-54: one label resource. -/
def applyLabel (p : LabelPack) (l : Label) : LabelPack :=
  if l.role = LabelRoleURI then appendLanguage l.lang Default l.chars (ensureRole p Default)
  else if l.role = TerseLabelURI then appendLanguage l.lang Terse l.chars (ensureRole p Terse)
  else if l.role = VerboseLabelURI then appendLanguage l.lang Verbose l.chars (ensureRole p Verbose)
  else p

/-- label.go:31-56 -/
def labelsLoop (to : String) (labels : List Label) (p : LabelPack) : LabelPack :=
  labels.foldl (fun p l => if l.label = to then applyLabel p l else p) p

/-- label.go:29-58 -/
def arcsLoop (lk : LabelLink) (frm : String) (p : LabelPack) : LabelPack :=
  lk.arcs.foldl (fun p a => if a.frm = frm ∧ a.arcrole = LabelArcrole then labelsLoop a.to lk.labels p else p) p

/-- label.go:26-60 -/
def locsLoop (href : String) (p : LabelPack) (lk : LabelLink) : LabelPack :=
  lk.locs.foldl (fun p loc => if loc.href = href then arcsLoop lk loc.label p else p) p

/-- label.go:22-64 `appendLabelModifiersFromHref` -/
def appendLabels (p : LabelPack) (linkbases : List (List LabelLink)) (href : String) : LabelPack :=
  linkbases.foldl (fun p links => links.foldl (locsLoop href) p) p

/-- label.go:11-17 -/
def hrefPack (href : String) : LabelPack :=
  let p := [(Default, [(PureLabel, href)])]
  match cut '#' href with
  | none => p
  | some (_, frag) => setText p Default BriefLabel ("#" ++ frag)

/-- label.go:10-20 `GetLabel` -/
def getLabel (linkbases : List (List LabelLink)) (href : String) : LabelPack :=
  appendLabels (hrefPack href) linkbases href

/-- labelPack.go:40-46: one pack of the loop. -/
def reduceStep (ret item : LabelPack) : LabelPack :=
  item.foldl (fun ret e => mapSet ret e.1 (e.2.foldl (fun m t => mapSet m t.1 t.2) [])) ret

/-- labelPack.go:30-48 `reduce` -/
def reduce (packs : List LabelPack) : Option LabelPack :=
  match packs with
  | [] => none
  | [p] => some p
  | ps => some (ps.foldl reduceStep [])

/-- labelPack.go:50-60 `destruct` -/
def destruct (p : LabelPack) : List LabelRole × List Lang :=
  (mapKeys p, p.flatMap fun e => mapKeys e.2)

/-- Roles and languages of a list of packs, as at presentationGrid.go:35-42: nothing without packs. -/
def offered (packs : List LabelPack) : List LabelRole × List Lang :=
  match reduce packs with
  | none => ([], [])
  | some p => destruct p

/-! ## renderable.go:53-90: three goroutines append to one slice

A slice is an array and a length. `append` loads the shared slice header, writes the elements behind its length
if the array is long enough and otherwise to a copy in a new array, and then the result is stored. Simplified:
the writes of one `append` are one step, and headers are loaded and stored in one step. -/

/-- A slice header. -/
structure Hdr where
  arr : Nat
  len : Nat
deriving DecidableEq, Repr

/-- Where a goroutine is in `langs = append(langs, ln...)`. -/
inductive Pc where
  | start
  | loaded (h : Hdr)
  | written (h : Hdr)
  | finished
deriving DecidableEq, Repr

structure Shared where
  /-- the arrays; the length is the capacity -/
  heap : Nat → List String
  next : Nat
  hdr : Hdr
  pcs : Nat → Pc

/-- Function update. -/
def upd {β : Type} (f : Nat → β) (i : Nat) (v : β) : Nat → β := fun j => if j = i then v else f j

/-- Overwrite the elements from index `i` on. -/
def overwrite (l : List String) (i : Nat) (xs : List String) : List String :=
  l.take i ++ xs ++ l.drop (i + xs.length)

/-- One step of goroutine `g`, which appends `ln g`; `grow` is the number of free places in a new array. -/
def appendStep (ln : Nat → List String) (grow : Nat → Nat) (s : Shared) (g : Nat) : Shared :=
  match s.pcs g with
  | .start => { s with pcs := upd s.pcs g (.loaded s.hdr) }
  | .loaded h =>
    let h' : Hdr := ⟨h.arr, h.len + (ln g).length⟩
    if h'.len ≤ (s.heap h.arr).length then
      { s with heap := upd s.heap h.arr (overwrite (s.heap h.arr) h.len (ln g))
               pcs := upd s.pcs g (.written h') }
    else
      { s with heap := upd s.heap s.next ((s.heap h.arr).take h.len ++ ln g ++ List.replicate (grow h'.len) "")
               next := s.next + 1
               pcs := upd s.pcs g (.written ⟨s.next, h'.len⟩) }
  | .written h => { s with hdr := h, pcs := upd s.pcs g .finished }
  | .finished => s

/-- renderable.go:54-55: an empty slice with the given capacity. -/
def emptySlice (cap : Nat) : Shared :=
  ⟨fun _ => List.replicate cap "", 1, ⟨0, 0⟩, fun _ => .start⟩

/-- The elements of the shared slice. -/
def sliceElems (s : Shared) : List String := (s.heap s.hdr.arr).take s.hdr.len

/-- All steps of a schedule. -/
def runAppends (ln : Nat → List String) (grow : Nat → Nat) (cap : Nat) (sched : List Nat) : Shared :=
  sched.foldl (appendStep ln grow) (emptySlice cap)

/-- renderable.go:89-91 with labelPack.go:62-86 `dedupLang` and `dedupLabelRole`: `Lang` (cap 8) or `LabelRoles` (cap 20) of the
renderable. -/
def langsAfter (ln : Nat → List String) (grow : Nat → Nat) (cap : Nat) (sched : List Nat) : List String :=
  dedup (sliceElems (runAppends ln grow cap sched))

end Telefacts.Render
