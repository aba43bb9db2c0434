import Verif.Model.Router
import Verif.Spec.Url
import Verif.Spec.Discover
/-! # Specification for routing and for the paths of a folder -/
namespace Telefacts.Router
open Telefacts.Web Telefacts.Url Telefacts.Disc Telefacts.Spec

/-- A path segment a client can ask for: not empty, without `/` (47), not a dot name. -/
def Segment (s : Bytes) : Prop := s ≠ [] ∧ (47 : Byte) ∉ s ∧ s ≠ lit "." ∧ s ≠ lit ".."

/-- The path from the root through the named directories. -/
def absPath : List Str → Str
  | [] => ['/']
  | [n] => '/' :: n
  | n :: ns => '/' :: n ++ absPath ns

/-- Walking from a directory: `.` and nothing stay, `..` goes to the parent (the root is its own parent),
a name goes down. -/
inductive Walk : List Str → List Str → List Str → Prop
  | done {d} : Walk d [] d
  | stay {d s r e} : s = [] ∨ s = ['.'] → Walk d r e → Walk d (s :: r) e
  | up {d r e} : Walk d.dropLast r e → Walk d (['.', '.'] :: r) e
  | down {d s r e} : Name s → Walk (d ++ [s]) r e → Walk d (s :: r) e

/-- A relative reference that never leaves the directory it starts from. -/
def Down (href : Str) : Prop := ∀ segs, Segs href segs → depth segs 0 ≠ none

/-- The references of a schema never leave its folder. -/
structure TameFile {L D : Type} (env : FolderEnv L D) (f : SchemaFile) : Prop where
  imports : ∀ i ∈ f.imp, ∀ n loc, ImportNames i n loc → Down loc.toList
  includes : ∀ i ∈ f.incl, ∀ loc, AttrVal i.attrs "schemaLocation" loc → Down loc.toList
  linkbases : ∀ kind href, LinkIn env f kind href → Down href.toList

/-- No reference that discovery follows leaves the folder: not the name of the entry file, not the schema
references of the instance, and not those of any file reached. -/
structure Tame {L D : Type} (env : FolderEnv L D) : Prop where
  entry : ∀ e, env.entryName = some e → Down e.toList ∧ Down (e ++ ".xml").toList
  refs : ∀ key inst, EntryInstance env key inst → ∀ i ∈ inst.schemaRef, ∀ loc,
    AttrVal i.attrs "href" loc → Down loc.toList
  files : ∀ key inst loc f, EntryInstance env key inst → Reach env inst loc f → TameFile env f

/-- Two file systems agree on everything in a directory. -/
structure AgreeIn {L D : Type} (dir : Str) (a b : Source L D) : Prop where
  entry : ∀ p, Inside dir p → a.entry p = b.entry p
  images : a.images dir = b.images dir
  doc : ∀ p, Inside dir p → a.doc p = b.doc p
  fileExists : ∀ p, Inside dir p → a.fileExists p = b.fileExists p
  inst : ∀ p, Inside dir p → a.inst p = b.inst p
  schema : ∀ p, Inside dir p → a.schema p = b.schema p
  linkbase : ∀ k p, Inside dir p → a.linkbase k p = b.linkbase k p
  transform : a.transform = b.transform
  isUrl : a.isUrl = b.isUrl

end Telefacts.Router
