import Verif.Spec.Router
/-! # Specification: what a reference in a file means -/
namespace Telefacts.Router
open Telefacts.Web Telefacts.Url Telefacts.Disc Telefacts.Spec

/-- The reference `href` in the file at `loc`, itself reached from the folder directory `ds`, means the file
`e`: references are relative to the directory of the file they are in (RFC 3986, 5.1). -/
def Meant (ds : List Str) (loc href : Str) (e : List Str) : Prop :=
  ∃ ls p hs, Segs loc ls ∧ Walk ds ls p ∧ Segs href hs ∧ Walk p.dropLast hs e

/-- The file at `loc` is directly in the directory. -/
def Direct (ds : List Str) (loc : Str) : Prop := ∀ ls p, Segs loc ls → Walk ds ls p → p.dropLast = ds

/-- The file at `loc` is somewhere below the directory. -/
def Within (ds : List Str) (loc : Str) : Prop := ∀ ls p, Segs loc ls → Walk ds ls p → ds <+: p.dropLast

/-- From the directory the reference climbs above the root of the file system. -/
def Climbs (ds : List Str) (href : Str) : Prop := ∀ hs, Segs href hs → depth hs ds.length = none

/-- The references written in the files that discovery looks at. -/
inductive Written {L D : Type} (env : FolderEnv L D) : String → Prop
  | entry {e} : env.entryName = some e → Written env e
  | extracted {e} : env.entryName = some e → Written env (e ++ ".xml")
  | ref {key inst i loc} : EntryInstance env key inst → i ∈ inst.schemaRef → AttrVal i.attrs "href" loc → Written env loc
  | imp {key inst l f i n loc} : EntryInstance env key inst → Reach env inst l f → i ∈ f.imp →
      ImportNames i n loc → Written env loc
  | incl {key inst l f i loc} : EntryInstance env key inst → Reach env inst l f → i ∈ f.incl →
      AttrVal i.attrs "schemaLocation" loc → Written env loc
  | link {key inst l f kind loc} : EntryInstance env key inst → Reach env inst l f →
      LinkIn env f kind loc → Written env loc

/-- Two file systems that differ at most in the file `q`. -/
structure AgreeBut {L D : Type} (q : Str) (a b : Source L D) : Prop where
  entry : a.entry = b.entry
  images : a.images = b.images
  doc : ∀ p, p ≠ q → a.doc p = b.doc p
  fileExists : ∀ p, p ≠ q → a.fileExists p = b.fileExists p
  inst : ∀ p, p ≠ q → a.inst p = b.inst p
  schema : ∀ p, p ≠ q → a.schema p = b.schema p
  linkbase : ∀ k p, p ≠ q → a.linkbase k p = b.linkbase k p
  transform : a.transform = b.transform
  isUrl : a.isUrl = b.isUrl

end Telefacts.Router
