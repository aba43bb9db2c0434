import Verif.Model.Server
import Verif.Spec.Attr
import Verif.Spec.Xml
import Mathlib.Data.List.Forall2
/-!
# Instance files in which other prefixes are used

`tl` and `tl'` are the attributes of the two root elements, with the namespace declarations.
-/
namespace Telefacts.Spec
open Telefacts.Instance Telefacts.Decode Telefacts.Hydrate Telefacts.Server

/-- Two spellings of one name. -/
def SameName (tl tl' : List Attr) (q q' : String) : Prop := ∃ n : XName, n.loc ≠ "" ∧ QName tl q n ∧ QName tl' q' n

/-- Attributes of a member: the values of `dimension` are names. -/
def SameAttr (tl tl' : List Attr) (a a' : Attr) : Prop :=
  a'.name = a.name ∧ (a.name.loc = "dimension" → SameName tl tl' a.value a'.value) ∧ (a.name.loc ≠ "dimension" → a'.value = a.value)

/-- Tokens of typed members; `n.space` is the prefix. -/
inductive SameTok (tl tl' : List Attr) : Tok → Tok → Prop
  | start (n n') : SameName tl tl' (n.space ++ ":" ++ n.loc) (n'.space ++ ":" ++ n'.loc) → SameTok tl tl' (.start n) (.start n')
  | stop (n n') : SameName tl tl' (n.space ++ ":" ++ n.loc) (n'.space ++ ":" ++ n'.loc) → SameTok tl tl' (.stop n) (.stop n')
  | text (s) : SameTok tl tl' (.text s) (.text s)
  | other : SameTok tl tl' .other .other

/-- The contents of typed members. -/
structure SameStream (tl tl' : List Attr) (s s' : Stream) : Prop where
  toks : List.Forall₂ (SameTok tl tl') s.toks s'.toks
  eof : s'.eof = s.eof

/-- Segments and scenarios. -/
structure SameDims (tokens : String → Stream) (tl tl' : List Attr) (d d' : DimElem) : Prop where
  explicit : List.Forall₂ (fun m m' : MemberElem => List.Forall₂ (SameAttr tl tl') m.attrs m'.attrs ∧ SameName tl tl' m.chars m'.chars)
    d.explicit d'.explicit
  typed : List.Forall₂ (fun m m' : MemberElem => List.Forall₂ (SameAttr tl tl') m.attrs m'.attrs ∧
    SameStream tl tl' (tokens m.chars) (tokens m'.chars)) d.typed d'.typed

/-- Contexts. -/
structure SameCtx (tokens : String → Stream) (tl tl' : List Attr) (c c' : CtxElem) : Prop where
  space : c'.space = c.space
  attrs : c'.attrs = c.attrs
  entities : List.Forall₂ (fun e e' : EntityElem => e'.identifiers = e.identifiers ∧
    List.Forall₂ (SameDims tokens tl tl') e.segments e'.segments) c.entities c'.entities
  periods : c'.periods = c.periods
  scenarios : List.Forall₂ (SameDims tokens tl tl') c.scenarios c'.scenarios

/-- Units. -/
structure SameUnit (tl tl' : List Attr) (u u' : UnitElem) : Prop where
  space : u'.space = u.space
  attrs : u'.attrs = u.attrs
  measures : List.Forall₂ (SameName tl tl') u.measures u'.measures
  divides : List.Forall₂ (fun d d' : DivideElem =>
    List.Forall₂ (List.Forall₂ (SameName tl tl')) d.numerators d'.numerators ∧
    List.Forall₂ (List.Forall₂ (SameName tl tl')) d.denominators d'.denominators) u.divides u'.divides

/-- Instance files. Element names are (namespace, local name) already. -/
structure SameFile (tokens : String → Stream) (i i' : InstFile) : Prop where
  schemaRef : i'.schemaRef = i.schemaRef
  contexts : List.Forall₂ (SameCtx tokens i.attrs i'.attrs) i.contexts i'.contexts
  units : List.Forall₂ (SameUnit i.attrs i'.attrs) i.units i'.units
  footnoteLinks : i'.footnoteLinks = i.footnoteLinks
  facts : i'.facts = i.facts

/-- Folders with the same files, but for prefixes in instances. -/
structure RespelledDisk (tokens : String → Stream) (d d' : Disk) : Prop where
  entry : d'.entryName = d.entryName
  images : d'.images = d.images
  exist : d'.fileExists = d.fileExists
  doc : d'.doc = d.doc
  url : d'.isUrl = d.isUrl
  read : ∀ n, d'.read n = d.read n ∨ ∃ x x' i i', d.read n = some x ∧ d'.read n = some x' ∧
    x.name.loc = "xbrl" ∧ x'.name.loc = "xbrl" ∧ IsInstance x i ∧ IsInstance x' i' ∧ SameFile tokens i i'

/-- Sites with the same files, but for prefixes in instances. -/
structure Respelled (site site' : Site) : Prop where
  eq : ∃ disk, site' = { site with disk := disk }
  disk : ∀ folder, RespelledDisk site.outside.tokens (site.disk folder) (site'.disk folder)

end Telefacts.Spec
