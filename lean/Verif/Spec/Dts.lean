import Verif.Spec.Discover
import Verif.Spec.Instance
import Verif.Spec.XmlText
/-! # Specification: linkbases of a folder, dimension members of contexts -/
namespace Telefacts.Disc
open Telefacts.Spec
variable {L D : Type}

/-- A reference to a linkbase (XBRL 2.1, 4.3). The role is optional; without it, the linkbase may have links of any kind. -/
def RefersLinkbase (i : Item) (kind : LKind) (href : String) : Prop :=
  i.space = "http://www.xbrl.org/2003/linkbase" ∧ XlinkVal i.attrs "arcrole" "http://www.w3.org/1999/xlink/properties/linkbase" ∧
    XlinkVal i.attrs "type" "simple" ∧ ((∀ v, ¬ XlinkVal i.attrs "role" v) ∨ XlinkVal i.attrs "role" (refRole kind)) ∧
    XlinkVal i.attrs "href" href ∧ href ≠ ""

/-- A linkbaseRef element of a schema. -/
def RefIn (f : SchemaFile) (i : Item) : Prop :=
  ∃ ann ∈ f.annotation, ann.space = "http://www.w3.org/2001/XMLSchema" ∧
    ∃ app ∈ ann.appinfo, app.space = "http://www.w3.org/2001/XMLSchema" ∧ i ∈ app.linkbaseRef

/-- All linkbases of a kind that the schemas of a folder refer to are in the folder. -/
def UsesLinkbases (env : FolderEnv L D) (fo : Folder L D) (kind : LKind) : Prop :=
  ∀ key inst loc f i href, EntryInstance env key inst → Reach env inst loc f → RefIn f i → RefersLinkbase i kind href →
    env.isUrl href = false → mapGet (fo.links kind) href = env.readLinkbase kind href

end Telefacts.Disc

namespace Telefacts.Instance
open Telefacts.Spec Telefacts.Linkbase Telefacts.Schema

/-- The text of an element of type QName names a concept; white space around the name does not count (XML Schema 2, 3.2.18 and
4.3.6). -/
def NamesConcept (w : World) (text href : String) : Prop :=
  ∃ a q b : String, text = a ++ q ++ b ∧ XmlText.White a.toList ∧ XmlText.White b.toList ∧ ∃ c, Resolves w q href c

/-- `e'` is the context element `e` with one more explicit member in the segment or scenario. -/
inductive AddMember (m : MemberElem) : CtxElem → CtxElem → Prop
  | segment (sp at' ids x y typed ss ents ps scs) : AddMember m
      ⟨sp, at', ⟨ids, ⟨x ++ y, typed⟩ :: ss⟩ :: ents, ps, scs⟩ ⟨sp, at', ⟨ids, ⟨x ++ m :: y, typed⟩ :: ss⟩ :: ents, ps, scs⟩
  | scenario (sp at' ents ps x y typed ss) : AddMember m
      ⟨sp, at', ents, ps, ⟨x ++ y, typed⟩ :: ss⟩ ⟨sp, at', ents, ps, ⟨x ++ m :: y, typed⟩ :: ss⟩

/-- The members of the first segment and scenario elements. -/
def MemberIn (e : CtxElem) (m : MemberElem) : Prop :=
  (∃ ent ents s ss, e.entities = ent :: ents ∧ ent.segments = s :: ss ∧ m ∈ s.explicit) ∨
    ∃ s ss, e.scenarios = s :: ss ∧ m ∈ s.explicit

end Telefacts.Instance
