import Verif.Model.Label
import Verif.Spec.Basic
/-! # Specification of labels and languages -/
namespace Telefacts.Render
open Telefacts.Linkbase Telefacts.Spec

/-- The labels of a concept in document order of linkbases, links, locators, arcs and label resources. -/
def labelsOf (linkbases : List (List LabelLink)) (href : String) : List Label :=
  linkbases.flatten.flatMap fun lk =>
    (lk.locs.filter fun loc => loc.href = href).flatMap fun loc =>
      (lk.arcs.filter fun a => a.frm = loc.label ∧ a.arcrole = "http://www.xbrl.org/2003/arcrole/concept-label").flatMap
        fun a => lk.labels.filter fun l => l.label = a.to

/-- The label has this role. -/
def HasLabelRole (l : Label) (role : String) : Prop :=
  (l.role = "http://www.xbrl.org/2003/role/label" ∧ role = "Default") ∨
  (l.role = "http://www.xbrl.org/2003/role/terseLabel" ∧ role = "Terse") ∨
  (l.role = "http://www.xbrl.org/2003/role/verboseLabel" ∧ role = "Verbose")

/-- The label is shown in this language. -/
def InLang (l : Label) (lang : String) : Prop :=
  (l.lang = "en-US" ∧ lang = "en - english") ∨ (l.lang = "es" ∧ lang = "es - español")

/-- The texts that come from the href itself. -/
def HrefText (href role lang t : String) : Prop :=
  role = "Default" ∧ ((lang = "Unlabelled" ∧ t = href) ∨
    (lang = "Truncated" ∧ ∃ base frag, href = base ++ "#" ++ frag ∧ '#' ∉ base.toList ∧ t = "#" ++ frag))

/-- A pack whose maps have distinct keys. -/
def PackWF (p : LabelPack) : Prop := MapWF p ∧ ∀ e ∈ p, MapWF e.2

/-- The text of the pack in this role and language. -/
def Shown (p : LabelPack) (role lang t : String) : Prop := ∃ l, mapGet p role = some l ∧ mapGet l lang = some t

/-- The pack has a text in this role and language. -/
def HasText (p : LabelPack) (role lang : String) : Prop := ∃ l, (role, l) ∈ p ∧ ∃ t, (lang, t) ∈ l

/-- The pack has this role. -/
def HasRole (p : LabelPack) (role : String) : Prop := ∃ l, (role, l) ∈ p

end Telefacts.Render
