import Verif.Spec.Image
import Verif.Spec.Media
import Verif.Spec.Server
/-! # Specification of the document that is served -/
namespace Telefacts.Image
open Telefacts.Media

/-- The attribute is the source of an image, and names the image file `e` of the folder. -/
def Names (es : List Entry) (m : Node) (a : HAttr) (e : Entry) : Prop :=
  m.elem = true ∧ m.data = "img" ∧ a.key = "src" ∧ e ∈ es ∧ BaseName a.val e.name ∧ ∃ u, Shows e u

/-- The attribute stays as it is, unless it names an image file: then it has the bytes of that file. -/
def AttrShown (es : List Entry) (m : Node) (a a' : HAttr) : Prop :=
  a'.ns = a.ns ∧ a'.key = a.key ∧ (∀ e, Names es m a e → Shows e a'.val) ∧ ((∀ e, ¬ Names es m a e) → a'.val = a.val)

/-- The nodes are the same, but for sources of images. -/
def NodeShown (es : List Entry) (m m' : Node) : Prop :=
  m'.elem = m.elem ∧ m'.typ = m.typ ∧ m'.data = m.data ∧ m'.kids.length = m.kids.length ∧ m'.attrs.length = m.attrs.length ∧
  ∀ (i : Nat) (a : HAttr), m.attrs[i]? = some a → ∃ a', m'.attrs[i]? = some a' ∧ AttrShown es m a a'

/-- The trees are the same position by position, but for sources of images. -/
def TreeShown (es : List Entry) (n n' : Node) : Prop :=
  (∀ p m, At n p m → ∃ m', At n' p m' ∧ NodeShown es m m') ∧ ∀ p m', At n' p m' → ∃ m, At n p m ∧ NodeShown es m m'

end Telefacts.Image
namespace Telefacts.Server
open Telefacts.Media Telefacts.Image

/-- What a browser is to get for the document of a folder with the files `es`: the bytes on disk if there is no image file, or if they
are not understood as HTML; else those of a tree that differs only in the sources of images, if it can be written. -/
def DocumentShown (site : Site) (folder : String) (es : List Entry) (b : Store.Bytes) : Prop :=
  ((∀ e ∈ es, ∀ u, ¬ Shows e u) → b = site.document folder) ∧
  ((∃ e ∈ es, ∃ u, Shows e u) →
    (site.parseHtml (site.document folder) = none ∧ b = site.document folder) ∨
    ∃ n n', site.parseHtml (site.document folder) = some n ∧ TreeShown es n n' ∧
      (site.renderHtml n' = some b ∨ (site.renderHtml n' = none ∧ b = site.document folder)))

end Telefacts.Server
