import Verif.Model.Image
import Verif.Spec.Path
/-! # Specification of image inlining: position by position -/
namespace Telefacts.Image

def Node.elem : Node → Bool | .mk e _ _ _ _ => e
def Node.typ : Node → Nat | .mk _ t _ _ _ => t
def Node.data : Node → String | .mk _ _ d _ _ => d
def Node.attrs : Node → List HAttr | .mk _ _ _ a _ => a
def Node.kids : Node → List Node | .mk _ _ _ _ k => k

/-- The node at a position (child numbers from the root). -/
inductive At : Node → List Nat → Node → Prop
  | here (n) : At n [] n
  | down (n i p k m) : n.kids[i]? = some k → At k p m → At n (i :: p) m

/-- The attribute is an image source with a known image. -/
def Known (images : GoMap String String) (n : Node) (a : HAttr) (d : String) : Prop :=
  n.elem = true ∧ n.data = "img" ∧ a.key = "src" ∧ ∃ b, BaseName a.val b ∧ mapGet images b = some d

/-- `m'` is `m` with known image sources replaced (looking at this node only). -/
def Inlined (images : GoMap String String) (m m' : Node) : Prop :=
  m'.elem = m.elem ∧ m'.typ = m.typ ∧ m'.data = m.data ∧ m'.kids.length = m.kids.length ∧
  m'.attrs.length = m.attrs.length ∧
  ∀ (i : Nat) (a : HAttr), m.attrs[i]? = some a → ∃ a' : HAttr, m'.attrs[i]? = some a' ∧ a'.ns = a.ns ∧ a'.key = a.key ∧
    (∀ d, Known images m a d → a'.val = d) ∧ ((¬ ∃ d, Known images m a d) → a'.val = a.val)

end Telefacts.Image
