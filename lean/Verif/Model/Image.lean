import Verif.Model.Path
/-! # pkg/serializables/image.go: the rewriting walk -/
namespace Telefacts.Image

/-- html.Attribute -/
structure HAttr where
  ns : String
  key : String
  val : String
deriving DecidableEq, Repr

/-- html.Node; `elem` says `Type == html.ElementNode`, `typ` is the type. Simplified: sibling links are a
list of children; `DataAtom` and `Namespace` are part of `typ`. -/
inductive Node where
  | mk (elem : Bool) (typ : Nat) (data : String) (attrs : List HAttr) (kids : List Node)

/-- image.go:28-35: the loop over the attributes of an `img`. -/
def fixAttrs (images : GoMap String String) : List HAttr → List HAttr
  | [] => []
  | a :: as =>
    (if a.key = "src" then
      match mapGet images (fileBase a.val) with
      | some data => { a with val := data }
      | none => a
    else a) :: fixAttrs images as

mutual
/-- image.go:25-42 `replace`. -/
def replace (images : GoMap String String) : Node → Node
  | .mk elem typ data attrs kids =>
    .mk elem typ data (if elem then (if data = "img" then fixAttrs images attrs else attrs) else attrs)
      (replaceAll images kids)
/-- image.go:39-41: the loop over the children. -/
def replaceAll (images : GoMap String String) : List Node → List Node
  | [] => []
  | k :: ks => replace images k :: replaceAll images ks
end

/-- image.go:10-23 `TransformInlineImages`; `parse` and `render` are golang.org/x/net/html. -/
def transformInlineImages {B : Type} (parse : B → Option Node) (render : Node → Option B)
    (src : B) (images : GoMap String String) : B :=
  match parse src with
  | none => src
  | some root =>
    match render (replace images root) with
    | none => src
    | some out => out

end Telefacts.Image
