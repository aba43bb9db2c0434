import Verif.Model.Attr
import Verif.Spec.Basic
/-! # Specification of attribute values -/
namespace Telefacts
open Telefacts.Spec

/-- The first attribute with that local name has value `v`. -/
def AttrVal (attrs : List Attr) (n v : String) : Prop :=
  ∃ a, FirstWith (fun a : Attr => a.name.loc = n) attrs a ∧ a.value = v

/-- ... and is in the XLink namespace. -/
def XlinkVal (attrs : List Attr) (n v : String) : Prop :=
  ∃ a, FirstWith (fun a : Attr => a.name.loc = n) attrs a ∧
    a.name.space = "http://www.w3.org/1999/xlink" ∧ a.value = v

end Telefacts
