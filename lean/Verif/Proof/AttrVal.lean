import Verif.Spec.AttrVal
import Verif.Proof.Basic
/-! # Lemmas about attribute values -/
namespace Telefacts
open Telefacts.Spec

theorem findAttr_iff (attrs : List Attr) (n : String) (a : Attr) :
    findAttr attrs n = some a ↔ FirstWith (fun a : Attr => a.name.loc = n) attrs a := by
  induction attrs with
  | nil => simp [findAttr, not_firstWith_nil]
  | cons b as ih =>
    simp only [findAttr]
    by_cases h : b.name.loc = n
    · rw [if_pos h, firstWith_cons_pos (fun a : Attr => a.name.loc = n) h]; simp [eq_comm]
    · rw [if_neg h, firstWith_cons_neg (fun a : Attr => a.name.loc = n) h, ih]

theorem attrVal_iff (attrs : List Attr) (n v : String) :
    AttrVal attrs n v ↔ ∃ a, findAttr attrs n = some a ∧ a.value = v := by
  simp [AttrVal, findAttr_iff]

theorem xlinkVal_iff (attrs : List Attr) (n v : String) :
    XlinkVal attrs n v ↔ xlinkAttr attrs n = some v := by
  have h : XlinkVal attrs n v ↔
      ∃ a, findAttr attrs n = some a ∧ a.name.space = XLINK ∧ a.value = v := by
    simp [XlinkVal, findAttr_iff, XLINK]
  rw [h, xlinkAttr]
  cases findAttr attrs n with
  | none => simp
  | some a => by_cases hs : a.name.space = XLINK <;> simp [hs]

end Telefacts
