import Verif.Model.Prelude
/-!
# internal/graph/graph.go: trees of arcs

`graph.Tree` (graph.go:7-9) is a call of the `arcs` library, which is not part of the repository: it is a parameter
wherever it is used.
-/
namespace Telefacts.Render

/-- `myarcs.Arc` -/
structure Arc where
  arcrole : String
  order : F64
  frm : String
  to : String
deriving DecidableEq, Repr

/-- `myarcs.RArc` (fields used: `Locator`, `Order`, `Children`). -/
inductive Node where
  | mk (locator : String) (order : F64) (children : List Node)

namespace Node
def locator : Node → String
  | mk l _ _ => l
def order : Node → F64
  | mk _ o _ => o
def children : Node → List Node
  | mk _ _ c => c
end Node

/-- `sort.SliceStable(node.Children, ...)`: e.g. presentationGrid.go:92-94. -/
def sortNodes (l : List Node) : List Node := stableSort (fun a b => F64.lt a.order b.order) l

mutual
/-- The tree with the children of every node sorted. The code sorts the children of a node when it visits the node;
sorting everything first gives the same walk. -/
def Node.sorted : Node → Node
  | .mk l o cs => .mk l o (sortNodes (sortedAll cs))
def sortedAll : List Node → List Node
  | [] => []
  | c :: cs => c.sorted :: sortedAll cs
end

mutual
/-- Number of nodes. -/
def Node.size : Node → Nat
  | .mk _ _ cs => sizeAll cs + 1
def sizeAll : List Node → Nat
  | [] => 0
  | c :: cs => c.size + sizeAll cs
end

theorem sizeAll_append (a b : List Node) : sizeAll (a ++ b) = sizeAll a + sizeAll b := by
  induction a with
  | nil => simp [sizeAll]
  | cons x xs ih => simp [sizeAll, ih]; omega

/-- Children of some of the nodes are fewer than the nodes with all their descendants. -/
theorem sizeAll_children (p : Node → Bool) (cs : List Node) :
    sizeAll ((cs.filter p).flatMap Node.children) + cs.length ≤ sizeAll cs := by
  induction cs with
  | nil => simp [sizeAll]
  | cons c cs ih =>
    obtain ⟨l, o, ch⟩ := c
    by_cases h : p (.mk l o ch)
    · simp only [List.filter_cons, h, if_true, List.flatMap_cons, sizeAll_append, Node.children, sizeAll, Node.size,
        List.length_cons]
      omega
    · simp only [List.filter_cons, h, List.length_cons, sizeAll, Node.size]
      simp only [Bool.false_eq_true, if_false]
      omega

end Telefacts.Render
