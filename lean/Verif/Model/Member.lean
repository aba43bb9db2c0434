import Verif.Model.Context
/-!
# pkg/renderables/contextualQuadrant.go: dimension rows and member cells
-/
namespace Telefacts.Render

/-- contextualQuadrant.go:11-14; the zero value is an empty cell. -/
structure MemberCell where
  explicit : Option Labelled
  typedMember : String
deriving DecidableEq, Repr

/-- contextualQuadrant.go:16-21 -/
structure VoidCell where
  isParenthesized : Bool
  indentation : Nat
  dimension : Labelled
  typedDomain : Option Labelled
deriving DecidableEq, Repr

/-- contextualQuadrant.go:68-102: the cell that a member puts into a row, if any. -/
def memberCell (v : VoidCell) (m : RelevantMember) : Option MemberCell :=
  if m.dimension.href = v.dimension.href then
    if m.isSegment ≠ v.isParenthesized then
      match m.typedDomain, v.typedDomain with
      | some a, some b => if a.href = b.href then some ⟨none, m.typedMember⟩ else none
      | none, none => some ⟨m.explicit, ""⟩
      | _, _ => none
    else
      match m.typedDomain, v.typedDomain with
      | some a, some b => if a.href = b.href then some ⟨none, m.typedMember⟩ else none
      | none, none => some ⟨m.explicit, ""⟩
      | _, _ => none
  else none

/-- contextualQuadrant.go:66-104: one cell. -/
def cellOf (v : VoidCell) (c : RelevantContext) : MemberCell :=
  match c.members.findSome? (memberCell v) with
  | some x => x
  | none => ⟨none, ""⟩

/-- The maps built at contextualQuadrant.go:113-117. -/
structure DimMaps where
  segment : GoMap String (GoMap String RelevantMember)
  scenario : GoMap String (GoMap String RelevantMember)
  dimensions : GoMap String Labelled
  typedDomains : GoMap String Labelled
  hrefs : List String

/-- contextualQuadrant.go:133-136 and 138-141 -/
def addMember (m : GoMap String (GoMap String RelevantMember)) (dim mem : String) (x : RelevantMember) :
    GoMap String (GoMap String RelevantMember) :=
  mapSet m dim (mapSet ((mapGet m dim).getD []) mem x)

/-- contextualQuadrant.go:120-144: one member. -/
def addDimension (s : DimMaps) (m : RelevantMember) : DimMaps :=
  if m.dimension.href = "" then s
  else
    let s := { s with
      hrefs := match mapGet s.dimensions m.dimension.href with
        | some _ => s.hrefs
        | none => s.hrefs ++ [m.dimension.href]
      dimensions := mapSet s.dimensions m.dimension.href m.dimension
      typedDomains := match m.typedDomain with
        | some t => mapSet s.typedDomains t.href t
        | none => s.typedDomains }
    match m.explicit with
    | none => s
    | some e =>
      if m.isSegment then { s with segment := addMember s.segment m.dimension.href e.href m }
      else { s with scenario := addMember s.scenario m.dimension.href e.href m }

/-- contextualQuadrant.go:118-145 -/
def dimMaps (ctxs : List RelevantContext) : DimMaps :=
  (ctxs.flatMap RelevantContext.members).foldl addDimension ⟨[], [], [], [], []⟩

/-- contextualQuadrant.go:149-158 and 159-168; `ord` is the iteration order of the inner map, of which the first
entry is taken. -/
def explicitRow (ord : GoMap String RelevantMember → GoMap String RelevantMember)
    (m : GoMap String (GoMap String RelevantMember)) (href : String) : List VoidCell :=
  match mapGet m href with
  | none => []
  | some inner =>
    match ord inner with
    | [] => []
    | (_, x) :: _ => [⟨false, 0, x.dimension, none⟩]

/-- contextualQuadrant.go:146-169 -/
def explicitRows (ord : GoMap String RelevantMember → GoMap String RelevantMember) (s : DimMaps) : List VoidCell :=
  (sortStrings s.hrefs).flatMap fun h => explicitRow ord s.segment h ++ explicitRow ord s.scenario h

/-- contextualQuadrant.go:258-265: the children of the nodes with a locator. -/
def grandchildren (children : List Node) (loc : String) : List Node :=
  (children.filter fun c => decide (c.locator = loc)).flatMap Node.children

/-- contextualQuadrant.go:243-275 `dedupNodes`: the children. (`sort.StringSlice` at 254 is a conversion, it does not
sort.) -/
def dedupNodes (children : List Node) (order : Nat) : List Node :=
  if _h : children = [] then []
  else (dedup (children.map Node.locator)).mapIdx fun i loc =>
    .mk loc (F64.ofInt ((order + i + 1 : Nat) : Int))
      (dedupNodes (grandchildren children loc) (order + i + 1))
termination_by sizeAll children
decreasing_by
  have h1 := sizeAll_children (fun c => decide (c.locator = loc)) children
  unfold grandchildren
  have h2 : 0 < children.length := List.length_pos_iff.2 _h
  omega

/-- contextualQuadrant.go:222-241 `reduceTrees` -/
def reduceTrees (trees : List Node) : Node :=
  if trees.any (fun r => !(decide (r.locator = "") && !r.children.isEmpty)) then .mk "" F64.zero []
  else .mk "" F64.zero (dedupNodes (trees.flatMap Node.children) 0)

/-- The variables `ret` and `dimension` captured by `makeIndents`. -/
structure IndentState where
  rows : List VoidCell
  dimension : Option Labelled

/-- contextualQuadrant.go:176-183; `none` is the early return. -/
def enterNode (s : DimMaps) (loc : String) (st : IndentState) : Option IndentState :=
  if st.dimension = none ∧ loc ≠ "" then
    match mapGet s.dimensions loc with
    | none => none
    | some d => some { st with dimension := some d }
  else some st

/-- `ret = append(ret, &VoidCell{...})` with `*dimension`. -/
def appendRow (paren : Bool) (level : Nat) (td : Option Labelled) (st : IndentState) : Telefacts.Instance.Run IndentState :=
  match st.dimension with
  | none => .panic
  | some d => .done { st with rows := st.rows ++ [⟨paren, level, d, td⟩] }

/-- contextualQuadrant.go:184-206; `none` is the early return. -/
def nodeRow (s : DimMaps) (paren : Bool) (level : Nat) (loc : String) (st : IndentState) :
    Telefacts.Instance.Run (Option IndentState) :=
  if level = 1 then (appendRow paren level none st).andThen fun st => .done (some st)
  else if 1 < level ∧ loc ≠ "" then
    match mapGet s.typedDomains loc with
    | none => .done none
    | some t => (appendRow paren level (some t) st).andThen fun st => .done (some st)
  else .done (some st)

mutual
/-- contextualQuadrant.go:175-216 `makeIndents` on a tree with sorted children. -/
def indentNode (s : DimMaps) (paren : Bool) (level : Nat) (st : IndentState) : Node → Telefacts.Instance.Run IndentState
  | .mk loc _ cs =>
    match enterNode s loc st with
    | none => .done { st with rows := [] }
    | some st =>
      match nodeRow s paren level loc st with
      | .panic => .panic
      | .loop => .loop
      | .done none => .done { st with rows := [] }
      | .done (some st) => indentNodes s paren (level + 1) st cs
/-- contextualQuadrant.go:213-215 -/
def indentNodes (s : DimMaps) (paren : Bool) (level : Nat) (st : IndentState) : List Node → Telefacts.Instance.Run IndentState
  | [] => .done st
  | c :: cs =>
    match indentNode s paren level st c with
    | .panic => .panic
    | .loop => .loop
    | .done st => indentNodes s paren level st cs
end

/-- contextualQuadrant.go:111-220 `getVoidQuadrant`; `ord` gives the order of iteration over inner maps. -/
def getVoidQuadrant (ord : GoMap String RelevantMember → GoMap String RelevantMember) (ctxs : List RelevantContext)
    (segTrees scenTrees : List Node) : Telefacts.Instance.Run (List VoidCell) :=
  let s := dimMaps ctxs
  (indentNode s false 0 ⟨explicitRows ord s, none⟩ (reduceTrees segTrees).sorted).andThen fun st =>
  (indentNode s true 0 st (reduceTrees scenTrees).sorted).andThen fun st => .done st.rows

/-- contextualQuadrant.go:41-52 -/
def sortTrees (l : List Node) : List Node := stableSort (fun a b => decide (a.locator < b.locator)) l

/-- contextualQuadrant.go:35-109 `getMemberGridAndVoidQuadrant` -/
def getMemberGrid (ord : GoMap String RelevantMember → GoMap String RelevantMember) (ctxs : List RelevantContext)
    (segTrees scenTrees : List Node) : Telefacts.Instance.Run (List (List MemberCell) × List VoidCell) :=
  if ctxs = [] then .done ([], [])
  else (getVoidQuadrant ord ctxs (sortTrees segTrees) (sortTrees scenTrees)).andThen fun rows =>
    if rows = [] then .done ([], [])
    else .done (rows.map fun v => ctxs.map fun c => cellOf v c, rows)

end Telefacts.Render
