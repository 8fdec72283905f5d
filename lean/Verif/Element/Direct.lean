import Verif.Dof.Matrix
import Verif.Mesh.Nodes

/-! # Direct matrices: `Abstract/Element.cpp` 1048-1169, and their splitting:
`Abstract/Model.cpp` 1502-1620 -/
namespace Vega

/-- `MatrixElement` (Element.h 548-573): its type and `submatrixByNodes`. The submatrices are shared
pointers, but no two of them are ever the same object (a clone is cleared at once, Model.cpp
1534-1536). -/
structure DirectMatrix where
  matrixType : MatrixType
  sub : Map (Nat × Nat) DofMatrix

namespace DirectMatrix

/-- Constructor (Element.cpp 1048-1050). -/
def new (t : MatrixType) : DirectMatrix := ⟨t, []⟩

/-- Nodes and dofs, exchanged if the positions of the nodes decrease (Element.cpp 1055-1064). -/
def ordered (x y : Nat × Dof) : (Nat × Dof) × (Nat × Dof) := if x.1 > y.1 then (y, x) else (x, y)

/-- The submatrix that receives the component (Element.cpp 1065-1079). -/
def target (m : DirectMatrix) (p1 p2 : Nat) : Outcome DofMatrix :=
  match m.sub.find (p1, p2) with
  | some s => .ok s
  | none =>
    if m.matrixType = .SYMMETRIC ∧ p1 ≠ p2 then .ok (DofMatrix.new .FULL)
    else if m.matrixType = .SYMMETRIC ∧ p1 = p2 then .ok (DofMatrix.new .SYMMETRIC)
    else .throw

/-- `addComponent` once the positions of the nodes are known (Element.cpp 1055-1080). -/
def addAt (m : DirectMatrix) (x y : Nat × Dof) (v : Dbl) : Outcome DirectMatrix := do
  let (x, y) := ordered x y
  let s ← m.target x.1 y.1
  let s ← s.addComponent x.2 y.2 v
  .ok { m with sub := m.sub.set (x.1, y.1) s }

/-- `MatrixElement::addComponent` (Element.cpp 1052-1081). -/
def addComponent (m : DirectMatrix) (ns : NodeStore) (id1 : Int) (d1 : Dof) (id2 : Int) (d2 : Dof)
    (v : Dbl) : Outcome (NodeStore × DirectMatrix) := do
  let (ns, p1) ← ns.findOrReserveNode id1 none
  let (ns, p2) ← ns.findOrReserveNode id2 none
  let m ← m.addAt (p1, d1) (p2, d2) v
  .ok (ns, m)

/-- `findSubmatrix` (Element.cpp 1089-1097): the entries are copied in a matrix of the type of the
element. -/
def findSubmatrix (m : DirectMatrix) (p1 p2 : Nat) : DofMatrix :=
  match m.sub.find (p1, p2) with
  | some s => ⟨m.matrixType, s.componentByDofs⟩
  | none => ⟨m.matrixType, []⟩

/-- Insertion in a `std::set` of positions, as an increasing list. -/
def insertPos (a : Nat) : List Nat → List Nat
  | [] => [a]
  | b :: l => if a < b then a :: b :: l else if a = b then b :: l else b :: insertPos a l

/-- `nodePositions` (Element.cpp 1099-1106). -/
def nodePositions (m : DirectMatrix) : List Nat :=
  m.sub.foldl (fun acc kv => insertPos kv.1.2 (insertPos kv.1.1 acc)) []

/-- `nodePairs` (Element.cpp 1123-1129). -/
def nodePairs (m : DirectMatrix) : List (Nat × Nat) := m.sub.keys

/-- `findInPairs` (Element.cpp 1131-1143). -/
def findInPairs (m : DirectMatrix) (p : Nat) : List (Nat × Nat) :=
  m.sub.keys.filter fun k => !(k.1 ≠ p ∧ k.2 ≠ p) && !(k.1 = k.2)

/-- `getDOFSForNode` (Element.cpp 1108-1121); the second part of the test is the position itself,
taken for a truth value. -/
def getDOFSForNode (m : DirectMatrix) (p : Nat) : Dofs :=
  m.sub.foldl (fun dofs kv =>
    if kv.1.1 = p ∨ kv.1.2 ≠ 0 then
      let dofs := if kv.2.hasRotations then dofs.union Dofs.ROTATIONS else dofs
      if kv.2.hasTranslations then dofs.union Dofs.TRANSLATIONS else dofs
    else dofs) Dofs.NO_DOFS

/-- `StiffnessMatrix::addStiffness` (Element.cpp 1149-1154) and `DampingMatrix::addDamping`
(Element.cpp 1164-1169), once the positions are known. -/
def addSpring (m : DirectMatrix) (x y : Nat × Dof) (k : Dbl) : Outcome DirectMatrix := do
  let m ← m.addAt x x k
  let m ← m.addAt y y k
  m.addAt x y (-k)

end DirectMatrix

/-! ## splitting -/

namespace MatrixSplit

/-- State of the loop over the pairs of nodes: `stackOfNodesByNodes`, `esToAddByStackNumber` (with
indices in `pieces`) and the new matrices. -/
structure State where
  stack : Map Nat Nat
  es : Map (Nat × Nat) Nat
  pieces : List DirectMatrix

/-- The stack of a node, given at first sight (Model.cpp 1547-1553, 1554-1560). -/
def stackOf (sizeStack : Nat) (stack : Map Nat Nat) (p : Nat) : Map Nat Nat × Nat :=
  match stack.find p with
  | some s => (stack, s)
  | none => (stack.set p (stack.length / sizeStack), stack.length / sizeStack)

/-- The pair of stacks in increasing order (Model.cpp 1563-1568). -/
def sortPair (a b : Nat) : Nat × Nat := if a < b then (a, b) else (b, a)

/-- The matrix of a pair of stacks, created at first sight (Model.cpp 1569-1590). -/
def pieceOf (t : MatrixType) (s : State) (ps : Nat × Nat) : State × Nat :=
  match s.es.find ps with
  | some i => (s, i)
  | none =>
    let i := s.pieces.length
    let es := s.es.set ps i
    let f := ps.1 - ps.1 % 2
    let g := ps.2 - ps.2 % 2
    let es := if f = g then ((es.set (f, f) i).set (f, f + 1) i).set (f + 1, f + 1) i else es
    (⟨s.stack, es, s.pieces ++ [DirectMatrix.new t]⟩, i)

/-- The copy of the components (Model.cpp 1593-1597), by the ids of the nodes. -/
def copy (ns : NodeStore) (id1 id2 : Int) : List ((Dof × Dof) × Dbl) → DirectMatrix →
    Outcome (NodeStore × DirectMatrix)
  | [], m => .ok (ns, m)
  | ((d1, d2), v) :: rest, m => do
    let (ns, m) ← m.addComponent ns id1 d1 id2 d2 v
    copy ns id1 id2 rest m

/-- The treatment of a pair of nodes (Model.cpp 1544-1599). -/
def pair (sizeStack : Nat) (m : DirectMatrix) (ns : NodeStore) (s : State) (np : Nat × Nat) :
    Outcome (NodeStore × State) := do
  let id1 ← ns.findNodeId np.1
  let id2 ← ns.findNodeId np.2
  let (stack, sI) := stackOf sizeStack s.stack np.1
  let (stack, sJ) := stackOf sizeStack stack np.2
  let (s, i) := pieceOf m.matrixType { s with stack := stack } (sortPair sI sJ)
  match s.pieces[i]? with
  | none => .ub
  | some piece =>
    let (ns, piece) ← copy ns id1 id2 (m.findSubmatrix np.1 np.2).componentByDofs piece
    .ok (ns, { s with pieces := s.pieces.set i piece })

/-- The loop over the pairs of nodes. -/
def loop (sizeStack : Nat) (m : DirectMatrix) : List (Nat × Nat) → NodeStore → State →
    Outcome (NodeStore × State)
  | [], ns, s => .ok (ns, s)
  | np :: rest, ns, s => do
    let (ns, s) ← pair sizeStack m ns s np
    loop sizeStack m rest ns s

/-- The matrices that replace a matrix (Model.cpp 1525-1599). The ids of the nodes are looked up when
they are needed, not before (Model.cpp 1528-1531). -/
def splitOne (sizeMax : Nat) (ns : NodeStore) (m : DirectMatrix) :
    Outcome (NodeStore × List DirectMatrix) := do
  let (ns, s) ← loop (sizeMax / 2) m m.nodePairs ns ⟨[], [], []⟩
  .ok (ns, s.pieces)

/-- The loop over the matrices: those that stay and those that are added (Model.cpp 1513-1608). -/
def splitAll (sizeMax : Nat) : List DirectMatrix → NodeStore → List DirectMatrix × List DirectMatrix →
    Outcome (NodeStore × List DirectMatrix × List DirectMatrix)
  | [], ns, r => .ok (ns, r)
  | m :: rest, ns, (kept, added) =>
    if m.nodePositions.length ≤ sizeMax then splitAll sizeMax rest ns (kept ++ [m], added)
    else do
      let (ns, pieces) ← splitOne sizeMax ns m
      splitAll sizeMax rest ns (kept, added ++ pieces)

/-- `Model::splitDirectMatrices` (Model.cpp 1502-1620) on the direct matrices of the model. -/
def run (sizeMax : Nat) (l : List DirectMatrix) (ns : NodeStore) :
    Outcome (NodeStore × List DirectMatrix) :=
  if sizeMax < 2 then .throw
  else do
    let (ns, kept, added) ← splitAll sizeMax l ns ([], [])
    .ok (ns, kept ++ added)

end MatrixSplit
end Vega
