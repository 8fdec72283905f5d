import Verif.Element.Direct
import Verif.Element.Discrete

/-! # Replacement of direct matrices by discrete elements: `Abstract/Model.cpp` 1167-1394 -/
namespace Vega
namespace DirectAster

/-- A discrete element created for a direct matrix, with the positions of its nodes. Its group, cell
and virtual material (Model.cpp 1232-1243, 1273-1285) are not represented. -/
inductive Piece
  | point (p : Nat) (d : DiscretePoint)
  | segment (p q : Nat) (s : DiscreteSegment)

/-- The entries of a submatrix put in a point (Model.cpp 1209-1231). -/
def fillPoint (k : Quantity) : List ((Dof × Dof) × Dbl) → DiscretePoint → Outcome DiscretePoint
  | [], d => .ok d
  | ((r, c), v) :: rest, d =>
    if isEqual v 0 = false then do
      let d ← d.add k r c v
      fillPoint k rest d
    else fillPoint k rest d

/-- The entries of a submatrix put in a segment, divided by the number of segments of the first node
(Model.cpp 1313-1339). -/
def fillBlock (k : Quantity) (n : Nat) (i j : Fin 2) : List ((Dof × Dof) × Dbl) → DiscreteSegment →
    Outcome DiscreteSegment
  | [], s => .ok s
  | ((r, c), v) :: rest, s =>
    if isEqual (v / n) 0 = false then do
      let s ← s.add k i j r c (v / n)
      fillBlock k n i j rest s
    else fillBlock k n i j rest s

/-- The four blocks of a segment (Model.cpp 1296-1341). -/
def fillSegment (m : DirectMatrix) (k : Quantity) (p q : Nat) (s : DiscreteSegment) :
    Outcome DiscreteSegment := do
  let n := (m.findInPairs p).length
  let s ← fillBlock k n 0 0 (m.findSubmatrix p p).componentByDofs s
  let s ← fillBlock k n 0 1 (m.findSubmatrix p q).componentByDofs s
  let s ← fillBlock k n 1 0 (m.findSubmatrix q p).componentByDofs s
  fillBlock k n 1 1 (m.findSubmatrix q q).componentByDofs s

/-- The element created for a pair of nodes, if any (Model.cpp 1200-1349); `k` stands for the type of
the matrix. -/
def piece (m : DirectMatrix) (k : Quantity) (np : Nat × Nat) : Outcome (Option Piece) :=
  if np.1 = np.2 then
    if (m.findInPairs np.1).isEmpty then do
      let sub := m.findSubmatrix np.1 np.1
      let d ← fillPoint k sub.componentByDofs (DiscretePoint.new sub.matrixType)
      .ok (some (.point np.1 d))
    else .ok none
  else do
    let s ← fillSegment m k np.1 np.2 (DiscreteSegment.new m.matrixType)
    .ok (some (.segment np.1 np.2 s))

/-- The loop over the pairs of nodes (Model.cpp 1200-1350). -/
def pieces (m : DirectMatrix) (k : Quantity) : List (Nat × Nat) → Outcome (List Piece)
  | [] => .ok []
  | np :: rest => do
    let p ← piece m k np
    let l ← pieces m k rest
    .ok (p.toList ++ l)

/-- The elements that replace a direct matrix (Model.cpp 1199-1351). The model has one direct matrix. -/
def replace (m : DirectMatrix) (k : Quantity) : Outcome (List Piece) := pieces m k m.nodePairs

/-! ## the degrees of freedom added and blocked -/

/-- The degrees of freedom that a created element adds to its nodes (Model.cpp 1244-1250,
1286-1295): a segment is asked whether it has rotations before it has any entry. -/
def addedBy (m : DirectMatrix) (k : Quantity) (np : Nat × Nat) : Outcome Dofs :=
  if np.1 = np.2 then do
    let sub := m.findSubmatrix np.1 np.1
    let d ← fillPoint k sub.componentByDofs (DiscretePoint.new sub.matrixType)
    .ok (if d.hasRotations then Dofs.ALL_DOFS else Dofs.TRANSLATIONS)
  else
    .ok (if (DiscreteSegment.new m.matrixType).hasRotations then Dofs.ALL_DOFS else Dofs.TRANSLATIONS)

/-- `addedDofsByNode` after the loop over the pairs (Model.cpp 1244-1295). -/
def added (m : DirectMatrix) (k : Quantity) : List (Nat × Nat) → Map Nat Dofs → Outcome (Map Nat Dofs)
  | [], a => .ok a
  | np :: rest, a =>
    if np.1 = np.2 ∧ (m.findInPairs np.1).isEmpty = false then added m k rest a
    else do
      let d ← addedBy m k np
      added m k rest ((a.set np.1 d).set np.2 d)

/-- What the rest of the model says of a node: the degrees of freedom of its elements
(`ownedDofsByNode`, Model.cpp 1178-1198), those of all the loadings on all their nodes (Model.cpp
1369-1373), and those of the constraints on this node (Model.cpp 1374-1380). -/
structure Rest where
  owned : Nat → Dofs
  loads : Dofs
  constraints : Nat → Dofs

/-- The degrees of freedom of a node blocked by a virtual constraint (Model.cpp 1352-1392).
`requiredDofsByNode` has only empty values: the entries of the matrices are added to copies (Model.cpp
1206, 1228, 1261, 1335). -/
def blocked (r : Rest) (a : Map Nat Dofs) (p : Nat) : Dofs :=
  match a.find p with
  | none => Dofs.NO_DOFS
  | some d => (d.diff (r.owned p)).diff ((Dofs.NO_DOFS.union r.loads).union (r.constraints p))

end DirectAster
end Vega
