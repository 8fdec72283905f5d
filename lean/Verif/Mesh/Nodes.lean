import Verif.Basic
import Verif.Map
import Verif.Num

/-! # Nodes of a mesh: `Abstract/Mesh.h`, `Abstract/Mesh.cpp` 90-335 -/
namespace Vega

/-- `NodeData` (Mesh.h 30-42). `dofs` is left out: no modelled function reads it. -/
structure NodeData where
  id : Int
  x : Dbl
  y : Dbl
  z : Dbl
  cpPos : Nat
  cdPos : Nat
  nodePart : Int
  deriving DecidableEq

/-- `NodeStorage` (Mesh.h 44-58) with the static counters `Node::auto_node_id`
(MeshComponents.cpp 299) and `NodeStorage::lastNodePart` (Mesh.cpp 53). A `std::set<int>` is
a strictly increasing list. -/
structure NodeStore where
  nodeDatas : List NodeData
  positionById : Map Int Nat
  autoNodeId : Int
  lastNodePart : Int
  mainNodePartByCellPart : Map Int Int
  cellPartsByNodePart : Map Int (List Int)
  interfaceNodePartByCellParts : Map (List Int) Int
  reservedButUnused : List Nat

/-- `Node::AUTO_ID`, `Cell::AUTO_ID` (MeshComponents.h 283, 348): `INT_MIN`. -/
def AUTO_ID : Int := -2147483648

/-- `std::set<int>::insert` on a strictly increasing list. -/
def insertSorted (a : Int) : List Int → List Int
  | [] => [a]
  | b :: l => if a < b then a :: b :: l else if a = b then b :: l else b :: insertSorted a l

/-- The search of an unused id (Mesh.cpp 188-191, 343-346): the counter is decremented at
each trial. The fuel is the number of known ids plus one; running out of it (proved
impossible) would be the outcome `diverges`. `int` underflow is not modelled. -/
def searchAuto (known : Map Int Nat) : Nat → Int → Outcome (Int × Int)
  | 0, _ => .diverges
  | fuel + 1, auto =>
    if (known.find auto).isSome then searchAuto known fuel (auto - 1) else .ok (auto, auto - 1)

namespace NodeStore

/-- An empty mesh at program start. -/
def init : NodeStore := ⟨[], [], 9999999, 0, [], [], [], []⟩

/-- `NodeStorage::RESERVED_POSITION` (Mesh.cpp 43). -/
def RESERVED : Dbl := -dblMax

/-- `Mesh::findNodePosition` (Mesh.cpp 323-329); `UNAVAILABLE_NODE` is `none`. -/
def findNodePosition (s : NodeStore) (id : Int) : Option Nat := s.positionById.find id

/-- `Mesh::findNodeId` (Mesh.cpp 315-317) on an available position. -/
def findNodeId (s : NodeStore) (pos : Nat) : Outcome Int :=
  match s.nodeDatas[pos]? with
  | some d => .ok d.id
  | none => .ub

/-- `Mesh::countNodes` (Mesh.cpp 214-216). -/
def countNodes (s : NodeStore) : Nat := s.nodeDatas.length

/-- The id to use and the new value of the counter (Mesh.cpp 186-194). -/
def pickId (s : NodeStore) (id : Int) : Outcome (Int × Int) :=
  if id = AUTO_ID then searchAuto s.positionById (s.positionById.length + 1) s.autoNodeId
  else .ok (id, s.autoNodeId)

/-- `Mesh::addNode` (Mesh.cpp 182-212). -/
def addNode (s : NodeStore) (id : Int) (x y z : Dbl) (cpPos cdPos : Nat) (nodePart : Int) :
    Outcome (NodeStore × Nat) := do
  let (assignId, auto) ← s.pickId id
  match s.positionById.find assignId with
  | none =>
    .ok ({ s with
      autoNodeId := auto
      nodeDatas := s.nodeDatas ++ [⟨assignId, x, y, z, cpPos, cdPos, nodePart⟩]
      positionById := s.positionById.set assignId s.nodeDatas.length }, s.nodeDatas.length)
  | some p =>
    match s.nodeDatas[p]? with
    | none => .ub
    | some d =>
      .ok ({ s with
        autoNodeId := auto
        nodeDatas := s.nodeDatas.set p { d with x := x, y := y, z := z, cpPos := cpPos, cdPos := cdPos } }, p)

/-- First part of `findOrReserveNode` (Mesh.cpp 249-259): the main node part of a cell part.
`none` stands for `UNAVAILABLE_INT`. -/
def mainPart (s : NodeStore) : Option Int → NodeStore × Int
  | none => (s, 0)
  | some cp =>
    match s.mainNodePartByCellPart.find cp with
    | none =>
      ({ s with
        lastNodePart := s.lastNodePart + 1
        mainNodePartByCellPart := s.mainNodePartByCellPart.set cp (s.lastNodePart + 1)
        cellPartsByNodePart := s.cellPartsByNodePart.set (s.lastNodePart + 1) [cp] },
        s.lastNodePart + 1)
    | some mp => (s, mp)

/-- The part bookkeeping for an existing node (Mesh.cpp 272-301). -/
def updatePart (s : NodeStore) (p : Nat) (cp : Int) (mainNodePart : Int) : Outcome NodeStore :=
  match s.nodeDatas[p]? with
  | none => .ub
  | some d =>
    let s := { s with reservedButUnused := s.reservedButUnused.filter (· ≠ p) }
    if d.nodePart = 0 then
      .ok { s with nodeDatas := s.nodeDatas.set p { d with nodePart := mainNodePart } }
    else if d.nodePart ≠ mainNodePart then
      -- `operator[]` creates an empty set when the part is unknown
      let current := (s.cellPartsByNodePart.find d.nodePart).getD []
      let s := { s with cellPartsByNodePart := s.cellPartsByNodePart.set d.nodePart current }
      if cp ∈ current then .ok s
      else
        let newParts := insertSorted cp current
        match s.interfaceNodePartByCellParts.find newParts with
        | none =>
          .ok { s with
            lastNodePart := s.lastNodePart + 1
            interfaceNodePartByCellParts := s.interfaceNodePartByCellParts.set newParts (s.lastNodePart + 1)
            nodeDatas := s.nodeDatas.set p { d with nodePart := s.lastNodePart + 1 }
            cellPartsByNodePart := s.cellPartsByNodePart.set (s.lastNodePart + 1) newParts }
        | some ip => .ok { s with nodeDatas := s.nodeDatas.set p { d with nodePart := ip } }
    else .ok s

/-- `Mesh::findOrReserveNode` (Mesh.cpp 247-304). -/
def findOrReserveNode (s : NodeStore) (nodeId : Int) (cellPart : Option Int) :
    Outcome (NodeStore × Nat) := do
  let (s, mainNodePart) := s.mainPart cellPart
  match s.findNodePosition nodeId with
  | none =>
    let (s, p) ← s.addNode nodeId RESERVED RESERVED RESERVED 0 0 mainNodePart
    .ok ({ s with
      positionById := s.positionById.set nodeId p
      reservedButUnused := p :: s.reservedButUnused }, p)
  | some p =>
    match cellPart with
    | none => .ok (s, p)
    | some cp => do
      let s ← s.updatePart p cp mainNodePart
      .ok (s, p)

/-- `NodeStorage::validate` (Mesh.cpp 112-125): `UNAVAILABLE_NODE` is `INT_MAX`. -/
def validate (s : NodeStore) : Bool := s.nodeDatas.all fun d => !(d.id = 2147483647)

/-- `Mesh::findNode` (Mesh.cpp 218-245) without the conversion to global coordinates: the
stored (local) coordinates and coordinate systems. -/
def findNode (s : NodeStore) (pos : Option Nat) : Outcome NodeData :=
  match pos with
  | none => .throw
  | some p => match s.nodeDatas[p]? with
    | some d => .ok d
    | none => .ub

end NodeStore
end Vega
