import Verif.Mesh.Nodes

/-! # Cells of a mesh: `Abstract/Mesh.h`, `Abstract/Mesh.cpp` 336-555, cell types of
`Abstract/MeshComponents.cpp` -/
namespace Vega

/-- The cell types (MeshComponents.cpp 87-138); `poly n` is `POLY(n+3)`. -/
inductive CellType where
  | point1 | seg2 | seg3 | seg4 | seg5
  | tri3 | quad4 | tri6 | tri7 | quad8 | quad9
  | tetra4 | pyra5 | penta6 | hexa8 | tetra10 | hexgp12 | pyra13 | penta15 | hexa20 | hexa27
  | poly (n : Fin 18)
  deriving DecidableEq

namespace CellType

/-- `numNodes` (MeshComponents.cpp 87-138). -/
def numNodes : CellType → Nat
  | point1 => 1 | seg2 => 2 | seg3 => 3 | seg4 => 4 | seg5 => 5
  | tri3 => 3 | quad4 => 4 | tri6 => 6 | tri7 => 7 | quad8 => 8 | quad9 => 9
  | tetra4 => 4 | pyra5 => 5 | penta6 => 6 | hexa8 => 8 | tetra10 => 10 | hexgp12 => 12
  | pyra13 => 13 | penta15 => 15 | hexa20 => 20 | hexa27 => 27
  | poly n => n.val + 3

/-- `dimension.code` (MeshComponents.cpp 87-138). -/
def dim : CellType → Nat
  | point1 => 0
  | seg2 | seg3 | seg4 | seg5 => 1
  | tri3 | quad4 | tri6 | tri7 | quad8 | quad9 => 2
  | _ => 3

/-- `CellType::polyType` (MeshComponents.cpp 145-235). -/
def polyType (nbNodes : Nat) : Outcome CellType :=
  match nbNodes with
  | 1 => .ok point1
  | 2 => .ok seg2
  | n + 3 => if h : n < 18 then .ok (poly ⟨n, h⟩) else .throw
  | 0 => .throw

end CellType

/-- `CellData` (Mesh.h 93-102). `isvirtual` and `csPos` are left out. -/
structure CellData where
  id : Int
  type : CellType
  elementId : Option Int
  typePos : Nat

/-- What `Mesh::findCell` returns: the fields of `Cell` built in Mesh.cpp 554 (the orientation
is left out). The offset is only initialised for surface cells. -/
structure CellView where
  id : Int
  type : CellType
  nodeIds : List Int
  position : Nat
  nodePositions : List Nat
  elementId : Option Int
  typePos : Nat
  offset : Option Dbl
  deriving DecidableEq

/-- The part of `Mesh` (Mesh.h 135-180) and `CellStorage` (Mesh.h 104-130) concerned with
cells, together with the nodes. Maps over cell types are functions; an absent entry is `none`.
`additional t` stands for the three maps `additional{0,1,2}DdataByCelltype` (a type belongs to
one of them according to its dimension); 0D and 1D data carry no information and are stored
as 0. `cellGroups` are the positions of the named cell groups. -/
structure Mesh where
  nodes : NodeStore
  cellDatas : List CellData
  cellPosById : Map Int Nat
  autoCellId : Int
  positionsByType : CellType → List Nat
  nodePosByType : CellType → Option (List Nat)
  additional : CellType → Option (List Dbl)
  cellGroups : Map String (List Nat)

namespace Mesh

/-- Constructor (Mesh.cpp 170-180). -/
def init (nodes : NodeStore) (auto : Int) : Mesh :=
  ⟨nodes, [], [], auto, fun _ => [], fun _ => none, fun _ => none, []⟩

/-- Overwrite one entry of a map over cell types. -/
def upd (f : CellType → α) (t : CellType) (a : α) : CellType → α :=
  fun t' => if t' = t then a else f t'

/-- `findOrReserveNode` on each node of a connectivity (Mesh.cpp 389-391). -/
def reserveAll (n : NodeStore) (elementId : Option Int) : List Int → Outcome (NodeStore × List Nat)
  | [] => .ok (n, [])
  | i :: is => do
    let (n, p) ← n.findOrReserveNode i elementId
    let (n, ps) ← reserveAll n elementId is
    .ok (n, p :: ps)

/-- The same in `updateCell` (Mesh.cpp 481-485): each node is looked up twice, without part. -/
def reserveAllTwice (n : NodeStore) : List Int → Outcome (NodeStore × List Nat)
  | [] => .ok (n, [])
  | i :: is => do
    let (n, _) ← n.findOrReserveNode i none
    let (n, p) ← n.findOrReserveNode i none
    let (n, ps) ← reserveAllTwice n is
    .ok (n, p :: ps)

/-- `findCellPosition` (Mesh.h), `none` for `UNAVAILABLE_CELL`. -/
def findCellPosition (m : Mesh) (id : Int) : Option Nat := m.cellPosById.find id

/-- `hasCell`. -/
def hasCell (m : Mesh) (id : Int) : Bool := (m.cellPosById.find id).isSome

/-- `findCellId` (Mesh.h 275-277). -/
def findCellId (m : Mesh) (pos : Nat) : Outcome Int :=
  match m.cellDatas[pos]? with
  | some d => .ok d.id
  | none => .ub

/-- `countCells()` (Mesh.cpp 667-669). -/
def countCells (m : Mesh) : Nat := m.cellPosById.length

/-- `countCells(type)` (Mesh.cpp 842-846). -/
def countCellsOfType (m : Mesh) (t : CellType) : Nat := (m.positionsByType t).length

/-- The id to use and the new counter (Mesh.cpp 342-349). -/
def pickCellId (m : Mesh) (id : Int) : Outcome (Int × Int) :=
  if id = AUTO_ID then searchAuto m.cellPosById (m.cellPosById.length + 1) m.autoCellId
  else .ok (id, m.autoCellId)

/-- `Mesh::addCell` (Mesh.cpp 336-433) in the global coordinate system and below the TRACE
log level (whose checks are left out, as is the flag for non zero offsets). No cell type has
zero nodes. -/
def addCell (m : Mesh) (id : Int) (t : CellType) (nodeIds : List Int) (elementId : Option Int)
    (offset : Dbl) : Outcome (Mesh × Nat) := do
  let (cellId, auto) ← m.pickCellId id
  let (nodes, ps) ← reserveAll m.nodes elementId nodeIds
  .ok ({ m with
    nodes := nodes
    autoCellId := auto
    cellPosById := m.cellPosById.set cellId m.cellDatas.length
    positionsByType := upd m.positionsByType t (m.positionsByType t ++ [m.cellDatas.length])
    nodePosByType := upd m.nodePosByType t (some ((m.nodePosByType t).getD [] ++ ps))
    additional :=
      if t.dim = 3 then m.additional
      else upd m.additional t (some ((m.additional t).getD [] ++ [if t.dim = 2 then offset else 0]))
    cellDatas := m.cellDatas ++ [⟨cellId, t, elementId, (m.positionsByType t).length⟩] },
    m.cellDatas.length)

/-- The update of the cell groups in `updateCell` (Mesh.cpp 493-500). -/
def moveInGroup (old new : Nat) (g : List Nat) : List Nat :=
  if old ∈ g then new :: g.filter (· ≠ old) else g

/-- `Mesh::updateCell` (Mesh.cpp 435-503), under the same restrictions as `addCell`. -/
def updateCell (m : Mesh) (id : Int) (t : CellType) (nodeIds : List Int) (elementId : Option Int) :
    Outcome (Mesh × Nat) :=
  if id = AUTO_ID then .throw
  else match m.findCellPosition id with
    | none => .throw
    | some old => do
      let (nodes, ps) ← reserveAllTwice m.nodes nodeIds
      .ok ({ m with
        nodes := nodes
        cellPosById := m.cellPosById.set id m.cellDatas.length
        positionsByType := upd m.positionsByType t (m.positionsByType t ++ [m.cellDatas.length])
        nodePosByType := upd m.nodePosByType t (some ((m.nodePosByType t).getD [] ++ ps))
        cellDatas := m.cellDatas ++ [⟨id, t, elementId, (m.positionsByType t).length⟩]
        cellGroups := m.cellGroups.map fun e => (e.1, moveInGroup old m.cellDatas.length e.2) },
        m.cellDatas.length)

/-- `nodes.nodeDatas[p].id` for each position (Mesh.cpp 520-523). -/
def readIds (n : NodeStore) : List Nat → Outcome (List Int)
  | [] => .ok []
  | p :: ps => do
    let i ← n.findNodeId p
    let is ← readIds n ps
    .ok (i :: is)

/-- The additional data read in `findCell` (Mesh.cpp 528-551). -/
def readOffset (m : Mesh) (t : CellType) (typePos : Nat) : Outcome (Option Dbl) :=
  if t.dim = 3 then .ok none
  else match m.additional t with
    | none => .throw
    | some l => match l[typePos]? with
      | none => .ub
      | some o => .ok (if t.dim = 2 then some o else none)

/-- `Mesh::findCell` (Mesh.cpp 506-555), for an available position. -/
def findCell (m : Mesh) (pos : Nat) : Outcome CellView :=
  match m.cellDatas[pos]? with
  | none => .ub
  | some d =>
    match m.nodePosByType d.type with
    | none => .ub
    | some l =>
      let start := d.typePos * d.type.numNodes
      if l.length < start + d.type.numNodes then .ub
      else do
        let ps := (l.drop start).take d.type.numNodes
        let is ← readIds m.nodes ps
        let o ← m.readOffset d.type d.typePos
        .ok ⟨d.id, d.type, is, pos, ps, d.elementId, d.typePos, o⟩

/-- `createCellGroup` (Mesh.cpp 729-757) as far as the members are concerned: a new, empty
group; refused when the name is empty or taken. -/
def createCellGroup (m : Mesh) (name : String) : Outcome Mesh :=
  if name = "" then .throw
  else match m.cellGroups.find name with
    | some _ => .throw
    | none => .ok { m with cellGroups := m.cellGroups.set name [] }

/-- `CellGroup::addCellPosition`: `set::insert`. -/
def addToGroup (m : Mesh) (name : String) (pos : Nat) : Outcome Mesh :=
  match m.cellGroups.find name with
  | none => .throw
  | some g => .ok { m with cellGroups := m.cellGroups.set name (if pos ∈ g then g else pos :: g) }

end Mesh
end Vega
