import Verif.Basic

/-! # Containers of cells and nodes: `CellContainer`, `NodeContainer`
(`Abstract/MeshComponents.cpp` 668-1087)

`std::set`s are lists observed through membership only. -/
namespace Vega

/-- A registered group. `CellGroup` and `NodeGroup` inherit privately from the containers and
export only the addition of positions and ids (MeshComponents.h 508-526, 581-601), so a cell
group is a set of cell positions and a node group a set of node positions. -/
inductive GroupVal where
  | cell (positions : List Nat)
  | node (positions : List Nat)

/-- What the containers ask of the mesh: `findGroup` (Mesh.cpp 823-828), `findCellPosition`
and `findCell(p).nodePositions` (`none`: no such cell). -/
structure MeshEnv where
  group : String → Option GroupVal
  cellNodes : Nat → Option (List Nat)

/-- `CellContainer` (MeshComponents.h 438-506). -/
structure CellBox where
  cells : List Nat
  groups : List String

namespace CellBox

def init : CellBox := ⟨[], []⟩

/-- `addCellPosition`, `add(Cell)`, and `addCellId` after the id is turned into a position
(MeshComponents.cpp 676-682, 738-740). -/
def addCellPosition (c : CellBox) (p : Nat) : CellBox := { c with cells := p :: c.cells }

/-- `addCellPositions` (MeshComponents.cpp 712-722), also `addCellIds`. -/
def addCellPositions (c : CellBox) (ps : List Nat) : CellBox := { c with cells := ps ++ c.cells }

/-- `addCellGroup` (MeshComponents.cpp 724-730). -/
def addCellGroup (c : CellBox) (e : MeshEnv) (g : String) : Outcome CellBox :=
  match e.group g with
  | none => .throw
  | some _ => .ok { c with groups := g :: c.groups }

/-- `add(CellContainer)` (MeshComponents.cpp 740-749). -/
def add (c d : CellBox) : CellBox := ⟨d.cells ++ c.cells, d.groups ++ c.groups⟩

/-- `containsCellPosition` (MeshComponents.cpp 751-753). -/
def containsCellPosition (c : CellBox) (p : Nat) : Bool := c.cells.contains p

/-- `removeCellPositionExcludingGroups` (MeshComponents.cpp 755-757). -/
def removeCellPosition (c : CellBox) (p : Nat) : CellBox := { c with cells := c.cells.filter (· ≠ p) }

/-- `removeAllCellsExcludingGroups` (MeshComponents.cpp 783-785). -/
def removeAllCells (c : CellBox) : CellBox := { c with cells := [] }

/-- Cells of a named group: a missing group or a node group counts as empty (the dynamic cast
gives a null pointer, MeshComponents.cpp 813-817). -/
def groupCells (e : MeshEnv) (g : String) : List Nat :=
  match e.group g with
  | some (.cell ps) => ps
  | _ => []

/-- `getCellPositionsIncludingGroups` (MeshComponents.cpp 810-820). -/
def positionsIncluding (c : CellBox) (e : MeshEnv) : List Nat := c.cells ++ c.groups.flatMap (groupCells e)

/-- `getCellPositionsExcludingGroups` (MeshComponents.cpp 822-824). -/
def positionsExcluding (c : CellBox) : List Nat := c.cells

/-- The node positions of a list of cells: `findCell` on a position without cell reads outside
the vector (Mesh.cpp 521). -/
def nodesOf (e : MeshEnv) : List Nat → Outcome (List Nat)
  | [] => .ok []
  | p :: ps => match e.cellNodes p with
    | none => .ub
    | some ns => do
      let r ← nodesOf e ps
      .ok (ns ++ r)

/-- `CellContainer::getNodePositionsIncludingGroups` (MeshComponents.cpp 826-832). -/
def nodesIncluding (c : CellBox) (e : MeshEnv) : Outcome (List Nat) := nodesOf e (c.positionsIncluding e)

/-- `CellContainer::getNodePositionsExcludingGroups` (MeshComponents.cpp 834-840). -/
def nodesExcluding (c : CellBox) (e : MeshEnv) : Outcome (List Nat) := nodesOf e c.cells

/-- Loop of `hasCellsIncludingGroups` (MeshComponents.cpp 858-862): `static_pointer_cast` to
`CellGroup`, then a call through the pointer. -/
def anyGroupNonEmpty (e : MeshEnv) : List String → Outcome Bool
  | [] => .ok false
  | g :: gs => match e.group g with
    | some (.cell ps) => if ps.isEmpty then anyGroupNonEmpty e gs else .ok true
    | _ => .ub

/-- `hasCellsIncludingGroups` (MeshComponents.cpp 855-864). -/
def hasCellsIncludingGroups (c : CellBox) (e : MeshEnv) : Outcome Bool :=
  if c.cells.isEmpty then anyGroupNonEmpty e c.groups else .ok true

/-- `CellContainer::empty` (MeshComponents.cpp 842-844). -/
def empty (c : CellBox) (e : MeshEnv) : Outcome Bool := do
  let b ← c.hasCellsIncludingGroups e
  .ok (!b)

end CellBox

/-- `NodeContainer` (MeshComponents.h 535-578). -/
structure NodeBox where
  base : CellBox
  nodes : List Nat
  nodeGroups : List String

namespace NodeBox

def init : NodeBox := ⟨.init, [], []⟩

/-- `addNodePosition`, `add(Node)`, and `addNodeId` after `findOrReserveNode` (MeshComponents.cpp
908-910, 942-944, 958-960). -/
def addNodePosition (c : NodeBox) (p : Nat) : NodeBox := { c with nodes := p :: c.nodes }

/-- `addNodePositions`, `addNodeIds` (MeshComponents.cpp 912-940). -/
def addNodePositions (c : NodeBox) (ps : List Nat) : NodeBox := { c with nodes := ps ++ c.nodes }

/-- `addNodeGroup` (MeshComponents.cpp 946-952). -/
def addNodeGroup (c : NodeBox) (e : MeshEnv) (g : String) : Outcome NodeBox :=
  match e.group g with
  | none => .throw
  | some _ => .ok { c with nodeGroups := g :: c.nodeGroups }

/-- `removeNodePositionExcludingGroups` (MeshComponents.cpp 954-956): erasing `end()` is undefined. -/
def removeNodePosition (c : NodeBox) (p : Nat) : Outcome NodeBox :=
  if p ∈ c.nodes then .ok { c with nodes := c.nodes.filter (· ≠ p) } else .ub

/-- `NodeContainer::getNodePositionsExcludingGroups` (MeshComponents.cpp 977-986). -/
def nodesExcluding (c : NodeBox) (e : MeshEnv) : Outcome (List Nat) := do
  let b ← c.base.empty e
  if b then .ok c.nodes
  else do
    let r ← c.base.nodesExcluding e
    .ok (c.nodes ++ r)

/-- Loop over the node groups (MeshComponents.cpp 990-994): `static_pointer_cast` to `NodeGroup`
and a call through the pointer. -/
def groupNodes (e : MeshEnv) : List String → Outcome (List Nat)
  | [] => .ok []
  | g :: gs => match e.group g with
    | some (.node ps) => do
      let r ← groupNodes e gs
      .ok (ps ++ r)
    | _ => .ub

/-- `NodeContainer::getNodePositionsIncludingGroups` (MeshComponents.cpp 988-998). -/
def nodesIncluding (c : NodeBox) (e : MeshEnv) : Outcome (List Nat) := do
  let gs ← groupNodes e c.nodeGroups
  let cs ← c.base.nodesIncluding e
  .ok (c.nodes ++ (gs ++ cs))

/-- `add(NodeContainer)` (MeshComponents.cpp 966-975). -/
def add (c d : NodeBox) (e : MeshEnv) : Outcome NodeBox := do
  let ps ← d.nodesExcluding e
  .ok { c with nodes := ps ++ c.nodes, nodeGroups := d.nodeGroups ++ c.nodeGroups }

/-- `containsNodePositionExcludingGroups` (MeshComponents.cpp 1024-1026). -/
def containsNodePosition (c : NodeBox) (p : Nat) : Bool := c.nodes.contains p

end NodeBox
end Vega
