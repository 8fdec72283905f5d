import Verif.Dof.Model
import Verif.Systus.Rigid

/-! # Nodes of Systus: what is blocked and the axes (`Systus/SystusWriter.cpp` 552-561, 1546-1708, 2605-2642) -/
namespace Vega
namespace SystusNodes

/-! ## What is blocked -/

/-- A `SinglePointConstraint`: `nodePositions()` and `getDOFSForNode`, the same for all nodes (Constraint.cpp 437-447). -/
structure Spc where
  nodes : List Nat
  dofs : Dofs

/-- What is read besides the constraints: `systusOption` is `CONTINUOUS` or else `SHELL`, the ids of the nodes by position, and
`rotationNodeIdByTranslationNodeId` (SystusWriter.h 107). -/
structure Config where
  continuous : Bool
  ids : List Nat
  rot : Map Nat Nat

/-- `dofCode` (SystusWriter.cpp 552-561). -/
def mask (continuous : Bool) : BitVec 8 := (if continuous then Dofs.TRANSLATIONS else Dofs.ALL_DOFS).dofsCode

/-- The position of a node that is not found (Mesh.cpp 325-327): `Node::UNAVAILABLE_NODE`, the largest `pos_t`. -/
def unavailable : Nat := 2 ^ 64 - 1

/-- `Mesh::findNodePosition` (Mesh.cpp 323-329): the map of positions is taken for a search in the list. -/
def position (ids : List Nat) (id : Nat) : Nat := if id ∈ ids then ids.idxOf id else unavailable

/-- An entry of `constraintByNodePosition` made or completed (SystusWriter.cpp 1680-1685, 1695-1700). -/
def block (continuous : Bool) (m : Map Nat (BitVec 8)) (p : Nat) (d : Dofs) : Map Nat (BitVec 8) :=
  match m.find p with
  | none => m.set p (d.dofsCode &&& mask continuous)
  | some old => m.set p ((d.dofsCode &&& mask continuous) ||| old)

/-- `constrainedRot` (SystusWriter.cpp 1693; Dof.h 90 for the last three). -/
def rotated (d : Dofs) : Dofs := Dofs.combineCodes (d.contains .RX) (d.contains .RY) (d.contains .RZ) false false false

/-- The body of the inner loop (SystusWriter.cpp 1679-1702). `findNodeId` reads beyond the nodes if the position is too large. -/
def blockNode (c : Config) (m : Map Nat (BitVec 8)) (p : Nat) (d : Dofs) : Outcome (Map Nat (BitVec 8)) :=
  let m := block c.continuous m p d
  if c.continuous then
    match c.ids[p]? with
    | none => .ub
    | some id =>
      match c.rot.find id with
      | none => .ok m
      | some r => .ok (block c.continuous m (position c.ids r) (rotated d))
  else .ok m

/-- The inner loop (SystusWriter.cpp 1676-1703). -/
def blockNodes (c : Config) (d : Dofs) : List Nat → Map Nat (BitVec 8) → Outcome (Map Nat (BitVec 8))
  | [], m => .ok m
  | p :: r, m => (blockNode c m p d).bind (blockNodes c d r)

/-- The loop over the constraints of a set (SystusWriter.cpp 1674-1705). -/
def blockSet (c : Config) : List Spc → Map Nat (BitVec 8) → Outcome (Map Nat (BitVec 8))
  | [], m => .ok m
  | s :: r, m => (blockNodes c s.dofs s.nodes m).bind (blockSet c r)

/-- The loop over the sets (SystusWriter.cpp 1673-1707). -/
def blockSets (c : Config) : List (List Spc) → Map Nat (BitVec 8) → Outcome (Map Nat (BitVec 8))
  | [], m => .ok m
  | s :: r, m => (blockSet c s m).bind (blockSets c r)

/-- `fillConstraintsNodes` (SystusWriter.cpp 1655-1708) for the analyses of a subcase, each with its sets of constraints;
`constraintByNodePosition` has been cleared (2423). -/
def fillConstraintsNodes (c : Config) : List (List (List Spc)) → Outcome (Map Nat (BitVec 8))
  | [] => .ok []
  | sets :: _ => blockSets c sets []

/-! ## Axes -/

/-- A node of the mesh: its number, `displacementCS` (0 is the global system) and its coordinates. Its position is that in the list. -/
structure Node (α : Type) where
  id : Nat
  frame : Nat
  x : α
  y : α
  z : α

/-- A coordinate system: of type `ABSOLUTE` and Cartesian, with its angles; of type `ABSOLUTE` and cylindrical, with the angles of
the local base at a point; spherical, which has the `coordType` of cylindrical systems too (CoordinateSystem.cpp 245); any other, of type
`RELATIVE` (289-307). The angles are those of `Verif.Geom.Euler` (C61). -/
inductive System (α : Type) where
  | cartesian (a : α × α × α)
  | cylindrical (f : α × α × α → α × α × α)
  | spherical
  | other

variable {α : Type} [Zero α]

/-- The nine numbers of a vector (SystusWriter.cpp 1574-1582, 1592-1600). -/
def nine (a : α × α × α) : List α := [0, 0, 0, 0, 0, 0, a.1, a.2.1, a.2.2]

/-- `vectors`, `localVectorIdByNodePosition`, `localVectorIdByCoordinateSystemPos` and `vectorId` (SystusWriter.cpp 1551-1552). -/
structure Axes (α : Type) where
  vectors : Map Nat (List α)
  byNode : Map Nat Nat
  byFrame : Map Nat Nat
  next : Nat

/-- `CoordinateSystemStorage::findByPosition` (CoordinateSystem.cpp 470-485) on a frame that is not global. A position without a
reference raises an exception; a reference without a system gives a null pointer, which is dereferenced (SystusWriter.cpp 1569). -/
def findFrame (systems : Map Nat (Option (System α))) (f : Nat) : Outcome (System α) :=
  match systems.find f with
  | none => .throw
  | some none => .ub
  | some (some s) => .ok s

/-- A vector for the node at a position (SystusWriter.cpp 1637-1639). -/
def addVector (st : Axes α) (p : Nat) (v : List α) : Axes α :=
  { st with vectors := st.vectors.set st.next v, byNode := st.byNode.set p st.next, next := st.next + 1 }

/-- The body of the loop over nodes (SystusWriter.cpp 1558-1640), for the node at position `p`. A pointer to a spherical system is cast
to one to a cylindrical system (1589), which is undefined; with the usual compilers the virtual `updateLocalBase` of spherical systems
is called, which raises an exception (CoordinateSystem.cpp 249-252). -/
def frameStep (systems : Map Nat (Option (System α))) (st : Axes α) (p : Nat) (n : Node α) : Outcome (Axes α) :=
  if n.frame = 0 then .ok st
  else match st.byFrame.find n.frame with
    | some v => .ok { st with byNode := st.byNode.set p v }
    | none => (findFrame systems n.frame).bind fun s =>
        match s with
        | .cartesian a => .ok (addVector { st with byFrame := st.byFrame.set n.frame st.next } p (nine a))
        | .cylindrical f => .ok (addVector st p (nine (f (n.x, n.y, n.z))))
        | .spherical => .ub
        | .other => .ok (addVector st p (nine (0, 0, 0)))

/-- The loop over nodes (SystusWriter.cpp 1557-1641), from position `p`. -/
def frameLoop (systems : Map Nat (Option (System α))) : Nat → List (Node α) → Axes α → Outcome (Axes α)
  | _, [], st => .ok st
  | p, n :: r, st => (frameStep systems st p n).bind (frameLoop systems (p + 1) r)

/-- `fillCoordinatesVectors` (SystusWriter.cpp 1546-1642), after the vectors of loads and constraints (1649-1651);
`localVectorIdByNodePosition` has been cleared (2427). -/
def fillCoordinatesVectors (systems : Map Nat (Option (System α))) (nodes : List (Node α)) (vectors : Map Nat (List α)) :
    Outcome (Axes α) :=
  frameLoop systems 0 nodes ⟨vectors, [], [], vectors.length + 1⟩

/-! ## The lines of nodes -/

/-- A line of `BEGIN_NODES` (SystusWriter.cpp 2631-2633). `imeca` is always 0; the numbers of lists `isol` and `idisp` are those of
`Verif.Systus.Loads` (C111) and are left out. -/
structure Line (α : Type) where
  nid : Nat
  iconst : Int
  iangl : Nat
  x : α
  y : α
  z : α

/-- `iconst` (SystusWriter.cpp 2614-2617): `char` is taken as signed. -/
def iconst (m : Map Nat (BitVec 8)) (p : Nat) : Int :=
  match m.find p with
  | some b => b.toInt
  | none => 0

/-- `iangl` (SystusWriter.cpp 2619-2622): `operator[]` gives 0 if there is nothing. -/
def iangl (byNode : Map Nat Nat) (p : Nat) (n : Node α) : Nat :=
  if n.frame = 0 then 0
  else match byNode.find p with
    | some v => v
    | none => 0

/-- The loop of `writeNodes` (SystusWriter.cpp 2612-2639), from position `p`. -/
def lines (blocked : Map Nat (BitVec 8)) (byNode : Map Nat Nat) : Nat → List (Node α) → List (Line α)
  | _, [] => []
  | p, n :: r => ⟨n.id, iconst blocked p, iangl byNode p n, n.x, n.y, n.z⟩ :: lines blocked byNode (p + 1) r

/-- What is written of nodes: the number of them (SystusWriter.cpp 2608-2610), the lines and the vectors. -/
structure Written (α : Type) where
  count : Nat
  lines : List (Line α)
  vectors : Map Nat (List α)

/-- The nodes of a subcase: `fillConstraintsNodes`, `fillCoordinatesVectors` (SystusWriter.cpp 2462-2464) and `writeNodes` (2605-2642),
`vectors` being those of loads and constraints. -/
def write (continuous : Bool) (rot : Map Nat Nat) (systems : Map Nat (Option (System α))) (nodes : List (Node α))
    (analyses : List (List (List Spc))) (vectors : Map Nat (List α)) : Outcome (Written α) := do
  let m ← fillConstraintsNodes ⟨continuous, nodes.map (·.id), rot⟩ analyses
  let st ← fillCoordinatesVectors systems nodes vectors
  .ok ⟨nodes.length, lines m st.byNode 0 nodes, st.vectors⟩

end SystusNodes
end Vega
