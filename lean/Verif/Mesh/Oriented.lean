import Verif.Basic
import Verif.Map
import Verif.Med.Families

/-! # The groups of the cells that have a coordinate system of their own: `Mesh::getOrCreateCellGroupForCS` (`Abstract/Mesh.cpp`
594-612) and its use by `addCell` (425-430) -/
namespace Vega
namespace OrientedCells

/-- `cellGroupNameByCspos` (Mesh.h 165) and `groupByName`, with the positions of the cells of each group. A group of nodes is a group
without cells here: its name is taken too. -/
structure State where
  names : Map Nat String
  groups : Map String (List Nat)

/-- The name of a new group (Mesh.cpp 601-607): `C` and the number, of which the last seven digits are kept. -/
def csName (k : Nat) : String :=
  if 7 < (Med.decimal k).length then String.ofList ('C' :: (Med.decimal k).drop ((Med.decimal k).length - 7))
  else String.ofList ('C' :: Med.decimal k)

/-- `Mesh::getOrCreateCellGroupForCS` (Mesh.cpp 594-612). `createCellGroup` (729-757) throws on a name that is taken; the group has no
identifier, so its other test does not apply. -/
def groupForCS (s : State) (cs : Nat) : Outcome (State × String) :=
  match s.names.find cs with
  | some n => .ok (s, n)
  | none =>
    match s.groups.find (csName (s.names.length + 1)) with
    | some _ => .throw
    | none => .ok (⟨s.names.set cs (csName (s.names.length + 1)), s.groups.set (csName (s.names.length + 1)) []⟩,
        csName (s.names.length + 1))

/-- The end of `addCell` (Mesh.cpp 425-430), for a cell at the position `c.1` with the coordinate system at the position `c.2`; 0 is the
global one (CoordinateSystem.h 42). `addCellId` (MeshComponents.cpp 680-682) inserts the position registered for the identifier, which
is that of this cell (Mesh.cpp 380). A name without a group is a null pointer. `updateCell` does the same (487-490), but all its callers
leave the coordinate system out (SystusWriter.cpp 717, 722, 804, 809, 869). -/
def addCell (s : State) (c : Nat × Nat) : Outcome State :=
  if c.2 = 0 then .ok s
  else do
    let (s, n) ← groupForCS s c.2
    match s.groups.find n with
    | none => .ub
    | some ps => .ok { s with groups := s.groups.set n (if c.1 ∈ ps then ps else c.1 :: ps) }

/-- The cells, in the order in which they are added. -/
def addCells : State → List (Nat × Nat) → Outcome State
  | s, [] => .ok s
  | s, c :: cs => do
    let s ← addCell s c
    addCells s cs

end OrientedCells
end Vega
