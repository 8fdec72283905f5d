import Verif.Mesh.Cells

/-! # Elements of a Systus file: `Systus/SystusWriter.cpp` 59-95, 2836-2890 -/
namespace Vega
namespace Systus

/-- `systus2medNodeConnectByCellType` (SystusWriter.cpp 59-95). -/
def order : CellType → Option (List Nat)
  | .point1 => some [0]
  | .seg2 => some [0, 1]
  | .seg3 => some [0, 2, 1]
  | .tri3 => some [0, 1, 2]
  | .tri6 => some [0, 3, 1, 4, 2, 5]
  | .quad4 => some [0, 1, 2, 3]
  | .quad8 => some [0, 4, 1, 5, 2, 6, 3, 7]
  | .tetra4 => some [0, 2, 1, 3]
  | .tetra10 => some [0, 6, 2, 5, 1, 4, 7, 9, 8, 3]
  | .penta6 => some [0, 2, 1, 3, 5, 4]
  | .penta15 => some [0, 8, 2, 7, 1, 6, 12, 14, 13, 3, 11, 5, 10, 4, 9]
  | .pyra5 => some [0, 3, 2, 1, 4, 4, 4, 4]
  | .hexa8 => some [0, 3, 2, 1, 4, 7, 6, 5]
  | .hexa20 => some [0, 11, 3, 10, 2, 9, 1, 8, 16, 19, 18, 17, 4, 15, 7, 14, 6, 13, 5, 12]
  | .poly n => some (List.range (n.val + 3))
  | _ => none

/-- `for (medId : ..) systusConnect.push_back(medConnect[medId])` (SystusWriter.cpp 2855-2856). -/
def connect (nodes : List Int) : List Nat → Outcome (List Int)
  | [] => .ok []
  | p :: ps =>
    match nodes[p]? with
    | none => .ub
    | some n => do
      let r ← connect nodes ps
      .ok (n :: r)

/-- What the line of an element says of its nodes: their number in the two digits after the type (2863), and the
nodes at the end (2885-2887). -/
structure ElementLine where
  id : Int
  announced : Nat
  nodes : List Int
  deriving DecidableEq

/-- The line of a cell (SystusWriter.cpp 2840-2889); `none`: a warning, and the cell is not written. Materials,
loads and local axes are left out. -/
def elementLine (id : Int) (t : CellType) (nodes : List Int) : Outcome (Option ElementLine) :=
  match order t with
  | none => .ok none
  | some ps => do
    let s ← connect nodes ps
    .ok (some ⟨id, nodes.length, s⟩)

end Systus
end Vega
