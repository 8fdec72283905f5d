import Verif.Mesh.Skins
import Verif.Element.Direct

/-! # Cells made for direct matrices, for Systus: `Model::makeCellsFromDirectMatrices` (`Abstract/Model.cpp` 1624-1667) -/
namespace Vega
namespace MatrixCells
open Skins

/-- An element set of the model: its matrix if it is a matrix element (Model.cpp 1628-1632), and its cells and groups. -/
structure Item where
  matrix : Option DirectMatrix
  on : Container

/-- The name of the group (Model.cpp 1648). -/
def dmName (k : Nat) : String := String.ofList ('D' :: 'M' :: Med.decimal k)

/-- The ids of the nodes of the matrix (Model.cpp 1653-1657). -/
def nodeIdsOf (m : Mesh) : List Nat → Outcome (List Int)
  | [] => .ok []
  | p :: ps => do
    let i ← m.nodes.findNodeId p
    let is ← nodeIdsOf m ps
    .ok (i :: is)

/-- The group and the cell of one matrix (Model.cpp 1648-1660); `k` is the value of `idM` after its increment. -/
def cellFor (m : Mesh) (k : Nat) (d : DirectMatrix) : Outcome Mesh := do
  let m ← m.createCellGroup (dmName k)
  let t ← CellType.polyType d.nodePositions.length
  let ids ← nodeIdsOf m d.nodePositions
  let (m, p) ← m.addCell AUTO_ID t ids none 0
  m.addToGroup (dmName k) p

/-- The loop over the element sets (Model.cpp 1627-1666); `k` is `idM`. The test of `empty` (MeshComponents.cpp 842-844, 855-864)
looks into the groups; a group that does not exist, which would be a null pointer there, counts as empty here. The flag for virtual
cells is left out. -/
def makeCells : Nat → Mesh → List Item → Outcome (Mesh × List Item)
  | _, m, [] => .ok (m, [])
  | k, m, x :: xs =>
    match x.matrix with
    | none => do
      let (m, xs) ← makeCells k m xs
      .ok (m, x :: xs)
    | some d =>
      if positionsOf m x.on ≠ [] then do
        let (m, xs) ← makeCells k m xs
        .ok (m, x :: xs)
      else if d.nodePositions = [] then do
        let (m, xs) ← makeCells k m xs
        .ok (m, x :: xs)
      else do
        let m ← cellFor m (k + 1) d
        let (m, xs) ← makeCells (k + 1) m xs
        .ok (m, { x with on := { x.on with groups := x.on.groups ++ [dmName (k + 1)] } } :: xs)

/-- `Model::makeCellsFromDirectMatrices` (Model.cpp 1624-1667). -/
def makeCellsFromDirectMatrices (m : Mesh) (xs : List Item) : Outcome (Mesh × List Item) := makeCells 0 m xs

end MatrixCells
end Vega
