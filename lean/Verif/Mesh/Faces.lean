import Verif.Mesh.Cells

/-! # Faces of solid cells: `Abstract/MeshComponents.cpp` 327-596 -/
namespace Vega
namespace Faces

/-- `FACE_BY_CELLTYPE` (MeshComponents.cpp 332-403), node numbers from 1. -/
def table : CellType → Option (List (List Nat))
  | .hexa8 => some [[1,2,3,4], [5,8,7,6], [1,5,6,2], [2,6,7,3], [3,7,8,4], [1,4,8,5]]
  | .tetra4 => some [[1,2,3], [1,4,2], [1,3,4], [2,4,3]]
  | .pyra5 => some [[1,2,3,4], [1,5,2], [1,4,5], [4,3,5], [2,5,3]]
  | .penta6 => some [[1,2,3], [4,6,5], [1,4,5,2], [1,3,6,4], [2,5,6,3]]
  | .tetra10 => some [[1,2,3,5,6,7], [1,4,2,8,9,5], [1,3,4,7,10,8], [2,4,3,9,10,6]]
  | .pyra13 => some [[1,2,3,4,6,7,8,9], [1,5,2,10,11,6], [1,4,5,9,13,10], [4,3,5,8,12,13], [2,5,3,11,12,7]]
  | .penta15 => some [[1,2,3,7,8,9], [4,6,5,12,11,10], [1,4,5,2,13,10,14,7], [1,3,6,4,9,15,12,13],
      [2,5,6,3,14,11,15,8]]
  | .hexa20 => some [[1,2,3,4,9,10,11,12], [5,8,7,6,16,15,14,16], [1,2,6,5,9,18,13,17], [2,6,7,3,18,14,19,10],
      [3,7,8,4,19,15,20,11], [1,4,8,5,12,20,16,17]]
  | _ => none

/-- `CORNERNODEIDS_BY_CELLTYPE` (MeshComponents.cpp 407-422), positions from 0. -/
def corners : CellType → Option (List Nat)
  | .seg2 | .seg3 => some [0, 1]
  | .tri3 | .tri6 => some [0, 1, 2]
  | .quad4 | .quad8 => some [0, 1, 2, 3]
  | .tetra4 | .tetra10 => some [0, 1, 2, 3]
  | .pyra5 | .pyra13 => some [0, 1, 2, 3, 4]
  | .penta6 | .penta15 => some [0, 1, 2, 3, 4, 5]
  | .hexa8 | .hexa20 => some [0, 1, 2, 3, 4, 5, 6, 7]
  | _ => none

/-- `findNodeIdPosition` (MeshComponents.cpp 434-446). -/
def findPos (ids : List Int) (id : Int) : Outcome Nat :=
  match ids.findIdx? (· = id) with
  | some k => .ok k
  | none => .throw

/-- The loops `push_back(nodeIds[nodenum - 1])` (MeshComponents.cpp 458-460, 542-544). -/
def readNodes (ids : List Int) : List Nat → Outcome (List Int)
  | [] => .ok []
  | k :: ks => match ids[k - 1]? with
    | none => .ub
    | some i => do
      let r ← readNodes ids ks
      .ok (i :: r)

/-- Outer loop of `nodeIdsByFaceNum`. -/
def readFaces (ids : List Int) : List (List Nat) → Outcome (List (List Int))
  | [] => .ok []
  | f :: fs => do
    let x ← readNodes ids f
    let r ← readFaces ids fs
    .ok (x :: r)

/-- `nodeIdsByFaceNum` (MeshComponents.cpp 448-465): the entry of face number `i` is at
position `i - 1`. -/
def nodeIdsByFaceNum (t : CellType) (ids : List Int) : Outcome (List (List Int)) :=
  match table t with
  | none => .throw
  | some fs => readFaces ids fs

/-- `cornerNodeIds` (MeshComponents.cpp 548-559). -/
def cornerNodeIds (t : CellType) (ids : List Int) : Outcome (List Int) :=
  match corners t with
  | none => .throw
  | some ps => readNodes ids (ps.map (· + 1))

/-- The choice of a face (MeshComponents.cpp 477-539) from two node numbers (from 1); `none` for
the second node is `UNAVAILABLE_INT`. The empty list is the initial value of `nodePositions`. -/
def pick (t : CellType) (fs : List (List Nat)) (a : Nat) (b : Option Nat) : Outcome (List Nat) :=
  match t with
  | .tetra4 | .tetra10 => match b with
    | none => .throw
    | some b => .ok (fs.foldl (fun acc f => if f.contains b then acc else f) [])
  | .hexa8 | .hexa20 => match b with
    | none => .throw
    | some b => .ok ((fs.find? fun f => f.contains b && f.contains a).getD [])
  | .pyra5 | .pyra13 | .penta6 | .penta15 => .ok ((fs.find? fun f => f.contains a && (match b with
      | none => f.length = 3 || f.length = 6
      | some b => f.contains b)).getD [])
  | _ => .throw

/-- Position of the optional second node (MeshComponents.cpp 469-472). -/
def findPos2 (ids : List Int) : Option Int → Outcome (Option Nat)
  | none => .ok none
  | some j => do
    let q ← findPos ids j
    .ok (some (q + 1))

/-- `faceids_from_two_nodes` (MeshComponents.cpp 467-546); for the cell types that have no face table
line 477 dereferences `end()`. -/
def faceIdsFromTwoNodes (t : CellType) (ids : List Int) (i : Int) (j : Option Int) : Outcome (List Int) := do
  let p ← findPos ids i
  let q ← findPos2 ids j
  if t.dim = 2 then .ok ids
  else match table t with
    | none => .ub
    | some fs => do
      let f ← pick t fs (p + 1) q
      readNodes ids f

/-- First element of the sorted difference (MeshComponents.cpp 568-575); reading `v_difference[0]`
of an empty difference is undefined. -/
def smallestOutside (ids face : List Int) : Outcome Int :=
  match (ids.filter fun i => !face.contains i).min? with
  | some i => .ok i
  | none => .ub

/-- `faceNodeIds[k]`. -/
def at_ (l : List Int) (k : Nat) : Outcome Int :=
  match l[k]? with
  | some i => .ok i
  | none => .ub

/-- `two_nodeids_from_facenum` (MeshComponents.cpp 561-596); an unknown face number gives an empty
vector (`operator[]` of the map). -/
def twoNodeIds (t : CellType) (ids : List Int) (faceNum : Nat) : Outcome (Int × Option Int) := do
  let fs ← nodeIdsByFaceNum t ids
  let face := if faceNum = 0 then [] else (fs[faceNum - 1]?).getD []
  match t with
  | .tetra4 | .tetra10 => do
    let a ← at_ face 0
    let b ← smallestOutside ids face
    .ok (a, some b)
  | .pyra5 | .penta6 | .pyra13 | .penta15 =>
    if face.length = 4 || face.length = 8 then do
      let a ← at_ face 0
      let b ← at_ face 1
      .ok (a, some b)
    else do
      let a ← at_ face 0
      .ok (a, none)
  | .hexa8 | .hexa20 => do
    let a ← at_ face 0
    let b ← at_ face 2
    .ok (a, some b)
  | _ => .throw

end Faces
end Vega
