import Verif.Mesh.Skins
import Verif.Num

/-! # The cells made for a sliding contact between two surfaces: `Model::makeCellsFromSurfaceSlide` (`Abstract/Model.cpp` 1909-1927),
which is used for Systus (`Abstract/ConfigurationParameters.cpp` 77) -/
namespace Vega
namespace Slides
open Skins

/-- `node_point` (Constraint.cpp 972), in exact arithmetic. -/
structure Point where
  x : Dbl
  y : Dbl
  z : Dbl
  deriving DecidableEq

/-- `node_box` (Constraint.cpp 974): two opposite corners. -/
structure Box where
  lo : Point
  hi : Point
  deriving DecidableEq

/-- The coordinates of a node found by its number (Constraint.cpp 993-995, 1013-1016). -/
def pointOf (m : Mesh) (id : Int) : Outcome Point := do
  let d ← m.nodes.findNode (m.nodes.findNodePosition id)
  .ok ⟨d.x, d.y, d.z⟩

/-- The points of a polygon (Constraint.cpp 992-997). -/
def pointsOf (m : Mesh) : List Int → Outcome (List Point)
  | [] => .ok []
  | id :: ids => do
    let p ← pointOf m id
    let ps ← pointsOf m ids
    .ok (p :: ps)

/-- `bg::return_envelope` (Constraint.cpp 1001), as Boost is generally known: the smallest box with the points `p :: ps`. -/
def envelope (p : Point) (ps : List Point) : Box :=
  ps.foldl (fun b q => ⟨⟨min b.lo.x q.x, min b.lo.y q.y, min b.lo.z q.z⟩, ⟨max b.hi.x q.x, max b.hi.y q.y, max b.hi.z q.z⟩⟩) ⟨p, p⟩

/-- The nodes of a face of a surface (Constraint.cpp 988-989, 1010-1011). A number that is not that of a cell gives an invalid
position, read by `findCell`. -/
def faceIdsOf (m : Mesh) (f : FaceInfo) : Outcome (List Int) :=
  match m.findCellPosition f.cell with
  | none => .ub
  | some p => do
    let v ← m.findCell p
    Faces.faceIdsFromTwoNodes v.type v.nodeIds f.node1 f.node2

/-- The master faces, with their boxes, and the values in the r-tree (Constraint.cpp 983-986). -/
structure Masters where
  faces : List (List Int × Box)
  tree : List (Box × Nat)

/-- The insertions after a face is found: the boxes of all faces found up to now are inserted, again for the earlier ones
(Constraint.cpp 1000-1003). -/
def insertAll (faces : List (List Int × Box)) : List (Box × Nat) := faces.zipIdx.map fun e => (e.1.2, e.2)

/-- The loop over the master faces (Constraint.cpp 987-1006). -/
def masterLoop (m : Mesh) : Masters → List FaceInfo → Outcome Masters
  | a, [] => .ok a
  | a, f :: fs => do
    let ids ← faceIdsOf m f
    let ps ← pointsOf m ids
    match ps with
    | [] => masterLoop m a fs
    | p :: ps => masterLoop m ⟨a.faces ++ [(ids, envelope p ps)], a.tree ++ insertAll (a.faces ++ [(ids, envelope p ps)])⟩ fs

/-- The square of the distance from a coordinate to an interval. -/
def gap2 (lo hi x : Dbl) : Dbl := (max (lo - x) (max 0 (x - hi))) ^ 2

/-- The measure by which `bgi::nearest` compares boxes (Constraint.cpp 1017), as Boost is generally known: the square of the distance
from the point to the box, 0 inside it. -/
def boxDist2 (b : Box) (p : Point) : Dbl := gap2 b.lo.x b.hi.x p.x + gap2 b.lo.y b.hi.y p.y + gap2 b.lo.z b.hi.z p.z

/-- The type of the cell (Constraint.cpp 1022-1036). -/
def slideType : Nat → Option CellType
  | 3 => some .tetra4
  | 4 => some .pyra5
  | _ => none

/-- `rtree.query(bgi::nearest(point, 1), …)` (Constraint.cpp 1017): no result in an empty tree, otherwise one of the values with the
smallest measure. Which one is left open. -/
abbrev Query := List (Box × Nat) → Point → Option (Box × Nat)

/-- One slave node (Constraint.cpp 1013-1037); `result_n[0]` of an empty result is undefined. -/
def slideNode (query : Query) (a : Masters) (group : String) (m : Mesh) (id : Int) : Outcome Mesh := do
  let p ← pointOf m id
  match query a.tree p with
  | none => .ub
  | some v => match a.faces[v.2]? with
    | none => .ub
    | some face => match slideType face.1.length with
      | none => .throw
      | some t => do
        let (m, q) ← m.addCell AUTO_ID t (face.1 ++ [id]) none 0
        m.addToGroup group q

/-- The loop over the nodes of a slave face (Constraint.cpp 1012-1038). -/
def slideNodes (query : Query) (a : Masters) (group : String) : Mesh → List Int → Outcome Mesh
  | m, [] => .ok m
  | m, id :: ids => do
    let m ← slideNode query a group m id
    slideNodes query a group m ids

/-- The loop over the slave faces (Constraint.cpp 1009-1039). -/
def slaveLoop (query : Query) (a : Masters) (group : String) : Mesh → List FaceInfo → Outcome Mesh
  | m, [] => .ok m
  | m, f :: fs => do
    let ids ← faceIdsOf m f
    let m ← slideNodes query a group m ids
    slaveLoop query a group m fs

/-- The name of the group (Constraint.cpp 977). -/
def slideName (id : Nat) : String := String.ofList ("SURF_".toList ++ Med.decimal id)

/-- `SurfaceSlide::makeCellsFromSurfaceSlide` (Constraint.cpp 969-1042) of a constraint with the number `id`: the mesh afterwards. The
new element set of type `SurfaceSlideSet` acts on the group (lines 978-980). -/
def makeCells (query : Query) (m : Mesh) (id : Nat) (master slave : List FaceInfo) : Outcome Mesh := do
  let m ← m.createCellGroup (slideName id)
  let a ← masterLoop m ⟨[], []⟩ master
  slaveLoop query a (slideName id) m slave

end Slides
end Vega
