import Verif.Mesh.Faces
import Verif.Med.Families

/-! # Loads on faces of solid cells, and surfaces made of such faces, are moved onto new surface cells: the step `generateSkin`
(`Abstract/Model.cpp` 870-889) -/
namespace Vega
namespace Skins

/-- The loop over `CellType::typeByCode` (Mesh.cpp 558-565), an unordered map: `order` is the order in which it is visited. -/
def skinType (order : List CellType) (n : Nat) : Option CellType := order.find? fun t => t.dim == 2 && n == t.numNodes

/-- `Mesh::generateSkinCell` (Mesh.cpp 557-572) in dimension two: a cell with an automatic number, without part, with the offset 0
(the defaults of `addCell`, Mesh.h 257-263). -/
def generateSkinCell (order : List CellType) (m : Mesh) (faceIds : List Int) : Outcome (Mesh × Nat) :=
  match skinType order faceIds.length with
  | none => .throw
  | some t => m.addCell AUTO_ID t faceIds none 0

/-- `CellContainer` (MeshComponents.h 438-495): positions of cells and names of groups. -/
structure Container where
  cells : List Nat
  groups : List String
  deriving DecidableEq

/-- The members of a group; a name that is not that of a group of cells is passed over (MeshComponents.cpp 774-778). -/
def groupCells (m : Mesh) (name : String) : List Nat :=
  match m.cellGroups.find name with
  | some ps => ps
  | none => []

/-- `getCellPositionsIncludingGroups` (MeshComponents.cpp 810-820), with repetitions. -/
def positionsOf (m : Mesh) (c : Container) : List Nat := c.cells ++ c.groups.flatMap (groupCells m)

/-- `findCell` on each position (MeshComponents.cpp 762-767). -/
def viewsOf (m : Mesh) : List Nat → Outcome (List CellView)
  | [] => .ok []
  | p :: ps => do
    let v ← m.findCell p
    let vs ← viewsOf m ps
    .ok (v :: vs)

/-- Insertions into `set<Cell>` (MeshComponents.cpp 764, 777), ordered by position (MeshComponents.h 395-397); the order of the
list is left unspecified. -/
def cellSet (vs : List CellView) : List CellView := vs.foldl (fun acc v => if acc.any (·.position == v.position) then acc else acc ++ [v]) []

/-- A load on cells, as far as its place is concerned: with the positions of the one or two nodes that name a face
(`ForceSurfaceTwoNodes`, `NormalPressionFaceTwoNodes`), or without (the other loads on cells). -/
structure Load where
  face : Option (Nat × Option Nat)
  on : Container
  deriving DecidableEq

/-- The second node (Loading.cpp 665-668, 789-792); `none` is `UNAVAILABLE_INT`. -/
def secondNode (m : Mesh) : Option Nat → Outcome (Option Int)
  | none => .ok none
  | some p => do
    let j ← m.nodes.findNodeId p
    .ok (some j)

/-- `getApplicationFaceNodeIds` (Loading.cpp 656-670, 783-795; empty for the other loads, Loading.h 346, 390, 409, 429). -/
def faceOf (m : Mesh) (l : Load) : Outcome (List Int) :=
  match l.face with
  | none => .ok []
  | some (p1, p2) => do
    let vs ← viewsOf m (positionsOf m l.on)
    match cellSet vs with
    | [v] => do
      let i ← m.nodes.findNodeId p1
      let j ← secondNode m p2
      Faces.faceIdsFromTwoNodes v.type v.nodeIds i j
    | _ => .throw

/-- The mesh and the element sets of type `Skin` of the model. -/
structure State where
  mesh : Mesh
  skins : List Container

/-- `Cell::MedName` (MeshComponents.h 391-393). -/
def medName (pos : Nat) : String := String.ofList ('M' :: Med.decimal (pos + 1))

/-- `CellLoading::createSkin` (Loading.cpp 566-590); `useGroups` is `alwaysUseGroupsForCells`. -/
def createSkin (order : List CellType) (useGroups : Bool) (s : State) (l : Load) : Outcome (State × Load) := do
  let faceIds ← faceOf s.mesh l
  if faceIds = [] then .ok (s, l)
  else do
    let (m, p) ← generateSkinCell order s.mesh faceIds
    if useGroups then do
      let m ← m.createCellGroup (medName p)
      let m ← m.addToGroup (medName p) p
      .ok (⟨m, s.skins ++ [⟨[], [medName p]⟩]⟩, { l with on := ⟨[], [medName p]⟩ })
    else .ok (⟨m, s.skins ++ [⟨[p], []⟩]⟩, { l with on := ⟨[p], []⟩ })

/-- The loop over the loads (Model.cpp 872-878). -/
def skinLoads (order : List CellType) (useGroups : Bool) : State → List Load → Outcome (State × List Load)
  | s, [] => .ok (s, [])
  | s, l :: ls => do
    let (s, l) ← createSkin order useGroups s l
    let (s, ls) ← skinLoads order useGroups s ls
    .ok (s, l :: ls)

/-- `ElementFaceByTwoNodes` (Target.h 148-155). -/
structure FaceInfo where
  cell : Int
  node1 : Int
  node2 : Option Int
  swapNormal : Bool
  deriving DecidableEq

/-- One turn of the loop of `BoundaryElementFace::createSkin` (Target.cpp 101-113). A number that is not that of a cell gives an
invalid position, read by `findCell`. -/
def surfaceTurn (order : List CellType) (surf elem : String) (m : Mesh) (f : FaceInfo) : Outcome Mesh :=
  match m.findCellPosition f.cell with
  | none => .ub
  | some p => do
    let m ← m.addToGroup elem p
    let v ← m.findCell p
    let faceIds ← Faces.faceIdsFromTwoNodes v.type v.nodeIds f.node1 f.node2
    if faceIds = [] then .ok m
    else do
      let (m, q) ← generateSkinCell order m faceIds
      m.addToGroup surf q

/-- The loop (Target.cpp 101-113). -/
def surfaceLoop (order : List CellType) (surf elem : String) : Mesh → List FaceInfo → Outcome Mesh
  | m, [] => .ok m
  | m, f :: fs => do
    let m ← surfaceTurn order surf elem m f
    surfaceLoop order surf elem m fs

/-- The names of the two groups (Target.cpp 99-100). -/
def surfName (id : Nat) : String := String.ofList ("SURF".toList ++ Med.decimal id)
/-- See `surfName`. -/
def elemName (id : Nat) : String := String.ofList ("SURFO".toList ++ Med.decimal id)

/-- `BoundaryElementFace::createSkin` (Target.cpp 96-120) of a surface with the number `id`. -/
def surfaceSkin (order : List CellType) (s : State) (id : Nat) (fs : List FaceInfo) : Outcome State := do
  let m ← s.mesh.createCellGroup (surfName id)
  let m ← m.createCellGroup (elemName id)
  let m ← surfaceLoop order (surfName id) (elemName id) m fs
  .ok ⟨m, s.skins ++ [⟨[], [surfName id]⟩]⟩

/-- The loop over the targets (Model.cpp 880-887), those that are surfaces made of faces. -/
def skinTargets (order : List CellType) : State → List (Nat × List FaceInfo) → Outcome State
  | s, [] => .ok s
  | s, t :: ts => do
    let s ← surfaceSkin order s t.1 t.2
    skinTargets order s ts

/-- `Model::generateSkin` (Model.cpp 870-889). -/
def generateSkin (order : List CellType) (useGroups : Bool) (s : State) (ls : List Load) (ts : List (Nat × List FaceInfo)) :
    Outcome (State × List Load) := do
  let (s, ls) ← skinLoads order useGroups s ls
  let s ← skinTargets order s ts
  .ok (s, ls)

end Skins
end Vega
