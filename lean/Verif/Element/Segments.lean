import Verif.NastranWrite.Bush
import Mathlib.Data.Finset.Dedup

/-! # Rigid segments (`Abstract/Model.cpp` 1396-1416), discrete points made segments (`Abstract/Model.cpp` 2054-2089) and
the dampers that come from PVISC (`Nastran/NastranParser.cpp` 2650-2690) -/
namespace Vega
namespace Segments
open Nastran NastranWrite

/-! ## The segments that are read -/

/-- The components of a damper (NastranParser.cpp 2655-2665; the same again in 2675-2685). -/
def damper (ce cr : Dbl) : Outcome StructuralSegment := do
  let s := StructuralSegment.new .DIAGONAL
  let s ← if isZero ce then .ok s else bushAdd .damping [(.DX, ce), (.DY, ce), (.DZ, ce)] s
  if isZero cr then .ok s else bushAdd .damping [(.RX, cr), (.RY, cr), (.RZ, cr)] s

/-- One damper of the card: its number and its two values (NastranParser.cpp 2651-2668 and 2671-2688). -/
def parseDamper (c : Cursor) : Outcome ((Int × StructuralSegment) × Cursor) := do
  let (pid, c) ← nextInt none c
  let (ce, c) ← nextDouble (some 0) c
  let (cr, c) ← nextDouble (some 0) c
  let s ← damper ce cr
  .ok ((pid, s), c)

/-- `parsePVISC` (NastranParser.cpp 2650-2690). Left out: the group of cells every damper is bound to. -/
def parsePVISC (c : Cursor) : Outcome (List (Int × StructuralSegment) × Cursor) := do
  let (d, c) ← parseDamper c
  if isEmptyUntilNextKeyword c then .ok ([d], c)
  else do
    let c ← skip 1 c
    let (d', c) ← parseDamper c
    .ok ([d, d'], c)

/-- The components of a spring (NastranParser.cpp 2519-2531): what `parsePBUSH` does with the twelve values. -/
def bush (k b : List Dbl) : Outcome StructuralSegment := do
  let s ← bushAdd .stiffness (bushDofs.zip k) (StructuralSegment.new .DIAGONAL)
  bushAdd .damping (bushDofs.zip b) s

/-- The nodes of the cell of CBUSH (NastranParser_geometry.cpp 281-285): a point when the second node is left out. -/
def bushCell (ga : Int) : Option Int → List Int
  | none => [ga]
  | some gb => [ga, gb]

/-! ## Rigid segments -/

/-- A `StructuralSegment` and the nodes of its cells, groups included (MeshComponents.cpp 771-781). -/
structure SegmentSet where
  segment : StructuralSegment
  cells : List (List Int)

/-- A `RigidConstraint` (Constraint.cpp 346-349), which is put into the common constraint set. -/
structure RigidLink where
  master : Int
  slaves : Finset Int
  deriving DecidableEq

/-- `isDiagonalRigid` (Element.cpp 810-812). -/
def isDiagonalRigid (s : StructuralSegment) : Bool := (s.matrix .stiffness).isMaxDiagonal

/-- `setAllZero` (Element.cpp 842-846). -/
def setAllZero (s : StructuralSegment) : StructuralSegment := { s with matrix := fun q => (s.matrix q).setAllZero }

/-- One turn of the inner loop (Model.cpp 1403-1412); `front` of a cell without nodes is undefined. -/
def linkOf : List Int → Outcome RigidLink
  | [] => .ub
  | n :: l => .ok ⟨n, l.toFinset⟩

/-- The inner loop (Model.cpp 1403-1412). -/
def linksOf : List (List Int) → Outcome (List RigidLink)
  | [] => .ok []
  | c :: l => do
    let r ← linkOf c
    let rs ← linksOf l
    .ok (r :: rs)

/-- One turn of the outer loop (Model.cpp 1399-1414). -/
def replaceOne (s : SegmentSet) : Outcome (SegmentSet × List RigidLink) :=
  if !isDiagonalRigid s.segment then .ok (s, [])
  else do
    let rs ← linksOf s.cells
    .ok ({ s with segment := setAllZero s.segment }, rs)

/-- `replaceRigidSegments` (Model.cpp 1396-1416), over the segments of the model in their order. -/
def replaceRigidSegments : List SegmentSet → Outcome (List SegmentSet × List RigidLink)
  | [] => .ok ([], [])
  | s :: l => do
    let (s, rs) ← replaceOne s
    let (l, rs') ← replaceRigidSegments l
    .ok (s :: l, rs ++ rs')

/-! ## Discrete points made segments -/

/-- A `DiscretePoint`, its `bestId` and its nodes; without a cell the set is empty. -/
structure PointSet where
  id : Int
  point : DiscretePoint
  nodes : List Int

/-- The copy of the components at one pair of degrees of freedom (Model.cpp 2064-2069). -/
def copyAt (p : DiscretePoint) (s : StructuralSegment) (d : Dof × Dof) : Outcome StructuralSegment := do
  let s ← s.add .stiffness d.1 d.2 ((p.matrix .stiffness).findComponent d.1 d.2)
  let s ← s.add .mass d.1 d.2 ((p.matrix .mass).findComponent d.1 d.2)
  s.add .damping d.1 d.2 ((p.matrix .damping).findComponent d.1 d.2)

/-- The pairs of degrees of freedom in the order of the two loops (Model.cpp 2062-2063). -/
def dofPairs : List (Dof × Dof) :=
  Dofs.ALL_DOFS.toList.flatMap fun d => Dofs.ALL_DOFS.toList.map fun d' => (d, d')

/-- The two loops (Model.cpp 2061-2071). -/
def copyPoint (p : DiscretePoint) : Outcome StructuralSegment :=
  dofPairs.foldlM (copyAt p) (StructuralSegment.new p.matrixType)

/-- The group of cells that is made (Model.cpp 2073-2079): its name ends with the number, one segment from each node to itself. -/
structure CellGroup where
  id : Int
  cells : List (List Int)
  deriving DecidableEq

/-- One turn of the loop for a point that is not empty (Model.cpp 2061-2081): the new set, which nothing is added to, and the
group. -/
def convertOne (p : PointSet) : Outcome (SegmentSet × CellGroup) := do
  let s ← copyPoint p.point
  .ok (⟨s, []⟩, ⟨p.id, p.nodes.map fun n => [n, n]⟩)

/-- What `convert0DDiscretsInto1D` leaves: the points that were empty, the new segments and the new groups. -/
structure Converted where
  points : List PointSet
  segments : List SegmentSet
  groups : List CellGroup

/-- `convert0DDiscretsInto1D` (Model.cpp 2054-2089). -/
def convert0D : List PointSet → Outcome Converted
  | [] => .ok ⟨[], [], []⟩
  | p :: l =>
    if p.nodes.isEmpty then do
      let r ← convert0D l
      .ok { r with points := p :: r.points }
    else do
      let (s, g) ← convertOne p
      let r ← convert0D l
      .ok ⟨r.points, s :: r.segments, g :: r.groups⟩

end Segments
end Vega
