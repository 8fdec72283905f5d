import Verif.Basic
import Verif.Geom.Vec
import Mathlib.Analysis.SpecialFunctions.Trigonometric.Basic

/-!
# Coordinate systems (CoordinateSystem.h 34-215, CoordinateSystem.cpp 33-413)

Coordinates are exact reals; `none` stands for a vector (or axes) made of NaN. Systems are found by
reference in an environment, as `Mesh::findCoordinateSystem` does (Mesh.cpp 621-623). The calls from a
system to the one it is defined in are bounded by a fuel; `diverges` means that it ran out.
-/
namespace Vega

/-- Three axes `ex`, `ey`, `ez`. -/
structure Axes where
  ex : Vec
  ey : Vec
  ez : Vec

namespace Axes

/-- `x ex + y ey + z ez` (CoordinateSystem.cpp 118-120, 196-198, 211-213, 388-390). -/
def apply (a : Axes) (v : Vec) : Vec :=
  ⟨v.x * a.ex.x + v.y * a.ey.x + v.z * a.ez.x,
   v.x * a.ex.y + v.y * a.ey.y + v.z * a.ez.y,
   v.x * a.ex.z + v.y * a.ey.z + v.z * a.ez.z⟩

/-- Determinant of the matrix whose columns are the axes. -/
def det (a : Axes) : ℝ := Vec.dot a.ex (Vec.cross a.ey a.ez)

/-- `InvertMatrix` (Utility.cpp 28-49) applied to the matrix whose columns are the axes
(CoordinateSystem.cpp 172-176): the rows of the inverse, nothing if the matrix is singular. The LU
factorisation of ublas is not modelled, only its result. -/
noncomputable def invert (a : Axes) : Option (Vec × Vec × Vec) :=
  open Classical in
  if a.det = 0 then none
  else some (Vec.smul (1 / a.det) (Vec.cross a.ey a.ez), Vec.smul (1 / a.det) (Vec.cross a.ez a.ex),
    Vec.smul (1 / a.det) (Vec.cross a.ex a.ey))

end Axes

/-- The matrix `inverseMatrix` (CoordinateSystem.h 66): not initialised by the constructor, full of
NaN, or three rows. -/
inductive Inverse where
  | unset
  | nan
  | rows (r0 r1 r2 : Vec)

/-- The classes of coordinate systems (CoordinateSystem.h 113-215). -/
inductive CsKind where
  | cartesian
  | orientation
  | cylindrical
  | spherical
  deriving DecidableEq

/-- A coordinate system (CoordinateSystem.h 56-66). `rcs` is the system it is defined in, `none` for
the global one; `virt` is `isVirtual`; `local` is the base `ur`, `utheta`, `ez` of a cylindrical
system (164-165); `dir` is the vector `v` of an orientation (146). -/
structure CS where
  kind : CsKind
  origin : Option Vec
  axes : Option Axes
  rcs : Option Nat
  virt : Bool
  nodes : List Nat
  dir : Option Vec
  localBase : Option Axes
  inverse : Inverse

namespace CS
open Vec

/-- The axes computed by the constructor from two vectors (CoordinateSystem.cpp 35-37). -/
noncomputable def axesOf (ex ey : Vec) : Option Axes := do
  let x ← ex.normalized
  let y ← ey.orthonormalized x
  some ⟨x, y, cross x y⟩

/-- The constructors from an origin and two vectors (CoordinateSystem.cpp 33-39, 92-96, 183-188,
236-240). -/
noncomputable def ofVectors (kind : CsKind) (o ex ey : Vec) (rcs : Option Nat) : CS :=
  ⟨kind, some o, axesOf ex ey, rcs, false, [], none, axesOf ex ey, .unset⟩

/-- The constructor from three nodes (CoordinateSystem.cpp 97-104): axes computed from null vectors,
NaN until `build`. -/
noncomputable def ofNodes (nO nZ nXZ : Nat) (rcs : Option Nat) : CS :=
  ⟨.cartesian, some zero, axesOf zero zero, rcs, true, [nO, nZ, nXZ], none, none, .unset⟩

/-- The constructor of an orientation from two nodes and a vector (CoordinateSystem.cpp 298-307). -/
noncomputable def ofDirection (nO nX : Nat) (v : Vec) (rcs : Option Nat) : CS :=
  ⟨.orientation, some zero, axesOf zero zero, rcs, true, [nO, nX], v.normalized, none, .unset⟩

/-- The constructor of an orientation from three nodes (CoordinateSystem.cpp 289-296). -/
noncomputable def ofThreeNodes (nO nX nV : Nat) (rcs : Option Nat) : CS :=
  ⟨.orientation, some zero, axesOf zero zero, rcs, true, [nO, nX, nV], none, none, .unset⟩

/-- The axes `build` computes for a Cartesian system (CoordinateSystem.cpp 162-168): `z` and `v` are
the vectors from the origin to the two other nodes. -/
noncomputable def axesZX (z v : Vec) : Option Axes := do
  let ez ← z.normalized
  let v ← v.normalized
  let ex ← v.orthonormalized ez
  some ⟨ex, cross ez ex, ez⟩

/-- The axes `build` computes for an orientation (CoordinateSystem.cpp 316-323). -/
noncomputable def axesXV (x : Vec) (v : Option Vec) : Option Axes := do
  let ex ← x.normalized
  let v ← v
  let ey ← v.orthonormalized ex
  some ⟨ex, ey, cross ex ey⟩

/-- The end of both `build` (CoordinateSystem.cpp 172-176, 326-330). A singular matrix leaves the
inverse as it was. -/
noncomputable def setInverse (c : CS) : CS :=
  match c.axes with
  | none => { c with inverse := .nan }
  | some a =>
    match a.invert with
    | none => c
    | some r => { c with inverse := .rows r.1 r.2.1 r.2.2 }

/-- The nodes are read with their global coordinates (`findNode`, Mesh.cpp 218-245); `ok none` is a
node whose coordinates are NaN. -/
abbrev NodeAt := Nat → Outcome (Option Vec)

/-- Difference of two vectors that may be NaN. -/
def subOpt (a b : Option Vec) : Option Vec := do
  let a ← a
  let b ← b
  some (sub a b)

/-- The part of `CartesianCoordinateSystem::build` that reads the nodes (CoordinateSystem.cpp
154-170). -/
noncomputable def buildCartesian (node : NodeAt) (c : CS) : Outcome CS :=
  match c.nodes with
  | [nO, nZ, nXZ] => do
    let o ← node nO
    let z ← node nZ
    let v ← node nXZ
    .ok { c with
      origin := o
      axes := do
        let z ← subOpt z o
        let v ← subOpt v o
        axesZX z v
      virt := false }
  | _ => .ub

/-- The part of `OrientationCoordinateSystem::build` that reads the nodes (CoordinateSystem.cpp
311-325). -/
noncomputable def buildOrientation (node : NodeAt) (c : CS) : Outcome CS :=
  match c.nodes with
  | [nO, nX] => do
    let o ← node nO
    let x ← node nX
    .ok { c with
      origin := o
      axes := do
        let x ← subOpt x o
        axesXV x c.dir
      virt := false }
  | [nO, nX, nV] => do
    let o ← node nO
    let x ← node nX
    let v ← node nV
    .ok { c with
      origin := o
      axes := do
        let x ← subOpt x o
        let v ← subOpt v o
        axesXV x v.normalized
      virt := false }
  | _ => .ub

/-- `build` (CoordinateSystem.h 85-86, CoordinateSystem.cpp 152-179, 309-332); cylindrical and
spherical systems inherit the empty one. -/
noncomputable def build (node : NodeAt) (c : CS) : Outcome CS :=
  match c.kind with
  | .cartesian => do
    let c ← if c.virt then buildCartesian node c else .ok c
    .ok c.setInverse
  | .orientation => do
    let c ← if c.virt then buildOrientation node c else .ok c
    .ok c.setInverse
  | _ => .ok c

/-- Where systems are found (Mesh.cpp 621-623); `none` is a null pointer. -/
abbrev Env := Nat → Option CS

/-- `axes.apply v` where both may be NaN. -/
def applyOpt (a : Option Axes) (v : Option Vec) : Option Vec := do
  let a ← a
  let v ← v
  some (a.apply v)

/-- What `vectorToGlobal` and `positionToGlobal` do with their result: pass it to the system of
reference, if any (CoordinateSystem.cpp 122-129, 201-206, 215-221, 262-267, 376-381, 391-397). The
pointer to that system is not tested (an `assert` in the Cartesian case, 127). -/
def upTo (env : Env) (rcs : Option Nat) (f : CS → Option Vec → Outcome (Option Vec))
    (w : Option Vec) : Outcome (Option Vec) :=
  match rcs with
  | none => .ok w
  | some r =>
    match env r with
    | none => .ub
    | some p => f p w

/-- `vectorToGlobal` (CoordinateSystem.cpp 117-130, 209-222, 270-274, 384-398). -/
def vectorToGlobal (env : Env) : Nat → CS → Option Vec → Outcome (Option Vec)
  | 0, _, _ => .diverges
  | n + 1, c, v =>
    let up := upTo env c.rcs (vectorToGlobal env n)
    match c.kind with
    | .cartesian => up (applyOpt c.axes v)
    | .cylindrical => up (applyOpt c.localBase v)
    | .spherical => .throw
    | .orientation => if c.virt then .throw else up (applyOpt c.axes v)

/-- Degrees to the argument of `cos` and `sin` (CoordinateSystem.cpp 200-201, 251-253). -/
noncomputable def rad (d : ℝ) : ℝ := Real.pi * d / 180

/-- From cylindrical coordinates (CoordinateSystem.cpp 200-201). -/
noncomputable def fromCylindrical (v : Vec) : Vec :=
  ⟨v.x * Real.cos (rad v.y), v.x * Real.sin (rad v.y), v.z⟩

/-- From spherical coordinates (CoordinateSystem.cpp 248-253). -/
noncomputable def fromSpherical (v : Vec) : Vec :=
  ⟨v.x * Real.sin (rad v.y) * Real.cos (rad v.z), v.x * Real.sin (rad v.y) * Real.sin (rad v.z),
   v.x * Real.cos (rad v.y)⟩

/-- `positionToGlobal` (CoordinateSystem.cpp 107-115, 199-207, 247-268, 371-382). -/
noncomputable def positionToGlobal (env : Env) : Nat → CS → Option Vec → Outcome (Option Vec)
  | 0, _, _ => .diverges
  | n + 1, c, v =>
    let up := upTo env c.rcs (positionToGlobal env n)
    match c.kind with
    | .cartesian => do
      let g ← vectorToGlobal env (n + 1) c v
      let o ← up c.origin
      .ok (addOpt o g)
    | .cylindrical => up (addOpt c.origin (applyOpt c.axes (v.map fromCylindrical)))
    | .spherical => up (addOpt c.origin (applyOpt c.axes (v.map fromSpherical)))
    | .orientation =>
      if c.virt then .throw
      else do
        let g ← vectorToGlobal env (n + 1) c v
        up (addOpt c.origin g)

/-- The product of `inverseMatrix` and a vector (CoordinateSystem.cpp 142-145, 409-412). -/
def applyInverse (i : Inverse) (v : Option Vec) : Outcome (Option Vec) :=
  match i, v with
  | .unset, _ => .ub
  | .rows r0 r1 r2, some v => .ok (some ⟨dot v r0, dot v r1, dot v r2⟩)
  | _, _ => .ok none

/-- `vectorToLocal` (CoordinateSystem.cpp 132-146, 224-227, 276-279, 400-413). -/
def vectorToLocal (env : Env) : Nat → CS → Option Vec → Outcome (Option Vec)
  | 0, _, _ => .diverges
  | n + 1, c, v =>
    if c.kind = .cylindrical ∨ c.kind = .spherical then .throw
    else
      match c.rcs with
      | none => applyInverse c.inverse v
      | some r =>
        match env r with
        | none => .ub
        | some p => do
          let w ← vectorToLocal env n p v
          applyInverse c.inverse w

/-- The base at a point seen from the origin (CoordinateSystem.cpp 193-194). -/
noncomputable def localAxes (a : Option Axes) (d : Vec) : Option Axes := do
  let a ← a
  let t ← (cross a.ez d).normalized
  some ⟨cross t a.ez, t, a.ez⟩

/-- `updateLocalBase` (CoordinateSystem.h 83-84; CoordinateSystem.cpp 190-196, 242-245); `iszero`
compares with the tolerance 5 ε (Value.cpp 192-194, Utility.h 53). -/
noncomputable def updateLocalBase (c : CS) (point : Vec) : Outcome CS :=
  open Classical in
  match c.kind with
  | .cylindrical =>
    match c.origin with
    | none => .ok { c with localBase := none }
    | some o =>
      let d := sub point o
      if |d.x| ≤ 5 / 2 ^ 52 ∧ |d.y| ≤ 5 / 2 ^ 52 ∧ |d.z| ≤ 5 / 2 ^ 52 then .ok c
      else .ok { c with localBase := localAxes c.axes d }
  | .spherical => .throw
  | _ => .ok c

/-- The stored coordinates of nodes and the system they are given in, `none` for the global one
(`NodeData`, MeshComponents.h). -/
abbrev NodeTable := Nat → Option Nat × Vec

/-- `Mesh::findNode` (Mesh.cpp 218-245): coordinates in an unknown system are taken for global ones,
with a message. -/
noncomputable def findNode (env : Env) (fuel : Nat) (tab : NodeTable) : NodeAt := fun n =>
  match (tab n).1 with
  | none => .ok (some (tab n).2)
  | some r =>
    match env r with
    | none => .ok (some (tab n).2)
    | some c => positionToGlobal env fuel c (some (tab n).2)

/-- Replace a system. -/
def setEnv (env : Env) (r : Nat) (c : CS) : Env := fun s => if s = r then some c else env s

/-- The first loop of `Model::finish` (Model.cpp 2222-2225): systems are built one after the other, in
the order of their references. -/
noncomputable def buildAll (fuel : Nat) (tab : NodeTable) : List Nat → Env → Outcome Env
  | [], env => .ok env
  | r :: rs, env =>
    match env r with
    | none => .ub
    | some c => do
      let c ← c.build (findNode env fuel tab)
      buildAll fuel tab rs (setEnv env r c)

end CS
end Vega
