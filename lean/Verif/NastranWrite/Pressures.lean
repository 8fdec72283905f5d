import Verif.NastranWrite.Loads
import Verif.NastranWrite.Spc

/-! # Pressures: writing (`Nastran/NastranWriter.cpp` 585-684, 762-778) and reading (`Nastran/NastranParser.cpp`
2768-2779, 2866-2977) of the cards PLOAD, PLOAD2 and PLOAD4 -/
namespace Vega
namespace NastranWrite
open Nastran

/-! ## Writing -/

/-- The number of a node, or a blank for `UNAVAILABLE_POS` (NastranWriter.cpp 607-613, 656-662). -/
def nodeOrBlank (nodeIds : List Int) : Option Nat → Outcome Arg
  | none => .ok .blank
  | some p => do
    let n ← idAt nodeIds p
    .ok (.int n)

/-- The loadings of type `FORCE_SURFACE` (Loading.h 330-366). -/
inductive SurfaceForce
  /-- `ForceSurface` -/
  | plain (force : V3)
  /-- `ForceSurfaceTwoNodes`; `norm` is the length of `force` (Value.cpp 188-190), a square root. -/
  | twoNodes (force moment : V3) (norm : Dbl) (p1 : Nat) (p2 : Option Nat)

/-- `VectorialValue::normalized` (Value.cpp 203-207) for a length that is not zero. -/
def V3.normalized (v : V3) (norm : Dbl) : V3 := ⟨v.x / norm, v.y / norm, v.z / norm⟩

/-- The card PLOAD4 of a cell with a `FORCE_SURFACE` (NastranWriter.cpp 588-627). A plain `ForceSurface` is an error:
an exception in strict mode; otherwise a message (SolverInterfaces.cpp 190-204), and then the null pointer is followed.
`ForceSurface` always has the global coordinate system (Loading.cpp 592-596). -/
def surfaceArgs (strict : Bool) (nodeIds : List Int) (set : Ids) (cell : Int) : SurfaceForce → Outcome (List Arg)
  | .plain _ => if strict then .throw else .ub
  | .twoNodes force moment norm p1 p2 => do
    if !moment.iszero && strict then .throw
    else do
      let n1 ← idAt nodeIds p1
      let n2 ← nodeOrBlank nodeIds p2
      let u := force.normalized norm
      .ok [.int set.bestId, .int cell, .real norm, .blank, .blank, .blank, .int n1, n2, .int 0, .real u.x, .real u.y,
        .real u.z]

/-- The card PLOAD2 of a cell with a `NormalPressionShell` (NastranWriter.cpp 631-642). -/
def pload2Args (set : Ids) (intensity : Dbl) (cell : Int) : List Arg :=
  [.int set.bestId, .real intensity, .int cell]

/-- The card PLOAD4 of a cell with a `NormalPressionFaceTwoNodes` (NastranWriter.cpp 644-666). -/
def faceNodesArgs (nodeIds : List Int) (set : Ids) (intensity : Dbl) (p1 : Nat) (p2 : Option Nat) (cell : Int) :
    Outcome (List Arg) := do
  let n1 ← idAt nodeIds p1
  let n2 ← nodeOrBlank nodeIds p2
  .ok [.int set.bestId, .int cell, .real (-intensity), .blank, .blank, .blank, .int n1, n2]

/-- The card PLOAD4 of a cell with a plain `NormalPressionFace` (NastranWriter.cpp 668-684). -/
def faceArgs (set : Ids) (intensity : Dbl) (cell : Int) : List Arg :=
  [.int set.bestId, .int cell, .real intensity]

/-- The card PLOAD of a `StaticPressure` (NastranWriter.cpp 762-777). -/
def ploadArgs (nodeIds : List Int) (set : Ids) (magnitude : Dbl) (p1 p2 p3 : Nat) (p4 : Option Nat) :
    Outcome (List Arg) := do
  let n1 ← idAt nodeIds p1
  let n2 ← idAt nodeIds p2
  let n3 ← idAt nodeIds p3
  match p4 with
  | none => .ok [.int set.bestId, .real magnitude, .int n1, .int n2, .int n3]
  | some p => do
    let n4 ← idAt nodeIds p
    .ok [.int set.bestId, .real magnitude, .int n1, .int n2, .int n3, .int n4]

/-! ## Reading -/

/-- An integer that may be `Globals::UNAVAILABLE_INT`. -/
def available (n : Int) : Option Int := if n = unavailableInt then none else some n

/-- The pressure made by PLOAD. -/
structure PloadRead where
  set : Int
  magnitude : Dbl
  nodes : List Int
  node4 : Option Int
  deriving DecidableEq

/-- `parsePLOAD` (NastranParser.cpp 2768-2779). -/
def parsePLOAD (c : Cursor) : Outcome (PloadRead × Cursor) := do
  let (set, c) ← nextInt none c
  let (p, c) ← nextDouble none c
  let (g1, c) ← nextInt none c
  let (g2, c) ← nextInt none c
  let (g3, c) ← nextInt none c
  let (g4, c) ← nextInt (some unavailableInt) c
  .ok (⟨set, p, [g1, g2, g3], available g4⟩, c)

/-- The pressure made by PLOAD2. -/
structure Pload2Read where
  set : Int
  intensity : Dbl
  cells : List Int
  deriving DecidableEq

/-- `parsePLOAD2` (NastranParser.cpp 2866-2878). -/
def parsePLOAD2 (c : Cursor) : Outcome (Pload2Read × Cursor) := do
  let (set, c) ← nextInt none c
  let (p, c) ← nextDouble none c
  let (cells, c) ← nextInts c
  .ok (⟨set, p, cells⟩, c)

/-- What PLOAD4 loads, and how. -/
inductive Load4
  /-- `NormalPressionFace` with its intensity -/
  | face (intensity : Dbl)
  /-- `NormalPressionFaceTwoNodes` -/
  | faceNodes (intensity : Dbl) (g1 : Int) (g3 : Option Int)
  /-- `ForceSurface` -/
  | surface (force : V3)
  /-- `ForceSurfaceTwoNodes` -/
  | surfaceNodes (force : V3) (g1 : Int) (g3 : Option Int)
  deriving DecidableEq

/-- The loading made by PLOAD4. -/
structure Pload4Read where
  set : Int
  cells : List Int
  load : Load4
  deriving DecidableEq

/-- The nodes of the face, or the last cell (NastranParser.cpp 2889-2908): `g1`, `g3_or_4` and `eid2`. -/
def pload4Face (eid1 : Int) (c : Cursor) : Outcome ((Int × Int × Int) × Cursor) := do
  let int ← isNextInt c
  let blank ← if int then .ok true else isNextEmpty 1 c
  if blank || isEmptyUntilNextKeyword c then do
    let (g1, c) ← nextInt (some unavailableInt) c
    let (g3, c) ← nextInt (some unavailableInt) c
    .ok ((g1, g3, eid1), c)
  else do
    let thru ← isNextTHRU c
    if thru then do
      let c ← skip 1 c
      let (eid2, c) ← nextInt none c
      .ok ((unavailableInt, unavailableInt, eid2), c)
    else .throw

/-- `has_direction` (NastranParser.cpp 2927-2928). -/
def hasDirection (cid : Int) (n : V3) : Bool :=
  !(isEqual n.x 0 && isEqual n.y 0 && isEqual n.z 0 && decide (cid = 0))

/-- The loading (NastranParser.cpp 2929-2975). -/
def pload4Load (p1 : Dbl) (g1 g3 cid : Int) (n : V3) : Load4 :=
  if hasDirection cid n then
    match available g1 with
    | some g => .surfaceNodes ⟨n.x * p1, n.y * p1, n.z * p1⟩ g (available g3)
    | none => .surface ⟨n.x * p1, n.y * p1, n.z * p1⟩
  else
    match available g1 with
    | some g => .faceNodes (-p1) g (available g3)
    | none => .face p1

/-- `parsePLOAD4` (NastranParser.cpp 2879-2977). Pressures that are not uniform, the coordinate system and the last two
fields are dismissed with warnings. -/
def parsePLOAD4 (c : Cursor) : Outcome (Pload4Read × Cursor) := do
  let (set, c) ← nextInt none c
  let (eid1, c) ← nextInt none c
  let (p1, c) ← nextDouble none c
  let (_, c) ← nextDouble (some p1) c
  let (_, c) ← nextDouble (some p1) c
  let (_, c) ← nextDouble (some p1) c
  let ((g1, g3, eid2), c) ← pload4Face eid1 c
  let (cid, c) ← nextInt (some 0) c
  let (n1, c) ← nextDouble (some 0) c
  let (n2, c) ← nextDouble (some 0) c
  let (n3, c) ← nextDouble (some 0) c
  let (_, c) ← nextString (some "SURF".toList) c
  let (_, c) ← nextString (some "NORM".toList) c
  let cells ← pushRange (eid1 - 1) eid2 1
  .ok (⟨set, cells, pload4Load p1 g1 g3 cid ⟨n1, n2, n3⟩⟩, c)

end NastranWrite
end Vega
