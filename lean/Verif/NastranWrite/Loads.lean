import Verif.NastranWrite.Rigid

/-! # Nodal forces and gravity: writing (`Nastran/NastranWriter.cpp` 569-583, 737-760) and reading
(`Nastran/NastranParser.cpp` 1675-1691, 1793-1813, 2026-2044) of the cards FORCE, MOMENT and GRAV -/
namespace Vega
namespace NastranWrite
open Nastran

/-- A `VectorialValue` (Value.h 385-440), exact. -/
structure V3 where
  x : Dbl
  y : Dbl
  z : Dbl
  deriving DecidableEq

/-- `VectorialValue::iszero` (Value.cpp 192-194). -/
def V3.iszero (v : V3) : Bool := isZero v.x && isZero v.y && isZero v.z

/-- The card FORCE of a node (NastranWriter.cpp 745-757) for the force and the moment in the global system
(Loading.cpp 305-317). The moment is an error: in strict mode an exception (SolverInterfaces.cpp 190-204),
otherwise a message, and the card is written. -/
def forceArgs (strict : Bool) (nodeIds : List Int) (set : Ids) (force moment : V3) (p : Nat) : Outcome (List Arg) := do
  let n ← idAt nodeIds p
  if !moment.iszero && strict then .throw
  else .ok [.int set.bestId, .int n, .int 0, .real 1, .real force.x, .real force.y, .real force.z]

/-- The card GRAV (NastranWriter.cpp 571-581); a `Gravity` always has the global coordinate system (Loading.cpp
143-147). -/
def gravArgs (set : Ids) (acceleration : Dbl) (v : V3) : List Arg :=
  [.int set.bestId, .int 0, .real acceleration, .real v.x, .real v.y, .real v.z]

/-- The nodal force made by FORCE or MOMENT, with the number of its coordinate system. -/
structure ForceRead where
  set : Int
  node : Int
  system : Int
  force : V3
  moment : V3
  deriving DecidableEq

/-- `parseFORCE` (NastranParser.cpp 1675-1691). -/
def parseFORCE (c : Cursor) : Outcome (ForceRead × Cursor) := do
  let (set, c) ← nextInt none c
  let (node, c) ← nextInt none c
  let (cs, c) ← nextInt (some 0) c
  let (force, c) ← nextDouble (some 0) c
  let (x, c) ← nextDouble (some 0) c
  let (y, c) ← nextDouble (some 0) c
  let (z, c) ← nextDouble (some 0) c
  .ok (⟨set, node, cs, ⟨x * force, y * force, z * force⟩, ⟨0, 0, 0⟩⟩, c)

/-- `parseMOMENT` (NastranParser.cpp 2026-2044): here blanks are `UNAVAILABLE_DOUBLE`. Products beyond the range of
`double` are not represented. -/
def parseMOMENT (c : Cursor) : Outcome (ForceRead × Cursor) := do
  let (set, c) ← nextInt none c
  let (node, c) ← nextInt none c
  let (cs, c) ← nextInt (some 0) c
  let (scale, c) ← nextDouble (some unavailable) c
  let (x, c) ← nextDouble (some unavailable) c
  let (y, c) ← nextDouble (some unavailable) c
  let (z, c) ← nextDouble (some unavailable) c
  .ok (⟨set, node, cs, ⟨0, 0, 0⟩, ⟨x * scale, y * scale, z * scale⟩⟩, c)

/-- The gravity made by GRAV. -/
structure GravRead where
  set : Int
  acceleration : Dbl
  direction : V3
  deriving DecidableEq

/-- `parseGRAV` (NastranParser.cpp 1793-1813): the coordinate system and MB are dismissed with a warning. -/
def parseGRAV (c : Cursor) : Outcome (GravRead × Cursor) := do
  let (set, c) ← nextInt none c
  let (_, c) ← nextInt (some 0) c
  let (a, c) ← nextDouble (some 0) c
  let (x, c) ← nextDouble (some 0) c
  let (y, c) ← nextDouble (some 0) c
  let (z, c) ← nextDouble (some 0) c
  let (_, c) ← nextInt (some 0) c
  .ok (⟨set, a, ⟨x, y, z⟩⟩, c)

end NastranWrite
end Vega
