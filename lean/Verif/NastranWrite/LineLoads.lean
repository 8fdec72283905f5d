import Verif.NastranWrite.Pressures
import Verif.Dof.Model

/-! # Loads along beams: writing (`Nastran/NastranWriter.cpp` 686-735) and reading (`Nastran/NastranParser.cpp` 2781-2863)
of the card PLOAD1 -/
namespace Vega
namespace NastranWrite
open Nastran

/-- Points of a `FunctionTable` (Value.h 338-358), in the order of `setXY`. -/
abbrev Table := List (Dbl × Dbl)

/-- The type of the load (NastranWriter.cpp 688-711). -/
def loadType : Dof → Text
  | .DX => "FX".toList
  | .DY => "FY".toList
  | .DZ => "FZ".toList
  | .RX => "MX".toList
  | .RY => "MY".toList
  | .RZ => "MZ".toList

/-- The card PLOAD1 of a cell with a `ForceLine` (NastranWriter.cpp 712-732). The iterator is dereferenced twice
without looking for the end; from the third value on there is a warning (SolverInterfaces.cpp 205-207). -/
def lineArgs (set : Ids) (dof : Dof) (table : Table) (cell : Int) : Outcome (List Arg) :=
  match table with
  | (x1, p1) :: (x2, p2) :: _ =>
    .ok [.int set.bestId, .int cell, .text (loadType dof), .text "FR".toList, .real x1, .real p1, .real x2, .real p2]
  | _ => .ub

/-- How the abscissas are meant: `ParaName::PARAX` or `ParaName::ABSC`. -/
inductive Scale
  | length
  | fraction
  deriving DecidableEq

/-- The load made by PLOAD1. -/
structure LineRead where
  set : Int
  cell : Int
  dof : Dof
  scale : Scale
  table : Table

/-- The type of the load (NastranParser.cpp 2794-2807). -/
def readType (type : Nastran.Line) : Outcome Dof :=
  if type = "FX".toList then .ok .DX
  else if type = "FY".toList then .ok .DY
  else if type = "FZ".toList then .ok .DZ
  else if type = "MX".toList then .ok .RX
  else if type = "MY".toList then .ok .RY
  else if type = "MZ".toList then .ok .RZ
  else .throw

/-- The scale (NastranParser.cpp 2811-2843). -/
def readScale (scale : Nastran.Line) : Outcome Scale :=
  if scale = "LE".toList then .ok .length
  else if scale = "FRPR".toList ∨ scale = "FR".toList then .ok .fraction
  else .throw

/-- The points of the table (NastranParser.cpp 2845-2860). -/
def lineTable (x1 p1 x2 p2 : Dbl) : Outcome Table :=
  if x2 < 0 || isEqual x2 x1 then .throw
  else .ok ((if x1 > 0 then [(x1 - x1 / 1000, 0)] else []) ++ [(x1, p1), (x2, p2), (x2 + x2 / 1000, 0)])

/-- `parsePLOAD1` (NastranParser.cpp 2781-2871). -/
def parsePLOAD1 (c : Cursor) : Outcome (LineRead × Cursor) := do
  let (set, c) ← nextInt none c
  let (eid, c) ← nextInt none c
  let (type, c) ← nextString none c
  let (scale, c) ← nextString none c
  let (x1, c) ← nextDouble (some 0) c
  let (p1, c) ← nextDouble (some 0) c
  let (x2, c) ← nextDouble (some (-1)) c
  let (p2, c) ← nextDouble (some 0) c
  let dof ← readType type
  let scale ← readScale scale
  let table ← lineTable x1 p1 x2 p2
  .ok (⟨set, eid, dof, scale, table⟩, c)

end NastranWrite
end Vega
