import Verif.Mesh.Systems
import Verif.NastranWrite.Loads
import Verif.NastranWrite.Spc

/-! # Nodes: reading of GRDSET and GRID (`Nastran/NastranParser_geometry.cpp` 58-110), writing of GRID
(`Nastran/NastranWriter.cpp` 369-378) and the global coordinates of a node (`Abstract/Mesh.cpp` 218-245) -/
namespace Vega
namespace NastranWrite
open Nastran Systems

variable {α : Type}

/-- `GrdSet` (NastranParser.h 59-71); `seid` is never used. -/
structure GrdSet where
  cp : Nat
  cd : Nat
  ps : Int
  deriving DecidableEq

/-- The constructor without arguments (NastranParser.h 61-65). -/
def GrdSet.init : GrdSet := ⟨0, 0, 0⟩

/-- `Reference<CoordinateSystem>(Type::ABSOLUTE, n)` (NastranParser_geometry.cpp 62, 67, 80, 93). -/
def systemRef (n : Int) : Ref := ⟨0, n, Ref.NO_ID⟩

/-- The position of a coordinate system given by its number (NastranParser_geometry.cpp 77-81, 90-94). -/
def systemAt (s : Store α) (n : Int) : Outcome (Store α × Nat) :=
  if n ≠ 0 then s.findOrReserve (systemRef n) else .ok (s, 0)

/-- One half of `parseGRDSET` (NastranParser_geometry.cpp 61-63, 66-68): the position is stored, unless the number is 0. -/
def grdSystem (s : Store α) (n : Int) (old : Nat) : Outcome (Store α × Nat) :=
  if n ≠ 0 then s.findOrReserve (systemRef n) else .ok (s, old)

/-- `parseGRDSET` (NastranParser_geometry.cpp 58-73). -/
def parseGRDSET (g : GrdSet) (s : Store α) (c : Cursor) : Outcome ((GrdSet × Store α) × Cursor) := do
  let c ← skip 1 c
  let (cp, c) ← nextInt (some 0) c
  let (s, pcp) ← grdSystem s cp g.cp
  let c ← skip 3 c
  let (cd, c) ← nextInt (some 0) c
  let (s, pcd) ← grdSystem s cd g.cd
  let (ps, c) ← nextInt (some 0) c
  let (_, c) ← nextInt (some 0) c
  .ok ((⟨pcp, pcd, ps⟩, s), c)

/-- What GRID adds: the node (`Mesh::addNode` with the positions of its coordinate systems) and the degrees of freedom of
the single point constraint in the common constraint set, if there is one. -/
structure GridRead where
  id : Int
  at_ : V3
  cp : Nat
  cd : Nat
  fixed : Option Dofs

/-- `if (ps)` (NastranParser_geometry.cpp 98-105). -/
def permanent (ps : Int) : Outcome (Option Dofs) :=
  if ps ≠ 0 then (Dofs.nastranCodeToDOFS ps).bind fun d => .ok (some d) else .ok none

/-- `parseGRID` (NastranParser_geometry.cpp 75-110). The conversion of a position to `int` (`static_cast<int>(grdSet.cp)`,
76, 89) is taken as exact. -/
def parseGRID (g : GrdSet) (s : Store α) (c : Cursor) : Outcome ((GridRead × Store α) × Cursor) := do
  let (id, c) ← nextInt none c
  let (cp, c) ← nextInt (some (g.cp : Int)) c
  let (s, cpos) ← systemAt s cp
  let (x, c) ← nextDouble (some 0) c
  let (y, c) ← nextDouble (some 0) c
  let (z, c) ← nextDouble (some 0) c
  let (cd, c) ← nextInt (some (g.cd : Int)) c
  let (s, cdos) ← systemAt s cd
  let (ps, c) ← nextInt (some g.ps) c
  let fixed ← permanent ps
  .ok ((⟨id, ⟨x, y, z⟩, cpos, cdos, fixed⟩, s), c)

/-- The cards GRDSET and GRID of the bulk section, in the order of the file (`parseBULKSection`, NastranParser.cpp 536-563,
with the table of 141-156); other cards are passed over. -/
def readNodes (g : GrdSet) (s : Store α) : List (List Nastran.Line) → Outcome (List GridRead)
  | [] => .ok []
  | f :: fs =>
    if f.head? = some "GRDSET".toList then do
      let (g, s) ← readBulk (parseGRDSET g s) f
      readNodes g s fs
    else if f.head? = some "GRID".toList then do
      let (n, s) ← readBulk (parseGRID g s) f
      let ns ← readNodes g s fs
      .ok (n :: ns)
    else readNodes g s fs

/-- The global coordinates of a node in `Mesh::findNode` (Mesh.cpp 223-244); `positionToGlobal` is a parameter. A missing
coordinate system gives a message, and the coordinates are taken as global. -/
def nodePoint (toGlobal : α → V3 → V3) (s : Store α) (cp : Nat) (v : V3) : Outcome V3 :=
  if cp = 0 then .ok v
  else do
    let cs ← s.findByPosition cp
    match cs with
    | none => .ok v
    | some a => .ok (toGlobal a v)

/-- The card GRID of a node (NastranWriter.cpp 371-377): `lx`, `ly`, `lz` are the coordinates in the system of the node
(Mesh.cpp 226, 238, 243); a coordinate system other than the global one is dismissed with a warning. -/
def gridArgs (id : Int) (local_ : V3) (_cp _cd : Nat) : List Arg :=
  [.int id, .blank, .real local_.x, .real local_.y, .real local_.z]

end NastranWrite
end Vega
