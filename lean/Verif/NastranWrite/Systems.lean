import Verif.Geom.Cord2
import Verif.NastranWrite.Grid

/-! # Coordinate systems of Nastran: reading of CORD1R, CORD2C, CORD2R and CORD2S (`Nastran/NastranParser.cpp` 1247-1318), writing
(`Nastran/NastranWriter.cpp` 1037-1058) -/
namespace Vega
namespace NastranWrite
open Nastran

/-- What is on a card CORD2C, CORD2R or CORD2S: its number, that of the system of reference, and the points A, B, C. -/
structure Cord2 where
  cid : Int
  rid : Int
  a : V3
  b : V3
  c : V3
  deriving DecidableEq

/-- Three coordinates (NastranParser.cpp 1267-1269, 1286-1288, 1307-1309). -/
def nextPoint (c : Cursor) : Outcome (V3 × Cursor) := do
  let (x, c) ← nextDouble (some 0) c
  let (y, c) ← nextDouble (some 0) c
  let (z, c) ← nextDouble (some 0) c
  .ok (⟨x, y, z⟩, c)

/-- `parseCORD2C`, `parseCORD2R` and `parseCORD2S` up to the axes (NastranParser.cpp 1259-1270, 1280-1289, 1299-1310). -/
def parseCORD2 (c : Cursor) : Outcome (Cord2 × Cursor) := do
  let (cid, c) ← nextInt none c
  let (rid, c) ← nextInt (some 0) c
  let (p, c) ← nextPoint c
  let (q, c) ← nextPoint c
  let (r, c) ← nextPoint c
  .ok (⟨cid, rid, p, q, r⟩, c)

/-- The coordinates as real numbers. -/
noncomputable def V3.toVec (v : V3) : Vec := ⟨v.x, v.y, v.z⟩

/-- The system made of the card (NastranParser.cpp 1272-1276, 1291-1295, 1312-1316). The reference with the number 0 is the global
system. -/
noncomputable def Cord2.system (kind : CsKind) (r : Cord2) : CS :=
  CS.cord2 kind r.a.toVec r.b.toVec r.c.toVec (if r.rid = 0 then none else some r.rid.toNat)

/-- What is on a card CORD1R: the numbers of the system and of its three nodes. -/
structure Cord1 where
  cid : Int
  a : Int
  b : Int
  c : Int
  deriving DecidableEq

/-- The loop of `parseCORD1R` (NastranParser.cpp 1249-1256), at most `fuel` turns. -/
def cord1Loop : Nat → Cursor → Outcome (List Cord1 × Cursor)
  | 0, _ => .diverges
  | n + 1, c => do
    if ← isNextInt c then
      let (cid, c) ← nextInt none c
      let (p, c) ← nextInt none c
      let (q, c) ← nextInt none c
      let (r, c) ← nextInt none c
      let (more, c) ← cord1Loop n c
      .ok (⟨cid, p, q, r⟩ :: more, c)
    else .ok ([], c)

/-- `parseCORD1R` (NastranParser.cpp 1247-1257): every turn reads a field, so these turns are enough. -/
def parseCORD1R (c : Cursor) : Outcome (List Cord1 × Cursor) := cord1Loop (c.fields.length + 1) c

/-- The name of the card for a system (NastranWriter.cpp 1039-1057): relative ones are passed over; the `coordType` of spherical
systems is that of cylindrical ones (CoordinateSystem.cpp 245). -/
def cordName : CsKind → Option Text
  | .cartesian => some "CORD2R".toList
  | .cylindrical => some "CORD2C".toList
  | .spherical => some "CORD2C".toList
  | .orientation => none

/-- The fields of the card (NastranWriter.cpp 1045, 1049, 1053): the number and the origin. -/
def cordArgs (id : Int) (origin : V3) : List Arg :=
  [.int id, .real origin.x, .real origin.y, .real origin.z]

end NastranWrite
end Vega
