import Verif.NastranWrite.Property
import Verif.Element.Discrete

/-! # Masses at nodes: reading (`Nastran/NastranParser.cpp` 1178-1245) and writing (`Nastran/NastranWriter.cpp` 838-868) of
the cards CONM1 and CONM2, `NodalMass` (`Abstract/Element.h` 513-548, `Abstract/Element.cpp` 929-966), and what
`Aster/AsterWriter.cpp` 1206-1222 and `Systus/SystusWriter.cpp` 3027-3066 write for it

The number of the node and the coordinate system are kept as numbers. -/
namespace Vega

/-- `NodalMass` (Element.h 513-525), the fields in the order of the constructor (Element.cpp 929-933). -/
structure NodalMass where
  m : Dbl
  ixx : Dbl
  iyy : Dbl
  izz : Dbl
  ixy : Dbl
  iyz : Dbl
  ixz : Dbl
  ex : Dbl
  ey : Dbl
  ez : Dbl
  deriving DecidableEq

namespace NodalMass

/-- `getMass` (Element.cpp 935-942) with the parameter MASS_OVER_FORCE_MULTIPLIER if there is one. -/
def getMass (p : NodalMass) (multiplier : Option Dbl) : Dbl := p.m * multiplier.getD 1

/-- `hasTranslations` (Element.cpp 944-946). -/
def hasTranslations (p : NodalMass) : Bool := !isZero p.m

/-- `hasRotations` (Element.cpp 948-950). -/
def hasRotations (p : NodalMass) : Bool :=
  !isZero p.ixx || !isZero p.iyy || !isZero p.izz || !isZero p.ixy || !isZero p.iyz || !isZero p.ixz

/-- The values of DISCRET for Code_Aster (AsterWriter.cpp 1212-1222): `M_TR_D_N` with ten values, `M_T_D_N` with one. -/
def asterValues (p : NodalMass) (multiplier : Option Dbl) : List Dbl :=
  if p.hasRotations then
    [p.getMass multiplier, p.ixx, p.iyy, p.izz, p.ixy, p.iyz, p.ixz, p.ex, p.ey, p.ez]
  else [p.getMass multiplier]

/-- The values of BEGIN_MASSES for Systus (SystusWriter.cpp 3042-3054); `strict` is the strict mode, in which
`handleWritingError` throws. -/
def systusValues (strict : Bool) (p : NodalMass) (multiplier : Option Dbl) : Outcome (List Dbl) :=
  if (!isZero p.ixy || !isZero p.iyz || !isZero p.ixz) && strict then .throw
  else if !isZero p.ixx || !isZero p.iyy || !isZero p.izz then
    .ok [p.getMass multiplier, p.getMass multiplier, p.getMass multiplier, p.ixx, p.iyy, p.izz]
  else .ok [p.getMass multiplier, p.getMass multiplier, p.getMass multiplier]

end NodalMass

namespace NastranWrite
open Nastran

/-- What CONM2 adds: the number of the element, the node, the coordinate system and the mass. -/
structure Conm2Read where
  id : Int
  node : Int
  cid : Int
  mass : NodalMass
  deriving DecidableEq

/-- The coordinate system that is kept by CONM1 (NastranParser.cpp 1181-1185) and first by CONM2. -/
def cidOf (ci : Int) : Int := if ci = -1 then 0 else ci

/-- `parseCONM2` (NastranParser.cpp 1209-1245); warnings do not stop it. -/
def parseCONM2 (c : Cursor) : Outcome (Conm2Read × Cursor) := do
  let (eid, c) ← nextInt none c
  let (g, c) ← nextInt none c
  let (ci, c) ← nextInt (some 0) c
  let (mass, c) ← nextDouble none c
  let (x1, c) ← nextDouble (some 0) c
  let (x2, c) ← nextDouble (some 0) c
  let (x3, c) ← nextDouble (some 0) c
  let cid := if cidOf ci ≠ 0 ∧ (!isZero x1 || !isZero x2 || !isZero x3) then 0 else cidOf ci
  let c ← skip 1 c
  let (i11, c) ← nextDouble (some 0) c
  let (i21, c) ← nextDouble (some 0) c
  let (i22, c) ← nextDouble (some 0) c
  let (i31, c) ← nextDouble (some 0) c
  let (i32, c) ← nextDouble (some 0) c
  let (i33, c) ← nextDouble (some 0) c
  -- the arguments of the constructor, in this order
  .ok (⟨eid, g, cid, ⟨mass, i11, i22, i33, -i21, -i31, -i32, x1, x2, x3⟩⟩, c)

/-- The card CONM2 of a mass at one node (NastranWriter.cpp 858-868). -/
def conm2Args (id node : Int) (multiplier : Option Dbl) (p : NodalMass) : List Arg :=
  [.int id, .int node, .int 0, .real (p.getMass multiplier)]

/-- What CONM1 adds. -/
structure Conm1Read where
  id : Int
  node : Int
  cid : Int
  point : DiscretePoint

/-- A row of the matrix of CONM1 (NastranParser.cpp 1196-1202), at the columns that are left. -/
def conm1Row (row : Nat) : List Nat → DiscretePoint → Cursor → Outcome (DiscretePoint × Cursor)
  | [], p, c => .ok (p, c)
  | col :: cols, p, c => do
    let r ← Dof.findByPosition row
    let k ← Dof.findByPosition col
    if ← isNextDouble c then
      let (v, c) ← nextDouble (some 0) c
      let p ← p.add .mass r k v
      conm1Row row cols p c
    else .ok (p, c)

/-- The rows that are left (NastranParser.cpp 1194-1203). -/
def conm1Rows : List Nat → DiscretePoint → Cursor → Outcome (DiscretePoint × Cursor)
  | [], p, c => .ok (p, c)
  | row :: rows, p, c => do
    let (p, c) ← conm1Row row (List.range (row + 1)) p c
    conm1Rows rows p c

/-- `parseCONM1` (NastranParser.cpp 1178-1207). -/
def parseCONM1 (c : Cursor) : Outcome (Conm1Read × Cursor) := do
  let (eid, c) ← nextInt none c
  let (g, c) ← nextInt none c
  let (ci, c) ← nextInt (some 0) c
  let (p, c) ← conm1Rows (List.range 5) (DiscretePoint.new .SYMMETRIC) c
  .ok (⟨eid, g, cidOf ci, p⟩, c)

/-- The entries of CONM1 (NastranWriter.cpp 849-855) for a matrix `f`, at the pairs of row and column that are left. -/
def conm1Entries (f : Dof → Dof → Dbl) : List (Nat × Nat) → Outcome (List Arg)
  | [] => .ok []
  | (row, col) :: l => do
    let r ← Dof.findByPosition row
    let c ← Dof.findByPosition col
    let args ← conm1Entries f l
    .ok (.real (f r c) :: args)

/-- `DiscretePoint::hasStiffness`, `hasMass`, `hasDamping` (Element.cpp 513-523). -/
def hasQuantity (p : DiscretePoint) (q : Quantity) : Bool := !(p.matrix q).isEmpty && !(p.matrix q).isZeroMatrix

/-- The card CONM1 of a point at one node (NastranWriter.cpp 838-857): the test before it is for the strict mode. -/
def conm1Args (strict : Bool) (id node : Int) (p : DiscretePoint) : Outcome (List Arg) :=
  if (hasQuantity p .stiffness || hasQuantity p .damping) && strict then .throw
  else do
    let args ← conm1Entries (p.matrix .mass).findComponent
      ((List.range 5).flatMap fun row => (List.range row).map fun col => (row, col))
    .ok ([.int id, .int node, .int 0] ++ args)

end NastranWrite
end Vega
