import Verif.NastranWrite.Material

/-! # Properties of shells, solids and beams: writing (`Nastran/NastranWriter.cpp` 801-838) and reading
(`Nastran/NastranParser.cpp` 2099-2155, 2228-2333, 3023-3104) of the cards PSHELL, PSOLID, PBEAM and PBAR

The numbers of the element set and of its main material (`bestId`) are given. -/
namespace Vega
namespace NastranWrite
open Nastran

/-- A `Shell` (Element.h 295-313); `nsm` is `additional_mass`. -/
structure ShellProp where
  id : Int
  material : Int
  thickness : Dbl
  nsm : Dbl
  deriving DecidableEq

/-- The card PSHELL (NastranWriter.cpp 814-823). -/
def pshellArgs (s : ShellProp) : List Arg := [.int s.id, .int s.material, .real s.thickness, .int s.material]

/-- `parsePSHELL` (NastranParser.cpp 3023-3061): warnings do not stop it. -/
def parsePSHELL (c : Cursor) : Outcome (ShellProp × Cursor) := do
  let (id, c) ← nextInt none c
  let (mid1, c) ← nextInt none c
  let (t, c) ← nextDouble (some 0) c
  let (_, c) ← nextInt (some unavailableInt) c
  let (_, c) ← nextDouble (some 1) c
  let (_, c) ← nextInt (some unavailableInt) c
  let (_, c) ← nextDouble (some (833333 / 1000000)) c
  let (nsm, c) ← nextDouble (some 0) c
  let (_, c) ← nextDouble (some unavailable) c
  let (_, c) ← nextDouble (some unavailable) c
  let (_, c) ← nextInt (some unavailableInt) c
  .ok (⟨id, mid1, t, nsm⟩, c)

/-- A `Continuum`: `full` is `ModelType::TRIDIMENSIONAL`, the alternative here is `TRIDIMENSIONAL_SI` (reduced integration). -/
structure SolidProp where
  id : Int
  material : Int
  full : Bool
  deriving DecidableEq

/-- The card PSOLID, or PIHEX for Cosmic Nastran (NastranWriter.cpp 824-838). -/
def psolidArgs (cosmic : Bool) (s : SolidProp) : List Arg :=
  if s.full && !cosmic then
    [.int s.id, .int s.material, .int 0, .text "THREE".toList, .text "GRID".toList, .text "FULL".toList, .text "SMECH".toList]
  else [.int s.id, .int s.material]

/-- The choice of the integration (NastranParser.cpp 3082-3093). -/
def isFull (in_ isop : Nastran.Line) : Bool :=
  if in_ = "BUBBLE".toList && isop = "REDUCED".toList then false
  else if (in_ = "TWO".toList || in_ = "2".toList) && (isop = "FULL".toList || isop = "1".toList) then true
  else if (in_ = "THREE".toList || in_ = "3".toList) && (isop = "FULL".toList || isop = "1".toList) then true
  else false

/-- `parsePSOLID` (NastranParser.cpp 3063-3104). -/
def parsePSOLID (c : Cursor) : Outcome (SolidProp × Cursor) := do
  let (id, c) ← nextInt none c
  let (mid, c) ← nextInt none c
  let (_, c) ← nextInt (some 0) c
  let (in_, c) ← nextString (some "BUBBLE".toList) c
  let (_, c) ← nextString (some "GRID".toList) c
  let (isop, c) ← nextString (some "REDUCED".toList) c
  let (_, c) ← nextString (some "SMECH".toList) c
  .ok (⟨id, mid, isFull in_ isop⟩, c)

/-- A property of shells or of solids. -/
inductive AnyProp where
  | shell (s : ShellProp)
  | solid (s : SolidProp)
  deriving DecidableEq

/-- The commands of the keywords `PSHELL`, `PIHEX` and `PSOLID` (NastranParser.cpp 133-135). -/
def parseProp (keyword : Text) (c : Cursor) : Outcome (AnyProp × Cursor) :=
  if keyword = "PSHELL".toList ∨ keyword = "PIHEX".toList then do
    let (s, c) ← parsePSHELL c
    .ok (.shell s, c)
  else if keyword = "PSOLID".toList then do
    let (s, c) ← parsePSOLID c
    .ok (.solid s, c)
  else .throw

/-- A beam with the constants of its section (`GenericSectionBeam`, Element.h 262-293); `shearY`, `shearZ` are its shear area
factors, `timoshenko` its `BeamModel` (TIMOSHENKO or EULER). -/
structure BeamProp where
  id : Int
  material : Int
  area : Dbl
  iy : Dbl
  iz : Dbl
  j : Dbl
  shearY : Dbl
  shearZ : Dbl
  timoshenko : Bool
  nsm : Dbl
  deriving DecidableEq

/-- The card PBEAM, or PBAR for Cosmic Nastran (NastranWriter.cpp 801-813). -/
def pbeamArgs (b : BeamProp) : List Arg :=
  [.int b.id, .int b.material, .real b.area, .real b.iz, .real b.iy, .real 0, .real b.j]

/-- `n` fields read as reals and not used further. -/
def passReals (d : Dbl) : Nat → Cursor → Outcome Cursor
  | 0, c => .ok c
  | n + 1, c => do
    let (_, c) ← nextDouble (some d) c
    passReals d n c

/-- The intermediate stations (NastranParser.cpp 2283-2291), at most `fuel` turns. -/
def stations : Nat → Cursor → Outcome Cursor
  | 0, _ => .diverges
  | fuel + 1, c =>
    if isEmptyUntilNextKeyword c then .ok c
    else do
      let d ← isNextDouble c
      if d then .ok c
      else do
        let e ← isNextEmpty 1 c
        if e then .ok c
        else do
          let c ← skip 16 c
          stations fuel c

/-- `parsePBEAM` (NastranParser.cpp 2228-2333). -/
def parsePBEAM (c : Cursor) : Outcome (BeamProp × Cursor) := do
  let (id, c) ← nextInt none c
  let (mid, c) ← nextInt none c
  let (a, c) ← nextDouble (some 0) c
  let (iz, c) ← nextDouble (some 0) c
  let (iy, c) ← nextDouble (some 0) c
  let (_, c) ← nextDouble (some 0) c
  let (j, c) ← nextDouble (some 0) c
  let (nsm, c) ← nextDouble (some 0) c
  let c ← passReals 0 8 c
  let c ← stations (c.fields.length + 1) c
  let c ← passReals 1 2 c
  let c ← passReals 0 14 c
  .ok (⟨id, mid, a, iy, iz, j, 0, 0, false, nsm⟩, c)

/-- The inverse of an area factor (NastranParser.cpp 2121-2131). -/
def invFactor (k : Dbl) : Dbl :=
  if isEqual k unavailable then 0 else if isZero k then unavailable else 1 / k

/-- `if (!tok.isEmptyUntilNextKeyword()) tok.skip(1)` (NastranParser.cpp 2107-2108). -/
def skipField (c : Cursor) : Outcome Cursor := if isEmptyUntilNextKeyword c then .ok c else skip 1 c

/-- `parsePBAR` (NastranParser.cpp 2099-2155); the recovery points are not described. -/
def parsePBAR (c : Cursor) : Outcome (BeamProp × Cursor) := do
  let (id, c) ← nextInt none c
  let (mid, c) ← nextInt none c
  let (a, c) ← nextDouble none c
  let (i1, c) ← nextDouble (some 0) c
  let (i2, c) ← nextDouble (some 0) c
  let (j, c) ← nextDouble (some 0) c
  let (nsm, c) ← nextDouble (some 0) c
  let c ← skipField c
  let c ← passReals 0 8 c
  let (k1, c) ← nextDouble (some unavailable) c
  let (k2, c) ← nextDouble (some unavailable) c
  let (_, c) ← nextDouble (some 0) c
  .ok (⟨id, mid, a, i2, i1, j, invFactor k2, invFactor k1, true, nsm⟩, c)

end NastranWrite
end Vega
