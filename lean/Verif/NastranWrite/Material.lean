import Verif.Element.Elastic
import Verif.NastranWrite.Spc

/-! # Materials: writing (`Nastran/NastranWriter.cpp` 380-412) and reading (`Nastran/NastranParser.cpp` 1863-1926) of MAT1 -/
namespace Vega
namespace NastranWrite
open Nastran

/-- A value written unless it is `UNAVAILABLE_DOUBLE` (NastranWriter.cpp 392-406). -/
def realOrBlank (x : Dbl) : Arg := if Elastic.blank x then .blank else .real x

/-- The card MAT1 of a material (NastranWriter.cpp 383-408): `none` when it has no elastic nature. The outer `none`: a
constant is not a finite number, and the text written for it is not described. -/
def mat1Args (id : Int) (multiplier : Option Dbl) : Option (Elastic × Dbl) → Option (List Arg)
  | none => some [.int id]
  | some (m, ge) => do
    let g ← m.getG
    let nu ← m.getNu
    some [.int id, .real m.getE, .real g, .real nu, .real (m.getRho multiplier), realOrBlank m.getAlpha,
      realOrBlank m.getTref, realOrBlank ge]

/-- What MAT1 adds: the elastic nature of the material with this number; `none`: a constant is not a finite number. -/
structure Mat1Read where
  id : Int
  nature : Option Elastic
  ge : Dbl

/-- `parseMAT1` (NastranParser.cpp 1863-1926). A material that already has an elastic nature is not described here. -/
def parseMAT1 (c : Cursor) : Outcome (Mat1Read × Cursor) := do
  let (id, c) ← nextInt none c
  let (e, c) ← nextDouble (some unavailable) c
  let (g, c) ← nextDouble (some unavailable) c
  let (nu, c) ← nextDouble (some unavailable) c
  let (rho, c) ← nextDouble (some unavailable) c
  let (a, c) ← nextDouble (some unavailable) c
  let (tref, c) ← nextDouble (some unavailable) c
  let (ge, c) ← nextDouble (some unavailable) c
  let (_, c) ← nextDouble (some unavailable) c
  let (_, c) ← nextDouble (some unavailable) c
  let (_, c) ← nextDouble (some unavailable) c
  let (_, c) ← nextInt (some 0) c
  let m ← Elastic.mat1 e nu g rho a tref
  .ok (⟨id, m, ge⟩, c)

end NastranWrite
end Vega
