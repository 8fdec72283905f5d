import Mathlib.Analysis.Real.Pi.Bounds
import Verif.Basic
import Verif.Num

/-!
# Cross sections of beams: `Abstract/Element.h` 166-300, `Abstract/Element.cpp` 204-353, 968-1046,
and the `PBARL`, `PBEAML` cards (`Nastran/NastranParser.cpp` 2157-2226, 2335-2405)

Dimensions are exact reals; `M_PI` is the number π.
-/
namespace Vega

/-- `is_equal` (Utility.h 71-73) on exact reals. -/
def IsEqualR (x y : ℝ) : Prop := |x - y| ≤ ((tol : ℚ) : ℝ) * max 1 (max |x| |y|)

/-- The kinds of beams with dimensions (Element.h 187-293). -/
inductive Section where
  /-- `CircularSectionBeam` -/
  | circular (radius : ℝ)
  /-- `TubeSectionBeam` -/
  | tube (radius thickness : ℝ)
  /-- `RectangularSectionBeam` -/
  | rectangular (width height : ℝ)
  /-- `ISectionBeam` -/
  | i (upperFlangeWidth lowerFlangeWidth upperFlangeThickness lowerFlangeThickness beamHeight
      webThickness : ℝ)

namespace Section
open Real

/-- `getAreaCrossSection` (Element.cpp 214-216, 249-251, 281-283, 977-986). -/
noncomputable def area : Section → ℝ
  | circular r => π * r * r
  | tube r t => π * (r ^ 2 - t ^ 2)
  | rectangular w h => w * h
  | i h1 h3 e1 e3 bh e2 => h1 * e1 + (bh - e1 - e3) * e2 + h3 * e3

/-- `getMomentOfInertiaY` (Element.cpp 218-220, 253-255, 285-287, 988-997). -/
noncomputable def inertiaY : Section → ℝ
  | circular r => r ^ 4 * π / 4
  | tube r t => (r ^ 4 - t ^ 4) * π / 4
  | rectangular w h => h * w ^ 3 / 12
  | i h1 h3 e1 e3 bh e2 => (h1 ^ 3 * e1 + h3 ^ 3 * e3 + (bh - e1 - e3) * e2 ^ 3) / 12

/-- `getMomentOfInertiaZ` (Element.cpp 222-224, 257-259, 289-291, 999-1016). -/
noncomputable def inertiaZ : Section → Outcome ℝ
  | circular r => .ok (circular r).inertiaY
  | tube r t => .ok (tube r t).inertiaY
  | rectangular w h => .ok (h ^ 3 * w / 12)
  | i h1 h3 e1 e3 bh e2 =>
    open Classical in
    if ¬ IsEqualR e1 e3 then .throw
    else if ¬ IsEqualR h1 h3 then .throw
    else .ok ((bh - e1 - e3) ^ 3 * e2 / 12 + 2 * (e1 ^ 3 * h1) / 12 +
      2 * (e1 * h1) * ((bh - e1 - e3) + e1) ^ 2 / 4)

/-- `getTorsionalConstant` (Element.cpp 226-229, 261-264, 293-302, 1018-1029). For a rectangle it
divides by the width; `none` stands for the NaN or the infinity of a null width. -/
noncomputable def torsion : Section → Option ℝ
  | circular r => some (r ^ 4 * π / 2)
  | tube r t => some ((r ^ 4 - t ^ 4) * π / 2)
  | rectangular w h =>
    open Classical in
    if w = 0 then none
    else some (w * h ^ 3 * (1 / 3 - 0.21 * h * (1 - h ^ 4 / (12 * w ^ 4)) / w))
  | i h1 h3 e1 e3 bh e2 => some ((h1 * e1 ^ 3 + (bh - e1 - e3) * e2 ^ 3 + h3 * e3 ^ 3) / 3)

/-- The sections of the `PBARL` and `PBEAML` cards by their `TYPE` and dimensions in the order of
the card (NastranParser.cpp 2169-2207, 2348-2386). -/
inductive Card where
  | bar (dim1 dim2 : ℝ)
  | rod (dim1 : ℝ)
  | tube (dim1 dim2 : ℝ)
  | i (dim1 dim2 dim3 dim4 dim5 dim6 : ℝ)

/-- The section built for a card: `BAR` (NastranParser.cpp 2170-2174, 2349-2353), `ROD` (2182-2184,
2360-2362), `TUBE` (2191-2194, 2369-2372), `I` (2200-2209, 2378-2388). -/
def ofCard : Card → Section
  | .bar width height => rectangular width height
  | .rod radius => circular radius
  | .tube extRadius intRadius => tube intRadius (extRadius - intRadius)
  | .i beamHeight lowerFlangeWidth upperFlangeWidth webThickness lowerFlangeThickness
      upperFlangeThickness =>
    i upperFlangeWidth lowerFlangeWidth upperFlangeThickness lowerFlangeThickness beamHeight
      webThickness

/-- What `AsterWriter::writeAffeCaraElemPoutre` (AsterWriter.cpp 1376-1436) writes for a beam that
is not a truss: the keywords `SECTION`, `CARA` and the values `VALE`. The general section also
gives the shear coefficients, left out here. -/
inductive AsterSection where
  /-- `SECTION='RECTANGLE', CARA=('HY','HZ')` -/
  | rectangle (hy hz : ℝ)
  /-- `SECTION='CERCLE', CARA=('R')` -/
  | cercle (r : ℝ)
  /-- `SECTION='CERCLE', CARA=('R','EP')` -/
  | cercleEp (r ep : ℝ)
  /-- `SECTION='GENERALE', CARA=('A','IY','IZ','JX',…)` -/
  | generale (a iy iz jx : ℝ)

/-- `numeric_limits<double>::epsilon()`: 2^-52. -/
noncomputable def epsilon : ℝ := 1 / 2 ^ 52

/-- `writeAffeCaraElemPoutre` (AsterWriter.cpp 1376-1436). -/
noncomputable def writeAster : Section → Outcome AsterSection
  | rectangular w h => .ok (.rectangle h w)
  | circular r => .ok (.cercle r)
  | tube r t => .ok (.cercleEp r t)
  | i h1 h3 e1 e3 bh e2 => do
    let s := i h1 h3 e1 e3 bh e2
    let iz ← s.inertiaZ
    match s.torsion with
    | none => .throw
    | some jx =>
      .ok (.generale (max epsilon s.area) (max epsilon s.inertiaY) (max epsilon iz) (max epsilon jx))

end Section
end Vega
