import Verif.Basic
import Verif.Num

/-! # Elastic constants: `Abstract/Material.cpp` 103-155 and the `MAT1` card
(`Nastran/NastranParser.cpp` 1863-1890, 1924-1925)

A quotient by zero is an infinity or NaN in C++; here it is `none`. -/
namespace Vega

/-- `ElasticNature` (Material.h 60-68); `ge` is only stored. -/
structure Elastic where
  e : Dbl
  nu : Dbl
  g : Dbl
  rho : Dbl
  alpha : Dbl
  tref : Dbl

namespace Elastic

/-- `is_equal(x, Globals::UNAVAILABLE_DOUBLE)`. -/
def blank (x : Dbl) : Bool := isEqual x unavailable

/-- A quotient of doubles. -/
def quotient (x y : Dbl) : Option Dbl := if y = 0 then none else some (x / y)

/-- The constructor (Material.cpp 103-109). -/
def new (e nu g rho alpha tref : Dbl) : Outcome Elastic :=
  if blank e && blank g then .throw else .ok ⟨e, nu, g, rho, alpha, tref⟩

/-- `getE` (Material.cpp 111-117). -/
def getE (m : Elastic) : Dbl :=
  if blank m.nu && blank m.e then 0
  else if blank m.e then 2 * (1 + m.nu) * m.g else m.e

/-- `getNu` (Material.cpp 119-126). -/
def getNu (m : Elastic) : Option Dbl :=
  if (blank m.nu && blank m.g) || (blank m.nu && blank m.e) then some 0
  else if blank m.nu then (quotient m.e (2 * m.g)).map (· - 1) else some m.nu

/-- `getG` (Material.cpp 128-134). -/
def getG (m : Elastic) : Option Dbl :=
  if blank m.nu && blank m.g then some 0
  else if blank m.g then quotient m.e (2 * (1 + m.nu)) else some m.g

/-- `getRho` (Material.cpp 136-143); the model parameter, when there is one, is given as a
number. -/
def getRho (multiplier : Option Dbl) (m : Elastic) : Dbl :=
  match multiplier with
  | none => if blank m.rho then 0 else m.rho * 1
  | some k => if blank m.rho then 0 else m.rho * k

/-- `getRhoAsForceDensity` (Material.cpp 145-147). -/
def getRhoAsForceDensity (m : Elastic) : Dbl := if blank m.rho then 0 else m.rho

/-- `getAlpha` (Material.cpp 149-151). -/
def getAlpha (m : Elastic) : Dbl := if blank m.alpha then 0 else m.alpha

/-- `getTref` (Material.cpp 153-155). -/
def getTref (m : Elastic) : Dbl := if blank m.tref then 0 else m.tref

/-- The constants `e`, `nu`, `g` in the local variables of `parseMAT1`. -/
structure Card where
  e : Dbl
  nu : Dbl
  g : Dbl

/-- The first adjustment of `parseMAT1` (NastranParser.cpp 1877-1887). -/
def mat1Nu (c : Card) : Option Card :=
  if blank c.nu then
    if blank c.g then some { c with nu := 0, g := 0 }
    else if blank c.e then some { c with nu := 0, e := 0 }
    else (quotient c.e (2 * c.g)).map fun q => { c with nu := q - 1 }
  else some c

/-- The second adjustment of `parseMAT1` (NastranParser.cpp 1888-1891). -/
def mat1E (c : Card) : Card :=
  if blank c.e && !blank c.g && !blank c.nu then { c with e := 2 * (1 + c.nu) * c.g } else c

/-- The third adjustment of `parseMAT1` (NastranParser.cpp 1892-1895). -/
def mat1G (c : Card) : Option Card :=
  if blank c.g && !blank c.e && !blank c.nu then
    (quotient c.e (2 * (1 + c.nu))).map fun q => { c with g := q }
  else some c

/-- `parseMAT1` (NastranParser.cpp 1863-1925) without the fields it ignores. The warning on blank
`E` and `G` does not stop it. `ok none`: a constant is not a finite number. -/
def mat1 (e nu g rho alpha tref : Dbl) : Outcome (Option Elastic) :=
  match (mat1Nu ⟨e, nu, g⟩).bind fun c => mat1G (mat1E c) with
  | none => .ok none
  | some c => do
    let m ← new c.e c.nu c.g rho alpha tref
    .ok (some m)

end Elastic
end Vega
