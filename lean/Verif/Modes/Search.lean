import Verif.Basic
import Verif.Num

/-! # The search of modes: `EIGRL` and `EIGR` (`Nastran/NastranParser.cpp` 1579-1673), `CALC_MODES` (`Aster/AsterWriter.cpp`
2294-2402, 2672-2710) and the file of Systus (`Systus/SystusDat.cpp` 86-197) -/
namespace Vega
namespace Modes

/-- `BandRange` (Value.h 241-251): `none` for `UNAVAILABLE_DOUBLE` and `UNAVAILABLE_INT`. -/
structure Band where
  start : Option Dbl
  maxsearch : Option Int
  stop : Option Dbl
deriving DecidableEq

/-- The value of a `FrequencySearch` (Objective.h): a band, or one of the other types that the writer for Systus does not
know. -/
inductive Search where
  | band (b : Band)
  | list (fs : List Dbl)

/-- `parseEIGRL` and `parseEIGR` (NastranParser.cpp 1586-1595, 1631-1638): `lower`, `upper`, `nd`; a missing field gives
`UNAVAILABLE`. The other fields do not change the search. -/
def parseBand (lower upper : Option Dbl) (nd : Option Int) : Band :=
  ⟨lower, if nd.isNone && upper.isNone then some 1 else nd, upper⟩

/-- Parameters of the model: `PARAM,LFREQ` and `PARAM,HFREQ` (NastranParser_param.cpp 151-160, 189-194). -/
structure Cutoffs where
  lower : Option Dbl
  upper : Option Dbl

/-! ## Code_Aster -/

/-- The keyword `OPTION` of `CALC_MODES`. -/
inductive AsterOption where
  | separe | plusPetite | centre | bande
deriving DecidableEq

/-- What is written for `CALC_MODES`: the option, `NMAX_FREQ`, the bounds of `FREQ`. -/
structure CalcModes where
  option : AsterOption
  nmax : Option Int
  freq : Option (Dbl × Option Dbl)
deriving DecidableEq

/-- The start of the band (AsterWriter.cpp 2321-2331). -/
def asterStart (c : Cutoffs) (b : Band) : Dbl :=
  match b.start with
  | some f => f
  | none => match c.lower with
    | some f => f
    | none => 0

/-- The case `BAND` of `writeCalcFreq` (AsterWriter.cpp 2319-2365). A band without end is written with the number
`UNAVAILABLE_DOUBLE` (2355: the comparison is with `UNAVAILABLE_INT`), here `none`. -/
def writeBand (buckling power : Bool) (c : Cutoffs) (b : Band) : CalcModes where
  option :=
    if power then .separe
    else if buckling || b.maxsearch.isSome then .plusPetite
    else if b.stop.isNone then .centre
    else .bande
  nmax := b.maxsearch
  freq := if b.maxsearch.isSome then none else if !buckling then some (asterStart c b, b.stop) else none

/-- The bounds of `EXTR_MODE` (AsterWriter.cpp 2700-2709). -/
def extrMode (c : Cutoffs) : Dbl × Dbl := (c.lower.getD 0, c.upper.getD (10 ^ 30))

/-! ## Systus -/

/-- `defaultNbDesiredRoots` (SystusWriter.h 88). -/
def defaultRoots : Int := 100

/-- What is written for `MODE SUBSPACE`: `VECTOR`, and the frequencies after `FREQUENCY` and `STURM FREQUENCY` (`none`:
`SHIFT`). -/
structure Subspace where
  vectors : Int
  sturm : Option (Dbl × Dbl)
deriving DecidableEq

/-- The lower bound (SystusDat.cpp 110-119). -/
def systusLower (c : Cutoffs) (b : Band) : Option Dbl :=
  match b.start with
  | some f => some f
  | none => c.lower

/-- The bounds that are kept (SystusDat.cpp 128-160): a lower bound by itself is dropped, versions before 2017 know no
bounds. -/
def systusBounds (version : Int) (c : Cutoffs) (b : Band) : Option (Dbl × Dbl) :=
  match b.stop with
  | none => none
  | some u =>
    if version < 2017 then none
    else some (match systusLower c b with | some l => l | none => 0, u)

/-- The number of modes (SystusDat.cpp 120). -/
def systusRoots (b : Band) : Int := match b.maxsearch with | none => defaultRoots | some n => n

/-- `writeLinearModalAnalysis` (SystusDat.cpp 86-197). For another type of search `handleWritingError` throws in strict mode
only; then the variables `upperF`, `lowerF`, `nmodes` are read without a value. -/
def writeSubspace (strict : Bool) (version : Int) (c : Cutoffs) : Search → Outcome Subspace
  | .list _ => if strict then .throw else .ub
  | .band b => .ok ⟨systusRoots b, (systusBounds version c b).map fun (l, u) => (1/2 * (l + u), 1/2 * (u - l))⟩

end Modes
end Vega
