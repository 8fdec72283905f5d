import Verif.NastranWrite.Line
import Verif.Modes.Search

/-! # The cards `PARAM` (`Nastran/NastranParser_param.cpp`) and what the parameters do -/
namespace Vega
namespace Params

open NastranWrite

/-- A word in the second field of a card. -/
inductive Word where
  | yes | no | full | other
deriving DecidableEq

/-- A card `PARAM` with its fields as the tokenizer gives them, `none` for a blank field (NastranParser_param.cpp 38-56). `ignored`
is a parameter of `IGNORED_PARAMS` (NastranParser.h 904-913), `unknown` any other. -/
inductive Card where
  | alpha1 (re im : Option Dbl)
  | alpha2 (re im : Option Dbl)
  | autospc (w : Option Word)
  | checkel (w : Option Word)
  | g (x : Option Dbl)
  | grdpnt (n : Option Int)
  | hfreq (x : Option Dbl)
  | k6rot (x : Option Dbl)
  | inrel (w : Option Word)
  | lfreq (x : Option Dbl)
  | lgdisp (n : Option Int)
  | nocomps (n : Option Int)
  | patver (x : Option Dbl)
  | prtmaxim (w : Option Word)
  | w3 (x : Option Dbl)
  | wtmass (x : Option Dbl)
  | ignored
  | unknown

/-- The parameters of the model (`Model::parameters`). They are kept as texts; the numbers here are those that `stod`, `stoi` and
`from_string` read in these texts. -/
structure Store where
  rayleighMass : Option (Dbl × Dbl) := none
  rayleighStiffness : Option (Dbl × Dbl) := none
  qualityCheck : Option Word := none
  damping : Option Dbl := none
  upper : Option Dbl := none
  normal : Option Dbl := none
  lower : Option Dbl := none
  large : Option Int := none
  printMaxim : Option Word := none
  radians : Option Dbl := none
  massMultiplier : Option Dbl := none

/-- `to_string_with_precision` (Utility.h 105-111) and back: `fixed` with fifteen digits after the point, whatever the size of the
number. -/
def printed (x : Dbl) : Dbl := (roundEven (x * 10 ^ 15) : Dbl) / 10 ^ 15

/-- `to_string_with_precision` of a complex number (Utility.h 113-119) and `from_string` (Utility.h 121-127). -/
def printedC (z : Dbl × Dbl) : Dbl × Dbl := (printed z.1, printed z.2)

/-- One card: the parameters after it and whether a warning is written; `none` for an error. The functions are in
NastranParser_param.cpp: ALPHA1 58-64, ALPHA2 66-72, AUTOSPC 74-92, CHECKEL 94-105, GRDPNT 107-149, HFREQ 151-160, K6ROT 162-173,
INREL 175-187, LFREQ 189-194, G 196-201, W3 203-208, LGDISP 210-228, NOCOMPS 230-247, PATVER 249-255, PRTMAXIM 257-271, WTMASS
273-276; the dispatch is 287-304. A number 0 of INREL is `no`. `is_equal` of two `int` is their equality. -/
def card (s : Store) : Card → Option (Store × Bool)
  | .alpha1 re im => some ({ s with rayleighMass := some (printedC (re.getD 0, im.getD 0)) }, false)
  | .alpha2 re im => some ({ s with rayleighStiffness := some (printedC (re.getD 0, im.getD 0)) }, false)
  | .autospc w => some (s, decide (w.getD .no = .yes))
  | .checkel w =>
    some (if w.getD .yes = .yes ∨ w.getD .yes = .full then { s with qualityCheck := some (w.getD .yes) } else s, false)
  | .g x => some (if isEqual (x.getD 0) 0 then s else { s with damping := some (printed (x.getD 0)) }, false)
  | .grdpnt n => some (s, decide (n.getD (-1) ≠ -1))
  | .hfreq x =>
    some (if isEqual (x.getD (10 ^ 30)) (10 ^ 30) then s else { s with upper := some (printed (x.getD (10 ^ 30))) }, false)
  | .k6rot x => some ({ s with normal := some (printed (x.getD 100)) }, !isZero (x.getD 100))
  | .inrel w => some (s, decide (w.getD .no ≠ .no))
  | .lfreq x => some (if isEqual (x.getD 0) 0 then s else { s with lower := some (printed (x.getD 0)) }, false)
  | .lgdisp n => some (if n.getD (-1) = -1 then s else { s with large := some (n.getD (-1)) }, false)
  | .nocomps n => some (s, decide (n.getD 1 ≠ -1 ∧ n.getD 1 ≠ 0))
  | .patver x => if isEqual (x.getD 3) 3 then some (s, false) else none
  | .prtmaxim w => some (if w.getD .no = .yes then { s with printMaxim := some .yes } else s, false)
  | .w3 x => some (if isEqual (x.getD 0) 0 then s else { s with radians := some (printed (x.getD 0)) }, false)
  | .wtmass x => some ({ s with massMultiplier := some (printed (x.getD 1)) }, false)
  | .ignored => some (s, false)
  | .unknown => none

/-- The cards of a file. An error (`handleParsingError`, SolverInterfaces.cpp 163-182) ends the translation in strict mode; in the
other modes a message is written and the card is left. The second component counts the messages. -/
def run (strict : Bool) : List Card → Store × Nat → Outcome (Store × Nat)
  | [], r => .ok r
  | c :: cs, (s, n) =>
    match card s c with
    | some (s', w) => run strict cs (s', if w then n + 1 else n)
    | none => if strict then .throw else run strict cs (s, n + 1)

/-- A file. -/
def read (strict : Bool) (cs : List Card) : Outcome (Store × Nat) := run strict cs ({}, 0)

/-! ## What the parameters do -/

/-- The multiplier of masses (Material.cpp 137-141, 224-228; Element.cpp 936-940): the assertion stops the program, or is not
compiled. -/
def multiplier (s : Store) : Outcome Dbl :=
  match s.massMultiplier with
  | none => .ok 1
  | some x => if isZero x then .ub else .ok x

/-- The masses of a model as it is written. -/
inductive Mass where
  /-- the density of an isotropic material, `ElasticNature` (Material.cpp 136-143) -/
  | isotropic (rho : Dbl)
  /-- the density of an orthotropic material, `OrthotropicNature` (Material.cpp 223-230) -/
  | orthotropic (rho : Dbl)
  /-- the density of a hyperelastic material (AsterWriter.cpp 984) -/
  | hyperelastic (rho : Dbl)
  /-- the mass of a point, `NodalMass` (Element.cpp 935-942) -/
  | point (m : Dbl)
  /-- an inertia of a point (AsterWriter.cpp 1214-1217; SystusWriter.cpp 3050-3051) -/
  | inertia (i : Dbl)
  /-- the mass of a `ScalarSpring` (Element.cpp 1249-1251) -/
  | scalar (m : Dbl)

/-- The value given. -/
def Mass.given : Mass → Dbl
  | .isotropic x | .orthotropic x | .hyperelastic x | .point x | .inertia x | .scalar x => x

/-- The value written. -/
def Mass.written (s : Store) : Mass → Outcome Dbl
  | .isotropic x | .orthotropic x => (multiplier s).bind fun k => .ok (if isEqual x unavailable then 0 else x * k)
  | .point x => (multiplier s).bind fun k => .ok (x * k)
  | .hyperelastic x | .inertia x | .scalar x => .ok x

/-- The material models of a material for Code_Aster. -/
inductive Law where
  | elastic | hyperelastic | orthotropic
deriving DecidableEq

/-- `AMOR_ALPHA` and `AMOR_BETA` of a law (AsterWriter.cpp 945-975): only the elastic law has them. A complex factor is an error
(`handleWritingError`, SolverInterfaces.cpp 190-203); in the other modes than strict its real part is written. -/
def rayleigh (strict : Bool) (z : Option (Dbl × Dbl)) : Outcome (Option Dbl) :=
  match z with
  | none => .ok none
  | some (re, im) =>
    if !isZero im && strict then .throw else .ok (if isZero re then none else some re)

/-- See `rayleigh`. -/
def amor (strict : Bool) (s : Store) : Law → Outcome (Option Dbl × Option Dbl)
  | .elastic => (rayleigh strict s.rayleighStiffness).bind fun a => (rayleigh strict s.rayleighMass).bind fun b => .ok (a, b)
  | .hyperelastic | .orthotropic => .ok (none, none)

/-- The factor of the stiffness in the damping matrix `AMST` of a direct frequency response (AsterWriter.cpp 2585-2593); `none`:
there is no such matrix. -/
def structural (s : Store) : Option Dbl :=
  match s.damping, s.radians with
  | some g, some w => if 0 < w then some (g / w) else none
  | _, _ => none

/-- `needsLargeDisplacements` (Model.cpp 826-833). -/
def needsLarge (s : Store) : Bool := decide (s.large.getD 0 ≠ 0)

/-- `VERI_MAIL` (AsterWriter.cpp 675-688): `debug` if the level of messages is at least DEBUG and the mesh has less than a hundred
nodes. The parameter is never `NO` (NastranParser_param.cpp 102-104). -/
def verifyMesh (debug : Bool) (s : Store) : Bool :=
  match s.qualityCheck with
  | some w => decide (w ≠ .no)
  | none => debug

/-- Whether the extreme displacements of a static analysis are printed (AsterWriter.cpp 131-140): the parameter, empty if there is
none, is compared with `NO`. -/
def printsExtremes (s : Store) : Bool := decide (s.printMaxim ≠ some .no)

/-- The cut-off frequencies used by the search of modes (see `Modes.Cutoffs`). -/
def cutoffs (s : Store) : Modes.Cutoffs := ⟨s.lower, s.upper⟩

end Params
end Vega
