import Verif.Mesh.Bars
import Verif.Modes.Search

/-!
# Cards that ask for modes: `Nastran/NastranParser.cpp` 1489-1673

What `EIGR`, `EIGRL`, `EIGB` and `EIGC` are read as, which of them an analysis uses (`Abstract/Analysis.cpp` 629-633) and the
normalisation of the modes that is written (`Aster/AsterWriter.cpp` 2302-2317, `Systus/SystusDat.cpp` 165-180). What is done
with the band is the subject of `Verif.Modes.Search`.
-/
namespace Vega
namespace ModeCards
open Nastran Modes

/-- `FrequencySearch::NormType` (Objective.h 204-207). -/
inductive Norm where
  | mass | max
  deriving DecidableEq

/-- `ComplexFrequencySearch::ModalSolver` (Objective.h 228-232). -/
inductive Solver where
  | arno | hess | clan
  deriving DecidableEq

/-- What a card adds to the model: a `FrequencySearch` in a set of type `METHOD`, or a `ComplexFrequencySearch` in a set of type
`CMETHOD` (whose norm is always the same). -/
inductive Entry where
  | search (set : Int) (band : Band) (norm : Norm)
  | complex (set : Int) (number : Int) (solver : Solver)
  deriving DecidableEq

/-- The keywords (NastranParser.cpp 93-96). -/
inductive Keyword where
  | eigb | eigc | eigr | eigrl
  deriving DecidableEq

/-- An integer compared with `UNAVAILABLE_INT`. -/
def maybeInt (n : Int) : Option Int := if n = Bars.noInt then none else some n

/-- A number compared with `UNAVAILABLE_DOUBLE` by `is_equal`. -/
def maybeReal (x : Dbl) : Option Dbl := if isEqual x unavailable then none else some x

/-- The word for the norm (NastranParser.cpp 1551-1559, 1600-1608, 1656-1664): a warning says that `MASS` is assumed for other
words, but `MAX` is. -/
def normOf (w : Line) : Norm :=
  if w = "MASS".toList then .mass else if w = "MAX".toList then .max else .max

/-- `parseEIGRL` (NastranParser.cpp 1628-1673); the warnings (1647, 1651, 1662) are left out. -/
def parseEIGRL (c : Cursor) : Outcome (Entry × Cursor) := do
  let (sid, c) ← nextInt none c
  let (lower, c) ← nextDouble (some unavailable) c
  let (upper, c) ← nextDouble (some unavailable) c
  let (nd, c) ← nextInt (some Bars.noInt) c
  let (_, c) ← nextInt (some Bars.noInt) c
  let (_, c) ← nextInt (some Bars.noInt) c
  let (_, c) ← nextDouble (some unavailable) c
  let (w, c) ← nextString (some "MASS".toList) c
  .ok (.search sid (parseBand (maybeReal lower) (maybeReal upper) (maybeInt nd)) (normOf w), c)

/-- `parseEIGR` (NastranParser.cpp 1579-1626), in strict mode; the warnings (1606, 1611, 1615) are left out. -/
def parseEIGR (c : Cursor) : Outcome (Entry × Cursor) := do
  let (sid, c) ← nextInt none c
  let (method, c) ← nextString (some []) c
  if method ≠ "LAN".toList then .throw
  else do
    let (lower, c) ← nextDouble (some unavailable) c
    let (upper, c) ← nextDouble (some unavailable) c
    let (_, c) ← nextInt (some Bars.noInt) c
    let (nd, c) ← nextInt (some Bars.noInt) c
    let c ← skip 2 c
    let (w, c) ← nextString (some "MASS".toList) c
    let (_, c) ← nextInt (some Bars.noInt) c
    let (_, c) ← nextInt (some Bars.noInt) c
    .ok (.search sid (parseBand (maybeReal lower) (maybeReal upper) (maybeInt nd)) (normOf w), c)

/-- `parseEIGB` (NastranParser.cpp 1531-1577); the warnings (1541, 1557, 1562, 1566) are left out. -/
def parseEIGB (c : Cursor) : Outcome (Entry × Cursor) := do
  let (sid, c) ← nextInt none c
  let (_, c) ← nextString (some []) c
  let (lower, c) ← nextDouble (some unavailable) c
  let (upper, c) ← nextDouble (some unavailable) c
  let (_, c) ← nextInt (some Bars.noInt) c
  let (ndp, c) ← nextInt (some Bars.noInt) c
  let (_, c) ← nextInt (some Bars.noInt) c
  let c ← skip 2 c
  let (w, c) ← nextString (some "MASS".toList) c
  let (_, c) ← nextInt (some Bars.noInt) c
  let (_, c) ← nextInt (some Bars.noInt) c
  .ok (.search sid (parseBand (maybeReal lower) (maybeReal upper) (maybeInt ndp)) (normOf w), c)

/-- The method of `EIGC` (NastranParser.cpp 1493-1504). -/
def solverOf (w : Line) : Solver :=
  if w = "ARNO".toList then .arno else if w = "HESS".toList then .hess else if w = "CLAN".toList then .clan else .arno

/-- `parseEIGC` (NastranParser.cpp 1489-1529), in strict mode; the warning (1502) is left out. -/
def parseEIGC (c : Cursor) : Outcome (Entry × Cursor) := do
  let (sid, c) ← nextInt none c
  let (method, c) ← nextString (some "ARNO".toList) c
  let (norm, c) ← nextString (some "MAX".toList) c
  if norm ≠ "MAX".toList then .throw
  else do
    let (_, c) ← nextInt (some Bars.noInt) c
    let (_, c) ← nextInt (some Bars.noInt) c
    let (_, c) ← nextDouble (some (1 / 1000000)) c
    let (nd, c) ← nextInt none c
    .ok (.complex sid nd (solverOf method), c)

/-- The command of a keyword (NastranParser.cpp 93-96). -/
def command : Keyword → Cursor → Outcome (Entry × Cursor)
  | .eigb => parseEIGB
  | .eigc => parseEIGC
  | .eigr => parseEIGR
  | .eigrl => parseEIGRL

structure Card where
  keyword : Keyword
  fields : List Line

/-- A card of the bulk section, in strict mode. -/
def read (c : Card) : Outcome Entry := Bars.runCard (command c.keyword) c.fields

/-- The cards of a file, one after the other; what they add is kept in the order of the ids. -/
def readAll : List Card → Outcome (List Entry)
  | [] => .ok []
  | c :: cs => do
    let e ← read c
    let es ← readAll cs
    .ok (e :: es)

/-- The searches of a set of type `METHOD`: `ObjectiveSet::getObjectivesByType` (Objective.cpp 83-92). -/
def ofSet (es : List Entry) (set : Int) : List (Band × Norm) :=
  es.filterMap fun e => match e with
    | .search s b n => if s = set then some (b, n) else none
    | .complex .. => none

/-- `LinearModal::getFrequencySearch` (Analysis.cpp 629-633): the set is not looked for again (a null pointer is used when there
is none), and the first of its searches is taken without looking whether there is one. -/
def search (es : List Entry) (set : Int) : Outcome (Band × Norm) :=
  match ofSet es set with
  | [] => .ub
  | r :: _ => .ok r

/-- The value of `NORME` in `NORM_MODE` (AsterWriter.cpp 2303-2317), none for buckling. -/
def asterNorm (buckling : Bool) (n : Norm) : Option String :=
  if buckling then none else match n with
    | .mass => some "MASS_GENE"
    | .max => some "TRAN_ROTA"

/-- What is written after the command for the modes of Systus (SystusDat.cpp 165-180). -/
def systusNorm : Norm → String
  | .mass => " NORM MASS"
  | .max => ""

/-- `writeCalcFreq` (AsterWriter.cpp 2294-2402) for the cards of a file, as far as the band and the norm go. -/
def writeAster (buckling power : Bool) (cut : Cutoffs) (es : List Entry) (set : Int) : Outcome (CalcModes × Option String) := do
  let (b, n) ← search es set
  .ok (writeBand buckling power cut b, asterNorm buckling n)

/-- `writeLinearModalAnalysis` (SystusDat.cpp 86-197) for the cards of a file, as far as the band and the norm go. -/
def writeSystus (version : Int) (cut : Cutoffs) (es : List Entry) (set : Int) : Outcome (Subspace × String) := do
  let (b, n) ← search es set
  let s ← writeSubspace true version cut (.band b)
  .ok (s, systusNorm n)

end ModeCards
end Vega
