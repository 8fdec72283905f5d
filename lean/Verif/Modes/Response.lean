import Verif.Value.Tables
import Verif.Value.Steps
import Verif.Map

/-! # Frequency responses: frequencies (`Nastran/NastranParser.cpp` 1724-1791, `Abstract/Analysis.cpp` 690-694, 740-744,
`Aster/AsterWriter.cpp` 801-829, 865-884, `Systus/SystusDat.cpp` 33-48) and damping (`Aster/AsterWriter.cpp` 2893-2925,
`Systus/SystusDat.cpp` 50-84) -/
namespace Vega
namespace Response
open Table (Field Damping)

/-! ## Frequencies -/

/-- `nextDoubles` (NastranTokenizer.cpp 492-498): it stops at the first field that has not the characters of a real
(`isNextDouble`, 250-257). -/
def nextDoubles : List Field → Outcome (List Dbl)
  | .num _ x :: r => (nextDoubles r).bind fun l => .ok (x :: l)
  | .bad :: _ => .throw
  | _ => .ok []

/-- The frequencies of a card, as kept in the model (`FrequencyExcit`, Objective.h 244-267, and the value it refers to). The
type `BAND` is never created. -/
inductive Freqs where
  | list (l : List Dbl)
  | step (r : StepRange)
  | interpolate (start stop : Dbl) (count : Int)
  | spread (start stop : Dbl) (count : Int) (spread : Dbl)

/-- `parseFREQ` (NastranParser.cpp 1724-1735), from the field after the number. -/
def parseFREQ (fs : List Field) : Outcome Freqs := (nextDoubles fs).bind fun l => .ok (.list l)

/-- `parseFREQ1` (NastranParser.cpp 1737-1751). A field is `none` if it is empty. -/
def parseFREQ1 : (start step : Option Dbl) → (count : Option Int) → Outcome Freqs
  | some f1, some df, ndf => .ok (.step (StepRange.ofStepCount f1 df (ndf.getD 1)))
  | _, _, _ => .throw

/-- `parseFREQ4` (NastranParser.cpp 1775-1791). -/
def parseFREQ4 : (f1 f2 spread : Option Dbl) → (nef : Option Int) → Outcome Freqs
  | some f1, some f2, some s, nef => .ok (.spread f1 f2 (nef.getD 1) s)
  | _, _, _, _ => .throw

/-- `getExcitationFrequencies` (Analysis.cpp 690-694 and 740-744): the first card of the set, in the order of reading. Without
the set a null pointer is used, without a card in it the end of a set is read. A set is empty if its cards could not be read: it
is created before the fields are (NastranParser.cpp 1726, 1739, 1755, 1777), and outside of strict mode an error only skips the
card (NastranParser.cpp 562-566). -/
def excitation : Option (List Freqs) → Outcome Freqs
  | none => .ub
  | some [] => .ub
  | some (f :: _) => .ok f

/-- `parseFREQ3` (NastranParser.cpp 1753-1773): only equal steps, without clusters. -/
def parseFREQ3 : (f1 f2 : Option Dbl) → (linear : Bool) → (nef : Option Int) → (cluster : Option Dbl) → Outcome Freqs
  | some f1, some f2, linear, nef, cluster =>
    if linear = false then .throw
    else if isEqual (cluster.getD 1) 1 = false then .throw
    else .ok (.interpolate f1 f2 (nef.getD 10))
  | _, _, _, _, _ => .throw

/-- A card of frequencies with its fields, as in the four functions above. -/
inductive FreqCard where
  | freq (fs : List Field)
  | freq1 (start step : Option Dbl) (count : Option Int)
  | freq3 (f1 f2 : Option Dbl) (linear : Bool) (nef : Option Int) (cluster : Option Dbl)
  | freq4 (f1 f2 spread : Option Dbl) (nef : Option Int)

/-- The function for a card (NastranParser.cpp 100-103). -/
def FreqCard.parse : FreqCard → Outcome Freqs
  | .freq fs => parseFREQ fs
  | .freq1 a b c => parseFREQ1 a b c
  | .freq3 a b c d e => parseFREQ3 a b c d e
  | .freq4 a b c d => parseFREQ4 a b c d

/-- The sets of frequencies after the cards of the file, outside of strict mode. The set of a card is created first; the card is added to it if
it can be read, and left out if not. -/
def readSets : List (Int × FreqCard) → Map Int (List Freqs) → Map Int (List Freqs)
  | [], m => m
  | (n, c) :: cs, m =>
    let old := (m.find n).getD []
    match c.parse with
    | .ok f => readSets cs (m.set n (old ++ [f]))
    | _ => readSets cs (m.set n old)

/-- `DEFI_LIST_REEL`: values, or a number of intervals between two values. -/
inductive ListReel where
  | vale (l : List Dbl)
  | interval (debut jusqua : Dbl) (nombre : Int)

/-- The lists written for Code_Aster (AsterWriter.cpp 801-829, 865-884); `none` if nothing is written. The end of the steps is
not `UNAVAILABLE_DOUBLE` here. -/
def asterList : Freqs → Option ListReel
  | .list l => if l.isEmpty then none else some (.vale l)
  | .step r => if r.isZero then none else some (.interval r.start r.end_ r.count)
  | .interpolate _ _ _ => none
  | .spread _ _ _ _ => none

/-- What is written for Systus: the start, the end and the step. -/
structure Sweep where
  initial : Dbl
  last : Dbl
  step : Dbl

/-- `writeFrequencyExcit` (SystusDat.cpp 33-48); `none` if nothing follows the word `FREQUENCY` (a warning in all modes). -/
def systusSweep : Freqs → Option Sweep
  | .step r => match r.step with
    | some s => some ⟨r.start - s, r.end_, s⟩
    | none => none
  | _ => none

/-! ## Damping -/

/-- The number after `GAMMA` (SystusDat.cpp 56-72). The first point of an empty table does not exist. `none`: infinite. -/
def gamma (d : Damping) : List (Dbl × Dbl) → Outcome (Option Dbl)
  | [] => .ub
  | (_, y) :: _ => match d with
    | .crit => .ok (some y)
    | .g => .ok (some (y * 2))
    | .q => if y = 0 then .ok none else .ok (some (1 / y))

/-- The factor by which the values of the table are multiplied for Code_Aster (AsterWriter.cpp 2901-2915). For `Q` nothing is
written outside of strict mode. -/
def asterFactor (strict : Bool) : Damping → Outcome (Option Dbl)
  | .crit => .ok (some 1)
  | .g => .ok (some 2)
  | .q => if strict then .throw else .ok none

end Response
end Vega
