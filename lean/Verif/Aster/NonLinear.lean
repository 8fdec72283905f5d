import Verif.Map
import Verif.Mesh.Bars
import Verif.Value.Steps

/-!
# Nonlinear analyses: the cards `NLPARM` and `NLPCI` (`Nastran/NastranParser.cpp` 2070-2096), the chain of analyses (651-977) and
what is written for Code_Aster (`Aster/AsterWriter.cpp` 358-361, 865-884, 2222-2232, 2404, 2474-2581)

Materials, contacts and the solver are left out. Numbers are exact.
-/
namespace Vega
namespace NonLinear
open Nastran Bars

/-- The two objectives of a set of type `NONLINEAR_STRATEGY` (Objective.cpp 269-276): a number of increments, or an arc length
method, of which nothing is kept. -/
inductive Objective where
  | strategy (increments : Int)
  | arcLength
  deriving DecidableEq

/-- The number of increments, for an objective of type `NONLINEAR_PARAMETERS`. -/
def Objective.count : Objective → Option Int
  | .strategy n => some n
  | .arcLength => none

/-- The sets of objectives, by their numbers; the objectives of a set are in the order of their creation (Objective.cpp 73-92:
the set is sorted by identifiers, which are given in turn). -/
abbrev Sets := Map Int (List Objective)

/-- `parseNLPARM` (NastranParser.cpp 2070-2083). The flag is the warning that the other fields are ignored. -/
def parseNLPARM (c : Cursor) : Outcome (((Int × Objective) × Bool) × Cursor) := do
  let (sid, c) ← nextInt none c
  let (n, c) ← nextInt (some 10) c
  if isEmptyUntilNextKeyword c then .ok (((sid, .strategy n), false), c)
  else .ok (((sid, .strategy n), true), skipToNextKeyword c)

/-- `parseNLPCI` (NastranParser.cpp 2085-2096). -/
def parseNLPCI (c : Cursor) : Outcome (((Int × Objective) × Bool) × Cursor) := do
  let (sid, c) ← nextInt none c
  if isEmptyUntilNextKeyword c then .ok (((sid, .arcLength), false), c)
  else .ok (((sid, .arcLength), true), skipToNextKeyword c)

def readNLPARM (fields : List Line) : Outcome ((Int × Objective) × Bool) := runCard parseNLPARM fields

def readNLPCI (fields : List Line) : Outcome ((Int × Objective) × Bool) := runCard parseNLPCI fields

/-- `getOrCreateObjectiveSet` and the registration of the objective in it (NastranParser.cpp 2072, 2087, Objective.cpp 31-36). -/
def addObjective (s : Sets) (x : Int × Objective) : Sets := Map.set s x.1 ((Map.find s x.1).getD [] ++ [x.2])

/-- The sets after the cards of a file. -/
def allSets (xs : List (Int × Objective)) : Sets := xs.foldl addObjective []

/-- What a subcase asks for: `strategy` is the number after `NLPARM`, `none` for an analysis that is not nonlinear; `loads` are the
load sets, `supports` the sets of constraints without contacts that are not empty. -/
structure Subcase where
  strategy : Option Int
  loads : List Nat
  supports : List Nat
  deriving DecidableEq

/-- An analysis of the model: its identifier, what it asks for and the analysis before it, if any. -/
structure Analysis where
  id : Nat
  case : Subcase
  previous : Option (Nat × Subcase)
  deriving DecidableEq

/-- The analyses in the order of the subcases; the one before is the last one of the model, whatever its type
(NastranParser.cpp 671-674, 973-975). -/
def chain : Nat → Option (Nat × Subcase) → List Subcase → List Analysis
  | _, _, [] => []
  | id, prev, s :: ss => ⟨id, s, prev⟩ :: chain (id + 1) (some (id, s)) ss

/-- `getNonLinearStrategy` (AsterWriter.cpp 2222-2232). Without strict mode the error is only printed, and the null pointer is used;
the first element of an empty set is taken if the set has no strategy. -/
def increments (strict : Bool) (sets : Sets) (sid : Int) : Outcome Int :=
  match Map.find sets sid with
  | none => if strict then .throw else .ub
  | some os =>
    match os.filterMap Objective.count with
    | [] => .ub
    | n :: _ => .ok n

/-- A function given by two points (`DEFI_FONCTION`, `VALE=(x0, y0, x1, y1)`). -/
structure TwoPoints where
  x0 : Dbl
  y0 : Dbl
  x1 : Dbl
  y1 : Dbl
  deriving DecidableEq

/-- A load of the operator (`EXCIT`): a load set with the function that multiplies it, or a set of constraints without one. -/
inductive Excit where
  | load (set : Nat) (f : TwoPoints)
  | support (set : Nat)
  deriving DecidableEq

/-- What is written for a nonlinear analysis. `list` is the list of instants (`DEFI_LIST_REEL`: `DEBUT`, `JUSQU_A`, `NOMBRE`);
when it is `none` nothing is written and the name of the list is empty. `initial` is the result of `ETAT_INIT`. -/
structure Written where
  id : Nat
  list : Option (Dbl × Dbl × Int)
  excit : List Excit
  initial : Option Nat
  deriving DecidableEq

/-- `writeValue` of a range (AsterWriter.cpp 865-884). The end is never the value for missing ends here, but the test is made. -/
def listOf (r : StepRange) : Option (Dbl × Dbl × Int) :=
  if r.isZero then none
  else if isEqual r.end_ unavailable then none
  else some (r.start, r.end_, r.count)

/-- The loads of the analysis before, which go to zero (AsterWriter.cpp 2490-2494, 2501-2506). -/
def fading (previous : Option (Nat × Subcase)) (debut fin : Dbl) : List Excit :=
  match previous with
  | none => []
  | some p => p.2.loads.map fun l => .load l ⟨debut, 1, fin, 0⟩

/-- `writeAnalysis` (AsterWriter.cpp 2404, 2474-2581): nothing of interest for other analyses. -/
def write (strict : Bool) (sets : Sets) (a : Analysis) (debut : Dbl) : Outcome (Option Written × Dbl) :=
  match a.case.strategy with
  | none => .ok (none, debut)
  | some sid => do
    let n ← increments strict sets sid
    let debut := if a.previous = none then 0 else debut
    let fin := debut + 1
    let now := a.case.loads.map fun l => Excit.load l ⟨debut, 0, fin, 1⟩
    .ok (some ⟨a.id, listOf (StepRange.ofCountEnd debut n fin), fading a.previous debut fin ++ now ++ a.case.supports.map .support,
      a.previous.map (·.1)⟩, fin)

/-- The loop of `writeAnalyses` (AsterWriter.cpp 358-361). -/
def writeAll (strict : Bool) (sets : Sets) : Dbl → List Analysis → Outcome (List (Option Written))
  | _, [] => .ok []
  | debut, a :: as => do
    let r ← write strict sets a debut
    let rs ← writeAll strict sets r.2 as
    .ok (r.1 :: rs)

end NonLinear
end Vega
