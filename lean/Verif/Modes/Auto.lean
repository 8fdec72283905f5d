import Verif.Basic

/-!
# Analyses that are found without a statement (`Abstract/Model.cpp` 2006-2018, 2233-2235)

Only what decides about the type of the analysis and about what it applies: the objectives and the sets that they are in, and the
numbers of the sets of loads and constraints.
-/
namespace Vega
namespace Auto

/-- The types of objectives (Objective.cpp 40-54) that matter here. -/
inductive Kind where
  | strategy
  | search
  | other
  deriving DecidableEq

/-- A set of objectives: the one of the model that holds for all analyses (`commonObjectiveSet`, Model.cpp 39), or one with the type
and the number of the cards. -/
inductive SetName where
  | common
  | numbered (type : Nat) (id : Int)
  deriving DecidableEq

/-- An analysis by its type, with the set that it looks its parameters up in. -/
inductive Analysis where
  | static
  | modal (search : SetName)
  | nonlinear (strategy : SetName)
  deriving DecidableEq

/-- A model: the objectives with their sets, the sets of loads and constraints by their numbers (`none` for the common set, which is
in the list iff it is not empty), and each analysis with the numbers that it refers to. -/
structure State where
  objectives : List (SetName × Kind)
  loadSets : List (Option Int)
  constraintSets : List (Option Int)
  analyses : List (Analysis × List Int × List Int)
  deriving DecidableEq

/-- `addAutoAnalysis` (Model.cpp 2006-2018): the new analysis refers to no set of loads or constraints. -/
def addAuto (s : State) : State :=
  let a : Analysis :=
    if s.objectives.any (fun o => o.2 = .strategy) then .nonlinear .common
    else if s.objectives.any (fun o => o.2 = .search) then .modal .common
    else .static
  { s with analyses := s.analyses ++ [(a, [], [])] }

/-- The part of `Model::finish` (Model.cpp 2233-2235). -/
def finish (auto : Bool) (s : State) : State :=
  if auto ∧ s.analyses = [] then addAuto s else s

/-- `Model::find` of a set of objectives and `getObjectivesByType` (Objective.cpp 73-92). A set is in the model iff something has been
put in it (Model.cpp 397-410, 424-434); this is so for the cards of a file, which create a set only to put an objective in it. -/
def find (s : State) (name : SetName) : Option (List Kind) :=
  if s.objectives.any (fun o => o.1 = name) then some ((s.objectives.filter fun o => o.1 = name).map (·.2)) else none

/-- `getFrequencySearch` (Analysis.cpp 629-633): the pointer is used without a test, and so is the first element. -/
def getSearch (s : State) (name : SetName) : Outcome Kind :=
  match find s name with
  | none => .ub
  | some ks => match ks.filter (· = .search) with
    | [] => .ub
    | k :: _ => .ok k

/-- `getNonLinearStrategy` (AsterWriter.cpp 2222-2232). -/
def getStrategy (strict : Bool) (s : State) (name : SetName) : Outcome Kind :=
  match find s name with
  | none => if strict then .throw else .ub
  | some ks => match ks.filter (· = .strategy) with
    | [] => .ub
    | k :: _ => .ok k

/-- The validation of the analyses (Model.cpp 2382, Analysis.cpp 615-617, 635-644), as far as the objectives are concerned. -/
def validate (s : State) : List (Analysis × List Int × List Int) → Outcome Unit
  | [] => .ok ()
  | (.modal name, _) :: as => do
    let _ ← getSearch s name
    validate s as
  | _ :: as => validate s as

/-- The strategies of the analyses, when the command file of Code_Aster is written (AsterWriter.cpp 358-361, 2474-2476). -/
def writeAster (strict : Bool) (s : State) : List (Analysis × List Int × List Int) → Outcome Unit
  | [] => .ok ()
  | (.nonlinear name, _) :: as => do
    let _ ← getStrategy strict s name
    writeAster strict s as
  | _ :: as => writeAster strict s as

/-- `translate` for Code_Aster (VegaCommandLine.cpp 102-110). -/
def translate (strict : Bool) (s : State) : Outcome State := do
  let s := finish true s
  let _ ← validate s s.analyses
  let _ ← writeAster strict s s.analyses
  .ok s

/-- `getLoadSets` (Analysis.cpp 94-105). -/
def loadsOf (s : State) (a : Analysis × List Int × List Int) : List (Option Int) :=
  (if none ∈ s.loadSets then [none] else []) ++ (a.2.1.map some).filter (· ∈ s.loadSets)

/-- `getConstraintSets` (Analysis.cpp 263-273); a number that is not found is left out here. -/
def constraintsOf (s : State) (a : Analysis × List Int × List Int) : List (Option Int) :=
  (if none ∈ s.constraintSets then [none] else []) ++ (a.2.2.map some).filter (· ∈ s.constraintSets)

end Auto
end Vega
