import Verif.Nastran.Fields

/-! # Solver names, exit statuses of solvers and runners -/
namespace Vega
namespace Cli
open Nastran

/-- `SolverName` (ConfigurationParameters.h 40-45). -/
inductive SolverName
  | CODE_ASTER | NASTRAN | OPTISTRUCT | SYSTUS
deriving DecidableEq

/-- `SOLVERNAME_BY_SOLVER` (ConfigurationParameters.cpp 93-95). -/
def names : List (SolverName × Line) :=
  [(.NASTRAN, "NASTRAN".toList), (.CODE_ASTER, "ASTER".toList), (.SYSTUS, "SYSTUS".toList),
   (.OPTISTRUCT, "OPTISTRUCT".toList)]

/-- `right.find` on the table of names. -/
def rightFind : List (SolverName × Line) → Line → Option SolverName
  | [], _ => none
  | (n, w) :: l, s => if w = s then some n else rightFind l s

/-- `left.find` on the table of names. -/
def leftFind : List (SolverName × Line) → SolverName → Option Line
  | [], _ => none
  | (n, w) :: l, m => if n = m then some w else leftFind l m

/-- `Solver::fromString` (ConfigurationParameters.cpp 110-120): `throw` stands for
`invalid_argument`. -/
def fromString (name : Line) : Outcome SolverName :=
  let normalized := toUpper (trim name)
  if normalized.isEmpty then .throw
  else match rightFind names normalized with
    | none => .throw
    | some n => .ok n

/-- `Solver::to_str` (ConfigurationParameters.cpp 122-129). -/
def toStr (n : SolverName) : Outcome Line :=
  match leftFind names n with
  | none => .throw
  | some w => .ok w

/-- `Runner::ExitCode` (SolverInterfaces.h 168-176). -/
inductive RunnerCode
  | OK | SOLVER_NOT_FOUND | TRANSLATION_SYNTAX_ERROR | SOLVER_KILLED | SOLVER_EXIT_NOT_ZERO
  | SOLVER_RESULT_NOT_FOUND | TEST_FAIL
deriving DecidableEq

/-- The byte that `convertExecResult` extracts (SolverInterfaces.cpp 248). -/
def highByte (x : BitVec 32) : BitVec 32 := (x &&& 0xFF00#32) >>> 8

/-- `Runner::convertExecResult` (SolverInterfaces.cpp 240-260), with `__GNUC__`. -/
def convertExecResult (x : BitVec 32) : RunnerCode :=
  if x = 0#32 then .OK
  else if highByte x = 127#32 then .SOLVER_NOT_FOUND
  else if (128#32).slt (highByte x) ∧ (highByte x).sle 165#32 then .SOLVER_KILLED
  else if x = (-1 : BitVec 32) then .SOLVER_NOT_FOUND
  else .SOLVER_EXIT_NOT_ZERO

/-- `line.find(word) != string::npos`. -/
def has (word : String) (l : Line) : Bool := decide (word.toList <:+: l)

/-- The loop over a result file (AsterRunner.cpp 98-106, SystusRunner.cpp 162-171). -/
def nook : List Line → RunnerCode → RunnerCode
  | [], c => c
  | l :: rest, c => nook rest (if has "NOOK" l then .TEST_FAIL else c)

/-- The end of `AsterRunner::execSolver` (AsterRunner.cpp 86-115): the status given by `system`, and the
lines of the result file if it can be read. -/
def asterRun (i : BitVec 32) (resu : Option (List Line)) : RunnerCode :=
  match convertExecResult i with
  | .OK =>
    match resu with
    | none => .SOLVER_RESULT_NOT_FOUND
    | some lines => nook lines .OK
  | c => if i = 4#32 then .TRANSLATION_SYNTAX_ERROR else c

/-- The loop over the standard output of Systus (SystusRunner.cpp 109-119). -/
def errors : List Line → RunnerCode → RunnerCode
  | [], c => c
  | l :: rest, c =>
    errors rest (if has "ERROR" l && !has "NO ERROR" l then .SOLVER_EXIT_NOT_ZERO else c)

/-- The loop over the result files of Systus (SystusRunner.cpp 151-173). -/
def nooks : List (List Line) → RunnerCode → RunnerCode
  | [], c => c
  | f :: rest, c => nooks rest (nook f c)

/-- The runs of the data files with the product topaze (SystusRunner.cpp 80-105): `none` when the loop
runs no command, so that the exit code has no value. -/
def topazeRuns : List (BitVec 32) → Option RunnerCode → Option RunnerCode × Bool
  | [], c => (c, false)
  | i :: rest, _ =>
    if convertExecResult i = .OK then topazeRuns rest (some .OK) else (some (convertExecResult i), true)

/-- What Systus leaves in the output directory. -/
structure SystusFiles where
  stdout : List Line
  tit : Bool
  fdb : Bool
  resu : List (List Line)

/-- The end of `SystusRunner::execSolver` (SystusRunner.cpp 108-177). -/
def systusResults (systus : Bool) (f : SystusFiles) (c : RunnerCode) : RunnerCode :=
  let c := errors f.stdout c
  if c = .OK then
    if systus && !f.tit && !f.fdb then .SOLVER_RESULT_NOT_FOUND else nooks f.resu c
  else c

/-- `SystusRunner::execSolver` with the product systus (SystusRunner.cpp 66-78, 108-177). -/
def systusRun (i : BitVec 32) (f : SystusFiles) : RunnerCode :=
  systusResults true f (convertExecResult i)

/-- `SystusRunner::execSolver` with the product topaze (SystusRunner.cpp 79-177). -/
def topazeRun (is : List (BitVec 32)) (f : SystusFiles) : Outcome RunnerCode :=
  match topazeRuns is none with
  | (some c, true) => .ok c
  | (some c, false) => .ok (systusResults false f c)
  | (none, _) => .ub

end Cli
end Vega
