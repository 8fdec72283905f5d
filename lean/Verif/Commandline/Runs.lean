import Verif.Commandline.Solver

/-! # The files of a translation and of a run

The names of the files that the writers make (`Aster/AsterModel.cpp` 72-91, `Aster/AsterWriter.cpp` 74-123, `Systus/SystusModel.cpp`
48-72, `Systus/SystusWriter.cpp` 361-415, `Nastran/NastranWriter.cpp` 176-196), and what the runners do in the output directory
(`Aster/AsterRunner.cpp` 41-117, `Systus/SystusRunner.cpp` 37-177, `Abstract/SolverInterfaces.cpp` 216-238). Only the output directory
is described: a file is its name in it. Messages and the directory of the other results of Code_Aster (AsterRunner.cpp 55-70) are left
out. -/
namespace Vega
namespace Runs
open Nastran (Line)
open Cli (RunnerCode SystusFiles convertExecResult asterRun systusResults)

/-! ## Names -/

/-- `substr(0, rfind('.'))`, the whole text if there is no point: `stripExtension` (SolverInterfaces.cpp 216-225) and `stem()` of the
name of a file that is neither `.` nor `..`. -/
def strip (name : Line) : Line :=
  if '.' ∈ name then (name.reverse.dropWhile (· ≠ '.')).tail.reverse else name

/-- The name before the extension (AsterModel.cpp 74-83, SystusModel.cpp 59-72, NastranWriter.cpp 179-188): `other` is what is taken
for an empty name. -/
def baseName (other name : Line) : Line := if name.isEmpty then other else strip name

/-- `AsterModel::getOutputFileName` (AsterModel.cpp 72-91), in the output directory. -/
def asterName (name ext : Line) : Line := baseName "code_aster".toList name ++ ext

/-- The files that the writer for Code_Aster opens (AsterWriter.cpp 74-76, 81, 89, 99). -/
def asterWrites (name : Line) : List Line :=
  [asterName name ".export".toList, asterName name ".comm".toList, asterName name ".med".toList]

/-- The files of the study in the export file: kind, name, whether it is a result, unit (AsterWriter.cpp 116-120). -/
def asterExport (name : Line) : List (Line × Line × Bool × Nat) :=
  [("comm".toList, asterName name ".comm".toList, false, 1), ("mail".toList, asterName name ".med".toList, false, 20),
    ("mess".toList, asterName name ".mess".toList, true, 6), ("resu".toList, asterName name ".resu".toList, true, 8),
    ("rmed".toList, asterName name ".rmed".toList, true, 80)]

/-- A number in decimal notation: `to_string`. -/
def number (n : Nat) : Line := (Nat.repr n).toList

/-- `SystusModel::getOutputFileName` (SystusModel.cpp 48-57). -/
def systusName (name ext : Line) : Line := baseName "systus".toList name ++ ext

/-- The files that the writer for Systus opens, but for those of matrices (SystusWriter.cpp 362-364, 381, 397): `cases` subcases. -/
def systusWrites (systus : Bool) (name : Line) (cases : Nat) : List Line :=
  (if systus then [systusName name "_ALL.DAT".toList] else []) ++
    (List.range cases).flatMap fun i =>
      [systusName name ("_SC".toList ++ number (i + 1) ++ "_DATA1.ASC".toList), systusName name ("_SC".toList ++ number (i + 1) ++ ".DAT".toList)]

/-- The files that the file of all subcases asks Systus to read (SystusWriter.cpp 406-408). -/
def systusReads (name : Line) (cases : Nat) : List Line :=
  (List.range cases).map fun i => systusName name ("_SC".toList ++ number (i + 1) ++ ".DAT".toList)

/-- `getNasFilename` (NastranWriter.cpp 176-196). -/
def nastranWrites (name : Line) : List Line := [baseName "nastran".toList name ++ "_vg.nas".toList]

/-! ## The output directory -/

/-- A file of the directory: its lines, whether it is a regular file, and whether it can be removed. -/
structure File where
  lines : List Line
  regular : Bool
  removable : Bool
  deriving DecidableEq

/-- The directory, in the order in which it is gone through. -/
abbrev Dir := List (Line × File)

/-- The file of a name. -/
def lookup : Dir → Line → Option File
  | [], _ => none
  | (n, f) :: d, m => if n = m then some f else lookup d m

/-- `deletePreviousResultFiles` (SolverInterfaces.cpp 227-238): a file that cannot be removed is left, with a message. -/
def deletePrevious (base : Line) (exts : List Line) (d : Dir) : Dir :=
  d.filter fun p => !((exts.map (base ++ ·)).contains p.1 && p.2.removable)

/-- A solver: what a command makes of the directory, and the status that `system` gives. -/
abbrev Solver := Line → Dir → BitVec 32 × Dir

/-! ## Code_Aster -/

/-- What the runner takes from the configuration. -/
structure Config where
  server : Line
  command : Line
  path : Line

/-- The command (AsterRunner.cpp 45-52); `full` is the path of the export file. -/
def asterCommand (c : Config) (full fname : Line) : Line :=
  let cmd := (if c.command.isEmpty then "as_run".toList else c.command) ++ " ".toList ++ full ++ " > ".toList ++ fname ++
    ".stdout 2> ".toList ++ fname ++ ".stderr".toList
  if c.path ≠ ".".toList then "cd ".toList ++ c.path ++ " && ".toList ++ cmd else cmd

/-- The files of earlier runs that are removed (AsterRunner.cpp 53). -/
def asterResults : List Line := [".mess".toList, ".resu".toList, ".rmed".toList, ".stdout".toList, ".stderr".toList]

/-- `AsterRunner::execSolver` (AsterRunner.cpp 41-117): what is reported, and the directory afterwards. `full` is the path of the export
file and `export` its name. For another server an exception is thrown (78), after the removal of the files. -/
def asterExec (c : Config) (solver : Solver) (full «export» : Line) (d : Dir) : Outcome RunnerCode × Dir :=
  let base := strip «export»
  let d := deletePrevious base asterResults d
  if c.server.isEmpty ∨ c.server = "localhost".toList ∨ c.server = "127.0.0.1".toList then
    let r := solver (asterCommand c full base) d
    (.ok (asterRun r.1 ((lookup r.2 (base ++ ".resu".toList)).map (·.lines))), r.2)
  else (.throw, d)

/-! ## Systus -/

/-- `fname.substr(0, fname.find("_ALL"))` (SystusRunner.cpp 42). -/
def beforeAll : Line → Line
  | [] => []
  | c :: t => if "_ALL".toList.isPrefixOf (c :: t) then [] else c :: beforeAll t

/-- A result of an earlier run (SystusRunner.cpp 53-56). -/
def oldResult (pre name : Line) : Bool :=
  pre.isPrefixOf name && (".TIT".toList.isSuffixOf name || ".fdb".toList.isSuffixOf name || ".RESU".toList.isSuffixOf name)

/-- The second condition of the removal (SystusRunner.cpp 60). A name that begins so has more than three characters: `rfind` has found
something. -/
def oldData (name : Line) : Bool := "SYSTUS".toList.isPrefixOf name && ".DAT".toList.isSuffixOf name

/-- The removal of earlier results (SystusRunner.cpp 50-63): an exception is thrown for a file that cannot be removed. -/
def systusClean (pre : Line) : Dir → Outcome Dir
  | [] => .ok []
  | (n, f) :: d =>
    if f.regular && (oldResult pre n || oldData n) then
      if f.removable then systusClean pre d else .throw
    else
      match systusClean pre d with
      | .ok e => .ok ((n, f) :: e)
      | .throw => .throw
      | .ub => .ub
      | .diverges => .diverges

/-- The command for a data file (SystusRunner.cpp 67-70, 92-95). -/
def systusCommand (path file fname : Line) : Line :=
  let cmd := "systus -batch -exec ".toList ++ file ++ " > ".toList ++ fname ++ ".stdout 2> ".toList ++ fname ++ ".stderr".toList
  if path ≠ ".".toList then "cd ".toList ++ path ++ " && ".toList ++ cmd else cmd

/-- The data files that are run with the product topaze (SystusRunner.cpp 81-87), in the order of the directory. -/
def dataFiles (pre : Line) (d : Dir) : List Line :=
  (d.filter fun p => p.2.regular && ".DAT".toList.isSuffixOf p.1 && pre.isPrefixOf p.1).map (·.1)

/-- The loop over the data files (SystusRunner.cpp 80-105): the last status (none before the first command), whether it ends the run, and
the directory. Files that the solver adds during the loop are not looked at. -/
def topazeLoop (path fname : Line) (solver : Solver) : List Line → Option RunnerCode → Dir → Option RunnerCode × Bool × Dir
  | [], c, d => (c, false, d)
  | n :: rest, _, d =>
    let r := solver (systusCommand path n fname) d
    if convertExecResult r.1 = .OK then topazeLoop path fname solver rest (some .OK) r.2
    else (some (convertExecResult r.1), true, r.2)

/-- What the runner looks at in the directory (SystusRunner.cpp 109-110, 126-173). -/
def filesOf (pre fname : Line) (d : Dir) : SystusFiles where
  stdout := ((lookup d (fname ++ ".stdout".toList)).map (·.lines)).getD []
  tit := d.any fun p => p.2.regular && ".TIT".toList.isSuffixOf p.1 && pre.isPrefixOf p.1
  fdb := d.any fun p => p.2.regular && ".fdb".toList.isSuffixOf p.1 && pre.isPrefixOf p.1
  resu := (d.filter fun p => p.2.regular && ".RESU".toList.isSuffixOf p.1 && pre.isPrefixOf p.1).map (·.2.lines)

/-- `SystusRunner::execSolver` (SystusRunner.cpp 37-177) in an output directory that exists: `full` is the path of the file of all
subcases and `all` its name. Without a data file the exit code of the product topaze has no value. -/
def systusExec (systus : Bool) (path : Line) (solver : Solver) (full all : Line) (d : Dir) : Outcome RunnerCode :=
  let fname := strip all
  let pre := beforeAll fname
  match systusClean pre d with
  | .ok d =>
    if systus then
      let r := solver (systusCommand path full fname) d
      .ok (systusResults true (filesOf pre fname r.2) (convertExecResult r.1))
    else
      match topazeLoop path fname solver (dataFiles pre d) none d with
      | (some c, true, _) => .ok c
      | (some c, false, e) => .ok (systusResults false (filesOf pre fname e) c)
      | (none, _, _) => .ub
  | .throw => .throw
  | .ub => .ub
  | .diverges => .diverges

end Runs
end Vega
