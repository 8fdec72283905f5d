import Verif.Commandline.Translation
import Verif.Results.F06

/-! # The options of the command line and of the configuration file: `Commandline/VegaCommandLine.cpp` 123-420, 463-608

The library that reads options (Boost Program_options) is described as it is generally known: options not declared, values of a
wrong kind and repeated options are refused; a value given is kept when a later source gives another one; a default value holds
as long as no source gives a value. The texts of the two sources come cut into options and values. -/
namespace Vega
namespace Cli
open Nastran
open F06 (stoi)

/-- The options (VegaCommandLine.cpp 473-549), by their long names; `other` is any other name. -/
inductive Opt
  | version | help | config | outputDir | runSolver | testFile
  | solverCommand | solverServer | debug | solverVersion | tolerance | bestEffort | listOptions | meshAtLeast | strict
  | convertRigids | graph | verbosity
  | dialect
  | dynamicMethod | rbe2Mode | rbe2Rigidity | rbeLagrangian | rbeStiffness | rbeCoefficient | subcase | optionAnalysis
  | outputProduct | outputMatrix | sizeMatrix
  | inputFile | inputFormat | outputFormat
  | other (name : Line)
deriving DecidableEq

/-- A value: what stands after an option without value in a configuration file, a `string`, a `vector<string>`, a `double`, an
`int`, a `bool`. -/
inductive Val
  | flag (l : Line)
  | text (l : Line)
  | texts (l : List Line)
  | real (x : Dbl)
  | whole (i : Int)
  | truth (b : Bool)
deriving DecidableEq

/-- The kinds of values. -/
inductive Kind
  | flag | text | texts | real | whole | truth
deriving DecidableEq

/-- The kind of a value. -/
def Val.kind : Val → Kind
  | .flag _ => .flag
  | .text _ => .text
  | .texts _ => .texts
  | .real _ => .real
  | .whole _ => .whole
  | .truth _ => .truth

/-- The options of the command line with their kinds: all groups (VegaCommandLine.cpp 473-552). -/
def onLine : Opt → Option Kind
  | .version | .help | .runSolver => some .flag
  | .config | .outputDir | .testFile => some .text
  | .solverCommand | .solverServer | .solverVersion | .verbosity => some .text
  | .debug | .bestEffort | .listOptions | .meshAtLeast | .strict | .graph => some .flag
  | .tolerance => some .real
  | .convertRigids => some .truth
  | .dialect => some .text
  | .dynamicMethod | .rbe2Mode | .optionAnalysis | .outputProduct | .outputMatrix => some .text
  | .rbe2Rigidity | .rbeLagrangian | .rbeStiffness | .rbeCoefficient => some .real
  | .subcase => some .texts
  | .sizeMatrix => some .whole
  | .inputFile | .inputFormat | .outputFormat => some .text
  | .other _ => none

/-- The options of the configuration file (VegaCommandLine.cpp 554-555): the groups `generic`, `systusOptions` and `hidden`. -/
def inFile : Opt → Option Kind
  | .version | .help | .runSolver | .config | .outputDir | .testFile => none
  | .dialect => none
  | o => onLine o

/-- `default_value` (VegaCommandLine.cpp 477-549). -/
def dflt : Opt → Option Val
  | .config => some (.text "~/vegamain.cfg".toList)
  | .outputDir => some (.text ".".toList)
  | .solverServer => some (.text "localhost".toList)
  | .dialect => some (.text "cosmic95".toList)
  | .dynamicMethod => some (.text "auto".toList)
  | .rbe2Mode => some (.text "penalty".toList)
  | .optionAnalysis => some (.text "auto".toList)
  | .outputProduct => some (.text "systus".toList)
  | .outputMatrix => some (.text "table".toList)
  | .inputFormat => some (.text "NASTRAN".toList)
  | .outputFormat => some (.text "ASTER".toList)
  | _ => none

/-- A source: the options it gives, in order. -/
abbrev Source := List (Opt × Val)

/-- `variables_map`: values with the mark `defaulted`, and the options that later sources do not change. -/
structure Vm where
  values : Opt → Option (Val × Bool)
  final : Opt → Bool

/-- `value_semantic::parse` on a value stored before by the same source: lists grow, the rest is refused (`multiple_occurrences`). -/
def parseInto : Option (Val × Bool) → Val → Outcome Val
  | none, v => .ok v
  | some (_, true), v => .ok v
  | some (.texts l, false), .texts l' => .ok (.texts (l ++ l'))
  | some (_, false), _ => .throw

/-- The values of one source, in the library's `store`. -/
def storeLoop (declared : Opt → Option Kind) (final : Opt → Bool) :
    Source → (Opt → Option (Val × Bool)) → Outcome (Opt → Option (Val × Bool))
  | [], m => .ok m
  | (o, v) :: rest, m =>
    match declared o with
    | none => .throw
    | some k =>
      if final o then storeLoop declared final rest m
      else if v.kind ≠ k then .throw
      else do
        let w ← parseInto (m o) v
        storeLoop declared final rest (fun p => if p = o then some (w, false) else m p)

/-- `store` (VegaCommandLine.cpp 566, 595): values, then default values. -/
def store (declared : Opt → Option Kind) (src : Source) (vm : Vm) : Outcome Vm := do
  let m ← storeLoop declared vm.final src vm.values
  .ok ⟨fun o => match m o with
      | some x => some x
      | none => if (declared o).isSome then (dflt o).map (fun v => (v, true)) else none,
    fun o => vm.final o || src.any (fun p => decide (p.1 = o))⟩

/-- Before any source. -/
def Vm.empty : Vm := ⟨fun _ => none, fun _ => false⟩

/-- `vm.count(…)`. -/
def Vm.has (vm : Vm) (o : Opt) : Bool := (vm.values o).isSome

/-- `vm.count(…)` and `as<string>()`: another kind is refused (`bad_any_cast`). -/
def Vm.text (vm : Vm) (o : Opt) : Outcome (Option Line) :=
  match vm.values o with
  | none => .ok none
  | some (.text l, _) => .ok (some l)
  | some _ => .throw

/-- `vm.count(…)` and `as<double>()`. -/
def Vm.real (vm : Vm) (o : Opt) : Outcome (Option Dbl) :=
  match vm.values o with
  | none => .ok none
  | some (.real x, _) => .ok (some x)
  | some _ => .throw

/-- `vm.count(…)` and `as<int>()`. -/
def Vm.whole (vm : Vm) (o : Opt) : Outcome (Option Int) :=
  match vm.values o with
  | none => .ok none
  | some (.whole x, _) => .ok (some x)
  | some _ => .throw

/-- `vm.count(…)` and `as<bool>()`. -/
def Vm.truth (vm : Vm) (o : Opt) : Outcome (Option Bool) :=
  match vm.values o with
  | none => .ok none
  | some (.truth x, _) => .ok (some x)
  | some _ => .throw

/-- `vm.count(…)` and `as<vector<string>>()`. -/
def Vm.texts (vm : Vm) (o : Opt) : Outcome (Option (List Line)) :=
  match vm.values o with
  | none => .ok none
  | some (.texts x, _) => .ok (some x)
  | some _ => .throw

/-- `normalize_path` (VegaCommandLine.cpp 123-129): `front` of an empty text is undefined, and `erase(npos)` throws; on POSIX,
`make_preferred` changes nothing. -/
def normalizePath : Line → Outcome Line
  | [] => .ub
  | c :: t =>
    if c = '"' ∨ c = '\'' then
      match t with
      | [] => .throw
      | _ => .ok t.dropLast
    else .ok (c :: t)

/-- The level (VegaCommandLine.cpp 132-146). -/
def readLevel (verbosity : Option Line) (debug : Bool) : LogLevel :=
  let base := match verbosity with
    | none => LogLevel.INFO
    | some s =>
      let u := toUpper s
      if u = "TRACE".toList then .TRACE
      else if u = "DEBUG".toList then .DEBUG
      else if u = "INFO".toList then .INFO
      else if u = "WARN".toList then .WARN
      else if u = "ERROR".toList then .ERROR
      else .INFO
  if debug then (match base with
    | .TRACE => .TRACE
    | _ => .DEBUG)
  else base

/-- An option with a list of available values (VegaCommandLine.cpp 251-259, 262-270, 300-308, 309-317, 319-327, 330-338). -/
def oneOf (given : Option Line) (available : List Line) (default : Line) : Outcome Line :=
  match given with
  | none => .ok default
  | some s => if s ∈ available then .ok s else .throw

/-- The stiffness and the coefficient of rigid elements (VegaCommandLine.cpp 273-298). `UNAVAILABLE_DOUBLE` is `none`: a given value
equal to it is not distinguished. -/
def readRigid (penalty : Bool) (lagrangian rigidity stiffness coefficient : Option Dbl) : Option Dbl × Dbl :=
  let s0 : Option Dbl := none
  let c0 : Option Dbl := none
  let p := match lagrangian with
    | some l => (some 1, some l)
    | none => (s0, c0)
  let p := match rigidity with
    | some r => if penalty then (some r, some 1) else p
    | none => p
  let s := match stiffness with
    | some x => some x
    | none => p.1
  let c := match p.2 with
    | some x => x
    | none => if penalty then 10 else 1000
  let c := match coefficient with
    | some x => x
    | none => c
  (s, c)

/-- The size of matrices (VegaCommandLine.cpp 331, 339-348). -/
def readSize (file : Bool) (given : Option Int) : Outcome Int :=
  match given with
  | none => .ok (if file then 20 else 9)
  | some n => if n < 2 then .throw else .ok n

/-- `stoi` of one number of a list. -/
def number (l : Line) : Outcome Int :=
  match stoi l with
  | some n => .ok n
  | none => .throw

/-- The numbers of one list (VegaCommandLine.cpp 377-383): `cur` is the beginning of the current number. -/
def readNumbers : Line → Line → Outcome (List Int)
  | cur, [] => do
    let n ← number cur
    .ok [n]
  | cur, c :: t =>
    if c = ',' then do
      let n ← number cur
      let l ← readNumbers [] t
      .ok (n :: l)
    else readNumbers (cur ++ [c]) t

/-- The lists of analyses (VegaCommandLine.cpp 353-386). -/
def readSubcases : List Line → List (List Int) → Outcome (List (List Int))
  | [], acc => .ok acc
  | s :: rest, acc =>
    if s = "single".toList then .ok [[-1]]
    else if s = "auto".toList then .ok []
    else if s.all (fun c => c.isDigit || c == ',') then do
      let v ← readNumbers [] s
      readSubcases rest (acc ++ [v])
    else .throw

/-- No list is `auto` (VegaCommandLine.cpp 352-354). -/
def groupsOf (given : Option (List Line)) : Outcome (List (List Int)) :=
  match given with
  | none => .ok []
  | some l => readSubcases l []

/-- What `readCommandLineParameters` gives (ConfigurationParameters.h 222-262); `outputFile`, the last part of the path of the input
file, is left out. -/
structure Params where
  level : LogLevel
  input : Line
  dir : Line
  test : Line
  tolerance : Dbl
  mode : Mode
  graph : Bool
  solver : SolverName
  rigids : Bool
  run : Bool
  command : Line
  server : Line
  solverVersion : Line
  dialect : Line
  rbe2 : Line
  stiffness : Option Dbl
  coefficient : Dbl
  analysis : Line
  product : Line
  dynamic : Line
  matrix : Line
  size : Int
  subcases : List (List Int)
deriving DecidableEq

/-- A path that may be missing (VegaCommandLine.cpp 151-163). -/
def pathOr (given : Option Line) (default : Line) : Outcome Line :=
  match given with
  | some s => normalizePath s
  | none => .ok default

/-- The solver of the output (VegaCommandLine.cpp 200-208, with `ENABLE_ASTER`). -/
def readSolver (given : Option Line) : Outcome SolverName :=
  match given with
  | some s => fromString s
  | none => .ok .CODE_ASTER

/-- The version of the solver (VegaCommandLine.cpp 239-248). -/
def readVersion (given : Option Line) (solver : SolverName) : Line :=
  match given with
  | some v => v
  | none => if solver = .SYSTUS then "2016".toList else []

/-- The first part of `readCommandLineParameters` (VegaCommandLine.cpp 132-248): level, paths, tolerance, mode, graph, solver. -/
def readGeneric (vm : Vm) : Outcome Params := do
  let verbosity ← vm.text .verbosity
  let level := readLevel verbosity (vm.has .debug)
  let file ← vm.text .inputFile
  match file with
  | none => .throw
  | some file =>
    let input ← normalizePath file
    let outDir ← vm.text .outputDir
    let dir ← pathOr outDir ".".toList
    let testFile ← vm.text .testFile
    let test ← pathOr testFile []
    let tolerance ← vm.real .tolerance
    let mode ← readMode (vm.has .bestEffort) (vm.has .meshAtLeast) (vm.has .strict)
    let format ← vm.text .outputFormat
    let solver ← readSolver format
    let rigids ← vm.truth .convertRigids
    let command ← vm.text .solverCommand
    let server ← vm.text .solverServer
    let version ← vm.text .solverVersion
    .ok { level := level, input := input, dir := dir, test := test, tolerance := tolerance.getD (2 / 100), mode := mode,
          graph := vm.has .graph && decide (level = .TRACE), solver := solver,
          rigids := rigids.getD (decide (solver = .CODE_ASTER)), run := vm.has .runSolver,
          command := trim (command.getD []), server := trim (server.getD []), solverVersion := readVersion version solver,
          dialect := [], rbe2 := [], stiffness := none, coefficient := 0, analysis := [], product := [], dynamic := [],
          matrix := [], size := 0, subcases := [] }

/-- The second part (VegaCommandLine.cpp 250-386): the options of the solvers. -/
def readSpecific (vm : Vm) (p : Params) : Outcome Params := do
  let d ← vm.text .dialect
  let dialect ← oneOf d ["cosmic95".toList, "modern".toList] "cosmic95".toList
  let r ← vm.text .rbe2Mode
  let rbe2 ← oneOf r ["lagrangian".toList, "penalty".toList] "penalty".toList
  let lagrangian ← vm.real .rbeLagrangian
  let rigidity ← vm.real .rbe2Rigidity
  let stiffness ← vm.real .rbeStiffness
  let coefficient ← vm.real .rbeCoefficient
  let sc := readRigid (decide (rbe2 = "penalty".toList)) lagrangian rigidity stiffness coefficient
  let a ← vm.text .optionAnalysis
  let analysis ← oneOf a ["auto".toList, "3D".toList, "shell".toList, "shell-multi".toList] "auto".toList
  let o ← vm.text .outputProduct
  let product ← oneOf o ["systus".toList, "topaze".toList] "systus".toList
  let y ← vm.text .dynamicMethod
  let dynamic ← oneOf y ["direct".toList, "modal".toList, "auto".toList] "auto".toList
  let m ← vm.text .outputMatrix
  let matrix ← oneOf m ["table".toList, "file".toList] "table".toList
  let z ← vm.whole .sizeMatrix
  let size ← readSize (decide (matrix = "file".toList)) z
  let s ← vm.texts .subcase
  let subcases ← groupsOf s
  .ok { p with dialect := dialect, rbe2 := rbe2, stiffness := sc.1, coefficient := sc.2, analysis := analysis, product := product,
               dynamic := dynamic, matrix := matrix, size := size, subcases := subcases }

/-- `readCommandLineParameters` (VegaCommandLine.cpp 131-420), without what is printed. -/
def readParams (vm : Vm) : Outcome Params := do
  let p ← readGeneric vm
  readSpecific vm p

/-- How the reading of options ends. -/
inductive Begun
  | exit (code : Nat)
  | params (p : Params)
  | thrown
  | ub
deriving DecidableEq

/-- After the sources (VegaCommandLine.cpp 601-608). -/
def begun (vm : Vm) : Begun :=
  if !vm.has .inputFile then .exit 2
  else match readParams vm with
    | .ok p => .params p
    | .ub => .ub
    | _ => .thrown

/-- `process` up to the parameters (VegaCommandLine.cpp 565-608): `file` is the configuration file, if it can be opened. -/
def begin_ (cmd : Source) (file : Option Source) : Begun :=
  match store onLine cmd Vm.empty with
  | .ok vm =>
    if vm.has .version then .exit 0
    else if vm.has .help then .exit 0
    else
      match (match file with
        | none => Outcome.ok vm
        | some src => store inFile src vm) with
      | .ok vm => begun vm
      | _ => .thrown
  | _ => .thrown

/-- The handlers around (VegaCommandLine.cpp 467, 640-669): the level is still `TRACE`, so that what is thrown is thrown again. -/
def Begun.ends : Begun → Option Ends
  | .exit c => some (.exit c)
  | .thrown => some (handler .TRACE .logic)
  | .params _ => none
  | .ub => none

end Cli
end Vega
