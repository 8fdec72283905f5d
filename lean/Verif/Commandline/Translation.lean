import Verif.Commandline.Solver

/-! # Translation modes, errors and the exit status of the program -/
namespace Vega
namespace Cli
open Nastran

/-- `TranslationMode` (ConfigurationParameters.h 203-207). -/
inductive Mode
  | STRICT | MESH_AT_LEAST | BEST_EFFORT
deriving DecidableEq

/-- `LogLevel` (ConfigurationParameters.h 47-53), by rank. -/
inductive LogLevel
  | ERROR | WARN | INFO | DEBUG | TRACE
deriving DecidableEq

/-- `logLevel >= LogLevel::DEBUG`. -/
def LogLevel.debug : LogLevel → Bool
  | .DEBUG | .TRACE => true
  | _ => false

/-- The choice of the mode (VegaCommandLine.cpp 172-191): `hasParamMeshAtLeast` is never set. -/
def readMode (best mesh strict : Bool) : Outcome Mode :=
  if mesh && best then .throw
  else
    let mode := if mesh then Mode.MESH_AT_LEAST else .BEST_EFFORT
    if strict then
      if best || false then .throw else .ok .STRICT
    else .ok mode

/-- Classes of exceptions, as `process` tells them apart (VegaCommandLine.cpp 640-669). -/
inductive Thrown
  | invalidArgument | parsing | writing | logic | other
deriving DecidableEq

/-- How the translating process ends: with an exit code, or by an exception that nothing catches. -/
inductive Ends
  | exit (code : Nat)
  | aborts
deriving DecidableEq

/-- The handlers of `process` (VegaCommandLine.cpp 640-669), with the codes of VegaCommandLine.h
41-59. -/
def handler (level : LogLevel) (t : Thrown) : Ends :=
  if level.debug then .aborts
  else match t with
    | .invalidArgument => .exit 4
    | .parsing => .exit 6
    | .writing => .exit 7
    | .logic => .exit 1
    | .other => .exit 1

/-- What the parent process returns (vegamain.cpp 30-43). -/
def status : Ends → Nat
  | .exit c => c % 256
  | .aborts => 8

/-- How the parsing of one command ends, with the model it leaves: an error told by the parser
(`Parser::handleParsingError`), by the tokenizer (`Tokenizer::handleParsingError`), or another
exception. -/
inductive Parsed (M : Type)
  | done (m : M)
  | parserError (m : M)
  | tokenizerError (m : M)
  | raised (t : Thrown)

/-- A parsed model with its flag `onlyMesh` (Model.h 277). -/
structure Flagged (M : Type) where
  model : M
  onlyMesh : Bool

/-- How parsing ends. -/
inductive ParseEnd (M : Type)
  | model (m : Flagged M)
  | raised (t : Thrown)
  | exited (code : Nat)

/-- `parseBULKSection` (NastranParser.cpp 536-569), with `Parser::handleParsingError` and
`Tokenizer::handleParsingError` (SolverInterfaces.cpp 135-182). A command stands for its keyword, its
parsing function and the skip to the next keyword. -/
def parse {M : Type} (mode : Mode) : List (M → Parsed M) → Flagged M → ParseEnd M
  | [], m => .model m
  | c :: rest, m =>
    match c m.model with
    | .done m' => parse mode rest ⟨m', m.onlyMesh⟩
    | .parserError m' =>
      match mode with
      | .STRICT => .raised .parsing
      | .MESH_AT_LEAST => parse mode rest ⟨m', true⟩
      | .BEST_EFFORT => parse mode rest ⟨m', m.onlyMesh⟩
    | .tokenizerError m' =>
      match mode with
      | .STRICT => .exited 2
      | .MESH_AT_LEAST => parse mode rest ⟨m', m.onlyMesh⟩
      | .BEST_EFFORT => parse mode rest ⟨m', m.onlyMesh⟩
    | .raised t => .raised t

/-- A step of a writer: something is written, or `handleWritingError` is called. -/
inductive Write (O : Type)
  | emit (o : O)
  | error

/-- The mode of a writer: only the Systus writer takes it from the configuration (SystusWriter.cpp 347),
the others keep the default (SolverInterfaces.h 144). -/
def writerMode (out : SolverName) (mode : Mode) : Mode :=
  match out with
  | .SYSTUS => mode
  | _ => .BEST_EFFORT

/-- The steps of a writer, with `Writer::handleWritingError` (SolverInterfaces.cpp 190-203): what was
written, and whether the end was reached. -/
def write {O : Type} (mode : Mode) : List (Write O) → List O × Bool
  | [] => ([], true)
  | .emit o :: rest => (o :: (write mode rest).1, (write mode rest).2)
  | .error :: rest =>
    match mode with
    | .STRICT => ([], false)
    | _ => write mode rest

/-- The parts of a translation that are not modelled here: the commands of the file, the passes of
`finish`, validation, the steps of the writer and the check that all is written. No code reads
`onlyMesh`. -/
structure Study (M O : Type) where
  start : M
  commands : List (M → Parsed M)
  finish : M → Except Thrown M
  valid : M → Bool
  steps : M → List (Write O)
  allWritten : M → Bool

/-- There is a writer for this output (VegaCommandLine.cpp 62-67, with `ENABLE_ASTER`). -/
def hasWriter : SolverName → Bool
  | .OPTISTRUCT => false
  | _ => true

/-- There is a parser for this input (VegaCommandLine.cpp 59-60). -/
def hasParser : SolverName → Bool
  | .NASTRAN | .OPTISTRUCT => true
  | _ => false

/-- `convertStudy` within the handlers of `process` (VegaCommandLine.cpp 71-121, 635-670), without
result file: what is written and how the process ends. -/
def translate {M O : Type} (input output : SolverName) (mode : Mode) (level : LogLevel) (s : Study M O) :
    List O × Ends :=
  if !hasWriter output then ([], .exit 4)
  else if !hasParser input then ([], .exit 4)
  else match parse mode s.commands ⟨s.start, false⟩ with
    | .raised t => ([], handler level t)
    | .exited c => ([], .exit c)
    | .model m =>
      match s.finish m.model with
      | .error t => ([], handler level t)
      | .ok m' =>
        if !s.valid m' && decide (mode = .STRICT) then ([], .exit 5)
        else
          let w := write (writerMode output mode) (s.steps m')
          if !w.2 then (w.1, handler level .writing)
          else if !s.allWritten m' && decide (mode = .STRICT) then (w.1, .exit 10)
          else (w.1, .exit 0)

/-- The beginning of `process` (VegaCommandLine.cpp 462-634): until the parameters are read, the level
of the handlers is `TRACE` (467, 609). The two formats are the texts of the command line. -/
def process {M O : Type} (best mesh strict : Bool) (level : LogLevel) (input output : Line) (s : Study M O) :
    List O × Ends :=
  match readMode best mesh strict with
  | .ok mode =>
    match fromString output with
    | .ok out =>
      match fromString input with
      | .ok inp => translate inp out mode level s
      | _ => ([], handler level .invalidArgument)
    | _ => ([], handler .TRACE .invalidArgument)
  | _ => ([], handler .TRACE .invalidArgument)

end Cli
end Vega
