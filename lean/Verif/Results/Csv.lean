import Verif.Results.F06

/-! # Reading tables of results: `ResultReaders/CSVResultReader.cpp` 58-187 and `ResultReaders/ResultReadersFacade.cpp` 23-44

The grammar is written with Boost.Spirit: alternatives are tried in order and the first that matches is kept, blanks (spaces and
tabulations) are skipped before every piece of a rule that has a skipper. What the library does is as generally known. Messages,
tolerances and the trace of the grammar (78-80) are left out. -/
namespace Vega
namespace Csv
open Nastran (Line)
open F06 (stoi stod)

/-! ## Pieces of the grammar -/

/-- `qi::blank` (CSVResultReader.cpp 176). -/
def blank (c : Char) : Bool := c = ' ' || c = '\t'

/-- The skipper: blanks are passed over. -/
def skip (l : Line) : Line := l.dropWhile blank

/-- `eol`: the end of a line, and what follows. -/
def eol : Line → Option Line
  | '\r' :: '\n' :: t => some t
  | '\r' :: t => some t
  | '\n' :: t => some t
  | _ => none

/-- `comment` (CSVResultReader.cpp 77): after `#` the end of the line is expected, and an exception is thrown without it. -/
def comment (l : Line) : Outcome (Option Line) :=
  match skip l with
  | '#' :: t =>
    match eol (t.dropWhile (· ≠ '\n')) with
    | some r => .ok (some r)
    | none => .throw
  | m => .ok (eol m)

/-- `*comment` (CSVResultReader.cpp 66). Every comment takes a character at least: the first argument, the length of the text, is
never used up. -/
def comments : Nat → Line → Outcome Line
  | 0, l => .ok l
  | n + 1, l =>
    match comment l with
    | .ok (some r) => comments n r
    | .ok none => .ok l
    | .throw => .throw
    | .ub => .ub
    | .diverges => .diverges

/-- `*("\"\"" | ~char_("\"\n"))` (CSVResultReader.cpp 76). What a doubled quote leaves in the text is not described: nothing is left
here. -/
def quotedChars : Line → Line × Line
  | [] => ([], [])
  | '"' :: '"' :: t => quotedChars t
  | c :: t => if c = '"' || c = '\n' then ([], c :: t) else (c :: (quotedChars t).1, (quotedChars t).2)

/-- `quoted` (CSVResultReader.cpp 76). -/
def quoted : Line → Option (Line × Line)
  | '"' :: t =>
    match (quotedChars t).2 with
    | '"' :: r => some ((quotedChars t).1, r)
    | _ => none
  | _ => none

/-- `*~char_(",\n")` (CSVResultReader.cpp 75), with blanks skipped before each character: they are no part of the text. -/
def plain : Line → Line × Line
  | [] => ([], [])
  | c :: t =>
    if blank c then plain t
    else if c = ',' || c = '\n' then ([], c :: t)
    else (c :: (plain t).1, (plain t).2)

/-- `column` (CSVResultReader.cpp 75). What a quoted text without its end leaves in the text of the column is not described: nothing
is left here. -/
def column (l : Line) : Line × Line :=
  match quoted (skip l) with
  | some r => r
  | none => plain l

/-- `LineItems` (CSVResultReader.h 22-34); the six components are `dof`, numbered as in `dofPosition_by_lineItemEnum`
(CSVResultReader.cpp 153-160). -/
inductive Item where
  | unused | result | node | order | time
  | dof (d : Dof)
  deriving DecidableEq

/-- The names of the columns, in the order in which they are tried (CSVResultReader.cpp 68-72). -/
def keywords : List (Line × Item) :=
  [("RESULTAT".toList, .result), ("NUME_ORDRE".toList, .order), ("INST".toList, .time), ("NOEUD".toList, .node),
    ("DX".toList, .dof .DX), ("DY".toList, .dof .DY), ("DZ".toList, .dof .DZ), ("DRX".toList, .dof .RX),
    ("DRY".toList, .dof .RY), ("DRZ".toList, .dof .RZ)]

/-- The first name that the text begins with, and what follows it. -/
def keyword : List (Line × Item) → Line → Option (Item × Line)
  | [], _ => none
  | (k, i) :: ks, l => if k.isPrefixOf l then some (i, l.drop k.length) else keyword ks l

/-- `header_cell` (CSVResultReader.cpp 68-73). -/
def headerCell (l : Line) : Item × Line :=
  match keyword keywords (skip l) with
  | some r => r
  | none => (.unused, (column l).2)

/-- `header` (CSVResultReader.cpp 67): cells between commas. Every comma is a character: the first argument, the length of the text,
is never used up. -/
def header : Nat → Line → List Item × Line
  | 0, l => ([(headerCell l).1], (headerCell l).2)
  | n + 1, l =>
    match skip (headerCell l).2 with
    | ',' :: t => ((headerCell l).1 :: (header n t).1, (header n t).2)
    | _ => ([(headerCell l).1], (headerCell l).2)

/-- `column % colsep` (CSVResultReader.cpp 74). -/
def columns : Nat → Line → List Line × Line
  | 0, l => ([(column l).1], (column l).2)
  | n + 1, l =>
    match skip (column l).2 with
    | ',' :: t => ((column l).1 :: (columns n t).1, (columns n t).2)
    | _ => ([(column l).1], (column l).2)

/-! ## A line of the table -/

/-- `atof`: the longest beginning that is a number, 0 without one (CSVResultReader.cpp 113, 132). As for `stod`, hexadecimal numbers,
`inf`, `nan`, numbers out of range and rounding are not described. -/
def atof (l : Line) : Dbl :=
  match stod l with
  | some x => x
  | none => 0

/-- The variables of `convertFunc` (CSVResultReader.cpp 88-93): the number of the result (-1 before it is known), that of the node and
the instant. -/
structure Vars where
  result : Int
  node : Option Int
  time : Dbl
  deriving DecidableEq

/-- Their first values. -/
def Vars.start : Vars := ⟨-1, none, 0⟩

/-- One column in the first loop of `convertFunc` (CSVResultReader.cpp 95-118); `none` when the line is given up (102). `stoi` and, for
an empty text, `substr(1)` throw. -/
def setVar (v : Vars) (i : Item) (text : Line) : Outcome (Option Vars) :=
  match i with
  | .result =>
    if "RESU".toList.isPrefixOf text then
      match stoi (text.drop 4) with
      | some n => .ok (some { v with result := n })
      | none => .throw
    else .ok none
  | .node =>
    match text with
    | [] => .throw
    | _ :: t =>
      match stoi t with
      | some n => .ok (some { v with node := some n })
      | none => .throw
  | .order =>
    match stoi text with
    | some _ => .ok (some v)
    | none => .throw
  | .time => .ok (some { v with time := atof text })
  | _ => .ok (some v)

/-- The first loop (CSVResultReader.cpp 94-120). -/
def setVars (v : Vars) : List (Item × Line) → Outcome (Option Vars)
  | [] => .ok (some v)
  | (i, text) :: rest =>
    match setVar v i text with
    | .ok (some w) => setVars w rest
    | .ok none => .ok none
    | .throw => .throw
    | .ub => .ub
    | .diverges => .diverges

/-- A test of a displacement (CSVResultReader.cpp 134-135). -/
structure Test where
  node : Int
  dof : Dof
  value : Dbl
  time : Dbl
  deriving DecidableEq

/-- The set of tests of a result, made if there is none yet, and the tests that a line adds to it (CSVResultReader.cpp 124,
134-136). -/
structure Found where
  result : Int
  tests : List Test
  deriving DecidableEq

/-- The second loop (CSVResultReader.cpp 129-139). Without a node the program is stopped by `assert` (133) or, compiled without it,
goes on with a number that is none of a node: undefined behaviour here. -/
def makeTests (v : Vars) : List (Item × Line) → Outcome (List Test)
  | [] => .ok []
  | (i, text) :: rest =>
    match i with
    | .dof d =>
      match v.node with
      | none => .ub
      | some n =>
        match makeTests v rest with
        | .ok ts => .ok (⟨n, d, atof text, v.time⟩ :: ts)
        | .throw => .throw
        | .ub => .ub
        | .diverges => .diverges
    | _ => makeTests v rest

/-- `convertFunc` (CSVResultReader.cpp 83-140). Without a result the program is stopped by `assert` (123) or, compiled without it, goes
on with the number -1: undefined behaviour here. -/
def convert (items : List Item) (cells : List Line) : Outcome (Option Found) :=
  if cells.length ≠ items.length then .ok none
  else
    match setVars Vars.start (items.zip cells) with
    | .ok (some v) =>
      if v.result = -1 then .ub
      else
        match makeTests v (items.zip cells) with
        | .ok ts => .ok (some ⟨v.result, ts⟩)
        | .throw => .throw
        | .ub => .ub
        | .diverges => .diverges
    | .ok none => .ok none
    | .throw => .throw
    | .ub => .ub
    | .diverges => .diverges

/-! ## The file -/

/-- `line(_a) % eol` (CSVResultReader.cpp 66, 74): the lines that give something, and what is left. Every end of line is a character:
the first argument, the length of the text, is never used up. -/
def table (items : List Item) : Nat → Line → Outcome (List Found × Line)
  | 0, l => do
    let f ← convert items (columns l.length l).1
    .ok (f.toList, (columns l.length l).2)
  | n + 1, l => do
    let f ← convert items (columns l.length l).1
    match eol (skip (columns l.length l).2) with
    | none => .ok (f.toList, (columns l.length l).2)
    | some t => do
      let r ← table items n t
      .ok (f.toList ++ r.1, r.2)

/-- What the reading of a file gives: whether the grammar is satisfied, the sets and tests, in order, and what is left unread. -/
structure Read where
  parsed : Bool
  found : List Found
  left : Line
  deriving DecidableEq

/-- `add_assertions` (CSVResultReader.cpp 163-187) for the text of a file; a file that cannot be opened has the text `[]`. Both
outcomes of the grammar are but messages (178-185). -/
def read (text : Line) : Outcome Read :=
  match comments text.length text with
  | .ok l =>
    match eol (skip (header l.length l).2) with
    | none => .ok ⟨false, [], text⟩
    | some t =>
      match table (header l.length l).1 t.length t with
      | .ok r => .ok ⟨true, r.1, r.2⟩
      | .throw => .throw
      | .ub => .ub
      | .diverges => .diverges
  | .throw => .throw
  | .ub => .ub
  | .diverges => .diverges

/-! ## The analysis that is tested -/

/-- An analysis of the model: its number in the file that was read, if it has one, and its own number. -/
structure Analysis where
  original : Option Int
  id : Int
  deriving DecidableEq

/-- `model.analyses.find(result_number)` (CSVResultReader.cpp 125, Model.h 618-627): the last type of analysis that has this number in
the file. The analyses are given in the order of their types; in a type there is one of a number at most. -/
def tested : List Analysis → Int → Option Analysis
  | [], _ => none
  | a :: as, n =>
    match tested as n with
    | some b => some b
    | none => if a.original = some n then some a else none

/-- The tests of an analysis after the reading: those of the sets that are attached to it (CSVResultReader.cpp 124-128). -/
def testsOf (as : List Analysis) (found : List Found) (a : Analysis) : List Test :=
  (found.filter fun f => tested as f.result = some a).flatMap (·.tests)

/-! ## Which reader -/

/-- The readers (ResultReadersFacade.cpp 31, 33). -/
inductive Reader where
  | f06 | csv
  deriving DecidableEq

/-- `filename()` of a path: what follows the last `/`. -/
def fileName (p : Line) : Line := (p.reverse.takeWhile (· ≠ '/')).reverse

/-- `extension()` of a path: from the last point of the name of the file on; `.` and `..` have none. -/
def extension (p : Line) : Line :=
  let f := fileName p
  if f = ['.'] ∨ f = ['.', '.'] then []
  else if '.' ∈ f then '.' :: (f.reverse.takeWhile (· ≠ '.')).reverse
  else []

/-- `getResultReader` (ResultReadersFacade.cpp 23-44). -/
def getResultReader (p : Line) : Outcome (Option Reader) :=
  if p.isEmpty then .ok none
  else if (extension p).isEmpty then .ok none
  else
    let e := (extension p).map Char.toLower
    if e = ".f06".toList then .ok (some .f06)
    else if e = ".csv".toList then .ok (some .csv)
    else .throw

end Csv
end Vega
