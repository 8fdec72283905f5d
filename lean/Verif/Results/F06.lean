import Verif.Nastran.Reals
import Verif.NastranWrite.Loads

/-! # Reading Nastran results: `ResultReaders/F06Parser.cpp` 36-119, 121-263, 265-498, 501-593

The values found in a result file become tests (assertions) of the analyses. Messages and line numbers are left out. Every
line of the file is read by `readLine`, which passes over blank lines: a file is described by the list of its other lines
and by what the variable of a line holds when the reading fails (`Input`). -/
namespace Vega
namespace F06
open Nastran (Line isSpace trim lexicalDouble natOf signed intMin intMax)
open NastranWrite (V3)

/-! ## Texts -/

/-- What follows the first occurrence of a text in a line: `find` and `substr` (F06Parser.cpp 502-503 and others). -/
def after? (pat : Line) : Line → Option Line
  | [] => if pat = [] then some [] else none
  | c :: t => if pat.isPrefixOf (c :: t) then some ((c :: t).drop pat.length) else after? pat t

/-- `find(…) != string::npos`. -/
def has (pat l : Line) : Bool := (after? pat l).isSome

/-- The words of a line, after the beginning `cur` of a word. -/
def wordsFrom : Line → Line → List Line
  | cur, [] => if cur.isEmpty then [] else [cur]
  | cur, c :: t =>
    if isSpace c then (if cur.isEmpty then wordsFrom [] t else cur :: wordsFrom [] t) else wordsFrom (cur ++ [c]) t

/-- `copy(istream_iterator<string>(…), …)` (F06Parser.cpp 63-64). -/
def words (l : Line) : List Line := wordsFrom [] l

/-- `stoi`: the longest beginning that is an integer; `none` is an exception. -/
def stoi (l : Line) : Option Int :=
  let s := signed l
  let d := s.2.takeWhile Char.isDigit
  if d.isEmpty then none
  else
    let n : Int := if s.1 then -(natOf d : Int) else natOf d
    if intMin ≤ n ∧ n ≤ intMax then some n else none

/-- `stod`: the longest beginning that is a number; `none` is an exception. Hexadecimal numbers, `inf`, `nan` and numbers
out of range are not described, nor is rounding. -/
def stod (l : Line) : Option Dbl := (List.range (l.length + 1)).reverse.findSome? fun n => lexicalDouble (l.take n)

/-- `istringstream(…) >> x` for a `double` (F06Parser.cpp 544-545, 550-551): `old` is kept if there is no text, 0 is put if
it is no number. Words of which only the beginning is a number are not described. -/
def streamDouble (old : Dbl) (l : Line) : Dbl :=
  match words l with
  | [] => old
  | w :: _ => match lexicalDouble w with
    | some x => x
    | none => 0

/-! ## Lines -/

/-- The file: its lines that are not blank, and what a failed reading leaves in the variable (`none`: what it held). -/
structure Input where
  lines : List Line
  atEnd : Option Line

/-- `readLine` (F06Parser.cpp 581-593) on the lines of a file; `terminated` tells whether the last line ends with a newline.
At the end of the file `getline` empties the variable, unless the last line had no newline. -/
def rawReadLine (terminated : Bool) (line : Line) : List Line → Bool × Line × List Line
  | [] => (false, if terminated then [] else line, [])
  | l :: rest => if (trim l).isEmpty then rawReadLine terminated l rest else (true, l, rest)

/-- The same on an `Input`. -/
def readLine (line : Line) (s : Input) : Bool × Line × Input :=
  match s.lines with
  | [] => (false, (match s.atEnd with
    | some l => l
    | none => line), s)
  | l :: rest => (true, l, ⟨rest, s.atEnd⟩)

/-- What a failed reading leaves in the variable. -/
def endOf (terminated : Bool) : List Line → Option Line
  | [] => if terminated then some [] else none
  | [l] => if terminated then some [] else if (trim l).isEmpty then some l else none
  | _ :: l :: rest => endOf terminated (l :: rest)

/-- The file as an `Input`. -/
def inputOf (terminated : Bool) (file : List Line) : Input :=
  ⟨file.filter fun l => !(trim l).isEmpty, endOf terminated file⟩

/-! ## Assertions -/

/-- The assertions made from the values of a file (F06Parser.cpp 99, 174, 245, 336). The eigenvalue, the generalized mass
and the generalized stiffness of a frequency and the tolerance are left out. -/
inductive Assertion where
  | displacement (node : Int) (dof : Dof) (value step : Dbl)
  | frequency (number : Int) (cycles : Dbl)
  | complex (node : Int) (dof : Dof) (re im frequency : Dbl)
  | vonMises (cell node : Int) (value : Dbl)
  deriving DecidableEq

/-- `NO_SUBCASE` (F06Parser.h 42). -/
def noSubcase : Int := -1

/-- An assertion and its set: that of a subcase, or the common one for `noSubcase` (F06Parser.cpp 75-80). -/
structure Added where
  subcase : Int
  what : Assertion
  deriving DecidableEq

/-- What the reader needs of the model: the numbers of the analyses, the mode, and the change to global coordinates at a
node (F06Parser.cpp 84-90: `findNodePosition`, `findNode`, `getCoordinateSystemByPosition`, `vectorToGlobal`). -/
structure World where
  analyses : List Int
  strict : Bool
  toGlobal : Int → Outcome (V3 → V3)

/-- `if (abs(value) < 1e-12) value = 0.` (F06Parser.cpp 97-98, 165-166, 237-241). -/
def small (x : Dbl) : Dbl := if |x| < 1 / 10 ^ 12 then 0 else x

/-- What a section gives: the subcase it has found at its end, the assertions, the lines left, and whether an exception was
caught. -/
structure Section where
  next : Int
  found : List Added
  rest : List Line
  threw : Bool
  deriving DecidableEq

/-- `parseSubcase` (F06Parser.cpp 501-514); only `invalid_argument` is caught there. -/
def parseSubcase (current : Int) (line : Line) : Outcome Int :=
  match after? "SUBCASE".toList line with
  | none => .ok current
  | some t =>
    let n := trim t
    if n.all fun c => c.isDigit || c = ' ' then
      if n.isEmpty then .ok current
      else match stoi n with
        | some k => .ok k
        | none => .throw
    else .ok current

/-- The end of a section at a line with `SUBCASE` (F06Parser.cpp 55-56, 151-152, 209-210). -/
def endAt (line : Line) (found : List Added) (rest : List Line) : Section :=
  match parseSubcase noSubcase line with
  | .ok n => ⟨n, found, rest, false⟩
  | _ => ⟨noSubcase, found, rest, true⟩

/-! ## Displacements -/

/-- Three numbers. -/
def reals3 (a b c : Line) : Option V3 :=
  match stod a, stod b, stod c with
  | some x, some y, some z => some ⟨x, y, z⟩
  | _, _, _ => none

/-- The six assertions of a row (F06Parser.cpp 91-101). -/
def six (subcase node : Int) (step : Dbl) (t r : V3) : List Added :=
  [⟨subcase, .displacement node .DX (small t.x) step⟩, ⟨subcase, .displacement node .DY (small t.y) step⟩,
    ⟨subcase, .displacement node .DZ (small t.z) step⟩, ⟨subcase, .displacement node .RX (small r.x) step⟩,
    ⟨subcase, .displacement node .RY (small r.y) step⟩, ⟨subcase, .displacement node .RZ (small r.z) step⟩]

/-- A row of eight words (F06Parser.cpp 68-101). -/
def displacementRow (w : World) (subcase : Int) (step : Dbl) : List Line → Outcome (List Added)
  | [t0, t1, t2, t3, t4, t5, t6, t7] =>
    match stoi t0 with
    | none => .throw
    | some node =>
      if t1 ≠ "G".toList then .ok []
      else match reals3 t2 t3 t4, reals3 t5 t6 t7 with
        | some t, some r => do
          let f ← w.toGlobal node
          .ok (six subcase node step (f t) (f r))
        | _, _ => .throw
  | _ => .ok []

/-- The loop of `readDisplacementSection` (F06Parser.cpp 45-104). -/
def displacementLoop (w : World) (subcase : Int) (step : Dbl) : List Line → List Added → Outcome Section
  | [], found => .ok ⟨noSubcase, found, [], false⟩
  | l :: rest, found =>
    if has "DIAGNOSTIC TOOLS".toList l then displacementLoop w subcase step rest found
    else if has "SUBCASE".toList l then .ok (endAt l found rest)
    else if !(l.head?.any isSpace) then .ok ⟨noSubcase, found, rest, false⟩
    else if (words l).length ≠ 8 then .ok ⟨noSubcase, found, rest, false⟩
    else match displacementRow w subcase step (words l) with
      | .ok a => displacementLoop w subcase step rest (found ++ a)
      | .throw => .ok ⟨noSubcase, found, rest, true⟩
      | .ub => .ub
      | .diverges => .diverges

/-- `readDisplacementSection` (F06Parser.cpp 36-119) before the exception is dealt with: the first line is skipped. -/
def displacementSection (w : World) (subcase : Int) (step : Dbl) (lines : List Line) : Outcome Section :=
  displacementLoop w subcase step (lines.drop 1) []

/-! ## Frequencies -/

/-- The search for the title of the columns (F06Parser.cpp 127-142); `none` means that the section is left out. -/
def eigenHeader : List Line → List Line × Bool
  | [] => ([], true)
  | l :: rest =>
    if has "ORDER".toList l then (rest, true)
    else if has "AFTER AUGMENTATION OF RESIDUAL VECTORS".toList l then (rest, false)
    else if has "ACTUAL MODES USED IN THE DYNAMIC ANALYSIS".toList l then (rest, false)
    else eigenHeader rest

/-- A row of seven words (F06Parser.cpp 160-174). -/
def eigenRow (subcase : Int) : List Line → Option Added
  | [t0, _, t2, _, t4, t5, t6] =>
    match stoi t0, stod t2, stod t4, stod t5, stod t6 with
    | some n, some _, some x, some _, some _ => some ⟨subcase, .frequency n (small x)⟩
    | _, _, _, _, _ => none
  | _ => none

/-- The rows of a table of frequencies (F06Parser.cpp 143-175). -/
def eigenLoop (subcase : Int) : List Line → List Added → Section
  | [], found => ⟨noSubcase, found, [], false⟩
  | l :: rest, found =>
    if has "SUBCASE".toList l then endAt l found rest
    else if (words l).length ≠ 7 then ⟨noSubcase, found, rest, false⟩
    else match eigenRow subcase (words l) with
      | some a => eigenLoop subcase rest (found ++ [a])
      | none => ⟨noSubcase, found, rest, true⟩

/-- `readEigenvalueSection` (F06Parser.cpp 121-190) before the exception is dealt with. -/
def eigenSection (subcase : Int) (lines : List Line) : Section :=
  let r := eigenHeader lines
  if r.2 then eigenLoop subcase r.1 [] else ⟨noSubcase, [], r.1, false⟩

/-! ## Complex displacements -/

/-- The title of the columns (F06Parser.cpp 202). -/
def complexTitle : Line :=
  "POINT ID.   TYPE          T1             T2             T3             R1             R2             R3".toList

/-- The lines after the title of the columns (F06Parser.cpp 199-205). -/
def complexHeader : List Line → List Line
  | [] => []
  | l :: rest => if has complexTitle l then rest else complexHeader rest

/-- The assertions of a node (F06Parser.cpp 235-247): those before an error are kept; `true` is an exception. -/
def complexParts (subcase node : Int) (frequency : Dbl) : List (Dof × Line × Line) → List Added → List Added × Bool
  | [], found => (found, false)
  | (d, a, b) :: l, found =>
    match stod a, stod b with
    | some x, some y =>
      complexParts subcase node frequency l (found ++ [⟨subcase, .complex node d (small x) (small y) frequency⟩])
    | _, _ => (found, true)

/-- The fifteen words of two lines (F06Parser.cpp 225-247). -/
def complexNode (subcase : Int) (frequency : Dbl) (found : List Added) : List Line → List Added × Bool
  | [_, t1, _, a1, a2, a3, a4, a5, a6, b1, b2, b3, b4, b5, b6] =>
    match stoi t1 with
    | none => (found, true)
    | some node => complexParts subcase node frequency
      [(.DX, a1, b1), (.DY, a2, b2), (.DZ, a3, b3), (.RX, a4, b4), (.RY, a5, b5), (.RZ, a6, b6)] found
  | _ => (found, true)

/-- The rows of two lines (F06Parser.cpp 206-248). At the end of the file the second line is missing: what is left in the
variable is then the empty line or the first line, and there are not fifteen words. -/
def complexLoop (subcase : Int) (frequency : Dbl) : List Line → List Added → Section
  | [], found => ⟨noSubcase, found, [], false⟩
  | [l], found =>
    if has "SUBCASE".toList l then endAt l found []
    else ⟨noSubcase, found, [], (words l).length = 9⟩
  | l :: l' :: rest, found =>
    if has "SUBCASE".toList l then endAt l found (l' :: rest)
    else if (words l).length ≠ 9 then ⟨noSubcase, found, l' :: rest, false⟩
    else
      let r := complexNode subcase frequency found (words l ++ words l')
      if r.2 then ⟨noSubcase, r.1, rest, true⟩ else complexLoop subcase frequency rest r.1

/-- `readComplexDisplacementSection` (F06Parser.cpp 192-263) before the exception is dealt with. -/
def complexSection (subcase : Int) (frequency : Dbl) (lines : List Line) : Section :=
  complexLoop subcase frequency (complexHeader lines) []

/-! ## Stresses in solids -/

/-- The title of the columns (F06Parser.cpp 276). -/
def stressTitle : Line :=
  "ELEMENT-ID    GRID-ID        NORMAL              SHEAR             PRINCIPAL       -A-  -B-  -C-     PRESSURE       VON MISES".toList

/-- The search for the title of the columns (F06Parser.cpp 273-281), `line` being the variable `currentLine`. -/
def stressHeader (atEnd : Option Line) : List Line → Line → Bool × Line × List Line
  | [], line => (false, (readLine line ⟨[], atEnd⟩).2.1, [])
  | l :: rest, _ =>
    if l.head? = some '1' then (false, l, rest)
    else if has stressTitle l then (true, l, rest)
    else stressHeader atEnd rest l

/-- `n` lines read one after the other (F06Parser.cpp 313-315). -/
def readLines : Nat → Line → Input → Line × Input
  | 0, line, s => (line, s)
  | n + 1, line, s => readLines n (readLine line s).2.1 (readLine line s).2.2

/-- How the three lines of a node end: at the end, at a new page, or with an exception. -/
inductive Stop where
  | done | page | threw
  deriving DecidableEq

/-- A line of a node (F06Parser.cpp 322-337): the words are used without test. -/
def stressRow (subcase cell : Int) (line : Line) : Outcome (Option Added) :=
  match words line with
  | _ :: t1 :: more =>
    match stoi t1, stod ((t1 :: more).getLast (by simp)) with
    | some node, some x => .ok (some ⟨subcase, .vonMises cell node x⟩)
    | _, _ => .ok none
  | _ => .ub

/-- The first line of a page (F06Parser.cpp 312). -/
def startsPage (l : Line) : Bool := l.head? == some '1' && has "PAGE".toList l

/-- A line that has no node (F06Parser.cpp 319). -/
def hasNoNode (l : Line) : Bool := l.head? != some '0' || has "CENTER".toList l

/-- The (at most three) lines of a node that are left (F06Parser.cpp 309-347). -/
def stressLines (subcase cell : Int) : Nat → Line → Input → List Added → Outcome (Stop × Line × Input × List Added)
  | 0, line, s, found => .ok (.done, line, s, found)
  | n + 1, line, s, found =>
    let r := readLine line s
    if startsPage r.2.1 then
      let q := readLines 4 r.2.1 r.2.2
      .ok (.page, q.1, q.2, found)
    else if hasNoNode r.2.1 then stressLines subcase cell n r.2.1 r.2.2 found
    else do
      match ← stressRow subcase cell r.2.1 with
      | some a => stressLines subcase cell n r.2.1 r.2.2 (found ++ [a])
      | none => .ok (.threw, r.2.1, r.2.2, found)

/-- The nodes of a cell (F06Parser.cpp 308-348), `left` of them being left; a page between the lines begins the node again.
At most `fuel` turns. -/
def stressNodes (subcase cell : Int) : Nat → Nat → Line → Input → List Added → Outcome (Bool × Line × Input × List Added)
  | _, 0, line, s, found => .ok (false, line, s, found)
  | 0, _ + 1, _, _, _ => .diverges
  | fuel + 1, left + 1, line, s, found => do
    let (stop, line, s, found) ← stressLines subcase cell 3 line s found
    match stop with
    | .done => stressNodes subcase cell fuel left line s found
    | .page => stressNodes subcase cell fuel (left + 1) line s found
    | .threw => .ok (true, line, s, found)

/-- The cells (F06Parser.cpp 282-349), at most `fuel` of them. Each node takes a turn, and each page; the number of nodes
is that of the line, plus one for the centre, an addition that may overflow. The group made of the cell when the output
is for Code_Aster (F06Parser.cpp 337-345) is left out. -/
def stressLoop (subcase : Int) (atEnd : Option Line) : Nat → List Line → Int → List Added → Outcome Section
  | 0, _, _, _ => .diverges
  | _ + 1, [], next, found => .ok ⟨next, found, [], false⟩
  | fuel + 1, l :: rest, next, found =>
    if has "SUBCASE".toList l then
      match parseSubcase next l with
      | .ok n => if n = subcase then stressLoop subcase atEnd fuel rest n found else .ok ⟨n, found, rest, false⟩
      | _ => .ok ⟨next, found, rest, true⟩
    else if l.head? = some '0' && !has "0GRID".toList l then .ok ⟨next, found, rest, true⟩
    else match words l with
      | [_, t1, _, _, t4, _] =>
        match stoi t1, stoi t4 with
        | some cell, some n => if n = intMax then .ub else do
          let r ← stressNodes subcase cell ((n + 1).toNat + rest.length + 1) (n + 1).toNat l ⟨rest, atEnd⟩ found
          if r.1 then .ok ⟨next, r.2.2.2, r.2.2.1.lines, true⟩
          else stressLoop subcase atEnd fuel r.2.2.1.lines next r.2.2.2
        | _, _ => .ok ⟨next, found, rest, true⟩
      | _ => .ok ⟨next, found, rest, false⟩

/-- `readStressesForSolidsSection` (F06Parser.cpp 265-364) before the exception is dealt with. -/
def stressSection (subcase : Int) (atEnd : Option Line) (lines : List Line) : Outcome Section :=
  let r := stressHeader atEnd lines []
  if r.1 then stressLoop subcase atEnd (r.2.2.length + 1) r.2.2 noSubcase [] else .ok ⟨noSubcase, [], r.2.2, false⟩

/-! ## The whole file -/

/-- `catch` (F06Parser.cpp 105-117, 176-188, 249-261, 350-362): thrown again in strict mode only. -/
def caught (w : World) (s : Section) : Outcome Section := if s.threw && w.strict then .throw else .ok s

/-- `addAssertionsToModel` and `addVonMisesAssertionsToModel` (F06Parser.cpp 371-394, 474-497): the analysis is used before it
is compared with the null pointer. -/
def addFound (w : World) (subcase : Int) (s : Section) : Outcome (List Added) :=
  if subcase ≠ noSubcase then
    if w.analyses.contains subcase then .ok s.found else .ub
  else if w.analyses.isEmpty then .ok [] else .ok s.found

/-- `addFrequencyAssertionsToModel` (F06Parser.cpp 401-433). -/
def addFrequencies (w : World) (subcase : Int) (s : Section) : Outcome (List Added) :=
  if subcase ≠ noSubcase then
    if w.analyses.contains subcase then .ok s.found else .ok []
  else if w.analyses.isEmpty then .ok [] else .ok s.found

/-- `addComplexAssertionsToModel` (F06Parser.cpp 441-466): the first analysis is used without test. -/
def addComplex (w : World) (subcase : Int) (s : Section) : Outcome (List Added) :=
  if subcase ≠ noSubcase then
    if w.analyses.contains subcase then .ok s.found else .ub
  else if w.analyses.isEmpty then .ub else .ok s.found

/-- The variables of `add_assertions` (F06Parser.cpp 521-523). -/
structure Status where
  subcase : Int
  step : Dbl
  frequency : Dbl
  deriving DecidableEq

def Status.init : Status := ⟨noSubcase, -1, -1⟩

/-- The variables after a line (F06Parser.cpp 526-552); `pointId` is not used. -/
def Status.read (st : Status) (line : Line) : Outcome Status := do
  let st ← if has "SUBCASE".toList line then (do
      let n ← parseSubcase st.subcase line
      .ok { st with subcase := n, step := -1 })
    else .ok st
  let st := match after? "LOAD STEP = ".toList line with
    | some t => { st with step := streamDouble st.step t }
    | none => st
  .ok (match after? "FREQUENCY = ".toList line with
    | some t => { st with frequency := streamDouble st.frequency t }
    | none => st)

/-- The titles of the sections (F06Parser.cpp 553, 560, 562). -/
def displacementTitle : Line := "D I S P L A C E M E N T   V E C T O R".toList
def eigenTitle : Line := "R E A L   E I G E N V A L U E S".toList
def complexSectionTitle : Line := "C O M P L E X   D I S P L A C E M E N T   V E C T O R".toList

/-- The title of the stresses (F06Parser.cpp 566-568). -/
def isStressTitle (line : Line) : Bool := has "S T R E S S E S".toList line && has "S O L I D   E L E M E N T S".toList line

/-- The section that begins after a line, if there is one (F06Parser.cpp 553-571): what it adds, its end and the lines left.
No line is a title of two sections. -/
def sectionAt (w : World) (st : Status) (atEnd : Option Line) (line : Line) (rest : List Line) :
    Outcome (Option (List Added × Int × List Line)) :=
  if line = displacementTitle then do
    let s ← displacementSection w st.subcase st.step rest
    let s ← caught w s
    let a ← addFound w st.subcase s
    .ok (some (a, s.next, s.rest))
  else if line = eigenTitle then do
    let s ← caught w (eigenSection st.subcase rest)
    let a ← addFrequencies w st.subcase s
    .ok (some (a, s.next, s.rest))
  else if line = complexSectionTitle then do
    let s ← caught w (complexSection st.subcase st.frequency rest)
    let a ← addComplex w st.subcase s
    .ok (some (a, s.next, s.rest))
  else if isStressTitle line then do
    let s ← stressSection st.subcase atEnd rest
    let s ← caught w s
    let a ← addFound w st.subcase s
    .ok (some (a, s.next, s.rest))
  else .ok none

/-- The loop of `add_assertions` (F06Parser.cpp 525-572), at most `fuel` turns. -/
def mainLoop (w : World) (atEnd : Option Line) : Nat → Status → List Line → Outcome (List Added)
  | 0, _, _ => .diverges
  | _ + 1, _, [] => .ok []
  | fuel + 1, st, l :: rest => do
    let line := trim l
    let st ← st.read line
    match ← sectionAt w st atEnd line rest with
    | none => mainLoop w atEnd fuel st rest
    | some (a, next, rest) => do
      let more ← mainLoop w atEnd fuel { st with subcase := next } rest
      .ok (a ++ more)

/-- `add_assertions` (F06Parser.cpp 516-575): the assertions added to the model, in their order. Each turn of the loop reads
a line. -/
def addAssertions (w : World) (s : Input) : Outcome (List Added) :=
  mainLoop w s.atEnd (s.lines.length + 1) Status.init s.lines

end F06
end Vega
