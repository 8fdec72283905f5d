import Verif.Map
import Verif.Results.F06

/-! # The case control section: `Nastran/NastranParser.cpp` 159-329, 331-525, 618-1012

The part of a Nastran file before `BEGIN BULK`: the solution, the sets chosen for all subcases and for each of them, lists
of numbers, combinations of subcases. The file ends with a newline. Messages, warnings, the input context and the mark
`onlyMesh` left by an error are not described. -/
namespace Vega
namespace Case
open Nastran (Line isSpace trim toUpper Cursor Symbol nextString nextInt intMin intMax)
open F06 (has)

/-! ## Texts -/

/-- `boost::split(…, is_any_of(…), token_compress_on)`: the pieces between runs of separators; `inRun` tells that the
character before was a separator. -/
def splitRuns (sep : Char → Bool) : Bool → Line → List Line
  | _, [] => [[]]
  | inRun, c :: cs =>
    if sep c then (if inRun then splitRuns sep true cs else [] :: splitRuns sep true cs)
    else match splitRuns sep false cs with
      | [] => [[c]]
      | f :: fs => (c :: f) :: fs

/-- The separators of the words of a line (NastranTokenizer.cpp 314). -/
def isSep (c : Char) : Bool := c == '\t' || c == '\\' || c == '=' || c == ' '

/-- `stoi`: blanks before the number are passed over. -/
def stoi (l : Line) : Option Int := F06.stoi (l.dropWhile isSpace)

/-- `stod`. -/
def stod (l : Line) : Option Dbl := F06.stod (l.dropWhile isSpace)

/-! ## The tokenizer in this section -/

/-- The current line (`currentRawDataLine`), its words and the lines left. -/
structure Tok where
  raw : Line
  cur : Cursor
  rest : List Line

/-- `nextLine` (NastranTokenizer.cpp 302-326) in the executive section. At the end of the file the line is empty. -/
def nextLine (t : Tok) : Tok :=
  match Nastran.readLine true t.rest with
  | none => ⟨[], ⟨[], 0, .eof⟩, []⟩
  | some (l, rest) => ⟨trim l, Cursor.start (splitRuns isSep false (trim l)), rest⟩

/-- `keyword = tok.nextString(true, ""); trim(keyword); to_upper(keyword)` (NastranParser.cpp 205-206, 339-340). -/
def keyword (c : Cursor) : Line × Cursor :=
  match nextString (some []) c with
  | .ok (k, c) => (toUpper (trim k), c)
  | _ => ([], c)

/-- The words left in a line, joined (NastranParser.cpp 210-215 with `_`, 357-361 without separator), at most `fuel` of
them. -/
def wordsLeft (sep : Line) : Nat → Line → Cursor → Line × Cursor
  | 0, _, c => ([], c)
  | fuel + 1, before, c =>
    if c.sym = .field then
      match nextString (some []) c with
      | .ok (w, c) => let r := wordsLeft sep fuel sep c; (before ++ w ++ r.1, r.2)
      | _ => ([], c)
    else ([], c)

/-! ## Contexts -/

/-- A `map<string, string>`: in the order of the keys, each of them once. -/
abbrev Context := List (Line × Line)

/-- The order of strings. -/
def lineLt : Line → Line → Bool
  | [], [] => false
  | [], _ :: _ => true
  | _ :: _, [] => false
  | a :: l, b :: m => if a.toNat < b.toNat then true else if a.toNat = b.toNat then lineLt l m else false

/-- A key put before the first greater one. -/
def insertKey (k v : Line) : Context → Context
  | [] => [(k, v)]
  | (k', v') :: c => if lineLt k k' then (k, v) :: (k', v') :: c else (k', v') :: insertKey k v c

/-- `context[k] = v`. -/
def put (k v : Line) (c : Context) : Context := insertKey k v (c.filter fun e => e.1 ≠ k)

/-- `context.find(k)`. -/
def get (c : Context) (k : Line) : Option Line := Map.find c k

/-! ## Analyses -/

/-- `NastranAnalysis` (NastranParser.h). -/
inductive Solution where
  | static | modes | buckl | nlstatic | dfreq | dtran | mceig | mfreq | mtran | desopt
  deriving DecidableEq, Repr

/-- `ANALYSIS_BY_LABEL` (NastranParser.cpp 159-190). -/
def solutions : List (Line × Solution) :=
  [("1".toList, .static), ("101".toList, .static), ("1,1".toList, .static), ("STATIC".toList, .static),
    ("STATICS".toList, .static), ("SESTATIC".toList, .static), ("SESTATICS".toList, .static), ("3".toList, .modes),
    ("103".toList, .modes), ("MODES".toList, .modes), ("SEMODES".toList, .modes), ("5".toList, .buckl), ("105".toList, .buckl),
    ("BUCKL".toList, .buckl), ("SEBUCKL".toList, .buckl), ("6".toList, .nlstatic), ("106".toList, .nlstatic),
    ("NLSTATIC".toList, .nlstatic), ("108".toList, .dfreq), ("SEDFREQ".toList, .dfreq), ("109".toList, .dtran),
    ("SEDTRAN".toList, .dtran), ("110".toList, .mceig), ("SEMCEIG".toList, .mceig), ("111".toList, .mfreq),
    ("SEMFREQ".toList, .mfreq), ("112".toList, .mtran), ("SEMTRAN".toList, .mtran), ("200".toList, .desopt),
    ("DESOPT".toList, .desopt)]

def solutionOf (l : Line) : Option Solution := Map.find solutions l

/-- The kinds of analyses made (NastranParser.cpp 707-834, 994) with the numbers of the sets given to them. The analysis
`statsub` is given by its number, the parts of a combination by their positions. -/
inductive Kind where
  | linearStatic
  | buckling (method : Int) (statsub : Option Int)
  | modalComplex (method cmethod : Int)
  | modal (method : Int)
  | nonLinear (strategy : Int)
  | directFreq (freq : Int)
  | modalFreq (method damping freq : Int) (residual : Bool)
  | combination (coefs : List (Nat × Dbl))
  deriving DecidableEq

/-- `Analysis::Type` of the analyses made (Analysis.cpp 594, 598, 604, 673, 736, Analysis.h). -/
inductive AType where
  | linearStatic | buckling | modalComplex | modal | nonLinear | directFreq | modalFreq | combination
  deriving DecidableEq, Repr

def Kind.type : Kind → AType
  | .linearStatic => .linearStatic
  | .buckling _ _ => .buckling
  | .modalComplex _ _ => .modalComplex
  | .modal _ => .modal
  | .nonLinear _ => .nonLinear
  | .directFreq _ => .directFreq
  | .modalFreq _ _ _ _ => .modalFreq
  | .combination _ => .combination

/-- The kinds of sets of constraints, loads and outputs used here. -/
inductive CSet where
  | spc | mpc | contact
  deriving DecidableEq, Repr

inductive LSet where
  | load | dload | loadset
  deriving DecidableEq, Repr

inductive OSet where
  | disp | ofreq | stress
  deriving DecidableEq, Repr

/-- `Identifiable::NO_ORIGINAL_ID` (Object.h 141). -/
def noId : Int := intMin

/-- An analysis: its kind, number and label, the references to sets (`std::set`s, here without order), the analysis before it
in the model. -/
structure Analysis where
  kind : Kind
  id : Int
  label : Line
  constraints : List (CSet × Int)
  loads : List (LSet × Int)
  outputs : List (OSet × Int)
  previous : Option Nat
  deriving DecidableEq

/-- Is there an analysis of this type with this number? `Container::add` (Model.h 582-592) refuses a second one. -/
def taken (l : List Analysis) (t : AType) (id : Int) : Bool :=
  decide (id ≠ noId) && l.any fun b => decide (b.kind.type = t) && decide (b.id = id)

/-- Values of a `SET` command. The values of a list are kept in a `std::set`; here in the order of the text, with repetitions. -/
inductive SetValue where
  | all
  | list (values : List Int)
  deriving DecidableEq

/-- The direct matrices named (NastranParser.cpp 355-387, 391-457). -/
inductive MatrixKind where
  | damping | stiffness | mass
  deriving DecidableEq

/-- What this section puts into the model. The containers of analyses, sets of constraints and loads and values are lists, in the
order of creation; outputs are those that were made for a `DISPLACEMENT`, with their phase. -/
structure Deck where
  analyses : List Analysis
  constraintSets : List (CSet × Int)
  loadSets : List (LSet × Int)
  phases : List (Int × Bool)
  sets : List (Int × SetValue)
  matrices : List (MatrixKind × Line)
  title : Line
  description : Line
  deriving DecidableEq

def Deck.empty : Deck := ⟨[], [], [], [], [], [], [], []⟩

/-- How the program is run: in strict mode errors leave the parser, otherwise the command is skipped (SolverInterfaces.cpp
163-182). `gnu` tells what `erase(end())` does: nothing is guaranteed by the standard; the library of GNU removes the last
element. `loadstep` are the labels found in `$HMNAME LOADSTEP` comments. -/
structure Config where
  strict : Bool
  gnu : Bool
  loadstep : Int → Option Line

/-- `handleParsingError`: `none` is the string thrown, to be caught by the parser. -/
def fail (cfg : Config) : Outcome (Option α) := if cfg.strict then .throw else .ok none

/-! ## `addAnalysis` -/

/-- `autoSubcaseAnalysis` (NastranParser.cpp 618-649). -/
def autoSolution (c : Context) : Solution :=
  if c.any fun e => has "NLPARM".toList e.1 then .nlstatic
  else if c.any fun e => has "CMETHOD".toList e.1 then .mceig
  else if c.any fun e => has "METHOD".toList e.1 then
    (if c.any fun e => has "SDAMPING".toList e.1 then .mfreq else .modes)
  else .static

/-- The solution of a subcase (NastranParser.cpp 676-689): that of `ANALYSIS` for an optimisation. -/
def subcaseSolution (c : Context) (s : Solution) : Solution :=
  if s = .desopt then
    match get c "ANALYSIS".toList with
    | some v => match solutionOf (trim v) with
      | some s => s
      | none => autoSolution c
    | none => autoSolution c
  else s

/-- The label (NastranParser.cpp 693-705). -/
def labelOf (cfg : Config) (c : Context) (id : Int) : Line :=
  match get c "LABEL".toList with
  | some v => trim v
  | none => match cfg.loadstep id with
    | some l => l
    | none => if id ≠ noId then "Analysis_".toList ++ (toString id).toList else []

/-- A number that must be one: `stoi` throws `invalid_argument` or `out_of_range`, which the parser does not catch. -/
def number (v : Line) : Outcome Int :=
  match stoi v with
  | some n => .ok n
  | none => .throw

/-- The number of the first key that contains a word (NastranParser.cpp 737-746, 747-755, 761-770). -/
def firstWith (word : Line) : Context → Outcome (Option Int)
  | [] => .ok none
  | (k, v) :: c => if has word k then (do let n ← number v; .ok (some n)) else firstWith word c

/-- The number of the last key that begins with a word, after `old` (NastranParser.cpp 787-794, 803-811). -/
def lastFrom (word : Line) : Int → Context → Outcome Int
  | old, [] => .ok old
  | old, (k, v) :: c => if word.isPrefixOf k then (do let n ← number v; lastFrom word n c) else lastFrom word old c

/-- The numbers of the last `METHOD` and of the last `STATSUB` that is no preload (NastranParser.cpp 713-723). -/
def bucklingNumbers : Int × Int → Context → Outcome (Int × Int)
  | r, [] => .ok r
  | (m, s), (k, v) :: c => do
    let m ← if has "METHOD".toList k then number v else .ok m
    let s ← if has "STATSUB".toList k && !has "PRELOAD".toList k then number v else .ok s
    bucklingNumbers (m, s) c

/-- `RESVEC` (NastranParser.cpp 818-822): the first key not before it. -/
def residual (c : Context) : Bool :=
  match c.find? fun e => !lineLt e.1 "RESVEC".toList with
  | some (k, v) => "RESVEC".toList.isPrefixOf k && v = "YES".toList
  | none => false

/-- The kind of an analysis (NastranParser.cpp 707-834). The three loops over `METHOD`, `SDAMPING` and `FREQ` are one in the
code; the order matters only for which of several exceptions is thrown. -/
def kindOf (cfg : Config) (analyses : List Analysis) (c : Context) (s : Solution) : Outcome (Option Kind) :=
  match s with
  | .static => .ok (some .linearStatic)
  | .buckl =>
    if analyses.isEmpty then .ok (some .linearStatic)
    else do
      let r ← bucklingNumbers (0, 0) c
      if r.1 = 0 then fail cfg
      else if r.2 = 0 then .ok (some (.buckling r.1 none))
      else if analyses.any fun a => a.id = r.2 then .ok (some (.buckling r.1 (some r.2)))
      else fail cfg
  | .mceig => do
    match ← firstWith "METHOD".toList c with
    | none => fail cfg
    | some m =>
      match ← firstWith "CMETHOD".toList c with
      | none => fail cfg
      | some k => .ok (some (.modalComplex m k))
  | .modes => do
    match ← firstWith "METHOD".toList c with
    | none => fail cfg
    | some m => .ok (some (.modal m))
  | .nlstatic =>
    match get c "NLPARM".toList with
    | none => fail cfg
    | some v => do
      let n ← number v
      .ok (some (.nonLinear n))
  | .dfreq => do
    let f ← lastFrom "FREQ".toList 0 c
    if f = 0 then fail cfg else .ok (some (.directFreq f))
  | .mfreq => do
    let m ← lastFrom "METHOD".toList 0 c
    let d ← lastFrom "SDAMPING".toList 0 c
    let f ← lastFrom "FREQ".toList 0 c
    if f = 0 then fail cfg else if m = 0 then fail cfg else .ok (some (.modalFreq m d f (residual c)))
  | .dtran => fail cfg
  | .mtran => fail cfg
  | .desopt => fail cfg

/-- `options.erase(remove_if(…, empty))` (NastranParser.cpp 845): `remove_if` gives the first place after the texts
kept, and one element is erased there; the other places hold texts that were moved. -/
def cleanOptions (cfg : Config) (options : List Line) : Outcome (List Line) :=
  match options.length - (options.filter fun o => !o.isEmpty).length with
  | 0 => if cfg.gnu then .ok options.dropLast else .ub
  | k + 1 => .ok ((options.filter fun o => !o.isEmpty) ++ List.replicate k [])

/-- The separators of the options of a key (NastranParser.cpp 844). -/
def isOptionSep (c : Char) : Bool := c == '(' || c == ',' || c == ' ' || c == ')'

/-- The key and its options (NastranParser.cpp 843-849). -/
def keyOptions (cfg : Config) (key : Line) : Outcome (Line × List Line) := do
  match ← cleanOptions cfg (splitRuns isOptionSep false key) with
  | k :: o :: os => .ok (k, o :: os)
  | os => .ok (key, os)

/-- `key.compare(0, n, word)` is zero. -/
def begins (n : Nat) (word key : Line) : Bool := key.take n = word

/-- The number of a value that is made of digits, 0 otherwise (NastranParser.cpp 838-842). -/
def valueId (value : Line) : Outcome Int :=
  let v := trim value
  if !v.isEmpty && v.all Char.isDigit then number v else .ok 0

/-- A reference added to a set of references, an object added to a container unless it is found there. -/
def addNew [DecidableEq α] (x : α) (l : List α) : List α := if l.contains x then l else l ++ [x]

def selectConstraint (t : CSet) (id : Int) (d : Deck) (a : Analysis) : Deck × Analysis :=
  ({ d with constraintSets := addNew (t, id) d.constraintSets }, { a with constraints := addNew (t, id) a.constraints })

def selectLoad (t : LSet) (id : Int) (d : Deck) (a : Analysis) : Deck × Analysis :=
  ({ d with loadSets := addNew (t, id) d.loadSets }, { a with loads := addNew (t, id) a.loads })

def selectOutput (t : OSet) (id : Int) (a : Analysis) : Analysis := { a with outputs := addNew (t, id) a.outputs }

/-- What an entry of the context adds to the analysis (NastranParser.cpp 836-957). -/
def select (cfg : Config) (e : Line × Line) (d : Deck) (a : Analysis) : Outcome (Deck × Analysis) := do
  let id ← valueId e.2
  let (key, options) ← keyOptions cfg e.1
  if begins 3 "SPC".toList key then .ok (selectConstraint .spc id d a)
  else if begins 3 "MPC".toList key then .ok (selectConstraint .mpc id d a)
  else if begins 7 "LOADSET".toList key then .ok (selectLoad .loadset id d a)
  else if begins 4 "LOAD".toList key then .ok (selectLoad .load id d a)
  else if begins 5 "DLOAD".toList key then .ok (selectLoad .dload id d a)
  else if begins 4 "BCONTACT".toList key then .ok (selectConstraint .contact id d a)
  else if begins 4 "DISP".toList key then
    if id = 0 then .ok (d, a)
    else .ok ({ d with phases := d.phases ++ [(id, options.contains "PHASE".toList)] }, selectOutput .disp id a)
  else if begins 4 "OFREQUENCY".toList key then
    if id = 0 then .ok (d, a) else .ok (d, selectOutput .ofreq id a)
  else if begins 4 "STRESS".toList key then
    if id = 0 then .ok (d, a)
    else if options.contains "VMIS".toList then .ok (d, selectOutput .stress id a) else .ub
  else .ok (d, a)

/-- All entries, in the order of the keys. -/
def selectAll (cfg : Config) : Context → Deck → Analysis → Outcome (Deck × Analysis)
  | [], d, a => .ok (d, a)
  | e :: c, d, a => do
    let r ← select cfg e d a
    selectAll cfg c r.1 r.2

/-- The last analysis of the model. -/
def lastOf (l : List Analysis) : Option Nat := if l.isEmpty then none else some (l.length - 1)

/-- The solution named (NastranParser.cpp 654-659). -/
def solutionLabel (c : Context) : Line :=
  match get c "SOL".toList with
  | some v => trim v
  | none => []

/-- `addAnalysis` (NastranParser.cpp 651-977) with `Container::add` (Model.h 582-592). -/
def addAnalysis (cfg : Config) (c : Context) (id : Int) (d : Deck) : Outcome (Option Deck) :=
  if (solutionLabel c).isEmpty then .ok (some d)
  else match solutionOf (solutionLabel c) with
    | none => fail cfg
    | some s => do
      match ← kindOf cfg d.analyses c (subcaseSolution c s) with
      | none => .ok none
      | some k =>
        let r ← selectAll cfg c d ⟨k, id, labelOf cfg c id, [], [], [], lastOf d.analyses⟩
        if taken r.1.analyses r.2.kind.type r.2.id then .throw
        else .ok (some { r.1 with analyses := r.1.analyses ++ [r.2] })

/-- The coefficients of a combination (NastranParser.cpp 998-1009): `i` is raised twice a turn; the analyses are found by
their position, going beyond the end is undefined. `none` is an exception of `stod`. -/
def coefficients (size : Nat) : Nat → List Line → Outcome (List (Nat × Dbl))
  | _, [] => .ok []
  | i, [s] =>
    if i < size then (match stod s with
      | some x => .ok [(i, x)]
      | none => .throw) else .ub
  | i, s :: _ :: l =>
    if i < size then (match stod s with
      | some x => do
        let r ← coefficients size (i + 2) l
        .ok ((i, x) :: r)
      | none => .throw) else .ub

/-- `addCombinationAnalysis` (NastranParser.cpp 979-1012): without `SUBSEQ`, what follows the end of the map is used. -/
def addCombination (cfg : Config) (c : Context) (id : Int) (d : Deck) : Outcome Deck :=
  match get c "SUBSEQ".toList with
  | none => .ub
  | some v => do
    let coefs ← coefficients d.analyses.length 0 (Nastran.splitComma v)
    if taken d.analyses .combination id then .throw
    else .ok { d with analyses := d.analyses ++ [⟨.combination coefs, id, labelOf cfg c id, [], [], [], none⟩] }

/-! ## `SET` -/

/-- The lines of a list that goes on after a comma (NastranParser.cpp 277-281), at most `fuel` of them. At the end of the file
the line read is empty, and the loop does not end. -/
def setText : Nat → Tok → Line → Outcome (Line × Tok)
  | 0, _, _ => .diverges
  | fuel + 1, t, line =>
    if line.getLast? = some ',' then
      let t' := nextLine t
      setText fuel t' (line ++ trim t'.raw)
    else .ok (line, t)

/-- `find_last_of(" ")` and the two `substr`s (NastranParser.cpp 285-291). -/
def cutAtLastSpace (l : Line) : Option (Line × Line) :=
  match l.reverse.dropWhile (· ≠ ' ') with
  | [] => none
  | _ :: before => some (before.reverse, (l.reverse.takeWhile (· ≠ ' ')).reverse)

/-- The two sides of a `SET` command (NastranParser.cpp 282-294); `none` is an error. -/
def setSides (line : Line) : Option (Line × Line) :=
  match splitRuns (· = '=') false line with
  | [_] => cutAtLastSpace line
  | [a, b] => some (a, b)
  | _ => none

/-- `for (int j = a; j <= b; j++)` (NastranParser.cpp 317-319). -/
def setRange (a b : Int) : Outcome (List Int) :=
  if a ≤ b ∧ b = intMax then .ub else .ok ((List.range (b + 1 - a).toNat).map fun (i : Nat) => a + (i : Int))

/-- The values of a list (NastranParser.cpp 314-324). -/
def setValues : List Line → Outcome (List Int)
  | [] => .ok []
  | [a] => do
    let n ← number a
    .ok [n]
  | [a, b] => do
    let n ← number a
    let m ← number b
    .ok [n, m]
  | a :: b :: c :: l =>
    if b = "THRU".toList then do
      let n ← number a
      let m ← number c
      let r ← setRange n m
      let more ← setValues l
      .ok (r ++ more)
    else do
      let n ← number a
      let more ← setValues (b :: c :: l)
      .ok (n :: more)

/-- The separators of a list (NastranParser.cpp 314). -/
def isListSep (c : Char) : Bool := c == ',' || c == ' '

/-- What a `SET` command adds (NastranParser.cpp 298-328): `none` for the lists that are left out. -/
def setValue (text : Line) : Outcome (Option SetValue) :=
  let text := toUpper (trim text)
  if "ALL".toList.isPrefixOf text then .ok (some .all)
  else if "INCLUDE".toList.isPrefixOf text || "EXCLUDE".toList.isPrefixOf text || "ELEMENTS".toList.isPrefixOf text ||
      "GRID".toList.isPrefixOf text then .ok none
  else if has "EXCEPT".toList text then .ok none
  else if !(text.head?.any Char.isDigit) then .ok none
  else do
    let l ← setValues (splitRuns isListSep false text)
    .ok (some (.list l))

/-- `addSet` (NastranParser.cpp 276-329) for the current line; `none` is an error. A second set with the same number is refused by
`Container::add` (Model.h 549-580); this exception is not caught by the parser. -/
def addSet (cfg : Config) (t : Tok) (d : Deck) : Outcome (Tok × Option Deck) := do
  let (line, t) ← setText (t.rest.length + 2) t (trim t.raw)
  match setSides line with
  | none => if cfg.strict then .throw else .ok (t, none)
  | some (a, b) =>
    if a.length < 4 then .throw
    else do
      let id ← number (trim (a.drop 4))
      match ← setValue b with
      | some v =>
        if d.sets.any fun e => decide (e.1 = id) then .throw
        else .ok (t, some { d with sets := d.sets ++ [(id, v)] })
      | none => .ok (t, some d)

/-! ## Subcases -/

/-- The words that end a subcase (NastranParser.cpp 209, 251). -/
def endsSubcase (k : Line) : Bool := k.isEmpty || k = "BEGIN".toList || k = "SUBCASE".toList || k = "SUBCOM".toList

/-- The loop of `parseSubcase` (NastranParser.cpp 199-227; `sets` is true) and that of `parseSubcom` (243-266), at most `fuel`
lines. The keyword that ends it, and the context; `none` is an error in a list. -/
def subcaseLoop (cfg : Config) (sets : Bool) : Nat → Tok → Line → Context → Deck →
    Outcome (Tok × Deck × Option (Line × Context))
  | 0, _, _, _, _ => .diverges
  | fuel + 1, t, kw, c, d =>
    let t := nextLine t
    if t.cur.sym = .eof then .ok (t, d, some (kw, c))
    else
      let (k, cur) := keyword t.cur
      let t := { t with cur := cur }
      if sets && k = "SET".toList then do
        match ← addSet cfg t d with
        | (t, none) => .ok (t, d, none)
        | (t, some d) => subcaseLoop cfg sets fuel t k c d
      else if endsSubcase k then .ok (t, d, some (k, c))
      else
        let (line, cur) := wordsLeft ['_'] t.cur.fields.length [] t.cur
        subcaseLoop cfg sets fuel { t with cur := cur } k (put k line c) d

/-- `parseSubcase` (NastranParser.cpp 192-235): the keyword that ends it. An error in the analysis is caught there. -/
def parseSubcase (cfg : Config) (t : Tok) (c : Context) (d : Deck) : Outcome (Tok × Deck × Option Line) :=
  match nextInt (some 0) t.cur with
  | .ok (id, cur) => do
    let t := { t with cur := cur }
    match ← subcaseLoop cfg true (t.rest.length + 1) t [] c d with
    | (t, d, none) => .ok (t, d, none)
    | (t, d, some (k, c)) => do
      match ← addAnalysis cfg c id d with
      | some d => .ok (t, d, some k)
      | none => .ok (t, d, some k)
  | _ => if cfg.strict then .throw else .ok (t, d, none)

/-- `parseSubcom` (NastranParser.cpp 237-274). -/
def parseSubcom (cfg : Config) (t : Tok) (c : Context) (d : Deck) : Outcome (Tok × Deck × Option Line) :=
  match nextInt (some 0) t.cur with
  | .ok (id, cur) => do
    let t := { t with cur := cur }
    match ← subcaseLoop cfg false (t.rest.length + 1) t [] c d with
    | (t, d, none) => .ok (t, d, none)
    | (t, d, some (k, c)) => do
      let d ← addCombination cfg c id d
      .ok (t, d, some k)
  | _ => if cfg.strict then .throw else .ok (t, d, none)

/-! ## The section -/

/-- The name of a direct matrix (NastranParser.cpp 373-380): no list, no number. -/
def matrixName (line : Line) : Option Line :=
  let l := trim line
  if l.any fun c => c == ',' || c == ' ' || c == '*' then none
  else if (stoi l).isSome then none
  else some l

/-- The words of `K2GG` and `M2GG` must not be empty (NastranParser.cpp 395, 428). -/
def noEmptyLeft (c : Cursor) : Bool := (c.fields.drop c.pos).all fun f => !(trim f).isEmpty

/-- A command that is neither of those known here (NastranParser.cpp 478-501). -/
def command (kw : Line) (t : Tok) (c : Context) : Outcome Context :=
  if t.cur.sym ≠ .field then .ok (put kw [] c)
  else match splitRuns (· = '=') false t.raw with
    | [p] => match splitRuns (· = ' ') false p with
      | _ :: v :: _ => .ok (put kw v c)
      | _ => .ub
    | k :: v :: _ => .ok (put (toUpper (trim k)) v c)
    | [] => .ub

/-- What a command leaves: the tokenizer, the context, the model, the keyword that a subcase has read, whether it was a subcase,
and whether it was the last command; `failed` tells that an error was caught. -/
structure Done where
  tok : Tok
  context : Context
  deck : Deck
  next : Option Line
  subcase : Bool
  stop : Bool
  failed : Bool

/-- The command for a matrix (NastranParser.cpp 355-387, 391-457). -/
def matrixCommand (cfg : Config) (kind : MatrixKind) (required : Bool) (t : Tok) (c : Context) (d : Deck) : Outcome Done :=
  if required && !noEmptyLeft t.cur then
    if cfg.strict then .throw else .ok ⟨t, c, d, none, false, false, true⟩
  else
    let (line, cur) := wordsLeft [] t.cur.fields.length [] t.cur
    match matrixName line with
    | none => if cfg.strict then .throw else .ok ⟨t, c, d, none, false, false, true⟩
    | some n => .ok ⟨{ t with cur := cur }, c, { d with matrices := d.matrices ++ [(kind, n)] }, none, false, false, false⟩

/-- The body of the loop of `parseExecutiveSection` (NastranParser.cpp 344-509). -/
def commandStep (cfg : Config) (kw : Line) (found : Bool) (t : Tok) (c : Context) (d : Deck) : Outcome Done :=
  if kw.isEmpty then .ok ⟨{ t with cur := Nastran.skipToNextKeyword t.cur }, c, d, none, false, false, false⟩
  else if has "BEGIN".toList kw then
    if found then .ok ⟨t, c, d, none, false, true, false⟩
    else do
      match ← addAnalysis cfg c noId d with
      | some d => .ok ⟨t, c, d, none, false, true, false⟩
      | none => .ok ⟨t, c, d, none, false, true, true⟩
  else if kw = "B2GG".toList then matrixCommand cfg .damping false t c d
  else if kw = "CEND".toList then .ok ⟨{ t with cur := Nastran.skipToNextKeyword t.cur }, c, d, none, false, false, false⟩
  else if kw = "K2GG".toList then matrixCommand cfg .stiffness true t c d
  else if kw = "M2GG".toList then matrixCommand cfg .mass true t c d
  else if kw = "SUBCASE".toList then do
    match ← parseSubcase cfg t c d with
    | (t, d, some k) => .ok ⟨t, c, d, some k, true, false, false⟩
    | (t, d, none) => .ok ⟨t, c, d, none, false, false, true⟩
  else if kw = "SUBCOM".toList then do
    match ← parseSubcom cfg t c d with
    | (t, d, some k) => .ok ⟨t, c, d, some k, true, false, false⟩
    | (t, d, none) => .ok ⟨t, c, d, none, false, false, true⟩
  else if kw = "SUBTITLE".toList then
    let (line, cur) := wordsLeft [] t.cur.fields.length [] t.cur
    .ok ⟨{ t with cur := cur }, c, { d with description := line }, none, false, false, false⟩
  else if kw = "TITLE".toList then
    let (line, cur) := wordsLeft [] t.cur.fields.length [] t.cur
    .ok ⟨{ t with cur := cur }, c, { d with title := line }, none, false, false, false⟩
  else if kw = "SET".toList then do
    match ← addSet cfg t d with
    | (t, some d) => .ok ⟨t, c, d, none, false, false, false⟩
    | (t, none) => .ok ⟨t, c, d, none, false, false, true⟩
  else do
    let c ← command kw t c
    .ok ⟨t, c, d, none, false, false, false⟩

/-- The loop of `parseExecutiveSection` (NastranParser.cpp 342-524), at most `fuel` commands. The variable of the keyword keeps
its value when the end of the file is reached, but the loop ends then. An error leaves the keyword of the command unless
a new one is read; it is read after every error. -/
def sectionLoop (cfg : Config) : Nat → Line → Bool → Tok → Context → Deck → Outcome Deck
  | 0, _, _, _, _, _ => .diverges
  | fuel + 1, kw, found, t, c, d => do
    let r ← commandStep cfg kw found t c d
    match r.next with
    | some k =>
      if r.stop || r.tok.cur.sym = .eof then .ok r.deck
      else sectionLoop cfg fuel k true r.tok r.context r.deck
    | none =>
      let t := nextLine r.tok
      if r.stop || t.cur.sym = .eof then .ok r.deck
      else
        let (k, cur) := keyword t.cur
        sectionLoop cfg fuel k (found || r.subcase) { t with cur := cur } r.context r.deck

/-- `parseExecutiveSection` (NastranParser.cpp 331-525) on the lines of a file: what it puts into the model. At the end of an
empty file the first keyword is empty. -/
def readSection (cfg : Config) (lines : List Line) : Outcome Deck :=
  let t := nextLine ⟨[], ⟨[], 0, .keyword⟩, lines⟩
  let (k, cur) := keyword t.cur
  sectionLoop cfg (lines.length + 2) k false { t with cur := cur } [] Deck.empty

end Case
end Vega
