import Verif.Nastran.Lines

/-! # Reading the fields of a card: `Nastran/NastranTokenizer.cpp` 102-120, 224-300, 402-529

`handleParsingError` (SolverInterfaces.cpp 135-157) either ends the program or throws; both are `throw` here. -/
namespace Vega
namespace Nastran

/-- `NastranTokenizer::SymbolType` (NastranTokenizer.h). -/
inductive Symbol where
  | keyword | field | eof
  deriving DecidableEq, Repr

/-- The part of the tokenizer that walks through one card: `currentLineVector`, `currentField`,
`nextSymbolType`. -/
structure Cursor where
  fields : List Line
  pos : Nat
  sym : Symbol
  deriving DecidableEq, Repr

/-- State after `nextLine` has read a card (NastranTokenizer.cpp 302-326). -/
def Cursor.start (fields : List Line) : Cursor := ⟨fields, 0, .keyword⟩

/-- `boost::to_upper` in the C locale. -/
def toUpper (l : Line) : Line := l.map Char.toUpper

/-- `nextSymbolString` (NastranTokenizer.cpp 102-120). -/
def nextSymbolString (c : Cursor) : Line × Cursor :=
  match c.fields[c.pos]? with
  | none => ([], { c with sym := .keyword })
  | some f =>
    let result := if c.sym = .keyword then toUpper (trimRight f) else trimRight f
    (result, ⟨c.fields, c.pos + 1, if c.pos + 1 ≥ c.fields.length then .keyword else .field⟩)

/-- `skip` (NastranTokenizer.cpp 416-429) for a number of fields that is not negative. -/
def skip (n : Nat) (c : Cursor) : Outcome Cursor :=
  if c.sym = .eof then .throw
  else
    let p := min c.fields.length (c.pos + n)
    .ok ⟨c.fields, p, if p = c.fields.length then .keyword else .field⟩

/-- `skipToNextKeyword` (NastranTokenizer.cpp 436-439). -/
def skipToNextKeyword (c : Cursor) : Cursor := ⟨c.fields, c.fields.length, .keyword⟩

/-- `trim_copy(currentLineVector[currentField + i])`: out of range, nothing is guaranteed. -/
def fieldAt (c : Cursor) (i : Nat) : Outcome Line :=
  match c.fields[c.pos + i]? with
  | some f => .ok (trim f)
  | none => .ub

/-- Characters of an integer (NastranTokenizer.cpp 229). -/
def intChar (c : Char) : Bool := c = '-' || (decide ('0' ≤ c) && decide (c ≤ '9'))

/-- `isNextInt` (NastranTokenizer.cpp 224-230). -/
def isNextInt (c : Cursor) : Outcome Bool :=
  if c.sym ≠ .field then .ok false
  else do
    let f ← fieldAt c 0
    .ok (!f.isEmpty && f.all intChar)

/-- `isNextTHRU` (NastranTokenizer.cpp 232-239) and `isNextBY` (241-248). -/
def isNextWord (w : Line) (c : Cursor) : Outcome Bool :=
  if c.sym ≠ .field then .ok false
  else do
    let f ← fieldAt c 0
    .ok (toUpper f = w)

def isNextTHRU : Cursor → Outcome Bool := isNextWord ['T', 'H', 'R', 'U']
def isNextBY : Cursor → Outcome Bool := isNextWord ['B', 'Y']

/-- The loop of `isNextEmpty` (NastranTokenizer.cpp 259-270), `n` turns left, at field `i`. -/
def isNextEmptyLoop (c : Cursor) : Nat → Nat → Outcome Bool
  | 0, _ => .ok true
  | n + 1, i =>
    if c.sym ≠ .field then .ok false
    else do
      let f ← fieldAt c i
      let r ← isNextEmptyLoop c n (i + 1)
      .ok (f.isEmpty && r)

def isNextEmpty (n : Nat) (c : Cursor) : Outcome Bool := isNextEmptyLoop c n 0

/-- `isEmptyUntilNextKeyword` (NastranTokenizer.cpp 272-284). -/
def isEmptyUntilNextKeyword (c : Cursor) : Bool :=
  if c.sym = .keyword then true
  else if c.sym = .eof then true
  else (c.fields.drop c.pos).all fun f => (trim f).isEmpty

/-- `nextString` (NastranTokenizer.cpp 402-414); `dflt` is `none` when a value is required. -/
def nextString (dflt : Option Line) (c : Cursor) : Outcome (Line × Cursor) :=
  let r := nextSymbolString c
  let value := toUpper (trim r.1)
  if value.isEmpty then
    match dflt with
    | some d => .ok (d, r.2)
    | none => .throw
  else .ok (value, r.2)

def intMax : Int := 2147483647
def intMin : Int := -2147483648

/-- Value of a digit. -/
def digit? (c : Char) : Option Nat :=
  if '0' ≤ c ∧ c ≤ '9' then some (c.toNat - 48) else none

/-- Value of a sequence of digits, most significant first, after a prefix of value `acc`. -/
def digits? : Nat → Line → Option Nat
  | acc, [] => some acc
  | acc, c :: cs =>
    match digit? c with
    | none => none
    | some d => digits? (acc * 10 + d) cs

/-- `lexical_cast<int>`: an optional sign, then at least one digit, within the range of `int`. -/
def parseInt (l : Line) : Option Int :=
  let r : Option Int := match l with
    | [] => none
    | c :: cs =>
      if c = '-' then (if cs.isEmpty then none else (digits? 0 cs).map fun n => -(n : Int))
      else if c = '+' then (if cs.isEmpty then none else (digits? 0 cs).map fun n => (n : Int))
      else (digits? 0 (c :: cs)).map fun n => (n : Int)
  match r with
  | some n => if intMin ≤ n ∧ n ≤ intMax then some n else none
  | none => none

/-- `nextInt` (NastranTokenizer.cpp 442-463). -/
def nextInt (dflt : Option Int) (c : Cursor) : Outcome (Int × Cursor) :=
  let r := nextSymbolString c
  let value := trim r.1
  if value.isEmpty then
    match dflt with
    | some d => .ok (d, r.2)
    | none => .throw
  else match parseInt value with
    | some n => .ok (n, r.2)
    | none => .throw

/-- `for(int i=start+1;i<=endint;i+=step) result.push_back(i)` (NastranTokenizer.cpp 484-486) from `i` on, at most
`fuel` turns. Going beyond the range of `int` is undefined. -/
def rangeLoop (endint step : Int) : Nat → Int → Outcome (List Int)
  | 0, _ => .diverges
  | fuel + 1, i =>
    if i > intMax ∨ i < intMin then .ub
    else if i ≤ endint then do
      let r ← rangeLoop endint step fuel (i + step)
      .ok (i :: r)
    else .ok []

/-- The whole loop. A step of zero never ends; a negative step ends by leaving the range of `int`. -/
def pushRange (start endint step : Int) : Outcome (List Int) :=
  if start + 1 ≤ endint ∧ step = 0 then .diverges
  else if start + 1 ≤ endint ∧ step < 0 then .ub
  else rangeLoop endint step ((endint - start).toNat + 2) (start + 1)

/-- The branch `isNextTHRU()` of `nextInts` (NastranTokenizer.cpp 470-486). `list::back` of an
empty list is undefined. -/
def thruStep (result : List Int) (c : Cursor) : Outcome (List Int × Cursor) := do
  let c ← skip 1 c
  match result.getLast? with
  | none => .ub
  | some start => do
    let (endint, c) ← nextInt none c
    let swapped := start > endint
    let result := if swapped then result.dropLast ++ [endint] else result
    let lo := if swapped then endint else start
    let hi := if swapped then start else endint
    let by_ ← isNextBY c
    if by_ then do
      let c ← skip 1 c
      let (step, c) ← nextInt none c
      let more ← pushRange lo hi step
      .ok (result ++ more, c)
    else do
      let more ← pushRange lo hi 1
      .ok (result ++ more, c)

/-- The loop of `nextInts` (NastranTokenizer.cpp 465-490), at most `fuel` turns. -/
def nextIntsLoop : Nat → List Int → Cursor → Outcome (List Int × Cursor)
  | 0, _, _ => .diverges
  | fuel + 1, result, c => do
    let i ← isNextInt c
    if i then do
      let (n, c) ← nextInt none c
      nextIntsLoop fuel (result ++ [n]) c
    else do
      let t ← isNextTHRU c
      if t then do
        let (result, c) ← thruStep result c
        nextIntsLoop fuel result c
      else .ok (result, c)

/-- `nextInts`: each turn reads at least one field. -/
def nextInts (c : Cursor) : Outcome (List Int × Cursor) :=
  nextIntsLoop (c.fields.length + 1) [] c

/-- `value.find_first_of(set, 1)` (NastranTokenizer.cpp 515-516). -/
def findFrom1 (p : Char → Bool) : Line → Option Nat
  | [] => none
  | _ :: cs => (cs.findIdx? p).map (· + 1)

/-- The rewriting of a real (NastranTokenizer.cpp 512-518). -/
def normReal (value : Line) : Line :=
  let value := value.map fun c => if c = 'd' then 'e' else c
  let value := value.map fun c => if c = 'D' then 'E' else c
  let value := value.filter fun c => c ≠ ' '
  match findFrom1 (fun c => c = '+' || c = '-') value with
  | none => value
  | some position =>
    -- `find_first_of("eE", 1) + 1` is 0 when there is no letter
    let after := match findFrom1 (fun c => c = 'e' || c = 'E') value with
      | none => 0
      | some p => p + 1
    if position ≠ after then value.take position ++ 'E' :: value.drop position else value

end Nastran
end Vega
