import Verif.Basic

/-! # Reading cards: `Nastran/NastranTokenizer.cpp` 64-218, 302-400

A text is the list of its lines (what successive `getline`s return); `peek` looks at the first
character of the next line. Line numbers, trace output and the labels found in `$HMNAME`
comments are left out. -/
namespace Vega
namespace Nastran

abbrev Line := List Char

/-- `isspace` in the C locale, used by `boost::trim`. -/
def isSpace (c : Char) : Bool :=
  c = ' ' || c = '\t' || c = '\n' || c = '\r' || c = '\x0b' || c = '\x0c'

/-- `isblank`. -/
def isBlank (c : Char) : Bool := c = ' ' || c = '\t'

/-- `all_of(line, isblank)`: true for the empty line. -/
def blank (l : Line) : Bool := l.all isBlank

/-- `boost::trim_right_copy`. -/
def trimRight (l : Line) : Line := (l.reverse.dropWhile isSpace).reverse

/-- `boost::trim_copy`. -/
def trim (l : Line) : Line := trimRight (l.dropWhile isSpace)

/-- `NastranTokenizer::LineType` (NastranTokenizer.h 41-45). -/
inductive LineType where
  | free | short | long
  deriving DecidableEq, Repr

/-- `getLineType` (NastranTokenizer.cpp 64-75). -/
def getLineType (line : Line) : LineType :=
  let beginning := line.take 8
  if beginning.contains ',' = false then
    if beginning.contains '*' = false then .short else .long
  else .free

/-- Width of the filler in `replaceTabs` for a tab at `ipos` (NastranTokenizer.cpp 84-94). Line 92
repeats what line 90 has done. -/
def numSpacesNeeded (longFormat : Bool) (ipos : Nat) : Nat :=
  if longFormat && ipos > 7 then 16 - (ipos - 8) % 16 else 8 - ipos % 8

/-- Number of tabs left, to show that `replaceTabs` ends. -/
def tabs (l : Line) : Nat := l.count '\t'

/-- The loop of `replaceTabs` (NastranTokenizer.cpp 78-99), run at most `fuel` times: find the first
tab, replace it. -/
def replaceTabsLoop (longFormat : Bool) : Nat → Line → Line
  | 0, line => line
  | fuel + 1, line =>
    match line.dropWhile (· ≠ '\t') with
    | [] => line
    | _ :: post =>
      let pre := line.takeWhile (· ≠ '\t')
      replaceTabsLoop longFormat fuel (pre ++ List.replicate (numSpacesNeeded longFormat pre.length) ' ' ++ post)

/-- `replaceTabs`: each turn removes one tab, so the number of tabs bounds the number of turns. -/
def replaceTabs (longFormat : Bool) (line : Line) : Line := replaceTabsLoop longFormat (tabs line) line

/-- `instrream.peek()`: an empty line shows its end. -/
def peek : List Line → Option Char
  | [] => none
  | [] :: _ => some '\n'
  | (c :: _) :: _ => some c

/-- `readLineSkipComment` (NastranTokenizer.cpp 122-156); `none` for end of file. -/
def readLine (firstLine : Bool) : List Line → Option (Line × List Line)
  | [] => none
  | l :: rest =>
    if !l.isEmpty && !blank l && l.head? ≠ some '$' then
      if !blank (l.takeWhile (· ≠ '$')) then some (l.takeWhile (· ≠ '$'), rest)
      else readLine firstLine rest
    else if !firstLine && blank l then some (l, rest)
    else readLine firstLine rest

/-- `boost::split(.., is_any_of(","))`: the pieces between commas, at least one. -/
def splitComma : Line → List Line
  | [] => [[]]
  | c :: cs =>
    if c = ',' then [] :: splitComma cs
    else match splitComma cs with
      | [] => [[c]]
      | f :: fs => (c :: f) :: fs

/-- `line.substr(line.find(',') + 1)` (NastranTokenizer.cpp 163): the whole line when there is no
comma (`npos + 1 = 0`). -/
def afterComma (line : Line) : Line :=
  match line.dropWhile (· ≠ ',') with
  | [] => line
  | _ :: l => l

/-- The first character of the trimmed field is a plus sign (`field[0]` of an empty string is a null
character). -/
def startsPlus (f : Line) : Bool := (trim f).head? = some '+'

/-- The loop over the fields 1, 9, 17, ... (NastranTokenizer.cpp 169-175). `skip` is the number
of fields before the next one to examine. -/
def dropPlus : Nat → List Line → List Line × Bool
  | _, [] => ([], false)
  | 0, f :: fs =>
    if startsPlus f then
      -- the field is erased: the next one to look at is 8 places after its successor
      let r := dropPlus 8 fs
      (r.1, true)
    else
      let r := dropPlus 7 fs
      (f :: r.1, r.2)
  | k + 1, f :: fs =>
    let r := dropPlus k fs
    (f :: r.1, r.2)

/-- `splitFreeFormat` (NastranTokenizer.cpp 158-182), at most `fuel` lines. At the end of file
`readLineSkipComment` leaves an empty line, which is used. -/
def splitFree : Nat → Line → Bool → List Line → List Line → Outcome (List Line × List Line)
  | 0, _, _, _, _ => .diverges
  | fuel + 1, line, firstLine, rest, vec =>
    let vec := if firstLine then splitComma line else vec ++ splitComma (afterComma line)
    let r := dropPlus 1 vec
    if r.2 || peek rest = some ',' || peek rest = some '+' || peek rest = some '*' then
      match readLine false rest with
      | none => splitFree fuel [] false [] r.1
      | some (line2, rest2) => splitFree fuel line2 false rest2 r.1
    else .ok (r.1, rest)

/-- `boost::tokenizer<offset_separator>`: pieces of the given widths, the last one may be shorter.
The offsets wrap around, but no more pieces are used than there are offsets. -/
def cut : List Nat → Line → List Line
  | [], _ => []
  | n :: ns, l => if l.isEmpty then [] else l.take n :: cut ns (l.drop n)

/-- The offsets (NastranTokenizer.cpp 332-340). -/
def offsets (longFormat : Bool) : List Nat :=
  if longFormat then [8, 16, 16, 16, 16, 8] else [8, 8, 8, 8, 8, 8, 8, 8, 8, 8]

/-- `fieldMax`. -/
def fieldMax (longFormat : Bool) : Nat := if longFormat then 5 else 9

/-- `boost::erase_all(.., "*")`. -/
def eraseStars (f : Line) : Line := f.filter (· ≠ '*')

/-- The loop over the pieces (NastranTokenizer.cpp 353-366): fields, final count, explicit
continuation. -/
def fieldLoop (max : Nat) : List Line → Nat → List Line × Nat × Bool
  | [], count => ([], count, false)
  | t :: ts, count =>
    let f := if count = 0 then eraseStars (trim t) else trim t
    if count + 1 = max then
      ([f], count + 1, match ts with
        | [] => false
        | c :: _ => !(trim c).isEmpty)
    else
      let r := fieldLoop max ts (count + 1)
      (f :: r.1, r.2)

/-- Skipping comment lines inside a card (NastranTokenizer.cpp 370-374). -/
def skipDollar : List Line → List Line
  | [] => []
  | l :: rest => if l.head? = some '$' then skipDollar rest else l :: rest

/-- `splitFixedFormat` (NastranTokenizer.cpp 328-400), at most `fuel` lines; `vec` is
`currentLineVector`. Advancing the iterator of an empty line breaks the precondition of
`token_iterator` (a failed assertion). When a continuation starting with a blank turns out to be
the end of file, the line used is empty. -/
def splitFixed : Nat → Line → Bool → Bool → List Line → List Line → Outcome (List Line × List Line)
  | 0, _, _, _, _, _ => .diverges
  | fuel + 1, line, longFormat, firstLine, rest, vec =>
    let toks := cut (offsets longFormat) (replaceTabs longFormat line)
    if !firstLine && toks.isEmpty then .ub
    else
      let r := if firstLine then fieldLoop (fieldMax longFormat) toks 0
        else fieldLoop (fieldMax longFormat) (toks.drop 1) 1
      let rest := skipDollar rest
      if r.2.2 || peek rest = some '+' then
        match readLine false rest with
        | none => .throw
        | some (line2, rest2) => splitFixed fuel line2 longFormat false rest2 (vec ++ r.1)
      else if peek rest = some ' ' || peek rest = some '*' || peek rest = some '\t' then
        let padded := vec ++ r.1 ++ List.replicate (fieldMax longFormat - r.2.1) []
        match readLine false rest with
        | none => .ub
        | some (line2, rest2) => splitFixed fuel line2 (peek rest = some '*') false rest2 padded
      else .ok (vec ++ r.1, rest)

/-- Enough turns for `splitFree` and `splitFixed`. -/
def fuelFor (line : Line) (rest : List Line) : Nat :=
  line.length + (rest.map fun l => l.length + 1).sum + 2

/-- `parseBulkSectionLine` (NastranTokenizer.cpp 184-200). -/
def parseBulkLine (line : Line) (rest : List Line) : Outcome (List Line × List Line) :=
  match getLineType line with
  | .long => splitFixed (fuelFor line rest) line true true rest []
  | .short => splitFixed (fuelFor line rest) line false true rest []
  | .free => splitFree (fuelFor line rest) line true rest []

/-- `nextLine` in the bulk section (NastranTokenizer.cpp 302-326): `none` at the end of file. -/
def nextLine (rest : List Line) : Outcome (Option (List Line × List Line)) :=
  match readLine true rest with
  | none => .ok none
  | some (line, rest) => do
    let r ← parseBulkLine line rest
    .ok (some r)

/-- All cards of a bulk section, as the loop of `NastranParser::parseBULKSection` gets them
(NastranParser.cpp 536-569). -/
def cards : Nat → List Line → Outcome (List (List Line))
  | 0, _ => .diverges
  | fuel + 1, rest => do
    match ← nextLine rest with
    | none => .ok []
    | some (card, rest) => do
      let cs ← cards fuel rest
      .ok (card :: cs)

end Nastran
end Vega
