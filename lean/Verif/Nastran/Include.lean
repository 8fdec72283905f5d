import Verif.Nastran.Lines
import Verif.Nastran.Fields

/-! # Files that include other files: `Nastran/NastranParser.cpp` 536-570, 1813-1834

The strict mode: the first error ends the reading. -/
namespace Vega
namespace Nastran

/-- The disk. `resolve path name` is `currentFname.parent_path() / fileName` (NastranParser.cpp
1820-1821): how names are joined is the business of `boost::filesystem`, and is left open.
`content` is `none` for a file that does not exist (1823). -/
structure Disk (Path : Type) where
  resolve : Path → Line → Path
  content : Path → Option (List Line)

/-- The name of the file (NastranParser.cpp 1814-1819): what follows the seventh column of the line,
without the blanks around it, and without the quotes when it begins and ends with one.
`substr(7, ..)` throws when the line is shorter. For an empty name both comparisons are with an
empty string: `compare(size() - 1, ..)` would throw, but the first one fails before. -/
def includeName (line : Line) : Outcome Line :=
  if line.length < 7 then .throw
  else
    let name := trim (line.drop 7)
    if name.take 1 = ['\''] ∧ name.drop (name.length - 1) = ['\''] then
      .ok ((name.drop 1).take (name.length - 2))
    else .ok name

/-- The keyword of a card (NastranParser.cpp 539). -/
def keywordOf (card : List Line) : Outcome Line := do
  let r ← nextString (some []) (Cursor.start card)
  .ok r.1

/-- `parseBULKSection` (NastranParser.cpp 536-570) and `parseInclude` (1813-1834): the cards that are
given to their functions, in order. The raw line is what `readLineSkipComment` left (the card is
cut from a copy of it, NastranTokenizer.cpp 184 and 317). A file that does not exist is an
error (1831). What is left of the line is skipped (1833). `fuel` bounds the depth of the calls and
the number of lines. -/
def readFile {Path : Type} (disk : Disk Path) : Nat → Path → List Line → Outcome (List (List Line))
  | 0, _, _ => .diverges
  | fuel + 1, path, rest =>
    match readLine true rest with
    | none => .ok []
    | some (line, rest) => do
      let r ← parseBulkLine line rest
      let keyword ← keywordOf r.1
      if keyword = "INCLUDE".toList then do
        let name ← includeName line
        match disk.content (disk.resolve path name) with
        | none => .throw
        | some text => do
          let included ← readFile disk fuel (disk.resolve path name) text
          let cs ← readFile disk fuel path r.2
          .ok (included ++ cs)
      else do
        let cs ← readFile disk fuel path r.2
        .ok (r.1 :: cs)

end Nastran
end Vega
