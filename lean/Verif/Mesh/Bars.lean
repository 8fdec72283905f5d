import Verif.Nastran.Reals

/-!
# Bars, beams and bushes of Nastran: `Nastran/NastranParser_geometry.cpp` 134-287

What the cards CBAR, CBEAM and CBUSH say, up to the addition of the cell to the mesh. The coordinate system made from an
orientation is in `Verif.Geom.Systems` (`ofDirection`, `ofThreeNodes`), its place in the mesh in `Verif.Geom.Storage`.
-/
namespace Vega
namespace Bars
open Nastran

/-- The two constructors of `OrientationCoordinateSystem` that are called (NastranParser_geometry.cpp 144, 153): the plane
of the element is given by a third node or by a vector. -/
inductive Orientation where
  | node (g0 : Int)
  | vector (x1 x2 x3 : Dbl)
  deriving DecidableEq

/-- `alternateFormat` (NastranParser_geometry.cpp 138), over the fields of the card as they were split. -/
def alternateFormat (fields : List Line) : Bool :=
  match fields[6]?, fields[7]? with
  | some f6, some f7 => f6.isEmpty || f7.isEmpty
  | _, _ => true

/-- `parseOrientation` (NastranParser_geometry.cpp 134-157). -/
def parseOrientation (c : Cursor) : Outcome (Orientation × Cursor) :=
  if alternateFormat c.fields then do
    let (g0, c) ← nextInt none c
    let (_, c) ← nextDouble (some unavailable) c
    let (_, c) ← nextDouble (some unavailable) c
    .ok (.node g0, c)
  else do
    let (x1, c) ← nextDouble none c
    let (x2, c) ← nextDouble none c
    let (x3, c) ← nextDouble none c
    .ok (.vector x1 (if isZero x1 && isZero x2 && isZero x3 then 1 else x2) x3, c)

/-- What the messages of `handleParsingWarning` are about. -/
inductive Warning where
  | offt | pins | offsets | warping
  deriving DecidableEq

/-- The cell of a bar (NastranParser_geometry.cpp 187, 228). -/
structure Segment where
  id : Int
  property : Int
  a : Int
  b : Int
  orientation : Orientation
  deriving DecidableEq

/-- `std::numeric_limits<int>::min()`, that is `UNAVAILABLE_INT` (Utility.h 49). -/
def noInt : Int := -2147483648

/-- `parseCBAR` (NastranParser_geometry.cpp 159-189) and `parseCBEAM` (191-230), which reads two fields more. CBAR compares
the offsets with zero by `is_equal`, CBEAM by `is_zero`. -/
def parseBar (beam : Bool) (c : Cursor) : Outcome ((Segment × List Warning) × Cursor) := do
  let (id, c) ← nextInt none c
  let (property, c) ← nextInt none c
  let (a, c) ← nextInt none c
  let (b, c) ← nextInt none c
  let (o, c) ← parseOrientation c
  let (offt, c) ← nextString (some []) c
  let (pa, c) ← nextInt (some noInt) c
  let (pb, c) ← nextInt (some noInt) c
  let (w1, c) ← nextDouble (some 0) c
  let (w2, c) ← nextDouble (some 0) c
  let (w3, c) ← nextDouble (some 0) c
  let (w4, c) ← nextDouble (some 0) c
  let (w5, c) ← nextDouble (some 0) c
  let (w6, c) ← nextDouble (some 0) c
  let null := fun w => if beam then isZero w else isEqual w 0
  let warnings := (if !offt.isEmpty && offt ≠ ['G', 'G', 'G'] then [.offt] else []) ++
    (if pa ≠ noInt || pb ≠ noInt then [.pins] else []) ++
    (if !(null w1 && null w2 && null w3 && null w4 && null w5 && null w6) then [.offsets] else [])
  let s : Segment := ⟨id, property, a, b, o⟩
  if beam then do
    let (sa, c) ← nextInt (some noInt) c
    let (sb, c) ← nextInt (some noInt) c
    .ok ((s, warnings ++ (if sa ≠ noInt || sb ≠ noInt then [.warping] else [])), c)
  else .ok ((s, warnings), c)

/-- The coordinate system of a bush: the global one, that of the number, or an orientation. -/
inductive Frame where
  | global
  | system (cid : Int)
  | oriented (o : Orientation)
  deriving DecidableEq

/-- The cell of a bush: of one node or two (NastranParser_geometry.cpp 281-285). -/
structure Bush where
  id : Int
  property : Int
  a : Int
  b : Option Int
  frame : Frame
  deriving DecidableEq

/-- `line.size()>8 && !line[8].empty()` (NastranParser_geometry.cpp 244). -/
def hasCid (fields : List Line) : Bool :=
  match fields[8]? with
  | some f => !f.isEmpty
  | none => false

/-- The coordinate system of `parseCBUSH` (NastranParser_geometry.cpp 244-259). -/
def parseFrame (single : Bool) (c : Cursor) : Outcome (Frame × Cursor) :=
  if hasCid c.fields then do
    let c ← skip 3 c
    let (cid, c) ← nextInt none c
    .ok (.system cid, c)
  else if single then do
    let c ← skip 4 c
    .ok (.global, c)
  else do
    let (o, c) ← parseOrientation c
    let (_, c) ← nextInt (some noInt) c
    .ok (.oriented o, c)

/-- `parseCBUSH` (NastranParser_geometry.cpp 233-287); the warnings are left out. -/
def parseCBUSH (c : Cursor) : Outcome (Bush × Cursor) := do
  let (id, c) ← nextInt none c
  let (property, c) ← nextInt none c
  let (a, c) ← nextInt none c
  let (b, c) ← nextInt (some noInt) c
  let single := decide (b = noInt)
  let second := if single then none else some b
  if isEmptyUntilNextKeyword c then .ok (⟨id, property, a, second, .global⟩, c)
  else do
    let (frame, c) ← parseFrame single c
    let (_, c) ← nextDouble (some (1 / 2)) c
    let (_, c) ← nextInt (some (-1)) c
    let (_, c) ← nextDouble (some unavailable) c
    let (_, c) ← nextDouble (some unavailable) c
    let (_, c) ← nextDouble (some unavailable) c
    .ok (⟨id, property, a, second, frame⟩, c)

/-- A card of the bulk section whose keyword has the given command (NastranParser.cpp 536-569), in strict mode: the keyword
is read, the command is run, and fields left over are refused. -/
def runCard {α : Type} (command : Cursor → Outcome (α × Cursor)) (fields : List Line) : Outcome α := do
  let (_, c) ← nextString (some []) (Cursor.start fields)
  let (x, c) ← command c
  if isEmptyUntilNextKeyword c then .ok x else .throw

def readBar (beam : Bool) (fields : List Line) : Outcome (Segment × List Warning) := runCard (parseBar beam) fields

def readBush (fields : List Line) : Outcome Bush := runCard parseCBUSH fields

end Bars
end Vega
