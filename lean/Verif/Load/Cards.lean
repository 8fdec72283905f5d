import Verif.Dof.Model
import Verif.Mesh.Bars

/-!
# The cards of loads on nodes: FORCE, MOMENT, FORCE1, FORCE2, SLOAD, RFORCE, SPCD, TEMP, LOAD and DLOAD
(`Nastran/NastranParser.cpp` 1384-1395, 1675-1722, 1851-1861, 2026-2044, 3208-3241, 3475-3487, 3561-3589, 3780-3808)

Strict mode. What is added to the load sets is listed, in the order in which it is; warnings are left out. Numbers are exact.
-/
namespace Vega
namespace LoadCards
open Nastran

/-- What a card adds to a load set. -/
inductive Item where
  /-- `NodalForce`: node, coordinate system, force, moment. -/
  | force (node system : Int) (fx fy fz mx my mz : Dbl)
  /-- `NodalForceTwoNodes`: along the line of two nodes. -/
  | twoNodes (node n1 n2 : Int) (magnitude : Dbl)
  /-- `NodalForceFourNodes`: along the product of two lines. -/
  | fourNodes (node n1 n2 n3 n4 : Int) (magnitude : Dbl)
  /-- `RotationNode`: speed, node of the axis, direction of the axis. -/
  | rotation (speed : Dbl) (node : Int) (x y z : Dbl)
  /-- `ImposedDisplacement`. -/
  | displacement (node : Int) (dofs : Dofs) (value : Dbl)
  /-- `InitialTemperature`. -/
  | temperature (node : Int) (value : Dbl)
  /-- An element of `embedded_loadsets` (Loading.h 96): another set and its factor. -/
  | embedded (set : Int) (factor : Dbl)
  deriving DecidableEq

/-- What a card says: the number of its load set, whether the set is dynamic (`LoadSet::Type::DLOAD`), and what is added. -/
structure Said where
  set : Int
  dynamic : Bool
  items : List Item
  deriving DecidableEq

/-- `parseFORCE` (NastranParser.cpp 1675-1691). -/
def parseFORCE (c : Cursor) : Outcome (Said × Cursor) := do
  let (set, c) ← nextInt none c
  let (node, c) ← nextInt none c
  let (cs, c) ← nextInt (some 0) c
  let (f, c) ← nextDouble (some 0) c
  let (x, c) ← nextDouble (some 0) c
  let (y, c) ← nextDouble (some 0) c
  let (z, c) ← nextDouble (some 0) c
  .ok (⟨set, false, [.force node cs (x * f) (y * f) (z * f) 0 0 0]⟩, c)

/-- `parseMOMENT` (NastranParser.cpp 2026-2044): the default of `nextDouble` is `UNAVAILABLE_DOUBLE`. -/
def parseMOMENT (c : Cursor) : Outcome (Said × Cursor) := do
  let (set, c) ← nextInt none c
  let (node, c) ← nextInt none c
  let (cs, c) ← nextInt (some 0) c
  let (f, c) ← nextDouble (some unavailable) c
  let (x, c) ← nextDouble (some unavailable) c
  let (y, c) ← nextDouble (some unavailable) c
  let (z, c) ← nextDouble (some unavailable) c
  .ok (⟨set, false, [.force node cs 0 0 0 (x * f) (y * f) (z * f)]⟩, c)

/-- `parseFORCE1` (NastranParser.cpp 1693-1706). -/
def parseFORCE1 (c : Cursor) : Outcome (Said × Cursor) := do
  let (set, c) ← nextInt none c
  let (node, c) ← nextInt none c
  let (f, c) ← nextDouble none c
  let (n1, c) ← nextInt none c
  let (n2, c) ← nextInt none c
  .ok (⟨set, false, [.twoNodes node n1 n2 f]⟩, c)

/-- `parseFORCE2` (NastranParser.cpp 1708-1722). -/
def parseFORCE2 (c : Cursor) : Outcome (Said × Cursor) := do
  let (set, c) ← nextInt none c
  let (node, c) ← nextInt none c
  let (f, c) ← nextDouble none c
  let (n1, c) ← nextInt none c
  let (n2, c) ← nextInt none c
  let (n3, c) ← nextInt none c
  let (n4, c) ← nextInt none c
  .ok (⟨set, false, [.fourNodes node n1 n2 n3 n4 f]⟩, c)

/-- `parseRFORCE` (NastranParser.cpp 3208-3241): the coordinate system, `METHOD`, `RACC` and `MB` are read and dismissed. -/
def parseRFORCE (c : Cursor) : Outcome (Said × Cursor) := do
  let (set, c) ← nextInt none c
  let (g, c) ← nextInt none c
  let (_, c) ← nextInt (some 0) c
  let (a, c) ← nextDouble none c
  let (r1, c) ← nextDouble none c
  let (r2, c) ← nextDouble none c
  let (r3, c) ← nextDouble none c
  let (_, c) ← nextInt (some 1) c
  let (_, c) ← nextDouble (some 0) c
  let (_, c) ← nextInt (some 0) c
  .ok (⟨set, false, [.rotation a g r1 r2 r3]⟩, c)

/-- The loop of `parseSLOAD` (NastranParser.cpp 3479-3486), at most `fuel` turns; `NodalForce` has the global system by
default. -/
def sloadLoop : Nat → Cursor → Outcome (List Item × Cursor)
  | 0, _ => .diverges
  | fuel + 1, c => do
    let go ← isNextInt c
    if go then do
      let (g, c) ← nextInt none c
      let (f, c) ← nextDouble none c
      let (rest, c) ← sloadLoop fuel c
      .ok (.force g 0 f 0 0 0 0 0 :: rest, c)
    else .ok ([], c)

/-- `parseSLOAD` (NastranParser.cpp 3475-3487). -/
def parseSLOAD (c : Cursor) : Outcome (Said × Cursor) := do
  let (set, c) ← nextInt none c
  let (items, c) ← sloadLoop (c.fields.length + 1) c
  .ok (⟨set, false, items⟩, c)

/-- `parseSPCD` (NastranParser.cpp 3561-3589): the second displacement is made unless its numbers are -1. -/
def parseSPCD (c : Cursor) : Outcome (Said × Cursor) := do
  let (set, c) ← nextInt none c
  let (g1, c) ← nextInt none c
  let (c1, c) ← nextInt none c
  let (d1, c) ← nextDouble none c
  let two ← isNextInt c
  if two then do
    let (g2, c) ← nextInt none c
    let (c2, c) ← nextInt none c
    let (d2, c) ← nextDouble none c
    let dofs1 ← Dofs.nastranCodeToDOFS c1
    if g2 ≠ -1 ∧ c2 ≠ -1 then do
      let dofs2 ← Dofs.nastranCodeToDOFS c2
      .ok (⟨set, false, [.displacement g1 dofs1 d1, .displacement g2 dofs2 d2]⟩, c)
    else .ok (⟨set, false, [.displacement g1 dofs1 d1]⟩, c)
  else do
    let dofs1 ← Dofs.nastranCodeToDOFS c1
    .ok (⟨set, false, [.displacement g1 dofs1 d1]⟩, c)

/-- One of the temperatures that may be missing (NastranParser.cpp 3791-3798, 3800-3807). -/
def maybeTemp (c : Cursor) : Outcome (List Item × Cursor) := do
  let more ← isNextInt c
  if more then do
    let (g, c) ← nextInt none c
    let (t, c) ← nextDouble none c
    .ok ([.temperature g t], c)
  else .ok ([], c)

/-- `parseTEMP` (NastranParser.cpp 3780-3808). -/
def parseTEMP (c : Cursor) : Outcome (Said × Cursor) := do
  let (set, c) ← nextInt none c
  let (g, c) ← nextInt none c
  let (t, c) ← nextDouble none c
  let (i2, c) ← maybeTemp c
  let (i3, c) ← maybeTemp c
  .ok (⟨set, false, .temperature g t :: (i2 ++ i3)⟩, c)

/-- The loop of `parseLOAD` (NastranParser.cpp 1855-1860) and `parseDLOAD` (1389-1394), at most `fuel` turns. -/
def loadLoop (s : Dbl) : Nat → Cursor → Outcome (List Item × Cursor)
  | 0, _ => .diverges
  | fuel + 1, c => do
    let go ← isNextDouble c
    if go then do
      let (scale, c) ← nextDouble (some 1) c
      let (l, c) ← nextInt none c
      let (rest, c) ← loadLoop s fuel c
      .ok (.embedded l (s * scale) :: rest, c)
    else .ok ([], c)

/-- `parseLOAD` (NastranParser.cpp 1851-1861) and `parseDLOAD` (1384-1395). -/
def parseLOAD (dynamic : Bool) (c : Cursor) : Outcome (Said × Cursor) := do
  let (set, c) ← nextInt none c
  let (s, c) ← nextDouble (some 1) c
  let (items, c) ← loadLoop s (c.fields.length + 1) c
  .ok (⟨set, dynamic, items⟩, c)

/-- The keywords. -/
inductive Kind where
  | force | moment | force1 | force2 | sload | rforce | spcd | temp | load | dload
  deriving DecidableEq

def parse : Kind → Cursor → Outcome (Said × Cursor)
  | .force => parseFORCE
  | .moment => parseMOMENT
  | .force1 => parseFORCE1
  | .force2 => parseFORCE2
  | .sload => parseSLOAD
  | .rforce => parseRFORCE
  | .spcd => parseSPCD
  | .temp => parseTEMP
  | .load => parseLOAD false
  | .dload => parseLOAD true

/-- A card: its keyword and its fields, the keyword being the first. -/
structure Card where
  kind : Kind
  fields : List Line

def read (c : Card) : Outcome Said := Bars.runCard (parse c.kind) c.fields

/-- The cards one after the other: what they say. -/
def run : List Card → Outcome (List Said)
  | [] => .ok []
  | c :: cs => do
    let s ← read c
    let rest ← run cs
    .ok (s :: rest)

/-- What is in a load set: `getOrCreateLoadSet` (Model.cpp 412-423) gives the set of this number and type, and each item is
added to it. -/
def contents (said : List Said) (set : Int) (dynamic : Bool) : List Item :=
  said.flatMap fun s => if s.set = set ∧ s.dynamic = dynamic then s.items else []

/-- A point. -/
structure Point where
  x : Dbl
  y : Dbl
  z : Dbl
  deriving DecidableEq

/-- `NodeStorage::RESERVED_POSITION` (Mesh.cpp 43). -/
def reserved : Dbl := -dblMax

/-- `RotationNode::getCenter` (Loading.cpp 239-242): the node was reserved when the load was made (Mesh.cpp 261-267), and
has its coordinates when a card GRID gives them. -/
def center (grid : Int → Option Point) (node : Int) : Point :=
  match grid node with
  | some p => p
  | none => ⟨reserved, reserved, reserved⟩

/-- The order `ROTATION` of Code_Aster (AsterWriter.cpp 1974-1982): `VITESSE`, `AXE` and `CENTRE`. -/
def asterRotation (grid : Int → Option Point) : Item → Option (Dbl × Point × Point)
  | .rotation speed node x y z => some (speed, ⟨x, y, z⟩, center grid node)
  | _ => none

end LoadCards
end Vega
