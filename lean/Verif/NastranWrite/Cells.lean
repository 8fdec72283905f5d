import Verif.Mesh.Cells
import Verif.Nastran.Fields
import Verif.Nastran.Reals
import Verif.NastranWrite.Line

/-! # Cards of cells: reading (`Nastran/NastranParser_geometry.cpp` 40-56, 424-660) and writing
(`Nastran/NastranWriter.cpp` 154-170, 245-367) -/
namespace Vega
namespace NastranWrite
open Nastran

/-- `nastran2medNodeConnectByCellType` (NastranParser_geometry.cpp 40-56). -/
def toMed : CellType → Option (List Nat)
  | .tri3 => some [0, 1, 2]
  | .tri6 => some [0, 1, 2, 3, 4, 5]
  | .quad4 => some [0, 1, 2, 3]
  | .quad8 => some [0, 1, 2, 3, 4, 5, 6, 7]
  | .quad9 => some [0, 1, 2, 3, 4, 5, 6, 7, 8]
  | .tetra4 => some [0, 2, 1, 3]
  | .tetra10 => some [0, 2, 1, 3, 6, 5, 4, 7, 9, 8]
  | .pyra5 => some [0, 3, 2, 1, 4]
  | .pyra13 => some [0, 3, 2, 1, 4, 8, 7, 6, 5, 9, 12, 11, 10]
  | .penta6 => some [0, 2, 1, 3, 5, 4]
  | .penta15 => some [0, 2, 1, 3, 5, 4, 8, 7, 6, 12, 14, 13, 11, 10, 9]
  | .hexa8 => some [0, 3, 2, 1, 4, 7, 6, 5]
  | .hexa20 => some [0, 3, 2, 1, 4, 7, 6, 5, 11, 10, 9, 8, 16, 19, 18, 17, 15, 14, 13, 12]
  | _ => none

/-- `med2nastranNodeConnectByCellType` (NastranWriter.cpp 154-170). -/
def toNastran : CellType → Option (List Nat)
  | .tri3 => some [0, 2, 1]
  | .tri6 => some [0, 2, 1, 5, 4, 3]
  | .quad4 => some [0, 3, 2, 1]
  | .quad8 => some [0, 3, 2, 1, 7, 6, 5, 4]
  | .quad9 => some [0, 3, 2, 1, 7, 6, 5, 4, 8]
  | .tetra4 => some [0, 2, 1, 3]
  | .tetra10 => some [0, 2, 1, 3, 6, 5, 4, 7, 9, 8]
  | .pyra5 => some [0, 3, 2, 1, 4]
  | .pyra13 => some [0, 3, 2, 1, 4, 8, 7, 6, 5, 9, 12, 11, 10]
  | .penta6 => some [0, 2, 1, 3, 5, 4]
  | .penta15 => some [0, 2, 1, 3, 5, 4, 8, 7, 6, 14, 13, 12, 9, 11, 10]
  | .hexa8 => some [0, 3, 2, 1, 4, 7, 6, 5]
  | .hexa20 => some [0, 3, 2, 1, 4, 7, 6, 5, 11, 10, 9, 8, 19, 18, 17, 16, 12, 15, 14, 13]
  | _ => none

/-- The loop `out[table[i]] = ids[i]` (NastranParser_geometry.cpp 451-454, NastranWriter.cpp 341-342) from `i` on, with
so many turns left. Accesses out of range are undefined. -/
def scatterLoop (table : List Nat) (ids : List Int) : Nat → Nat → List Int → Outcome (List Int)
  | 0, _, out => .ok out
  | left + 1, i, out =>
    match table[i]?, ids[i]? with
    | some p, some v => if p < out.length then scatterLoop table ids left (i + 1) (out.set p v) else .ub
    | _, _ => .ub

/-- The nodes in another order: the same when the type has no table; otherwise `resize` and the loop. -/
def scatter (table : Option (List Nat)) (t : CellType) (ids : List Int) : Outcome (List Int) :=
  match table with
  | none => .ok ids
  | some table => scatterLoop table ids t.numNodes 0 (List.replicate t.numNodes 0)

/-- What a card of a cell says. -/
structure CellCard where
  id : Int
  property : Int
  type : CellType
  nodes : List Int
  offset : Dbl
  deriving DecidableEq

/-- The loop that chooses the type (NastranParser_geometry.cpp 431-439): `types` from the iterator on. At the end of the
list `handleParsingError` throws. -/
def typeLoop (n : Nat) : List CellType → CellType → Outcome CellType
  | types, t =>
    if t.numNodes = n then .ok t
    else match types with
      | [] => .throw
      | c :: cs => typeLoop n cs c

/-- `parseElem` (NastranParser_geometry.cpp 424-458) up to the addition to the mesh. -/
def parseElem (types : List CellType) (c : Cursor) : Outcome (CellCard × Cursor) := do
  let (id, c) ← nextInt none c
  let (property, c) ← nextInt (some id) c
  match types with
  | [] => .ub
  | first :: _ => do
    let (nodes, c) ← nextInts c
    let t ← typeLoop nodes.length types first
    let med ← scatter (toMed t) t nodes
    .ok (⟨id, property, t, med, 0⟩, c)

/-- `for (i < n) nodeIds.push_back(tok.nextInt())`. -/
def readInts : Nat → Cursor → Outcome (List Int × Cursor)
  | 0, c => .ok ([], c)
  | n + 1, c => do
    let (i, c) ← nextInt none c
    let (is, c) ← readInts n c
    .ok (i :: is, c)

/-- `for (i < n) ti.push_back(tok.nextDouble(true))`: the thicknesses are not used. -/
def readThicknesses : Nat → Cursor → Outcome Cursor
  | 0, c => .ok c
  | n + 1, c => do
    let (_, c) ← nextDouble (some unavailable) c
    readThicknesses n c

/-- `parseShellElem` (NastranParser_geometry.cpp 562-650) up to the addition to the mesh; warnings are left out. -/
def parseShellElem (t : CellType) (c : Cursor) : Outcome (CellCard × Cursor) := do
  let (id, c) ← nextInt none c
  let (property, c) ← nextInt (some id) c
  match t with
  | .tri3 => do
    let (nodes, c) ← readInts 3 c
    let (_, c) ← nextDouble (some 0) c
    let (zoffs, c) ← nextDouble (some 0) c
    let c ← skip 2 c
    let (_, c) ← nextInt (some 0) c
    let c ← readThicknesses 3 c
    .ok (⟨id, property, t, nodes, zoffs⟩, c)
  | .quad4 => do
    let (nodes, c) ← readInts 4 c
    let (_, c) ← nextDouble (some 0) c
    let (zoffs, c) ← nextDouble (some 0) c
    let c ← skip 1 c
    let (_, c) ← nextInt (some 0) c
    let c ← readThicknesses 4 c
    .ok (⟨id, property, t, nodes, zoffs⟩, c)
  | .tri6 => do
    let (nodes, c) ← readInts 6 c
    let (_, c) ← nextDouble (some 0) c
    let (zoffs, c) ← nextDouble (some 0) c
    let c ← readThicknesses 3 c
    let (_, c) ← nextInt (some 0) c
    .ok (⟨id, property, t, nodes, zoffs⟩, c)
  | .quad8 => do
    let (nodes, c) ← readInts 8 c
    let c ← readThicknesses 4 c
    let (_, c) ← nextDouble (some 0) c
    let (zoffs, c) ← nextDouble (some 0) c
    let (_, c) ← nextInt (some 0) c
    .ok (⟨id, property, t, nodes, zoffs⟩, c)
  | _ => .throw

/-- The commands of the table `PARSE_FUNCTION_BY_KEYWORD` (NastranParser.cpp 56-86) that call these two functions
(NastranParser_geometry.cpp 484-548). -/
inductive CellCommand where
  | solid (types : List CellType)
  | shell (type : CellType)

def commandOf (keyword : Text) : Option CellCommand :=
  if keyword = "CIHEX1".toList ∨ keyword = "CIHEX2".toList ∨ keyword = "CHEXA".toList then
    some (.solid [.hexa8, .hexa20])
  else if keyword = "CPENTA".toList then some (.solid [.penta6, .penta15])
  else if keyword = "CPYRA".toList ∨ keyword = "CPYRAM".toList then some (.solid [.pyra5, .pyra13])
  else if keyword = "CQUAD".toList then some (.solid [.quad4, .quad8, .quad9])
  else if keyword = "CTETRA".toList then some (.solid [.tetra4, .tetra10])
  else if keyword = "CQUAD4".toList ∨ keyword = "CQUADR".toList then some (.shell .quad4)
  else if keyword = "CQUAD8".toList then some (.shell .quad8)
  else if keyword = "CTRIA3".toList ∨ keyword = "CTRIAR".toList then some (.shell .tri3)
  else if keyword = "CTRIA6".toList then some (.shell .tri6)
  else none

/-- The function of the command. -/
def runCommand : CellCommand → Cursor → Outcome (CellCard × Cursor)
  | .solid types => parseElem types
  | .shell t => parseShellElem t

/-- A card of the bulk section, when it is a card of these cells (NastranParser.cpp 536-569), in strict mode: the
keyword is read, its command is run, and fields left over are refused. `none` for other cards. -/
def readCell (fields : List Nastran.Line) : Outcome (Option CellCard) := do
  let (keyword, c) ← nextString (some []) (Cursor.start fields)
  match commandOf keyword with
  | none => .ok none
  | some command => do
    let (card, c) ← runCommand command c
    if isEmptyUntilNextKeyword c then .ok (some card) else .throw

/-- The kinds of element sets whose cells are considered: shells and continuum (NastranWriter.cpp 258, 275). -/
inductive CellKind where
  | shell | continuum
  deriving DecidableEq

/-- The keyword (NastranWriter.cpp 253-333) outside Cosmic. For other types `handleWritingError` prints a message and
goes on, as the mode of this writer is always `BEST_EFFORT`; the keyword stays empty. -/
def cellKeyword (kind : CellKind) (t : CellType) : Text :=
  match t with
  | .tri3 => "CTRIA3".toList
  | .tri6 => "CTRIA6".toList
  | .quad4 => "CQUAD4".toList
  | .quad8 => "CQUAD8".toList
  | .hexa8 | .hexa20 => if kind = .continuum then "CHEXA".toList else []
  | .tetra4 | .tetra10 => if kind = .continuum then "CTETRA".toList else []
  | .penta6 | .penta15 => if kind = .continuum then "CPENTA".toList else []
  | .pyra5 | .pyra13 => if kind = .continuum then "CPYRA".toList else []
  | _ => []

/-- The fields (NastranWriter.cpp 345-363) outside Cosmic: the shells have an orientation field and their offset. -/
def cellArgs (kind : CellKind) (cell : CellCard) (nas : List Int) : List Arg :=
  .int cell.id :: .int cell.property :: nas.map Arg.int ++
    match kind with
    | .shell => [.blank, .real cell.offset]
    | .continuum => []

/-- The body of the loop over cells of `writeCells` (NastranWriter.cpp 251-364) for shells and continuum, outside
Cosmic: what is given to `Line`. -/
def cellLine (kind : CellKind) (cell : CellCard) : Outcome (Text × List Arg) := do
  let nas ← scatter (toNastran cell.type) cell.type cell.nodes
  .ok (cellKeyword kind cell.type, cellArgs kind cell nas)

end NastranWrite
end Vega
