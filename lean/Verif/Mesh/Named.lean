import Verif.Mesh.Cells

/-!
# Elements named by cards: `CellContainer::addCellId` (`Abstract/MeshComponents.cpp` 680-709)

Loads (PLOAD1, PLOAD2, PLOAD4), surfaces (BSURF) and sets (SET3) name elements by number. The number is turned into a position
of the mesh when the card is read (`Nastran/NastranParser.cpp` 1056, 2861, 2874, 2931, 2947, 2962, 2971, 3462,
`Optistruct/OptistructParser.cpp` 133). What becomes of the positions afterwards is here.
-/
namespace Vega
namespace Named

/-- The arguments of `Mesh::addCell` for an element of the file. -/
structure Element where
  id : Int
  type : CellType
  nodeIds : List Int
  part : Option Int
  offset : Dbl
  deriving DecidableEq

/-- The cards of the file, as far as elements are concerned: an element, or the numbers that a card gives for a load or a
group. Cards that add nodes are left out: `addCell` reserves the nodes of the element. -/
inductive Card where
  | element (e : Element)
  | names (owner : Int) (ids : List Int)
  deriving DecidableEq

/-- `cellPositions` (MeshComponents.h 438-506), one for each load or group. `none` stands for `UNAVAILABLE_CELL`
(MeshComponents.h 349). A `std::set` is a list without repetition; its order is not modelled. -/
abbrev Box := List (Option Nat)

structure State where
  mesh : Mesh
  boxes : Map Int Box

/-- The cells of an owner, none before its first card. -/
def State.box (s : State) (owner : Int) : Box :=
  match s.boxes.find owner with
  | some b => b
  | none => []

/-- `addCellIds` (MeshComponents.cpp 684-709) and `addCellId` (680-682) in a loop, with `findCellPosition` (Mesh.cpp 853-859). -/
def addCellIds (m : Mesh) (b : Box) : List Int → Box
  | [] => b
  | i :: is =>
    let p := m.findCellPosition i
    addCellIds m (if p ∈ b then b else b ++ [p]) is

/-- One card. -/
def step (s : State) : Card → Outcome State
  | .element e => do
    let (m, _) ← s.mesh.addCell e.id e.type e.nodeIds e.part e.offset
    .ok { s with mesh := m }
  | .names owner ids => .ok { s with boxes := s.boxes.set owner (addCellIds s.mesh (s.box owner) ids) }

/-- The file, read once from its beginning to its end. -/
def run (s : State) : List Card → Outcome State
  | [] => .ok s
  | c :: cs => do
    let s ← step s c
    run s cs

/-- The loop of PLOAD4 (NastranParser.cpp 2930-2932, 2946-2948, 2961-2963, 2970-2972): `n` numbers from `first`. The loop is
not left when the last number is the largest `int`; this is not modelled. -/
def range (first : Int) : Nat → List Int
  | 0 => []
  | n + 1 => first :: range (first + 1) n

/-! ## The cells of a load or a group, when the model is written -/

/-- `getCellsExcludingGroups` (MeshComponents.cpp 760-769): `findCell` raises an exception for an unavailable position
(Mesh.cpp 507-509). The function is `noexcept`: the exception ends the program. This end is the outcome `throw` here. -/
def cells (m : Mesh) : Box → Outcome (List CellView)
  | [] => .ok []
  | none :: _ => .throw
  | some p :: b => do
    let v ← m.findCell p
    let vs ← cells m b
    .ok (v :: vs)

/-- `getCellIdsExcludingGroups` (MeshComponents.cpp 787-796): `findCellId` (Mesh.h 275-277) indexes a vector with the position. -/
def ids (m : Mesh) : Box → Outcome (List Int)
  | [] => .ok []
  | none :: _ => .ub
  | some p :: b => do
    let i ← m.findCellId p
    let is ← ids m b
    .ok (i :: is)

/-- The cells that get the family of a group in the MED file (MedWriter.cpp 109-113). -/
def grouped (m : Mesh) : Box → Outcome (List CellView)
  | [] => .ok []
  | none :: b => grouped m b
  | some p :: b => do
    let v ← m.findCell p
    let vs ← grouped m b
    .ok (v :: vs)

/-- The numbers behind the letter M in `MAILLE=(...)` (AsterWriter.cpp 2199-2218, `Cell::MedName` MeshComponents.h 391-393).
`UNAVAILABLE_CELL` is the largest `int` (Utility.h 50) in an `unsigned int`. -/
def maille (b : Box) : List Nat :=
  b.map fun p => match p with
    | some p => p + 1
    | none => 2147483648

end Named
end Vega
