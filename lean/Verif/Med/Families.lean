import Verif.Mesh.Cells
import Mathlib.Data.List.Dedup
import Mathlib.Data.List.Sort

/-! # The mesh written for Code_Aster: `Aster/MedWriter.cpp` 36-173, 244-301, 307-344, `Aster/MedWriter.h` 36-41

In a MED file a node or a cell has one family, and a family has the names of its groups. Texts are lists of characters of
one byte. The calls of the MED library are not described: only their arguments are. -/
namespace Vega
namespace Med

/-- A `std::string`. -/
abbrev Text := List Char

/-- `MED_LNAME_SIZE` of `med.h`, a header of the MED library. -/
def lnameSize : Nat := 80

/-- `Family` (MedWriter.h 36-41), with the names of its groups. -/
structure Family where
  groups : List Text
  name : Text
  num : Int
  deriving DecidableEq

/-- `std::to_string` of a natural number. -/
def decimal (n : Nat) : Text := (Nat.repr n).toList

/-- The local variables `currentFamilyId`, `newFamilyByOldfamily` and `familyByFamilyId` (MedWriter.cpp 37-39, 95-97). -/
structure Numbering where
  current : Int
  byOld : Map Int Int
  byId : Map Int Family

/-- At the beginning. -/
def Numbering.init : Numbering := ⟨0, [], []⟩

/-- The name of a new family (MedWriter.cpp 55-65, 125-134); `label` is `Family` or `CELLFamily`. -/
def familyName (label : Text) (number : Nat) (old : Option Family) (group : Text) : Text :=
  match old with
  | none => group
  | some f =>
    if (f.name ++ '_' :: group).length ≥ lnameSize then label ++ decimal number else f.name ++ '_' :: group

/-- The groups of the family from which a new one is made (MedWriter.cpp 53-57, 124-127). -/
def oldGroups : Option Family → List Text
  | none => []
  | some f => f.groups

/-- The new family of a node or a cell of the family `old` that is in the group (MedWriter.cpp 45-72 and 115-142).
`step` is 1 for nodes and -1 for cells; the number in the name is without sign. -/
def newFamily (step : Int) (label group : Text) (old : Int) (s : Numbering) : Int × Numbering :=
  match s.byOld.find old with
  | some n => (n, s)
  | none =>
    let n := s.current + step
    let o := s.byId.find old
    (n, ⟨n, s.byOld.set old n, s.byId.set n ⟨oldGroups o ++ [group], familyName label n.natAbs o group, n⟩⟩)

/-- `familyByFamilyId[fam_id]` (MedWriter.cpp 79, 155): a missing key gets a family without groups and without name. -/
def familyOf (byId : Map Int Family) (n : Int) : Family :=
  match byId.find n with
  | some f => f
  | none => ⟨[], [], -2147483648⟩

/-- The families in use, in the order of a `set<int>` (MedWriter.cpp 76-81, 148-157). -/
def familiesInUse (byId : Map Int Family) (ids : List Int) : List Family :=
  ((ids.dedup.insertionSort (· ≤ ·)).filter (· ≠ 0)).map (familyOf byId)

/-! ## Nodes -/

/-- The nodes of a group (MedWriter.cpp 44-73): a vector read and written without test. -/
def nodeLoop (group : Text) : List Nat → List Int → Numbering → Outcome (List Int × Numbering)
  | [], nodes, s => .ok (nodes, s)
  | p :: ps, nodes, s =>
    match nodes[p]? with
    | none => .ub
    | some old =>
      let r := newFamily 1 "Family".toList group old s
      nodeLoop group ps (nodes.set p r.1) r.2

/-- The groups of nodes (MedWriter.cpp 42-74). -/
def nodeGroupsLoop : List (Text × List Nat) → List Int → Numbering → Outcome (List Int × Numbering)
  | [], nodes, s => .ok (nodes, s)
  | (name, ps) :: gs, nodes, s => do
    let (nodes, s) ← nodeLoop name ps nodes { s with byOld := [] }
    nodeGroupsLoop gs nodes s

/-- `NodeGroup2Families` (MedWriter.cpp 36-82): the families and the family of each node. A group is its name and the
positions of its nodes. -/
def nodeFamilies (nnodes : Nat) (groups : List (Text × List Nat)) : Outcome (List Family × List Int) :=
  if 0 < nnodes ∧ 0 < groups.length then do
    let (nodes, s) ← nodeGroupsLoop groups (List.replicate nnodes 0) Numbering.init
    .ok (familiesInUse s.byId nodes, nodes)
  else .ok ([], [])

/-! ## Cells -/

/-- All the cell types (`CellType::typeByCode`, MeshComponents.cpp 87-138). -/
def allTypes : List CellType :=
  [.point1, .seg2, .seg3, .seg4, .seg5, .tri3, .quad4, .tri6, .tri7, .quad8, .quad9, .tetra4, .pyra5, .penta6, .hexa8,
    .tetra10, .hexgp12, .pyra13, .penta15, .hexa20, .hexa27] ++ (List.finRange 18).map .poly

/-- `cellFamiliesByType`; `none` is an absent entry, which `operator[]` makes a null pointer. -/
abbrev CellFamilies := CellType → Option (List Int)

/-- At the beginning (MedWriter.cpp 98-102, 322-328): an entry for each type with cells. -/
def initialFamilies (m : Mesh) : CellFamilies := fun t =>
  if m.countCellsOfType t > 0 then some (List.replicate (m.countCellsOfType t) 0) else none

/-- The cells of a group (MedWriter.cpp 106-144); a position `none` is `Cell::UNAVAILABLE_CELL`. -/
def cellLoop (m : Mesh) (group : Text) : List (Option Nat) → CellFamilies → Numbering →
    Outcome (CellFamilies × Numbering)
  | [], fams, s => .ok (fams, s)
  | none :: ps, fams, s => cellLoop m group ps fams s
  | some p :: ps, fams, s => do
    let cell ← m.findCell p
    match fams cell.type with
    | none => .ub
    | some l =>
      match l[cell.typePos]? with
      | none => .throw
      | some old =>
        let r := newFamily (-1) "CELLFamily".toList group old s
        cellLoop m group ps (Mesh.upd fams cell.type (some (l.set cell.typePos r.1))) r.2

/-- The groups of cells (MedWriter.cpp 104-145). -/
def cellGroupsLoop (m : Mesh) : List (Text × List (Option Nat)) → CellFamilies → Numbering →
    Outcome (CellFamilies × Numbering)
  | [], fams, s => .ok (fams, s)
  | (name, ps) :: gs, fams, s => do
    let (fams, s) ← cellLoop m name ps fams { s with byOld := [] }
    cellGroupsLoop m gs fams s

/-- The family numbers of all types, in the order of the types (MedWriter.cpp 149-152). -/
def usedNumbers (fams : CellFamilies) : List Int :=
  allTypes.flatMap fun t => match fams t with
    | some l => l
    | none => []

/-- `CellGroup2Families` (MedWriter.cpp 92-158): the families and the families of the cells of each type. -/
def cellFamilies (m : Mesh) (groups : List (Text × List (Option Nat))) : Outcome (List Family × CellFamilies) := do
  let (fams, s) ← cellGroupsLoop m groups (initialFamilies m) Numbering.init
  .ok (familiesInUse s.byId (usedNumbers fams), fams)

/-! ## Names in the file, connectivities and numbers -/

/-- `strncpy` to the place of a group (MedWriter.cpp 173-177): as many characters as there is room for, then zeros; a zero
ends the text that is copied. -/
def groupField (name : Text) : Text :=
  let s := (name.takeWhile (· ≠ '\x00')).take lnameSize
  s ++ List.replicate (lnameSize - s.length) '\x00'

/-- The names of the groups of a family as given to the library (MedWriter.cpp 171-177). -/
def groupNames (f : Family) : Text := f.groups.flatMap groupField ++ ['\x00']

/-- The nodes of cells (MedWriter.cpp 257-263): numbers of nodes begin with 1. -/
def connectivityOf (m : Mesh) : List Nat → Outcome (List Nat)
  | [] => .ok []
  | p :: ps => do
    let cell ← m.findCell p
    let rest ← connectivityOf m ps
    .ok (cell.nodePositions.map (· + 1) ++ rest)

/-- The connectivity of the cells of a type (MedWriter.cpp 249-263). -/
def connectivity (m : Mesh) (t : CellType) : Outcome (List Nat) := connectivityOf m (m.positionsByType t)

/-- The numbers of the cells of a type (MedWriter.cpp 289-293). -/
def cellNumbers (m : Mesh) (t : CellType) : List Nat := (m.positionsByType t).map (· + 1)

/-- `Cell::MedName` (MeshComponents.h 391-393), the name of a cell in the command file; the same with `N` for nodes
(306-311). -/
def medName (letter : Char) (position : Nat) : Text := letter :: decimal (position + 1)

end Med
end Vega
