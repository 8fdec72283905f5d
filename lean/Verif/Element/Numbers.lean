import Verif.Basic
import Verif.Map
import Verif.Mesh.SetGroups

/-! # Which elements have a property, in a Nastran file that also has sets: `addProperty` and `getOrCreateCellGroup`
(`Nastran/NastranParser_geometry.cpp` 112-132), `parseSET3` (`Nastran/NastranParser.cpp` 3445-3471) -/
namespace Vega
namespace Numbers

/-- The cards: an element and the number of its property, a property (PSHELL, PSOLID, PBAR, ...), a set of elements, a set of nodes
(SET3), and a set that makes no group (SET1, and the command SET of the case control, NastranParser.cpp 276-329, 3436-3443). -/
inductive Card where
  | element (id property : Int)
  | property (id : Int)
  | elements (set : Int) (ids : List Int)
  | nodes (set : Int)
  | list (set : Int)
  deriving DecidableEq

/-- The groups that these cards make, by the beginnings of their names: `PROP_` (NastranParser_geometry.cpp 115), `CGVEGA_` (129) and
`SET3_` (NastranParser.cpp 3448). -/
inductive Made where
  | prop | vega | set3
  deriving DecidableEq

/-- The names of the groups. -/
def name (m : Made) (id : Int) : List Char :=
  match m with
  | .prop => "PROP_".toList ++ SetGroups.intText id
  | .vega => "CGVEGA_".toList ++ SetGroups.intText id
  | .set3 => "SET3_".toList ++ SetGroups.intText id

/-- A group of cells or of nodes; the cells are kept by the numbers of the elements, those of a group of nodes are not used. -/
structure Group where
  name : List Char
  isCell : Bool
  cells : List Int
  deriving DecidableEq

/-- `groupByName` and `groupById` (Mesh.h 152, 158); all the groups here have a number. The elements of the mesh; the properties, each
with the name of its group (`CellContainer::add`, MeshComponents.cpp 736-738); the numbers of the values of type SET (Value.h 157). -/
structure State where
  byName : Map (List Char) Int
  byId : Map Int Group
  mesh : List Int
  properties : List (Int × List Char)
  values : List Int

def State.empty : State := ⟨[], [], [], [], []⟩

/-- `createCellGroup` and `createNodeGroup` (Mesh.cpp 729-757, 676-704): a name or a number that is taken is an error. -/
def create (s : State) (n : List Char) (id : Int) (isCell : Bool) : Outcome State :=
  match s.byName.find n, s.byId.find id with
  | none, none => .ok { s with byName := s.byName.set n id, byId := s.byId.set id ⟨n, isCell, []⟩ }
  | _, _ => .throw

/-- The beginning of `addProperty` (NastranParser_geometry.cpp 113-121) and `getOrCreateCellGroup` (125-132): the group of cells with the
number, whatever made it. For a group of nodes the cast gives the null pointer, and a group is created. -/
def groupFor (s : State) (m : Made) (id : Int) : Outcome State :=
  match s.byId.find id with
  | some g => if g.isCell then .ok s else create s (name m id) id true
  | none => create s (name m id) id true

/-- `addCellId` (MeshComponents.cpp 680-682). An element that is not in the mesh gives the position `UNAVAILABLE_CELL`: what becomes of it
is the subject of `Verif.Mesh.Named`, and it is left out here. The group is there, or the pointer would be null. -/
def addCell (s : State) (id : Int) (cell : Int) : Outcome State :=
  match s.byId.find id with
  | none => .ub
  | some g =>
    .ok { s with byId := s.byId.set id { g with cells := if cell ∈ s.mesh ∧ cell ∉ g.cells then cell :: g.cells else g.cells } }

/-- `addCellIds` (MeshComponents.cpp 702-709). -/
def addCells (s : State) (id : Int) : List Int → Outcome State
  | [] => .ok s
  | c :: cs => do
    let s ← addCell s id c
    addCells s id cs

/-- `findOrCreateNodeGroup` (Mesh.cpp 706-719): a group of nodes with the name, or a new one. -/
def nodeGroup (s : State) (n : Int) : Outcome State :=
  match s.byName.find (name .set3 n) with
  | none => create s (name .set3 n) n false
  | some i =>
    match s.byId.find i with
    | none => .ub
    | some g => if g.isCell then create s (name .set3 n) n false else .ok s

/-- The values of a set are added to the model, which refuses a number that has been used (Model.h 582-592). -/
def addValue (s : State) (n : Int) : Outcome State :=
  if n ∈ s.values then .throw else .ok { s with values := n :: s.values }

/-- A card. An element comes into the mesh first (NastranParser_geometry.cpp 187-188, 228-229, 530-531). `SET3` makes a group and values
(NastranParser.cpp 3451-3466); the other sets have only values. -/
def step (s : State) : Card → Outcome State
  | .element id p => do
    let s ← groupFor { s with mesh := id :: s.mesh } .prop p
    addCell s p id
  | .property p => do
    let s ← groupFor s .vega p
    match s.byId.find p with
    | none => .ub
    | some g => .ok { s with properties := s.properties ++ [(p, g.name)] }
  | .elements n ids => do
    let s ← create s (name .set3 n) n true
    let s ← addCells s n ids
    addValue s n
  | .nodes n => do
    let s ← nodeGroup s n
    addValue s n
  | .list n => addValue s n

/-- The cards of a file. -/
def run (s : State) : List Card → Outcome State
  | [] => .ok s
  | c :: cs => do
    let s ← step s c
    run s cs

/-- The elements of the group that a property names (`findGroup`, Mesh.cpp 823-828). -/
def State.cells (s : State) (n : List Char) : Option (List Int) :=
  match s.byName.find n with
  | none => none
  | some i => (s.byId.find i).map (·.cells)

end Numbers
end Vega
