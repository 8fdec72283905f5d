import Verif.Mesh.Groups
import Verif.Med.Families

/-! # Groups of nodes that show where the load sets and the constraint sets act: `Model::createSetGroups` (`Abstract/Model.cpp`
2091-2125) -/
namespace Vega
namespace SetGroups

/-- `LoadSet::Type` (Loading.h 86-92) and `ConstraintSet::Type` (Constraint.h 79-81). -/
inductive Kind where
  | load | dload | loadset | exciteid | allLoads | spc | mpc | allConstraints | contact
  deriving DecidableEq

/-- Does it belong to the load sets? -/
def Kind.isLoad : Kind → Bool
  | .load | .dload | .loadset | .exciteid | .allLoads => true
  | _ => false

/-- `stringByType` (Loading.cpp 72-73, Constraint.cpp 104-109). -/
def typeName : Kind → List Char
  | .load => "LOAD".toList
  | .dload => "DLOAD".toList
  | .loadset => "LOADSET".toList
  | .exciteid => "EXCITEID".toList
  | .allLoads => "ALL".toList
  | .spc => "SPC".toList
  | .mpc => "MPC".toList
  | .allConstraints => "ALL".toList
  | .contact => "CONTACT".toList

/-- The place of a type in its enumeration (Loading.h 86-92, Constraint.h 79-81). -/
def index : Kind → Nat
  | .load => 0 | .dload => 1 | .loadset => 2 | .exciteid => 3 | .allLoads => 4
  | .spc => 0 | .mpc => 1 | .allConstraints => 2 | .contact => 3

/-- `to_string(int)`. -/
def intText (i : Int) : List Char := if i < 0 then '-' :: Med.decimal i.natAbs else Med.decimal i.natAbs

/-- The name of the type, replaced when it is long (Loading.cpp 76-80, Constraint.cpp 130-134). -/
def shortName (k : Kind) : List Char :=
  if 15 ≤ (typeName k).length then "LSTYPE".toList ++ Med.decimal (index k) else typeName k

/-- `getGroupName` (Loading.cpp 75-82, Constraint.cpp 129-136) of a set with the original number `i` (`bestId`, Object.h 87-93). -/
def groupName (k : Kind) (i : Int) : String :=
  String.ofList ((if k.isLoad then "LS_".toList else "CS_".toList) ++ shortName k ++ '_' :: intText i)

/-- A load set or a constraint set: its type, its original number (`none` for `NO_ORIGINAL_ID`) and the positions of the nodes of each
of its loads or constraints. -/
structure SetItem where
  kind : Kind
  originalId : Option Int
  members : List (List Nat)
  deriving DecidableEq

/-- The groups of the mesh, and the positions of the nodes of each, by its place in the heap. -/
structure State where
  groups : Groups
  nodes : List (List Nat)

/-- `addNodePositions` (MeshComponents.cpp 930-940): insertions in a set. -/
def addNodes (acc ps : List Nat) : List Nat := ps.foldl (fun a p => if p ∈ a then a else p :: a) acc

/-- One set (Model.cpp 2093-2098, 2101-2106). The group, and so its place in the heap, is new. -/
def groupOf (s : State) (x : SetItem) : Outcome State :=
  match x.originalId with
  | none => .ok s
  | some i => do
    let (g, _) ← s.groups.create false (groupName x.kind i) none
    .ok ⟨g, s.nodes ++ [x.members.foldl addNodes []]⟩

/-- The loop over the sets of one container (Model.cpp 2092-2099, 2100-2107). -/
def groupsOf : State → List SetItem → Outcome State
  | s, [] => .ok s
  | s, x :: xs => do
    let s ← groupOf s x
    groupsOf s xs

/-- `createSetGroups` (Model.cpp 2091-2107); the groups of the displacement outputs (2108-2115) are left out. -/
def createSetGroups (s : State) (loadSets constraintSets : List SetItem) : Outcome State := do
  let s ← groupsOf s loadSets
  groupsOf s constraintSets

end SetGroups
end Vega
