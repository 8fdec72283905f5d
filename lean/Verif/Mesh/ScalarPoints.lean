import Verif.Mesh.Nodes
import Verif.Nastran.Fields
import Verif.Constraint.Spc

/-! # Scalar points: the `SPOINT` card (`Nastran/NastranParser_geometry.cpp` 660-714)

`Mesh::allowDOFS` (Mesh.cpp 331-334) is left out, as the degrees of freedom recorded in a node are. An error found on the card
is the outcome `throw`. -/
namespace Vega
namespace ScalarPoints
open Nastran

/-- The parts of a model that the card changes: the nodes of the mesh, the members of the group `SPC_SPOINT` (created empty by
`Mesh::findOrCreateNodeGroup`, Mesh.cpp 706-719), and the constraints of the common set with the nodes they apply to. A
`std::set` of positions is a list in which only membership matters. -/
structure State where
  nodes : NodeStore
  group : List Nat
  constraints : List (Spc × List Nat)

/-- A model without nodes. -/
def State.init : State := ⟨NodeStore.init, [], []⟩

/-- `NodeContainer::addNodeId` (MeshComponents.cpp 908-910). -/
def addNodeId (nodes : NodeStore) (members : List Nat) (id : Int) : Outcome (NodeStore × List Nat) := do
  let (nodes, p) ← nodes.findOrReserveNode id none
  .ok (nodes, members.insert p)

/-- What is done for each point (NastranParser_geometry.cpp 671-674, 683-686, 699-702): a node at the origin, put into the group
and into the constraint, whose nodes so far are `mine`. -/
def addPoint (s : State) (mine : List Nat) (id : Int) : Outcome (State × List Nat) := do
  let (nodes, _) ← s.nodes.addNode id 0 0 0 0 0 0
  let (nodes, group) ← addNodeId nodes s.group id
  let (nodes, mine) ← addNodeId nodes mine id
  .ok ({ s with nodes := nodes, group := group }, mine)

/-- The loop over a list of points (NastranParser_geometry.cpp 681-690), at most `fuel` turns. -/
def listLoop : Nat → State → List Nat → Cursor → Outcome (State × List Nat)
  | 0, _, _, _ => .diverges
  | fuel + 1, s, mine, c => do
    let i ← isNextInt c
    if i then do
      let (id, c) ← nextInt none c
      let (s, mine) ← addPoint s mine id
      listLoop fuel s mine c
    else .ok (s, mine)

/-- The points in turn. -/
def addPoints (s : State) (mine : List Nat) : List Int → Outcome (State × List Nat)
  | [] => .ok (s, mine)
  | id :: ids => do
    let (s, mine) ← addPoint s mine id
    addPoints s mine ids

/-- The constraint of the card (NastranParser_geometry.cpp 668): all degrees of freedom but `DX`, with the value zero. -/
def blocked : Spc := Spc.ofDofs (Dofs.ALL_DOFS.subDof .DX) 0

/-- `parseSPOINT` (NastranParser_geometry.cpp 660-714). The numbers of a range are those of `rangeLoop` (the same loop as in
`nextInts`), computed before the first of them is added. -/
def parseSPOINT (s : State) (c : Cursor) : Outcome State := do
  let (id1, c) ← nextInt none c
  let (s, mine) ← addPoint s [] id1
  let i ← isNextInt c
  if i || isEmptyUntilNextKeyword c then do
    let (s, mine) ← listLoop (c.fields.length + 1) s mine c
    .ok { s with constraints := s.constraints ++ [(blocked, mine)] }
  else do
    let (word, c) ← nextString none c
    if toUpper word = ['T', 'H', 'R', 'U'] then do
      let (id2, _) ← nextInt none c
      let ids ← pushRange id1 id2 1
      let (s, mine) ← addPoints s mine ids
      .ok { s with constraints := s.constraints ++ [(blocked, mine)] }
    else .throw

/-- A card, its keyword included, on which the keyword has been read. -/
def readCard (s : State) (fields : List Line) : Outcome State :=
  match fields with
  | [] => .throw
  | k :: rest => parseSPOINT s ⟨k :: rest, 1, if rest.isEmpty then .keyword else .field⟩

/-- The cards of a file, in turn. -/
def readCards (s : State) : List (List Line) → Outcome State
  | [] => .ok s
  | f :: fs => do
    let s ← readCard s f
    readCards s fs

end ScalarPoints
end Vega
