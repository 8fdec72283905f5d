import Verif.Case.Control
import Verif.Case.Write
import Verif.Mesh.Nodes

/-! # The displacements asked for, written for Code_Aster: `Aster/AsterWriter.cpp` 125-283, 2152-2179, `Abstract/Objective.cpp` 286-322

The commands `DISP` of the case control section (`Deck.phases`: the outputs made, in turn) and the tables of results of the
analyses. The `LIST_FREQ` of an output (AsterWriter.cpp 221-227) is left out: no file selects frequencies
(`C97_never_selected_false`). The names of concepts and files are left out, and so are the groups of cells and the nodes without a
group of an output (AsterWriter.cpp 2167-2178): the Nastran parser gives none. -/
namespace Vega
namespace Displacements
open Nastran (Line)
open Case (Deck Analysis OSet SetValue AType showInt)

/-- A group of the mesh: the positions of its nodes, without an order, or a group of cells. -/
inductive Group where
  | nodes (positions : List Nat)
  | cells
  deriving DecidableEq

/-- The nodes, and `groupByName` (Mesh.h). -/
structure Mesh where
  nodes : NodeStore
  groups : Map Line Group

/-- The name of the group of a list (Objective.cpp 292). -/
def groupName (n : Int) : Line := "SET_".toList ++ showInt n

/-- The values of a list in the order of a `std::set<int>`. -/
def sorted (l : List Int) : List Int := l.foldl (fun s i => insertSorted i s) []

/-- The nodes of a list added to a group (Objective.cpp 296-298, MeshComponents.cpp 908-910). -/
def addNodeIds (s : NodeStore) (ps : List Nat) : List Int → Outcome (NodeStore × List Nat)
  | [] => .ok (s, ps)
  | i :: l => do
    let (s, p) ← s.findOrReserveNode i none
    addNodeIds s (if p ∈ ps then ps else ps ++ [p]) l

/-- `NodalDisplacementOutput::getNodeGroups` (Objective.cpp 286-305) for an output on the list `n`, with `hasGroup` and
`findOrCreateNodeGroup` (Mesh.cpp 676-719, 725-727): the mesh, the name of the group and its nodes. A list with `ALL` is not a
`SetValue<int>` (Value.h 167-196). -/
def nodeGroup (sets : List (Int × SetValue)) (m : Mesh) (n : Int) : Outcome (Mesh × Line × List Nat) :=
  match Map.find sets n with
  | none => .throw
  | some .all => .throw
  | some (.list l) =>
    match Map.find m.groups (groupName n) with
    | some (.nodes ps) => .ok (m, groupName n, ps)
    | some .cells => .throw
    | none => do
      let (s, ps) ← addNodeIds m.nodes [] (sorted l)
      .ok (⟨s, Map.set m.groups (groupName n) (.nodes ps)⟩, groupName n, ps)

/-- The names after `GROUP_NO` (AsterWriter.cpp 2152-2166): the empty groups are left out. -/
def groupNo (sets : List (Int × SetValue)) (m : Mesh) (n : Int) : Outcome (Mesh × List Line) := do
  let (m, name, ps) ← nodeGroup sets m n
  .ok (m, if ps.isEmpty then [] else [name])

/-- An action of `POST_RELEVE_T` (AsterWriter.cpp 219-234): the output, which part of the displacements, and the groups. -/
structure Action where
  output : Nat
  real : Bool
  groups : List Line
  deriving DecidableEq

/-- The table of the results of an analysis. -/
inductive Table where
  | extraction (actions : List Action)
  | displacements
  | modes
  | nothing
  deriving DecidableEq

/-- The lists asked for in an analysis, in the order of `objectiveSet_references`, a `std::set` (Analysis.h 70). -/
def asked (a : Analysis) : List Int := sorted ((a.outputs.filter fun o => decide (o.1 = OSet.disp)).map (·.2))

/-- The outputs of an analysis (Analysis.cpp 275-285, 302-315, 357-365, Objective.cpp 73-81, Model.cpp 523-543): all those of the
sets of objectives of the analysis, whichever subcase they come from. An output is its place and the number of its list. -/
def outputsOf (d : Deck) (a : Analysis) : List (Nat × Int) :=
  (asked a).flatMap fun n => (d.phases.zipIdx.filter fun e => decide (e.1.1 = n)).map fun e => (e.2, n)

/-- The actions of the outputs (AsterWriter.cpp 217-236). -/
def writeActions (sets : List (Int × SetValue)) (m : Mesh) : List (Nat × Int) → Outcome (Mesh × List Action)
  | [] => .ok (m, [])
  | o :: l => do
    let (m, g) ← groupNo sets m o.2
    let (m, g') ← groupNo sets m o.2
    let (m, as) ← writeActions sets m l
    .ok (m, ⟨o.1, true, g⟩ :: ⟨o.1, false, g'⟩ :: as)

/-- The table of an analysis without outputs (AsterWriter.cpp 243-267). `reused`: the modes of another analysis are taken again. -/
def wholeTable (reused : Bool) : AType → Table
  | .combination => .displacements
  | .modal => .displacements
  | .buckling => .displacements
  | .nonLinear => .displacements
  | .linearStatic => .displacements
  | .directFreq => .nothing
  | .modalFreq => if reused then .nothing else .modes
  | .modalComplex => .nothing

/-- The table of an analysis (AsterWriter.cpp 212-268). -/
def writeTable (d : Deck) (reused : Bool) (m : Mesh) (a : Analysis) : Outcome (Mesh × Table) :=
  if (outputsOf d a).isEmpty then .ok (m, wholeTable reused a.kind.type)
  else do
    let (m, as) ← writeActions d.sets m (outputsOf d a)
    .ok (m, .extraction as)

/-- The tables of the analyses (AsterWriter.cpp 358-361, 601), in turn; `reused` for each of them. The mesh that comes out is the one
that is written afterwards (AsterWriter.cpp 95-99). -/
def writeTables (d : Deck) (m : Mesh) : List (Analysis × Bool) → Outcome (Mesh × List Table)
  | [] => .ok (m, [])
  | x :: l => do
    let (m, t) ← writeTable d x.2 m x.1
    let (m, ts) ← writeTables d m l
    .ok (m, t :: ts)

end Displacements
end Vega
