import Verif.Element.Virtual

/-! # Components that loads, constraints and expected results need: `Model::finish` (Model.cpp 2227-2250, 2275-2277 and 2299-2301) and
`removeAssertionsMissingDOFS` (Model.cpp 1130-1153) -/
namespace Vega
namespace Required

/-- A constraint or a loading, as far as its components matter: values on single components of nodes, that count when they are not zero
(`NodalForce::getDOFSForNode`, Loading.cpp 319-340; `ForceSurface`, 606-625), and nodes with components that count whatever the value
(`ImposedDisplacement`, 256-259; pressures, 713-720 and 744-751; constraints). -/
structure Bc where
  forces : List (Nat × Dof × Dbl)
  named : List (Nat × Dofs)

/-- `getDOFSForNode` (Loading.cpp 319-340 and the others cited at `Bc`). -/
def Bc.dofsAt (b : Bc) (p : Nat) : Dofs :=
  (b.named.filter fun e => e.1 = p).foldl (fun d e => d.union e.2)
    ((b.forces.filter fun f => f.1 = p ∧ isZero f.2.2 = false).foldl (fun d f => d.addDof f.2.1) Dofs.NO_DOFS)

/-- `Loading::scale`: forces are multiplied, components that count whatever the value stay. -/
def Bc.scale (k : Dbl) (b : Bc) : Bc := { b with forces := b.forces.map fun f => (f.1, f.2.1, f.2.2 * k) }

/-- A load set: its own loads (`getLoadings`, Loading.cpp 93-95) and the sets that it combines (`embedded_loadsets`), with their factors. -/
structure LoadSet where
  id : Nat
  loads : List Bc
  embedded : List (Nat × Dbl)

/-- An expected result (Objective.cpp 131-137, 170-176 and 190-195): a displacement of a node on one component, a stress at a node, a frequency;
and the objectives that are no assertions. -/
inductive Expected where
  | displacement (id p : Nat) (d : Dof)
  | vonMises (id p : Nat)
  | frequency (id : Nat)
  | other (id : Nat)
  deriving DecidableEq

/-- `isAssertion` (Analysis.cpp 294). -/
def Expected.isAssertion : Expected → Bool
  | .other _ => false
  | _ => true

/-- `nodePositions` with `getDOFSForNode` (Objective.cpp 131-137, 170-176, 190-195). -/
def Expected.places : Expected → List (Nat × Dofs)
  | .displacement _ p d => [(p, Dofs.ofDof d)]
  | .vonMises _ p => [(p, Dofs.NO_DOFS)]
  | .frequency _ => []
  | .other _ => []

/-- A set of objectives. -/
structure ObjectiveSet where
  id : Nat
  members : List Expected
  deriving DecidableEq

/-- An analysis: its number, the constraints of its constraint sets, the numbers of its load sets and of its objective sets. The common sets of the
model (Analysis.cpp 96-98, 265-267 and 277-279) are among them. -/
structure Analysis where
  id : Nat
  constraints : List Bc
  loadSets : List Nat
  objectiveSets : List Nat

/-- The model: for every element set the nodes and their components, the load sets, the objective sets, the analyses. -/
structure Model where
  elements : List (List (Nat × Dofs))
  loadSets : List LoadSet
  objectiveSets : List ObjectiveSet
  analyses : List Analysis

/-- The components of the nodes: `allowDOFS` for every element set (Model.cpp 2227-2231). -/
def nodeDofs (m : Model) (p : Nat) : Dofs :=
  (m.elements.flatten.filter fun e => e.1 = p).foldl (fun d e => d.union e.2) Dofs.NO_DOFS

/-- `getLoadings` of the load sets of an analysis (Analysis.cpp 94-105 and 149-158): the loads of the sets themselves, without those of the sets that
they combine. -/
def ownLoads (m : Model) (a : Analysis) : List Bc :=
  (m.loadSets.filter fun s => s.id ∈ a.loadSets).flatMap LoadSet.loads

/-- `getBoundaryConditions` (Analysis.cpp 137-160). -/
def boundaryConditions (m : Model) (a : Analysis) : List Bc := a.constraints ++ ownLoads m a

/-- `findBoundaryDOFS` after `addBoundaryDOFS` for every boundary condition (Model.cpp 2241-2248; Analysis.cpp 482-493). -/
def boundary (m : Model) (a : Analysis) (p : Nat) : Dofs :=
  (boundaryConditions m a).foldl (fun d b => d.union (b.dofsAt p)) Dofs.NO_DOFS

/-- `getAssertions` (Analysis.cpp 287-300). -/
def assertions (m : Model) (a : Analysis) : List Expected :=
  ((m.objectiveSets.filter fun s => s.id ∈ a.objectiveSets).flatMap ObjectiveSet.members).filter Expected.isAssertion

/-- The test of an assertion in an analysis (Model.cpp 1135-1144). -/
def lacks (m : Model) (a : Analysis) (x : Expected) : Bool :=
  x.places.any fun e => !e.2.empty && !((nodeDofs m e.1).union (boundary m a e.1)).containsAll e.2

/-- `objectivesToRemove` (Model.cpp 1132-1146). -/
def toRemove (m : Model) : List Expected := m.analyses.flatMap fun a => (assertions m a).filter (lacks m a)

/-- `Model::remove` (Model.cpp 290-312): the objective is taken out of every set. -/
def ObjectiveSet.without (xs : List Expected) (s : ObjectiveSet) : ObjectiveSet := { s with members := s.members.filter fun x => x ∉ xs }

/-- `removeAssertionsMissingDOFS` (Model.cpp 1130-1153). -/
def removeAssertions (m : Model) : Model := { m with objectiveSets := m.objectiveSets.map (ObjectiveSet.without (toRemove m)) }

/-- The loads of a set after `replaceCombinedLoadSets` (Model.cpp 1096-1128), when the sets that it combines do not combine others: a factor equal to 1
keeps the loading (1105-1111), another one copies and scales it (1113-1117). -/
def LoadSet.replaced (m : Model) (s : LoadSet) : List Bc :=
  s.loads ++ s.embedded.flatMap fun e =>
    (m.loadSets.filter fun t => t.id = e.1).flatMap fun t => if isEqual e.2 1 then t.loads else t.loads.map (Bc.scale e.2)

/-- The loads of an analysis when it is written (Model.cpp 2275-2277). -/
def finalLoads (m : Model) (a : Analysis) : List Bc :=
  (m.loadSets.filter fun s => s.id ∈ a.loadSets).flatMap (LoadSet.replaced m)

/-- What `generateDiscrets` sees of an analysis (Model.cpp 655 and 712). -/
def needed (m : Model) (a : Analysis) : Virtual.Analysis := ⟨a.id, boundary m a⟩

/-- `generateDiscrets` (Model.cpp 642-734, called at 2299-2301) uses the components found at 2241-2248, before the combined sets are replaced. -/
def discrets (m : Model) (nodes : List Nat) : Virtual.State :=
  Virtual.run (m.analyses.map (needed m)) (nodeDofs m) nodes

end Required
end Vega
