import Verif.Dof.Model
import Verif.Num

/-! # Virtual discrete elements: `generateDiscrets` (Model.cpp 642-734) -/
namespace Vega
namespace Virtual

/-- An analysis: its number and the components that loads and constraints need at a node (`findBoundaryDOFS`, Analysis.cpp 486-493). They are
found before (Model.cpp 2241-2248) and the loop does not change them. -/
structure Analysis where
  id : Nat
  required : Nat → Dofs

/-- A discrete element set: its stiffness for every component (the diagonal, Model.cpp 668-670 and 690-692), and the nodes of its cells. -/
structure Discrete where
  stiffness : List (Dof × Dbl)
  nodes : List Nat
  deriving DecidableEq

/-- A constraint that is added to an analysis: it has a constraint set of its own (Model.cpp 717-725). -/
structure Spc where
  analysis : Nat
  node : Nat
  dofs : Dofs
  deriving DecidableEq

/-- The state: the components of every node, the two element sets, if made, and the constraints. -/
structure State where
  dofs : Nat → Dofs
  tr : Option Discrete
  t : Option Discrete
  spcs : List Spc

/-- `missingDOFS` (Model.cpp 651-659). -/
def missing (analyses : List Analysis) (p : Nat) (d : Dofs) : Dofs :=
  analyses.foldl (fun m a => if d.containsAll (a.required p) then m else m.union ((a.required p).diff d)) Dofs.NO_DOFS

/-- `allowDOFS` (Mesh.cpp 331-334). -/
def allow (f : Nat → Dofs) (p : Nat) (d : Dofs) : Nat → Dofs := fun q => if q = p then (f q).union d else f q

/-- One more cell in the element set, which is made if it is not there (Model.cpp 666-679, 688-701). -/
def put (all : Dofs) (p : Nat) : Option Discrete → Discrete
  | none => ⟨all.toList.map fun d => (d, 0), [p]⟩
  | some e => { e with nodes := e.nodes ++ [p] }

/-- The constraints of a node (Model.cpp 709-732). -/
def spcsOf (analyses : List Analysis) (p : Nat) (d added : Dofs) : List Spc :=
  analyses.filterMap fun a =>
    if d.containsAll (a.required p) then none
    else
      let extra := (added.diff (a.required p)).diff d
      if extra = Dofs.NO_DOFS then none else some ⟨a.id, p, extra⟩

/-- The body of the loop (Model.cpp 651-732). `node` is a copy of what the mesh has (Mesh.cpp 102-104), so that `node.dofs` is what it was
before `allowDOFS`. The names of groups, and that a group of the same name may exist, are left out. -/
def step (analyses : List Analysis) (s : State) (p : Nat) : State :=
  let d := s.dofs p
  let m := missing analyses p d
  if m.empty then { s with spcs := s.spcs ++ spcsOf analyses p d Dofs.NO_DOFS }
  else if m.containsAnyOf Dofs.ROTATIONS then
    { s with
      dofs := allow s.dofs p Dofs.ALL_DOFS, tr := some (put Dofs.ALL_DOFS p s.tr),
      spcs := s.spcs ++ spcsOf analyses p d ((Dofs.ALL_DOFS.diff d).diff m) }
  else
    { s with
      dofs := allow s.dofs p Dofs.TRANSLATIONS, t := some (put Dofs.TRANSLATIONS p s.t),
      spcs := s.spcs ++ spcsOf analyses p d ((Dofs.TRANSLATIONS.diff d).diff m) }

/-- The loop over the nodes (Model.cpp 650-733). -/
def run (analyses : List Analysis) (dofs : Nat → Dofs) (nodes : List Nat) : State :=
  nodes.foldl (step analyses) ⟨dofs, none, none, []⟩

end Virtual
end Vega
