import Verif.Constraint.Spc

/-!
# Removal of single point constraints: `Analysis::removeSPCNodeDofs`, `Model::removeRedundantSpcs`,
`Model::removeConstrainedImposed`
-/
namespace Vega

/-- The order in which a `std::set` of constraints or nodes is walked: any enumeration without
repetition. The theorems hold for all of them. -/
structure Enum where
  walk : List Nat → List Nat
  mem : ∀ l x, x ∈ walk l ↔ x ∈ l
  nodup : ∀ l, (walk l).Nodup

/-- The part of a `Model` that bears on single point constraints. SPCs, constraint sets and analyses
are named by their automatic ids (C09); the other constraints of the sets are left out. The set
registries are the relation of C29. -/
structure SpcModel where
  /-- next automatic ids -/
  next : Nat
  nextSet : Nat
  spc : Nat → Spc
  /-- the node positions of the SPC itself, and those of its node groups -/
  nodes : Nat → List Nat
  groupNodes : Nat → List Nat
  /-- the SPCs registered in a set, and the sets it includes (`constraintSetReferences`) -/
  members : Nat → List Nat
  includes : Nat → List Nat
  analyses : List Nat
  /-- `constraintSet_references` of an analysis, all of them of sets of the model -/
  refs : Nat → List Nat
  common : Option Nat

namespace SpcModel

/-- `Analysis::getConstraintSets` (Analysis.cpp 262-272). An empty common set is left out by the
code; it contributes no constraint. -/
def constraintSets (m : SpcModel) (a : Nat) : List Nat := m.common.toList ++ m.refs a

/-- `ConstraintSet::getConstraintsByType(SPC)` (Constraint.cpp 77-95), in the order of the set. -/
def constraints (e : Enum) (m : SpcModel) (S : Nat) : List Nat :=
  e.walk (m.members S ++ (m.includes S).flatMap m.members)

/-- `nodePositions` (Constraint.cpp 151-153): groups included. -/
def nodePositions (e : Enum) (m : SpcModel) (s : Nat) : List Nat :=
  e.walk (m.nodes s ++ m.groupNodes s)

/-- `Model::getConstraintSetsByConstraint` (Model.cpp 502-524): the sets in which the constraint is
registered. -/
def affected (m : SpcModel) (s : Nat) : List Nat :=
  (List.range m.nextSet).filter fun S => s ∈ m.members S

/-- A new SPC with the values `s` has for the given degrees of freedom (Analysis.cpp 438-440,
454-456). -/
def restrictTo (s : Spc) : List Dof → Outcome Spc
  | [] => .ok Spc.free
  | d :: ds => do
    let t ← restrictTo s ds
    let x ← s.getDoubleForDOF d
    .ok (t.setDOF d (.value x))

/-- `Model::add` of an SPC on one node. -/
def addSpc (m : SpcModel) (t : Spc) (n : Nat) : SpcModel :=
  { m with
    next := m.next + 1
    spc := fun x => if x = m.next then t else m.spc x
    nodes := fun x => if x = m.next then [n] else m.nodes x
    groupNodes := fun x => if x = m.next then [] else m.groupNodes x }

/-- `addConstraintIntoConstraintSet` for each of the sets (Analysis.cpp 446-448). -/
def register (m : SpcModel) (t : Nat) (Ss : List Nat) : SpcModel :=
  { m with members := fun S => if S ∈ Ss then m.members S ++ [t] else m.members S }

/-- Analysis.cpp 435-449: the degrees of freedom that remain. -/
def keepRemaining (m : SpcModel) (s n : Nat) (rem : Dofs) (Ss : List Nat) : Outcome SpcModel :=
  if rem.empty then .ok m
  else do
    let t ← restrictTo (m.spc s) rem.toList
    .ok ((m.addSpc t n).register m.next Ss)

/-- Analysis.cpp 466-476: the new set joins the other analyses that use an affected set. -/
def joinOthers (m : SpcModel) (a new : Nat) (Ss : List Nat) : SpcModel :=
  { m with refs := fun b =>
      if b ∈ m.analyses ∧ b ≠ a ∧ (m.constraintSets b).any (fun S => S ∈ Ss) = true
      then m.refs b ++ [new] else m.refs b }

/-- Analysis.cpp 450-477: the removed degrees of freedom, for the other analyses. -/
def keepForOthers (m : SpcModel) (a s n : Nat) (D : Dofs) (Ss : List Nat) : Outcome SpcModel :=
  if m.analyses.length ≥ 2 then do
    let t ← restrictTo (m.spc s) D.toList
    let new := m.nextSet
    let m1 := { m with nextSet := m.nextSet + 1 }
    .ok (((m1.addSpc t n).register m.next [new]).joinOthers a new Ss)
  else .ok m

/-- `removeNodePosition` (Constraint.h 111-113, MeshComponents.cpp 954-956): erasing a position that
is not there (it may be in a group) is undefined. -/
def dropNode (m : SpcModel) (s n : Nat) : Outcome SpcModel :=
  if n ∈ m.nodes s then
    .ok { m with nodes := fun x => if x = s then (m.nodes s).filter (· ≠ n) else m.nodes x }
  else .ub

/-- `Analysis::removeSPCNodeDofs` (Analysis.cpp 430-480). -/
def removeSPCNodeDofs (m : SpcModel) (a s n : Nat) (D : Dofs) : Outcome SpcModel := do
  let Ss := m.affected s
  let m1 ← m.keepRemaining s n (((m.spc s).getDOFSForNode n).diff D) Ss
  let m2 ← m1.keepForOthers a s n D Ss
  m2.dropNode s n

/-- `spcvalueByNodeAndDof` (Model.cpp 1420). -/
abbrev Seen := Nat → Dof → Option Dbl

def Seen.put (K : Seen) (n : Nat) (d : Dof) (x : Dbl) : Seen :=
  fun n' d' => if n' = n ∧ d' = d then some x else K n' d'

/-- The loop over the degrees of freedom (Model.cpp 1431-1448). -/
def dofLoop (s : Spc) (n : Nat) : List Dof → Seen × Dofs → Outcome (Seen × Dofs)
  | [], p => .ok p
  | d :: ds, p => do
    let x ← s.getDoubleForDOF d
    match p.1 n d with
    | none => dofLoop s n ds (p.1.put n d x, p.2)
    | some y => if !isEqual x y then .throw else dofLoop s n ds (p.1, p.2.addDof d)

/-- Model.cpp 1449-1451. -/
def removeIfAny (m : SpcModel) (a s n : Nat) (D : Dofs) : Outcome SpcModel :=
  if D.empty then .ok m else m.removeSPCNodeDofs a s n D

/-- The body of the loop over the nodes (Model.cpp 1428-1456). -/
def nodeStep (a s n : Nat) (p : SpcModel × Seen) : Outcome (SpcModel × Seen) := do
  let q ← dofLoop (p.1.spc s) n ((p.1.spc s).getDOFSForNode n).toList (p.2, Dofs.NO_DOFS)
  let m ← p.1.removeIfAny a s n q.2
  .ok (m, q.1)

/-- The loop over the nodes of an SPC. -/
def nodeLoop (a s : Nat) : List Nat → SpcModel × Seen → Outcome (SpcModel × Seen)
  | [], p => .ok p
  | n :: ns, p => do
    let p ← nodeStep a s n p
    nodeLoop a s ns p

/-- The loop over the SPCs of a set (Model.cpp 1426-1457). -/
def spcLoop (e : Enum) (a : Nat) : List Nat → SpcModel × Seen → Outcome (SpcModel × Seen)
  | [], p => .ok p
  | s :: ss, p => do
    let p ← nodeLoop a s (p.1.nodePositions e s) p
    spcLoop e a ss p

/-- The loop over the sets of an analysis (Model.cpp 1421-1458). -/
def setLoop (e : Enum) (a : Nat) : List Nat → SpcModel × Seen → Outcome (SpcModel × Seen)
  | [], p => .ok p
  | S :: Ss, p => do
    let p ← spcLoop e a (p.1.constraints e S) p
    setLoop e a Ss p

/-- The loop over the analyses (Model.cpp 1419-1459). -/
def analysisLoop (e : Enum) : List Nat → SpcModel → Outcome SpcModel
  | [], m => .ok m
  | a :: as, m => do
    let p ← setLoop e a (m.constraintSets a) (m, fun _ _ => none)
    analysisLoop e as p.1

/-- `Model::removeRedundantSpcs` (Model.cpp 1418-1460). -/
def removeRedundantSpcs (e : Enum) (m : SpcModel) : Outcome SpcModel := analysisLoop e m.analyses m

end SpcModel
end Vega
