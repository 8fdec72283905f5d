import Verif.Dof.Coefs
import Verif.Map
import Verif.Mesh.Nodes

/-!
# Linear multi point constraints: `LinearMultiplePointConstraint` (Constraint.h 211-226,
Constraint.cpp 537-596) and the relations of `QuasiRigidConstraint` (Constraint.cpp 203-343)
-/
namespace Vega

/-- `LinearMultiplePointConstraint` (Constraint.h 211-215). -/
structure Lmpc where
  coefs : Map Nat DofCoefs
  coefImpo : Dbl

namespace Lmpc

/-- A new relation (Constraint.cpp 537-540). -/
def new (coefImpo : Dbl) : Lmpc := ⟨[], coefImpo⟩

/-- `addParticipation` (Constraint.cpp 542-550) once the position of the node is known. -/
def participate (l : Lmpc) (p : Nat) (c : DofCoefs) : Lmpc :=
  match l.coefs.find p with
  | none => { l with coefs := l.coefs.set p c }
  | some old => { l with coefs := l.coefs.set p (old.add c) }

/-- `addParticipation` (Constraint.cpp 542-550), with the mesh that resolves the node. -/
def addParticipation (s : NodeStore) (l : Lmpc) (nodeId : Int) (dx dy dz rx ry rz : Dbl) :
    Outcome (NodeStore × Lmpc) := do
  let (s, p) ← s.findOrReserveNode nodeId none
  .ok (s, l.participate p (DofCoefs.ofValues dx dy dz rx ry rz))

/-- `nodePositions` (Constraint.cpp 552-558). -/
def nodePositions (l : Lmpc) : List Nat := l.coefs.keys

/-- One of the six tests of `getDOFSForNode` (Constraint.cpp 565-576). -/
def addIfNonZero (c : DofCoefs) (dofs : Dofs) (d : Dof) : Dofs :=
  if !isZero (c.getValue d) then dofs.addDof d else dofs

/-- `getDOFSForNode` (Constraint.cpp 560-579). -/
def getDOFSForNode (l : Lmpc) (p : Nat) : Dofs :=
  match l.coefs.find p with
  | none => Dofs.NO_DOFS
  | some c => [Dof.DX, .DY, .DZ, .RX, .RY, .RZ].foldl (addIfNonZero c) Dofs.NO_DOFS

/-- `removeNodePosition` (Constraint.cpp 581-583). -/
def removeNodePosition (l : Lmpc) (p : Nat) : Lmpc := { l with coefs := l.coefs.erase p }

/-- `ineffective` (Constraint.cpp 585-587). -/
def ineffective (l : Lmpc) : Bool := l.coefs.isEmpty

/-- `getDoFCoefsForNode` (Constraint.cpp 589-595). -/
def getDoFCoefsForNode (l : Lmpc) (p : Nat) : DofCoefs :=
  match l.coefs.find p with
  | none => DofCoefs.ofValues 0 0 0 0 0 0
  | some c => c

end Lmpc

/-- What the emulation of rigid constraints reads of a node: `Node::x`, `y`, `z` (global
coordinates) and `Node::dofs`. -/
structure RigidNode where
  x : Dbl
  y : Dbl
  z : Dbl
  dofs : Dofs

/-- `QuasiRigidConstraint` (Constraint.h 145-154) with a master; `slaves` is what `getSlaves`
(Constraint.cpp 190-198) returns. -/
structure QuasiRigid where
  dofs : Dofs
  addRotations : Bool
  master : Nat
  slaves : List Nat

namespace QuasiRigid

/-- The axis tests of `calcMasterDOFS` (Constraint.cpp 317-323). -/
def addLever (m s : RigidNode) (D : Dofs) : Dofs :=
  let D := if !isZero (m.x - s.x) then D.union ((Dofs.ofDof .RY).addDof .RZ) else D
  let D := if !isZero (m.y - s.y) then D.union ((Dofs.ofDof .RX).addDof .RZ) else D
  if !isZero (m.z - s.z) then D.union ((Dofs.ofDof .RX).addDof .RY) else D

/-- The loop of `calcMasterDOFS` (Constraint.cpp 314-326). -/
def masterLoop (node : Nat → RigidNode) (m : RigidNode) : List Nat → Dofs → Dofs
  | [], D => D
  | s :: ss, D =>
    let D := addLever m (node s) (D.union (node s).dofs)
    if D = Dofs.ALL_DOFS then Dofs.ALL_DOFS else masterLoop node m ss D

/-- `calcMasterDOFS` (Constraint.cpp 305-329). -/
def calcMasterDOFS (node : Nat → RigidNode) (q : QuasiRigid) : Dofs :=
  if (node q.master).dofs = Dofs.ALL_DOFS then Dofs.ALL_DOFS
  else if q.addRotations then
    masterLoop node (node q.master) q.slaves ((node q.master).dofs.union Dofs.TRANSLATIONS)
  else (node q.master).dofs

/-- A relation between the master and a slave (`make_shared<LinearMultiplePointConstraint>(model,
0.0)` and two `addParticipation`). -/
def relation (m s : Nat) (cm cs : DofCoefs) : Lmpc :=
  ((Lmpc.new 0).participate m cm).participate s cs

/-- First relation (Constraint.cpp 227-236). -/
def relDX (m s : Nat) (dx dy dz : Dbl) (D : Dofs) : Lmpc :=
  if D.contains .RY || D.contains .RZ then
    relation m s (.ofValues (-1) 0 0 0 dz (-dy)) (.ofValues 1 0 0 0 0 0)
  else relation m s (.ofValues (-1) 0 0 0 0 0) (.ofValues 1 0 0 0 0 0)

/-- Second relation (Constraint.cpp 239-248). -/
def relDY (m s : Nat) (dx dy dz : Dbl) (D : Dofs) : Lmpc :=
  if D.contains .RX || D.contains .RZ then
    relation m s (.ofValues 0 (-1) 0 (-dz) 0 dx) (.ofValues 0 1 0 0 0 0)
  else relation m s (.ofValues 0 (-1) 0 0 0 0) (.ofValues 0 1 0 0 0 0)

/-- Third relation (Constraint.cpp 251-260). -/
def relDZ (m s : Nat) (dx dy dz : Dbl) (D : Dofs) : Lmpc :=
  if D.contains .RX || D.contains .RY then
    relation m s (.ofValues 0 0 (-1) dy (-dx) 0) (.ofValues 0 0 1 0 0 0)
  else relation m s (.ofValues 0 0 (-1) 0 0 0) (.ofValues 0 0 1 0 0 0)

/-- A relation written only under a condition. -/
def written (b : Bool) (l : Lmpc) : List Lmpc := if b then [l] else []

/-- The relations of one slave (Constraint.cpp 220-285); `D` is `masterCalcDofs`. -/
def slaveRelations (node : Nat → RigidNode) (q : QuasiRigid) (D : Dofs) (s : Nat) : List Lmpc :=
  let dx := (node q.master).x - (node s).x
  let dy := (node q.master).y - (node s).y
  let dz := (node q.master).z - (node s).z
  written (q.dofs.contains .DX) (relDX q.master s dx dy dz D) ++
  written (q.dofs.contains .DY) (relDY q.master s dx dy dz D) ++
  written (q.dofs.contains .DZ) (relDZ q.master s dx dy dz D) ++
  written (q.dofs.contains .RX && D.contains .RX)
    (relation q.master s (.ofValues 0 0 0 1 0 0) (.ofValues 0 0 0 (-1) 0 0)) ++
  written (q.dofs.contains .RY && D.contains .RY)
    (relation q.master s (.ofValues 0 0 0 0 1 0) (.ofValues 0 0 0 0 (-1) 0)) ++
  written (q.dofs.contains .RZ && D.contains .RZ)
    (relation q.master s (.ofValues 0 0 0 0 0 1) (.ofValues 0 0 0 0 0 (-1)))

/-- The relations built by `emulateWithMPCs` (Constraint.cpp 212-287). The registration of the
relations in the sets of the constraint (288-302) is left out. -/
def emulateWithMPCs (node : Nat → RigidNode) (q : QuasiRigid) : List Lmpc :=
  q.slaves.flatMap (slaveRelations node q (calcMasterDOFS node q))

end QuasiRigid
end Vega
