import Verif.Dof.Model
import Verif.NastranWrite.Relation

/-! # Rigid connections: `Abstract/Constraint.cpp` 157-398, writing (`Nastran/NastranWriter.cpp` 428-489) and reading
(`Nastran/NastranParser.cpp` 3106-3206) of the cards RBE2, RBAR, RBAR1 and RBE3 -/
namespace Vega
namespace NastranWrite
open Nastran

/-- `mesh.findNodeId(position)` (Mesh.cpp 315-317) on the numbers of the nodes in the order of their positions: a vector
read without test. -/
def idAt (nodeIds : List Int) (pos : Nat) : Outcome Int :=
  match nodeIds[pos]? with
  | some n => .ok n
  | none => .ub

/-- The numbers of nodes given by their positions. -/
def idsAt (nodeIds : List Int) : List Nat → Outcome (List Int)
  | [] => .ok []
  | p :: ps => do
    let n ← idAt nodeIds p
    let ns ← idsAt nodeIds ps
    .ok (n :: ns)

/-- A `RigidConstraint` or a `QuasiRigidConstraint` (Constraint.cpp 157-164, 201-206, 347-350): `master` is `none` for
`UNAVAILABLE_POS`; `slaves` is `getSlaves()` (190-199), positions in increasing order. -/
structure Link where
  ids : Ids
  dofs : Dofs
  master : Option Nat
  slaves : List Nat

/-- `getMaster` (Constraint.cpp 166-172). -/
def getMaster (l : Link) : Outcome Nat :=
  match l.master with
  | some p => .ok p
  | none => .throw

/-- The fields of the card RBE2 after its number (NastranWriter.cpp 433-440, 462-470). -/
def rbe2Fields (nodeIds : List Int) (number : Int) (dofs : Dofs) (l : Link) : Outcome (List Arg) := do
  let m ← getMaster l
  let masterId ← idAt nodeIds m
  let slaveIds ← idsAt nodeIds l.slaves
  .ok (.int number :: .int masterId :: .int dofs.nastranCode :: slaveIds.map .int)

/-- The card of a rigid constraint (NastranWriter.cpp 429-443). -/
def rigidArgs (nodeIds : List Int) (l : Link) : Outcome (List Arg) :=
  rbe2Fields nodeIds l.ids.bestId Dofs.ALL_DOFS l

/-- `calcMasterDOFS` (Constraint.cpp 305-329) reads the master with `findNode` (Mesh.cpp 218-222), which throws when the
position is not available; the rest is `masterDofs`, not described here. -/
def calcMasterDOFS (masterDofs : Nat → Dofs) (l : Link) : Outcome Dofs :=
  match l.master with
  | some p => .ok (masterDofs p)
  | none => .throw

/-- `getDOFSForNode` of a quasi rigid constraint (Constraint.cpp 331-344). -/
def quasiDofs (masterDofs : Nat → Dofs) (l : Link) (p : Nat) : Outcome Dofs :=
  if l.master = some p then calcMasterDOFS masterDofs l
  else if p ∈ l.slaves then do
    let d ← calcMasterDOFS masterDofs l
    .ok (l.dofs.inter d)
  else .ok Dofs.NO_DOFS

/-- `getDOFSForNode` for each of the nodes. -/
def quasiDofsAt (masterDofs : Nat → Dofs) (l : Link) : List Nat → Outcome (List Dofs)
  | [] => .ok []
  | p :: ps => do
    let d ← quasiDofs masterDofs l p
    let ds ← quasiDofsAt masterDofs l ps
    .ok (d :: ds)

/-- The card of a quasi rigid constraint of a set: its name and its fields (NastranWriter.cpp 445-472). -/
def quasiArgs (nodeIds : List Int) (masterDofs : Nat → Dofs) (set : Ids) (l : Link) : Outcome (Text × List Arg) :=
  if l.master = none ∧ l.slaves.length = 2 then do
    let nodes ← idsAt nodeIds l.slaves
    let dofs ← quasiDofsAt masterDofs l l.slaves
    .ok ("RBAR".toList, .int l.ids.bestId :: nodes.map .int ++ dofs.map fun d => .int d.nastranCode)
  else do
    let args ← rbe2Fields nodeIds set.bestId l.dofs l
    .ok ("RBE2".toList, args)

/-- A slave of an `RBE3` (Constraint.cpp 368-373). -/
structure Slave where
  pos : Nat
  dofs : Dofs
  coef : Dbl

/-- An `RBE3` (Constraint.cpp 360-373): the slaves have different positions, in increasing order. -/
structure Mean where
  ids : Ids
  dofs : Dofs
  master : Nat
  slaves : List Slave

/-- `getCoefForNode` (Constraint.cpp 375-385). -/
def Mean.coefAt (r : Mean) (p : Nat) : Dbl :=
  if p = r.master then 1
  else match r.slaves.find? (fun s => s.pos = p) with
    | some s => s.coef
    | none => 0

/-- `getDOFSForNode` (Constraint.cpp 387-398). -/
def Mean.dofsAt (r : Mean) (p : Nat) : Dofs :=
  if p = r.master then r.dofs
  else match r.slaves.find? (fun s => s.pos = p) with
    | some s => s.dofs
    | none => Dofs.ALL_DOFS

/-- The fields of the slaves of an RBE3 (NastranWriter.cpp 483-487). -/
def rbe3Slaves (nodeIds : List Int) (r : Mean) : List Nat → Outcome (List Arg)
  | [] => .ok []
  | p :: ps => do
    let n ← idAt nodeIds p
    let rest ← rbe3Slaves nodeIds r ps
    .ok (.real (r.coefAt p) :: .int (r.dofsAt p).nastranCode :: .int n :: rest)

/-- The card of an RBE3 (NastranWriter.cpp 474-489). The number of the master is used again as a position (480-482):
as an `int` made unsigned, a negative one is beyond the end of every vector. -/
def rbe3Args (nodeIds : List Int) (r : Mean) : Outcome (List Arg) := do
  let masterPosition ← idAt nodeIds r.master
  if masterPosition < 0 then .ub
  else do
    let written ← idAt nodeIds masterPosition.toNat
    let rest ← rbe3Slaves nodeIds r (r.slaves.map (·.pos))
    .ok (.int r.ids.bestId :: .blank :: .int written :: .int (r.dofsAt masterPosition.toNat).nastranCode :: rest)

/-! ## Reading -/

/-- A connection read from a card, with numbers of nodes: those added by `addSlave`, in this order. -/
structure LinkRead where
  id : Int
  master : Option Int
  dofs : Dofs
  slaves : List Int
  deriving DecidableEq

/-- `while (tok.isNextInt()) addSlave(tok.nextInt())` (NastranParser.cpp 3173-3175, 3197-3200), at most `fuel` turns. -/
def slavesLoop : Nat → Cursor → Outcome (List Int × Cursor)
  | 0, _ => .diverges
  | fuel + 1, c => do
    let b ← isNextInt c
    if b then do
      let (n, c) ← nextInt none c
      let (ns, c) ← slavesLoop fuel c
      .ok (n :: ns, c)
    else .ok ([], c)

/-- `parseRBE2` (NastranParser.cpp 3165-3185); the field ALPHA is read and dismissed with a warning. -/
def parseRBE2 (c : Cursor) : Outcome (LinkRead × Cursor) := do
  let (id, c) ← nextInt none c
  let (master, c) ← nextInt none c
  let (cm, c) ← nextInt none c
  let dofs ← Dofs.nastranCodeToDOFS cm
  let (slaves, c) ← slavesLoop (c.fields.length + 1) c
  let (_, c) ← nextDouble (some unavailable) c
  .ok (⟨id, some master, dofs, slaves⟩, c)

/-- What `parseRBAR` makes of the codes CNA and CNB (NastranParser.cpp 3114-3133): in strict mode the error is thrown,
and in the other modes the card is left out. -/
def rbarCode (cna cnb : Int) : Outcome Int :=
  if cna ≠ 0 ∧ cnb ≠ 0 then .throw
  else if cna = 0 ∧ cnb = 0 then .ok 123456
  else if cna ≠ 0 then .ok cna
  else .ok cnb

/-- `parseRBAR` (NastranParser.cpp 3106-3143); CMA, CMB and ALPHA are dismissed with a warning. -/
def parseRBAR (c : Cursor) : Outcome (LinkRead × Cursor) := do
  let (id, c) ← nextInt none c
  let (ga, c) ← nextInt none c
  let (gb, c) ← nextInt none c
  let (cna, c) ← nextInt (some 0) c
  let (cnb, c) ← nextInt (some 0) c
  let (_, c) ← nextInt (some 0) c
  let (_, c) ← nextInt (some 0) c
  let code ← rbarCode cna cnb
  let dofs ← Dofs.nastranCodeToDOFS code
  let (_, c) ← nextDouble (some unavailable) c
  .ok (⟨id, some ga, dofs, [gb]⟩, c)

/-- `parseRBAR1` (NastranParser.cpp 3145-3163). -/
def parseRBAR1 (c : Cursor) : Outcome (LinkRead × Cursor) := do
  let (id, c) ← nextInt none c
  let (ga, c) ← nextInt none c
  let (gb, c) ← nextInt none c
  let (cna, c) ← nextInt (some 0) c
  let dofs ← Dofs.nastranCodeToDOFS cna
  let (alpha, c) ← nextDouble (some unavailable) c
  if isEqual alpha unavailable then .ok (⟨id, none, dofs, [ga, gb]⟩, c) else .throw

/-- An RBE3 read from a card: the calls of `addRBE3Slave` in their order. -/
structure MeanRead where
  id : Int
  master : Int
  dofs : Dofs
  slaves : List (Int × Dofs × Dbl)
  deriving DecidableEq

/-- The outer loop of `parseRBE3` (NastranParser.cpp 3193-3202), at most `fuel` turns. -/
def rbe3Loop : Nat → Cursor → Outcome (List (Int × Dofs × Dbl) × Cursor)
  | 0, _ => .diverges
  | fuel + 1, c => do
    let b ← isNextDouble c
    if b then do
      let (coef, c) ← nextDouble none c
      let (code, c) ← nextInt none c
      let dofs ← Dofs.nastranCodeToDOFS code
      let (ns, c) ← slavesLoop (c.fields.length + 1) c
      let (rest, c) ← rbe3Loop fuel c
      .ok (ns.map (fun n => (n, dofs, coef)) ++ rest, c)
    else .ok ([], c)

/-- `parseRBE3` (NastranParser.cpp 3187-3206). -/
def parseRBE3 (c : Cursor) : Outcome (MeanRead × Cursor) := do
  let (id, c) ← nextInt none c
  let c ← skip 1 c
  let (master, c) ← nextInt none c
  let (code, c) ← nextInt none c
  let dofs ← Dofs.nastranCodeToDOFS code
  let (slaves, c) ← rbe3Loop (c.fields.length + 1) c
  .ok (⟨id, master, dofs, slaves⟩, c)

/-- A card of the bulk section in strict mode (NastranParser.cpp 536-563): fields left over are refused. -/
def readBulk {α : Type} (parse : Cursor → Outcome (α × Cursor)) (fields : List Nastran.Line) : Outcome α := do
  let (_, c) ← nextString (some []) (Cursor.start fields)
  let (r, c) ← parse c
  if isEmptyUntilNextKeyword c then .ok r else .throw

end NastranWrite
end Vega
