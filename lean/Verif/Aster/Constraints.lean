import Verif.Constraint.Lmpc
import Verif.Constraint.Spc
import Verif.Med.Families
import Verif.Mesh.Boxes

/-! # Constraints written for Code_Aster: `Aster/AsterWriter.cpp` 1441-1487, 1694-1949, 2154-2220

The command file is modelled as the list of its keywords with their arguments. Blanks, line breaks, the commas between
arguments and the decimal rendering of numbers (15 digits, 79) are left out, and so are the comments and the marks
`markAsWritten`. -/
namespace Vega
namespace Aster
open Med

/-- The keywords that say where a condition applies (AsterWriter.cpp 2154-2220). -/
inductive Where where
  | groupNo (names : List String)
  | noeud (names : List Text)
  | tout
  | groupMa (names : List String)
  | maille (names : List Text)

/-- The loop over the groups of nodes (AsterWriter.cpp 2158-2166 and `getNodeGroups`, MeshComponents.cpp 1058-1068):
a name without a group of nodes throws; empty groups are passed over. -/
def nodeGroupNames (e : MeshEnv) : List String → Outcome (List String)
  | [] => .ok []
  | g :: gs =>
    match e.group g with
    | some (.node ps) => do
      let r ← nodeGroupNames e gs
      .ok (if ps.isEmpty then r else g :: r)
    | _ => .throw

/-- The loop over the groups of cells (AsterWriter.cpp 2190-2198 and `getCellGroups`, MeshComponents.cpp 866-877). -/
def cellGroupNames (e : MeshEnv) : List String → Outcome (List String)
  | [] => .ok []
  | g :: gs =>
    match e.group g with
    | some (.cell ps) => do
      let r ← cellGroupNames e gs
      .ok (if ps.isEmpty then r else g :: r)
    | _ => .throw

/-- `GROUP_MA` (AsterWriter.cpp 2188-2200). -/
def writeCellGroups (e : MeshEnv) (c : CellBox) : Outcome (List Where) :=
  if c.groups.isEmpty then .ok []
  else do
    let names ← cellGroupNames e c.groups
    .ok [.groupMa names]

/-- `MAILLE` (AsterWriter.cpp 2201-2218). -/
def writeCells (c : CellBox) : List Where :=
  if c.cells.isEmpty then [] else [.maille (c.cells.map (medName 'M'))]

/-- `writeCellContainer` (AsterWriter.cpp 2183-2220); `all`: `hasAllCells`. -/
def writeCellContainer (e : MeshEnv) (all : Bool) (c : CellBox) : Outcome (List Where) :=
  if all then .ok [.tout]
  else do
    let gs ← writeCellGroups e c
    .ok (gs ++ writeCells c)

/-- `GROUP_NO` (AsterWriter.cpp 2156-2168). -/
def writeNodeGroups (e : MeshEnv) (c : NodeBox) : Outcome (List Where) :=
  if c.nodeGroups.isEmpty then .ok []
  else do
    let names ← nodeGroupNames e c.nodeGroups
    .ok [.groupNo names]

/-- `NOEUD` (AsterWriter.cpp 2169-2179). -/
def writeNodes (e : MeshEnv) (c : NodeBox) : Outcome (List Where) :=
  if c.nodes.isEmpty then .ok []
  else do
    let ns ← c.nodesExcluding e
    .ok [.noeud (ns.map (medName 'N'))]

/-- `writeNodeContainer` (AsterWriter.cpp 2154-2181). A container of nodes never has all cells
(MeshComponents.h 490-506). -/
def writeNodeContainer (e : MeshEnv) (c : NodeBox) : Outcome (List Where) := do
  let gs ← writeNodeGroups e c
  let ns ← writeNodes e c
  let cs ← writeCellContainer e false c.base
  .ok (gs ++ ns ++ cs)

/-- The name of a degree of freedom (AsterWriter.cpp 1711-1722, 1743-1754, 1831-1842, 1921-1932). -/
def ddlName : Dof → String
  | .DX => "DX" | .DY => "DY" | .DZ => "DZ" | .RX => "DRX" | .RY => "DRY" | .RZ => "DRZ"

/-- An occurrence of a keyword factor of `AFFE_CHAR_MECA`. -/
inductive Factor where
  /-- `DDL_IMPO=_F(…, DX=…, )` (AsterWriter.cpp 1705-1725, 1741-1757). -/
  | ddlImpo (place : List Where) (values : List (String × Dbl))
  /-- The message written in the middle of the command (AsterWriter.cpp 1699-1704). -/
  | message
  /-- `LIAISON_SOLIDE=_F(NOEUD=(…),)` (AsterWriter.cpp 1784-1790). -/
  | liaisonSolide (noeud : List Text)
  /-- `LIAISON_MAIL=_F(…, GROUP_MA_MAIT=…, GROUP_MA_ESCL=…,)` (AsterWriter.cpp 1807-1810). -/
  | liaisonMail (mait escl : String)
  /-- `LIAISON_RBE3` (AsterWriter.cpp 1827-1892). -/
  | liaisonRbe3 (noeudMait : Text) (ddlMait : List String) (noeudEscl : List Text) (ddlEscl : List String)
      (coefEscl : List Dbl)
  /-- `LIAISON_DDL` (AsterWriter.cpp 1907-1943). -/
  | liaisonDdl (noeud : List Text) (ddl : List String) (coefMult : List Dbl) (coefImpo : Dbl)

/-- The loop over the degrees of freedom (AsterWriter.cpp 1710-1724). -/
def spcValues (s : Spc) : List Dof → Outcome (List (String × Dbl))
  | [] => .ok []
  | d :: ds => do
    let x ← s.getDoubleForDOF d
    let r ← spcValues s ds
    .ok ((ddlName d, x) :: r)

/-- An imposed displacement (AsterWriter.cpp 1698-1726). -/
def writeSpc (e : MeshEnv) (nodes : NodeBox) (s : Spc) : Outcome Factor :=
  if s.hasReferences then .ok .message
  else do
    let place ← writeNodeContainer e nodes
    let values ← spcValues s (s.getDOFSForNode 0).toList
    .ok (.ddlImpo place values)

/-- `LIAISON_SOLIDE` of a constraint with the given nodes (AsterWriter.cpp 1784-1790). -/
def writeSolid (nodes : List Nat) : Factor := .liaisonSolide (nodes.map (medName 'N'))

/-- The six tests in a row that write the degrees of freedom of a set (AsterWriter.cpp 1831-1842, 1921-1932). -/
def ddlList (ds : Dofs) : List String :=
  (if ds.contains .DX then ["DX"] else []) ++ (if ds.contains .DY then ["DY"] else []) ++
  (if ds.contains .DZ then ["DZ"] else []) ++ (if ds.contains .RX then ["DRX"] else []) ++
  (if ds.contains .RY then ["DRY"] else []) ++ (if ds.contains .RZ then ["DRZ"] else [])

/-- A turn of the tests that write the degrees of freedom of a slave (AsterWriter.cpp 1855-1884): the text so far and
`size`. -/
def joinStep (ds : Dofs) (acc : String × Nat) (d : Dof) : String × Nat :=
  if ds.contains d then
    (acc.1 ++ ddlName d ++ (if acc.2 + 1 < ds.size then "-" else ""), acc.2 + 1)
  else acc

/-- The degrees of freedom of a slave (AsterWriter.cpp 1852-1888). -/
def ddlJoined (ds : Dofs) : String :=
  let acc := [Dof.DX, .DY, .DZ, .RX, .RY].foldl (joinStep ds) ("", 0)
  if ds.contains .RZ then acc.1 ++ "DRZ" else acc.1

/-- `RBE3` (Constraint.h 160-172) with the result of `getSlaves` (Constraint.cpp 190-198). -/
structure Rbe3 where
  master : Nat
  dofs : Dofs
  slaves : List Nat
  slaveDofs : Map Nat Dofs
  slaveCoefs : Map Nat Dbl

/-- `RBE3::getDOFSForNode` (Constraint.cpp 387-398). -/
def Rbe3.getDOFSForNode (r : Rbe3) (p : Nat) : Dofs :=
  if p = r.master then r.dofs
  else match r.slaveDofs.find p with
    | some ds => ds
    | none => Dofs.ALL_DOFS

/-- `RBE3::getCoefForNode` (Constraint.cpp 375-385). -/
def Rbe3.getCoefForNode (r : Rbe3) (p : Nat) : Dbl :=
  if p = r.master then 1
  else match r.slaveCoefs.find p with
    | some x => x
    | none => 0

/-- `writeRBE3` for a constraint (AsterWriter.cpp 1824-1894). -/
def writeRbe3 (r : Rbe3) : Factor :=
  .liaisonRbe3 (medName 'N' r.master) (ddlList (r.getDOFSForNode r.master)) (r.slaves.map (medName 'N'))
    (r.slaves.map fun p => ddlJoined (r.getDOFSForNode p)) (r.slaves.map r.getCoefForNode)

/-- The coefficients of a node (AsterWriter.cpp 1937-1941): the loop `i < 6` over `dofcoef[i]`. -/
def coefList (c : DofCoefs) : List Dbl :=
  ([Dof.DX, .DY, .DZ, .RX, .RY, .RZ].filter fun d => !isZero (c.getValue d)).map c.getValue

/-- `writeLMPC` for a relation (AsterWriter.cpp 1905-1944). -/
def writeLmpc (l : Lmpc) : Factor :=
  .liaisonDdl
    (l.nodePositions.flatMap fun p => List.replicate (l.getDOFSForNode p).size (medName 'N' p))
    (l.nodePositions.flatMap fun p => ddlList (l.getDOFSForNode p))
    (l.nodePositions.flatMap fun p => coefList (l.getDoFCoefsForNode p))
    l.coefImpo

/-- A constraint by its type (Constraint.h 36-47) with what the writer asks of it; `nodes`: `nodePositions()`. -/
inductive Constr where
  | spc (nodes : NodeBox) (s : Spc)
  | rigid (nodes : List Nat)
  | quasiRigid (nodes : List Nat) (dofs : Dofs) (addRotations : Bool)
  | rbe3 (r : Rbe3)
  | lmpc (l : Lmpc)
  /-- `SurfaceSlide` (Constraint.h 333-344): the group of cells of the elements of the master and the one of the surface
  of the slave. -/
  | slide (master slave : String)
  /-- The classes that derive from `Contact` (Constraint.h 227-331). -/
  | contact

/-- `isContact` (Constraint.h 59-61, 231-233). -/
def Constr.isContact : Constr → Bool
  | .contact => true
  | _ => false

/-- The occurrences of a list of constraints of one kind. -/
def writeAll (f : Constr → Outcome (List Factor)) : List Constr → Outcome (List Factor)
  | [] => .ok []
  | c :: cs => do
    let a ← f c
    let r ← writeAll f cs
    .ok (a ++ r)

/-- `writeSPC` (AsterWriter.cpp 1694-1732). -/
def ofSpc (e : MeshEnv) : Constr → Outcome (List Factor)
  | .spc nodes s => do
    let f ← writeSpc e nodes s
    .ok [f]
  | _ => .ok []

/-- The rigid constraints of `writeLIAISON_SOLIDE` (AsterWriter.cpp 1768-1773). -/
def ofRigid : Constr → Outcome (List Factor)
  | .rigid nodes => .ok [writeSolid nodes]
  | _ => .ok []

/-- The completely rigid ones among the others (AsterWriter.cpp 1774-1778; `isCompletelyRigid`, Constraint.cpp
208-210). -/
def ofQuasiRigid : Constr → Outcome (List Factor)
  | .quasiRigid nodes dofs addRotations =>
    .ok (if dofs = Dofs.ALL_DOFS ∧ addRotations = true then [writeSolid nodes] else [])
  | _ => .ok []

/-- `writeLIAISON_MAIL` (AsterWriter.cpp 1796-1817). -/
def ofSlide : Constr → Outcome (List Factor)
  | .slide master slave => .ok [.liaisonMail master slave]
  | _ => .ok []

/-- `writeRBE3` (AsterWriter.cpp 1819-1898). -/
def ofRbe3 : Constr → Outcome (List Factor)
  | .rbe3 r => .ok [writeRbe3 r]
  | _ => .ok []

/-- `writeLMPC` (AsterWriter.cpp 1900-1949). -/
def ofLmpc : Constr → Outcome (List Factor)
  | .lmpc l => .ok [writeLmpc l]
  | _ => .ok []

/-- A set of constraints (AsterWriter.cpp 1442-1486), `none` where nothing is written. `hasFunctions` is false of every
constraint (BoundaryCondition.h 29-31): the command is `AFFE_CHAR_MECA`. -/
def writeConstraintSet (e : MeshEnv) (cs : List Constr) : Outcome (Option (List Factor)) :=
  if cs.isEmpty then .ok none
  else if cs.all Constr.isContact then .ok none
  else do
    let a ← writeAll (ofSpc e) cs
    let b ← writeAll ofRigid cs
    let c ← writeAll ofQuasiRigid cs
    let d ← writeAll ofSlide cs
    let f ← writeAll ofRbe3 cs
    let g ← writeAll ofLmpc cs
    .ok (some (a ++ b ++ c ++ d ++ f ++ g))

end Aster
end Vega
