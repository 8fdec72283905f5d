import Verif.Basic
import Verif.Num
import Verif.Map
import Verif.Dof.Model

/-! # Rigid constraints made elements: `makeCellsFromRBE` (Model.cpp 1759-1907) and `generateRBEs` (SystusWriter.cpp 643-825) -/
namespace Vega
namespace Rigid

/-- The constraints that are made elements (Model.cpp 1766, 1796, 1847). -/
inductive Kind where
  | rigid | quasi | rbe3
  deriving DecidableEq

/-- What is read of a constraint (Constraint.cpp 157-200, 360-399). Nodes are given by numbers, which are in one-to-one correspondence
with positions. `slaves` is the result of `getSlaves`, in the order of the set; `dofs` that of `getDOFS`; `slaveDofs` and `slaveCoef`
those of `getDOFSForNode` and `getCoefForNode`. -/
structure Constr where
  kind : Kind
  id : Int
  master : Option Nat
  slaves : List Nat
  dofs : Dofs
  addRotations : Bool
  slaveDofs : Nat → Dofs
  slaveCoef : Nat → Dbl

/-- The sort of an element set (Element.h 615-627), with the coefficient of the material of `RBE3` (Model.cpp 1878). -/
inductive SetKind where
  | rbar
  | rbe3 (mdofs sdofs : Dofs) (coef : Dbl)
  deriving DecidableEq

/-- An element set, with its cells in the order of their positions; a cell is the list of its nodes. That the cells of `RBE3` are in a
group and those of the others are not makes no difference: `updateCell` (Mesh.cpp 493-500) changes groups. -/
structure RSet where
  kind : SetKind
  master : Nat
  cells : List (List Nat)
  deriving DecidableEq

/-- The names `RBE3_n_id` of the groups (Model.cpp 1881), by `n` and `id`. -/
abbrev Names := List (Nat × Int)

/-- A rigid constraint (Model.cpp 1766-1794); `getMaster` throws if there is none (Constraint.cpp 167-173). -/
def makeRigid (c : Constr) : Outcome RSet :=
  match c.master with
  | none => .throw
  | some m => .ok ⟨.rbar, m, c.slaves.map fun s => [m, s]⟩

/-- A quasi-rigid constraint (Model.cpp 1796-1840). Without a master it is the first slave, which is skipped; without slaves as well,
the first of none is read. -/
def makeQuasi (c : Constr) : Outcome RSet :=
  match c.master with
  | some m => .ok ⟨.rbar, m, c.slaves.map fun s => [m, s]⟩
  | none =>
    match c.slaves with
    | [] => .ub
    | m :: r => .ok ⟨.rbar, m, ((m :: r).filter fun s => s != m).map fun s => [m, s]⟩

/-- `groupByCoefByDOFS` (Model.cpp 1854), in the order in which parts are made. -/
abbrev Parts := Map (Dofs × Dbl) (List (List Nat))

/-- The key of a slave (Model.cpp 1862-1863). -/
def keyOf (c : Constr) (s : Nat) : Dofs × Dbl := (c.slaveDofs s, c.slaveCoef s)

/-- One slave of an averaging constraint (Model.cpp 1856-1894). A group with the name of another is refused (Mesh.cpp 733-735). -/
def rbe3Slave (c : Constr) (m : Nat) (names : Names) (parts : Parts) (s : Nat) : Outcome (Names × Parts) :=
  match parts.find (keyOf c s) with
  | some cells => .ok (names, parts.set (keyOf c s) (cells ++ [[m, s]]))
  | none =>
    if (parts.length + 1, c.id) ∈ names then .throw
    else .ok ((parts.length + 1, c.id) :: names, parts.set (keyOf c s) [[m, s]])

/-- The loop over slaves (Model.cpp 1856-1894). -/
def rbe3Slaves (c : Constr) (m : Nat) : List Nat → Names → Parts → Outcome (Names × Parts)
  | [], names, parts => .ok (names, parts)
  | s :: r, names, parts => do
    let q ← rbe3Slave c m names parts s
    rbe3Slaves c m r q.1 q.2

/-- The element set of a part (Model.cpp 1876-1885). -/
def partSet (c : Constr) (m : Nat) (p : (Dofs × Dbl) × List (List Nat)) : RSet := ⟨.rbe3 c.dofs p.1.1 p.1.2, m, p.2⟩

/-- An averaging constraint (Model.cpp 1847-1898). -/
def makeRbe3 (c : Constr) (names : Names) : Outcome (Names × List RSet) :=
  match c.master with
  | none => .throw
  | some m => do
    let q ← rbe3Slaves c m c.slaves names []
    .ok (q.1, q.2.map (partSet c m))

/-- One constraint. -/
def makeOne (c : Constr) (names : Names) : Outcome (Names × List RSet) :=
  match c.kind with
  | .rigid => do
    let e ← makeRigid c
    .ok (names, [e])
  | .quasi => do
    let e ← makeQuasi c
    .ok (names, [e])
  | .rbe3 => makeRbe3 c names

/-- The constraints one after the other. -/
def makeAll : List Constr → Names → Outcome (List RSet)
  | [], _ => .ok []
  | c :: r, names => do
    let q ← makeOne c names
    let l ← makeAll r q.1
    .ok (q.2 ++ l)

/-- The order in which the constraints of a set are made elements (Model.cpp 1766, 1796, 1847). -/
def ordered (cs : List Constr) : List Constr :=
  cs.filter (fun c => c.kind = .rigid) ++ cs.filter (fun c => c.kind = .quasi) ++ cs.filter (fun c => c.kind = .rbe3)

/-- `makeCellsFromRBE` (Model.cpp 1759-1907) for the constraint sets that all analyses have (C30), without the removal of the constraints
(1900-1905): the element sets that are made. -/
def make (css : List (List Constr)) (names : Names) : Outcome (List RSet) := makeAll (css.flatMap ordered) names

/-- What is read of the options (SystusWriter.cpp 668, 681, 704): `systusOption` is `CONTINUOUS`; the translation mode is `lagrangian`. -/
structure Opts where
  continuous : Bool
  lagrangian : Bool

/-- What `generateRBEs` changes besides sets: the number that the next node gets, and `rotationNodeIdByTranslationNodeId`. -/
structure State where
  fresh : Nat
  rot : Map Nat Nat

/-- The node of rotations (SystusWriter.cpp 681-685). -/
def addRotation (o : Opts) (m : Nat) (st : State) : State :=
  if o.continuous then ⟨st.fresh + 1, st.rot.set m st.fresh⟩ else st

/-- The nodes of rotations that are put in a cell (SystusWriter.cpp 699-700, 795-796). -/
def rotNodes (o : Opts) (rot : Nat) : List Nat := if o.continuous then [rot] else []

/-- The loop over the cells of an `RBAR` (SystusWriter.cpp 688-730); the first argument is the next number of a node. The tests of the
number of nodes and of the first node (692-697) always succeed for sets made by `make`, and are left out. -/
def barCells (o : Opts) (rot : Nat) : Nat → List (List Nat) → Nat × List (List Nat)
  | f, [] => (f, [])
  | f, c :: r =>
    if o.lagrangian then
      let q := barCells o rot (f + 1) r
      (q.1, (c ++ rotNodes o rot ++ [f]) :: q.2)
    else
      let q := barCells o rot f r
      (q.1, (c ++ rotNodes o rot) :: q.2)

/-- A set `RBAR` (SystusWriter.cpp 649-739). -/
def bar (o : Opts) (st : State) (e : RSet) : State × RSet :=
  let st' := addRotation o e.master st
  let q := barCells o st.fresh st'.fresh e.cells
  (⟨q.1, st'.rot⟩, { e with cells := q.2 })

/-- A set `RBE3` (SystusWriter.cpp 741-825). -/
def average (o : Opts) (st : State) (e : RSet) : State × RSet :=
  if o.continuous then
    (⟨st.fresh + 3, st.rot.set e.master (st.fresh + 1)⟩,
      { e with cells := e.cells.map fun c => c ++ [st.fresh + 1, st.fresh, st.fresh + 2] })
  else (⟨st.fresh + 1, st.rot⟩, { e with cells := e.cells.map fun c => c ++ [st.fresh] })

/-- One set. -/
def one (o : Opts) (st : State) (e : RSet) : State × RSet :=
  match e.kind with
  | .rbar => bar o st e
  | .rbe3 _ _ _ => average o st e

/-- Sets one after the other. -/
def run (o : Opts) : State → List RSet → State × List RSet
  | st, [] => (st, [])
  | st, e :: r =>
    let q := one o st e
    let l := run o q.1 r
    (l.1, q.2 :: l.2)

/-- `generateRBEs` (SystusWriter.cpp 643-825), as far as `RBAR` and `RBE3`, which come in this order; `rotationNodeIdByTranslationNodeId`
is cleared first (647). -/
def generate (o : Opts) (fresh : Nat) (sets : List RSet) : State × List RSet :=
  run o ⟨fresh, []⟩ (sets.filter (fun e => e.kind = .rbar) ++ sets.filter (fun e => e.kind ≠ .rbar))

end Rigid
end Vega
