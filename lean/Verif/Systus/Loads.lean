import Verif.Basic
import Verif.Num
import Mathlib.Data.List.Sort

/-! # Load cases, vectors and lists of Systus: `fillLoads`, `fillLoadingsVectors`, `fillConstraintsVectors`, `fillLists`
(`Systus/SystusWriter.cpp` 1015-1544, 1711-1763) -/
namespace Vega
namespace SystusLoads

/-! ## The model as the writer sees it -/

/-- The load of one node: its position, force and moment in the global coordinate system (`getForceInGlobalCS`,
`getMomentInGlobalCS`; three numbers each). -/
structure NodeLoad where
  pos : Nat
  force : List Dbl
  moment : List Dbl

/-- A loading (`Loading::Type`). `pressure` stands for `NORMAL_PRESSION_FACE` and `NORMAL_PRESSION_SHELL`; `line` has the degree of
freedom (0 to 5) and the values of its table; `other` is a type that is not written. Dynamic excitations are the subject of C109. -/
inductive Load where
  | nodal (entries : List NodeLoad)
  | pressure (cells : List Int) (p : Dbl)
  | surface (cells : List Int) (force moment : List Dbl)
  | line (cells : List Int) (dof : Nat) (values : List Dbl)
  | gravity (a : List Dbl)
  | imposed (nodes : List Nat) (transl rot : List Dbl)
  | other

/-- A set of loads. -/
structure LoadSet where
  id : Int
  loads : List Load

/-- A single point constraint: nodes, values (0 for a degree of freedom that is not constrained), and whether it refers to
functions. -/
structure Spc where
  nodes : List Nat
  transl : List Dbl
  rot : List Dbl
  references : Bool

/-- An analysis of the subcase. -/
structure Analysis where
  id : Int
  loadSets : List LoadSet
  spcs : List Spc

/-! ## `fillLoads` -/

/-- `localLoadingIdByLoadsetIdByAnalysisId`, `localLoadingListName` (only the numbers) and `idSystusLoad`. -/
structure Cases where
  entries : List (Int × Int × Nat)
  names : List Nat
  next : Nat

/-- A set of loads of an analysis (SystusWriter.cpp 1032-1041). -/
def Cases.addSet (a : Int) (c : Cases) (l : Int) : Cases :=
  ⟨c.entries.filter (fun e => !(e.1 == a && e.2.1 == l)) ++ [(a, l, c.next)], c.names ++ [c.next], c.next + 1⟩

/-- An analysis (SystusWriter.cpp 1022-1049): its entries are cleared (1029); without a set it has one load case, of the set 0. -/
def Cases.addAnalysis (c : Cases) (a : Analysis) : Cases :=
  let c := { c with entries := c.entries.filter fun e => !(e.1 == a.id) }
  match a.loadSets with
  | [] => c.addSet a.id 0
  | ls => (ls.map LoadSet.id).foldl (Cases.addSet a.id) c

/-- `fillLoads` (SystusWriter.cpp 1015-1050). -/
def fillLoads (as : List Analysis) : Cases := as.foldl Cases.addAnalysis ⟨[], [], 1⟩

/-- The load case of a set; `operator[]` gives 0 if there is none. -/
def Cases.get (c : Cases) (a l : Int) : Nat :=
  match c.entries.find? fun e => e.1 == a && e.2.1 == l with
  | some e => e.2.2
  | none => 0

/-- The load cases of an analysis. -/
def Cases.ofAnalysis (c : Cases) (a : Int) : List Nat := (c.entries.filter fun e => e.1 == a).map fun e => e.2.2

/-! ## Vectors -/

/-- `vectors`, `vectorId`, `loadingVectorsIdByLocalLoadingByNodePosition`, `loadingVectorsIdByLocalLoadingByCellId`,
`constraintVectorsIdByLocalLoadingByNodePosition` and `loadingVectorIdByLocalLoading`. The maps of maps of vectors are lists of
(key, load case, vector), in the order of `push_back`. -/
structure State where
  vectors : List (Nat × List Dbl)
  next : Nat
  node : List (Nat × Nat × Nat)
  cell : List (Int × Nat × Nat)
  constr : List (Nat × Nat × Nat)
  volume : List (Nat × Nat)

/-- `vectors[vectorId]=vec`. -/
def put (i : Nat) (v : List Dbl) (l : List (Nat × List Dbl)) : List (Nat × List Dbl) := l.filter (fun e => !(e.1 == i)) ++ [(i, v)]

/-- A new vector: `vectors[vectorId]=vec; vectorId++`. -/
def State.push (s : State) (v : List Dbl) : State := { s with vectors := put s.next v s.vectors, next := s.next + 1 }

/-- The largest absolute value (`normvec`). -/
def norm (l : List Dbl) : Dbl := l.foldr (fun x m => max |x| m) 0

/-- Six zeros. -/
def zeros : List Dbl := [0, 0, 0, 0, 0, 0]

/-- `writeNodalForceVector` for one node (SystusWriter.cpp 1054-1104). `rot` gives the position of the rotational node of a node, if
it has one. -/
def nodalAt (shell : Bool) (rot : Nat → Option Nat) (k : Nat) (s : State) (e : NodeLoad) : State :=
  let v := if shell then e.force ++ e.moment else e.force
  let s := if isZero (norm v) then s else { s.push (zeros ++ v) with node := s.node ++ [(e.pos, k, s.next)] }
  if shell then s
  else match rot e.pos with
    | none => s
    | some q => if isZero (norm e.moment) then s
      else { s.push (zeros ++ e.moment) with node := s.node ++ [(q, k, s.next)] }

/-- A vector on cells. -/
def State.onCells (s : State) (k : Nat) (cells : List Int) (v : List Dbl) : State :=
  { s.push v with cell := s.cell ++ cells.map fun c => (c, k, s.next) }

/-- The unit vector of a degree of freedom (SystusWriter.cpp 1247-1274). -/
def unit (dof : Nat) : List Dbl := (List.range 6).map fun i => if i = dof then 1 else 0

/-- The number of the volume load of a load case; 0 for none. -/
def volumeOf (k : Nat) (l : List (Nat × Nat)) : Nat := match l.find? fun e => e.1 == k with | some e => e.2 | none => 0

/-- A loading (SystusWriter.cpp 1133-1376). A line load whose table is empty has undefined behaviour (1279). -/
def fillLoad (shell : Bool) (rot : Nat → Option Nat) (k : Nat) (s : State) : Load → Outcome State
  | .nodal es => .ok (es.foldl (nodalAt shell rot k) s)
  | .pressure cs p => .ok (if isZero p then s else s.onCells k cs [1, 0, 1, 0, 0, 0, 0, 0, p])
  | .surface cs f m =>
    let v := if shell then f ++ m else f
    .ok (if isZero (norm v) then s else s.onCells k cs ([1, 0, 0, 0, 0, 0] ++ v))
  | .line cs d values => match values with
    | [] => .ub
    | p :: _ =>
      let u := if shell then unit d else (unit d).take 3
      .ok (if isZero (norm u) then s else s.onCells k cs ([1, 0, 0, 0, 0, 0] ++ u.map (· * p)))
  | .gravity a => match a with
    | [x, y, z] => .ok (if isZero (norm a) then s
        else if volumeOf k s.volume ≠ 0 then s
        else { s.push [6, 0, 0, 0, 0, 0, x, 0, y, 0, z] with volume := s.volume.filter (fun e => !(e.1 == k)) ++ [(k, s.next)] })
    | _ => .ub
  | .imposed _ _ _ => .ok s
  | .other => .ok s

/-- The loadings of a set. -/
def fillAll (shell : Bool) (rot : Nat → Option Nat) (k : Nat) : List Load → State → Outcome State
  | [], s => .ok s
  | l :: ls, s => (fillLoad shell rot k s l).bind (fillAll shell rot k ls)

/-- A set of an analysis (SystusWriter.cpp 1128-1132). -/
def fillSets (shell : Bool) (rot : Nat → Option Nat) (c : Cases) (a : Int) : List LoadSet → State → Outcome State
  | [], s => .ok s
  | l :: ls, s =>
    let k := c.get a l.id
    (fillAll shell rot k l.loads { s with volume := s.volume.filter fun e => !(e.1 == k) }).bind (fillSets shell rot c a ls)

/-- `fillLoadingsVectors` (SystusWriter.cpp 1107-1381). -/
def fillLoadings (shell : Bool) (rot : Nat → Option Nat) (c : Cases) : List Analysis → State → Outcome State
  | [], s => .ok s
  | a :: as, s => (fillSets shell rot c a.id a.loadSets s).bind (fillLoadings shell rot c as)

/-! ## Constraints -/

/-- The rotational nodes (SystusWriter.cpp 1441-1456, 1520-1535): the number of the vector is used before the vector is made, and
`vectorId` is increased at the first node. -/
def rotational (cases : List Nat) (v : List Dbl) : (first : Bool) → List Nat → State → State
  | _, [], s => s
  | first, q :: qs, s =>
    let s := { s with constr := s.constr ++ cases.map fun k => (q, k, s.next) }
    rotational cases v false qs (if first then s.push v else s)

/-- A constraint or an imposed displacement with its values (SystusWriter.cpp 1411-1458, 1480-1537). -/
def impose (shell : Bool) (rot : Nat → Option Nat) (cases : List Nat) (nodes : List Nat) (t r : List Dbl) (s : State) : State :=
  let v := if shell then t ++ r else t
  let s := if isZero (norm v) then s
    else { s.push ([4, 0, 0, 0, 0, 0] ++ v) with constr := s.constr ++ cases.flatMap fun k => nodes.map fun p => (p, k, s.next) }
  if shell then s
  else if isZero (norm r) then s
  else rotational cases ([4, 0, 0, 0, 0, 0] ++ r) true (nodes.filterMap rot) s

/-- A constraint (SystusWriter.cpp 1402-1460). -/
def imposeSpc (shell : Bool) (rot : Nat → Option Nat) (cases : List Nat) (s : State) (c : Spc) : State :=
  if c.references then s else impose shell rot cases c.nodes c.transl c.rot s

/-- An imposed displacement (SystusWriter.cpp 1478-1539). -/
def imposeLoad (shell : Bool) (rot : Nat → Option Nat) (cases : List Nat) (s : State) : Load → State
  | .imposed nodes t r => impose shell rot cases nodes t r s
  | _ => s

/-- `vectorId = vectors.size()+1` at the start of each of the functions (SystusWriter.cpp 1110, 1387, 1551). -/
def State.restart (s : State) : State := { s with next := s.vectors.length + 1 }

/-- `fillConstraintsVectors` (SystusWriter.cpp 1384-1543): first the constraints, then the imposed displacements. -/
def fillConstraints (shell : Bool) (rot : Nat → Option Nat) (c : Cases) (as : List Analysis) (s : State) : State :=
  let s := as.foldl (fun s a => a.spcs.foldl (imposeSpc shell rot (c.ofAnalysis a.id)) s) s.restart
  as.foldl (fun s a => (a.loadSets.flatMap LoadSet.loads).foldl (imposeLoad shell rot (c.ofAnalysis a.id)) s) s

/-- `fillLoadingsVectors` and `fillConstraintsVectors`, after `clear`. -/
def fillVectors (shell : Bool) (rot : Nat → Option Nat) (as : List Analysis) : Outcome State :=
  let c := fillLoads as
  (fillLoadings shell rot c as (State.restart ⟨[], 0, [], [], [], []⟩)).bind fun s => .ok (fillConstraints shell rot c as s)

/-! ## Lists -/

/-- The keys of a map, in order. -/
def keys {α : Type} [LinearOrder α] (log : List (α × Nat × Nat)) : List α := ((log.map Prod.fst).dedup).insertionSort (· ≤ ·)

/-- The content of the list of a key (SystusWriter.cpp 1725-1731): the load cases in order, each with its vectors. -/
def content {α : Type} [LinearOrder α] (log : List (α × Nat × Nat)) (x : α) : List Nat :=
  ((((log.filter fun e => e.1 == x).map fun e => e.2.1).dedup).insertionSort (· ≤ ·)).flatMap fun k =>
    (log.filter fun e => e.1 == x && e.2.1 == k).flatMap fun e => [k, e.2.2]

/-- The lists of one map, numbered from `start` (SystusWriter.cpp 1723-1734, 1737-1748, 1751-1762): key, number, content. -/
def number {α : Type} [LinearOrder α] (log : List (α × Nat × Nat)) : Nat → List α → List (α × Nat × List Nat)
  | _, [] => []
  | n, x :: xs => (x, n, content log x) :: number log (n + 1) xs

/-- `fillLists` (SystusWriter.cpp 1711-1763). -/
structure Lists where
  node : List (Nat × Nat × List Nat)
  cell : List (Int × Nat × List Nat)
  constr : List (Nat × Nat × List Nat)

def fillLists (s : State) : Lists :=
  let a := number s.node 1 (keys s.node)
  let b := number s.cell (1 + a.length) (keys s.cell)
  ⟨a, b, number s.constr (1 + a.length + b.length) (keys s.constr)⟩

end SystusLoads
end Vega
