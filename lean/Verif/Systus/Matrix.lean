import Verif.Element.Direct

/-! # Direct matrices in Systus: `Systus/SystusAsc.cpp` 65-150, 221-237, `Systus/SystusWriter.cpp`
1830-1864, 2314-2409 -/
namespace Vega
namespace Systus

/-- `DOFToInt` (SystusAsc.cpp 221-237). -/
def dofToInt : Dof → Nat
  | .DX => 1
  | .DY => 2
  | .DZ => 3
  | .RX => 4
  | .RY => 5
  | .RZ => 6

/-- The numbering of the nodes inside the element, `positionToSytusNumber` (SystusAsc.cpp 73-78,
SystusWriter.cpp 2319-2324). -/
def number : List Nat → Nat → Map Nat Nat → Map Nat Nat
  | [], _, acc => acc
  | p :: rest, i, acc => number rest (i + 1) (acc.set p i)

/-- `positionToSytusNumber[p]`: the `operator[]` of a `std::map<pos_t, int>`, 0 for an unknown node. -/
def numberOf (nb : Map Nat Nat) (p : Nat) : Nat :=
  match nb.find p with
  | some i => i
  | none => 0

/-- `SystusMatrix` (SystusAsc.h 78-88), without its id. -/
structure Matrix where
  nbDOFS : Nat
  nbNodes : Nat
  size : Nat
  values : List Dbl

namespace Matrix

/-- Constructor (SystusAsc.cpp 104-108; the header names its last two parameters in the other order,
the definition and the calls agree). -/
def new (nbDOFS nbNodes : Nat) : Matrix :=
  ⟨nbDOFS, nbNodes, nbNodes * nbNodes * nbDOFS * nbDOFS,
    List.replicate (nbNodes * nbNodes * nbDOFS * nbDOFS) 0⟩

/-- The place of a value (SystusAsc.cpp 115), in `int`. -/
def place (n N : Nat) (i j dofi dofj : Nat) : Int :=
  ((dofi : Int) - 1) + n * ((dofj : Int) - 1) + n * n * ((i : Int) - 1) + n * n * N * ((j : Int) - 1)

/-- `setValue` (SystusAsc.cpp 110-119). A place equal to the size passes the test and is outside the
vector, as is a negative place. -/
def setValue (s : Matrix) (i j dofi dofj : Nat) (v : Dbl) : Outcome Matrix :=
  if dofi > s.nbDOFS then .throw
  else if dofj > s.nbDOFS then .throw
  else
    let pos := place s.nbDOFS s.nbNodes i j dofi dofj
    if pos > s.size then .throw
    else if pos < 0 ∨ pos ≥ s.values.length then .ub
    else .ok { s with values := s.values.set pos.toNat v }

/-- The lines written for the values (SystusAsc.cpp 138-149): `sizeM` values on each of `lines`
lines. -/
def linesFrom (values : List Dbl) (sizeM : Nat) : Nat → Nat → List (List Dbl)
  | 0, _ => []
  | l + 1, ioff => (values.drop ioff).take sizeM :: linesFrom values sizeM l (ioff + sizeM)

/-- The values of the file, by lines (SystusAsc.cpp 138-149). -/
def lines (s : Matrix) : List (List Dbl) :=
  linesFrom s.values (s.nbDOFS * s.nbDOFS) (s.nbNodes * s.nbNodes) 0

/-- The loop over the entries of a submatrix (SystusWriter.cpp 2332-2337). -/
def setEntries (nI nJ : Nat) : List ((Dof × Dof) × Dbl) → Matrix → Outcome Matrix
  | [], s => .ok s
  | ((d1, d2), v) :: rest, s => do
    let s ← s.setValue nI nJ (dofToInt d1) (dofToInt d2) v
    let s ← s.setValue nJ nI (dofToInt d2) (dofToInt d1) v
    setEntries nI nJ rest s

/-- The loop over the pairs of nodes (SystusWriter.cpp 2328-2338). -/
def setPairs (m : DirectMatrix) (nb : Map Nat Nat) : List (Nat × Nat) → Matrix → Outcome Matrix
  | [], s => .ok s
  | np :: rest, s => do
    let s ← setEntries (numberOf nb np.1) (numberOf nb np.2) (m.findSubmatrix np.1 np.2).componentByDofs s
    setPairs m nb rest s

/-- The matrix of a direct matrix (SystusWriter.cpp 2319-2338, repeated for mass 2352-2371 and
stiffness 2384-2403). -/
def build (nbDOFS : Nat) (m : DirectMatrix) : Outcome Matrix :=
  setPairs m (number m.nodePositions 1 []) m.nodePairs (new nbDOFS m.nodePositions.length)

end Matrix

namespace Table

/-- The loop over the entries of a submatrix (SystusAsc.cpp 84-94). -/
def fillEntries (nbDOFS pairCode : Nat) : List ((Dof × Dof) × Dbl) → List Dbl → Outcome (List Dbl)
  | [], acc => .ok acc
  | ((d1, d2), v) :: rest, acc =>
    if dofToInt d1 > nbDOFS then .throw
    else if dofToInt d2 > nbDOFS then .throw
    else fillEntries nbDOFS pairCode rest
      (acc ++ [((pairCode + (10 * dofToInt d1 + dofToInt d2) : Nat) : Dbl), v])

/-- The loop over the pairs of nodes (SystusAsc.cpp 81-95). -/
def fillPairs (nbDOFS : Nat) (m : DirectMatrix) (nb : Map Nat Nat) :
    List (Nat × Nat) → List Dbl → Outcome (List Dbl)
  | [], acc => .ok acc
  | np :: rest, acc => do
    let acc ← fillEntries nbDOFS (numberOf nb np.1 * 1000 + numberOf nb np.2 * 100)
      (m.findSubmatrix np.1 np.2).componentByDofs acc
    fillPairs nbDOFS m nb rest acc

/-- `SystusTable::fill` (SystusAsc.cpp 70-97) on an empty table: the values. -/
def fill (nbDOFS : Nat) (m : DirectMatrix) : Outcome (List Dbl) :=
  fillPairs nbDOFS m (number m.nodePositions 1 []) m.nodePairs []

end Table

/-- Kinds of direct matrices. -/
inductive MatrixKind where
  | STIFFNESS | MASS | DAMPING
  deriving DecidableEq, Repr

/-- The number by which an element refers to its table (SystusWriter.cpp 1842, 1852, 1862). -/
def tableRef (k : MatrixKind) (tId : Nat) : Nat :=
  match k with
  | .STIFFNESS => tId
  | .MASS => tId * 100
  | .DAMPING => tId * 10000

end Systus
end Vega
