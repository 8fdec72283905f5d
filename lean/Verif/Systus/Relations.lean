import Verif.Constraint.Lmpc
import Verif.Mesh.Cells
import Mathlib.Data.List.Sort

/-! # Relations made elements: `makeCellsFromLMPC` (Model.cpp 1669-1757), `Lmpc` (Element.h 629-645, Element.cpp 1199-1225)
and the tables of Systus (SystusWriter.cpp 1868-1888) -/
namespace Vega
namespace Relations

/-- `std::vector::operator<`, of which `lt` compares the members. -/
def lexLt (lt : α → α → Bool) : List α → List α → Bool
  | [], [] => false
  | [], _ :: _ => true
  | _ :: _, [] => false
  | a :: l, b :: m => if lt a b then true else if lt b a then false else lexLt lt l m

/-- The keys of `elmpcByDOFCoefs` (Model.cpp 1690): by relation and node. -/
abbrev Key := List (List DofCoefs)

/-- `<` of keys. -/
def keyLt : Key → Key → Bool := lexLt (lexLt DofCoefs.lt)

/-- An element set made of relations (Element.h 632-645). `dofCoefsByDof` is `coefs`; `dofcount` is its length. -/
structure Elem where
  analysis : Int
  coefs : Key
  cells : List Nat

/-- `Lmpc::appendDofCoefs` (Element.cpp 1208-1213). -/
def Elem.append (e : Elem) (c : List DofCoefs) : Outcome Elem :=
  if 6 ≤ e.coefs.length then .throw else .ok { e with coefs := e.coefs ++ [c] }

/-- The loop that calls it (Model.cpp 1726-1728). -/
def Elem.appendAll : Key → Elem → Outcome Elem
  | [], e => .ok e
  | c :: r, e => do
    let e ← e.append c
    Elem.appendAll r e

/-- What the function changes: the cells that it adds to the mesh, by the positions of their nodes, and the element sets. -/
structure State where
  cells : List (List Nat)
  sets : List Elem

/-- `elmpcByDOFCoefs`, of which an entry refers to a place among the element sets. -/
abbrev Table := List (Key × Nat)

/-- A search in `elmpcByDOFCoefs` (Model.cpp 1714, 1734). As `<` of the keys, which is tolerant, is no strict weak order (C05), it is not
determined which equivalent entry is found: the model takes any search. -/
abbrev Search := Table → Key → Option Nat

/-- A search finds equivalent keys: neither is less. -/
def Search.Sound (look : Search) : Prop :=
  ∀ t k i, look t k = some i → ∃ k', (k', i) ∈ t ∧ keyLt k k' = false ∧ keyLt k' k = false

/-- `nodePositions` as the set that is the key of `lmpcsByNodepositions` (Model.cpp 1677, 1680), in the order of the set. -/
def nodes (l : Lmpc) : List Nat := l.nodePositions.insertionSort (· ≤ ·)

/-- The sorted coefficients of a relation (Model.cpp 1697-1702). -/
def sortedCoefs (ns : List Nat) (l : Lmpc) : List DofCoefs := ns.map l.getDoFCoefsForNode

/-- One round of the grouping (Model.cpp 1678-1687). -/
def groupStep (m : Map (List Nat) (List Lmpc)) (l : Lmpc) : Map (List Nat) (List Lmpc) :=
  match m.find (nodes l) with
  | none => m.set (nodes l) [l]
  | some ls => m.set (nodes l) (ls ++ [l])

/-- `lmpcsByNodepositions` (Model.cpp 1677-1687). Its order is not that of the code; no property depends on it. -/
def group (ls : List Lmpc) : Map (List Nat) (List Lmpc) := ls.foldl groupStep []

/-- `elementsetLMPC->addCellPosition` (Model.cpp 1739). -/
def addCell (sets : List Elem) (i cell : Nat) : List Elem :=
  sets.modify i fun e => { e with cells := e.cells ++ [cell] }

/-- One round of the loop over slices (Model.cpp 1705-1740). -/
def slice (look : Search) (a : Int) (ns : List Nat) (all part : Key) (t : Table) (st : State) : Outcome (Table × State) := do
  let _ ← CellType.polyType ns.length
  let cell := st.cells.length
  let cells := st.cells ++ [ns]
  match look t part with
  | none =>
    let e ← Elem.appendAll all ⟨a, [], []⟩
    let sets := st.sets ++ [e]
    .ok (t ++ [(part, st.sets.length)], ⟨cells, addCell sets st.sets.length cell⟩)
  | some i => .ok (t, ⟨cells, addCell st.sets i cell⟩)

/-- The loop over slices (Model.cpp 1705-1740): `i` is the start of the slice. -/
def slices (look : Search) (a : Int) (ns : List Nat) (all : Key) (i : Nat) (t : Table) (st : State) : Outcome (Table × State) :=
  if i < all.length then do
    let r ← slice look a ns all ((all.drop i).take 6) t st
    slices look a ns all (i + 6) r.1 r.2
  else .ok (t, st)
termination_by all.length - i

/-- The loop over groups (Model.cpp 1690-1741). -/
def groups (look : Search) (a : Int) : List (List Nat × List Lmpc) → Table → State → Outcome State
  | [], _, st => .ok st
  | (ns, ls) :: r, t, st => do
    let q ← slices look a ns (ls.map (sortedCoefs ns)) 0 t st
    groups look a r q.1 q.2

/-- The loop over the constraint sets of an analysis (Model.cpp 1674-1742), each given by its relations. -/
def constraintSets (look : Search) (a : Int) : List (List Lmpc) → State → Outcome State
  | [], st => .ok st
  | ls :: r, st => do
    let st ← groups look a (group ls) [] st
    constraintSets look a r st

/-- An analysis: its number and the relations of its constraint sets. -/
structure Analysis where
  id : Int
  sets : List (List Lmpc)

/-- `makeCellsFromLMPC` (Model.cpp 1669-1743), without the removal of the relations at its end (1745-1757). -/
def make (look : Search) : List Analysis → State → Outcome State
  | [], st => .ok st
  | a :: r, st => do
    let st ← constraintSets look a.id a.sets st
    make look r st

/-- The degrees of freedom of a node in the order of the table (SystusWriter.cpp 1881-1883). -/
def dofList (nb : Nat) : List Dof := [Dof.DX, .DY, .DZ, .RX, .RY, .RZ].take nb

/-- The table of an element set (SystusWriter.cpp 1879-1885). -/
def table (nb : Nat) (e : Elem) : List Dbl :=
  e.coefs.flatMap fun r => r.flatMap fun c => (dofList nb).map c.getValue

end Relations
end Vega
