import Verif.Case.Control
import Verif.Element.Direct
import Verif.Mesh.Bars

/-!
# Matrices entered on cards: DMIG (`Nastran/NastranParser.cpp` 355-387, 391-457, 1397-1467)

The matrices named in the case control section (`Case.Deck.matrices`) and the cards that fill them. Strict mode; warnings are
left out. Numbers are exact.
-/
namespace Vega
namespace Dmig
open Nastran

/-- What the cards change: the nodes of the mesh, the direct matrices of the model, and `directMatrixByName`
(NastranParser.h), where a matrix is given by its place in the list. -/
structure State where
  nodes : NodeStore
  matrices : List (Case.MatrixKind × DirectMatrix)
  byName : Map Line Nat

/-- `directMatrixByName.insert` and `model.add` (NastranParser.cpp 384-387, 420-423, 453-457): a name that is known keeps its
matrix. -/
def select (s : State) (m : Case.MatrixKind × Line) : State :=
  ⟨s.nodes, s.matrices ++ [(m.1, DirectMatrix.new .SYMMETRIC)],
    match s.byName.find m.2 with
    | some _ => s.byName
    | none => s.byName.set m.2 s.matrices.length⟩

/-- The matrices of the case control section. -/
def start (ns : NodeStore) (selects : List (Case.MatrixKind × Line)) : State := selects.foldl select ⟨ns, [], []⟩

/-- `*(DOFS::nastranCodeToDOFS(code).begin())` (NastranParser.cpp 1457, 1462). -/
def firstDof (code : Int) : Outcome Dof := do
  let dofs ← Dofs.nastranCodeToDOFS code
  Dof.findByPosition (dofs.nextAvailable 0)

/-- The loop over the terms of a column (NastranParser.cpp 1459-1466), at most `fuel` turns. -/
def columnLoop (gj : Int) (dofj : Dof) : Nat → NodeStore → DirectMatrix → Cursor →
    Outcome ((NodeStore × DirectMatrix) × Cursor)
  | 0, _, _, _ => .diverges
  | fuel + 1, ns, m, c => do
    let go ← isNextInt c
    if go then do
      let (g1, c) ← nextInt none c
      let (c1, c) ← nextInt none c
      let dof1 ← firstDof c1
      let (a1, c) ← nextDouble none c
      let c ← skip 1 c
      let (ns, m) ← m.addComponent ns gj dofj g1 dof1 a1
      columnLoop gj dofj fuel ns m c
    else .ok ((ns, m), c)

/-- The header of a matrix (NastranParser.cpp 1423-1444). -/
def header (s : State) (c : Cursor) : Outcome (State × Cursor) := do
  let (ifo, c) ← nextInt none c
  if ifo ≠ 6 then .throw
  else do
    let (tin, c) ← nextInt none c
    if tin ≠ 1 ∧ tin ≠ 2 then .throw
    else do
      let (tout, c) ← nextInt (some 0) c
      if tout ≠ 0 then .throw
      else do
        let (polar, c) ← nextInt (some 0) c
        if polar ≠ 0 then .throw
        else do
          let c ← skip 1 c
          let (_, c) ← nextInt (some 0) c
          .ok (s, c)

/-- A column of a matrix (NastranParser.cpp 1453-1466). The matrix is in the model, since it was added when its name was
noted. -/
def column (s : State) (i : Nat) (gj : Int) (c : Cursor) : Outcome (State × Cursor) :=
  match s.matrices[i]? with
  | none => .ub
  | some (kind, m) => do
    let (cj, c) ← nextInt none c
    let dofj ← firstDof cj
    let c ← skip 1 c
    let ((ns, m), c) ← columnLoop gj dofj (c.fields.length + 1) s.nodes m c
    .ok (⟨ns, s.matrices.set i (kind, m), s.byName⟩, c)

/-- `parseDMIG` (NastranParser.cpp 1397-1467). -/
def parseDMIG (s : State) (c : Cursor) : Outcome (State × Cursor) := do
  let (name, c) ← nextString none c
  if name = "UACCEL".toList then .ok (s, skipToNextKeyword c)
  else if name = "CDSHUT".toList then .ok (s, skipToNextKeyword c)
  else do
    let (indicator, c) ← nextInt none c
    match s.byName.find name with
    | none => .ok (s, skipToNextKeyword c)
    | some i => if indicator = 0 then header s c else column s i indicator c

/-- The cards one after the other. -/
def run (s : State) : List (List Line) → Outcome State
  | [] => .ok s
  | card :: cards => do
    let s ← Bars.runCard (parseDMIG s) card
    run s cards

end Dmig
end Vega
