import Verif.Mesh.Oriented
import Verif.Aster.Assign
import Mathlib.Data.List.Dedup

/-! # The table of the displacements of beams in their own axes: `AsterWriter::writeAnalyses` (`Aster/AsterWriter.cpp` 381-428) -/
namespace Vega
namespace LocalTable
open OrientedCells

/-- What is used of the mesh: for the position of a coordinate system, whether it is there, and whether it is a `RELATIVE` one with
its vector (CoordinateSystem.h 147, 155); for the position of a cell, the positions of its nodes. -/
structure View where
  system : Nat → Option (Option (Dbl × Dbl × Dbl))
  nodes : Nat → Option (List Nat)

/-- An `_F(OPERATION='EXTRACTION', ...)` (AsterWriter.cpp 406-409): `INTITULE`, the two names of `NOEUD`, and `VECT_Y`. -/
structure Extraction where
  title : String
  first : Med.Text
  last : Med.Text
  vectY : Dbl × Dbl × Dbl
  deriving DecidableEq

/-- The turn of the loop for one entry of `cellGroupNameByCspos` (AsterWriter.cpp 387-409), of a coordinate system and the name of its
group. A coordinate system that is not there, or a group, is a null pointer; `front` and `back` of no nodes are undefined. The cells of
the group are a set (MeshComponents.cpp 280-282). -/
def turn (m : View) (es : List Assign.Elems) (groups : Map String (List Nat)) (e : Nat × String) : Outcome (List Extraction) :=
  if (Assign.filter es .continuum).length = es.length then .ok []
  else match m.system e.1 with
    | none => .ub
    | some none => .ok []
    | some (some v) =>
      match groups.find e.2 with
      | none => .ub
      | some ps =>
        match ps.dedup with
        | [p] =>
          match m.nodes p with
          | none => .ub
          | some ns =>
            match ns.head?, ns.getLast? with
            | some a, some b => .ok [⟨e.2, Med.medName 'N' a, Med.medName 'N' b, v⟩]
            | _, _ => .ub
        | _ => .ok []

/-- The loop (AsterWriter.cpp 387-410). -/
def actions (m : View) (es : List Assign.Elems) (groups : Map String (List Nat)) : List (Nat × String) → Outcome (List Extraction)
  | [] => .ok []
  | e :: l => do
    let x ← turn m es groups e
    let r ← actions m es groups l
    .ok (x ++ r)

/-- The table of a static analysis that is no combination (AsterWriter.cpp 381-413): there is none without beams, or trusses with
large displacements. -/
def table (m : View) (es : List Assign.Elems) (large : Bool) (s : State) : Outcome (Option (List Extraction)) :=
  if (es.filter Assign.Elems.isBeam).isEmpty = false ∨ (large = true ∧ (es.filter Assign.Elems.isTruss).isEmpty = false) then do
    let l ← actions m es s.groups s.names
    .ok (some l)
  else .ok none

end LocalTable
end Vega
