import Verif.Value.Tables
import Verif.NastranWrite.LineLoads

/-! # Loads along beams for Code_Aster: `changeParametricForceLineToAbsolute` (Model.cpp 2020-2052) -/
namespace Vega
namespace LineLoad
open Table NastranWrite

/-- The value of a `ForceLine` (Loading.h 371-391): a table or something else. -/
inductive Force where
  | table (t : FunctionTable)
  | other

/-- The table made of PLOAD1 (NastranParser.cpp 2786, 2811-2856): linear, and not defined outside. -/
def forceOf (r : LineRead) : FunctionTable :=
  ⟨.linear, .linear, .none, .none, ⟨some (match r.scale with | .length => .parax | .fraction => .absc), none⟩, r.table⟩

/-- The points with abscissas of the mesh (Model.cpp 2044-2048). -/
def absolute (a b : Dbl) (pts : List (Dbl × Dbl)) : List (Dbl × Dbl) := pts.map fun p => (a * (1 - p.1) + b * p.1, p.2)

/-- The body of the loop (Model.cpp 2025-2050) for a load with functions: `cells` are the cells of the load, each with the first coordinates of
its nodes. The second node is read before the number of nodes is looked at (2030, 2042). The new table replaces the one of the load (2050);
that it is also added to the model (2049) is left out: the table of PLOAD1 has no number of its own that could be met twice. -/
def convert (cells : List (List Dbl)) (force : Force) : Outcome FunctionTable :=
  match cells with
  | [xs] =>
    match xs with
    | a :: b :: more =>
      if isEqual a b then .throw
      else match force with
        | .other => .throw
        | .table t =>
          if t.names.x ≠ some .absc then .ok t
          else if more ≠ [] then .throw
          else .ok { t with names := ⟨some .parax, t.names.y⟩, points := absolute a b t.points }
    | _ => .ub
  | _ => .throw

end LineLoad
end Vega
