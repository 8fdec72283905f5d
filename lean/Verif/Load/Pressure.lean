import Verif.Basic
import Verif.Geom.Vec

/-!
# Static pressures (PLOAD): `StaticPressure` (Loading.cpp 413-509)
-/
namespace Vega

/-- `StaticPressure` (Loading.h 287-305): three or four node positions and the pressure. -/
structure Pressure where
  n1 : Nat
  n2 : Nat
  n3 : Nat
  n4 : Option Nat
  magnitude : ℝ

namespace Pressure
open Vec

/-- The node positions of the loading, added by the constructor (Loading.cpp 421-426). -/
def nodes (p : Pressure) : List Nat :=
  [p.n1, p.n2, p.n3] ++ p.n4.toList

/-- `(k * (c.norm() / 2)) * c.normalized()` (Loading.cpp 453-460, 470-478, 488-494): the force on a
triangle with two sides of cross product `c`. -/
noncomputable def triForce (k : ℝ) (c : Vec) : Option Vec :=
  c.normalized.map fun d => smul (k * (c.norm / 2)) d

/-- Split along the diagonal 1-3 (Loading.cpp 451-467). -/
noncomputable def force13 (m : ℝ) (n1 n2 n3 n4 n : Nat) (v12 v13 v14 : Vec) : Outcome (Option Vec) :=
  let f1 := triForce (m / 4) (cross v12 v13)
  let f2 := triForce (m / 4) (cross v13 v14)
  if n = n1 ∨ n = n3 then .ok (addOpt f1 f2)
  else if n = n2 then .ok (f1.map (smul 2))
  else if n = n4 then .ok (f2.map (smul 2))
  else .ub

/-- Split along the diagonal 2-4 (Loading.cpp 468-486). -/
noncomputable def force24 (m : ℝ) (n1 n2 n3 n4 n : Nat) (v12 v14 v23 v24 : Vec) :
    Outcome (Option Vec) :=
  let f1 := triForce (m / 4) (cross v12 v14)
  let f2 := triForce (m / 4) (cross v23 v24)
  if n = n2 ∨ n = n4 then .ok (addOpt f1 f2)
  else if n = n1 then .ok (f1.map (smul 2))
  else if n = n3 then .ok (f2.map (smul 2))
  else .ub

/-- `StaticPressure::getForceInGlobalCS` (Loading.cpp 429-497); `pos` gives the global coordinates
of a node position. For a node that is not part of the loading the code returns a default
constructed vector, whose coordinates are never initialised (432; Value.cpp 184-186): `ub`. The
loading is always in the global coordinate system (the constructor leaves the default, 415), where
`localToGlobal` returns its argument (291-292). -/
noncomputable def force (pos : Nat → Vec) (p : Pressure) (n : Nat) : Outcome (Option Vec) :=
  open Classical in
  if n ∉ p.nodes then .ub
  else
    let v12 := sub (pos p.n2) (pos p.n1)
    let v13 := sub (pos p.n3) (pos p.n1)
    match p.n4 with
    | some n4 =>
      let v14 := sub (pos n4) (pos p.n1)
      let v24 := sub (pos n4) (pos p.n2)
      if v13.norm < v24.norm then
        force13 p.magnitude p.n1 p.n2 p.n3 n4 n v12 v13 v14
      else
        force24 p.magnitude p.n1 p.n2 p.n3 n4 n v12 v14 (sub (pos p.n3) (pos p.n2)) v24
    | none => .ok (triForce (p.magnitude / 3) (cross v12 v13))

end Pressure
end Vega
