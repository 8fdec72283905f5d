import Verif.Geom.Systems
import Mathlib.Analysis.SpecialFunctions.Complex.Arg

/-!
# Euler angles of a coordinate system (CoordinateSystem.cpp 61-90, 236-239)
-/
namespace Vega.CS
open Vec

/-- `atan2(y, x)`: the argument of `x + i y`, 0 at the origin. The sign of zeros is left out. -/
noncomputable def atan2 (y x : ℝ) : ℝ := Complex.arg ⟨x, y⟩

/-- The angles computed from the axes (CoordinateSystem.cpp 79-89): around z, y and x. -/
noncomputable def anglesOf (a : Axes) : Vec :=
  open Classical in
  let cy := Real.sqrt (a.ez.z * a.ez.z + a.ey.z * a.ey.z)
  if cy > 1 / 10 ^ 8 then ⟨atan2 a.ex.y a.ex.x, atan2 (-a.ex.z) cy, atan2 a.ey.z a.ez.z⟩
  else ⟨atan2 (-a.ey.x) a.ey.y, atan2 (-a.ex.z) cy, 0⟩

/-- Three vectors, or nothing if one of them is not a number. -/
def axes? (x y z : Option Vec) : Option Axes := do
  let x ← x
  let y ← y
  let z ← z
  some ⟨x, y, z⟩

/-- The same function on three vectors (`vectorToGlobal` or `vectorToLocal`), one after the other. -/
def onAxes (f : Option Vec → Outcome (Option Vec)) (a : Option Axes) : Outcome (Option Axes) := do
  let x ← f (a.map (·.ex))
  let y ← f (a.map (·.ey))
  let z ← f (a.map (·.ez))
  .ok (axes? x y z)

/-- The three vectors the angles are computed from (CoordinateSystem.cpp 65-78), relative to the
system `ref` if there is one. -/
def eulerAxes (env : Env) (n : Nat) (c : CS) (ref : Option CS) : Outcome (Option Axes) := do
  let a ← match c.rcs with
    | none => .ok c.axes
    | some _ => onAxes (vectorToGlobal env n c) c.axes
  match ref with
    | none => .ok a
    | some r => onAxes (vectorToLocal env n r) a

/-- `getEulerAnglesIntrinsicZYX` (CoordinateSystem.cpp 61-90); `ok none` stands for angles that are
not numbers. -/
noncomputable def eulerAngles (env : Env) (n : Nat) (c : CS) (ref : Option CS) :
    Outcome (Option Vec) := do
  let a ← eulerAxes env n c ref
  .ok (a.map anglesOf)

/-- `getLocalEulerAnglesIntrinsicZYX` (CoordinateSystem.cpp 236-239): the angles of a Cartesian system
made of the local base, which is taken for a system given in the global one. -/
noncomputable def localEulerAngles (env : Env) (n : Nat) (c : CS) (ref : Option CS) :
    Outcome (Option Vec) :=
  match c.localBase with
  | some b => eulerAngles env n (ofVectors .cartesian zero b.ex b.ey none) ref
  | none => eulerAngles env n ⟨.cartesian, some zero, none, none, false, [], none, none, .unset⟩ ref

end Vega.CS
