import Verif.Geom.Euler

/-! # Axes of the elements of Systus (`Systus/SystusWriter.cpp` 121-235, 2645-2716, 2878-2883) -/
namespace Vega
namespace SystusFrames
open Vec CS

/-- `is_zero` (Utility.h 67-69), with the tolerance 5 ε (53). -/
def IsZero (x : ℝ) : Prop := |x| ≤ 5 / 2 ^ 52

/-- Where nodes are found (Mesh.cpp 218-245, 323-329): an exception if there is none. Coordinates are numbers. -/
abbrev Positions := Nat → Outcome Vec

/-- `VectorialValue::X`, `Y` and `Z`. -/
def axisX : Vec := ⟨1, 0, 0⟩
def axisY : Vec := ⟨0, 1, 0⟩
def axisZ : Vec := ⟨0, 0, 1⟩

/-- `nodes[i]`, then `findNode(findNodePosition(..))`. -/
def nodeOf (node : Positions) (nodes : List Nat) (i : Nat) : Outcome Vec :=
  match nodes[i]? with
  | none => .ub
  | some n => node n

/-- The two vectors of an element of one dimension that is not of type 6 (SystusWriter.cpp 145-159). -/
noncomputable def barVectors (x : Vec) : Vec × Vec :=
  open Classical in
  if IsZero x.x ∧ IsZero x.y then (if IsZero x.z then axisX else x, axisY) else (x, cross axisZ x)

/-- The two vectors of a shell of three nodes (SystusWriter.cpp 192-197, 207-212). -/
noncomputable def triangleVectors (a b : Vec) : Vec × Vec :=
  open Classical in
  let z := cross a b
  let x := cross axisZ z
  let y := cross z x
  if (IsZero x.x ∧ IsZero x.y ∧ IsZero x.z) ∨ (IsZero y.x ∧ IsZero y.y ∧ IsZero y.z) then (axisX, axisY) else (x, y)

/-- The two vectors (SystusWriter.cpp 128-229). The origin is left out: angles do not depend on it. A dimension above 3 raises an
exception in strict mode (224). -/
noncomputable def vectors (node : Positions) (nodes : List Nat) (dim celltype : Nat) : Outcome (Vec × Vec) :=
  if dim = 0 ∨ dim = 3 then .ok (axisX, axisY)
  else if dim = 1 then
    if celltype = 6 then .ok (axisX, axisY)
    else do
      let o ← nodeOf node nodes 0
      let x ← nodeOf node nodes 1
      .ok (barVectors (sub x o))
  else if dim = 2 then
    if nodes.length < 3 then .ok (axisX, axisY)
    else if celltype = 4 then
      if nodes.length = 3 then do
        let a ← nodeOf node nodes 0
        let b ← nodeOf node nodes 1
        let c ← nodeOf node nodes 2
        .ok (triangleVectors (sub b a) (sub c a))
      else .ok (axisX, axisY)
    else .ok (axisX, axisY)
  else .throw

/-- `buildElementDefaultReferentiel` (SystusWriter.cpp 122-235): the constructor, then `build`, which only inverts (CoordinateSystem.cpp
152-179). -/
noncomputable def defaultFrame (node : Positions) (nodes : List Nat) (dim celltype : Nat) : Outcome CS := do
  let v ← vectors node nodes dim celltype
  .ok (ofVectors .cartesian zero v.1 v.2 none).setInverse

/-- `Type` and `CoordinateType` of the classes (CoordinateSystem.h 44-53; the constructors in CoordinateSystem.cpp 93-101, 182-188,
242-246, 289-307; spherical systems have the `CoordinateType` of cylindrical ones, 245, which makes no difference here). -/
def relative : CsKind → Bool
  | .orientation => true
  | _ => false

/-- The systems whose axes are dismissed (SystusWriter.cpp 2655-2660): neither relative nor given by a vector, and neither absolute nor
Cartesian. -/
def dismissed (k : CsKind) : Bool :=
  (!relative k && k != .orientation) && (relative k && k != .cartesian)

/-- What is written for the axes of an element: `0`, one angle or three angles. -/
inductive Angles where
  | none
  | one (psi : ℝ)
  | three (psi theta phi : ℝ)

/-- The angles by dimension and type of the element (SystusWriter.cpp 2665-2713). -/
noncomputable def choose (dim celltype : Nat) (k : CsKind) (w : Vec) : Angles :=
  match dim with
  | 0 => if relative k then .none else .three w.x w.y w.z
  | 1 => if celltype = 6 then .three w.x w.y w.z else .three 0 0 w.z
  | 2 => .one w.x
  | 3 => .three w.x w.y w.z
  | _ => .none

/-- `writeElementLocalReferentiel` (SystusWriter.cpp 2645-2716); `ok none` stands for angles that are not numbers, a null pointer
(2649-2653) for `cs = none`. -/
noncomputable def writeFrame (env : Env) (n : Nat) (node : Positions) (dim celltype : Nat) (nodes : List Nat) (cs : Option CS) :
    Outcome (Option Angles) :=
  match cs with
  | none => .ok (some .none)
  | some c =>
    if dismissed c.kind then .ok (some .none)
    else do
      let r ← defaultFrame node nodes dim celltype
      let w ← eulerAngles env n c (some r)
      .ok (w.map (choose dim celltype c.kind))

end SystusFrames
end Vega
