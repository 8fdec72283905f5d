import Verif.Load.Pressure
import Verif.Dof.Coefs

/-!
# The kinds of loadings: `scale` and `ineffective` (Loading.cpp 139-884)

Stored numbers are doubles (`Dbl`); directions and areas computed from node positions are real.
-/
namespace Vega

/-- A stored `VectorialValue` (Value.h 385-436). -/
structure QVec where
  x : Dbl
  y : Dbl
  z : Dbl
  deriving DecidableEq, Repr

namespace QVec

/-- `VectorialValue::iszero` (Value.cpp 192-194). -/
def isZero (v : QVec) : Bool := Vega.isZero v.x && Vega.isZero v.y && Vega.isZero v.z

/-- `VectorialValue::scale`, `scaled` (Value.cpp 209-217). -/
def scale (v : QVec) (k : Dbl) : QVec := ⟨v.x * k, v.y * k, v.z * k⟩

/-- The vector as a vector of reals. -/
def toVec (v : QVec) : Vec := ⟨v.x, v.y, v.z⟩

end QVec

/-- The `NamedValue`s a loading may point to: `ConstantValue` or `ScalarValue` (Value.h 217-231,
360-375), `FunctionTable` (338-358), `FunctionPlaceHolder` (324-337). Ranges are left out. -/
inductive FnVal where
  | constant (v : Dbl)
  | table (xy : List (Dbl × Dbl))
  | placeholder

namespace FnVal

/-- The `scale` members (Value.cpp 154-158; Value.h 224-226, 334-337, 371-373). -/
def scale (k : Dbl) : FnVal → Outcome FnVal
  | constant v => .ok (constant (v * k))
  | table xy => .ok (table (xy.map fun p => (p.1, p.2 * k)))
  | placeholder => .throw

/-- The `iszero` members (Value.cpp 150-152; Value.h 227-229, 331-333, 368-370). -/
def isZero : FnVal → Outcome Bool
  | constant v => .ok (Vega.isZero v)
  | table xy => .ok (xy.all fun p => Vega.isZero p.2)
  | placeholder => .throw

end FnVal

/-- The named values of a model; loadings hold pointers to them. -/
abbrev Heap := Nat → Option FnVal

/-- Change one value. -/
def Heap.set (h : Heap) (i : Nat) (v : FnVal) : Heap := fun j => if j = i then some v else h j

/-- The kinds of loadings (Loading.h 134-498). `rotation` stands for `RotationCenter` and
`RotationNode`, `normalPressure` for `NormalPressionFace`, `NormalPressionShell` and
`NormalPressionFaceTwoNodes`, `surface` for `ForceSurface` and `ForceSurfaceTwoNodes`. The force and
moment of the base class of `twoNodes` and `fourNodes` are zero (Loading.cpp 356, 385). -/
inductive Load where
  | gravity (factor : Dbl) (g : QVec)
  | rotation (speed : Dbl) (axis center : QVec)
  | imposed (nodes : List Nat) (d : DofCoefs)
  | nodalForce (nodes : List Nat) (force moment : QVec)
  | twoNodes (nodes : List Nat) (n1 n2 : Nat) (magnitude : Dbl)
  | fourNodes (nodes : List Nat) (n1 n2 n3 n4 : Nat) (magnitude : Dbl)
  | pressure (n1 n2 n3 : Nat) (n4 : Option Nat) (magnitude : Dbl)
  | surface (force moment : QVec)
  | line (fn : Nat)
  | normalPressure (intensity : Dbl)
  | excitation (tableB : Option Nat)
  | temperature (t : Dbl)

namespace Load

/-- One round of the loop of `ImposedDisplacement::scale` (Loading.cpp 274-277). -/
def imposedRound (k : Dbl) (c : DofCoefs) (d : Dof) : DofCoefs :=
  if isEqual (c.coefs d) unavailable = false then c.scale k else c

/-- `ImposedDisplacement::scale` (Loading.cpp 273-278): all displacements are multiplied once for
every dof that has one. -/
def scaleImposed (c : DofCoefs) (k : Dbl) : DofCoefs :=
  Dofs.ALL_DOFS.toList.foldl (imposedRound k) c

/-- Scaling a value through a pointer; a null pointer is dereferenced in `DynamicExcitation::scale`
(Loading.cpp 848-850) when the table does not exist. -/
def scaleFn (h : Heap) (i : Option Nat) (k : Dbl) : Outcome Heap :=
  match i with
  | none => .ub
  | some i =>
    match h i with
    | none => .ub
    | some v => do
      let v ← v.scale k
      .ok (h.set i v)

/-- The `scale` members (Loading.cpp 174-176, 221-223, 248-250, 273-278, 345-348, 373-375, 405-407,
503-505, 630-633, 696-698, 726-728, 757-759, 848-850, 878-880). -/
def scale (h : Heap) (l : Load) (k : Dbl) : Outcome (Heap × Load) :=
  match l with
  | gravity f g => .ok (h, gravity (f * k) g)
  | rotation s a c => .ok (h, rotation (s * k) a c)
  | imposed ns d => .ok (h, imposed ns (scaleImposed d k))
  | nodalForce ns f m => .ok (h, nodalForce ns (f.scale k) (m.scale k))
  | twoNodes ns n1 n2 m => .ok (h, twoNodes ns n1 n2 (m * k))
  | fourNodes ns n1 n2 n3 n4 m => .ok (h, fourNodes ns n1 n2 n3 n4 (m * k))
  | pressure n1 n2 n3 n4 m => .ok (h, pressure n1 n2 n3 n4 (m * k))
  | surface f m => .ok (h, surface (f.scale k) (m.scale k))
  | line i => do
    let h ← scaleFn h (some i) k
    .ok (h, line i)
  | normalPressure i => .ok (h, normalPressure (i * k))
  | excitation b => do
    let h ← scaleFn h b k
    .ok (h, excitation b)
  | temperature t => .ok (h, temperature (t * k))

/-- `force->iszero()` through a pointer. -/
def fnIsZero (h : Heap) (i : Nat) : Outcome Bool :=
  match h i with
  | none => .ub
  | some v => v.isZero

/-- The `ineffective` members (Loading.cpp 178-180, 195-197, 261-263, 350-352, 377-379, 409-411,
507-509, 635-637, 700-702, 730-732, 761-763, 861-863, 882-884). The force of the base class tested
for `twoNodes` is zero. -/
def ineffective (h : Heap) (l : Load) : Outcome Bool :=
  match l with
  | gravity f g => .ok (isZero f || g.isZero)
  | rotation s a _ => .ok (isZero s || a.isZero)
  | imposed ns d => .ok (ns.isEmpty || d.isEmpty)
  | nodalForce _ f m => .ok (f.isZero && m.isZero)
  | twoNodes _ _ _ m => .ok (isZero m || QVec.isZero ⟨0, 0, 0⟩)
  | fourNodes _ _ _ _ _ m => .ok (isZero m)
  | pressure _ _ _ _ m => .ok (isZero m)
  | surface f m => .ok (f.isZero && m.isZero)
  | line i => fnIsZero h i
  | normalPressure i => .ok (isZero i)
  | excitation _ => .ok false
  | temperature t => .ok (isZero t)

/-- `clone` (copy constructors): the pointer to a value is copied, not the value. -/
def clone (l : Load) : Load := l

/-- The first loop of `removeIneffectives` (Model.cpp 1008-1012): what is collected for removal. -/
def collect (h : Heap) : List (Nat × Load) → Outcome (List Nat)
  | [] => .ok []
  | (i, l) :: ls => do
    let b ← ineffective h l
    let r ← collect h ls
    .ok (if b then i :: r else r)

/-- `removeIneffectives` for loadings (Model.cpp 1006-1017): the collected ones are removed from the
model; removal from the sets is modelled in `Registry.remove` (C28). -/
def removeIneffectives (h : Heap) (ls : List (Nat × Load)) : Outcome (List (Nat × Load)) := do
  let r ← collect h ls
  .ok (ls.filter fun p => !(r.contains p.1))

end Load
end Vega
