import Verif.Dof.Lemmas
import Verif.Map
import Verif.Num

/-! # `DOFMatrix`: `Abstract/Dof.h` 164-189, `Abstract/Dof.cpp` 286-465 -/
namespace Vega

/-- `MatrixType` (Utility.h 56-60). -/
inductive MatrixType where
  | SYMMETRIC | FULL | DIAGONAL
  deriving DecidableEq, Repr

/-- `DOFMatrix` (Dof.h 164-170). -/
structure DofMatrix where
  matrixType : MatrixType
  componentByDofs : Map (Dof × Dof) Dbl

namespace DofMatrix

/-- Constructor (Dof.cpp 286-288). -/
def new (t : MatrixType) : DofMatrix := ⟨t, []⟩

/-- `DOFMatrix::addComponent` (Dof.cpp 290-299). The comparison `dof1 > dof2` uses the
implicit conversion to `dof_int`, i.e. the codes. -/
def addComponent (m : DofMatrix) (dof1 dof2 : Dof) (value : Dbl) : Outcome DofMatrix :=
  if m.matrixType = .DIAGONAL ∧ dof1 ≠ dof2 ∧ isZero value = false then .throw
  else if m.matrixType = .SYMMETRIC ∧ dof2.lt dof1 = true then
    .ok { m with componentByDofs := m.componentByDofs.set (dof2, dof1) value }
  else
    .ok { m with componentByDofs := m.componentByDofs.set (dof1, dof2) value }

/-- `DOFMatrix::findComponent` (Dof.cpp 301-316). -/
def findComponent (m : DofMatrix) (dof1 dof2 : Dof) : Dbl :=
  if m.matrixType = .DIAGONAL ∧ dof1 ≠ dof2 then 0
  else if m.matrixType = .SYMMETRIC ∧ dof2.lt dof1 = true then
    match m.componentByDofs.find (dof2, dof1) with
    | some v => v
    | none => 0
  else
    match m.componentByDofs.find (dof1, dof2) with
    | some v => v
    | none => 0

/-- `DOFMatrix::hasRotations` (Dof.cpp 351-362). -/
def hasRotations (m : DofMatrix) : Bool :=
  m.componentByDofs.any (fun kv => kv.1.1.isRotation || kv.1.2.isRotation)

/-- `DOFMatrix::hasTranslations` (Dof.cpp 364-375). -/
def hasTranslations (m : DofMatrix) : Bool :=
  m.componentByDofs.any (fun kv => kv.1.1.isTranslation || kv.1.2.isTranslation)

/-- The dofs a matrix is exported on (Dof.cpp 320, 331, 344). -/
def exportDofs (m : DofMatrix) (addRotationsIfNotPresent : Bool) : Dofs :=
  if addRotationsIfNotPresent || m.hasRotations then Dofs.ALL_DOFS else Dofs.TRANSLATIONS

/-- `DOFMatrix::asColumnsVector` (Dof.cpp 318-327): two nested range loops. -/
def asColumnsVector (m : DofMatrix) (addRot : Bool) : List Dbl :=
  (m.exportDofs addRot).toList.flatMap fun coldof =>
    (m.exportDofs addRot).toList.map fun rowdof => m.findComponent rowdof coldof

/-- `DOFMatrix::asUpperTriangularColumnsVector` (Dof.cpp 329-340): loops over positions.
A throw of `findByPosition` inside this `noexcept` function would end the program; it is
kept as the outcome `throw`. -/
def asUpperTriangularColumnsVector (m : DofMatrix) (addRot : Bool) : Outcome (List Dbl) :=
  (List.range (m.exportDofs addRot).size).foldlM (init := []) fun acc col => do
    let colcode ← Dof.findByPosition col
    (List.range (col + 1)).foldlM (init := acc) fun acc row => do
      let rowcode ← Dof.findByPosition row
      .ok (acc ++ [m.findComponent rowcode colcode])

/-- `DOFMatrix::diagonal` (Dof.cpp 342-349). -/
def diagonal (m : DofMatrix) (addRot : Bool) : List Dbl :=
  (m.exportDofs addRot).toList.map fun d => m.findComponent d d

/-- `DOFMatrix::isDiagonal` (Dof.cpp 377-388). -/
def isDiagonal (m : DofMatrix) : Bool :=
  if m.matrixType = .DIAGONAL then true
  else m.componentByDofs.all (fun kv => !(kv.1.1 ≠ kv.1.2 && !isZero kv.2))

/-- `DOFMatrix::isSymmetric` (Dof.cpp 390-410). -/
def isSymmetric (m : DofMatrix) : Bool :=
  if m.matrixType = .SYMMETRIC then true
  else if m.matrixType = .DIAGONAL then true
  else m.componentByDofs.all fun kv =>
    match m.componentByDofs.find (kv.1.2, kv.1.1) with
    | none => isZero kv.2
    | some v2 => isEqual kv.2 v2

/-- `DOFMatrix::isMaxDiagonal` (Dof.cpp 412-421). -/
def isMaxDiagonal (m : DofMatrix) : Bool :=
  m.componentByDofs.all fun kv =>
    !((kv.1.1 ≠ kv.1.2 && !isZero kv.2) || !isEqual kv.2 dblMax)

/-- `DOFMatrix::isEmpty` (Dof.cpp 423-425). -/
def isEmpty (m : DofMatrix) : Bool := m.componentByDofs.isEmpty

/-- `DOFMatrix::isZero` (Dof.cpp 427-436). -/
def isZeroMatrix (m : DofMatrix) : Bool := m.componentByDofs.all fun kv => isZero kv.2

/-- `DOFMatrix::setAllZero` (Dof.cpp 438-442). -/
def setAllZero (m : DofMatrix) : DofMatrix :=
  { m with componentByDofs := m.componentByDofs.map fun kv => (kv.1, 0) }

/-- `DOFMatrix::transposed` (Dof.cpp 444-450). -/
def transposed (m : DofMatrix) : Outcome DofMatrix :=
  m.componentByDofs.foldlM (init := new m.matrixType) fun t kv =>
    t.addComponent kv.1.2 kv.1.1 kv.2

/-- One step of the loop of `isEqual` (Dof.cpp 455-463): when the other matrix has no such
entry and the value is zero, the end iterator is dereferenced. -/
def isEqualStep (other : DofMatrix) (kv : (Dof × Dof) × Dbl) : Outcome Bool :=
  match other.componentByDofs.find kv.1 with
  | none => if isZero kv.2 = false then .ok false else .ub
  | some v => .ok (isEqual kv.2 v)

/-- The loop of `isEqual`. -/
def isEqualLoop (other : DofMatrix) : List ((Dof × Dof) × Dbl) → Outcome Bool
  | [] => .ok true
  | kv :: rest => do
    if ← isEqualStep other kv then isEqualLoop other rest else .ok false

/-- `DOFMatrix::isEqual` (Dof.cpp 452-465). -/
def isEqualTo (m other : DofMatrix) : Outcome Bool :=
  if m.componentByDofs.length ≠ other.componentByDofs.length then .ok false
  else isEqualLoop other m.componentByDofs

end DofMatrix
end Vega
