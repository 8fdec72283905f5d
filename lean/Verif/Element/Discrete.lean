import Verif.Dof.Matrix

/-! # Discrete elements: `Abstract/Element.cpp` 445-925, 1236-1423, and what
`Aster/AsterWriter.cpp` 1101-1203 writes for them -/
namespace Vega

/-- The three matrices of a discrete element. -/
inductive Quantity
  | stiffness | mass | damping
deriving DecidableEq

/-- A matrix per quantity. -/
abbrev Quantities (α : Type) := Quantity → α

/-- `DiscretePoint` (Element.cpp 459-463). -/
structure DiscretePoint where
  matrixType : MatrixType
  matrix : Quantities DofMatrix

namespace DiscretePoint

/-- Constructor (Element.cpp 459-463). -/
def new (t : MatrixType) : DiscretePoint := ⟨t, fun _ => DofMatrix.new t⟩

/-- `addStiffness`, `addMass`, `addDamping` (Element.cpp 554-564). -/
def add (p : DiscretePoint) (q : Quantity) (r c : Dof) (v : Dbl) : Outcome DiscretePoint := do
  let m ← (p.matrix q).addComponent r c v
  .ok { p with matrix := fun q' => if q' = q then m else p.matrix q' }

/-- `hasRotations` (Element.cpp 509-511). -/
def hasRotations (p : DiscretePoint) : Bool :=
  (p.matrix .stiffness).hasRotations || (p.matrix .mass).hasRotations ||
    (p.matrix .damping).hasRotations

/-- `isDiagonal` (Element.cpp 525-530). -/
def isDiagonal (p : DiscretePoint) : Bool :=
  if p.matrixType = .DIAGONAL then true
  else (p.matrix .stiffness).isDiagonal && (p.matrix .damping).isDiagonal &&
    (p.matrix .mass).isDiagonal

/-- `isSymmetric` (Element.cpp 532-540). -/
def isSymmetric (p : DiscretePoint) : Bool :=
  if p.matrixType = .SYMMETRIC then true
  else if p.matrixType = .DIAGONAL then true
  else (p.matrix .stiffness).isSymmetric && (p.matrix .damping).isSymmetric &&
    (p.matrix .mass).isSymmetric

/-- `asStiffnessVector`, `asMassVector`, `asDampingVector` (Element.cpp 469-506). -/
def asVector (p : DiscretePoint) (q : Quantity) (addRot : Bool) : Outcome (List Dbl) :=
  if p.isSymmetric then (p.matrix q).asUpperTriangularColumnsVector (addRot || p.hasRotations)
  else .ok ((p.matrix q).asColumnsVector (addRot || p.hasRotations))

end DiscretePoint

/-! ## the loops of the two node elements -/

namespace TwoNodes

/-- The innermost loop (Element.cpp 722-729) with the counter `row_element_index` and the result so
far; it stops at the counter `limit`. -/
def rows (limit : Nat) (f : Dof → Dbl) : List Nat → Nat × List Dbl → Outcome (Nat × List Dbl)
  | [], s => .ok s
  | d :: ds, (i, acc) =>
    if i + 1 > limit then .ok (i + 1, acc)
    else do
      let r ← Dof.findByPosition d
      rows limit f ds (i + 1, acc ++ [f r])

/-- The loop over `coldof` (Element.cpp 717-732) with the counter `max_row_element_index`. -/
def columns (n : Nat) (find : Fin 2 → Dof → Dof → Dbl) :
    List Nat → Nat × List Dbl → Outcome (Nat × List Dbl)
  | [], s => .ok s
  | d :: ds, (limit, acc) => do
    let c ← Dof.findByPosition d
    let s ← rows (limit + 1) (fun r => find 0 r c) (List.range n) (0, acc)
    let s ← rows (limit + 1) (fun r => find 1 r c) (List.range n) s
    columns n find ds (limit + 1, s.2)

/-- The four nested loops of `DiscreteSegment::asStiffnessVector`, `asMassVector`,
`asDampingVector` (Element.cpp 712-782), of `StructuralSegment` (Element.cpp 864-882, 896-914); `find` takes row node, column node, row dof and column dof. -/
def loops (n : Nat) (find : Fin 2 → Fin 2 → Dof → Dof → Dbl) : Outcome (List Dbl) := do
  let s ← columns n (fun i => find i 0) (List.range n) (0, [])
  let s ← columns n (fun i => find i 1) (List.range n) s
  .ok s.2

end TwoNodes

/-- The four matrices `[row][column]` of a quantity of a `DiscreteSegment`. -/
abbrev Blocks := Fin 2 → Fin 2 → DofMatrix

/-- `DiscreteSegment` (Element.cpp 566-571). -/
structure DiscreteSegment where
  matrixType : MatrixType
  blocks : Quantities Blocks

namespace DiscreteSegment

/-- The type of each block (Element.cpp 568-570): only the upper right one is always full. -/
def blockType (t : MatrixType) (i j : Fin 2) : MatrixType :=
  if i = 0 ∧ j = 1 then .FULL else t

/-- Constructor (Element.cpp 566-571). -/
def new (t : MatrixType) : DiscreteSegment :=
  ⟨t, fun _ i j => DofMatrix.new (blockType t i j)⟩

/-- `addStiffness`, `addMass`, `addDamping` (Element.cpp 700-710); an index other than 0 and 1
would be undefined behaviour and is not represented. -/
def add (s : DiscreteSegment) (q : Quantity) (i j : Fin 2) (r c : Dof) (v : Dbl) :
    Outcome DiscreteSegment := do
  let m ← (s.blocks q i j).addComponent r c v
  .ok { s with blocks := fun q' i' j' => if q' = q ∧ i' = i ∧ j' = j then m else s.blocks q' i' j' }

/-- The pairs of indices in the order of the loops. -/
def indices : List (Fin 2 × Fin 2) := [(0, 0), (0, 1), (1, 0), (1, 1)]

/-- `hasRotations` (Element.cpp 591-603). -/
def hasRotations (s : DiscreteSegment) : Bool :=
  indices.any fun ij => (s.blocks .stiffness ij.1 ij.2).hasRotations ||
    (s.blocks .mass ij.1 ij.2).hasRotations || (s.blocks .damping ij.1 ij.2).hasRotations

/-- `isDiagonal` (Element.cpp 644-662). -/
def isDiagonal (s : DiscreteSegment) : Bool :=
  if s.matrixType = .DIAGONAL then true
  else
    ([0, 1].all fun i : Fin 2 => (s.blocks .stiffness i i).isDiagonal &&
      (s.blocks .damping i i).isDiagonal && (s.blocks .mass i i).isDiagonal) &&
    ([((0 : Fin 2), (1 : Fin 2)), (1, 0)].all fun ij => (s.blocks .stiffness ij.1 ij.2).isZeroMatrix &&
      (s.blocks .damping ij.1 ij.2).isZeroMatrix && (s.blocks .mass ij.1 ij.2).isZeroMatrix)

/-- One of the tests `not m[0][1].isEqual(m[1][0].transposed())` (Element.cpp 676-684). -/
def transposedBlocks (b : Blocks) : Outcome Bool := do
  let t ← (b 1 0).transposed
  (b 0 1).isEqualTo t

/-- `isSymmetric` (Element.cpp 664-686). -/
def isSymmetric (s : DiscreteSegment) : Outcome Bool :=
  if s.matrixType = .SYMMETRIC then .ok true
  else if s.matrixType = .DIAGONAL then .ok true
  else if !([0, 1].all fun i : Fin 2 => (s.blocks .stiffness i i).isSymmetric &&
      (s.blocks .damping i i).isSymmetric && (s.blocks .mass i i).isSymmetric) then .ok false
  else do
    if ← transposedBlocks (s.blocks .stiffness) then
      if ← transposedBlocks (s.blocks .damping) then transposedBlocks (s.blocks .mass)
      else .ok false
    else .ok false

/-- `findStiffness`, `findMass`, `findDamping` (Element.cpp 688-698). -/
def find (s : DiscreteSegment) (q : Quantity) (i j : Fin 2) (r c : Dof) : Dbl :=
  (s.blocks q i j).findComponent r c

/-- `ncomp` (Element.cpp 714). -/
def ncomp (s : DiscreteSegment) (addRot : Bool) : Nat := if addRot || s.hasRotations then 6 else 3

/-- `asStiffnessVector`, `asMassVector`, `asDampingVector` (Element.cpp 712-782). -/
def asVector (s : DiscreteSegment) (q : Quantity) (addRot : Bool) : Outcome (List Dbl) :=
  TwoNodes.loops (s.ncomp addRot) (s.find q)

end DiscreteSegment

/-- `StructuralSegment` (Element.cpp 784-789): one matrix per quantity, between its two nodes. -/
structure StructuralSegment where
  matrixType : MatrixType
  matrix : Quantities DofMatrix

namespace StructuralSegment

/-- Constructor (Element.cpp 784-789). -/
def new (t : MatrixType) : StructuralSegment := ⟨t, fun _ => DofMatrix.new t⟩

/-- `addStiffness`, `addMass`, `addDamping` (Element.cpp 832-840). -/
def add (p : StructuralSegment) (q : Quantity) (r c : Dof) (v : Dbl) : Outcome StructuralSegment := do
  let m ← (p.matrix q).addComponent r c v
  .ok { p with matrix := fun q' => if q' = q then m else p.matrix q' }

/-- `hasRotations` (Element.cpp 795-797). -/
def hasRotations (p : StructuralSegment) : Bool :=
  (p.matrix .stiffness).hasRotations || (p.matrix .mass).hasRotations ||
    (p.matrix .damping).hasRotations

/-- `isDiagonal` (Element.cpp 803-808); the `not` applies to the stiffness alone. -/
def isDiagonal (p : StructuralSegment) : Bool :=
  if p.matrixType = .DIAGONAL then true
  else !(p.matrix .stiffness).isDiagonal && (p.matrix .damping).isDiagonal &&
    (p.matrix .mass).isDiagonal

/-- `isSymmetric` (Element.cpp 814-822). -/
def isSymmetric (p : StructuralSegment) : Bool :=
  if p.matrixType = .SYMMETRIC then true
  else if p.matrixType = .DIAGONAL then true
  else (p.matrix .stiffness).isSymmetric && (p.matrix .damping).isSymmetric &&
    (p.matrix .mass).isSymmetric

/-- `asStiffnessVector` (Element.cpp 856-887), `asDampingVector` (Element.cpp 889-917, which returns
no value where the other one throws) and `asMassVector` (Element.cpp 919-922, which throws). -/
def asVector (p : StructuralSegment) (q : Quantity) (addRot : Bool) : Outcome (List Dbl) :=
  match q with
  | .mass => .throw
  | q =>
    if p.isDiagonal then .ok ((p.matrix q).diagonal (addRot || p.hasRotations))
    else if p.isSymmetric then
      TwoNodes.loops (if addRot || p.hasRotations then 6 else 3)
        (fun _ _ r c => (p.matrix q).findComponent r c)
    else match q with
      | .stiffness => .throw
      | _ => .ok []

end StructuralSegment

/-- `ScalarSpring` (Element.h 661-702): the values and the pairs of dofs some spring connects. -/
structure ScalarSpring where
  value : Quantities Dbl
  dofs : List (Dof × Dof)

namespace ScalarSpring

/-- `hasRotations` (Element.cpp 1313-1323). -/
def hasRotations (s : ScalarSpring) : Bool :=
  Dofs.ROTATIONS.toList.any fun d => Dofs.ROTATIONS.toList.any fun d' => decide ((d, d') ∈ s.dofs)

/-- `asStiffnessVector`, `asMassVector`, `asDampingVector` (Element.cpp 1325-1423): `isDiagonal()`
is always true (Element.h 681), so only their first branch is reached. -/
def asVector (s : ScalarSpring) (q : Quantity) (addRot : Bool) : List Dbl :=
  List.replicate (if addRot || s.hasRotations then 6 else 3) (s.value q)

end ScalarSpring

/-- A characteristic written for Code_Aster, such as `SYME='NON',CARA='K_TR_D_L',VALE=(...)`
(AsterWriter.cpp 1123, 1173): the markers `R`, `D_`, `SYME='NON'`, `L` instead of `N`, and the
values. -/
structure AsterCara where
  rotations : Bool
  diagonal : Bool
  nonSymmetric : Bool
  line : Bool
  values : List Dbl

/-- What is written for a matrix of a `DiscretePoint` (AsterWriter.cpp 1103-1147). -/
def DiscretePoint.toAster (p : DiscretePoint) (q : Quantity) : Outcome AsterCara := do
  let v ← p.asVector q false
  .ok ⟨p.hasRotations, false, !p.isSymmetric, false, v⟩

/-- What is written for a matrix of a `DiscreteSegment` (AsterWriter.cpp 1157-1198). -/
def DiscreteSegment.toAster (s : DiscreteSegment) (q : Quantity) : Outcome AsterCara := do
  let sym ← s.isSymmetric
  let v ← s.asVector q false
  .ok ⟨s.hasRotations, s.isDiagonal, !sym, true, v⟩

/-- What is written for a matrix of a `StructuralSegment` (AsterWriter.cpp 1157-1198). -/
def StructuralSegment.toAster (s : StructuralSegment) (q : Quantity) : Outcome AsterCara := do
  let v ← s.asVector q false
  .ok ⟨s.hasRotations, s.isDiagonal, !s.isSymmetric, true, v⟩

/-- What is written for a `ScalarSpring` (AsterWriter.cpp 1157-1198). -/
def ScalarSpring.toAster (s : ScalarSpring) (q : Quantity) : AsterCara :=
  ⟨s.hasRotations, true, false, true, s.asVector q false⟩

end Vega
