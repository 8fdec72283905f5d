import Verif.Dof.Model
import Verif.Ref.Model
import Verif.Num

/-!
# Single point constraints: `SinglePointConstraint` and `ValueOrReference`
-/
namespace Vega

/-- `ValueOrReference` (Value.h 442-460): a variant of a number and a reference to a named value. -/
inductive ValOrRef where
  | value (x : Dbl)
  | ref (r : Ref)
  deriving DecidableEq

namespace ValOrRef

/-- `Value::Type::STEP_RANGE` as an integer (Value.h 41-55; its place in the enumeration plays no
role). -/
def STEP_RANGE : Nat := 0

/-- `EMPTY_VALUE` (Value.cpp 289-290). -/
def EMPTY : ValOrRef := .ref ⟨STEP_RANGE, Ref.NO_ID, Ref.NO_ID⟩

/-- `operator==` (Value.cpp 321-331). -/
def beq : ValOrRef → ValOrRef → Bool
  | .value x, .value y => isEqual x y
  | .ref r, .ref s => r.beq s
  | _, _ => false

/-- `isReference` (Value.cpp 313-315). -/
def isReference : ValOrRef → Bool
  | .ref _ => true
  | .value _ => false

/-- `getValue` (Value.cpp 305-307): `boost::get` throws on the other alternative. -/
def getValue : ValOrRef → Outcome Dbl
  | .value x => .ok x
  | .ref _ => .throw

/-- `getReference` (Value.cpp 309-311). -/
def getReference : ValOrRef → Outcome Ref
  | .ref r => .ok r
  | .value _ => .throw

end ValOrRef

/-- The array `spcs` (Constraint.h 170), indexed by `DOF::position`, which is one of the six
positions. -/
structure Spc where
  spcs : Dof → ValOrRef

namespace Spc
open ValOrRef

/-- The constructor with no values (Constraint.cpp 422-425). -/
def free : Spc := ⟨fun _ => EMPTY⟩

/-- `setDOF` (Constraint.cpp 427-429). -/
def setDOF (s : Spc) (d : Dof) (v : ValOrRef) : Spc :=
  ⟨fun e => if e = d then v else s.spcs e⟩

/-- `setDOFS` (Constraint.cpp 431-435): a loop over the members of the set. -/
def setDOFS (s : Spc) (ds : Dofs) (v : ValOrRef) : Spc :=
  ds.toList.foldl (fun s d => s.setDOF d v) s

/-- The constructor with a set of degrees of freedom and a value (Constraint.cpp 414-420). -/
def ofDofs (ds : Dofs) (x : Dbl) : Spc := free.setDOFS ds (.value x)

/-- The constructors with six (Constraint.cpp 402-405) and three values (407-412). -/
def ofSix (v : Dof → ValOrRef) : Spc := ⟨v⟩

/-- The constructor with three values (Constraint.cpp 407-412). -/
def ofThree (x y z : ValOrRef) : Spc :=
  ⟨fun d => match d with | .DX => x | .DY => y | .DZ => z | _ => EMPTY⟩

/-- The loop of `getDOFSForNode` (Constraint.cpp 439-444) over the positions below `n`. -/
def dofsBelow (s : Spc) : Nat → Dofs
  | 0 => Dofs.NO_DOFS
  | n + 1 =>
    match Dof.findByPosition n with
    | .ok d => if !(s.spcs d).beq EMPTY then (s.dofsBelow n).addDof d else s.dofsBelow n
    | _ => s.dofsBelow n

/-- `getDOFSForNode` (Constraint.cpp 437-446). The node plays no role. -/
def getDOFSForNode (s : Spc) (_node : Nat) : Dofs := s.dofsBelow 6

/-- `getDoubleForDOF` (Constraint.cpp 460-473). -/
def getDoubleForDOF (s : Spc) (d : Dof) : Outcome Dbl :=
  if (s.spcs d).beq EMPTY then .throw
  else if (s.spcs d).isReference then .throw
  else (s.spcs d).getValue

/-- `getReferenceForDOF` (Constraint.cpp 475-488), up to the look-up in the model. -/
def getReferenceForDOF (s : Spc) (d : Dof) : Outcome Ref :=
  if (s.spcs d).beq EMPTY then .throw
  else if !(s.spcs d).isReference then .throw
  else (s.spcs d).getReference

/-- The loop of `hasReferences` (Constraint.cpp 448-454). -/
def hasReferences (s : Spc) : Bool :=
  [Dof.DX, .DY, .DZ, .RX, .RY, .RZ].any fun d => (s.spcs d).isReference && !(s.spcs d).beq EMPTY

end Spc
end Vega
