/-! # `Reference<T>`: `Abstract/Reference.h` -/
namespace Vega

/-- `Reference<T>` (Reference.h 51-90). The enum `T::Type` is its integer value; the input
context takes no part in comparisons and is left out. -/
structure Ref where
  type : Nat
  originalId : Int
  id : Int
  deriving DecidableEq, Repr

namespace Ref

/-- `Reference::NO_ID` and `Identifiable::NO_ORIGINAL_ID`: `INT_MIN` (Reference.h 58,
Object.h 68). -/
def NO_ID : Int := -2147483648

/-- `has_original_id` (Reference.h 66-68). -/
def hasOriginalId (r : Ref) : Bool := r.originalId ≠ NO_ID

/-- `has_id` (Reference.h 69-71). -/
def hasId (r : Ref) : Bool := r.id ≠ NO_ID

/-- `operator==` (Reference.h 100-109). -/
def beq (l r : Ref) : Bool :=
  if l.type ≠ r.type then false
  else if l.originalId = NO_ID ∧ r.originalId = NO_ID then l.id = r.id
  else l.originalId = r.originalId

/-- `operator<` (Reference.h 116-127). -/
def lt (l r : Ref) : Bool :=
  if l.type ≠ r.type then l.type < r.type
  else if l.originalId ≠ NO_ID ∧ r.originalId ≠ NO_ID then l.originalId < r.originalId
  else if l.originalId ≠ NO_ID ∨ r.originalId ≠ NO_ID then l.originalId ≠ NO_ID
  else l.id < r.id

/-- `std::hash<Reference<T>>` (Reference.h 164-176), with the string table, the string and
integer hashes and `boost::hash_combine` as parameters. The table is assumed to contain the
type (the code dereferences the iterator without a test). -/
def hash {H : Type} (combine : H → H → H) (zero : H) (typeHash : Nat → H) (intHash : Int → H)
    (r : Ref) : H :=
  combine (combine (combine zero (typeHash r.type)) (intHash r.originalId)) (intHash r.id)

end Ref
end Vega
