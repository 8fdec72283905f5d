import Verif.Basic
import Verif.Ref.Model

/-! # The storage of coordinate systems: `Abstract/CoordinateSystem.cpp` 422-515 and `Abstract/Mesh.cpp` 614-632, 659-661

A coordinate system is any value of a type `α`. Positions and references are kept in two maps. Positions come from a
counter, so that new ones go to the end of the map ordered by position. The counter is shared by all storages of the
program (`static`); here it is a part of the state, and other storages may raise it between two calls (`tick`). -/
namespace Vega
namespace Systems

/-- `CoordinateSystem::GLOBAL_COORDINATE_SYSTEM` (CoordinateSystem.cpp 41; `Type::ABSOLUTE` is 0). -/
def globalRef : Ref := ⟨0, 0, Ref.NO_ID⟩

/-- `CoordinateSystemStorage` (CoordinateSystem.h 237-267). -/
structure Store (α : Type) where
  next : Nat
  /-- `refByPosition` -/
  refs : List (Nat × Ref)
  /-- `coordinateSystemByRef` -/
  systems : List (Ref × α)

variable {α : Type}

/-- A new storage; the counter starts at 1 (CoordinateSystem.cpp 422) and may have been raised by other storages. -/
def Store.new (raised : Nat) : Store α := ⟨1 + raised, [], []⟩

/-- `findPosition` (CoordinateSystem.cpp 429-442); `none` is `UNAVAILABLE_POSITION`. -/
def Store.findPosition (s : Store α) (r : Ref) : Option Nat :=
  if r.beq globalRef then some 0
  else (s.refs.find? fun e => e.2.beq r).map (·.1)

/-- `coordinateSystemByRef[csref] = …` (CoordinateSystem.cpp 462). The keys of the map are compared with `operator<`;
by C06 two keys are the same for it exactly when they are equal. -/
def assign (r : Ref) (a : α) : List (Ref × α) → List (Ref × α)
  | [] => [(r, a)]
  | (k, b) :: l => if k.beq r then (k, a) :: l else (k, b) :: assign r a l

/-- `coordinateSystemByRef.find(csref)` (CoordinateSystem.cpp 480, 493). -/
def lookup (r : Ref) (l : List (Ref × α)) : Option α := (l.find? fun e => e.1.beq r).map (·.2)

/-- `add` (CoordinateSystem.cpp 444-468): the position. -/
def Store.add (s : Store α) (r : Ref) (a : α) : Outcome (Store α × Nat) :=
  let cpos := s.next
  let s := { s with next := s.next + 1 }
  match s.refs.find? fun e => e.1 = cpos with
  | some e =>
    if e.2.originalId ≠ r.originalId then .throw
    else .ok ({ s with systems := assign r a s.systems }, cpos)
  | none => .ok ({ s with refs := s.refs ++ [(cpos, r)], systems := assign r a s.systems }, cpos)

/-- `findByPosition` (CoordinateSystem.cpp 470-485); `ok none` is the null pointer. -/
def Store.findByPosition (s : Store α) (p : Nat) : Outcome (Option α) :=
  if p = 0 then .throw
  else match s.refs.find? fun e => e.1 = p with
    | none => .throw
    | some e => .ok (lookup e.2 s.systems)

/-- `find` (CoordinateSystem.cpp 487-498). -/
def Store.find (s : Store α) (r : Ref) : Outcome (Option α) :=
  if r.beq globalRef then .throw else .ok (lookup r s.systems)

/-- `reserve` (CoordinateSystem.cpp 500-515). The position is new, so that `insert` always inserts. -/
def Store.reserve (s : Store α) (r : Ref) : Outcome (Store α × Nat) :=
  if r.beq globalRef then .throw
  else
    let cpos := s.next
    let s := { s with next := s.next + 1 }
    match s.refs.find? fun e => e.1 = cpos with
    | some _ => .ok (s, cpos)
    | none => .ok ({ s with refs := s.refs ++ [(cpos, r)] }, cpos)

/-- `Mesh::findOrReserveCoordinateSystem` (Mesh.cpp 625-632). -/
def Store.findOrReserve (s : Store α) (r : Ref) : Outcome (Store α × Nat) :=
  if r.beq globalRef then .ok (s, 0)
  else match s.findPosition r with
    | some p => .ok (s, p)
    | none => s.reserve r

/-- Another storage takes a position. -/
def Store.tick (s : Store α) : Store α := { s with next := s.next + 1 }

end Systems
end Vega
