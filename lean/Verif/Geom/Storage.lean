import Verif.Basic
import Verif.Ref.Model

/-!
# The positions of coordinate systems (CoordinateSystem.h 237-267, CoordinateSystem.cpp 420-516,
Mesh.cpp 614-657)

A coordinate system is its reference and some data that the storage does not look at, but for the
comparison of orientations, which is a parameter. Messages are left out.
-/
namespace Vega

/-- A coordinate system, seen by the storage. -/
structure CSys (δ : Type) where
  ref : Ref
  data : δ

namespace CSys

/-- `Type::RELATIVE`, the type of orientations (CoordinateSystem.h 43-46; CoordinateSystem.cpp
289-307). -/
def RELATIVE : Nat := 1

/-- `GLOBAL_COORDINATE_SYSTEM` (CoordinateSystem.cpp 41), of type `ABSOLUTE` and number 0. -/
def globalRef : Ref := ⟨0, 0, Ref.NO_ID⟩

end CSys

/-- `CoordinateSystemStorage` (CoordinateSystem.h 237-267). `next` is the static
`cs_next_position`; positions are unbounded here (32 bits in the code). -/
structure CsStore (δ : Type) where
  next : Nat
  refs : List (Nat × Ref)
  systems : List (Ref × CSys δ)

namespace CsStore
open CSys
variable {δ : Type}

/-- `UNAVAILABLE_POSITION` (CoordinateSystem.h 242, Utility.h 50). -/
def UNAVAILABLE : Nat := 2147483647

/-- An empty storage (CoordinateSystem.cpp 422-427); the static counter starts at 1 and has been
advanced by the other meshes of the program. -/
def init (next : Nat) : CsStore δ := ⟨next + 1, [], []⟩

/-- `refByPosition.insert` (CoordinateSystem.cpp 460, 508): nothing happens if the position is
present. -/
def insertRef (p : Nat) (r : Ref) : List (Nat × Ref) → List (Nat × Ref)
  | [] => [(p, r)]
  | it :: l =>
    if p < it.1 then (p, r) :: it :: l
    else if p = it.1 then it :: l
    else it :: insertRef p r l

/-- `refByPosition.find` (CoordinateSystem.cpp 454, 476). -/
def refAt (p : Nat) : List (Nat × Ref) → Option Ref
  | [] => none
  | it :: l => if it.1 = p then some it.2 else refAt p l

/-- `coordinateSystemByRef[csref] = clone` (CoordinateSystem.cpp 462), a map ordered by the
references. -/
def insertSystem (c : CSys δ) : List (Ref × CSys δ) → List (Ref × CSys δ)
  | [] => [(c.ref, c)]
  | it :: l =>
    if c.ref.lt it.1 then (c.ref, c) :: it :: l
    else if it.1.lt c.ref then it :: insertSystem c l
    else (it.1, c) :: l

/-- `coordinateSystemByRef.find` (CoordinateSystem.cpp 480, 493). -/
def systemAt (r : Ref) : List (Ref × CSys δ) → Option (CSys δ)
  | [] => none
  | it :: l => if it.1.beq r then some it.2 else systemAt r l

/-- `findPosition` (CoordinateSystem.cpp 429-442). -/
def findPosition (s : CsStore δ) (r : Ref) : Nat :=
  if r.beq globalRef then 0
  else
    match s.refs.find? fun it => it.2.beq r with
    | some it => it.1
    | none => UNAVAILABLE

/-- `add` (CoordinateSystem.cpp 444-468). -/
def add (s : CsStore δ) (c : CSys δ) : Outcome (CsStore δ × Nat) :=
  match refAt s.next s.refs with
  | some r =>
    if r.originalId ≠ c.ref.originalId then .throw
    else .ok (⟨s.next + 1, insertRef s.next c.ref s.refs, insertSystem c s.systems⟩, s.next)
  | none => .ok (⟨s.next + 1, insertRef s.next c.ref s.refs, insertSystem c s.systems⟩, s.next)

/-- `findByPosition` (CoordinateSystem.cpp 470-485); `ok none` is a null pointer. -/
def findByPosition (s : CsStore δ) (p : Nat) : Outcome (Option (CSys δ)) :=
  if p = 0 then .throw
  else
    match refAt p s.refs with
    | none => .throw
    | some r => .ok (systemAt r s.systems)

/-- `find` (CoordinateSystem.cpp 487-498). -/
def find (s : CsStore δ) (r : Ref) : Outcome (Option (CSys δ)) :=
  if r.beq globalRef then .throw else .ok (systemAt r s.systems)

/-- `reserve` (CoordinateSystem.cpp 500-515). -/
def reserve (s : CsStore δ) (r : Ref) : Outcome (CsStore δ × Nat) :=
  if r.beq globalRef then .throw
  else .ok (⟨s.next + 1, insertRef s.next r s.refs, s.systems⟩, s.next)

/-- `Mesh::findOrReserveCoordinateSystem` (Mesh.cpp 625-632). -/
def findOrReserve (s : CsStore δ) (r : Ref) : Outcome (CsStore δ × Nat) :=
  if r.beq globalRef then .ok (s, 0)
  else if s.findPosition r = UNAVAILABLE then s.reserve r
  else .ok (s, s.findPosition r)

/-- The loop of `Mesh::findOrientation` (Mesh.cpp 646-655). -/
def orientationLoop (same : δ → δ → Bool) (s : CsStore δ) (o : CSys δ) :
    List (Ref × CSys δ) → Nat
  | [] => 0
  | it :: l =>
    if it.2.ref.type = RELATIVE then
      if same o.data it.2.data then s.findPosition it.2.ref else orientationLoop same s o l
    else orientationLoop same s o l

/-- `Mesh::addOrFindOrientation` (Mesh.cpp 634-642). -/
def addOrFindOrientation (same : δ → δ → Bool) (s : CsStore δ) (o : CSys δ) :
    Outcome (CsStore δ × Nat) :=
  if orientationLoop same s o s.systems = 0 then do
    let s ← s.add o
    .ok (s.1, s.1.findPosition o.ref)
  else .ok (s, orientationLoop same s o s.systems)

/-- What can happen to a storage: a system is defined, a position is reserved or asked for, another
mesh takes a position. -/
inductive Op (δ : Type) where
  | define (c : CSys δ)
  | reserve (r : Ref)
  | ask (r : Ref)
  | other

/-- One operation and the position it hands out. -/
def step (s : CsStore δ) : Op δ → Outcome (CsStore δ × Nat)
  | .define c => s.add c
  | .reserve r => s.reserve r
  | .ask r => s.findOrReserve r
  | .other => .ok ({ s with next := s.next + 1 }, s.next)

/-- A history. -/
def run (s : CsStore δ) : List (Op δ) → Outcome (CsStore δ)
  | [] => .ok s
  | op :: ops => do
    let r ← s.step op
    run r.1 ops

end CsStore
end Vega
