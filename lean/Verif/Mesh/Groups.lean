import Verif.Basic
import Verif.Map

/-! # Group registries: `Abstract/Mesh.cpp` 676-835 -/
namespace Vega

/-- A `Group` (MeshComponents.h 244-272, Object.h 39-125): its name, kind, original id (`none`
for `NO_ORIGINAL_ID`) and the automatic id of `Identifiable`. Members and comment are left out. -/
structure GroupObj where
  name : String
  isCell : Bool
  originalId : Option Int
  autoId : Int
  deriving DecidableEq

/-- `groupByName`, `groupById` (Mesh.h) hold shared pointers: indices in `heap`. `nextId` is
the static counter of `Identifiable<Group>`. -/
structure Groups where
  heap : List GroupObj
  byName : Map String Nat
  byId : Map Int Nat
  nextId : Int

namespace Groups

def init : Groups := ⟨[], [], [], 1⟩

/-- `createNodeGroup` (Mesh.cpp 676-704) and `createCellGroup` (729-757). -/
def create (s : Groups) (isCell : Bool) (name : String) (oid : Option Int) : Outcome (Groups × Nat) :=
  if name = "" then .throw
  else if (s.byName.find name).isSome then .throw
  else match oid with
    | none => .ok ({ s with
        heap := s.heap ++ [⟨name, isCell, none, s.nextId⟩]
        byName := s.byName.set name s.heap.length
        nextId := s.nextId + 1 }, s.heap.length)
    | some i =>
      if (s.byId.find i).isSome then .throw
      else .ok ({ s with
        heap := s.heap ++ [⟨name, isCell, some i, s.nextId⟩]
        byName := s.byName.set name s.heap.length
        byId := s.byId.set i s.heap.length
        nextId := s.nextId + 1 }, s.heap.length)

/-- `findGroup(string)` (Mesh.cpp 823-828): `none` for the null pointer. -/
def findByName (s : Groups) (name : String) : Option Nat := s.byName.find name

/-- `findGroup(int)` (Mesh.cpp 830-835). -/
def findById (s : Groups) (oid : Int) : Option Nat := s.byId.find oid

/-- `renameGroup` (Mesh.cpp 759-781). -/
def rename (s : Groups) (old new : String) : Outcome Groups :=
  if old = "" then .throw
  else if new = "" then .throw
  else match s.byName.find old with
    | none => .throw
    | some g => match s.heap[g]? with
      | none => .ub
      | some o => .ok { s with
          heap := s.heap.set g { o with name := new }
          byName := (s.byName.erase old).set new g }

/-- `removeGroup` (Mesh.cpp 783-797): the entry erased in `groupById` is that of `getId()`, the
automatic id (never `NO_ORIGINAL_ID`). -/
def remove (s : Groups) (name : String) : Outcome Groups :=
  match s.byName.find name with
  | none => .ok s
  | some g => match s.heap[g]? with
    | none => .ub
    | some o => .ok { s with byName := s.byName.erase name, byId := s.byId.erase o.autoId }

/-- `findOrCreateNodeGroup` (Mesh.cpp 706-719): for a cell group the dynamic cast gives the null
pointer, and the creation throws. -/
def findOrCreateNodeGroup (s : Groups) (name : String) (oid : Option Int) : Outcome (Groups × Nat) :=
  if name = "" then .throw
  else match s.byName.find name with
    | none => s.create false name oid
    | some g => match s.heap[g]? with
      | none => .ub
      | some o => if o.isCell then s.create false name oid else .ok (s, g)

end Groups
end Vega
