import Verif.Container.Model

/-!
# Sets of loadings, constraints and objectives: the registries of `Abstract/Model.cpp`

The code is written three times, for loadings in load sets, constraints in constraint sets and
objectives in objective sets, with small differences. The three versions are modelled together,
`Kind` telling them apart.
-/
namespace Vega

/-- `std::set<Reference<T>>`. The order of the elements is not modelled (no theorem depends on
it): a list without two equal references. -/
abbrev RefSet := List Ref

namespace RefSet

/-- `std::set::insert`. -/
def insert (s : RefSet) (r : Ref) : RefSet := if s.any (fun x => x.beq r) then s else s ++ [r]

/-- `std::set::erase(key)`. -/
def erase (s : RefSet) (r : Ref) : RefSet := s.filter fun x => !x.beq r

/-- The loop `for (it2 : set) if (it2 == ref) { set.erase(it2); break; }` (Model.cpp 181-186,
206-211, 227-232, 293-298). -/
def removeFirst (s : RefSet) (r : Ref) : RefSet :=
  match s.find? fun x => x.beq r with
  | some x => s.erase x
  | none => s

end RefSet

/-- The three families of members. -/
inductive Kind where
  | loading | constraint | objective
  deriving DecidableEq, Repr

/-- The members (`loadings`, `constraints`, `objectives`), the sets (`loadSets`, ...) and the two
indices of `Model` for one kind (Model.h 136-186). The map of maps by set type and original id
is flattened to one map with pairs as keys. -/
structure Registry where
  members : Container
  sets : Container
  byId : Map Int RefSet
  byOrig : Map (Nat × Int) RefSet
  deriving DecidableEq

namespace Registry

/-- A fresh model. -/
def empty : Registry := ⟨.empty, .empty, [], []⟩

/-- The elements of `m[k]`, none if there is no entry. -/
def refsAt {κ : Type} [DecidableEq κ] (m : Map κ RefSet) (k : κ) : RefSet :=
  match m.find k with
  | some s => s
  | none => []

/-- `m[k].insert(r)`: `operator[]` creates the entry. -/
def insertAt {κ : Type} [DecidableEq κ] (m : Map κ RefSet) (k : κ) (r : Ref) : Map κ RefSet :=
  m.set k (RefSet.insert (refsAt m k) r)

/-- The reference whose ids are tested before inserting: that of the set, but for objectives that
of the objective (Model.cpp 384,386; 468,471; 399,401). -/
def guardRef (kind : Kind) (member set : Ref) : Ref :=
  match kind with
  | .loading => set
  | .constraint => set
  | .objective => member

/-- The two insertions at the start of `addLoadingIntoLoadSet` (Model.cpp 384-388),
`addObjectiveIntoObjectiveSet` (399-403), `addConstraintIntoConstraintSet` (468-473). -/
def insertMember (kind : Kind) (g : Registry) (member set : Ref) : Registry :=
  { g with
    byId := if (guardRef kind member set).hasId then insertAt g.byId set.id member else g.byId
    byOrig := if (guardRef kind member set).hasOriginalId then
        insertAt g.byOrig (set.type, set.originalId) member
      else g.byOrig }

/-- The common set is added to the model if needed (Model.cpp 389-390, 404-405, 474-476). -/
def ensureCommon (common : Obj) (g : Registry) (set : Ref) : Outcome Registry :=
  if set.beq common.ref then do
    match ← g.sets.find common.ref with
    | some _ => .ok g
    | none => do
      let sets ← g.sets.add common
      .ok { g with sets := sets }
  else .ok g

/-- A set not found is created (Model.cpp 391-394, 406-409); `newId` is the automatic id of the
new object. -/
def ensureSet (g : Registry) (set : Ref) (newId : Int) : Outcome Registry := do
  match ← g.sets.find set with
  | some _ => .ok g
  | none => do
    let sets ← g.sets.add ⟨set.type, set.originalId, newId, 0⟩
    .ok { g with sets := sets }

/-- `addLoadingIntoLoadSet` (Model.cpp 382-395), `addObjectiveIntoObjectiveSet` (397-410),
`addConstraintIntoConstraintSet` (466-477; a missing set is not created). -/
def addInto (kind : Kind) (common : Obj) (g : Registry) (member set : Ref) (newId : Int) :
    Outcome Registry := do
  let g ← ensureCommon common (insertMember kind g member set) set
  match kind with
  | .constraint => .ok g
  | _ => ensureSet g set newId

/-- `Model::remove` of a loading, constraint or objective (Model.cpp 178-201, 224-246, 290-312):
removed from every set, then from the container. -/
def remove (g : Registry) (r : Ref) : Registry :=
  { g with
    byId := g.byId.map fun kv => (kv.1, RefSet.removeFirst kv.2 r)
    byOrig := g.byOrig.map fun kv => (kv.1, RefSet.removeFirst kv.2 r)
    members := g.members.erase r }

/-- `m[k]`, erasing through `operator[]` (Model.cpp 205-211): the entry is created. -/
def removeAt {κ : Type} [DecidableEq κ] (m : Map κ RefSet) (k : κ) (r : Ref) : Map κ RefSet :=
  m.set k (RefSet.removeFirst (refsAt m k) r)

/-- `Model::remove(constraint, constraintSet)` (Model.cpp 203-222). -/
def removeFrom (g : Registry) (r set : Ref) : Registry :=
  { g with
    byId := removeAt g.byId set.id r
    byOrig := if set.hasOriginalId then removeAt g.byOrig (set.type, set.originalId) r
      else g.byOrig
    members := g.members.erase r }

/-- `std::set<shared_ptr<T>, ptrLess<T>>::insert` (Object.h 198-203 for the order). Comparing a
null pointer is undefined behaviour; the first insertion compares nothing. -/
def insertPtr (s : List (Option Obj)) (p : Option Obj) : Outcome (List (Option Obj)) :=
  if s = [] then .ok [p]
  else match p with
    | none => .ub
    | some o =>
      if s.any (fun x => x.isNone) then .ub
      else if s.any (fun x => match x with | some y => y.ref.beq o.ref | none => false) then .ok s
      else .ok (s ++ [some o])

/-- What a query does with one reference: loadings not found raise an exception (Model.cpp
442-446, 457-461), the others are inserted as null pointers (485, 495, 529, 539). -/
def insertFound (kind : Kind) (g : Registry) (s : List (Option Obj)) (r : Ref) :
    Outcome (List (Option Obj)) := do
  match ← g.members.find r, kind with
  | none, .loading => .throw
  | p, _ => insertPtr s p

/-- The references listed under a set, in both indices. -/
def listed (g : Registry) (set : Ref) : List Ref :=
  refsAt g.byId set.id ++ refsAt g.byOrig (set.type, set.originalId)

/-- The loop of a query. -/
def collect (kind : Kind) (g : Registry) (s : List (Option Obj)) :
    List Ref → Outcome (List (Option Obj))
  | [] => .ok s
  | r :: rs => do
    let s ← insertFound kind g s r
    collect kind g s rs

/-- `getLoadingsByLoadSet` (Model.cpp 436-464), `getConstraintsByConstraintSet` (479-499),
`getObjectivesByObjectiveSet` (523-543). -/
def membersOf (kind : Kind) (g : Registry) (set : Ref) : Outcome (List (Option Obj)) :=
  collect kind g [] (listed g set)

/-- Is the constraint in this list of pointers? (Model.cpp 507-515; a null pointer met before
raises an exception.) -/
def searchPtr (r : Ref) : List (Option Obj) → Outcome Bool
  | [] => .ok false
  | none :: _ => .throw
  | some o :: rest => if o.ref.beq r then .ok true else searchPtr r rest

/-- The loop of `getConstraintSetsByConstraint` (Model.cpp 501-521) over the sets. The insertion
of the sets in the result is that of `insertPtr`; sets of the container have different
references, so it is modelled by appending. -/
def setsLoop (g : Registry) (r : Ref) : List Obj → Outcome (List Obj)
  | [] => .ok []
  | s :: rest => do
    let members ← membersOf .constraint g s.ref
    let found ← searchPtr r members
    let others ← setsLoop g r rest
    .ok (if found then s :: others else others)

/-- `getConstraintSetsByConstraint` (Model.cpp 501-521). -/
def setsOf (g : Registry) (r : Ref) : Outcome (List Obj) := setsLoop g r g.sets.objects

end Registry
end Vega
