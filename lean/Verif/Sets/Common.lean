import Verif.Sets.Model

/-!
# Sets applied by analyses: `Analysis::getLoadSets`, `getConstraintSets` and the queries of `Model`
for active, common and uncommon sets
-/
namespace Vega
namespace Registry

/-- `for (ref : references) result.push_back(model.find(ref))` (Analysis.cpp 268-270). The methods
are `noexcept`: a reference without any id ends the program, modelled by `throw`. -/
def findAll (sets : Container) : List Ref → Outcome (List (Option Obj))
  | [] => .ok []
  | r :: rs => do
    let p ← sets.find r
    let ps ← findAll sets rs
    .ok (p :: ps)

/-- The implicit common set comes first, unless it is empty (Analysis.cpp 96-98, 265-267). -/
def implicitSet (common : Obj) (commonEmpty : Bool) : List (Option Obj) :=
  if commonEmpty then [] else [some common]

/-- `Analysis::getConstraintSets` (Analysis.cpp 263-273): references not found are null pointers. -/
def constraintSetsOf (sets : Container) (common : Obj) (commonEmpty : Bool) (refs : RefSet) :
    Outcome (List (Option Obj)) := do
  let found ← findAll sets refs
  .ok (implicitSet common commonEmpty ++ found)

/-- `Analysis::getLoadSets` (Analysis.cpp 94-105): references not found are left out. -/
def loadSetsOf (sets : Container) (common : Obj) (commonEmpty : Bool) (refs : RefSet) :
    Outcome (List (Option Obj)) := do
  let found ← findAll sets refs
  .ok (implicitSet common commonEmpty ++ found.filter fun p => p.isSome)

/-- `analyseCountByConstraintSet[set]` after the double loop: how often the pointer was met
(Model.cpp 575-580, 591-596). -/
def timesUsed (lists : List (List (Option Obj))) (s : Obj) : Nat :=
  (lists.map fun l => l.count (some s)).sum

/-- `getCommonConstraintSets` (Model.cpp 573-587); `lists` are the sets of each analysis. -/
def commonConstraintSets (sets : List Obj) (lists : List (List (Option Obj))) : List Obj :=
  sets.filter fun s => 0 < timesUsed lists s ∧ timesUsed lists s = lists.length

/-- `LoadSet::Type::DLOAD` (Loading.h 86-92): LOAD = 0, DLOAD = 1. -/
def DLOAD : Nat := 1

/-- `getCommonLoadSets` (Model.cpp 589-608), with the test of the type as written (605). -/
def commonLoadSets (sets : List Obj) (lists : List (List (Option Obj))) : List Obj :=
  sets.filter fun s => 0 < timesUsed lists s ∧ timesUsed lists s = lists.length ∧ s.type = DLOAD

/-- Null pointers are compared by `ptrLess` as soon as there is another pointer to compare with:
undefined behaviour. -/
def nullCompared (sets : List Obj) (lists : List (List (Option Obj))) : Bool :=
  lists.flatten.contains none && (1 < lists.flatten.length || !sets.isEmpty)

/-- `getUncommonConstraintSets` (Model.cpp 610-624). -/
def uncommonConstraintSets (sets : List Obj) (lists : List (List (Option Obj))) :
    Outcome (List Obj) :=
  if nullCompared sets lists then .ub
  else .ok (sets.filter fun s => 0 < timesUsed lists s ∧ timesUsed lists s < lists.length)

/-- `getUncommonLoadSets` (Model.cpp 626-640). -/
def uncommonLoadSets (sets : List Obj) (lists : List (List (Option Obj))) : Outcome (List Obj) :=
  if nullCompared sets lists then .ub
  else .ok (sets.filter fun s =>
    0 < timesUsed lists s ∧ timesUsed lists s < lists.length ∧ s.type ≠ DLOAD)

/-- The loop of `getActiveConstraintSets` (Model.cpp 549-556): a pointer not met before is
appended. Comparing null pointers is undefined behaviour. -/
def activeLoop (seen : List (Option Obj)) : List (Option Obj) → Outcome (List (Option Obj))
  | [] => .ok seen
  | p :: ps =>
    if seen ≠ [] ∧ (p = none ∨ none ∈ seen) then .ub
    else if p ∈ seen then activeLoop seen ps
    else activeLoop (seen ++ [p]) ps

/-- `getActiveConstraintSets` (Model.cpp 545-557), `getActiveLoadSets` (559-571). -/
def activeSets (lists : List (List (Option Obj))) : Outcome (List (Option Obj)) :=
  activeLoop [] lists.flatten

end Registry
end Vega
