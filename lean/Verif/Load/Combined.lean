import Verif.Basic
import Verif.Num

/-!
# Combined load sets: `Model::replaceCombinedLoadSets`
-/
namespace Vega

/-- Load sets and loadings, as far as combination goes. `value l` is the effect of loading number
`l` at one degree of freedom chosen once and for all (a force or moment component, ...), which
`Loading::scale` multiplies (C41). `members s` are the loadings `getLoadings` reports for the set
(C28), `embedded s` its `embedded_loadsets` (Loading.h 96). `sets` is the order in which the
container of load sets is walked (increasing automatic ids); `next` the next automatic id of a
loading. -/
structure LoadModel where
  value : Nat → Dbl
  next : Nat
  sets : List Nat
  members : Nat → List Nat
  embedded : Nat → List (Nat × Dbl)

namespace LoadModel

/-- `addLoadingIntoLoadSet` (Model.cpp 382-395) for a set of the model: insertion in a set. -/
def register (m : LoadModel) (s l : Nat) : LoadModel :=
  { m with members := fun x =>
      if x = s then (if l ∈ m.members s then m.members s else m.members s ++ [l]) else m.members x }

/-- `clone`, `resetId`, `scale(coefficient)` and `add` (Model.cpp 1113-1116): a new loading. -/
def addScaled (m : LoadModel) (l : Nat) (c : Dbl) : LoadModel :=
  { m with value := fun x => if x = m.next then c * m.value l else m.value x, next := m.next + 1 }

/-- One pass of the inner loop (Model.cpp 1104-1122) for the loading `l` of the embedded set. -/
def embedOne (m : LoadModel) (s : Nat) (c : Dbl) (l : Nat) : LoadModel :=
  if isEqual c 1 then m.register s l
  else (m.addScaled l c).register s m.next

/-- The body of the loop over the embedded sets (Model.cpp 1098-1125). The loadings of the embedded
set are collected before the loop. -/
def embedSet (m : LoadModel) (s : Nat) (e : Nat × Dbl) : Outcome LoadModel :=
  if e.1 ∈ m.sets then .ok ((m.members e.1).foldl (fun m l => m.embedOne s e.2 l) m) else .throw

/-- The loop over the embedded sets. -/
def embedAll (s : Nat) : List (Nat × Dbl) → LoadModel → Outcome LoadModel
  | [], m => .ok m
  | e :: es, m => do
    let m ← m.embedSet s e
    embedAll s es m

/-- `embedded_loadsets.clear()` (Model.cpp 1126). -/
def clear (m : LoadModel) (s : Nat) : LoadModel :=
  { m with embedded := fun x => if x = s then [] else m.embedded x }

/-- The loop over the load sets. -/
def flattenLoop : List Nat → LoadModel → Outcome LoadModel
  | [], m => .ok m
  | s :: ss, m => do
    let m ← embedAll s (m.embedded s) m
    flattenLoop ss (m.clear s)

/-- `replaceCombinedLoadSets` (Model.cpp 1096-1128). -/
def replaceCombinedLoadSets (m : LoadModel) : Outcome LoadModel := flattenLoop m.sets m

end LoadModel
end Vega
