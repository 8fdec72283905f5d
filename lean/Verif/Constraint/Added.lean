import Verif.Mesh.Bars
import Verif.Map

/-!
# Combined sets of supports: SPCADD (`Nastran/NastranParser.cpp` 3533-3559)

The supports of a plain set are what was registered under its number (`Registry.membersOf`, C29); here they are kept in a list
of pairs.
-/
namespace Vega
namespace Added
open Nastran

/-- The loop (NastranParser.cpp 3543-3557), at most `fuel` turns: the sets listed. -/
def listLoop : Nat → Cursor → Outcome (List Int × Cursor)
  | 0, _ => .diverges
  | fuel + 1, c => do
    let go ← isNextInt c
    if go then
      let (n, c) ← nextInt none c
      let (ns, c) ← listLoop fuel c
      .ok (n :: ns, c)
    else .ok ([], c)

/-- `parseSPCADD` (NastranParser.cpp 3533-3559): the number of the set and the sets listed. The test for the existence of the set
(3539) is in `step`; it comes before the loop in the code, and both end in an exception in strict mode. -/
def parseSPCADD (c : Cursor) : Outcome ((Int × List Int) × Cursor) := do
  let (id, c) ← nextInt none c
  let (ns, c) ← listLoop (c.fields.length + 1) c
  .ok ((id, ns), c)

/-- The cards: a support of a set (parseSPC 3506-3508, parseSPC1 3526-3529; the support is left abstract), or SPCADD. -/
inductive Card where
  | support (set : Int) (k : Nat)
  | spcadd (fields : List Line)
  deriving DecidableEq

/-- The existing sets of type SPC, `constraintSetReferences` of each (Constraint.cpp 72-75) and the registered supports. -/
structure State where
  sets : List Int
  listed : List (Int × Int)
  supports : List (Int × Nat)
  deriving DecidableEq

/-- The case control section (NastranParser.cpp 850-857): the sets selected there are created. -/
def start (selected : List Int) : State := ⟨selected, [], []⟩

/-- The sets listed are created if they do not exist and appended (NastranParser.cpp 3549-3556). -/
def State.list (s : State) (id : Int) : List Int → State
  | [] => s
  | n :: ns => State.list { s with sets := if n ∈ s.sets then s.sets else s.sets ++ [n], listed := s.listed ++ [(id, n)] } id ns

/-- One card, in strict mode. A support creates no set (Model.cpp 466-477). -/
def step (s : State) : Card → Outcome State
  | .support n k => .ok { s with supports := s.supports ++ [(n, k)] }
  | .spcadd fields => do
    let (id, ns) ← Bars.runCard parseSPCADD fields
    if id ∈ s.sets then .ok (s.list id ns) else .throw

def run (s : State) : List Card → Outcome State
  | [] => .ok s
  | c :: cs => do
    let s ← step s c
    run s cs

/-- `getConstraintsByConstraintSet` (Model.cpp 479-499) for a set of type SPC with this number. -/
def members (s : State) (n : Int) : List Nat := (s.supports.filter fun p => p.1 = n).map (·.2)

/-- `ConstraintSet::getConstraints` (Constraint.cpp 77-85). -/
def getConstraints (s : State) (n : Int) : List Nat :=
  members s n ++ ((s.listed.filter fun p => p.1 = n).map (·.2)).flatMap (members s)

end Added
end Vega
