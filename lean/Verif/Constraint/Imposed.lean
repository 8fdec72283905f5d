import Verif.Constraint.Redundant

/-!
# `Model::removeConstrainedImposed`
-/
namespace Vega
namespace SpcModel

/-- `imposedDofsByNodePosition` (Model.cpp 1464-1476) after the loop over the imposed displacements of
an analysis: `imp` lists their nodes and degrees of freedom in the order of the loop. The entry of a
node is assigned, not extended. A node without entry gets an empty one (`operator[]`, 1485). -/
def imposedAt (imp : List (Nat × Dofs)) (n : Nat) : Dofs :=
  imp.foldl (fun D p => if p.1 = n then p.2 else D) Dofs.NO_DOFS

/-- The loop over the nodes of an SPC (Model.cpp 1484-1496). -/
def impNodeLoop (imp : List (Nat × Dofs)) (a s : Nat) : List Nat → SpcModel → Outcome SpcModel
  | [], m => .ok m
  | n :: ns, m => do
    let m ← m.removeIfAny a s n ((imposedAt imp n).inter ((m.spc s).getDOFSForNode n))
    impNodeLoop imp a s ns m

/-- The loop over the SPCs of a set (Model.cpp 1482-1497). -/
def impSpcLoop (e : Enum) (imp : List (Nat × Dofs)) (a : Nat) : List Nat → SpcModel → Outcome SpcModel
  | [], m => .ok m
  | s :: ss, m => do
    let m ← impNodeLoop imp a s (m.nodePositions e s) m
    impSpcLoop e imp a ss m

/-- The loop over the sets of an analysis (Model.cpp 1477-1498). -/
def impSetLoop (e : Enum) (imp : List (Nat × Dofs)) (a : Nat) : List Nat → SpcModel → Outcome SpcModel
  | [], m => .ok m
  | S :: Ss, m => do
    let m ← impSpcLoop e imp a (m.constraints e S) m
    impSetLoop e imp a Ss m

/-- The loop over the analyses; `imp a` are the imposed displacements of analysis `a`. -/
def impLoop (e : Enum) (imp : Nat → List (Nat × Dofs)) : List Nat → SpcModel → Outcome SpcModel
  | [], m => .ok m
  | a :: as, m => do
    let m ← impSetLoop e (imp a) a (m.constraintSets a) m
    impLoop e imp as m

/-- `Model::removeConstrainedImposed` (Model.cpp 1462-1500). -/
def removeConstrainedImposed (e : Enum) (imp : Nat → List (Nat × Dofs)) (m : SpcModel) :
    Outcome SpcModel := impLoop e imp m.analyses m

end SpcModel
end Vega
