import Verif.Dof.Lemmas
import Verif.Map
import Verif.Num
import Mathlib.Data.Nat.Digits.Defs

/-! # Splitting scalar springs: `Abstract/Model.cpp` 1928-1963 -/
namespace Vega

/-- A set of scalar springs (`ScalarSpring`, Element.h 661-702): its values, the cells of each pair of
dofs and the names of the cell groups it was given. -/
structure SpringSet where
  stiffness : Dbl
  damping : Dbl
  mass : Dbl
  cells : Map (Dof × Dof) (List Nat)
  groups : List String

namespace SpringSplit

/-- `std::to_string` of a positive number. -/
def decimal (n : Nat) : String := String.ofList ((Nat.digits 10 n).reverse.map Nat.digitChar)

/-- The name of the `i`-th group (Model.cpp 1943): `ss->name` is the static member
`ElementSet::name` (Element.cpp 40). -/
def groupName (i : Nat) : String := "ElementSet_" ++ decimal i

/-- The loop over the pairs of dofs of a set (Model.cpp 1941-1952), with the groups of the mesh by name
(their cells only), the counter `i` and the new sets; `createCellGroup` (Mesh.cpp 729-757) refuses a
known name. -/
def pairs (k b : Dbl) : List ((Dof × Dof) × List Nat) → Nat → Map String (List Nat) → List SpringSet →
    Outcome (Map String (List Nat) × List SpringSet)
  | [], _, g, new => .ok (g, new)
  | (dofs, cs) :: rest, i, g, new =>
    if (g.find (groupName i)).isSome then .throw
    else pairs k b rest (i + 1) (g.set (groupName i) cs)
      (new ++ [⟨k, b, 0, [(dofs, cs)], [groupName i]⟩])

/-- The loop over the sets (Model.cpp 1933-1956); `name` is the name of the model. -/
def sets (name : String) : List SpringSet → Map String (List Nat) → List SpringSet →
    Outcome (Map String (List Nat) × List SpringSet)
  | [], g, new => .ok (g, new)
  | s :: rest, g, new =>
    if 1 < s.cells.length then do
      let (g, new) ← pairs s.stiffness s.damping s.cells 1 g new
      sets name rest (g.erase name) new
    else sets name rest g new

/-- `Model::splitElementsByDOFS` (Model.cpp 1928-1963): the groups of the mesh and the spring sets of
the model afterwards. -/
def run (name : String) (g : Map String (List Nat)) (l : List SpringSet) :
    Outcome (Map String (List Nat) × List SpringSet) := do
  let (g, new) ← sets name l g []
  .ok (g, l.filter (fun s => !decide (1 < s.cells.length)) ++ new)

end SpringSplit
end Vega
