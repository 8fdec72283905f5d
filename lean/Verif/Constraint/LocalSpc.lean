import Verif.Geom.Systems

/-!
# Constraints in the displacement systems of nodes become relations
(`Abstract/Constraint.cpp` 491-536, `Abstract/Model.cpp` 891-903)

A node may have its displacements in a coordinate system of its own (field CD of GRID). Code_Aster has global displacements only,
so a constraint of such a node is replaced with one relation for each constrained component. Numbers are reals; `none` is a
vector of NaN. Numbers given to the relations and messages are left out.
-/
namespace Vega
namespace LocalSpc
open CS

/-- A node as `findNode` gives it: its place and its system of displacements, `none` for the global one. -/
structure Node where
  place : Vec
  system : Option Nat

/-- A component of a constraint (`ValueOrReference`; `NO_SPC` is `free`). -/
inductive Value where
  | free
  | number (v : ℝ)
  | reference

/-- A `SinglePointConstraint` (Constraint.h 169-201): the nodes of its own and those of its groups (`NodeContainer`), and the
six components. -/
structure Spc where
  own : List Nat
  grouped : List Nat
  value : Fin 6 → Value

/-- A relation with the participation of one node: the coefficients of translations and of rotations, and the value
(`LinearMultiplePointConstraint`, Constraint.cpp 537-550). `none` is a vector of NaN. -/
structure Relation where
  node : Nat
  translations : Option Vec
  rotations : Option Vec
  value : ℝ

/-- `VectorialValue::XYZ[i % 3]` (Value.cpp 271-272; Constraint.cpp 506-507). -/
def axis (i : Fin 6) : Vec :=
  match i with
  | 0 | 3 => ⟨1, 0, 0⟩
  | 1 | 4 => ⟨0, 1, 0⟩
  | 2 | 5 => ⟨0, 0, 1⟩

/-- The relations of a node for some components (Constraint.cpp 503-521): `vectorToGlobal` comes before `getDoubleForDOF`, which
throws on references (462-476). -/
noncomputable def relations (env : Env) (fuel : Nat) (c : CS) (p : Nat) (value : Fin 6 → Value) :
    List (Fin 6) → Outcome (List Relation)
  | [] => .ok []
  | i :: is =>
    match value i with
    | .free => relations env fuel c p value is
    | .number v => do
      let g ← vectorToGlobal env fuel c (some (axis i))
      let more ← relations env fuel c p value is
      .ok ((if i.val < 3 then ⟨p, g, some Vec.zero, v⟩ else ⟨p, some Vec.zero, g, v⟩) :: more)
    | .reference => do
      let _ ← vectorToGlobal env fuel c (some (axis i))
      .throw

/-- `NodeContainer::removeNodePositionExcludingGroups` (MeshComponents.cpp 954-956): erasing what is not found is undefined. -/
def removeNode (s : Spc) (p : Nat) : Outcome Spc :=
  if p ∈ s.own then .ok { s with own := s.own.filter (· ≠ p) } else .ub

/-- The loop over nodes (Constraint.cpp 493-524). A system that is not found is a null pointer. -/
noncomputable def loop (fuel : Nat) (node : Nat → Node) : List Nat → Env → Spc → Outcome (Env × Spc × List Relation)
  | [], env, s => .ok (env, s, [])
  | p :: ps, env, s =>
    match (node p).system with
    | none => loop fuel node ps env s
    | some r =>
      match env r with
      | none => .ub
      | some c => do
        let c' ← c.updateLocalBase (node p).place
        let rs ← relations (setEnv env r c') fuel c' p s.value [0, 1, 2, 3, 4, 5]
        let s' ← removeNode s p
        let (env'', s'', more) ← loop fuel node ps (setEnv env r c') s'
        .ok (env'', s'', rs ++ more)

/-- `SinglePointConstraint::emulateLocalDisplacementConstraint` (Constraint.cpp 491-536), over the nodes of `nodePositions`
(147-149): those of its own and those of its groups, in the order of positions in the code, here those of groups last: the order
matters only to which error comes first. -/
noncomputable def emulate (fuel : Nat) (node : Nat → Node) (env : Env) (s : Spc) : Outcome (Env × Spc × List Relation) :=
  loop fuel node (s.own ++ s.grouped.filter (· ∉ s.own)) env s

/-- `NodeContainer::empty` (MeshComponents.cpp 1028-1030). -/
def Spc.isEmpty (s : Spc) : Bool := s.own.isEmpty && s.grouped.isEmpty

/-- A constraint or a relation and the constraint sets that have it. -/
structure Item (α : Type) where
  sets : List Nat
  body : α

/-- `Model::emulateLocalDisplacementConstraint` (Model.cpp 891-903): the relations go to the sets of their constraint
(Constraint.cpp 525-535), a constraint left without nodes is removed. What is left, and the new relations. -/
noncomputable def emulateAll (fuel : Nat) (node : Nat → Node) :
    List (Item Spc) → Env → Outcome (List (Item Spc) × List (Item Relation))
  | [], _ => .ok ([], [])
  | s :: ss, env => do
    let (env', s', rs) ← emulate fuel node env s.body
    let (left, new) ← emulateAll fuel node ss env'
    .ok ((if s'.isEmpty then left else ⟨s.sets, s'⟩ :: left), rs.map (fun r => ⟨s.sets, r⟩) ++ new)

/-- The same with the relations the model has already (MPC): they are left as they are (the loop is over constraints of type SPC,
Model.cpp 893). -/
noncomputable def emulateModel (fuel : Nat) (node : Nat → Node) (ss : List (Item Spc)) (others : List (Item Relation)) (env : Env) :
    Outcome (List (Item Spc) × List (Item Relation)) := do
  let (left, new) ← emulateAll fuel node ss env
  .ok (left, others ++ new)

end LocalSpc
end Vega
