import Verif.Geom.Systems

/-!
# Nodal forces in a coordinate system (Loading.cpp 291-319)
-/
namespace Vega.CS

/-- `NodalForce::localToGlobal` (Loading.cpp 291-304), at a node whose global coordinates are given.
The system found is the one stored in the mesh: updating its local base changes it for everybody, so
the environment is part of the result. -/
noncomputable def localToGlobal (env : Env) (n : Nat) (csref : Option Nat) (node v : Vec) :
    Outcome (Env × Option Vec) :=
  match csref with
  | none => .ok (env, some v)
  | some r =>
    match env r with
    | none => .throw
    | some c => do
      let c ← c.updateLocalBase node
      let w ← vectorToGlobal (setEnv env r c) n c (some v)
      .ok (setEnv env r c, w)

/-- `getForceInGlobalCS`, and `getMomentInGlobalCS` with the moment (Loading.cpp 306-318). -/
noncomputable def forceInGlobal (env : Env) (n : Nat) (csref : Option Nat) (nodes : List Nat)
    (position : Nat → Vec) (node : Nat) (v : Vec) : Outcome (Env × Option Vec) :=
  if node ∈ nodes then localToGlobal env n csref (position node) v else .throw

end Vega.CS
