import Verif.Geom.Systems

/-!
# Coordinate systems given by three points: CORD2C, CORD2R, CORD2S (NastranParser.cpp 1259-1318)
-/
namespace Vega.CS
open Vec

/-- The system the three cards build from the points A, B, C and the number of the system of
reference; the kind is cylindrical, Cartesian or spherical (NastranParser.cpp 1272-1276, 1291-1295,
1312-1316). Reading the card is left out. -/
noncomputable def cord2 (kind : CsKind) (a b c : Vec) (rid : Option Nat) : CS :=
  let ez := sub b a
  match (sub c a).orthonormalized ez with
  | none => ⟨kind, some a, none, rid, false, [], none, none, .unset⟩
  | some ex => ofVectors kind a ex (cross ez ex) rid

end Vega.CS
