import Verif.Aster.Constraints
import Verif.Dof.Coefs
import Verif.NastranWrite.Loads
import Mathlib.Data.List.Dedup

/-! # Loads written for Code_Aster: `Aster/AsterWriter.cpp` 1488-1530, 1734-1763, 1951-2150

As in `Constraints.lean`, the command file is the list of its keywords with their arguments. The forces and moments of a
nodal load at a node (`getForceInGlobalCS`, `getMomentInGlobalCS`: C40, C62), the length of an acceleration (`norm`), and
what is known of the elements of the cells are given with the load. -/
namespace Vega
namespace Aster
open Med
open NastranWrite (V3)

/-- The value of a force on a line (Loading.h 371-392): a function with the name it has been defined with
(`asternameByValue`, AsterWriter.cpp 886-931), or a constant, which has none (924-928). -/
inductive LineValue where
  | function (name : String)
  | constant (x : Dbl)

/-- The loads of a set (Loading.h 134-498). `elements`: for each cell of a force on a line, whether its element is a beam;
`none` without element. -/
inductive Load where
  | nodal (nodes : NodeBox) (force moment : Nat → V3)
  | imposed (nodes : NodeBox) (d : DofCoefs)
  | face (intensity : Dbl) (cells : CellBox)
  | shell (intensity : Dbl) (cells : CellBox)
  | surface (force moment : V3) (cells : CellBox)
  | line (dof : Dof) (value : LineValue) (elements : List (Option Bool)) (cells : CellBox)
  | gravity (acceleration : V3) (norm : Dbl)
  | rotation (speed : Dbl) (axis center : V3)
  | temperature
  | excitation

/-- `hasFunctions` (BoundaryCondition.h 29-31, Loading.h 386-388). -/
def Load.hasFunctions : Load → Bool
  | .line _ (.function _) _ _ => true
  | _ => false

/-- An occurrence of a keyword factor of `AFFE_CHAR_MECA` or `AFFE_CHAR_MECA_F`. -/
inductive Kw where
  | ddlImpo (place : List Where) (values : List (String × Dbl))
  | presRep (pres : Dbl) (place : List Where)
  | forceCoque (pres : Dbl) (place : List Where)
  | forceNodale (noeud : Text) (values : List (String × Dbl))
  | forceFace (place : List Where) (values : List (String × Dbl))
  | forcePoutre (component value : String) (place : List Where)
  /-- The direction is `none` when it is written as `nan`. -/
  | pesanteur (gravite : Dbl) (direction : Option V3)
  | rotation (vitesse : Dbl) (axe centre : V3)

/-- The loop of a function over the loads of its type, for which it returns what it writes (`none`: another type). -/
def writeEach {β : Type} (f : Load → Option (Outcome β)) : List Load → Outcome (List β)
  | [] => .ok []
  | l :: ls =>
    match f l with
    | none => writeEach f ls
    | some o => do
      let k ← o
      let ks ← writeEach f ls
      .ok (k :: ks)

/-- The degrees of freedom and values of an imposed displacement (AsterWriter.cpp 1743-1757). -/
def imposedValues (d : DofCoefs) : List (String × Dbl) := d.getDOFS.toList.map fun x => (ddlName x, d.getValue x)

/-- `writeSPCD` (AsterWriter.cpp 1734-1763). -/
def writeSpcd (e : MeshEnv) : Load → Option (Outcome Kw)
  | .imposed nodes d => some (do
    let place ← writeNodeContainer e nodes
    .ok (.ddlImpo place (imposedValues d)))
  | _ => none

/-- `writePression` (AsterWriter.cpp 2030-2046). -/
def writePression (e : MeshEnv) : Load → Option (Outcome Kw)
  | .face p cells => some (do
    let place ← writeCellContainer e false cells
    .ok (.presRep (-p) place))
  | _ => none

/-- `writeForceCoque` (AsterWriter.cpp 2048-2065). -/
def writeForceCoque (e : MeshEnv) : Load → Option (Outcome Kw)
  | .shell p cells => some (do
    let place ← writeCellContainer e false cells
    .ok (.forceCoque (-p) place))
  | _ => none

/-- The sum of two vectors (Value.cpp 243-245). -/
def vadd (a b : V3) : V3 := ⟨a.x + b.x, a.y + b.y, a.z + b.z⟩

/-- A turn of the loop over the nodes of a force (AsterWriter.cpp 1997-2007). -/
def addForce (force moment : Nat → V3) (m : Map Nat (V3 × V3)) (n : Nat) : Map Nat (V3 × V3) :=
  match m.find n with
  | none => m.set n (force n, moment n)
  | some (f, mo) => m.set n (vadd (force n) f, vadd (moment n) mo)

/-- The loop over the forces (AsterWriter.cpp 1994-2010). The set of the positions of a force (`nodePositions`,
Loading.cpp 132-134) has each of them once; its order does not matter. -/
def sumForces (e : MeshEnv) : List Load → Map Nat (V3 × V3) → Outcome (Map Nat (V3 × V3))
  | [], m => .ok m
  | .nodal nodes force moment :: ls, m => do
    let ns ← nodes.nodesIncluding e
    sumForces e ls (ns.dedup.foldl (addForce force moment) m)
  | _ :: ls, m => sumForces e ls m

/-- The components of a force and a moment (AsterWriter.cpp 2016-2027, 2136-2147; `is_equal` with 0 is `is_zero`,
`isEqual_zero_right`). -/
def components (f m : V3) : List (String × Dbl) :=
  (if !isZero f.x then [("FX", f.x)] else []) ++ (if !isZero f.y then [("FY", f.y)] else []) ++
  (if !isZero f.z then [("FZ", f.z)] else []) ++ (if !isZero m.x then [("MX", m.x)] else []) ++
  (if !isZero m.y then [("MY", m.y)] else []) ++ (if !isZero m.z then [("MZ", m.z)] else [])

/-- `writeNodalForce` (AsterWriter.cpp 1989-2032). -/
def writeNodalForce (e : MeshEnv) (ls : List Load) : Outcome (List Kw) := do
  let m ← sumForces e ls []
  .ok (m.map fun p => .forceNodale (medName 'N' p.1) (components p.2.1 p.2.2))

/-- `writeForceSurface` (AsterWriter.cpp 2121-2150). -/
def writeForceSurface (e : MeshEnv) : Load → Option (Outcome Kw)
  | .surface f m cells => some (do
    let place ← writeCellContainer e false cells
    .ok (.forceFace place (components f m)))
  | _ => none

/-- `appliedToGeometry` (Loading.cpp 530-565) with what is known so far: `none` before the first element. -/
def appliedToGeometry : Option Bool → List (Option Bool) → Bool
  | onBeam, [] => !(onBeam == some true)
  | onBeam, none :: es => appliedToGeometry onBeam es
  | onBeam, some beam :: es =>
    if beam then
      if onBeam == some false then true else appliedToGeometry (some true) es
    else
      if onBeam == some true then false else appliedToGeometry (some false) es

/-- The component of a force on a line (AsterWriter.cpp 2083-2107). -/
def lineComponent : Dof → String
  | .DX => "FX" | .DY => "FY" | .DZ => "FZ" | .RX => "MX" | .RY => "MY" | .RZ => "MZ"

/-- The name of the value (AsterWriter.cpp 2109): a constant has been given an empty one. -/
def lineName : LineValue → String
  | .function name => name
  | .constant _ => ""

/-- `writeForceLine` (AsterWriter.cpp 2067-2120): forces on geometry are left out with a warning. -/
def writeForceLine (e : MeshEnv) : Load → Option (Outcome Kw)
  | .line dof value elements cells =>
    if appliedToGeometry none elements then none
    else some (do
      let place ← writeCellContainer e false cells
      .ok (.forcePoutre (lineComponent dof) (lineName value) place))
  | _ => none

/-- `writeGravity` (AsterWriter.cpp 1951-1967, `normalized` Value.cpp 204-208): the division of 0 by a length 0 is not a
number. -/
def writeGravity : Load → Option (Outcome Kw)
  | .gravity a norm =>
    some (.ok (.pesanteur norm (if norm = 0 then none else some ⟨a.x / norm, a.y / norm, a.z / norm⟩)))
  | _ => none

/-- `writeRotation` (AsterWriter.cpp 1969-1987). -/
def writeRotation : Load → Option (Outcome Kw)
  | .rotation speed axis center => some (.ok (.rotation speed axis center))
  | _ => none

/-- The keywords of a command (AsterWriter.cpp 1519-1526). -/
def writeKeywords (e : MeshEnv) (ls : List Load) : Outcome (List Kw) := do
  let a ← writeEach (writeSpcd e) ls
  let b ← writeEach (writePression e) ls
  let c ← writeEach (writeForceCoque e) ls
  let d ← writeNodalForce e ls
  let f ← writeEach (writeForceSurface e) ls
  let g ← writeEach (writeForceLine e) ls
  let h ← writeEach writeGravity ls
  let i ← writeEach writeRotation ls
  .ok (a ++ (b ++ (c ++ (d ++ (f ++ (g ++ (h ++ i)))))))

/-- A load of type `INITIAL_TEMPERATURE`. -/
def Load.isTemperature : Load → Bool
  | .temperature => true
  | _ => false

/-- The command written for a set of loads (AsterWriter.cpp 1488-1530): `none` when there is none; whether it is
`AFFE_CHAR_MECA_F`; `dload`: sets of type `DLOAD`. -/
def writeLoadSet (e : MeshEnv) (dload : Bool) (ls : List Load) : Outcome (Option (Bool × List Kw)) :=
  if dload then .ok none
  else if ls.isEmpty then .ok none
  else if ls.length = (ls.filter Load.isTemperature).length then .ok none
  else do
    let kws ← writeKeywords e ls
    .ok (some (ls.any Load.hasFunctions, kws))

end Aster
end Vega
