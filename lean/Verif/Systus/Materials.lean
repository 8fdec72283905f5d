import Verif.Map
import Verif.Num
import Verif.Basic
import Verif.Dof.Model

/-! # Materials of Systus: `Systus/SystusWriter.cpp` 50-57, 97-116, 266-342, 1948-2245, 2247-2307 -/
namespace Vega
namespace SystusMat

/-- The fields that are used of `SMF` (SystusWriter.h 36-59). -/
inductive Smf where
  | id | rho | e | nu | s | ay | az | ix | iy | iz | h | table | kx | ky | kz | alpha | coef | shape | mid | depend | level | type
  deriving DecidableEq

/-- A material: `map<SMF, string>`. The texts are represented by their numbers. -/
abbrev Mat := Map Smf Dbl

/-- `fillMaterialField` (SystusWriter.cpp 282-321, and 323-342 for integers). -/
def fill (k : Smf) (v : Dbl) (m : Mat) : Mat :=
  match k with
  | .rho | .e | .nu => if 0 < v then m.set k v else m
  | .alpha | .ay | .az => if isEqual v unavailable then m else m.set k v
  | _ => m.set k v

/-- `fillDOFSMaterialField` (SystusWriter.cpp 266-279). -/
def fillDofs (d : Dofs) (m : Mat) : Mat :=
  let m := if d.contains .DX then fill .kx 1 m else m
  let m := if d.contains .DY then fill .ky 1 m else m
  let m := if d.contains .DZ then fill .kz 1 m else m
  let m := if d.contains .RX then fill .ix 1 m else m
  let m := if d.contains .RY then fill .iy 1 m else m
  if d.contains .RZ then fill .iz 1 m else m

/-- `DOFSToInt` (SystusWriter.cpp 101-116). -/
def dofsToInt (d : Dofs) : Nat :=
  (if d.contains .DX then 1 else 0) + (if d.contains .DY then 2 else 0) + (if d.contains .DZ then 4 else 0) +
    (if d.contains .RX then 8 else 0) + (if d.contains .RY then 16 else 0) + (if d.contains .RZ then 32 else 0)

/-- `DOFtoSMF` (SystusWriter.cpp 50-57). -/
def smfOf : Dof → Smf
  | .RX => .ix
  | .RY => .iy
  | .RZ => .iz
  | .DX => .kx
  | .DY => .ky
  | .DZ => .kz

/-- What `getRho`, `getE`, `getNu` and `getGE` of the elastic nature say. `ge` is `none` for `UNAVAILABLE_DOUBLE`. -/
structure Elastic where
  rho : Dbl
  e : Dbl
  nu : Dbl
  ge : Option Dbl

/-- What the member functions of a beam say; `fy` and `fz` are `getShearAreaFactorY`, `Z`. -/
structure Beam where
  truss : Bool
  area : Dbl
  fy : Dbl
  fz : Dbl
  torsion : Dbl
  iy : Dbl
  iz : Dbl

/-- The types of element sets with an elastic material (SystusWriter.cpp 1984-2055): beams that are not rectangular,
rectangular ones, shells, volumes and skins, others. -/
inductive Part where
  | beam (b : Beam)
  | rectangular (b : Beam)
  | shell (thickness : Dbl)
  | solid
  | other

/-- The types of element sets with a rigid material (SystusWriter.cpp 2062-2118). -/
inductive RigidPart where
  | rbar
  | rbe3 (mdofs sdofs : Dofs)
  | lmpc (analysis : Int)
  | other

/-- What the function distinguishes of an element set (SystusWriter.cpp 1974-2234). -/
inductive Content where
  | elastic (m : Elastic) (p : Part)
  | rigid (lagrangian rigidity : Dbl) (p : RigidPart)
  | unnatural
  | segment (stiffness : Dof → Dof → Dbl)
  | spring (dofs : List (Dof × Dof)) (stiffness damping : Dbl)
  | matrix
  | skin
  | mass
  | other

/-- An element set. -/
structure ESet where
  id : Nat
  effective : Bool
  content : Content

/-- What the function finds in members and options: the mode of RBE2, whether matrices are put in files, the analyses of the file,
the tables and reduction numbers of element sets. -/
structure Config where
  lagrangian : Bool
  file : Bool
  analyses : List Int
  tables : Map Nat Int
  reductions : Map Nat Nat

/-- What comes of an element set: `continue`, `isValid=false`, the common material of skins, or a new material. -/
inductive Result where
  | skip
  | invalid
  | skin
  | valid (m : Mat)

/-- The fields of beams that are not trusses (SystusWriter.cpp 1994-1999, 2010-2015, 2026-2031). -/
def bending (b : Beam) (m : Mat) : Mat :=
  fill .iz b.iz (fill .iy b.iy (fill .ix b.torsion (fill .az (b.area * b.fz) (fill .ay (b.area * b.fy) m))))

/-- The fields of a section (SystusWriter.cpp 1984-2055). A warning tells of the offset of a shell (2040-2042) and of other types (2053). -/
def part : Part → Mat → Mat
  | .beam b, m => let m := fill .s b.area m
    if b.truss then m else bending b m
  | .rectangular b, m => if b.truss then m else bending b (fill .s b.area m)
  | .shell t, m => fill .h t m
  | .solid, m => m
  | .other, m => m

/-- `fillMaterialField(SMF::ALPHA, 2*getGE(), ..)` (SystusWriter.cpp 1982). If the number is not given, twice it overflows, and
`is_equal` finds minus infinity equal to `-DBL_MAX` (both sides of its comparison are infinite): nothing is put. -/
def fillAlpha (ge : Option Dbl) (m : Mat) : Mat :=
  match ge with
  | some g => fill .alpha (2 * g) m
  | none => m

/-- The material of an elastic element set (SystusWriter.cpp 1979-2055). -/
def elastic (x : Elastic) (p : Part) (m : Mat) : Mat :=
  part p (fillAlpha x.ge (fill .nu x.nu (fill .e x.e (fill .rho x.rho m))))

/-- The fields that depend on the mode of RBE2 (SystusWriter.cpp 2067-2073, 2102-2108). -/
def rigidMode (c : Config) (lagrangian rigidity : Dbl) (m : Mat) : Mat :=
  if c.lagrangian then fill .e lagrangian (fill .shape 19 m) else fill .e rigidity (fill .shape 9 m)

/-- The material of a rigid element set (SystusWriter.cpp 2060-2118). -/
def rigid (c : Config) (id : Nat) (lagrangian rigidity : Dbl) (p : RigidPart) (m : Mat) : Result :=
  match p with
  | .rbar => .valid (rigidMode c lagrangian rigidity (fill .type 9 (fill .level 1 m)))
  | .rbe3 mdofs sdofs =>
    .valid (fill .depend (dofsToInt sdofs) (fill .coef lagrangian (fillDofs mdofs (fill .level 3 (fill .shape 19 m)))))
  | .lmpc a =>
    if c.analyses.contains a then
      match c.tables.find id with
      | none => .valid m
      | some t => .valid (fill .level 0 (rigidMode c lagrangian rigidity (fill .table t m)))
    else .skip
  | .other => .valid m

/-- The fields of a matrix in a table or file (SystusWriter.cpp 2171-2184, 2194-2207). -/
def reference (c : Config) (id : Nat) (m : Mat) : Mat :=
  match c.tables.find id with
  | none => m
  | some t =>
    let m := fill .table t m
    if c.file then
      match c.reductions.find id with
      | none => m
      | some r => fill .e r m
    else m

/-- The six fields of a segment (SystusWriter.cpp 2133-2138). -/
def segment (k : Dof → Dof → Dbl) (m : Mat) : Mat :=
  fill .kz (k .DZ .DZ) (fill .ky (k .DY .DY) (fill .kx (k .DX .DX) (fill .iz (k .RZ .RZ) (fill .iy (k .RY .RY) (fill .ix (k .RX .RX) m)))))

/-- What comes of an element set, for the number `n` of its material (SystusWriter.cpp 1964-2234). `dofsSpring[0]` (2162) does
not exist for a spring without directions. -/
def fields (c : Config) (s : ESet) (n : Nat) : Outcome Result :=
  let m : Mat := fill .mid n (fill .id n [])
  match s.content with
  | .elastic x p => .ok (.valid (elastic x p m))
  | .rigid l r p => .ok (rigid c s.id l r p m)
  | .unnatural => .ok .invalid
  | .segment k => .ok (.valid (segment k m))
  | .spring [] _ _ => .ub
  | .spring (p :: _) k _ => .ok (.valid (if p.1 = p.2 then fill (smfOf p.1) k m else reference c s.id m))
  | .matrix => .ok (.valid (reference c s.id m))
  | .skin => .ok .skin
  | .mass => .ok .invalid
  | .other => .ok .invalid

/-- `systusMaterial`, `materialIdByElementSetId` and `idSkinMaterial`. -/
structure State where
  materials : List Mat
  ids : Map Nat Nat
  skin : Option Nat

/-- One round of the loop (SystusWriter.cpp 1958-2243). -/
def step (c : Config) (st : State) (s : ESet) : Outcome State :=
  if s.effective then do
    let n := st.materials.length + 1
    let r ← fields c s n
    match r with
    | .skip => .ok st
    | .invalid => .ok st
    | .valid m => .ok { st with materials := st.materials ++ [m], ids := st.ids.set s.id n }
    | .skin =>
      match st.skin with
      | none => .ok ⟨st.materials ++ [fill .mid n (fill .id n [])], st.ids.set s.id n, some n⟩
      | some k => .ok { st with ids := st.ids.set s.id k }
  else .ok st

/-- The loop (SystusWriter.cpp 1958-2243). -/
def run (c : Config) : List ESet → State → Outcome State
  | [], st => .ok st
  | s :: r, st => do
    let st ← step c st s
    run c r st

/-- `fillMaterial` (SystusWriter.cpp 1948-2245). `systusMaterial` has been cleared (2451), `materialIdByElementSetId` has not. -/
def fillMaterial (c : Config) (old : Map Nat Nat) (sets : List ESet) : Outcome State := run c sets ⟨[], old, none⟩

/-! ## Numbers of matrices in files -/

/-- The three kinds of matrices, each with a file. -/
inductive MKind where
  | damping | mass | stiffness
  deriving DecidableEq

/-- What is put in `tableByElementSet` for a matrix (SystusWriter.cpp 97-99, 2340, 2373, 2405). -/
def access : MKind → Int
  | .damping => -(41 * 10000)
  | .mass => -(42 * 100)
  | .stiffness => -43

/-- `dampingMatrices`, `massMatrices` and `stiffnessMatrices`, of which only the element set of each matrix is kept (the values
are those of C71), `tableByElementSet` and `seIdByElementSet`. -/
structure Files where
  damping : List Nat
  mass : List Nat
  stiffness : List Nat
  tables : Map Nat Int
  reductions : Map Nat Nat

/-- A spring: its number, `getDOFSSpring`, `hasStiffness` and `hasDamping`. -/
structure Spring where
  id : Nat
  dofs : List (Dof × Dof)
  hasStiffness : Bool
  hasDamping : Bool

/-- `if (ss->hasStiffness())` (SystusWriter.cpp 2275-2289). -/
def addStiffness (s : Spring) (f : Files) : Files :=
  if s.hasStiffness then
    { f with reductions := f.reductions.set s.id (f.stiffness.length + 1), stiffness := f.stiffness ++ [s.id] }
  else f

/-- `if (ss->hasDamping())` (SystusWriter.cpp 2290-2304). -/
def addDamping (s : Spring) (f : Files) : Files :=
  if s.hasDamping then
    { f with reductions := f.reductions.set s.id (f.damping.length + 1), damping := f.damping ++ [s.id] }
  else f

/-- `tId2` at the end (SystusWriter.cpp 2274, 2285, 2301). -/
def accessOf (s : Spring) : Int := (if s.hasStiffness then 43 else 0) + (if s.hasDamping then 41 * 10000 else 0)

/-- One round of the loop over springs (SystusWriter.cpp 2263-2307). `dofsSpring[0]` (2270) does not exist for a spring without
directions. -/
def springStep (f : Files) (s : Spring) : Outcome Files :=
  match s.dofs with
  | [] => .ub
  | p :: _ =>
    if p.1 = p.2 then .ok f
    else
      let f := addDamping s (addStiffness s f)
      .ok { f with tables := f.tables.set s.id (-accessOf s) }

/-- The loop over springs (SystusWriter.cpp 2263-2307). -/
def springs : List Spring → Files → Outcome Files
  | [], f => .ok f
  | s :: r, f => do
    let f ← springStep f s
    springs r f

/-- The end of a round of the loops over matrices (SystusWriter.cpp 2316, 2340-2342; 2349, 2373-2375; 2381, 2405-2407). -/
def matrixStep (k : MKind) (f : Files) (id : Nat) : Files :=
  match k with
  | .damping => { f with tables := f.tables.set id (access k), reductions := f.reductions.set id (f.damping.length + 1), damping := f.damping ++ [id] }
  | .mass => { f with tables := f.tables.set id (access k), reductions := f.reductions.set id (f.mass.length + 1), mass := f.mass ++ [id] }
  | .stiffness => { f with tables := f.tables.set id (access k), reductions := f.reductions.set id (f.stiffness.length + 1), stiffness := f.stiffness ++ [id] }

/-- `fillMatrices` in mode `file` (SystusWriter.cpp 2263-2410); `clear` has emptied what it fills (2441, 2445-2448). -/
def fillMatrices (ss : List Spring) (dampings masses stiffnesses : List Nat) : Outcome Files := do
  let f ← springs ss ⟨[], [], [], [], []⟩
  let f := dampings.foldl (matrixStep .damping) f
  let f := masses.foldl (matrixStep .mass) f
  .ok (stiffnesses.foldl (matrixStep .stiffness) f)

end SystusMat
end Vega
