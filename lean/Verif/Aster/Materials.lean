import Verif.Element.Elastic
import Verif.Mesh.Bars

/-!
# Materials: the cards MAT1, MAT8, MATHP and MATS1 (`Nastran/NastranParser.cpp` 1863-2024), the natures of a material
(`Abstract/Material.cpp` 38-300) and what is written of them for Code_Aster (`Aster/AsterWriter.cpp` 938-1084)

Strict mode: `handleParsingError` and `handleWritingError` throw. The warnings are left out. Numbers are exact, those that
are not finite in the program are `none` in what is written. The virtual material is in `Verif.Element.Virtual`, the layers
of composites are in `Verif.Element.Composite`.
-/
namespace Vega
namespace Materials
open Nastran

/-- `OrthotropicNature` (Material.h 100-160, Material.cpp 161-197), in the order of its constructor. -/
structure Ortho where
  eL : Dbl
  eT : Dbl
  nuLT : Dbl
  gLT : Dbl
  gTN : Dbl
  gLN : Dbl
  rho : Dbl
  alphaL : Dbl
  alphaT : Dbl
  alphaN : Dbl
  tempDefAlpha : Dbl
  xt : Dbl
  xc : Dbl
  yt : Dbl
  yc : Dbl
  slt : Dbl

/-- `OrthotropicNature::getRho` (Material.cpp 223-230); the parameter of the model, when there is one, is given as a
number. -/
def Ortho.getRho (multiplier : Option Dbl) (o : Ortho) : Dbl :=
  if Elastic.blank o.rho then 0 else o.rho * multiplier.getD 1

/-- `HyperElasticNature` (Material.cpp 283-285). -/
structure Hyper where
  c10 : Dbl
  c01 : Dbl
  c20 : Dbl
  k : Dbl
  rho : Dbl

/-- The natures of the cards (Material.cpp 103-300). An elastic nature is `none` when one of its constants is not a finite
number; its last component is `ge`. -/
inductive Nature where
  | elastic (m : Option Elastic) (ge : Dbl)
  | hyperelastic (h : Hyper)
  | orthotropic (o : Ortho)
  | bilinear (limit slope : Dbl)
  | nonlinear (table : Int)

/-- `Nature::NatureType` (Material.h 45-53), those of the cards. -/
inductive NatureType where
  | elastic | hyperelastic | orthotropic | bilinear | nonlinear
  deriving DecidableEq

def Nature.type : Nature → NatureType
  | .elastic .. => .elastic
  | .hyperelastic _ => .hyperelastic
  | .orthotropic _ => .orthotropic
  | .bilinear .. => .bilinear
  | .nonlinear _ => .nonlinear

/-- A material: its original number and its natures. -/
structure Material where
  number : Int
  natures : List Nature

/-- `Material::findNature` (Material.cpp 57-63). -/
def Material.findNature (m : Material) (t : NatureType) : Option Nature := m.natures.find? (·.type = t)

/-- `Material::addNature` (Material.cpp 50-55). -/
def Material.addNature (m : Material) (n : Nature) : Outcome Material :=
  match m.findNature n.type with
  | some _ => .throw
  | none => .ok { m with natures := m.natures ++ [n] }

/-- `parseMAT1` (NastranParser.cpp 1863-1926). -/
def parseMAT1 (c : Cursor) : Outcome ((Int × Nature) × Cursor) := do
  let (id, c) ← nextInt none c
  let (e, c) ← nextDouble (some unavailable) c
  let (g, c) ← nextDouble (some unavailable) c
  let (nu, c) ← nextDouble (some unavailable) c
  let (rho, c) ← nextDouble (some unavailable) c
  let (a, c) ← nextDouble (some unavailable) c
  let (tref, c) ← nextDouble (some unavailable) c
  let (ge, c) ← nextDouble (some unavailable) c
  let (_, c) ← nextDouble (some unavailable) c
  let (_, c) ← nextDouble (some unavailable) c
  let (_, c) ← nextDouble (some unavailable) c
  let (_, c) ← nextInt (some 0) c
  let m ← Elastic.mat1 e nu g rho a tref
  .ok ((id, .elastic m ge), c)

/-- `parseMAT8` (NastranParser.cpp 1928-1948). -/
def parseMAT8 (c : Cursor) : Outcome ((Int × Nature) × Cursor) := do
  let (id, c) ← nextInt none c
  let (e1, c) ← nextDouble none c
  let (e2, c) ← nextDouble none c
  let (nu12, c) ← nextDouble none c
  let (g12, c) ← nextDouble none c
  let (g1Z, c) ← nextDouble (some unavailable) c
  let (g2Z, c) ← nextDouble (some unavailable) c
  let (rho, c) ← nextDouble (some unavailable) c
  let (a1, c) ← nextDouble (some unavailable) c
  let (a2, c) ← nextDouble (some unavailable) c
  let (tref, c) ← nextDouble (some unavailable) c
  let (xt, c) ← nextDouble (some unavailable) c
  let (xc, c) ← nextDouble (some unavailable) c
  let (yt, c) ← nextDouble (some unavailable) c
  let (yc, c) ← nextDouble (some unavailable) c
  let (s, c) ← nextDouble (some unavailable) c
  .ok ((id, .orthotropic ⟨e1, e2, nu12, g12, g2Z, g1Z, rho, a1, a2, unavailable, tref, xt, xc, yt, yc, s⟩), c)

/-- `parseMATHP` (NastranParser.cpp 1950-1974). -/
def parseMATHP (c : Cursor) : Outcome ((Int × Nature) × Cursor) := do
  let (id, c) ← nextInt none c
  let (a10, c) ← nextDouble (some 0) c
  let (a01, c) ← nextDouble (some 0) c
  let (d1, c) ← nextDouble (some (1000 * (a10 + a01))) c
  let (rho, c) ← nextDouble (some 0) c
  let (_, c) ← nextDouble (some 0) c
  let (_, c) ← nextDouble (some 0) c
  let (_, c) ← nextDouble (some 0) c
  let c ← skip 1 c
  let (na, c) ← nextInt (some 1) c
  if na > 3 then .throw
  else do
    let (nd, c) ← nextInt (some 1) c
    if nd > 1 then .throw
    else do
      let c ← skip 5 c
      let (a20, c) ← nextDouble (some 0) c
      .ok ((id, .hyperelastic ⟨a10, a01, a20, d1, rho⟩), c)

/-- `parseMATS1` (NastranParser.cpp 1976-2024). -/
def parseMATS1 (c : Cursor) : Outcome ((Int × Nature) × Cursor) := do
  let (id, c) ← nextInt none c
  let (tid, c) ← nextInt (some 0) c
  let (type, c) ← nextString none c
  let (h, c) ← nextDouble (some unavailable) c
  let (yf, c) ← nextInt (some 1) c
  let (hr, c) ← nextInt (some 1) c
  let (limit1, c) ← nextDouble (some unavailable) c
  let (limit2, c) ← nextDouble (some unavailable) c
  if type = "NLELAST".toList then .ok ((id, .nonlinear tid), c)
  else if type = "PLASTIC".toList then
    if tid = 0 then
      if Elastic.blank limit2 && hr = 1 && yf = 1 then .ok ((id, .bilinear limit1 h), c) else .throw
    else .throw
  else .throw

/-- The keywords of the cards of materials (NastranParser.cpp 1863-2024). -/
inductive Kind where
  | mat1 | mat8 | mathp | mats1
  deriving DecidableEq

/-- A card: its keyword and its fields, the keyword being the first. -/
structure Card where
  kind : Kind
  fields : List Line

def parse : Kind → Cursor → Outcome ((Int × Nature) × Cursor)
  | .mat1 => parseMAT1
  | .mat8 => parseMAT8
  | .mathp => parseMATHP
  | .mats1 => parseMATS1

/-- What a card says: a number and a nature. -/
def read (c : Card) : Outcome (Int × Nature) := Bars.runCard (parse c.kind) c.fields

/-- `getOrCreateMaterial` (Model.cpp 736-743) followed by `addNature`. The materials are in the order of their creation,
which is that of their identifiers. -/
def put (id : Int) (n : Nature) : List Material → Outcome (List Material)
  | [] => .ok [⟨id, [n]⟩]
  | m :: ms =>
    if m.number = id then do
      let m' ← m.addNature n
      .ok (m' :: ms)
    else do
      let ms' ← put id n ms
      .ok (m :: ms')

/-- One card. -/
def step (ms : List Material) (c : Card) : Outcome (List Material) := do
  let (id, n) ← read c
  put id n ms

/-- The cards one after the other. -/
def runFrom (ms : List Material) : List Card → Outcome (List Material)
  | [] => .ok ms
  | c :: cs => do
    let ms' ← step ms c
    runFrom ms' cs

def run (cs : List Card) : Outcome (List Material) := runFrom [] cs

/-- A factor keyword of `DEFI_MATERIAU`: its name and its simple keywords with their values; `none` is a number that is not
finite. -/
abbrev Block := String × List (String × Option Dbl)

/-- The parameters of the model that are used: `MASS_OVER_FORCE_MULTIPLIER`, `GLOBAL_RAYLEIGH_STIFFNESS_FACTOR` and
`GLOBAL_RAYLEIGH_MASS_FACTOR`, the last two being complex. -/
structure Params where
  multiplier : Option Dbl := none
  stiffness : Option (Dbl × Dbl) := none
  mass : Option (Dbl × Dbl) := none

/-- A Rayleigh factor (AsterWriter.cpp 955-963, 965-973). -/
def rayleigh (keyword : String) : Option (Dbl × Dbl) → Outcome (List (String × Option Dbl))
  | none => .ok []
  | some (re, im) =>
    if !isZero im then .throw else .ok (if isZero re then [] else [(keyword, some re)])

/-- A value written when it `is_defined` (Utility.h 75-77). -/
def whenDefined (keyword : String) (x : Dbl) : List (String × Option Dbl) :=
  if Elastic.blank x then [] else [(keyword, some x)]

/-- `ELAS` (AsterWriter.cpp 948-975). When a constant is not finite, which one is not described. -/
def elas (p : Params) (m : Option Elastic) (ge : Dbl) : Outcome Block := do
  let base := match m with
    | some m => [("E", some m.getE), ("NU", m.getNu), ("RHO", some (m.getRho p.multiplier))]
    | none => [("E", none), ("NU", none), ("RHO", none)]
  let a ← rayleigh "AMOR_ALPHA" p.stiffness
  let b ← rayleigh "AMOR_BETA" p.mass
  .ok ("ELAS", base ++ whenDefined "AMOR_HYST" ge ++ a ++ b)

/-- `ELAS_HYPER` (AsterWriter.cpp 980-986). -/
def elasHyper (h : Hyper) : Block :=
  ("ELAS_HYPER", [("C10", some h.c10), ("C01", some h.c01), ("C20", some h.c20), ("RHO", some h.rho), ("K", some h.k)])

/-- `ELAS_ORTH` (AsterWriter.cpp 991-1027). -/
def elasOrth (p : Params) (o : Ortho) : Block :=
  ("ELAS_ORTH", [("E_L", some o.eL), ("E_T", some o.eT), ("G_LT", some o.gLT)] ++
    whenDefined "G_TN" o.gTN ++ whenDefined "G_LN" o.gLN ++
    [("NU_LT", some o.nuLT), ("RHO", some (o.getRho p.multiplier))] ++
    whenDefined "XC" o.xc ++ whenDefined "XT" o.xt ++ whenDefined "YC" o.yc ++ whenDefined "S_LT" o.slt ++
    whenDefined "ALPHA_L" o.alphaL ++ whenDefined "ALPHA_T" o.alphaT ++ whenDefined "ALPHA_N" o.alphaN ++
    whenDefined "TEMP_DEF_ALPHA" o.tempDefAlpha)

/-- `ECRO_LINE` (AsterWriter.cpp 1032-1036). -/
def ecroLine (limit slope : Dbl) : Block := ("ECRO_LINE", [("D_SIGM_EPSI", some slope), ("SY", some limit)])

/-- The factor keywords of a nature; the nature is that found for its type. A nonlinear elastic nature is not asked for. -/
def blockOf (p : Params) : Nature → Outcome (List Block)
  | .elastic m ge => do
    let b ← elas p m ge
    .ok [b]
  | .hyperelastic h => .ok [elasHyper h]
  | .orthotropic o => .ok [elasOrth p o]
  | .bilinear limit slope => .ok [ecroLine limit slope]
  | .nonlinear _ => .ok []

/-- `if (nature)` (AsterWriter.cpp 946, 978, 989, 1030). -/
def blocksOf (p : Params) : Option Nature → Outcome (List Block)
  | none => .ok []
  | some n => blockOf p n

/-- `DEFI_MATERIAU` of a material (AsterWriter.cpp 944-1038): four types of natures are asked for. -/
def defi (p : Params) (m : Material) : Outcome (List Block) := do
  let e ← blocksOf p (m.findNature .elastic)
  let h ← blocksOf p (m.findNature .hyperelastic)
  let o ← blocksOf p (m.findNature .orthotropic)
  let b ← blocksOf p (m.findNature .bilinear)
  .ok (e ++ h ++ o ++ b)

/-- The orders `DEFI_MATERIAU` (AsterWriter.cpp 940-1040), each with the original number that its comment gives. -/
def orders (p : Params) : List Material → Outcome (List (Int × List Block))
  | [] => .ok []
  | m :: ms => do
    let b ← defi p m
    let bs ← orders p ms
    .ok ((m.number, b) :: bs)

/-- An element set that is no composite: whether it has cells and the numbers of its materials. -/
structure ElementSet where
  id : Int
  isEmpty : Bool
  materials : List Int

/-- The lines of one element set (AsterWriter.cpp 1065-1073, Element.cpp 96-104), which are in no fixed order: a number without material gives a null
pointer, whose identifier is then asked for. -/
def affectSet (ms : List Material) (id : Int) : List Int → Outcome (List (Int × Int))
  | [] => .ok []
  | n :: ns =>
    if ms.any (·.number = n) then do
      let rest ← affectSet ms id ns
      .ok ((n, id) :: rest)
    else .ub

/-- `AFFE_MATERIAU` (AsterWriter.cpp 1056-1083) without the composites: pairs of a material and an element set. -/
def affect (ms : List Material) : List ElementSet → Outcome (List (Int × Int))
  | [] => .ok []
  | s :: ss => do
    let a ← if ms.isEmpty || s.isEmpty then .ok [] else affectSet ms s.id s.materials
    let rest ← affect ms ss
    .ok (a ++ rest)

end Materials
end Vega
