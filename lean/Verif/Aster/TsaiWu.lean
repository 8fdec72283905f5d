import Mathlib.Analysis.SpecialFunctions.Trigonometric.Basic
import Verif.Aster.Materials
import Verif.Element.Composite
import Verif.Med.Families

/-!
# Failure of the plies of composites (`Aster/AsterWriter.cpp` 472-566, `Nastran/NastranParser.cpp` 2546-2568)

Numbers in the text of a formula are exact, and so is the number π: neither the rounding of doubles nor that of what is
printed is represented. A formula is the tree that its text stands for.
-/
namespace Vega
namespace Tsai
open Materials Med

/-- `Composite::PlyFailureTheory` (Element.h 340-350). -/
inductive Theory where
  | none | hill | hoffman | tsaiWu | maximumStress | maximumStrain | nasaLarc | puckPcp | multicontinuum
  deriving DecidableEq

/-- The failure theory of `parsePCOMP` (NastranParser.cpp 2546-2568); `handleParsingError` throws. -/
def theoryOf (ft : String) : Outcome Theory :=
  if ft = "" then .ok .none
  else if ft = "HILL" then .ok .hill
  else if ft = "HOFF" then .ok .hoffman
  else if ft = "TSAI" then .ok .tsaiWu
  else if ft = "STRESS" then .ok .maximumStress
  else if ft = "STRAIN" ∨ ft = "STRN" then .ok .maximumStrain
  else if ft = "LARC02" then .ok .nasaLarc
  else if ft = "PUCK" then .ok .puckPcp
  else if ft = "MCT" then .ok .multicontinuum
  else .throw

/-- The parameters of the formulas (`NOM_PARA`, AsterWriter.cpp 500, 507, 514, 538). -/
inductive Var where
  | SIXX | SIYY | SIXY | X1 | X2 | X3
  deriving DecidableEq

/-- The text between the quotes of `VALE`. -/
inductive Expr where
  | num (x : ℝ)
  | var (v : Var)
  | neg (a : Expr)
  | add (a b : Expr)
  | sub (a b : Expr)
  | mul (a b : Expr)
  | div (a b : Expr)
  | square (a : Expr)
  | cos (a : Expr)
  | sin (a : Expr)

/-- The names given to what the commands make (AsterWriter.cpp 490, 497, 504, 511, 518, 533, 542): the numbers are those of
the analysis, of the composite and of the layer. -/
inductive Name where
  | stress (composite layer : Nat)
  | locxx (layer : Nat)
  | locyy (layer : Nat)
  | locxy (layer : Nat)
  | local (analysis composite layer : Nat)
  | tsai (layer : Nat)
  | index (analysis composite layer : Nat)
  deriving DecidableEq

/-- The text of a name (AsterWriter.cpp 490, 497, 504, 511, 518, 533, 542). -/
def Name.text : Name → List Char
  | .stress c l => 'C' :: decimal c ++ 'L' :: decimal l
  | .locxx l => "locxx".toList ++ decimal l
  | .locyy l => "locyy".toList ++ decimal l
  | .locxy l => "locxy".toList ++ decimal l
  | .local a c l => 'r' :: decimal a ++ 'C' :: decimal c ++ 'L' :: decimal l
  | .tsai l => "TSAI".toList ++ decimal l
  | .index a c l => 'R' :: decimal a ++ 'C' :: decimal c ++ 'L' :: decimal l

/-- The commands. `cells` says of which composite the cells are named by `writeCellContainer`: its place among the composites
of the model, from 1 on.
* `extract`: `POST_CHAMP` with `EXTR_COQUE` from the result of the analysis (491-494);
* `formula`: `FORMULE` (498-500, 505-507, 512-514, 534-538);
* `compute`: `CALC_CHAMP` with `CHAM_UTIL`, from the stresses of a result or from its field `UT01_ELNO` (519-523, 543-547);
* `print`: `IMPR_RESU` of the field `UT01_ELNO` (527-531, 550-554). -/
inductive Cmd where
  | extract (name : Name) (cells layer : Nat)
  | formula (name : Name) (value : Expr) (params : List Var)
  | compute (name source : Name) (cells : Nat) (stresses : Bool) (formulas : List Name)
  | print (name : Name)

/-- `layer->getOrientation()*M_PI/180` after a minus sign (AsterWriter.cpp 498-514). -/
noncomputable def minus (θ : Dbl) : Expr := .neg (.num ((θ : ℝ) * Real.pi / 180))

/-- `locxx` (AsterWriter.cpp 498-500). -/
noncomputable def exprXX (θ : Dbl) : Expr :=
  .sub (.add (.mul (.var .SIXX) (.square (.cos (minus θ)))) (.mul (.var .SIYY) (.square (.sin (minus θ)))))
    (.mul (.mul (.mul (.var .SIXY) (.num 2)) (.cos (minus θ))) (.sin (minus θ)))

/-- `locyy` (AsterWriter.cpp 505-507). -/
noncomputable def exprYY (θ : Dbl) : Expr :=
  .add (.add (.mul (.var .SIXX) (.square (.sin (minus θ)))) (.mul (.var .SIYY) (.square (.cos (minus θ)))))
    (.mul (.mul (.mul (.var .SIXY) (.num 2)) (.cos (minus θ))) (.sin (minus θ)))

/-- `locxy` (AsterWriter.cpp 512-514). -/
noncomputable def exprXY (θ : Dbl) : Expr :=
  .add (.sub (.mul (.mul (.var .SIXX) (.sin (minus θ))) (.cos (minus θ)))
      (.mul (.mul (.var .SIYY) (.sin (minus θ))) (.cos (minus θ))))
    (.mul (.var .SIXY) (.sub (.square (.cos (minus θ))) (.square (.sin (minus θ)))))

/-- A number of the nature. -/
noncomputable def lit (x : Dbl) : Expr := .num (x : ℝ)

/-- `1/a-1/b`. -/
noncomputable def linear (a b : Dbl) : Expr := .sub (.div (.num 1) (lit a)) (.div (.num 1) (lit b))

/-- `TSAI` (AsterWriter.cpp 534-538). -/
noncomputable def exprTsai (o : Materials.Ortho) : Expr :=
  .add (.add (.add (.add
      (.mul (.var .X1) (linear o.xt o.xc))
      (.mul (.var .X2) (linear o.yt o.yc)))
      (.div (.square (.var .X1)) (.mul (lit o.xt) (lit o.xc))))
      (.div (.square (.var .X2)) (.mul (lit o.yt) (lit o.yc))))
      (.square (.div (.var .X3) (lit o.slt)))

/-- The commands of a layer (AsterWriter.cpp 489-558). -/
noncomputable def layerCmds (analysis composite layer : Nat) (θ : Dbl) (o : Materials.Ortho) : List Cmd :=
  let stress := Name.stress composite layer
  let local_ := Name.local analysis composite layer
  let index := Name.index analysis composite layer
  [.extract stress composite layer,
   .formula (.locxx layer) (exprXX θ) [.SIXX, .SIYY, .SIXY],
   .formula (.locyy layer) (exprYY θ) [.SIXX, .SIYY, .SIXY],
   .formula (.locxy layer) (exprXY θ) [.SIXX, .SIYY, .SIXY],
   .compute local_ stress composite true [.locxx layer, .locyy layer, .locxy layer],
   .print local_,
   .formula (.tsai layer) (exprTsai o) [.X1, .X2, .X3],
   .compute index local_ composite false [.tsai layer],
   .print index]

/-- What a layer adds to `destroyableConcepts` (AsterWriter.cpp 495, 502, 509, 516, 524, 540, 548). -/
def layerDestroyed (analysis composite layer : Nat) : List Name :=
  [.stress composite layer, .locxx layer, .locyy layer, .locxy layer, .local analysis composite layer, .tsai layer,
   .index analysis composite layer]

/-- A composite of the model. -/
structure Panel where
  theory : Theory
  plies : Composite

/-- `CompositeLayer::getMaterial` (Element.cpp 379-385). -/
def materialOf (ms : List Material) (p : Ply) : Outcome Material :=
  match ms.find? (·.number = p.mat) with
  | none => .throw
  | some m => .ok m

/-- The orthotropic nature of a material, if there is one (AsterWriter.cpp 478-483). -/
def orthoOf (m : Material) : Option Materials.Ortho :=
  match m.findNature .orthotropic with
  | some (.orthotropic o) => some o
  | _ => none

/-- The loop over the layers (AsterWriter.cpp 475-564): the commands and the names to destroy. `layer` is the variable
`layerNumber`, which counts the layers that are written. `strict`: `handleWritingError` throws (SolverInterfaces.cpp
190-203). -/
noncomputable def writeLayers (strict : Bool) (ms : List Material) (t : Theory) (analysis composite : Nat) :
    Nat → List Ply → Outcome (List Cmd × List Name)
  | _, [] => .ok ([], [])
  | layer, p :: ps => do
    let m ← materialOf ms p
    match orthoOf m, t with
    | none, _ => writeLayers strict ms t analysis composite layer ps
    | some _, .none => writeLayers strict ms t analysis composite layer ps
    | some o, .tsaiWu => do
      let (cmds, names) ← writeLayers strict ms t analysis composite (layer + 1) ps
      .ok (layerCmds analysis composite layer p.orientation o ++ cmds,
        layerDestroyed analysis composite layer ++ names)
    | some _, _ => if strict then .throw else writeLayers strict ms t analysis composite layer ps

/-- The loop over the composites for one analysis (AsterWriter.cpp 472-566). -/
noncomputable def writeFrom (strict : Bool) (ms : List Material) (analysis : Nat) :
    Nat → List Panel → Outcome (List Cmd × List Name)
  | _, [] => .ok ([], [])
  | composite, c :: cs => do
    let full ← c.plies.getFullLayers
    let (cmds, names) ← writeLayers strict ms c.theory analysis composite 1 full
    let (cmds', names') ← writeFrom strict ms analysis (composite + 1) cs
    .ok (cmds ++ cmds', names ++ names')

noncomputable def write (strict : Bool) (ms : List Material) (analysis : Nat) (cs : List Panel) :
    Outcome (List Cmd × List Name) := writeFrom strict ms analysis 1 cs

/-- The strengths of the nature that replaces an elastic one (Model.cpp 2199-2206): the defaults of the constructor
(Material.h 130-134); the other constants as in `Replace.toOrtho`. -/
def replacedStrengths (o : Materials.Ortho) : Materials.Ortho :=
  { o with xt := unavailable, xc := unavailable, yt := unavailable, yc := unavailable, slt := unavailable }

end Tsai
end Vega
