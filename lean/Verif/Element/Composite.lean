import Mathlib.Algebra.Order.Floor.Defs
import Mathlib.Algebra.Order.Floor.Ring
import Mathlib.Data.Rat.Floor
import Verif.Map
import Verif.Element.Elastic

/-! # Composites: `Abstract/Element.cpp` 396-432, the `PCOMP` card (`Nastran/NastranParser.cpp`
2537-2619), `Model::splitElementsByCellOffsets` (`Abstract/Model.cpp` 2126-2182) and
`Model::replaceIsotropicMaterialsInComposites` (`Abstract/Model.cpp` 2184-2215) -/
namespace Vega

/-- `CompositeLayer` (Element.h 316-335); the material by its number. -/
structure Ply where
  mat : Int
  thickness : Dbl
  orientation : Dbl
deriving DecidableEq

/-- `Composite::LaminateOption` (Element.h 351-359). -/
inductive Laminate
  | sym | hcs | fcs | acs | sme | smc | full
deriving DecidableEq

/-- `Composite` (Element.h 337-380) without its cells and failure theory. -/
structure Composite where
  layers : List Ply
  option : Laminate
  offset : Dbl

namespace Composite

/-- `getFullLayers` (Element.cpp 411-432). -/
def getFullLayers (c : Composite) : Outcome (List Ply) :=
  match c.option with
  | .full => .ok c.layers
  | .sym => .ok (c.layers ++ c.layers.reverse)
  | _ => .throw

/-- The loop of `getTotalThickness` (Element.cpp 404-407). -/
def addThicknesses (total : Dbl) : List Ply → Dbl
  | [] => total
  | p :: ps => addThicknesses (total + p.thickness) ps

/-- `getTotalThickness` (Element.cpp 403-409). -/
def getTotalThickness (c : Composite) : Outcome Dbl := do
  let ps ← c.getFullLayers
  .ok (addThicknesses 0 ps)

/-- The four fields of a ply on a `PCOMP` card; `none` for a blank. -/
structure PlyFields where
  mid : Option Int
  t : Option Dbl
  theta : Option Dbl
  sout : Bool

/-- `tok.isNextEmpty(4)`. -/
def PlyFields.empty (p : PlyFields) : Bool :=
  p.mid.isNone && p.t.isNone && p.theta.isNone && !p.sout

/-- The fields of a `PCOMP` card from `Z0` on. The first ply must give its material and its
thickness. -/
structure PcompCard where
  z0 : Option Dbl
  nsmZero : Bool
  ft : String
  otherBlank : Bool
  lam : String
  mid1 : Int
  t1 : Dbl
  theta1 : Option Dbl
  plies : List PlyFields

/-- The failure theories accepted by `parsePCOMP` (NastranParser.cpp 2547-2569). -/
def failureTheories : List String :=
  ["", "HILL", "HOFF", "TSAI", "STRESS", "STRAIN", "STRN", "LARC02", "PUCK", "MCT"]

/-- The laminate option of `parsePCOMP` (NastranParser.cpp 2575-2593); the last five tests look at
the failure theory. -/
def laminate (lam ft : String) : Outcome Laminate :=
  if lam = "" then .ok .full
  else if lam = "SYM" then .ok .sym
  else if ft = "HCS" then .ok .hcs
  else if ft = "FCS" then .ok .fcs
  else if ft = "ACS" then .ok .acs
  else if ft = "SME" then .ok .sme
  else if ft = "SMC" then .ok .smc
  else .throw

/-- The loop over the further plies of `parsePCOMP` (NastranParser.cpp 2604-2611). -/
def furtherPlies (mid1 : Int) (t1 theta1 : Dbl) : List PlyFields → List Ply
  | [] => []
  | p :: ps =>
    if p.empty then []
    else ⟨p.mid.getD mid1, p.t.getD t1, p.theta.getD theta1⟩ :: furtherPlies mid1 t1 theta1 ps

/-- The offset set at the end of `parsePCOMP` (NastranParser.cpp 2612-2616), with the blank of `Z0`
as `none`. -/
def offsetOf (z0 : Option Dbl) (c : Composite) : Outcome Dbl :=
  match z0 with
  | none => do
    let t ← c.getTotalThickness
    .ok (t / 2)
  | some z => .ok z

/-- `parsePCOMP` (NastranParser.cpp 2537-2619); `handleParsingError` throws in all modes. -/
def pcomp (k : PcompCard) : Outcome Composite :=
  if !k.nsmZero then .throw
  else if k.ft ∉ failureTheories then .throw
  else if !k.otherBlank then .throw
  else do
    let o ← laminate k.lam k.ft
    let layers := ⟨k.mid1, k.t1, k.theta1.getD 0⟩ ::
      furtherPlies k.mid1 k.t1 (k.theta1.getD 0) k.plies
    let off ← offsetOf k.z0 ⟨layers, o, 0⟩
    .ok ⟨layers, o, off⟩

end Composite

/-! ## splitting by the offsets of the cells -/

/-- A `Shell` or `Composite` element set: everything a clone shares with its original (`α`: the
thickness and the material, or the layers), the offset and the cells with their own offset. -/
structure OffsetPart (α : Type) where
  data : α
  offset : Dbl
  cells : List (Nat × Dbl)

namespace OffsetPart
variable {α : Type}

/-- `containsNonzeroOffsetCell` (Element.cpp 363-368, 434-439). -/
def containsNonzeroOffsetCell (p : OffsetPart α) : Bool := p.cells.any fun c => !isZero c.2

/-- `lround(pow(offset, 6))` (Model.cpp 2137); what `lround` gives for a value that is not a `long`
is not represented. -/
def key (x : Dbl) : Int := ⌊x ^ 6 + 1 / 2⌋

/-- The loop variables: `cellPositionsByRoundedOffset` (to indices of the next) and
`elementSetsToAdd`. -/
structure SplitState (α : Type) where
  byKey : Map Int Nat
  added : List (OffsetPart α)

/-- `it->second->add(cell)` (Model.cpp 2148). -/
def addCell (c : Nat × Dbl) (p : OffsetPart α) : OffsetPart α := { p with cells := p.cells ++ [c] }

/-- The body of the loop over the cells (Model.cpp 2137-2149, 2160-2172). -/
def splitCell (p : OffsetPart α) (s : SplitState α) (c : Nat × Dbl) : SplitState α :=
  match s.byKey.find (key c.2) with
  | none =>
    ⟨s.byKey.set (key c.2) s.added.length, s.added ++ [⟨p.data, p.offset + c.2, [c]⟩]⟩
  | some i => ⟨s.byKey, s.added.modify i (addCell c)⟩

/-- The body of the loop over the element sets (Model.cpp 2131-2151). -/
def splitPart (s : SplitState α) (p : OffsetPart α) : SplitState α :=
  if !p.containsNonzeroOffsetCell then s else p.cells.foldl (splitCell p) s

/-- One of the two halves of `splitElementsByCellOffsets` (Model.cpp 2126-2182): the element sets of
one type, before and after. -/
def split (ps : List (OffsetPart α)) : List (OffsetPart α) :=
  ps.filter (fun p => !p.containsNonzeroOffsetCell) ++ (ps.foldl splitPart ⟨[], []⟩).added

end OffsetPart

/-! ## replacing isotropic materials -/

/-- `OrthotropicNature` (Material.cpp 161-197), the constants used here. -/
structure Ortho where
  eL : Dbl
  eT : Dbl
  nuLT : Option Dbl
  gLT : Option Dbl
  gTN : Option Dbl
  gLN : Option Dbl
  rho : Dbl
  alphaL : Dbl
  alphaT : Dbl

/-- `OrthotropicNature::getRho` (Material.cpp 223-230). -/
def Ortho.getRho (multiplier : Option Dbl) (m : Ortho) : Dbl :=
  match multiplier with
  | none => if Elastic.blank m.rho then 0 else m.rho * 1
  | some k => if Elastic.blank m.rho then 0 else m.rho * k

/-- `Material` with the two natures that matter here. -/
structure Mat where
  elastic : Option Elastic
  ortho : Option Ortho

namespace Replace

/-- The orthotropic nature built from an elastic one (Model.cpp 2200-2207). The expansion
coefficients keep the default of the constructor. -/
def toOrtho (multiplier : Option Dbl) (e : Elastic) : Ortho :=
  ⟨e.getE, e.getE, e.getNu, e.getG, e.getG, e.getG, e.getRho multiplier, unavailable, unavailable⟩

/-- The materials of the model, the number the next one receives, and `replacedMaterials`. -/
structure State where
  mats : Map Int Mat
  next : Int
  replaced : Map Int Int

/-- The body of the loop over the layers (Model.cpp 2188-2213). -/
def layer (multiplier : Option Dbl) (s : State) (p : Ply) : Outcome (State × Ply) :=
  match s.mats.find p.mat with
  | none => .throw
  | some m =>
    match s.replaced.find p.mat with
    | some r => .ok (s, { p with mat := r })
    | none =>
      match m.ortho with
      | some _ => .ok (s, p)
      | none =>
        match m.elastic with
        | none => .ub
        | some e =>
          .ok (⟨s.mats.set s.next ⟨none, some (toOrtho multiplier e)⟩, s.next + 1,
            s.replaced.set p.mat s.next⟩, { p with mat := s.next })

/-- The loop over the layers (Model.cpp 2188-2214), for all composites one after the other; layers
shared by two composites are not represented. -/
def layers (multiplier : Option Dbl) (s : State) : List Ply → Outcome (State × List Ply)
  | [] => .ok (s, [])
  | p :: ps => do
    let (s, p) ← layer multiplier s p
    let (s, ps) ← layers multiplier s ps
    .ok (s, p :: ps)

end Replace
end Vega
