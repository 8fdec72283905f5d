import Verif.Map
import Verif.Mesh.Bars
import Verif.NastranWrite.Line
import Mathlib.Analysis.Real.Pi.Bounds

/-!
# Rods: the cards `CROD` (`Nastran/NastranParser_geometry.cpp` 525-532), `PROD` and `CONROD` (`Nastran/NastranParser.cpp`
3001-3021, 1156-1176)

How they are written for Code_Aster (`Aster/AsterWriter.cpp` 1232-1255, 1376-1439, `Aster/AsterModel.cpp` 167-190) and for
Nastran (`Nastran/NastranWriter.cpp` 245-367, 790-800). The records of Systus are those of `Verif.Systus.Materials`.
-/
namespace Vega
namespace Rods
open Nastran

/-- What is kept of the section of a rod (`GenericSectionBeam` with `BeamModel::TRUSS`, Element.cpp 316-325): area, torsional
constant, mass per length; `round` for the moments of inertia of a circle, otherwise they are zero; the shear factors. -/
structure Sect where
  material : Int
  area : Dbl
  j : Dbl
  nsm : Dbl
  round : Bool
  shear : Dbl
  deriving DecidableEq

/-- What a card adds to the model. The two ends of a rod are in the order of the card. -/
inductive Entry where
  | rod (id property a b : Int)
  | prop (id : Int) (s : Sect)
  | conrod (id a b : Int) (s : Sect)
  deriving DecidableEq

/-- The warnings: "Stress coefficient (C) not supported and dismissed" (NastranParser.cpp 1165, 3009) and "Non Structural mass (NSM)
not supported and dismissed" (3012). They stop nothing. -/
inductive Warning where
  | stress | mass
  deriving DecidableEq

inductive Keyword where
  | crod | prod | conrod
  deriving DecidableEq

/-- `parseCROD` (NastranParser_geometry.cpp 525-532). -/
def parseCROD (c : Cursor) : Outcome ((Entry × List Warning) × Cursor) := do
  let (id, c) ← nextInt none c
  let (property, c) ← nextInt (some id) c
  let (a, c) ← nextInt none c
  let (b, c) ← nextInt none c
  .ok ((.rod id property a b, []), c)

/-- `parsePROD` (NastranParser.cpp 3001-3021). -/
def parsePROD (c : Cursor) : Outcome ((Entry × List Warning) × Cursor) := do
  let (id, c) ← nextInt none c
  let (mid, c) ← nextInt none c
  let (a, c) ← nextDouble none c
  let (j, c) ← nextDouble (some 0) c
  let (stress, c) ← nextDouble (some 0) c
  let (nsm, c) ← nextDouble (some 0) c
  let w1 := if isEqual stress 0 then [] else [Warning.stress]
  let w2 := if isEqual nsm 0 then [] else [Warning.mass]
  .ok ((.prop id ⟨mid, a, j, nsm, true, 1⟩, w1 ++ w2), c)

/-- `parseCONROD` (NastranParser.cpp 1156-1176). -/
def parseCONROD (c : Cursor) : Outcome ((Entry × List Warning) × Cursor) := do
  let (id, c) ← nextInt none c
  let (g1, c) ← nextInt none c
  let (g2, c) ← nextInt none c
  let (mid, c) ← nextInt none c
  let (a, c) ← nextDouble none c
  let (j, c) ← nextDouble (some 0) c
  let (stress, c) ← nextDouble (some 0) c
  let (nsm, c) ← nextDouble (some 0) c
  .ok ((.conrod id g1 g2 ⟨mid, a, j, nsm, false, 0⟩, if isEqual stress 0 then [] else [Warning.stress]), c)

/-- The commands of the keywords (NastranParser.cpp 69, 82, 131). -/
def command : Keyword → Cursor → Outcome ((Entry × List Warning) × Cursor)
  | .crod => parseCROD
  | .prod => parsePROD
  | .conrod => parseCONROD

structure Card where
  keyword : Keyword
  fields : List Line

def read (c : Card) : Outcome (Entry × List Warning) := Bars.runCard (command c.keyword) c.fields

/-- The element sets and the groups of cells: a group by its number (`findGroup`), and the sets that name it; the sets with a group
of their own. -/
structure Store where
  groups : Map Int (List Int)
  props : List (Int × Sect)
  own : List (Int × Sect)

def Store.init : Store := ⟨[], [], []⟩

/-- The group with this number, created when it is missing (`addProperty`, NastranParser_geometry.cpp 112-123;
`getOrCreateCellGroup`, 125-132). -/
def Store.group (st : Store) (n : Int) : List Int := (Map.find st.groups n).getD []

/-- What a card does to them (NastranParser_geometry.cpp 531; NastranParser.cpp 1169-1175, 3015-3020). The file is taken to have rods
only. -/
def Store.add (st : Store) : Entry → Store
  | .rod id property _ _ => { st with groups := Map.set st.groups property (st.group property ++ [id]) }
  | .prop id s => { st with groups := Map.set st.groups id (st.group id), props := st.props ++ [(id, s)] }
  | .conrod id _ _ s => { st with own := st.own ++ [(id, s)] }

def Store.all (es : List Entry) : Store := es.foldl Store.add .init

/-- The sections of the sets that have the cell (`getCellPositionsIncludingGroups`). -/
def Store.sections (st : Store) (cell : Int) : List Sect :=
  ((st.props.filter fun p => (st.group p.1).contains cell) ++ st.own.filter fun p => p.1 = cell).map Prod.snd

/-- `getAdditionalRho` (Element.h 163-165); `DBL_MIN` is 2^-1022. -/
def Sect.addRho (s : Sect) : Dbl := s.nsm / max s.area (1 / 2 ^ 1022)

/-- The moments of inertia (NastranParser.cpp 1169, 3014-3015). -/
noncomputable def Sect.bending (s : Sect) : ℝ := if s.round then (s.area : ℝ) ^ 2 / 4 / Real.pi else 0

/-- `numeric_limits<double>::epsilon()`. -/
noncomputable def epsilon : ℝ := 1 / 2 ^ 52

/-- The elements of Code_Aster and their section: `BARRE` with `CARA=('A')`, or `POU_D_T_GD` with
`CARA=('A','IY','IZ','JX','AY','AZ')`. -/
inductive AsterRod where
  | barre (a : ℝ)
  | pouDTGD (a iy iz jx ay az : ℝ)

/-- `getModelisations` (AsterModel.cpp 167-190) and `writeAffeCaraElemPoutre` (AsterWriter.cpp 1408-1436; called from 1241-1245 with
large displacements and from 1249-1255 without). -/
noncomputable def writeAster (large : Bool) (s : Sect) : AsterRod :=
  if large then
    .pouDTGD (max epsilon (s.area : ℝ)) (max epsilon s.bending) (max epsilon s.bending) (max epsilon (s.j : ℝ))
      (if isZero s.shear then 0 else (s.shear : ℝ)) (if isZero s.shear then 0 else (s.shear : ℝ))
  else .barre (max epsilon (s.area : ℝ))

open NastranWrite in
/-- The line for the cell of a rod (NastranWriter.cpp 253, 345-364): no branch gives it a keyword. -/
def cellCard (id property a b : Int) : Text × List Arg := ([], [.int id, .int property, .int a, .int b])

open NastranWrite in
/-- A piece of text without end of line comes before what is written next. -/
def glue (t : Text) : List Text → List Text
  | [] => [t]
  | l :: ls => (t ++ l) :: ls

open NastranWrite in
/-- The loop over the rods (NastranWriter.cpp 792-800), with the lines written afterwards: the card `prod` is prepared, but what is
written is the pointer `truss`, that is its address, without an end of line. -/
def writeProps : List (Text × Sect) → List Text → List Text
  | [], next => next
  | (address, _) :: rods, next => glue address (writeProps rods next)

end Rods
end Vega
