import Verif.Aster.Materials

/-! # The laws of behaviour of a nonlinear analysis for Code_Aster: the keyword `COMPORTEMENT` (`Aster/AsterWriter.cpp` 2532-2568)

Strict mode: `handleWritingError` throws. The cells are given by their numbers, those of groups included, in the place of the
names of groups and cells (`writeCellContainer`, AsterWriter.cpp 2181-2220). -/
namespace Vega
namespace Behaviour
open Materials

/-- What an element set is asked (Element.h 93-98, 169-177): `isBeam`, `isTruss`, or neither. -/
inductive Family where
  | beam | truss | other
  deriving DecidableEq

def Family.isBeam : Family → Bool
  | .beam => true
  | _ => false

def Family.isTruss : Family → Bool
  | .truss => true
  | _ => false

/-- An element set: its identifier, whether it is a `CellElementSet`, its cells, the original numbers of its materials. -/
structure Part where
  id : Int
  isCells : Bool
  cells : List Nat
  family : Family
  materials : List Int

/-- `effective` (Element.h 129-131) of a set of cells. The other sets have no materials (`assignMaterial` is a function of
`CellElementSet`, Element.h 132-133). -/
def Part.effective (p : Part) : Bool := !p.cells.isEmpty

/-- One occurrence of the keyword: the cells, `RELATION` and `DEFORMATION`. -/
structure Entry where
  part : Int
  cells : List Nat
  relation : String
  deformation : Option String
  deriving DecidableEq

/-- `needsLargeDisplacements` (Model.cpp 826-833): the parameter, when it is set, is an integer. -/
def needsLargeDisplacements (lgdisp : Option Int) : Bool :=
  let largeDisp := match lgdisp with
    | some v => v
    | none => 0
  largeDisp != 0

/-- The choice of the relation (AsterWriter.cpp 2542-2560). -/
def relationOf (lgdisp : Option Int) (p : Part) (m : Material) : String × Option String :=
  if (m.findNature .bilinear).isSome then ("VMIS_ISOT_LINE", none)
  else if (m.findNature .nonlinear).isSome then ("ELAS_VMIS_LINE", none)
  else if (m.findNature .hyperelastic).isSome then ("ELAS_HYPER", some "GROT_GDEP")
  else if needsLargeDisplacements lgdisp && (p.family.isBeam || p.family.isTruss) then ("ELAS_POUTRE_GR", some "GROT_GDEP")
  else ("ELAS", none)

/-- The loop over the materials of a set (AsterWriter.cpp 2534-2567): a number without material gives a null pointer, which is
used. -/
def entriesOf (lgdisp : Option Int) (ms : List Material) (p : Part) : List Int → Outcome (List Entry)
  | [] => .ok []
  | n :: ns =>
    if p.effective then
      if !p.isCells then .throw
      else match ms.find? (·.number = n) with
        | none => .ub
        | some m => do
          let r := relationOf lgdisp p m
          let rest ← entriesOf lgdisp ms p ns
          .ok (⟨p.id, p.cells, r.1, r.2⟩ :: rest)
    else entriesOf lgdisp ms p ns

/-- The loop over the element sets (AsterWriter.cpp 2533-2568). -/
def comportement (lgdisp : Option Int) (ms : List Material) : List Part → Outcome (List Entry)
  | [] => .ok []
  | p :: ps => do
    let a ← entriesOf lgdisp ms p p.materials
    let rest ← comportement lgdisp ms ps
    .ok (a ++ rest)

end Behaviour
end Vega
