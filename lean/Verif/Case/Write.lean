import Verif.NastranWrite.Line

/-! # The case control section written: `Nastran/NastranWriter.cpp` 197-243, 920-1030

The lines of the file from its beginning to `BEGIN BULK`. Names and comments are without line ends. The marks that tell what
was written are left out. -/
namespace Vega
namespace Case
open Nastran (Line)
open NastranWrite (showNat)

/-- `out << int`. -/
def showInt (n : Int) : Line := if n < 0 then '-' :: showNat n.natAbs else showNat n.natAbs

/-- The types of analyses that the writer tells apart (Analysis.h); all others are `other`. -/
inductive WKind where
  | linearStatic | linearModal | dynaModalFreq | nonLinear | other
  deriving DecidableEq, Repr

/-- `LoadSet::Type`. -/
inductive WLoad where
  | load | dload | exciteid | loadset | all
  deriving DecidableEq, Repr

/-- `ConstraintSet::Type`. -/
inductive WConstraint where
  | spc | mpc | contact | all
  deriving DecidableEq, Repr

/-- `LoadSet::stringByType` (Loading.cpp 72-73). -/
def WLoad.name : WLoad → Line
  | .load => "LOAD".toList
  | .dload => "DLOAD".toList
  | .exciteid => "EXCITEID".toList
  | .loadset => "LOADSET".toList
  | .all => "ALL".toList

/-- `ConstraintSet::stringByType` (Constraint.cpp 104-109). -/
def WConstraint.name : WConstraint → Line
  | .spc => "SPC".toList
  | .mpc => "MPC".toList
  | .contact => "CONTACT".toList
  | .all => "ALL".toList

/-- An analysis: its text (for a warning), `bestId`, what `getLoadSets` and `getConstraintSets` give (Analysis.cpp 94-105,
263-273; a set of constraints that is not found is a null pointer), and the numbers of the groups of each displacement
output. -/
structure WAnalysis where
  kind : WKind
  text : Line
  id : Int
  loads : List (WLoad × Int)
  constraints : List (Option (WConstraint × Int))
  outputs : List (List Int)

/-- A group of nodes or cells: `getId`, the numbers, the comment. -/
structure WGroup where
  id : Int
  ids : List Int
  comment : Line

/-- What the section is written from: groups of nodes and then groups of cells; the von Mises outputs with their groups of
cells, `none` for all cells. -/
structure WCase where
  cosmic : Bool
  name : Line
  analyses : List WAnalysis
  groups : List WGroup
  stress : List (Option (List Int))

/-- The name of the solution (NastranWriter.cpp 201-237): `none` for a type that is not known. -/
def solutionName (cosmic : Bool) : WKind → Option Line
  | .linearStatic => some (if cosmic then "1,1".toList else "101".toList)
  | .linearModal => some (if cosmic then "1,3".toList else "103".toList)
  | .nonLinear => some (if cosmic then "1,6".toList else "106".toList)
  | .dynaModalFreq => if cosmic then none else some "111".toList
  | .other => none

/-- `writeSOL` (NastranWriter.cpp 197-243): without analyses, what is after the end is used. -/
def writeSOL (m : WCase) : Outcome (List Line) :=
  match m.analyses with
  | [] => .ub
  | a :: _ =>
    match solutionName m.cosmic a.kind with
    | some l => .ok ["SOL ".toList ++ l]
    | none => .ok ["$ WARN analysis ".toList ++ a.text ++ " not supported. Skipping.".toList, "SOL ".toList]

/-- The loop over the numbers of a group (NastranWriter.cpp 938-948, 955-965): the lines that are complete, and the last one so
far. -/
def numbersLoop : Nat → Bool → List Int → Line → List Line × Line
  | _, _, [], cur => ([], cur)
  | count, first, n :: l, cur =>
    let cur := if first then cur else cur ++ [',']
    if count % 8 = 0 then
      let r := numbersLoop (count + 1) false l (showInt n)
      (cur :: r.1, r.2)
    else numbersLoop (count + 1) false l (cur ++ showInt n)

/-- A group (NastranWriter.cpp 934-950, 951-967). -/
def writeGroup (g : WGroup) : List Line :=
  let r := numbersLoop 1 true g.ids ("SET ".toList ++ showInt g.id ++ " = ".toList)
  r.1 ++ [r.2 ++ " $ ".toList ++ g.comment]

/-- Numbers with commas between them (NastranWriter.cpp 976-984, 1006-1013). -/
def commaList : List Int → Line
  | [] => []
  | [n] => showInt n
  | n :: l => showInt n ++ ',' :: commaList l

/-- The line of a von Mises output (NastranWriter.cpp 970-987). -/
def writeStress : Option (List Int) → Line
  | none => "  STRESS(VONMISES) = ALL".toList
  | some gs => "  STRESS(VONMISES) = ".toList ++ commaList gs

/-- The line of a set (NastranWriter.cpp 990-997). -/
def writeSet (name : Line) (id : Int) : Line := "  ".toList ++ name ++ '=' :: showInt id

/-- The sets of constraints (NastranWriter.cpp 994-997): a null pointer is followed. -/
def writeConstraints : List (Option (WConstraint × Int)) → Outcome (List Line)
  | [] => .ok []
  | none :: _ => .ub
  | some (t, id) :: l => do
    let r ← writeConstraints l
    .ok (writeSet t.name id :: r)

/-- A subcase (NastranWriter.cpp 989-1023). -/
def writeSubcase (a : WAnalysis) : Outcome (List Line) := do
  let c ← writeConstraints a.constraints
  .ok (("SUBCASE ".toList ++ showInt a.id) :: ((a.loads.map fun e => writeSet e.1.name e.2) ++ c ++
    a.outputs.map fun gs => "  DISP = ".toList ++ commaList gs))

def writeSubcases : List WAnalysis → Outcome (List Line)
  | [] => .ok []
  | a :: l => do
    let x ← writeSubcase a
    let y ← writeSubcases l
    .ok (x ++ y)

/-- The section (NastranWriter.cpp 918-1030). -/
def writeSection (m : WCase) : Outcome (List Line) := do
  let sol ← writeSOL m
  let subs ← writeSubcases m.analyses
  .ok (["$ ".toList ++ m.name, "ID ".toList ++ m.name ++ ",NASTRAN".toList] ++ sol ++
    ["APP   DISP".toList, "TIME  10000".toList, "CEND".toList] ++ m.groups.flatMap writeGroup ++ m.stress.map writeStress ++ subs ++
    (if m.cosmic then ["MAXLINES=999999".toList] else []) ++
    ["$".toList, "TITLE=Vega Exported Model".toList, "BEGIN BULK".toList])

end Case
end Vega
