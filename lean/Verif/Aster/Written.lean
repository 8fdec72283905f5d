import Verif.Basic
import Verif.Aster.Assign

/-!
# Marks of what has been written, and the exit of a strict translation to Code_Aster
(`Aster/AsterWriter.cpp` 125-300, 358-642, 644-673, 938-1084, 1086-1346, 1441-2150, 2404-3062, `Abstract/Model.cpp` 2403-2503,
`Commandline/VegaCommandLine.cpp` 102-120)

The text of the file is followed as a list of entries: which loading or constraint stands in which order, and which names each
analysis calls. An object is marked when its `markAsWritten` is called (Object.h 62-71). The values in the entries, the searches,
damping and frequencies of analyses, and the orders that use no set, are left out (they are followed in `Aster/Commands.lean`,
`Aster/Materials.lean`, `Load`, `Constraint`).
-/
namespace Vega
namespace Written

/-- `Loading::Type` (Loading.h 37-49); a load on lines with the answer of `appliedToGeometry` negated (AsterWriter.cpp 2077). -/
inductive LoadKind where
  | excitation | surface | gravity | rotation | line (onBeams : Bool) | nodal | face | shell | combined | temperature | imposed
  deriving DecidableEq

/-- `Constraint::Type` (Constraint.h 36-47); a quasi rigid constraint with `isCompletelyRigid` (AsterWriter.cpp 1775), a single
point constraint with `hasReferences` (AsterWriter.cpp 1702). -/
inductive ConstraintKind where
  | quasiRigid (complete : Bool) | rigid | rbe3 | spc (references : Bool) | lmpc | gap | slide | surfaceContact | zoneContact
  | surfaceSlide
  deriving DecidableEq

/-- `Objective::Type` (Objective.h 46-60). -/
inductive ObjectiveKind where
  | displacementAssertion | complexAssertion | vonMisesAssertion | frequencyAssertion | frequencySearch | complexMethod
  | frequencyExcit | modalDamping | nonlinearParameters | arcLength | displacementOutput | vonMisesOutput | frequencyOutput
  deriving DecidableEq

/-- `Analysis::Type` (Analysis.h 56-66). -/
inductive AnalysisKind where
  | combination | static | buckling | modal | modalComplex | directFreq | modalFreq | nonlinear | unknown
  deriving DecidableEq

/-- A loading (Loading.h 33-77), with `hasFunctions`. -/
structure Load where
  id : Nat
  kind : LoadKind
  functions : Bool
  deriving DecidableEq

/-- A constraint (Constraint.h 33-62), with `hasFunctions` (BoundaryCondition.h 29). -/
structure Constraint where
  id : Nat
  kind : ConstraintKind
  functions : Bool
  deriving DecidableEq

/-- An objective (Objective.h 42-84). -/
structure Objective where
  id : Nat
  kind : ObjectiveKind
  deriving DecidableEq

/-- A load set (Loading.h 82-116) with its loadings in their order; `dload`: its type is DLOAD. -/
structure LoadSet where
  id : Nat
  dload : Bool
  loads : List Load
  deriving DecidableEq

/-- A constraint set (Constraint.h 74-100) with its constraints in their order. -/
structure ConstraintSet where
  id : Nat
  constraints : List Constraint
  deriving DecidableEq

/-- An analysis: its sets as `getLoadSets`, `getConstraintSets` and `getObjectives` give them (Analysis.cpp 94-105, 263-273,
302-315) and the load sets of the previous analysis, if any (AsterWriter.cpp 2501-2506). -/
structure Analysis where
  id : Nat
  kind : AnalysisKind
  loadSets : List LoadSet
  constraintSets : List ConstraintSet
  objectives : List Objective
  previous : List LoadSet
  deriving DecidableEq

/-- What can be marked. -/
inductive Mark where
  | material (id : Nat)
  | element (id : Nat)
  | load (l : Load)
  | loadSet (s : LoadSet)
  | constraint (c : Constraint)
  | constraintSet (s : ConstraintSet)
  | objective (o : Objective)
  | analysis (id : Nat)
  deriving DecidableEq

/-- The finished model; `prior` are the marks made before writing (Model.cpp 886, 899, 1122-1124, 1703, 1751-1754, 1902-1905,
1921-1924, 1981, 1992, Constraint.cpp 301, 981). -/
structure Model where
  env : Assign.Env
  materials : List Nat
  elements : List Assign.Elems
  loadSets : List LoadSet
  constraintSets : List ConstraintSet
  objectives : List Objective
  analyses : List Analysis
  prior : List Mark

/-- The names of the orders that hold loads, constraints and contacts (AsterWriter.cpp 1467-1471, 1508-1512, 1572). -/
inductive Name where
  | CHMEC (id : Nat) | CHMEF (id : Nat) | BL (id : Nat) | BLF (id : Nat) | CN (id : Nat)
  deriving DecidableEq

/-- An entry of the file. -/
inductive Entry where
  /-- A material, or the model and characteristics of an element set. -/
  | material (id : Nat)
  | element (id : Nat)
  /-- A loading or a constraint in the order of that name. -/
  | load (n : Name) (l : Load)
  | constraint (n : Name) (c : Constraint)
  /-- The lines of stars written for a constraint with references (AsterWriter.cpp 1704-1706). -/
  | stars (n : Name) (c : Constraint)
  /-- The order of an analysis. -/
  | analysis (id : Nat)
  /-- `CHARGE=` of an analysis; `none` is the empty text of a set without a name. -/
  | charge (a : Nat) (n : Option Name)
  /-- `CONTACT=` of an analysis. -/
  | contact (a : Nat) (n : Option Name)
  /-- A dynamic excitation among those of an analysis. -/
  | excitation (a : Nat) (l : Load)
  /-- What an objective asks of an analysis. -/
  | objective (a : Nat) (o : Objective)
  deriving DecidableEq

/-- Entries and marks. -/
abbrev Log := List Entry × List Mark

/-! ## Loads -/

/-- `LoadSet::hasFunctions` (Loading.cpp 117-124). -/
def LoadSet.hasFunctions (s : LoadSet) : Bool := s.loads.any (·.functions)

/-- The kinds that `writeSPCD`, `writePression`, `writeForceCoque`, `writeNodalForce`, `writeForceSurface`, `writeForceLine`,
`writeGravity` and `writeRotation` write, in that order (AsterWriter.cpp 1518-1525, 1734-1763, 1951-2150). -/
def loadKinds : List LoadKind := [.imposed, .face, .shell, .nodal, .surface, .line true, .gravity, .rotation]

/-- The loadings of a set that are written (AsterWriter.cpp 1518-1525). -/
def LoadSet.written (s : LoadSet) : List Load := loadKinds.flatMap fun k => s.loads.filter fun l => l.kind = k

/-- The sets that are left out (AsterWriter.cpp 1489-1501): dynamic ones, empty ones and those of temperatures only. -/
def LoadSet.skipped (s : LoadSet) : Bool := s.dload || s.loads.isEmpty || s.loads.all fun l => l.kind = .temperature

/-- The name of a load set, `asternameByLoadSet` (AsterWriter.cpp 1505-1517). -/
def LoadSet.name (s : LoadSet) : Option Name :=
  if s.skipped then none else if s.hasFunctions then some (.CHMEF s.id) else some (.CHMEC s.id)

/-- `writeAffeCharMeca`, a load set (AsterWriter.cpp 1487-1529). -/
def writeLoadSet (s : LoadSet) : Log :=
  if s.dload then ([], [])
  else if s.loads.isEmpty then ([], [.loadSet s])
  else match s.name with
    | none => ([], [])
    | some n => (s.written.map (.load n), s.written.map .load ++ [.loadSet s])

/-! ## Constraints -/

/-- `isContact` (Constraint.h 59-61, 227-234, 236, 282, 302, 319). -/
def ConstraintKind.isContact : ConstraintKind → Bool
  | .gap | .slide | .surfaceContact | .zoneContact => true
  | _ => false

/-- `hasContacts` (Constraint.cpp 120-127). -/
def ConstraintSet.hasContacts (s : ConstraintSet) : Bool := s.constraints.any (·.kind.isContact)

/-- `hasFunctions` (Constraint.cpp 111-118). -/
def ConstraintSet.hasFunctions (s : ConstraintSet) : Bool := s.constraints.any (·.functions)

/-- The kinds that `writeSPC`, `writeLIAISON_SOLIDE`, `writeLIAISON_MAIL`, `writeRBE3` and `writeLMPC` write, in that order
(AsterWriter.cpp 1477-1481, 1694-1732, 1765-1949). -/
def relationKinds : List ConstraintKind :=
  [.spc false, .spc true, .rigid, .quasiRigid true, .surfaceSlide, .rbe3, .lmpc]

/-- The kinds that `writeDefiContact` writes (AsterWriter.cpp 1587-1687). -/
def contactKinds : List ConstraintKind := [.gap, .slide, .surfaceContact, .zoneContact]

/-- The constraints of a set that are of some kinds, kind by kind. -/
def ConstraintSet.pick (s : ConstraintSet) (ks : List ConstraintKind) : List Constraint :=
  ks.flatMap fun k => s.constraints.filter fun c => c.kind = k

/-- The entry of a constraint (AsterWriter.cpp 1702-1727 for one with references). -/
def entryOf (n : Name) (c : Constraint) : Entry := if c.kind = .spc true then .stars n c else .constraint n c

/-- The name of the order of relations (AsterWriter.cpp 1464-1475). -/
def ConstraintSet.relationName (s : ConstraintSet) : Name := if s.hasFunctions then .BLF s.id else .BL s.id

/-- `writeAffeCharMeca`, a constraint set (AsterWriter.cpp 1442-1485). -/
def writeRelations (s : ConstraintSet) : Log :=
  if s.constraints.isEmpty then ([], [.constraintSet s])
  else if s.constraints.all (·.kind.isContact) then ([], [])
  else ((s.pick relationKinds).map (entryOf s.relationName), (s.pick relationKinds).map .constraint ++ [.constraintSet s])

/-- `writeDefiContact`, a constraint set (AsterWriter.cpp 1533-1691). -/
def writeContacts (s : ConstraintSet) : Log :=
  if s.constraints.isEmpty then ([], [])
  else if s.hasContacts then
    ((s.pick contactKinds).map (.constraint (.CN s.id)), (s.pick contactKinds).map .constraint ++ [.constraintSet s])
  else ([], [])

/-- The name of a constraint set when the analyses are written, `asternameByConstraintSet` (AsterWriter.cpp 1475, 1573): that of
the contacts is given last. -/
def ConstraintSet.name (s : ConstraintSet) : Option Name :=
  if s.constraints.isEmpty then none else if s.hasContacts then some (.CN s.id) else some s.relationName

/-! ## Analyses -/

/-- The dynamic excitations of an analysis and their marks (AsterWriter.cpp 2596-2619, 2638-2656, 2778-2779, 2827-2828, 2885-2886,
2995-2996). -/
def excitations (a : Analysis) : Log :=
  a.loadSets.foldr (fun s log =>
    (((s.loads.filter fun l => l.kind = .excitation).map (.excitation a.id)) ++ log.1,
      ((s.loads.filter fun l => l.kind = .excitation).flatMap fun l => [Mark.load l, .loadSet s]) ++ log.2)) ([], [])

/-- `writeAnalysis` (AsterWriter.cpp 2404-3062). -/
def writeAnalysis (m : Model) (a : Analysis) : Outcome Log :=
  match a.kind with
  | .combination | .buckling | .modal | .modalComplex => .ok ([.analysis a.id], [.analysis a.id])
  | .static =>
    .ok (.analysis a.id :: (a.loadSets.map (fun s => .charge a.id s.name) ++
        (a.constraintSets.filter fun s => !s.constraints.isEmpty).map (fun s => .charge a.id s.name)), [.analysis a.id])
  | .nonlinear =>
    .ok (.analysis a.id :: (a.previous.map (fun s => .charge a.id s.name) ++ a.loadSets.map (fun s => .charge a.id s.name) ++
        ((a.constraintSets.filter fun s => !s.hasContacts).filter fun s => !s.constraints.isEmpty).map
          (fun s => .charge a.id s.name) ++
        ((m.constraintSets.filter fun s => !s.constraints.isEmpty).filter (·.hasContacts)).map
          (fun s => .contact a.id s.name)), [.analysis a.id])
  | .directFreq | .modalFreq =>
    .ok (.analysis a.id :: (excitations a).1, (excitations a).2 ++ [.analysis a.id])
  | .unknown => .throw

/-- `isAssertion` (Objective.h 74-76, 123-125; the subclasses of `Assertion` 128-187). -/
def ObjectiveKind.isAssertion : ObjectiveKind → Bool
  | .displacementAssertion | .complexAssertion | .vonMisesAssertion | .frequencyAssertion => true
  | _ => false

/-- The objectives of a kind. -/
def pickObjectives (os : List Objective) (k : ObjectiveKind) : List Objective := os.filter fun o => o.kind = k

/-- The stresses (AsterWriter.cpp 448-470): of everything when the analysis asks for some, and otherwise those of all the requests
of the model. -/
def writeStresses (m : Model) (a : Analysis) : Log :=
  if a.objectives.any (fun o => o.kind = .vonMisesOutput || o.kind = .vonMisesAssertion) then
    ((pickObjectives a.objectives .vonMisesOutput).map (.objective a.id), [])
  else
    ((pickObjectives m.objectives .vonMisesOutput).map (.objective a.id),
      (pickObjectives m.objectives .vonMisesOutput).map .objective)

/-- The assertions (AsterWriter.cpp 568-599). -/
def writeAssertions (a : Analysis) : Log :=
  ((a.objectives.filter (·.kind.isAssertion)).map (.objective a.id), (a.objectives.filter (·.kind.isAssertion)).map .objective)

/-- The requested displacements, with the list of frequencies (AsterWriter.cpp 212-240). -/
def writeOutputs (a : Analysis) : Log :=
  if (pickObjectives a.objectives .displacementOutput).isEmpty then ([], [])
  else
    ((pickObjectives a.objectives .displacementOutput).map (.objective a.id) ++
        (pickObjectives a.objectives .frequencyOutput).map (.objective a.id),
      (pickObjectives a.objectives .displacementOutput).map .objective)

/-- Two logs after each other. -/
def Log.then (x y : Log) : Log := (x.1 ++ y.1, x.2 ++ y.2)

/-- `writeAnalyses` (AsterWriter.cpp 358-641). -/
def writeAnalyses (m : Model) : List Analysis → Outcome Log
  | [] => .ok ([], [])
  | a :: as => do
    let x ← writeAnalysis m a
    let rest ← writeAnalyses m as
    .ok ((((x.then (writeStresses m a)).then (writeAssertions a)).then (writeOutputs a)).then rest)

/-! ## The file -/

/-- All logs of a list of sets. -/
def logs {α : Type} (f : α → Log) (xs : List α) : Log := (xs.flatMap fun x => (f x).1, xs.flatMap fun x => (f x).2)

/-- The materials (AsterWriter.cpp 940-1040): each is written and marked. -/
def writeMaterials (m : Model) : Log := (m.materials.map .material, m.materials.map .material)

/-- The marks of element sets: composites (AsterWriter.cpp 1042-1054), and those that AFFE_CARA_ELEM has a block for (1153, 1204,
1228, 1283, 1306, 1329, 1342, 1389, 1397, 1405, 1436). -/
def writeElements (m : Model) : Log :=
  ((Assign.affeCara m.env m.elements).map fun b => .element b.1,
    ((Assign.filter m.elements .composite).map fun e => .element e.id) ++
      (Assign.affeCara m.env m.elements).map fun b => .element b.1)

/-- `writeComm` (AsterWriter.cpp 643-673) in strict mode: an error ends it (SolverInterfaces.cpp 190-194). -/
def write (m : Model) : Outcome Log := do
  let _ ← Assign.affeModele m.env m.elements
  let rest ← writeAnalyses m m.analyses
  .ok (((((writeMaterials m).then (writeElements m)).then (logs writeRelations m.constraintSets)).then
    (logs writeLoadSet m.loadSets)).then ((logs writeContacts m.constraintSets).then rest))

/-! ## The check -/

/-- `Model::checkWritten` (Model.cpp 2403-2503, Model.h 532-543). -/
def checkWritten (m : Model) (marks : List Mark) : Bool :=
  let isWritten (x : Mark) : Bool := x ∈ marks
  m.materials.all (fun x => isWritten (.material x)) &&
    m.elements.all (fun e => isWritten (.element e.id)) &&
    m.analyses.all (fun a => isWritten (.analysis a.id)) &&
    (m.analyses.filter fun a => isWritten (.analysis a.id)).all fun a =>
      a.loadSets.all (fun s => isWritten (.loadSet s) && s.loads.all fun l => isWritten (.load l)) &&
        a.constraintSets.all (fun s => isWritten (.constraintSet s) && s.constraints.all fun c => isWritten (.constraint c)) &&
        a.objectives.all fun o => isWritten (.objective o)

/-- The exits that can follow a valid model. -/
inductive Exit where
  | ok | writingIncomplete
  deriving DecidableEq

/-- A strict translation from a valid, finished model (VegaCommandLine.cpp 110-120). -/
def translate (m : Model) : Outcome (Exit × List Entry) := do
  let log ← write m
  .ok (if checkWritten m (m.prior ++ log.2) then .ok else .writingIncomplete, log.1)

end Written
end Vega
