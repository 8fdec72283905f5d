import Verif.Basic
import Verif.Map

/-!
# `Model::finish` as a sequence of passes, and parameters of models and analyses
-/
namespace Vega

/-- The parts of `Model::finish` (Model.cpp 2217-2360), in source order. -/
inductive Pass where
  | buildCoordinateSystems | allowDofs | addAutoAnalysis | generateSkin | addBoundaryDofs
  | removeAssertionsMissingDOFS | makeBoundarySegments | makeBoundarySurfaces
  | emulateLocalDisplacement | emulateRigidsWithMPCs | displayMasterSlave | emulateAdditionalMass
  | replaceCombinedLoadSets | replaceDirectMatrices | replaceRigidSegments | removeRedundantSpcs
  | removeConstrainedImposed | removeIneffectives | generateDiscrets | convert0DDiscretsInto1D
  | splitDirectMatrices | makeCellsFromDirectMatrices | makeCellsFromLMPC | makeCellsFromRBE
  | makeCellsFromSurfaceSlide | splitElementsByDOFS | assignVirtualMaterial
  | splitElementsByCellOffsets | replaceIsotropicMaterialsInComposites | assignElementsToCells
  | changeParametricForceLineToAbsolute | createSetGroups | removeUnassignedMaterials
  | addDefaultAnalysis | meshFinish
  deriving DecidableEq, Repr

/-- The flags of `ModelConfiguration` that `finish` reads (ConfigurationParameters.h). -/
structure FinishFlags where
  autoDetectAnalysis : Bool
  createSkin : Bool
  makeBoundaryCells : Bool
  emulateLocalDisplacement : Bool
  displayMasterSlaveConstraint : Bool
  emulateAdditionalMass : Bool
  replaceCombinedLoadSets : Bool
  replaceDirectMatrices : Bool
  replaceRigidSegments : Bool
  removeRedundantSpcs : Bool
  removeConstrainedImposed : Bool
  removeIneffectives : Bool
  virtualDiscrets : Bool
  convert0DDiscretsInto1D : Bool
  splitDirectMatrices : Bool
  makeCellsFromDirectMatrices : Bool
  makeCellsFromLMPC : Bool
  makeCellsFromRBE : Bool
  makeCellsFromSurfaceSlide : Bool
  splitElementsByDOFS : Bool
  addVirtualMaterial : Bool
  splitElementsByCellOffsets : Bool
  alwaysUseOrthotropicMaterialsInComposites : Bool
  changeParametricForceLineToAbsolute : Bool

/-- A pass run only under a flag. -/
def onlyIf (b : Bool) (l : List Pass) : List Pass := if b then l else []

/-- The passes `finish` runs (Model.cpp 2222-2357). The conditions that look at the model itself
(no analysis yet, 2233; offsets in the mesh, 2334; which constraints are rigid, 2266-2270) are
left to the passes. -/
def pipeline (f : FinishFlags) : List Pass :=
  [.buildCoordinateSystems, .allowDofs] ++
  onlyIf f.autoDetectAnalysis [.addAutoAnalysis] ++
  onlyIf f.createSkin [.generateSkin] ++
  [.addBoundaryDofs, .removeAssertionsMissingDOFS] ++
  onlyIf f.makeBoundaryCells [.makeBoundarySegments, .makeBoundarySurfaces] ++
  onlyIf f.emulateLocalDisplacement [.emulateLocalDisplacement] ++
  [.emulateRigidsWithMPCs] ++
  onlyIf f.displayMasterSlaveConstraint [.displayMasterSlave] ++
  onlyIf f.emulateAdditionalMass [.emulateAdditionalMass] ++
  onlyIf f.replaceCombinedLoadSets [.replaceCombinedLoadSets] ++
  onlyIf f.replaceDirectMatrices [.replaceDirectMatrices] ++
  onlyIf f.replaceRigidSegments [.replaceRigidSegments] ++
  onlyIf f.removeRedundantSpcs [.removeRedundantSpcs] ++
  onlyIf f.removeConstrainedImposed [.removeConstrainedImposed] ++
  onlyIf f.removeIneffectives [.removeIneffectives] ++
  onlyIf f.virtualDiscrets [.generateDiscrets] ++
  onlyIf f.convert0DDiscretsInto1D [.convert0DDiscretsInto1D] ++
  onlyIf f.splitDirectMatrices [.splitDirectMatrices] ++
  onlyIf f.makeCellsFromDirectMatrices [.makeCellsFromDirectMatrices] ++
  onlyIf f.makeCellsFromLMPC [.makeCellsFromLMPC] ++
  onlyIf f.makeCellsFromRBE [.makeCellsFromRBE] ++
  onlyIf f.makeCellsFromSurfaceSlide [.makeCellsFromSurfaceSlide] ++
  onlyIf f.splitElementsByDOFS [.splitElementsByDOFS] ++
  onlyIf f.addVirtualMaterial [.assignVirtualMaterial] ++
  onlyIf f.splitElementsByCellOffsets [.splitElementsByCellOffsets] ++
  onlyIf f.alwaysUseOrthotropicMaterialsInComposites [.replaceIsotropicMaterialsInComposites] ++
  [.assignElementsToCells] ++
  onlyIf f.changeParametricForceLineToAbsolute [.changeParametricForceLineToAbsolute] ++
  [.createSetGroups] ++
  onlyIf f.removeIneffectives [.removeUnassignedMaterials] ++
  [.addDefaultAnalysis, .meshFinish]

/-- The model with its `finished` flag; `S` is everything else. -/
structure Finishable (S : Type) where
  state : S
  finished : Bool

/-- How a call ends, with the state it leaves behind: exceptions do not undo what was done. -/
inductive Ended (α : Type) where
  | returned (a : α)
  | threw (a : α)

namespace Ended
/-- The state left behind. -/
def after {α : Type} : Ended α → α
  | returned a => a
  | threw a => a
end Ended

/-- Run passes one after the other; the first exception ends the run. -/
def runPasses {S : Type} (apply : Pass → S → Ended S) : List Pass → S → Ended S
  | [], s => .returned s
  | p :: ps, s =>
    match apply p s with
    | .returned s' => runPasses apply ps s'
    | .threw s' => .threw s'

/-- `Model::finish` (Model.cpp 2217-2360). -/
def finish {S : Type} (apply : Pass → S → Ended S) (f : FinishFlags) (m : Finishable S) :
    Ended (Finishable S) :=
  if m.finished then .returned m
  else match runPasses apply (pipeline f) m.state with
    | .returned s => .returned ⟨s, true⟩
    | .threw s => .threw ⟨s, m.finished⟩

/-! ## Parameters -/

/-- The parameters of a model and of its analyses (numbered): `unordered_map<ModelParameter,
string>` (Model.h, Analysis.h). -/
structure Params where
  model : Map Nat String
  analyses : Map Nat (Map Nat String)

namespace Params

def empty : Params := ⟨[], []⟩

/-- The parameters of one analysis. -/
def ofAnalysis (p : Params) (a : Nat) : Map Nat String :=
  match p.analyses.find a with
  | some m => m
  | none => []

/-- `Model::setParameter` (Model.cpp 811-813). -/
def setModel (p : Params) (k : Nat) (v : String) : Params := { p with model := p.model.set k v }

/-- `Analysis::setParameter` (Analysis.cpp 70-72). -/
def setAnalysis (p : Params) (a k : Nat) (v : String) : Params :=
  { p with analyses := p.analyses.set a ((p.ofAnalysis a).set k v) }

/-- `Model::contains` (Model.cpp 815-817). -/
def modelContains (p : Params) (k : Nat) : Bool := (p.model.find k).isSome

/-- `Model::getParameter` (Model.cpp 819-824). -/
def modelGet (p : Params) (k : Nat) : String :=
  match p.model.find k with
  | some v => v
  | none => ""

/-- `Analysis::contains(parameter)` (Analysis.cpp 74-77). -/
def analysisContains (p : Params) (a k : Nat) : Bool :=
  ((p.ofAnalysis a).find k).isSome || p.modelContains k

/-- `Analysis::getParameter` (Analysis.cpp 79-84). -/
def analysisGet (p : Params) (a k : Nat) : String :=
  match (p.ofAnalysis a).find k with
  | some v => v
  | none => p.modelGet k

end Params
end Vega
