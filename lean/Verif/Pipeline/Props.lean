import Verif.Pipeline.Model
import Mathlib.Data.List.Nodup

/-!
# Preparing a model (C34) and parameters (C35)
-/
namespace Vega.PipelineSpec

/-! ## C34 -/

/-- Call `finish` `n` times, whatever happens. -/
def callFinish {S : Type} (apply : Pass → S → Ended S) (f : FinishFlags) :
    Nat → Finishable S → Finishable S
  | 0, m => m
  | n + 1, m => callFinish apply f n (finish apply f m).after

/-- **C34** whatever the passes do: once a call has returned normally, any number of further
calls changes nothing. -/
theorem C34_idempotent {S : Type} (apply : Pass → S → Ended S) (f : FinishFlags)
    (m m' : Finishable S) (h : finish apply f m = .returned m') (n : Nat) :
    callFinish apply f n m' = m' ∧ finish apply f m' = .returned m' := by
  have hf : m'.finished = true := by
    unfold finish at h
    split at h
    · rename_i hm; cases h; exact hm
    · split at h
      · cases h; rfl
      · cases h
  have h2 : finish apply f m' = .returned m' := by unfold finish; rw [if_pos hf]
  refine ⟨?_, h2⟩
  induction n with
  | zero => rfl
  | succ n ih => rw [callFinish, h2]; exact ih

/-- **C34** the first call on a fresh model applies each pass asked for exactly once, in the order of
the list, and nothing else. -/
theorem C34_first_call {S : Type} (step : Pass → S → S) (f : FinishFlags) (s : S) :
    finish (fun p s => .returned (step p s)) f ⟨s, false⟩ =
      .returned ⟨(pipeline f).foldl (fun s p => step p s) s, true⟩ := by
  have h : ∀ (ps : List Pass) (s : S), runPasses (fun p s => .returned (step p s)) ps s =
      .returned (ps.foldl (fun s p => step p s) s) := by
    intro ps
    induction ps with
    | nil => intro s; rfl
    | cons p ps ih => intro s; exact ih _
  simp [finish, h]

/-- The position of a pass in the source of `finish`. -/
def order : List Pass :=
  [.buildCoordinateSystems, .allowDofs, .addAutoAnalysis, .generateSkin, .addBoundaryDofs,
   .removeAssertionsMissingDOFS, .makeBoundarySegments, .makeBoundarySurfaces,
   .emulateLocalDisplacement, .emulateRigidsWithMPCs, .displayMasterSlave, .emulateAdditionalMass,
   .replaceCombinedLoadSets, .replaceDirectMatrices, .replaceRigidSegments, .removeRedundantSpcs,
   .removeConstrainedImposed, .removeIneffectives, .generateDiscrets, .convert0DDiscretsInto1D,
   .splitDirectMatrices, .makeCellsFromDirectMatrices, .makeCellsFromLMPC, .makeCellsFromRBE,
   .makeCellsFromSurfaceSlide, .splitElementsByDOFS, .assignVirtualMaterial,
   .splitElementsByCellOffsets, .replaceIsotropicMaterialsInComposites, .assignElementsToCells,
   .changeParametricForceLineToAbsolute, .createSetGroups, .removeUnassignedMaterials,
   .addDefaultAnalysis, .meshFinish]

theorem onlyIf_sublist (b : Bool) (l : List Pass) : (onlyIf b l).Sublist (onlyIf true l) := by
  cases b <;> simp [onlyIf]

/-- Every optional pass. -/
def allFlags : FinishFlags :=
  ⟨true, true, true, true, true, true, true, true, true, true, true, true, true, true,
   true, true, true, true, true, true, true, true, true, true⟩

theorem pipeline_all : pipeline allFlags = order := by decide +kernel

/-- **C34** whatever the configuration, no pass is run twice and the passes run in one fixed
order. -/
theorem C34_order (f : FinishFlags) : (pipeline f).Sublist order ∧ (pipeline f).Nodup := by
  have h : (pipeline f).Sublist (pipeline allFlags) := by
    unfold pipeline
    iterate 30
      refine List.Sublist.append ?_ (by first | exact onlyIf_sublist _ _ | exact List.Sublist.refl _)
    exact List.Sublist.refl _
  rw [pipeline_all] at h
  exact ⟨h, h.nodup (by decide)⟩

/-- What the configuration asks for: `none` for the passes that are always run. -/
def flagOf (f : FinishFlags) : Pass → Option Bool
  | .buildCoordinateSystems | .allowDofs | .addBoundaryDofs | .removeAssertionsMissingDOFS
  | .emulateRigidsWithMPCs | .assignElementsToCells | .createSetGroups | .addDefaultAnalysis
  | .meshFinish => none
  | .addAutoAnalysis => some f.autoDetectAnalysis
  | .generateSkin => some f.createSkin
  | .makeBoundarySegments | .makeBoundarySurfaces => some f.makeBoundaryCells
  | .emulateLocalDisplacement => some f.emulateLocalDisplacement
  | .displayMasterSlave => some f.displayMasterSlaveConstraint
  | .emulateAdditionalMass => some f.emulateAdditionalMass
  | .replaceCombinedLoadSets => some f.replaceCombinedLoadSets
  | .replaceDirectMatrices => some f.replaceDirectMatrices
  | .replaceRigidSegments => some f.replaceRigidSegments
  | .removeRedundantSpcs => some f.removeRedundantSpcs
  | .removeConstrainedImposed => some f.removeConstrainedImposed
  | .removeIneffectives | .removeUnassignedMaterials => some f.removeIneffectives
  | .generateDiscrets => some f.virtualDiscrets
  | .convert0DDiscretsInto1D => some f.convert0DDiscretsInto1D
  | .splitDirectMatrices => some f.splitDirectMatrices
  | .makeCellsFromDirectMatrices => some f.makeCellsFromDirectMatrices
  | .makeCellsFromLMPC => some f.makeCellsFromLMPC
  | .makeCellsFromRBE => some f.makeCellsFromRBE
  | .makeCellsFromSurfaceSlide => some f.makeCellsFromSurfaceSlide
  | .splitElementsByDOFS => some f.splitElementsByDOFS
  | .assignVirtualMaterial => some f.addVirtualMaterial
  | .splitElementsByCellOffsets => some f.splitElementsByCellOffsets
  | .replaceIsotropicMaterialsInComposites => some f.alwaysUseOrthotropicMaterialsInComposites
  | .changeParametricForceLineToAbsolute => some f.changeParametricForceLineToAbsolute

/-- **C34** the passes run are those always run and those asked for by the configuration. -/
theorem C34_passes (f : FinishFlags) (p : Pass) :
    p ∈ pipeline f ↔ flagOf f p = none ∨ flagOf f p = some true := by
  have h : ∀ b (l : List Pass), p ∈ onlyIf b l ↔ b = true ∧ p ∈ l := by
    intro b l; cases b <;> simp [onlyIf]
  unfold pipeline
  simp only [List.mem_append, h]
  cases p <;> simp only [List.mem_cons, List.not_mem_nil, reduceCtorEq, or_false, false_or, and_false,
    and_true, flagOf, or_self, Option.some.injEq, or_true]

/-- No optional pass. -/
def noFlags : FinishFlags :=
  ⟨false, false, false, false, false, false, false, false, false, false, false, false, false, false,
   false, false, false, false, false, false, false, false, false, false⟩

/-- Passes that record what they did; the fifth fails. -/
def failing (p : Pass) (s : List Pass) : Ended (List Pass) :=
  match p with
  | .addBoundaryDofs => .threw s
  | p => .returned (s ++ [p])

/-- Refutation of "only the first time it is called" when the first call fails: the flag is not
set, and the next call applies the passes before the failure a second time. -/
theorem C34_after_failure_false :
    (∃ m, finish failing noFlags ⟨[], false⟩ = .threw m) ∧
      (callFinish failing noFlags 2 ⟨[], false⟩).state =
        [.buildCoordinateSystems, .allowDofs, .buildCoordinateSystems, .allowDofs] := by
  have h : pipeline noFlags = [.buildCoordinateSystems, .allowDofs, .addBoundaryDofs,
      .removeAssertionsMissingDOFS, .emulateRigidsWithMPCs, .assignElementsToCells, .createSetGroups,
      .addDefaultAnalysis, .meshFinish] := by decide +kernel
  have e : ∀ s, finish failing noFlags ⟨s, false⟩ =
      .threw ⟨s ++ [.buildCoordinateSystems] ++ [.allowDofs], false⟩ := by
    intro s
    unfold finish
    rw [h]
    rfl
  refine ⟨⟨_, e []⟩, ?_⟩
  simp [callFinish, e, Ended.after]

-- a call that returns normally
example : ∃ m, finish (fun p (s : List Pass) => .returned (s ++ [p])) allFlags ⟨[], false⟩ =
    .returned m := ⟨_, C34_first_call (fun p s => s ++ [p]) _ []⟩

/-! ## C35 -/

/-- Calls of `setParameter`. -/
inductive ParamOp where
  | model (k : Nat) (v : String)
  | analysis (a k : Nat) (v : String)

def paramStep (p : Params) : ParamOp → Params
  | .model k v => p.setModel k v
  | .analysis a k v => p.setAnalysis a k v

def paramRun (ops : List ParamOp) : Params := ops.foldl paramStep Params.empty

/-- The value last set on the model. -/
def lastModel (k : Nat) : List ParamOp → Option String
  | [] => none
  | .model k' v :: ops => (lastModel k ops).or (if k' = k then some v else none)
  | .analysis .. :: ops => lastModel k ops

/-- The value last set on an analysis. -/
def lastAnalysis (a k : Nat) : List ParamOp → Option String
  | [] => none
  | .model .. :: ops => lastAnalysis a k ops
  | .analysis a' k' v :: ops =>
    (lastAnalysis a k ops).or (if a' = a ∧ k' = k then some v else none)

theorem model_find (ops : List ParamOp) (p : Params) (k : Nat) :
    (ops.foldl paramStep p).model.find k = (lastModel k ops).or (p.model.find k) := by
  induction ops generalizing p with
  | nil => simp [lastModel]
  | cons op ops ih =>
    rw [List.foldl_cons, ih]
    cases op with
    | model k' v =>
      simp only [paramStep, Params.setModel, lastModel]
      by_cases h : k' = k
      · subst h
        cases lastModel k' ops <;> simp
      · rw [Map.find_set_ne _ _ h]
        cases lastModel k ops <;> simp [h]
    | analysis a k' v => rfl

theorem analysis_find (ops : List ParamOp) (p : Params) (a k : Nat) :
    ((ops.foldl paramStep p).ofAnalysis a).find k =
      (lastAnalysis a k ops).or ((p.ofAnalysis a).find k) := by
  induction ops generalizing p with
  | nil => simp [lastAnalysis]
  | cons op ops ih =>
    rw [List.foldl_cons, ih]
    cases op with
    | model k' v => rfl
    | analysis a' k' v =>
      simp only [paramStep, lastAnalysis]
      have e : ((p.setAnalysis a' k' v).ofAnalysis a).find k =
          if a' = a ∧ k' = k then some v else (p.ofAnalysis a).find k := by
        by_cases h : a' = a
        · subst h
          have : (p.setAnalysis a' k' v).ofAnalysis a' = (p.ofAnalysis a').set k' v := by
            unfold Params.setAnalysis
            generalize (p.ofAnalysis a').set k' v = z
            simp [Params.ofAnalysis]
          rw [this]
          by_cases h2 : k' = k
          · subst h2; simp
          · rw [Map.find_set_ne _ _ h2]; simp [h2]
        · have : (p.setAnalysis a' k' v).ofAnalysis a = p.ofAnalysis a := by
            unfold Params.setAnalysis
            generalize (p.ofAnalysis a').set k' v = z
            simp [Params.ofAnalysis, Map.find_set_ne _ _ h]
          rw [this]; simp [h]
      rw [e]
      cases lastAnalysis a k ops with
      | some x => simp
      | none => by_cases h : a' = a ∧ k' = k <;> simp [h]

/-- **C35** after any sequence of `setParameter` calls, an analysis reports the value last set on
it if any, else the value last set on the model, else the empty string. -/
theorem C35_get (ops : List ParamOp) (a k : Nat) :
    (paramRun ops).analysisGet a k =
      (((lastAnalysis a k ops).or (lastModel k ops)).getD "") := by
  unfold Params.analysisGet Params.modelGet paramRun
  rw [model_find, analysis_find]
  have h1 : (Params.empty.ofAnalysis a).find k = none := rfl
  have h2 : Params.empty.model.find k = none := rfl
  rw [h1, h2]
  cases lastAnalysis a k ops <;> cases lastModel k ops <;> rfl

/-- **C35** `contains` is true exactly when one of them is set. -/
theorem C35_contains (ops : List ParamOp) (a k : Nat) :
    (paramRun ops).analysisContains a k = true ↔
      (∃ v, lastAnalysis a k ops = some v) ∨ ∃ v, lastModel k ops = some v := by
  unfold Params.analysisContains Params.modelContains paramRun
  rw [model_find, analysis_find]
  have h1 : (Params.empty.ofAnalysis a).find k = none := rfl
  have h2 : Params.empty.model.find k = none := rfl
  rw [h1, h2]
  cases lastAnalysis a k ops <;> cases lastModel k ops <;> simp

/-- **C35** parameters of one analysis do not affect the others. -/
theorem C35_independent (ops : List ParamOp) (a b k k' : Nat) (v : String) (h : a ≠ b) :
    (paramRun (ops ++ [.analysis a k v])).analysisGet b k' = (paramRun ops).analysisGet b k' := by
  have e : ∀ ops, lastAnalysis b k' (ops ++ [.analysis a k v]) = lastAnalysis b k' ops := by
    intro ops
    induction ops with
    | nil => simp [lastAnalysis, h]
    | cons x xs ih => cases x <;> simp [lastAnalysis, ih]
  have e2 : ∀ ops, lastModel k' (ops ++ [.analysis a k v]) = lastModel k' ops := by
    intro ops
    induction ops with
    | nil => simp [lastModel]
    | cons x xs ih => cases x <;> simp [lastModel, ih]
  rw [C35_get, C35_get, e, e2]

example : (paramRun [.model 1 "a", .analysis 4 1 "b", .model 1 "c", .analysis 4 1 "d"]).analysisGet 4 1
    = "d" ∧ (paramRun [.model 1 "a", .analysis 4 1 "b", .model 1 "c"]).analysisGet 5 1 = "c" := by
  decide +kernel

end Vega.PipelineSpec
