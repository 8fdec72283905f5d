import Verif.Constraint.Spc
import Verif.Dof.Lemmas

/-!
# Single point constraints (C38)
-/
namespace Vega.SpcSpec
open Spc ValOrRef

/-! ## Specification -/

/-- The setters. -/
inductive Op where
  | one (d : Dof) (v : ValOrRef)
  | many (ds : Dofs) (v : ValOrRef)

def Op.run (s : Spc) : Op → Spc
  | .one d v => s.setDOF d v
  | .many ds v => s.setDOFS ds v

/-- The value an operation gives to a degree of freedom. -/
def Op.gives (d : Dof) : Op → Option ValOrRef
  | .one e v => if e = d then some v else none
  | .many ds v => if ds.contains d then some v else none

/-- The last value given to a degree of freedom by a sequence of operations. -/
def lastGiven (ops : List Op) (d : Dof) : Option ValOrRef :=
  (ops.filterMap (Op.gives d)).getLast?

/-- The marker of a free degree of freedom. -/
def isFree (v : ValOrRef) : Prop := v.beq EMPTY = true

/-! ## Lemmas -/

theorem setDOFS_fold (l : List Dof) (s : Spc) (v : ValOrRef) (d : Dof) :
    (l.foldl (fun s d => s.setDOF d v) s).spcs d = if d ∈ l then v else s.spcs d := by
  induction l generalizing s with
  | nil => simp
  | cons e l ih =>
    rw [List.foldl_cons, ih]
    by_cases h : d ∈ l
    · simp [h]
    · by_cases h' : d = e <;> simp [h, h', setDOF]

theorem mem_toList (ds : Dofs) (d : Dof) : d ∈ ds.toList ↔ ds.contains d = true := by
  rw [Dofs.toList_eq, List.mem_filter]
  simp [Dof.mem_all]

theorem setDOFS_spcs (s : Spc) (ds : Dofs) (v : ValOrRef) (d : Dof) :
    (s.setDOFS ds v).spcs d = if ds.contains d then v else s.spcs d := by
  unfold setDOFS
  rw [setDOFS_fold]
  by_cases h : ds.contains d = true <;> simp [h, mem_toList]

theorem run_spcs (ops : List Op) (s : Spc) (d : Dof) :
    (ops.foldl Op.run s).spcs d = (lastGiven ops d).getD (s.spcs d) := by
  induction ops generalizing s with
  | nil => rfl
  | cons o ops ih =>
    rw [List.foldl_cons, ih]
    have hstep : (Op.run s o).spcs d = (o.gives d).getD (s.spcs d) := by
      cases o with
      | one e v =>
        simp only [Op.run, setDOF, Op.gives]
        by_cases h : d = e
        · subst h; simp
        · have h' : ¬ e = d := fun h' => h h'.symm
          simp [h, h']
      | many ds v =>
        simp only [Op.run, Op.gives]
        rw [setDOFS_spcs]
        by_cases h : ds.contains d = true <;> simp [h]
    unfold lastGiven
    rw [hstep]
    cases hg : o.gives d with
    | none => simp [List.filterMap_cons, hg]
    | some v =>
      rw [List.filterMap_cons, hg, List.getLast?_cons]
      simp

theorem dofs_contains (s : Spc) (n : Nat) (d : Dof) :
    (s.getDOFSForNode n).contains d = !(s.spcs d).beq EMPTY := by
  have step : ∀ (x : Dofs) (b : Bool) (e d : Dof),
      (if b then x.addDof e else x).contains d = (x.contains d || (b && decide (e = d))) := by
    intro x b e d
    cases b
    · simp
    · simp [Dofs.addDof_eq, Dofs.contains_union, Dofs.contains_ofDof]
  unfold getDOFSForNode
  simp only [dofsBelow, Dof.findByPosition, step, Dofs.contains_noDofs]
  cases d <;> simp

/-! ## C38 -/

/-- **C38** the constrained degrees of freedom are exactly those whose last given value is not the
"free" marker, for any node. -/
theorem C38_dofs (ops : List Op) (node : Nat) (d : Dof) :
    ((ops.foldl Op.run free).getDOFSForNode node).contains d = true ↔
      ∃ v, lastGiven ops d = some v ∧ ¬ isFree v := by
  rw [dofs_contains, run_spcs]
  cases h : lastGiven ops d with
  | none =>
    have : (ValOrRef.beq EMPTY EMPTY) = true := by decide
    simp [free, this]
  | some v => simp [isFree]

/-- **C38** a number given to a degree of freedom constrains it, whatever the number, and is read
back until another value is given. -/
theorem C38_double (ops : List Op) (d : Dof) (x : Dbl) (h : lastGiven ops d = some (.value x)) :
    (ops.foldl Op.run free).getDoubleForDOF d = .ok x ∧
    (∀ node, ((ops.foldl Op.run free).getDOFSForNode node).contains d = true) ∧
    (ops.foldl Op.run free).getReferenceForDOF d = .throw := by
  have hs : (ops.foldl Op.run free).spcs d = .value x := by rw [run_spcs, h]; rfl
  refine ⟨?_, ?_, ?_⟩
  · unfold getDoubleForDOF
    rw [hs]
    simp [beq, EMPTY, isReference, getValue]
  · intro node
    rw [dofs_contains, hs]
    simp [beq, EMPTY]
  · unfold getReferenceForDOF
    rw [hs]
    simp [beq, EMPTY, isReference]

/-- **C38** a reference to a value is read back as such, and not as a number. -/
theorem C38_reference (ops : List Op) (d : Dof) (r : Ref) (h : lastGiven ops d = some (.ref r))
    (hr : ¬ isFree (.ref r)) :
    (ops.foldl Op.run free).getReferenceForDOF d = .ok r ∧
    (ops.foldl Op.run free).getDoubleForDOF d = .throw := by
  have hs : (ops.foldl Op.run free).spcs d = .ref r := by rw [run_spcs, h]; rfl
  have hb : (ValOrRef.ref r).beq EMPTY = false := by
    unfold isFree at hr; simpa using hr
  constructor
  · unfold getReferenceForDOF
    rw [hs, hb]
    simp [isReference, getReference]
  · unfold getDoubleForDOF
    rw [hs, hb]
    simp [isReference]

/-- **C38** reading a free degree of freedom raises an exception. -/
theorem C38_free (ops : List Op) (d : Dof)
    (h : lastGiven ops d = none ∨ ∃ v, lastGiven ops d = some v ∧ isFree v) :
    (ops.foldl Op.run free).getDoubleForDOF d = .throw ∧
    (ops.foldl Op.run free).getReferenceForDOF d = .throw := by
  have hs : ((ops.foldl Op.run free).spcs d).beq EMPTY = true := by
    rw [run_spcs]
    rcases h with h | ⟨v, h, hv⟩
    · rw [h]; simp only [Option.getD_none, free]; decide
    · rw [h]; exact hv
  constructor
  · unfold getDoubleForDOF; rw [hs]; rfl
  · unfold getReferenceForDOF; rw [hs]; rfl

/-- **C38** a reference that has any number is not taken for the "free" marker. -/
theorem C38_reference_not_free (r : Ref) (h : r.originalId ≠ Ref.NO_ID ∨ r.id ≠ Ref.NO_ID) :
    ¬ isFree (.ref r) := by
  unfold isFree beq EMPTY Ref.beq
  simp only [STEP_RANGE]
  intro hc
  split at hc
  · simp at hc
  · split at hc
    · rename_i h2
      simp only [decide_eq_true_eq] at hc
      rcases h with h | h
      · exact h h2.1
      · exact h hc
    · rename_i h2
      simp only [decide_eq_true_eq] at hc
      exact h2 ⟨hc, trivial⟩

/-- **C38** the constructors: a set of degrees of freedom with a value, three values, six values. -/
theorem C38_constructors (ds : Dofs) (x : Dbl) (u v w : ValOrRef) (f : Dof → ValOrRef) (node : Nat)
    (d : Dof) :
    ((ofDofs ds x).getDOFSForNode node).contains d = ds.contains d ∧
    (ds.contains d = true → (ofDofs ds x).getDoubleForDOF d = .ok x) ∧
    (ofThree u v w).spcs .DX = u ∧ (ofThree u v w).spcs .DY = v ∧ (ofThree u v w).spcs .DZ = w ∧
    (d.isRotation = true → ((ofThree u v w).getDOFSForNode node).contains d = false) ∧
    (((ofSix f).getDOFSForNode node).contains d = true ↔ ¬ isFree (f d)) := by
  refine ⟨?_, ?_, rfl, rfl, rfl, ?_, ?_⟩
  · rw [dofs_contains]
    unfold ofDofs
    rw [setDOFS_spcs]
    by_cases h : ds.contains d = true
    · simp [h, beq, EMPTY]
    · have : (ValOrRef.beq EMPTY EMPTY) = true := by decide
      simp [h, free, this]
  · intro h
    have hs : (ofDofs ds x).spcs d = .value x := by unfold ofDofs; rw [setDOFS_spcs, if_pos h]
    unfold getDoubleForDOF
    rw [hs]
    simp [beq, EMPTY, isReference, getValue]
  · intro h
    rw [dofs_contains]
    have : (ValOrRef.beq EMPTY EMPTY) = true := by decide
    cases d <;> simp_all [ofThree, Dof.isRotation]
  · rw [dofs_contains]
    simp [ofSix, isFree]

/-- **C38** `hasReferences` reports exactly the constraints with a referenced value. -/
theorem C38_hasReferences (ops : List Op) :
    (ops.foldl Op.run free).hasReferences = true ↔
      ∃ d r, lastGiven ops d = some (.ref r) ∧ ¬ isFree (.ref r) := by
  unfold hasReferences
  rw [List.any_eq_true]
  have hE : (ValOrRef.beq EMPTY EMPTY) = true := by decide
  constructor
  · rintro ⟨d, -, h⟩
    rw [run_spcs] at h
    refine ⟨d, ?_⟩
    cases hl : lastGiven ops d with
    | none => rw [hl] at h; simp [free, hE] at h
    | some v =>
      rw [hl] at h
      cases v with
      | value x => simp [isReference] at h
      | ref r => exact ⟨r, rfl, by simpa [isReference, isFree] using h⟩
  · rintro ⟨d, r, hl, hr⟩
    refine ⟨d, by cases d <;> simp, ?_⟩
    rw [run_spcs, hl]
    simpa [isReference, isFree] using hr

-- a history: all translations fixed, DX moved, DY freed again
def exOps : List Op :=
  [.many Dofs.TRANSLATIONS (.value 0), .one .DX (.value 3), .one .DY EMPTY,
   .one .RZ (.ref ⟨2, 7, 1⟩)]
example : lastGiven exOps .DX = some (.value 3) ∧ lastGiven exOps .DZ = some (.value 0) ∧
    lastGiven exOps .RX = none ∧ (∃ v, lastGiven exOps .DY = some v ∧ isFree v) ∧
    lastGiven exOps .RZ = some (.ref ⟨2, 7, 1⟩) ∧ ¬ isFree (.ref ⟨2, 7, 1⟩) := by
  refine ⟨by decide +kernel, by decide +kernel, by decide +kernel,
    ⟨EMPTY, by decide +kernel, by unfold isFree; decide⟩, by decide +kernel, by unfold isFree; decide⟩

end Vega.SpcSpec
