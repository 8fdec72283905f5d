import Verif.Dof.Model

namespace Vega
namespace Dof

/-- All six, in the order of their positions. -/
def all : List Dof := [DX, DY, DZ, RX, RY, RZ]

theorem mem_all (d : Dof) : d ∈ all := by cases d <;> decide

instance decForall (p : Dof → Prop) [DecidablePred p] : Decidable (∀ d, p d) :=
  decidable_of_iff (∀ d ∈ all, p d) ⟨fun h d => h d (mem_all d), fun h d _ => h d⟩

instance decExists (p : Dof → Prop) [DecidablePred p] : Decidable (∃ d, p d) :=
  decidable_of_iff (∃ d ∈ all, p d) ⟨fun ⟨d, _, h⟩ => ⟨d, h⟩, fun ⟨d, h⟩ => ⟨d, mem_all d, h⟩⟩

theorem findByPosition_position (d : Dof) : findByPosition d.position = .ok d := by
  cases d <;> rfl

end Dof

namespace Dofs

/-- Membership is a test of one bit. -/
theorem contains_eq_getLsbD (s : Dofs) (d : Dof) :
    s.contains d = s.dofsCode.getLsbD d.position := by
  have h : ∀ c : BitVec 8, ∀ d : Dof, ((c &&& d.code) != 0) = c.getLsbD d.position := by
    decide +kernel
  exact h _ _

theorem dofCode_getLsbD (d e : Dof) : d.code.getLsbD e.position = decide (d = e) := by
  revert d e; decide +kernel

theorem contains_union (s t : Dofs) (d : Dof) :
    (s.union t).contains d = (s.contains d || t.contains d) := by
  simp only [contains_eq_getLsbD, union, BitVec.getLsbD_or]

theorem contains_inter (s t : Dofs) (d : Dof) :
    (s.inter t).contains d = (s.contains d && t.contains d) := by
  simp only [contains_eq_getLsbD, inter, BitVec.getLsbD_and]

theorem position_lt (d : Dof) : d.position < 8 := by cases d <;> decide

theorem contains_diff (s t : Dofs) (d : Dof) :
    (s.diff t).contains d = (s.contains d && !t.contains d) := by
  simp only [contains_eq_getLsbD, diff, BitVec.getLsbD_and, BitVec.getLsbD_not]
  simp [position_lt d]

theorem contains_ofDof (d e : Dof) : (ofDof d).contains e = decide (d = e) := by
  rw [contains_eq_getLsbD]; exact dofCode_getLsbD d e

theorem addDof_eq (s : Dofs) (d : Dof) : s.addDof d = s.union (ofDof d) := rfl
theorem subDof_eq (s : Dofs) (d : Dof) : s.subDof d = s.diff (ofDof d) := rfl

theorem contains_noDofs (d : Dof) : NO_DOFS.contains d = false := by revert d; decide

/-- The iteration is the filter of the six constants. -/
theorem nextAvailable_spec (s : Dofs) : ∀ pos, pos ≤ 6 →
    s.iterFrom (s.nextAvailable pos) = (Dof.all.drop pos).filter (s.contains ·) := by
  have step : ∀ (pos : Nat) (d : Dof), pos < 6 → Dof.findByPosition pos = .ok d →
      Dof.all.drop pos = d :: Dof.all.drop (pos + 1) →
      s.iterFrom (s.nextAvailable (pos + 1)) = (Dof.all.drop (pos + 1)).filter (s.contains ·) →
      s.iterFrom (s.nextAvailable pos) = (Dof.all.drop pos).filter (s.contains ·) := by
    intro pos d hp hf hd ih
    rw [nextAvailable, if_pos hp, hf]
    by_cases hc : s.contains d = true
    · simp only [hc, if_true]
      rw [iterFrom, if_pos hp, hf, hd]
      simp [hc, ih]
    · simp only [hc]
      rw [hd]
      simpa [hc] using ih
  have h6 : s.iterFrom (s.nextAvailable 6) = (Dof.all.drop 6).filter (s.contains ·) := by
    have h : s.nextAvailable 6 = 6 := by rw [nextAvailable]; simp
    rw [h, iterFrom]; simp [Dof.all]
  have h5 := step 5 .RZ (by omega) rfl rfl h6
  have h4 := step 4 .RY (by omega) rfl rfl h5
  have h3 := step 3 .RX (by omega) rfl rfl h4
  have h2 := step 2 .DZ (by omega) rfl rfl h3
  have h1 := step 1 .DY (by omega) rfl rfl h2
  have h0 := step 0 .DX (by omega) rfl rfl h1
  intro pos hpos
  match pos, hpos with
  | 0, _ => exact h0 | 1, _ => exact h1 | 2, _ => exact h2 | 3, _ => exact h3
  | 4, _ => exact h4 | 5, _ => exact h5 | 6, _ => exact h6

theorem toList_eq (s : Dofs) : s.toList = Dof.all.filter (s.contains ·) := by
  have := nextAvailable_spec s 0 (by omega)
  simpa [toList] using this

end Dofs
end Vega
