import Verif.Systus.MatrixProps
import Verif.Element.DirectAsterProps

/-! # C72: matrices of many nodes -/
namespace Vega
namespace SystusMatrixSpec
open Systus DirectMatrix DirectSpec

/-- **C72** in every matrix, the coefficients between the nodes of ranks `i` and
`j + 10` and between those of ranks `i + 1` and `j` get the same code, when both are given for the same
degrees of freedom: the table does not tell them apart. -/
theorem C72_collision_false (n : Nat) (hist : List Entry) (hw : Within n hist) (m : DirectMatrix)
    (hm : DirectSpec.run (DirectMatrix.new .SYMMETRIC) hist = .ok m) (i j p q p' q' : Nat) (c d : Dof) (v w : Dbl)
    (hp : m.nodePositions[i]? = some p) (hq : m.nodePositions[j + 10]? = some q)
    (hp' : m.nodePositions[i + 1]? = some p') (hq' : m.nodePositions[j]? = some q')
    (h1 : p < q) (h2 : p' < q')
    (hv : lastGiven hist (p, c) (q, d) = some v) (hv' : lastGiven hist (p', c) (q', d) = some w) :
    ∃ t code, Table.fill n m = .ok t ∧ (code, v) ∈ entriesOf t ∧ (code, w) ∈ entriesOf t := by
  obtain ⟨t, g1, g2⟩ := fill_eq n hist hw m hm
  obtain ⟨hi, hraw⟩ := raw_of_hist hist m hm
  have hP := nodePositions_nodup m
  have mem : ∀ (p q : Nat) (v : Dbl), p < q → lastGiven hist (p, c) (q, d) = some v →
      ((code m.nodePositions ((p, q), (c, d)) : Dbl), v) ∈ entriesOf t := by
    intro p q v hlt hg
    rw [← hraw, DirectAsterSpec.canon_lt p q hlt] at hg
    rw [g2, List.mem_map]
    exact ⟨_, (mem_flat m hi _ _ _).mpr ⟨sub_key m _ v hg, hg⟩, rfl⟩
  refine ⟨t, _, g1, mem p q v h1 hv, ?_⟩
  have e : code m.nodePositions ((p, q), (c, d)) = code m.nodePositions ((p', q'), (c, d)) := by
    unfold code
    simp only
    rw [numberOf_eq _ hP i p hp, numberOf_eq _ hP _ q hq, numberOf_eq _ hP _ p' hp', numberOf_eq _ hP j q' hq']
    omega
  rw [e]
  exact mem p' q' w h2 hv'

/-- Thirteen nodes, with coefficients between the first and the last, and between the second and the third. -/
example : ∃ m, run (DirectMatrix.new .SYMMETRIC)
      (⟨(1, .DX), (13, .DX), 5⟩ :: ⟨(2, .DX), (3, .DX), 7⟩ ::
        ([4, 5, 6, 7, 8, 9, 10, 11, 12].map fun p => ⟨(p, .DX), (p, .DX), 1⟩)) = .ok m ∧
    m.nodePositions[0]? = some 1 ∧ m.nodePositions[2 + 10]? = some 13 ∧ m.nodePositions[1]? = some 2 ∧
    m.nodePositions[2]? = some 3 := by
  refine ⟨_, rfl, ?_⟩
  decide +kernel

/-- **C72** from table 100 on, every stiffness table whose number is a multiple of a hundred is taken for a
mass table, and likewise mass tables for damping tables. -/
theorem C72_reference_always_false (t : Nat) :
    tableRef .STIFFNESS (100 * t) = tableRef .MASS t ∧ tableRef .MASS (100 * t) = tableRef .DAMPING t := by
  simp only [tableRef]
  omega

end SystusMatrixSpec
end Vega
