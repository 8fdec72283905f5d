import Verif.Mesh.CellProps

/-! # C15: what every update does -/
namespace Vega.CellSpec
open Vega.Mesh

/-- **C15** an update changes neither the number of cells nor, except for the type of the new cell, which
has one more, the number of cells of a type: whatever the mesh and the cell, the replaced cell is
still counted. -/
theorem C15_stale_always_false (m m' : Mesh) (c : Given) (p : Nat)
    (h : m.updateCell c.id c.type c.nodeIds c.elementId = .ok (m', p)) :
    m'.countCells = m.countCells ∧ m'.countCellsOfType c.type = m.countCellsOfType c.type + 1 ∧
      ∀ t, t ≠ c.type → m'.countCellsOfType t = m.countCellsOfType t := by
  unfold updateCell at h
  split at h
  · cases h
  · cases hf : m.findCellPosition c.id with
    | none => rw [hf] at h; cases h
    | some old =>
      rw [hf] at h
      simp only at h
      cases hr : reserveAllTwice m.nodes c.nodeIds with
      | ok x =>
        obtain ⟨ns, ps⟩ := x
        rw [hr] at h
        simp only [Outcome.bind_ok, Outcome.ok.injEq, Prod.mk.injEq] at h
        obtain ⟨rfl, _⟩ := h
        refine ⟨?_, ?_, ?_⟩
        · simp only [countCells]
          exact Map.length_set_old _ _ _ ((Map.mem_keys_iff _ _).mpr ⟨old, hf⟩)
        · simp [countCellsOfType, upd]
        · intro t ht
          simp [countCellsOfType, upd, ht]
      | throw => rw [hr] at h; cases h
      | ub => rw [hr] at h; cases h
      | diverges => rw [hr] at h; cases h

/-- An update of a tetrahedron to a pyramid. -/
example : ∃ m1 p1 m2 p2, (Mesh.init NodeStore.init 9999999).addCell 1 .tetra4 [1, 2, 3, 4] none 0 = .ok (m1, p1) ∧
    m1.updateCell 1 .pyra5 [1, 2, 3, 4, 5] none = .ok (m2, p2) :=
  ⟨_, _, _, _, rfl, rfl⟩

/-- **C15** whatever the mesh, after an update to a surface, line or point type the cell cannot be read
any more: its additional data is missing. -/
theorem C15_update_unreadable_false {m : Mesh} {g : List Given} (r : Reach m g) (c : Given)
    (hd : c.type.dim ≠ 3) (m' : Mesh) (p : Nat)
    (h : m.updateCell c.id c.type c.nodeIds c.elementId = .ok (m', p)) : ∀ v, m'.findCell p ≠ .ok v := by
  have hi := r.cinv
  unfold updateCell at h
  split at h
  · cases h
  · cases hf : m.findCellPosition c.id with
    | none => rw [hf] at h; cases h
    | some old =>
      rw [hf] at h
      simp only at h
      cases hr : reserveAllTwice m.nodes c.nodeIds with
      | ok x =>
        obtain ⟨ns, ps⟩ := x
        rw [hr] at h
        simp only [Outcome.bind_ok, Outcome.ok.injEq, Prod.mk.injEq] at h
        obtain ⟨rfl, rfl⟩ := h
        intro v hv
        unfold findCell at hv
        simp only [List.getElem?_concat_length] at hv
        split at hv
        · cases hv
        · split at hv
          · cases hv
          · rename_i l _ _
            cases hids : readIds ns ((l.drop ((m.positionsByType c.type).length * c.type.numNodes)).take
                c.type.numNodes) with
            | ok is =>
              rw [hids] at hv
              simp only [Outcome.bind_ok] at hv
              unfold readOffset at hv
              rw [if_neg hd] at hv
              simp only at hv
              cases ha : m.additional c.type with
              | none => rw [ha] at hv; cases hv
              | some a =>
                rw [ha] at hv
                have hlen : a.length = (m.positionsByType c.type).length := by
                  have := congrArg List.length (hi.add c.type hd).1
                  rw [ha, Option.getD_some, List.length_map] at this
                  rw [this, hi.countType]
                simp only at hv
                rw [List.getElem?_eq_none (by omega)] at hv
                cases hv
            | throw => rw [hids] at hv; cases hv
            | ub => rw [hids] at hv; cases hv
            | diverges => rw [hids] at hv; cases hv
      | throw => rw [hr] at h; cases h
      | ub => rw [hr] at h; cases h
      | diverges => rw [hr] at h; cases h

/-- An update of a triangle to a quadrangle. -/
example : ∃ m1 p1 m2 p2, Reach m1 [⟨1, .tri3, [1, 2, 3], none, 7⟩] ∧ m1.findCell p1 ≠ .ub ∧
    m1.updateCell 1 .quad4 [1, 2, 3, 4] none = .ok (m2, p2) := by
  have r0 := Reach.empty 9999999 0 9999999
  have r1 := r0.add ⟨1, .tri3, [1, 2, 3], none, 7⟩ ⟨rfl, by simp [AUTO_ID]⟩ (by simp [AUTO_ID]) rfl rfl
  exact ⟨_, 0, _, _, r1, nofun, rfl⟩

end Vega.CellSpec
