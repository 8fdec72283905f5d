import Verif.Element.DirectAsterProps

/-! # C51: the copies of the submatrices, the degrees of freedom of the nodes -/
namespace Vega.DirectSpec
open DirectMatrix

/-- **C51** in every matrix, the copy of the submatrix of two different nodes, asked for the degrees of
freedom `c` of the first and `d` of the second, with `d` before `c`, gives the coefficient between `d` of
the first and `c` of the second. -/
theorem C51_find_always_false (hist : List Entry) (m : DirectMatrix)
    (hm : run (DirectMatrix.new .SYMMETRIC) hist = .ok m) (p q : Nat) (hpq : p < q) (c d : Dof)
    (hcd : d.lt c = true) :
    (m.findSubmatrix p q).findComponent c d = (lastGiven hist (p, d) (q, c)).getD 0 := by
  obtain ⟨m', h1, h2, h3, _⟩ := run_eq hist _ inv_new
  rw [hm] at h1
  injection h1 with h1
  subst h1
  have ht : (m.findSubmatrix p q).matrixType = .SYMMETRIC := by
    unfold findSubmatrix
    cases m.sub.find (p, q) <;> exact h2.type
  rw [DirectAsterSpec.findComponent_sym _ ht, if_pos hcd, find_sub, ← DirectAsterSpec.canon_lt p q hpq]
  exact congrArg (Option.getD · 0) (h3 (p, d) (q, c))

example : Dof.lt .DX .RX = true ∧ (lastGiven [⟨(0, .RX), (1, .DX), 5⟩, ⟨(0, .DX), (1, .RX), 7⟩] (0, .RX) (1, .DX)) = some 5 ∧
    (lastGiven [⟨(0, .RX), (1, .DX), 5⟩, ⟨(0, .DX), (1, .RX), 7⟩] (0, .DX) (1, .RX)) = some 7 := by decide +kernel

/-- **C51** in every matrix without coefficient on the node of position 0 alone, the same degrees of
freedom are reported for all nodes, even for those that the matrix does not have. -/
theorem C51_dofs_always_false (hist : List Entry) (m : DirectMatrix)
    (hm : run (DirectMatrix.new .SYMMETRIC) hist = .ok m) (h0 : ∀ e ∈ hist, e.x.1 ≠ 0 ∨ e.y.1 ≠ 0) (p q : Nat) :
    m.getDOFSForNode p = m.getDOFSForNode q := by
  obtain ⟨m', h1, _, _, h4⟩ := run_eq hist _ inv_new
  rw [hm] at h1
  injection h1 with h1
  subst h1
  have hk : ∀ kv ∈ m.sub, kv.1.2 ≠ 0 := by
    intro kv hkv
    have : kv.1 ∈ m.sub.keys := List.mem_map.mpr ⟨kv, hkv, rfl⟩
    rcases (h4 kv.1).mp this with ⟨e, he, h5⟩ | h
    · have := h0 e he
      rw [h5]
      unfold canon
      split
      · simp only; omega
      · split <;> simp only <;> omega
    · simp [DirectMatrix.new, Map.keys] at h
  unfold getDOFSForNode
  have key : ∀ (l : List ((Nat × Nat) × DofMatrix)) (D : Dofs), (∀ kv ∈ l, kv.1.2 ≠ 0) → ∀ f : (Nat × Nat) × DofMatrix → Dofs → Dofs,
      l.foldl (fun dofs kv => if kv.1.1 = p ∨ kv.1.2 ≠ 0 then f kv dofs else dofs) D =
      l.foldl (fun dofs kv => if kv.1.1 = q ∨ kv.1.2 ≠ 0 then f kv dofs else dofs) D := by
    intro l
    induction l with
    | nil => intro D _ f; rfl
    | cons kv l ih =>
      intro D h f
      have hne := h kv (by simp)
      rw [List.foldl_cons, List.foldl_cons, if_pos (.inr hne), if_pos (.inr hne)]
      exact ih _ (fun x hx => h x (by simp [hx])) f
  exact key m.sub _ hk fun kv dofs =>
    let dofs := if kv.2.hasRotations then dofs.union Dofs.ROTATIONS else dofs
    if kv.2.hasTranslations then dofs.union Dofs.TRANSLATIONS else dofs

example : ∃ m, run (DirectMatrix.new .SYMMETRIC) [⟨(0, .DX), (1, .DX), 5⟩, ⟨(2, .RX), (2, .RX), 5⟩] = .ok m ∧
    ∀ e ∈ ([⟨(0, .DX), (1, .DX), 5⟩, ⟨(2, .RX), (2, .RX), 5⟩] : List Entry), e.x.1 ≠ 0 ∨ e.y.1 ≠ 0 :=
  ⟨_, rfl, by simp⟩

end Vega.DirectSpec
