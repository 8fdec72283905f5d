import Verif.Constraint.ImposedProps

/-! # C59: several imposed displacements on a node -/
namespace Vega.RedundantSpec
open SpcModel

/-- The last imposed displacement of the list on the node moves the degree of freedom. -/
def LastImposed (imp : List (Nat × Dofs)) (n : Nat) (d : Dof) : Prop :=
  ∃ pre p post, imp = pre ++ p :: post ∧ p.1 = n ∧ p.2.contains d = true ∧ n ∉ post.map Prod.fst

theorem imposedAt_last (imp : List (Nat × Dofs)) (n : Nat) (d : Dof) :
    (imposedAt imp n).contains d = true ↔ LastImposed imp n d := by
  unfold imposedAt
  have key : ∀ D : Dofs, ((imp.foldl (fun D p => if p.1 = n then p.2 else D) D).contains d = true ↔
      LastImposed imp n d ∨ (n ∉ imp.map Prod.fst ∧ D.contains d = true)) := by
    induction imp with
    | nil => intro D; simp [LastImposed]
    | cons p imp ih =>
      intro D
      have hl : LastImposed (p :: imp) n d ↔
          LastImposed imp n d ∨ (n ∉ imp.map Prod.fst ∧ p.1 = n ∧ p.2.contains d = true) := by
        constructor
        · rintro ⟨pre, q, post, h1, h2, h3, h4⟩
          cases pre with
          | nil =>
            rw [List.nil_append, List.cons.injEq] at h1
            obtain ⟨rfl, rfl⟩ := h1
            exact .inr ⟨h4, h2, h3⟩
          | cons a pre =>
            rw [List.cons_append, List.cons.injEq] at h1
            exact .inl ⟨pre, q, post, h1.2, h2, h3, h4⟩
        · rintro (⟨pre, q, post, h1, h2, h3, h4⟩ | ⟨h1, h2, h3⟩)
          · exact ⟨p :: pre, q, post, by rw [h1, List.cons_append], h2, h3, h4⟩
          · exact ⟨[], p, imp, rfl, h2, h3, h1⟩
      rw [List.foldl_cons, ih, hl, List.map_cons, List.mem_cons, not_or]
      by_cases hp : p.1 = n
      · rw [if_pos hp]
        simp [hp]
      · rw [if_neg hp]
        have : n ≠ p.1 := fun h => hp h.symm
        simp [hp, this]
  rw [key]
  simp [Dofs.contains_noDofs]

/-- **C59** in every model, the degrees of freedom freed on a node are those of the last imposed
displacement on it, and no other: those of the earlier ones stay both moved and held. -/
theorem C59_last_false (e : Enum) (imp : Nat → List (Nat × Dofs)) (m : SpcModel) (hf : Fit m)
    (hn : m.analyses.Nodup) :
    ∃ m', m.removeConstrainedImposed e imp = .ok m' ∧ ∀ a ∈ m.analyses, ∀ n d x,
      held m' a n d x ↔ held m a n d x ∧ ¬ LastImposed (imp a) n d := by
  obtain ⟨m', e1, h⟩ := impAnalyses e imp m m.analyses hn (fun _ h => h) m hf rfl
    (fun b hb hc => absurd hb hc) (fun _ _ _ _ _ => Iff.rfl)
  refine ⟨m', e1, fun a ha n d x => ?_⟩
  rw [h a ha, imposedAt_last]

-- two displacements on node 5: the second alone counts
example : Fit exModel ∧ exModel.analyses.Nodup ∧
    Imposed [(5, Dofs.ofDof .DX), (5, Dofs.ofDof .DY)] 5 .DX ∧
    ¬ LastImposed [(5, Dofs.ofDof .DX), (5, Dofs.ofDof .DY)] 5 .DX ∧
    LastImposed [(5, Dofs.ofDof .DX), (5, Dofs.ofDof .DY)] 5 .DY := by
  refine ⟨⟨exModel_good.wf, exModel_good.plain, exModel_good.numeric⟩, by decide,
    ⟨(5, Dofs.ofDof .DX), by simp, rfl, by decide⟩, ?_, ?_⟩
  · rw [← imposedAt_last]; decide
  · rw [← imposedAt_last]; decide

end Vega.RedundantSpec
