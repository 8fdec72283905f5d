import Verif.Mesh.GroupLost

/-! # C16: groups hidden by the removal of others -/
namespace Vega.GroupSpec
open Groups

theorem create_byId_wf {s s' : Groups} {c : Bool} {n : String} {i : Option Int} {g : Nat} (hw : s.byId.WF)
    (h : s.create c n i = .ok (s', g)) : s'.byId.WF := by
  obtain ⟨_, _, _, _, _, _, h7⟩ := create_cases h
  rw [h7]
  cases i with
  | none => exact hw
  | some j => exact Map.wf_set _ _ _ hw

theorem Reach.byId_wf {b : Bool} {s : Groups} (r : Reach b s) : s.byId.WF := by
  induction r with
  | init => exact Map.wf_nil
  | step r o ha h ih =>
    rename_i s s'
    cases o with
    | create c n i =>
      simp only [perform] at h
      cases hc : s.create c n i with
      | ok x =>
        rw [hc] at h
        simp only [Outcome.bind_ok, Outcome.ok.injEq] at h
        subst h
        exact create_byId_wf ih (g := x.2) hc
      | _ => rw [hc] at h; cases h
    | findOrCreate n i =>
      simp only [perform] at h
      cases hc : s.findOrCreateNodeGroup n i with
      | ok x =>
        rw [hc] at h
        simp only [Outcome.bind_ok, Outcome.ok.injEq] at h
        subst h
        rcases findOrCreate_cases (g := x.2) hc with ⟨e, _⟩ | e
        · rw [e]; exact ih
        · exact create_byId_wf ih e
      | _ => rw [hc] at h; cases h
    | rename o n =>
      simp only [perform, Groups.rename] at h
      split at h
      · cases h
      · split at h
        · cases h
        · split at h
          · cases h
          · split at h
            · cases h
            · injection h with h
              subst h
              exact ih
    | remove n =>
      simp only [perform, Groups.remove] at h
      split at h
      · injection h with h
        subst h
        exact ih
      · split at h
        · cases h
        · injection h with h
          subst h
          exact Map.wf_erase _ _ ih
    | elsewhere n =>
      simp only [perform, Outcome.ok.injEq] at h
      subst h
      exact ih

/-- **C16** in every registry, removing a group hides the other group whose original id is the automatic id of
the removed one: it is still found by its name, and no more by its id. -/
theorem C16_remove_hides_always_false {b : Bool} {s : Groups} (r : Reach b s) (n n' : String) (g g' : Nat) (o : GroupObj)
    (hn : n' ≠ n) (hf : s.findByName n = some g) (ho : s.heap[g]? = some o) (hf' : s.findByName n' = some g') :
    ∃ s', s.remove n = .ok s' ∧ s'.findByName n' = some g' ∧ s'.findById o.autoId = none := by
  obtain ⟨s', h1, _, h3⟩ := C16_remove_name r n
  refine ⟨s', h1, (h3 n' hn).trans hf', ?_⟩
  have hb : s.byName.find n = some g := hf
  unfold remove at h1
  simp only [hb, ho, Outcome.ok.injEq] at h1
  subst h1
  simp only [findById]
  rw [Map.find_erase _ r.byId_wf, if_pos rfl]

/-- A second group whose original id is the automatic id of the first. -/
example : ∃ s, Reach false s ∧ s.findByName "A" = some 0 ∧ s.findByName "B" = some 1 ∧
    s.heap[0]? = some ⟨"A", true, none, 1⟩ ∧ s.findById 1 = some 1 := by
  have r1 := (Reach.init (removals := false)).step (.create true "A" none) trivial rfl
  have r2 := r1.step (.create true "B" (some 1)) trivial rfl
  exact ⟨_, r2, rfl, rfl, rfl, rfl⟩

end Vega.GroupSpec
