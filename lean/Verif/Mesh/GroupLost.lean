import Verif.Mesh.GroupProps

/-! # C16: groups lost by renamings and kept by removals -/
namespace Vega.GroupSpec
open Groups

/-- **C16** renaming a group to the name of another one, in any registry, succeeds and loses the other: no
name gives it any more. -/
theorem C16_rename_taken_always_false {b : Bool} {s : Groups} (r : Reach b s) (old new : String) (g g' : Nat)
    (hold : s.findByName old = some g) (hnew : s.findByName new = some g') (hon : old ≠ new)
    (ho : old ≠ "") (hn : new ≠ "") :
    ∃ s', s.rename old new = .ok s' ∧ s'.findByName new = some g ∧ ∀ n, s'.findByName n ≠ some g' := by
  obtain ⟨o, h1, h2⟩ := r.nameInv.2 old g hold
  obtain ⟨o', h1', h2'⟩ := r.nameInv.2 new g' hnew
  have hold' : s.byName.find old = some g := hold
  have hgg : g ≠ g' := by
    rintro rfl
    rw [h1] at h1'
    injection h1' with h1'
    subst h1'
    exact hon (h2.symm.trans h2')
  refine ⟨_, by unfold rename; rw [if_neg ho, if_neg hn]; simp only [hold', h1]; rfl, by simp [findByName], ?_⟩
  intro n hf
  simp only [findByName] at hf
  by_cases e : n = new
  · subst e
    rw [Map.find_set_self] at hf
    injection hf with hf
    exact hgg hf
  · rw [Map.find_set_ne _ _ (Ne.symm e), Map.find_erase _ r.nameInv.1] at hf
    split at hf
    · cases hf
    · obtain ⟨o2, h3, h4⟩ := r.nameInv.2 n g' hf
      rw [h1'] at h3
      injection h3 with h3
      subst h3
      exact e (h4.symm.trans h2')

theorem find_erase_ne {κ α : Type} [DecidableEq κ] (m : Map κ α) (k k' : κ) (h : k ≠ k') :
    (m.erase k).find k' = m.find k' := by
  induction m with
  | nil => rfl
  | cons x m ih =>
    obtain ⟨a, v⟩ := x
    unfold Map.erase
    split
    · rename_i e
      subst e
      simp [Map.find, h]
    · simp only [Map.find, ih]

/-- **C16** a removed group is still found by its original id, in every registry, unless that id happens to
be its automatic one. -/
theorem C16_removed_by_id_always_false {s : Groups} (r : Reach false s) (n : String) (g : Nat) (o : GroupObj)
    (i : Int) (hf : s.findByName n = some g) (ho : s.heap[g]? = some o) (hi : o.originalId = some i)
    (ha : o.autoId ≠ i) :
    ∃ s', s.remove n = .ok s' ∧ s'.findByName n = none ∧ s'.findById i = some g := by
  have hid : s.byId.find i = some g := (C16_by_id_partial r).2 n g o i hf ho hi
  obtain ⟨s', h1, h2, _⟩ := C16_remove_name r n
  refine ⟨s', h1, h2, ?_⟩
  have hf' : s.byName.find n = some g := hf
  unfold remove at h1
  simp only [hf', ho, Outcome.ok.injEq] at h1
  subst h1
  simp only [findById]
  rw [find_erase_ne _ _ _ ha, hid]

/-- Two groups, the first with an original id. -/
example : ∃ s, Reach false s ∧ s.findByName "A" = some 0 ∧ s.findByName "B" = some 1 ∧
    s.heap[0]? = some ⟨"A", true, some 3, 1⟩ := by
  have r1 := (Reach.init (removals := false)).step (.create true "A" (some 3)) trivial rfl
  have r2 := r1.step (.findOrCreate "B" none) trivial rfl
  exact ⟨_, r2, rfl, rfl, rfl⟩

end Vega.GroupSpec
