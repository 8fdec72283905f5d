import Verif.Mesh.FaceLost

/-! # C19: exactly which faces of quadratic tetrahedra are found again -/
namespace Vega.FaceSpec
open Faces

/-- The nodes of a quadratic tetrahedron that are not on its face `n`. -/
def tetra10Outside : Nat → List Nat
  | 1 => [4, 8, 9, 10]
  | 2 => [3, 6, 7, 10]
  | 3 => [2, 5, 6, 9]
  | _ => [1, 5, 7, 8]

/-- Those of them that lead to another face. -/
def tetra10Misleading : Nat → List Nat
  | 1 => [8, 9, 10]
  | 2 => [6, 7]
  | 3 => [5]
  | _ => []

/-- **C19** on every quadratic tetrahedron, whatever its nodes, a face is found again exactly when the node
with the smallest id among those not on the face is not a misleading one. -/
theorem C19_tetra10_exactly_partial (ids : List Int) (hp : Proper .tetra10 ids) (n : Nat) (hn : 1 ≤ n ∧ n ≤ 4) :
    RoundTrip .tetra10 ids n ↔
      ∀ m ∈ tetra10Misleading n, ∃ k ∈ tetra10Outside n, idOf ids k < idOf ids m := by
  have key : ∃ tab f a, table .tetra10 = some tab ∧ (∀ f ∈ tab, ∀ k ∈ f, k ∈ numbers .tetra10) ∧ tab[n - 1]? = some f ∧
      f[0]? = some a ∧ (∃ k ∈ numbers .tetra10, k ∉ f) ∧ (∀ k ∈ numbers .tetra10, k ∉ f ↔ k ∈ tetra10Outside n) ∧
      (∀ k ∈ tetra10Outside n, k ∈ numbers .tetra10) ∧
      (∀ k ∈ tetra10Misleading n, k ∈ tetra10Outside n) ∧
      (∀ k ∈ tetra10Outside n, k ∉ tetra10Misleading n → pick .tetra10 tab a (some k) = .ok f) ∧
      (∀ k ∈ tetra10Misleading n, ∃ f' ∈ tab, f' ≠ f ∧ pick .tetra10 tab a (some k) = .ok f') := by
    have hc : n = 1 ∨ n = 2 ∨ n = 3 ∨ n = 4 := by omega
    rcases hc with rfl | rfl | rfl | rfl <;>
      exact ⟨_, _, _, rfl, by decide, rfl, rfl, by decide, by decide, by decide, by decide, by decide, by decide⟩
  obtain ⟨tab, f, a, h1, h2, h3, h4, h5, h6, h7, h8, h9, h10⟩ := key
  have hfn := h2 f (List.mem_of_getElem? h3)
  obtain ⟨k, k1, k2, k3, k4⟩ := smallestOutside_spec hp f hfn h5
  have hab : twoNodeIds .tetra10 ids n = .ok (idOf ids a, (some k).map (idOf ids)) := by
    unfold twoNodeIds
    rw [twoNodeIds_unfold hp h1 h2, Outcome.bind_ok]
    have hface : (if n = 0 then [] else ((tab.map fun f => f.map (idOf ids))[n - 1]?).getD []) = f.map (idOf ids) := by
      rw [if_neg (by omega), List.getElem?_map, h3]; rfl
    have hat : at_ (f.map (idOf ids)) 0 = .ok (idOf ids a) := by
      unfold at_
      rw [List.getElem?_map, h4]; rfl
    rw [hface]
    simp only [hat, k3, Outcome.bind_ok, Option.map_some]
  have ha := hfn a (List.mem_of_getElem? h4)
  by_cases hk : k ∈ tetra10Misleading n
  · obtain ⟨f', g1, g2, g3⟩ := h10 k hk
    refine iff_of_false (no_roundTrip hp rfl h1 h2 h3 g1 hab ha (by rintro j ⟨⟩; exact k1) g3 g2) ?_
    intro h
    obtain ⟨j, j1, j2⟩ := h k hk
    have := k4 j (h7 j j1) ((h6 j (h7 j j1)).mpr j1)
    omega
  · have ko := (h6 k k1).mp k2
    refine iff_of_true (roundTrip_of_pick hp rfl h1 h2 hn.1 h3 hab ha (by rintro j ⟨⟩; exact k1) (h9 k ko hk)) ?_
    intro m hm
    refine ⟨k, ko, ?_⟩
    have mo := h8 m hm
    have := k4 m (h7 m mo) ((h6 m (h7 m mo)).mpr mo)
    rcases lt_or_eq_of_le this with h | h
    · exact h
    · have b1 := mem_numbers.1 k1
      have b2 := mem_numbers.1 (h7 m mo)
      have := idOf_inj hp.2 (by rw [hp.1]; exact b1) (by rw [hp.1]; exact b2) h
      exact absurd (this ▸ hm) hk

/-- **C19** the last face of a quadratic tetrahedron is always found again. -/
theorem C19_tetra10_last (ids : List Int) (hp : Proper .tetra10 ids) : RoundTrip .tetra10 ids 4 :=
  (C19_tetra10_exactly_partial ids hp 4 (by decide)).mpr (by intro m hm; cases hm)

example : Proper .tetra10 [11, 12, 13, 14, 15, 16, 17, 1, 18, 19] ∧
    ¬ RoundTrip .tetra10 [11, 12, 13, 14, 15, 16, 17, 1, 18, 19] 1 ∧
    RoundTrip .tetra10 [11, 12, 13, 14, 15, 16, 17, 1, 18, 19] 2 := by
  have hp : Proper .tetra10 [11, 12, 13, 14, 15, 16, 17, 1, 18, 19] := ⟨rfl, by decide⟩
  refine ⟨hp, ?_, ?_⟩ <;> rw [C19_tetra10_exactly_partial _ hp _ (by decide)] <;> decide

end Vega.FaceSpec
