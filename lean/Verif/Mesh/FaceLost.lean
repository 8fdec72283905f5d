import Verif.Mesh.FaceProps

/-! # C19: the faces that are never found again -/
namespace Vega.FaceSpec
open Faces

theorem map_idOf_inj {ids : List Int} (hn : ids.Nodup) : ∀ (f f' : List Nat),
    (∀ k ∈ f, 1 ≤ k ∧ k ≤ ids.length) → (∀ k ∈ f', 1 ≤ k ∧ k ≤ ids.length) →
    f.map (idOf ids) = f'.map (idOf ids) → f = f'
  | [], [], _, _, _ => rfl
  | [], _ :: _, _, _, h => by simp at h
  | _ :: _, [], _, _, h => by simp at h
  | a :: f, b :: f', h1, h2, h => by
    simp only [List.map_cons, List.cons.injEq] at h
    rw [idOf_inj hn (h1 a (by simp)) (h2 b (by simp)) h.1,
      map_idOf_inj hn f f' (fun k hk => h1 k (by simp [hk])) (fun k hk => h2 k (by simp [hk])) h.2]

/-- No round trip when the table gives another face. -/
theorem no_roundTrip {t : CellType} {ids : List Int} (hp : Proper t ids) (hd : t.dim = 3) {tab : List (List Nat)}
    (htab : table t = some tab) (hnum : ∀ f ∈ tab, ∀ k ∈ f, k ∈ numbers t) {n : Nat} {f f' : List Nat}
    (hf : tab[n - 1]? = some f) (hf' : f' ∈ tab) {a : Nat} {b : Option Nat}
    (hab : twoNodeIds t ids n = .ok (idOf ids a, b.map (idOf ids)))
    (ha : a ∈ numbers t) (hb : ∀ k, b = some k → k ∈ numbers t) (hpick : pick t tab a b = .ok f') (hne : f' ≠ f) :
    ¬ RoundTrip t ids n := by
  rintro ⟨fs, x, i, j, h1, _, h2, h3, h4⟩
  have hB := numbers_bound hp hnum
  rw [twoNodeIds_unfold hp htab hnum] at h1
  injection h1 with h1
  subst h1
  rw [List.getElem?_map, hf] at h2
  injection h2 with h2
  rw [hab] at h3
  injection h3 with h3
  injection h3 with h3 h5
  subst h3 h5 h2
  rw [face_from_numbers hp hd htab ha hb hpick (hnum f' hf')] at h4
  injection h4 with h4
  exact hne (map_idOf_inj hp.2 f' f (hB f' hf') (hB f (List.mem_of_getElem? hf)) h4)

/-- **C19** on every pentahedron, linear or quadratic, whatever its nodes, another face is found for the
second and third quadrangles. -/
theorem C19_penta_always_false (t : CellType) (ht : t = .penta6 ∨ t = .penta15) (ids : List Int)
    (hp : Proper t ids) (n : Nat) (hn : n = 4 ∨ n = 5) : ¬ RoundTrip t ids n := by
  rcases ht with rfl | rfl <;> rcases hn with rfl | rfl
  · exact no_roundTrip hp rfl rfl (by decide) rfl (f' := [1, 2, 3]) (by decide) (a := 1) (b := some 3)
      (by unfold twoNodeIds; rw [twoNodeIds_unfold hp rfl (by decide)]; exact rfl) (by decide) (by rintro k ⟨⟩; decide) rfl
      (by decide)
  · exact no_roundTrip hp rfl rfl (by decide) rfl (f' := [1, 4, 5, 2]) (by decide) (a := 2) (b := some 5)
      (by unfold twoNodeIds; rw [twoNodeIds_unfold hp rfl (by decide)]; exact rfl) (by decide) (by rintro k ⟨⟩; decide) rfl
      (by decide)
  · exact no_roundTrip hp rfl rfl (by decide) rfl (f' := [1, 2, 3, 7, 8, 9]) (by decide) (a := 1) (b := some 3)
      (by unfold twoNodeIds; rw [twoNodeIds_unfold hp rfl (by decide)]; exact rfl) (by decide) (by rintro k ⟨⟩; decide) rfl
      (by decide)
  · exact no_roundTrip hp rfl rfl (by decide) rfl (f' := [1, 4, 5, 2, 13, 10, 14, 7]) (by decide) (a := 2) (b := some 5)
      (by unfold twoNodeIds; rw [twoNodeIds_unfold hp rfl (by decide)]; exact rfl) (by decide) (by rintro k ⟨⟩; decide) rfl
      (by decide)

/-- **C19** on every pyramid, linear or quadratic, whatever its nodes, another face is found for the three
last triangles. -/
theorem C19_pyra_always_false (t : CellType) (ht : t = .pyra5 ∨ t = .pyra13) (ids : List Int)
    (hp : Proper t ids) (n : Nat) (hn : n = 3 ∨ n = 4 ∨ n = 5) : ¬ RoundTrip t ids n := by
  rcases ht with rfl | rfl <;> rcases hn with rfl | rfl | rfl
  · exact no_roundTrip hp rfl rfl (by decide) rfl (f' := [1, 5, 2]) (by decide) (a := 1) (b := none)
      (by unfold twoNodeIds; rw [twoNodeIds_unfold hp rfl (by decide)]; exact rfl) (by decide) (by rintro k ⟨⟩) rfl
      (by decide)
  · exact no_roundTrip hp rfl rfl (by decide) rfl (f' := [1, 4, 5]) (by decide) (a := 4) (b := none)
      (by unfold twoNodeIds; rw [twoNodeIds_unfold hp rfl (by decide)]; exact rfl) (by decide) (by rintro k ⟨⟩) rfl
      (by decide)
  · exact no_roundTrip hp rfl rfl (by decide) rfl (f' := [1, 5, 2]) (by decide) (a := 2) (b := none)
      (by unfold twoNodeIds; rw [twoNodeIds_unfold hp rfl (by decide)]; exact rfl) (by decide) (by rintro k ⟨⟩) rfl
      (by decide)
  · exact no_roundTrip hp rfl rfl (by decide) rfl (f' := [1, 5, 2, 10, 11, 6]) (by decide) (a := 1) (b := none)
      (by unfold twoNodeIds; rw [twoNodeIds_unfold hp rfl (by decide)]; exact rfl) (by decide) (by rintro k ⟨⟩) rfl
      (by decide)
  · exact no_roundTrip hp rfl rfl (by decide) rfl (f' := [1, 4, 5, 9, 13, 10]) (by decide) (a := 4) (b := none)
      (by unfold twoNodeIds; rw [twoNodeIds_unfold hp rfl (by decide)]; exact rfl) (by decide) (by rintro k ⟨⟩) rfl
      (by decide)
  · exact no_roundTrip hp rfl rfl (by decide) rfl (f' := [1, 5, 2, 10, 11, 6]) (by decide) (a := 2) (b := none)
      (by unfold twoNodeIds; rw [twoNodeIds_unfold hp rfl (by decide)]; exact rfl) (by decide) (by rintro k ⟨⟩) rfl
      (by decide)

example : Proper .penta15 [15, 14, 13, 12, 11, 10, 9, 8, 7, 6, 5, 4, 3, 2, 1] ∧ Proper .pyra5 [31, 12, 7, 4, 100] :=
  ⟨⟨rfl, by decide⟩, ⟨rfl, by decide⟩⟩

end Vega.FaceSpec
