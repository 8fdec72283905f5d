import Verif.Mesh.FaceProps
import Verif.NastranWrite.CellProps
import Verif.NastranWrite.Pressures
import Verif.Geom.Vec
import Mathlib.Tactic.NormNum

/-! # C153: the surface cell made for a face of a solid has its normal outwards -/
namespace Vega.SkinsSpec
open Faces FaceSpec Vec

/-! ## Specification -/

/-- The double of the vector area of a polygon, from the triangles at its first corner. -/
def doubleArea : List Vec → Vec
  | a :: b :: c :: rest => add (cross (sub b a) (sub c a)) (doubleArea (a :: c :: rest))
  | _ => Vec.zero

/-- The mean of points. -/
noncomputable def centre (ps : List Vec) : Vec := smul (1 / ps.length) (ps.foldr add Vec.zero)

/-- The normal of a face, by the right-hand rule on its corners, points away from a point inside at every corner. -/
def Outward (corners : List Vec) (inside : Vec) : Prop := ∀ x ∈ corners, 0 < dot (doubleArea corners) (sub x inside)

/-- Likewise towards it. -/
def Inward (corners : List Vec) (inside : Vec) : Prop := ∀ x ∈ corners, dot (doubleArea corners) (sub x inside) < 0

/-- The corners of the solids in the order of the cards of Nastran: tetrahedron, pyramid on a square, prism, cube. -/
def reference : CellType → List (ℚ × ℚ × ℚ)
  | .tetra4 | .tetra10 => [(0, 0, 0), (1, 0, 0), (0, 1, 0), (0, 0, 1)]
  | .pyra5 | .pyra13 => [(0, 0, 0), (1, 0, 0), (1, 1, 0), (0, 1, 0), (1 / 2, 1 / 2, 1)]
  | .penta6 | .penta15 => [(0, 0, 0), (1, 0, 0), (0, 1, 0), (0, 0, 1), (1, 0, 1), (0, 1, 1)]
  | .hexa8 | .hexa20 => [(0, 0, 0), (1, 0, 0), (1, 1, 0), (0, 1, 0), (0, 0, 1), (1, 0, 1), (1, 1, 1), (0, 1, 1)]
  | _ => []

/-- A point in the frame with the origin `o` and the axes `u`, `v`, `w`. -/
noncomputable def place (o u v w : Vec) (r : ℚ × ℚ × ℚ) : Vec := add o (add (smul r.1 u) (add (smul r.2.1 v) (smul r.2.2 w)))

/-- The corners are an image of the reference solid under an affine map that keeps the right hand: any tetrahedron; a pyramid on a
parallelogram with any apex; a prism with parallel edges; a parallelepiped. -/
def RightHanded (t : CellType) (corners : List Vec) : Prop :=
  ∃ o u v w, 0 < dot (cross u v) w ∧ corners = (reference t).map (place o u v w)

/-- The corners of a solid, the first of its nodes. -/
def cellCorners (t : CellType) (ids : List α) : List α := ids.take (reference t).length

/-! ## Lemmas -/

/-- The corners of a solid as they are read. -/
theorem corner_at {t : CellType} {tb : List Nat} (ho : NastranWrite.IsOrder t tb) {ids med : List Int} (hl : ids.length = t.numNodes)
    (h : NastranWrite.scatter (some tb) t ids = .ok med) (X : Int → Vec) (ps : List Vec) (hps : (cellCorners t ids).map X = ps)
    (j p : Nat) (x : Vec) (hp : tb[j]? = some p) (hx : ps[j]? = some x) : X (idOf med (p + 1)) = x := by
  subst hps
  obtain ⟨out, h1, h2, h3⟩ := NastranWrite.scatter_spec ho hl
  rw [h] at h1
  simp only [Outcome.ok.injEq] at h1
  subst h1
  rw [List.getElem?_map, Option.map_eq_some_iff] at hx
  obtain ⟨i, hi, rfl⟩ := hx
  have hi' : ids[j]? = some i := by
    unfold cellCorners at hi
    have hlt := (List.getElem?_eq_some_iff.mp hi).1
    rw [List.getElem?_take_of_lt (by simp at hlt; omega)] at hi
    exact hi
  have := h3 j p i hp hi'
  simp [idOf, List.getD, this]

/-- The value at every corner of a face, for a polygon of three or four corners. -/
theorem outward_of {f : List Vec} {c : Vec} {d a : ℝ} (hd : 0 < d) (ha : 0 < a) (h : ∀ x ∈ f, dot (doubleArea f) (sub x c) = a * d) :
    Outward f c := by
  intro x hx
  rw [h x hx]
  positivity

theorem tetra_out (o u v w : Vec) (D : 0 < dot (cross u v) w) (P : Nat → Vec)
    (h1 : P 1 = place o u v w (0, 0, 0)) (h2 : P 3 = place o u v w (1, 0, 0)) (h3 : P 2 = place o u v w (0, 1, 0)) (h4 : P 4 = place o u v w (0, 0, 1)) :
    ∀ f ∈ [[1,2,3], [1,4,2], [1,3,4], [2,4,3]], Outward (f.map P) (centre ([(0, 0, 0), (1, 0, 0), (0, 1, 0), (0, 0, 1)].map (place o u v w))) := by
  simp only [List.forall_mem_cons, List.not_mem_nil, false_imp_iff, implies_true, and_true]
  refine ⟨?_, ?_, ?_, ?_⟩
  · refine outward_of D (a := 1 / 4) (by norm_num) ?_
    simp only [List.map_cons, List.map_nil, List.forall_mem_cons, List.not_mem_nil, false_imp_iff, implies_true, and_true]
    refine ⟨?_, ?_, ?_⟩ <;>
    · simp only [doubleArea, centre, List.map_cons, List.map_nil, List.foldr_cons, List.foldr_nil, h1, h2, h3, h4, place, dot, cross, sub, add, smul, Vec.zero,
        List.length_cons, List.length_nil]
      push_cast
      ring
  · refine outward_of D (a := 1 / 4) (by norm_num) ?_
    simp only [List.map_cons, List.map_nil, List.forall_mem_cons, List.not_mem_nil, false_imp_iff, implies_true, and_true]
    refine ⟨?_, ?_, ?_⟩ <;>
    · simp only [doubleArea, centre, List.map_cons, List.map_nil, List.foldr_cons, List.foldr_nil, h1, h2, h3, h4, place, dot, cross, sub, add, smul, Vec.zero,
        List.length_cons, List.length_nil]
      push_cast
      ring
  · refine outward_of D (a := 1 / 4) (by norm_num) ?_
    simp only [List.map_cons, List.map_nil, List.forall_mem_cons, List.not_mem_nil, false_imp_iff, implies_true, and_true]
    refine ⟨?_, ?_, ?_⟩ <;>
    · simp only [doubleArea, centre, List.map_cons, List.map_nil, List.foldr_cons, List.foldr_nil, h1, h2, h3, h4, place, dot, cross, sub, add, smul, Vec.zero,
        List.length_cons, List.length_nil]
      push_cast
      ring
  · refine outward_of D (a := 1 / 4) (by norm_num) ?_
    simp only [List.map_cons, List.map_nil, List.forall_mem_cons, List.not_mem_nil, false_imp_iff, implies_true, and_true]
    refine ⟨?_, ?_, ?_⟩ <;>
    · simp only [doubleArea, centre, List.map_cons, List.map_nil, List.foldr_cons, List.foldr_nil, h1, h2, h3, h4, place, dot, cross, sub, add, smul, Vec.zero,
        List.length_cons, List.length_nil]
      push_cast
      ring

theorem pyra_out (o u v w : Vec) (D : 0 < dot (cross u v) w) (P : Nat → Vec)
    (h1 : P 1 = place o u v w (0, 0, 0)) (h2 : P 4 = place o u v w (1, 0, 0)) (h3 : P 3 = place o u v w (1, 1, 0)) (h4 : P 2 = place o u v w (0, 1, 0)) (h5 : P 5 = place o u v w (1 / 2, 1 / 2, 1)) :
    ∀ f ∈ [[1,2,3,4], [1,5,2], [1,4,5], [4,3,5], [2,5,3]], Outward (f.map P) (centre ([(0, 0, 0), (1, 0, 0), (1, 1, 0), (0, 1, 0), (1 / 2, 1 / 2, 1)].map (place o u v w))) := by
  simp only [List.forall_mem_cons, List.not_mem_nil, false_imp_iff, implies_true, and_true]
  refine ⟨?_, ?_, ?_, ?_, ?_⟩
  · refine outward_of D (a := 2 / 5) (by norm_num) ?_
    simp only [List.map_cons, List.map_nil, List.forall_mem_cons, List.not_mem_nil, false_imp_iff, implies_true, and_true]
    refine ⟨?_, ?_, ?_, ?_⟩ <;>
    · simp only [doubleArea, centre, List.map_cons, List.map_nil, List.foldr_cons, List.foldr_nil, h1, h2, h3, h4, h5, place, dot, cross, sub, add, smul, Vec.zero,
        List.length_cons, List.length_nil]
      push_cast
      ring
  · refine outward_of D (a := 2 / 5) (by norm_num) ?_
    simp only [List.map_cons, List.map_nil, List.forall_mem_cons, List.not_mem_nil, false_imp_iff, implies_true, and_true]
    refine ⟨?_, ?_, ?_⟩ <;>
    · simp only [doubleArea, centre, List.map_cons, List.map_nil, List.foldr_cons, List.foldr_nil, h1, h2, h3, h4, h5, place, dot, cross, sub, add, smul, Vec.zero,
        List.length_cons, List.length_nil]
      push_cast
      ring
  · refine outward_of D (a := 2 / 5) (by norm_num) ?_
    simp only [List.map_cons, List.map_nil, List.forall_mem_cons, List.not_mem_nil, false_imp_iff, implies_true, and_true]
    refine ⟨?_, ?_, ?_⟩ <;>
    · simp only [doubleArea, centre, List.map_cons, List.map_nil, List.foldr_cons, List.foldr_nil, h1, h2, h3, h4, h5, place, dot, cross, sub, add, smul, Vec.zero,
        List.length_cons, List.length_nil]
      push_cast
      ring
  · refine outward_of D (a := 2 / 5) (by norm_num) ?_
    simp only [List.map_cons, List.map_nil, List.forall_mem_cons, List.not_mem_nil, false_imp_iff, implies_true, and_true]
    refine ⟨?_, ?_, ?_⟩ <;>
    · simp only [doubleArea, centre, List.map_cons, List.map_nil, List.foldr_cons, List.foldr_nil, h1, h2, h3, h4, h5, place, dot, cross, sub, add, smul, Vec.zero,
        List.length_cons, List.length_nil]
      push_cast
      ring
  · refine outward_of D (a := 2 / 5) (by norm_num) ?_
    simp only [List.map_cons, List.map_nil, List.forall_mem_cons, List.not_mem_nil, false_imp_iff, implies_true, and_true]
    refine ⟨?_, ?_, ?_⟩ <;>
    · simp only [doubleArea, centre, List.map_cons, List.map_nil, List.foldr_cons, List.foldr_nil, h1, h2, h3, h4, h5, place, dot, cross, sub, add, smul, Vec.zero,
        List.length_cons, List.length_nil]
      push_cast
      ring

theorem penta_out (o u v w : Vec) (D : 0 < dot (cross u v) w) (P : Nat → Vec)
    (h1 : P 1 = place o u v w (0, 0, 0)) (h2 : P 3 = place o u v w (1, 0, 0)) (h3 : P 2 = place o u v w (0, 1, 0)) (h4 : P 4 = place o u v w (0, 0, 1)) (h5 : P 6 = place o u v w (1, 0, 1)) (h6 : P 5 = place o u v w (0, 1, 1)) :
    ∀ f ∈ [[1,2,3], [4,6,5], [1,4,5,2], [1,3,6,4], [2,5,6,3]], Outward (f.map P) (centre ([(0, 0, 0), (1, 0, 0), (0, 1, 0), (0, 0, 1), (1, 0, 1), (0, 1, 1)].map (place o u v w))) := by
  simp only [List.forall_mem_cons, List.not_mem_nil, false_imp_iff, implies_true, and_true]
  refine ⟨?_, ?_, ?_, ?_, ?_⟩
  · refine outward_of D (a := 1 / 2) (by norm_num) ?_
    simp only [List.map_cons, List.map_nil, List.forall_mem_cons, List.not_mem_nil, false_imp_iff, implies_true, and_true]
    refine ⟨?_, ?_, ?_⟩ <;>
    · simp only [doubleArea, centre, List.map_cons, List.map_nil, List.foldr_cons, List.foldr_nil, h1, h2, h3, h4, h5, h6, place, dot, cross, sub, add, smul, Vec.zero,
        List.length_cons, List.length_nil]
      push_cast
      ring
  · refine outward_of D (a := 1 / 2) (by norm_num) ?_
    simp only [List.map_cons, List.map_nil, List.forall_mem_cons, List.not_mem_nil, false_imp_iff, implies_true, and_true]
    refine ⟨?_, ?_, ?_⟩ <;>
    · simp only [doubleArea, centre, List.map_cons, List.map_nil, List.foldr_cons, List.foldr_nil, h1, h2, h3, h4, h5, h6, place, dot, cross, sub, add, smul, Vec.zero,
        List.length_cons, List.length_nil]
      push_cast
      ring
  · refine outward_of D (a := 2 / 3) (by norm_num) ?_
    simp only [List.map_cons, List.map_nil, List.forall_mem_cons, List.not_mem_nil, false_imp_iff, implies_true, and_true]
    refine ⟨?_, ?_, ?_, ?_⟩ <;>
    · simp only [doubleArea, centre, List.map_cons, List.map_nil, List.foldr_cons, List.foldr_nil, h1, h2, h3, h4, h5, h6, place, dot, cross, sub, add, smul, Vec.zero,
        List.length_cons, List.length_nil]
      push_cast
      ring
  · refine outward_of D (a := 2 / 3) (by norm_num) ?_
    simp only [List.map_cons, List.map_nil, List.forall_mem_cons, List.not_mem_nil, false_imp_iff, implies_true, and_true]
    refine ⟨?_, ?_, ?_, ?_⟩ <;>
    · simp only [doubleArea, centre, List.map_cons, List.map_nil, List.foldr_cons, List.foldr_nil, h1, h2, h3, h4, h5, h6, place, dot, cross, sub, add, smul, Vec.zero,
        List.length_cons, List.length_nil]
      push_cast
      ring
  · refine outward_of D (a := 2 / 3) (by norm_num) ?_
    simp only [List.map_cons, List.map_nil, List.forall_mem_cons, List.not_mem_nil, false_imp_iff, implies_true, and_true]
    refine ⟨?_, ?_, ?_, ?_⟩ <;>
    · simp only [doubleArea, centre, List.map_cons, List.map_nil, List.foldr_cons, List.foldr_nil, h1, h2, h3, h4, h5, h6, place, dot, cross, sub, add, smul, Vec.zero,
        List.length_cons, List.length_nil]
      push_cast
      ring

theorem hexa_out (o u v w : Vec) (D : 0 < dot (cross u v) w) (P : Nat → Vec)
    (h1 : P 1 = place o u v w (0, 0, 0)) (h2 : P 4 = place o u v w (1, 0, 0)) (h3 : P 3 = place o u v w (1, 1, 0)) (h4 : P 2 = place o u v w (0, 1, 0)) (h5 : P 5 = place o u v w (0, 0, 1)) (h6 : P 8 = place o u v w (1, 0, 1)) (h7 : P 7 = place o u v w (1, 1, 1)) (h8 : P 6 = place o u v w (0, 1, 1)) :
    ∀ f ∈ [[1,2,3,4], [5,8,7,6], [1,5,6,2], [2,6,7,3], [3,7,8,4], [1,4,8,5]], Outward (f.map P) (centre ([(0, 0, 0), (1, 0, 0), (1, 1, 0), (0, 1, 0), (0, 0, 1), (1, 0, 1), (1, 1, 1), (0, 1, 1)].map (place o u v w))) := by
  simp only [List.forall_mem_cons, List.not_mem_nil, false_imp_iff, implies_true, and_true]
  refine ⟨?_, ?_, ?_, ?_, ?_, ?_⟩
  · refine outward_of D (a := 1) (by norm_num) ?_
    simp only [List.map_cons, List.map_nil, List.forall_mem_cons, List.not_mem_nil, false_imp_iff, implies_true, and_true]
    refine ⟨?_, ?_, ?_, ?_⟩ <;>
    · simp only [doubleArea, centre, List.map_cons, List.map_nil, List.foldr_cons, List.foldr_nil, h1, h2, h3, h4, h5, h6, h7, h8, place, dot, cross, sub, add, smul, Vec.zero,
        List.length_cons, List.length_nil]
      push_cast
      ring
  · refine outward_of D (a := 1) (by norm_num) ?_
    simp only [List.map_cons, List.map_nil, List.forall_mem_cons, List.not_mem_nil, false_imp_iff, implies_true, and_true]
    refine ⟨?_, ?_, ?_, ?_⟩ <;>
    · simp only [doubleArea, centre, List.map_cons, List.map_nil, List.foldr_cons, List.foldr_nil, h1, h2, h3, h4, h5, h6, h7, h8, place, dot, cross, sub, add, smul, Vec.zero,
        List.length_cons, List.length_nil]
      push_cast
      ring
  · refine outward_of D (a := 1) (by norm_num) ?_
    simp only [List.map_cons, List.map_nil, List.forall_mem_cons, List.not_mem_nil, false_imp_iff, implies_true, and_true]
    refine ⟨?_, ?_, ?_, ?_⟩ <;>
    · simp only [doubleArea, centre, List.map_cons, List.map_nil, List.foldr_cons, List.foldr_nil, h1, h2, h3, h4, h5, h6, h7, h8, place, dot, cross, sub, add, smul, Vec.zero,
        List.length_cons, List.length_nil]
      push_cast
      ring
  · refine outward_of D (a := 1) (by norm_num) ?_
    simp only [List.map_cons, List.map_nil, List.forall_mem_cons, List.not_mem_nil, false_imp_iff, implies_true, and_true]
    refine ⟨?_, ?_, ?_, ?_⟩ <;>
    · simp only [doubleArea, centre, List.map_cons, List.map_nil, List.foldr_cons, List.foldr_nil, h1, h2, h3, h4, h5, h6, h7, h8, place, dot, cross, sub, add, smul, Vec.zero,
        List.length_cons, List.length_nil]
      push_cast
      ring
  · refine outward_of D (a := 1) (by norm_num) ?_
    simp only [List.map_cons, List.map_nil, List.forall_mem_cons, List.not_mem_nil, false_imp_iff, implies_true, and_true]
    refine ⟨?_, ?_, ?_, ?_⟩ <;>
    · simp only [doubleArea, centre, List.map_cons, List.map_nil, List.foldr_cons, List.foldr_nil, h1, h2, h3, h4, h5, h6, h7, h8, place, dot, cross, sub, add, smul, Vec.zero,
        List.length_cons, List.length_nil]
      push_cast
      ring
  · refine outward_of D (a := 1) (by norm_num) ?_
    simp only [List.map_cons, List.map_nil, List.forall_mem_cons, List.not_mem_nil, false_imp_iff, implies_true, and_true]
    refine ⟨?_, ?_, ?_, ?_⟩ <;>
    · simp only [doubleArea, centre, List.map_cons, List.map_nil, List.foldr_cons, List.foldr_nil, h1, h2, h3, h4, h5, h6, h7, h8, place, dot, cross, sub, add, smul, Vec.zero,
        List.length_cons, List.length_nil]
      push_cast
      ring

/-- The third face of the hexahedron with twenty nodes. -/
theorem hexa_in (o u v w : Vec) (D : 0 < dot (cross u v) w) (P : Nat → Vec)
    (h1 : P 1 = place o u v w (0, 0, 0)) (h4 : P 2 = place o u v w (0, 1, 0)) (h5 : P 5 = place o u v w (0, 0, 1))
    (h8 : P 6 = place o u v w (0, 1, 1)) :
    Inward ([1, 2, 6, 5].map P) (centre ((reference .hexa20).map (place o u v w))) := by
  have : ∀ x ∈ [1, 2, 6, 5].map P, dot (doubleArea ([1, 2, 6, 5].map P)) (sub x (centre ((reference .hexa20).map (place o u v w)))) =
      (-1) * dot (cross u v) w := by
    simp only [List.map_cons, List.map_nil, List.forall_mem_cons, List.not_mem_nil, false_imp_iff, implies_true, and_true]
    refine ⟨?_, ?_, ?_, ?_⟩ <;>
    · simp only [doubleArea, centre, reference, List.map_cons, List.map_nil, List.foldr_cons, List.foldr_nil, h1, h4, h5, h8, place, dot, cross,
        sub, add, smul, Vec.zero, List.length_cons, List.length_nil]
      push_cast
      ring
  intro x hx
  rw [this x hx]
  linarith

/-! ## Properties -/

/-- **C153.** In every right-handed solid (any tetrahedron, a pyramid on a parallelogram, a prism, a parallelepiped, with straight or
curved edges) read from Nastran, the nodes of each face, in the order in which they are given to the surface cell, turn about the
outward normal. Not for the third face of HEXA20. -/
theorem C153_outward (t : CellType) (ht : Solid t) (ids : List Int) (hp : Proper t ids) (X : Int → Vec)
    (hr : RightHanded t ((cellCorners t ids).map X)) (med : List Int)
    (hmed : NastranWrite.scatter (NastranWrite.toMed t) t ids = .ok med) (tab : List (List Nat)) (htab : table t = some tab)
    (f : List Nat) (hf : f ∈ tab) (h20 : ¬ (t = .hexa20 ∧ f = [1,2,6,5,9,18,13,17])) :
    Outward ((cornersOf t (f.map (idOf med))).map X) (centre ((cellCorners t ids).map X)) := by
  obtain ⟨o, u, v, w, D, hc⟩ := hr
  have hk : ∀ tb, NastranWrite.toMed t = some tb → NastranWrite.IsOrder t tb → ∀ (j p : Nat) (x : ℚ × ℚ × ℚ), tb[j]? = some p →
      (reference t)[j]? = some x → (fun k => X (idOf med k)) (p + 1) = place o u v w x := by
    intro tb htb ho j p x h1 h2
    rw [htb] at hmed
    exact corner_at ho hp.1 hmed X _ hc j p _ h1 (by rw [List.getElem?_map, h2]; rfl)
  rw [corners_map, List.map_map, hc]
  change Outward ((cornersOf t f).map (fun k => X (idOf med k))) _
  rcases ht with rfl | rfl | rfl | rfl | rfl | rfl | rfl | rfl <;> simp only [table, Option.some.injEq] at htab <;> subst htab <;>
    have hk := hk _ rfl (by decide)
  · exact hexa_out o u v w D _ (hk 0 _ _ rfl rfl) (hk 1 _ _ rfl rfl) (hk 2 _ _ rfl rfl) (hk 3 _ _ rfl rfl) (hk 4 _ _ rfl rfl)
      (hk 5 _ _ rfl rfl) (hk 6 _ _ rfl rfl) (hk 7 _ _ rfl rfl) _ hf
  · exact tetra_out o u v w D _ (hk 0 _ _ rfl rfl) (hk 1 _ _ rfl rfl) (hk 2 _ _ rfl rfl) (hk 3 _ _ rfl rfl) _ hf
  · exact pyra_out o u v w D _ (hk 0 _ _ rfl rfl) (hk 1 _ _ rfl rfl) (hk 2 _ _ rfl rfl) (hk 3 _ _ rfl rfl) (hk 4 _ _ rfl rfl) _ hf
  · exact penta_out o u v w D _ (hk 0 _ _ rfl rfl) (hk 1 _ _ rfl rfl) (hk 2 _ _ rfl rfl) (hk 3 _ _ rfl rfl) (hk 4 _ _ rfl rfl)
      (hk 5 _ _ rfl rfl) _ hf
  · refine tetra_out o u v w D _ (hk 0 _ _ rfl rfl) (hk 1 _ _ rfl rfl) (hk 2 _ _ rfl rfl) (hk 3 _ _ rfl rfl) _ ?_
    fin_cases hf <;> decide
  · refine pyra_out o u v w D _ (hk 0 _ _ rfl rfl) (hk 1 _ _ rfl rfl) (hk 2 _ _ rfl rfl) (hk 3 _ _ rfl rfl) (hk 4 _ _ rfl rfl) _ ?_
    fin_cases hf <;> decide
  · refine penta_out o u v w D _ (hk 0 _ _ rfl rfl) (hk 1 _ _ rfl rfl) (hk 2 _ _ rfl rfl) (hk 3 _ _ rfl rfl) (hk 4 _ _ rfl rfl)
      (hk 5 _ _ rfl rfl) _ ?_
    fin_cases hf <;> decide
  · refine hexa_out o u v w D _ (hk 0 _ _ rfl rfl) (hk 1 _ _ rfl rfl) (hk 2 _ _ rfl rfl) (hk 3 _ _ rfl rfl) (hk 4 _ _ rfl rfl)
      (hk 5 _ _ rfl rfl) (hk 6 _ _ rfl rfl) (hk 7 _ _ rfl rfl) _ ?_
    fin_cases hf
    · decide
    · decide
    · exact absurd ⟨rfl, rfl⟩ h20
    · decide
    · decide
    · decide

/-- Outwards is false of the third face of every HEXA20: its skin has the normal inwards, and the pressure on it the wrong sign. -/
theorem C153_hexa20_false (ids : List Int) (hp : Proper .hexa20 ids) (X : Int → Vec)
    (hr : RightHanded .hexa20 ((cellCorners .hexa20 ids).map X)) (med : List Int)
    (hmed : NastranWrite.scatter (NastranWrite.toMed .hexa20) .hexa20 ids = .ok med) :
    ∃ tab f, table .hexa20 = some tab ∧ tab[2]? = some f ∧
      Inward ((cornersOf .hexa20 (f.map (idOf med))).map X) (centre ((cellCorners .hexa20 ids).map X)) := by
  refine ⟨_, _, rfl, rfl, ?_⟩
  obtain ⟨o, u, v, w, D, hc⟩ := hr
  have hk : ∀ tb, NastranWrite.toMed .hexa20 = some tb → NastranWrite.IsOrder .hexa20 tb → ∀ (j p : Nat) (x : ℚ × ℚ × ℚ),
      tb[j]? = some p → (reference .hexa20)[j]? = some x → (fun k => X (idOf med k)) (p + 1) = place o u v w x := by
    intro tb htb ho j p x h1 h2
    rw [htb] at hmed
    exact corner_at ho hp.1 hmed X _ hc j p _ h1 (by rw [List.getElem?_map, h2]; rfl)
  rw [corners_map, List.map_map, hc]
  have hk := hk _ rfl (by decide)
  exact hexa_in o u v w D _ (hk 0 _ _ rfl rfl) (hk 3 _ _ rfl rfl) (hk 4 _ _ rfl rfl) (hk 7 _ _ rfl rfl)

/-- The force of a pressure `PRES_REP` on a flat surface cell: against the normal, in proportion to the area. -/
noncomputable def thrust (pres : ℝ) (corners : List Vec) : Vec := smul (-pres / 2) (doubleArea corners)

/-- **C153.** A card PLOAD4 with two nodes and without direction pushes every face, other than the third of HEXA20, into the solid
when its pressure is positive, and pulls when it is negative: the sign goes through the reader and the writer. -/
theorem C153_pushes (t : CellType) (ht : Solid t) (ids : List Int) (hp : Proper t ids) (X : Int → Vec)
    (hr : RightHanded t ((cellCorners t ids).map X)) (med : List Int)
    (hmed : NastranWrite.scatter (NastranWrite.toMed t) t ids = .ok med) (tab : List (List Nat)) (htab : table t = some tab)
    (f : List Nat) (hf : f ∈ tab) (h20 : ¬ (t = .hexa20 ∧ f = [1,2,6,5,9,18,13,17])) (p : Dbl) (i j : Int)
    (hi : i ≠ NastranWrite.unavailableInt) :
    ∃ q, NastranWrite.pload4Load p i j 0 ⟨0, 0, 0⟩ = .faceNodes q i (NastranWrite.available j) ∧
      (0 < p → ∀ x ∈ (cornersOf t (f.map (idOf med))).map X,
        dot (thrust (-q : Dbl) ((cornersOf t (f.map (idOf med))).map X)) (sub x (centre ((cellCorners t ids).map X))) < 0) ∧
      (p < 0 → ∀ x ∈ (cornersOf t (f.map (idOf med))).map X,
        0 < dot (thrust (-q : Dbl) ((cornersOf t (f.map (idOf med))).map X)) (sub x (centre ((cellCorners t ids).map X)))) := by
  have ho := C153_outward t ht ids hp X hr med hmed tab htab f hf h20
  have hd : NastranWrite.hasDirection 0 ⟨0, 0, 0⟩ = false := by decide +kernel
  have hdot : ∀ (k : ℝ) (a b : Vec), dot (smul k a) b = k * dot a b := by
    intro k a b; simp only [dot, smul]; ring
  refine ⟨-p, ?_, ?_, ?_⟩
  · simp [NastranWrite.pload4Load, hd, NastranWrite.available, hi]
  · intro h0 x hx
    have h1 := ho x hx
    have h2 : (0 : ℝ) < (p : ℝ) := by exact_mod_cast h0
    rw [thrust, hdot]
    push_cast
    nlinarith
  · intro h0 x hx
    have h1 := ho x hx
    have h2 : (p : ℝ) < 0 := by exact_mod_cast h0
    rw [thrust, hdot]
    push_cast
    nlinarith

/-- A hexahedron of side 2, its nodes in the order of the card. -/
example : RightHanded .hexa8 (cellCorners .hexa8 ((reference .hexa8).map fun r => (⟨2 * r.1, 2 * r.2.1, 2 * r.2.2⟩ : Vec))) := by
  refine ⟨⟨0, 0, 0⟩, ⟨2, 0, 0⟩, ⟨0, 2, 0⟩, ⟨0, 0, 2⟩, by norm_num [dot, cross], ?_⟩
  simp [cellCorners, reference, place, add, smul]

end Vega.SkinsSpec
