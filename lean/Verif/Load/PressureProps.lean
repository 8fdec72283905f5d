import Verif.Load.Pressure

/-!
# The force applied by a pressure (C40)
-/
namespace Vega.PressureSpec
open Vec Pressure

/-- Vector area of a triangle: half the cross product of two sides. -/
noncomputable def triArea (a b c : Vec) : Vec := smul (1 / 2) (cross (sub b a) (sub c a))

/-- Sum of vectors. -/
def total (l : List Vec) : Vec := l.foldr add zero

/-- The forces at the nodes of a loading, in the order of its nodes. -/
def Forces (pos : Nat → Vec) (p : Pressure) (fs : List Vec) : Prop :=
  List.Forall₂ (fun n f => p.force pos n = .ok (some f)) p.nodes fs

theorem triForce_eq (k : ℝ) {c : Vec} (h : c ≠ zero) : triForce k c = some (smul (k / 2) c) := by
  have hn : c.norm ≠ 0 := fun e => h (norm_eq_zero.mp e)
  unfold triForce
  rw [normalized_eq h]
  simp only [Option.map_some, Option.some.injEq]
  ext <;> simp only [smul] <;> field_simp

/-- **C40** triangle: if its three nodes are not aligned, each node gets a third of the
pressure times the vector area of the triangle; the forces sum to pressure times vector area. -/
theorem C40_triangle (pos : Nat → Vec) (p : Pressure) (h4 : p.n4 = none)
    (ha : triArea (pos p.n1) (pos p.n2) (pos p.n3) ≠ zero) :
    ∃ f, Forces pos p [f, f, f] ∧
      total [f, f, f] = smul p.magnitude (triArea (pos p.n1) (pos p.n2) (pos p.n3)) := by
  have hc : cross (sub (pos p.n2) (pos p.n1)) (sub (pos p.n3) (pos p.n1)) ≠ zero := by
    intro e
    apply ha
    unfold triArea
    rw [e]
    simp [smul, zero]
  refine ⟨smul (p.magnitude / 3 / 2) (cross (sub (pos p.n2) (pos p.n1)) (sub (pos p.n3) (pos p.n1))),
    ?_, ?_⟩
  · have : ∀ n ∈ p.nodes, p.force pos n = .ok (some (smul (p.magnitude / 3 / 2)
        (cross (sub (pos p.n2) (pos p.n1)) (sub (pos p.n3) (pos p.n1))))) := by
      intro n hn
      unfold force
      rw [if_neg (by simpa using hn), h4]
      simp only [triForce_eq _ hc]
    unfold Forces
    have hl : p.nodes = [p.n1, p.n2, p.n3] := by simp [nodes, h4]
    rw [hl] at this ⊢
    simpa using this
  · ext <;> simp only [total, List.foldr, add, smul, zero, triArea] <;> ring

/-- The two ways of cutting a quadrangle into triangles give the same vector area. -/
theorem quad_area (a b c d : Vec) :
    add (triArea a b c) (triArea a c d) = add (triArea a b d) (triArea b c d) := by
  ext <;> simp only [triArea, add, smul, cross, sub] <;> ring

/-- No three corners aligned. -/
def NonDegenerate (a b c d : Vec) : Prop :=
  triArea a b c ≠ zero ∧ triArea a c d ≠ zero ∧ triArea a b d ≠ zero ∧ triArea b c d ≠ zero

theorem cross_ne_of_area {a b c : Vec} (h : triArea a b c ≠ zero) :
    cross (sub b a) (sub c a) ≠ zero := by
  intro e
  apply h
  unfold triArea
  rw [e]
  simp [smul, zero]

/-- **C40** quadrangle: if its nodes are distinct and no three corners are aligned, planar or
warped, convex or not, the nodal forces sum to the pressure times the vector area of its two
triangles, whichever diagonal it is cut along. -/
theorem C40_quadrangle (pos : Nat → Vec) (p : Pressure) (n4 : Nat) (h4 : p.n4 = some n4)
    (hd : p.nodes.Nodup) (ha : NonDegenerate (pos p.n1) (pos p.n2) (pos p.n3) (pos n4)) :
    ∃ f1 f2 f3 f4, Forces pos p [f1, f2, f3, f4] ∧
      total [f1, f2, f3, f4] =
        smul p.magnitude (add (triArea (pos p.n1) (pos p.n2) (pos p.n3))
          (triArea (pos p.n1) (pos p.n3) (pos n4))) := by
  obtain ⟨a1, a2, a3, a4⟩ := ha
  have c1 := cross_ne_of_area a1
  have c2 := cross_ne_of_area a2
  have c3 := cross_ne_of_area a3
  have c4 := cross_ne_of_area a4
  have hl : p.nodes = [p.n1, p.n2, p.n3, n4] := by simp [nodes, h4]
  rw [hl] at hd
  simp only [List.nodup_cons, List.mem_cons, List.not_mem_nil, or_false, not_or, List.nodup_nil,
    not_false_eq_true, and_true] at hd
  obtain ⟨⟨d12, d13, d14⟩, ⟨d23, d24⟩, d34⟩ := hd
  by_cases hs : (sub (pos p.n3) (pos p.n1)).norm < (sub (pos n4) (pos p.n2)).norm
  · have e : ∀ n ∈ p.nodes, p.force pos n = force13 p.magnitude p.n1 p.n2 p.n3 n4 n
        (sub (pos p.n2) (pos p.n1)) (sub (pos p.n3) (pos p.n1)) (sub (pos n4) (pos p.n1)) := by
      intro n hn
      unfold force
      rw [if_neg (by simpa using hn), h4]
      simp only [if_pos hs]
    unfold Forces
    rw [hl] at e ⊢
    simp only [List.forall₂_cons, List.forall₂_nil_right_iff, and_true]
    rw [e p.n1 (by simp), e p.n2 (by simp), e p.n3 (by simp), e n4 (by simp)]
    simp only [force13, triForce_eq _ c1, triForce_eq _ c2, true_or, or_true, if_true,
      d12, d23, d14, d24, d34, Ne.symm d12, Ne.symm d13, Ne.symm d14, Ne.symm d24, Ne.symm d34,
      or_self, if_false, addOpt, Option.map_some, Outcome.ok.injEq, Option.some.injEq]
    refine ⟨_, _, _, _, ⟨rfl, rfl, rfl, rfl⟩, ?_⟩
    ext <;> simp only [total, List.foldr, add, smul, zero, triArea] <;> ring
  · have e : ∀ n ∈ p.nodes, p.force pos n = force24 p.magnitude p.n1 p.n2 p.n3 n4 n
        (sub (pos p.n2) (pos p.n1)) (sub (pos n4) (pos p.n1)) (sub (pos p.n3) (pos p.n2))
        (sub (pos n4) (pos p.n2)) := by
      intro n hn
      unfold force
      rw [if_neg (by simpa using hn), h4]
      simp only [if_neg hs]
    unfold Forces
    rw [hl, quad_area] at *
    simp only [List.forall₂_cons, List.forall₂_nil_right_iff, and_true]
    rw [e p.n1 (by simp), e p.n2 (by simp), e p.n3 (by simp), e n4 (by simp)]
    simp only [force24, triForce_eq _ c3, triForce_eq _ c4, true_or, or_true, if_true,
      d12, d13, d23, d14, d24, d34, Ne.symm d12, Ne.symm d13, Ne.symm d23,
      or_self, if_false, addOpt, Option.map_some, Outcome.ok.injEq, Option.some.injEq]
    refine ⟨_, _, _, _, ⟨rfl, rfl, rfl, rfl⟩, ?_⟩
    ext <;> simp only [total, List.foldr, add, smul, zero, triArea] <;> ring

/-- What the corners of a quadrangle get, when the nodes at `a` and `c` end the diagonal it is cut
along: half of the force on its triangle for the two others, a quarter of both for these. -/
noncomputable def shares (m : ℝ) (a b c d : Vec) : List Vec :=
  let f := smul (m / 4) (add (triArea a b c) (triArea a c d))
  [f, smul (m / 2) (triArea a b c), f, smul (m / 2) (triArea a c d)]

/-- **C40** quadrangle, node by node: it is cut along its shorter diagonal. -/
theorem C40_shares (pos : Nat → Vec) (p : Pressure) (n4 : Nat) (h4 : p.n4 = some n4)
    (hd : p.nodes.Nodup) (ha : NonDegenerate (pos p.n1) (pos p.n2) (pos p.n3) (pos n4)) :
    ((sub (pos p.n3) (pos p.n1)).norm < (sub (pos n4) (pos p.n2)).norm →
      Forces pos p (shares p.magnitude (pos p.n1) (pos p.n2) (pos p.n3) (pos n4))) ∧
    (¬ (sub (pos p.n3) (pos p.n1)).norm < (sub (pos n4) (pos p.n2)).norm →
      ∃ f1 f2 f3 f4, shares p.magnitude (pos p.n2) (pos p.n3) (pos n4) (pos p.n1) = [f2, f3, f4, f1] ∧
        Forces pos p [f1, f2, f3, f4]) := by
  obtain ⟨a1, a2, a3, a4⟩ := ha
  have c1 := cross_ne_of_area a1
  have c2 := cross_ne_of_area a2
  have c3 := cross_ne_of_area a3
  have c4 := cross_ne_of_area a4
  have hl : p.nodes = [p.n1, p.n2, p.n3, n4] := by simp [nodes, h4]
  rw [hl] at hd
  simp only [List.nodup_cons, List.mem_cons, List.not_mem_nil, or_false, not_or, List.nodup_nil,
    not_false_eq_true, and_true] at hd
  obtain ⟨⟨d12, d13, d14⟩, ⟨d23, d24⟩, d34⟩ := hd
  refine ⟨fun hs => ?_, fun hs => ?_⟩
  · have e : ∀ n ∈ p.nodes, p.force pos n = force13 p.magnitude p.n1 p.n2 p.n3 n4 n
        (sub (pos p.n2) (pos p.n1)) (sub (pos p.n3) (pos p.n1)) (sub (pos n4) (pos p.n1)) := by
      intro n hn
      unfold force
      rw [if_neg (by simpa using hn), h4]
      simp only [if_pos hs]
    unfold Forces shares
    rw [hl] at e ⊢
    simp only [List.forall₂_cons, List.forall₂_nil_right_iff, and_true]
    rw [e p.n1 (by simp), e p.n2 (by simp), e p.n3 (by simp), e n4 (by simp)]
    simp only [force13, triForce_eq _ c1, triForce_eq _ c2, true_or, or_true, if_true,
      d12, d23, d14, d24, d34, Ne.symm d12, Ne.symm d13, Ne.symm d14, Ne.symm d24, Ne.symm d34,
      or_self, if_false, addOpt, Option.map_some, Outcome.ok.injEq, Option.some.injEq]
    refine ⟨?_, ?_, ?_, ?_⟩ <;> ext <;> simp only [add, smul, triArea] <;> ring
  · have e : ∀ n ∈ p.nodes, p.force pos n = force24 p.magnitude p.n1 p.n2 p.n3 n4 n
        (sub (pos p.n2) (pos p.n1)) (sub (pos n4) (pos p.n1)) (sub (pos p.n3) (pos p.n2))
        (sub (pos n4) (pos p.n2)) := by
      intro n hn
      unfold force
      rw [if_neg (by simpa using hn), h4]
      simp only [if_neg hs]
    refine ⟨_, _, _, _, rfl, ?_⟩
    unfold Forces
    rw [hl] at e ⊢
    simp only [List.forall₂_cons, List.forall₂_nil_right_iff, and_true]
    rw [e p.n1 (by simp), e p.n2 (by simp), e p.n3 (by simp), e n4 (by simp)]
    simp only [force24, triForce_eq _ c3, triForce_eq _ c4, true_or, or_true, if_true,
      d12, d13, d23, d14, d24, d34, Ne.symm d12, Ne.symm d13, Ne.symm d23,
      or_self, if_false, addOpt, Option.map_some, Outcome.ok.injEq, Option.some.injEq]
    refine ⟨?_, ?_, ?_, ?_⟩ <;> ext <;>
      simp only [add, smul, triArea, cross, sub] <;> ring

/-- **C40** a rectangle, or any parallelogram: every corner gets a quarter of the force. -/
theorem C40_parallelogram (pos : Nat → Vec) (p : Pressure) (n4 : Nat) (h4 : p.n4 = some n4)
    (hd : p.nodes.Nodup) (hp : sub (pos p.n2) (pos p.n1) = sub (pos p.n3) (pos n4))
    (ha : triArea (pos p.n1) (pos p.n2) (pos p.n3) ≠ zero) :
    let f := smul (p.magnitude / 2) (triArea (pos p.n1) (pos p.n2) (pos p.n3))
    Forces pos p [f, f, f, f] := by
  intro f
  have c1 := cross_ne_of_area ha
  have hx := congrArg Vec.x hp
  have hy := congrArg Vec.y hp
  have hz := congrArg Vec.z hp
  simp only [sub] at hx hy hz
  have q : pos n4 = ⟨(pos p.n3).x - (pos p.n2).x + (pos p.n1).x,
      (pos p.n3).y - (pos p.n2).y + (pos p.n1).y, (pos p.n3).z - (pos p.n2).z + (pos p.n1).z⟩ := by
    ext <;> simp only <;> linarith
  have e2 : cross (sub (pos p.n3) (pos p.n1)) (sub (pos n4) (pos p.n1)) =
      cross (sub (pos p.n2) (pos p.n1)) (sub (pos p.n3) (pos p.n1)) := by
    rw [q]; ext <;> simp only [cross, sub] <;> ring
  have e3 : cross (sub (pos p.n2) (pos p.n1)) (sub (pos n4) (pos p.n1)) =
      cross (sub (pos p.n2) (pos p.n1)) (sub (pos p.n3) (pos p.n1)) := by
    rw [q]; ext <;> simp only [cross, sub] <;> ring
  have e4 : cross (sub (pos p.n3) (pos p.n2)) (sub (pos n4) (pos p.n2)) =
      cross (sub (pos p.n2) (pos p.n1)) (sub (pos p.n3) (pos p.n1)) := by
    rw [q]; ext <;> simp only [cross, sub] <;> ring
  have hl : p.nodes = [p.n1, p.n2, p.n3, n4] := by simp [nodes, h4]
  rw [hl] at hd
  simp only [List.nodup_cons, List.mem_cons, List.not_mem_nil, or_false, not_or, List.nodup_nil,
    not_false_eq_true, and_true] at hd
  obtain ⟨⟨d12, d13, d14⟩, ⟨d23, d24⟩, d34⟩ := hd
  have hf : ∀ c : Vec, c = cross (sub (pos p.n2) (pos p.n1)) (sub (pos p.n3) (pos p.n1)) →
      add (smul (p.magnitude / 4 / 2) c) (smul (p.magnitude / 4 / 2) c) = f ∧
      smul 2 (smul (p.magnitude / 4 / 2) c) = f := by
    rintro c rfl
    constructor <;> ext <;> simp only [add, smul, f, triArea] <;> ring
  have key : ∀ n ∈ p.nodes, p.force pos n = .ok (some f) := by
    intro n hn
    have hn' := hn
    rw [hl] at hn'
    simp only [List.mem_cons, List.not_mem_nil, or_false] at hn'
    unfold force
    rw [if_neg (by simpa using hn), h4]
    simp only [force13, force24, e2, e3, e4, triForce_eq _ c1, addOpt, Option.map_some,
      (hf _ rfl).1, (hf _ rfl).2]
    rcases hn' with rfl | rfl | rfl | rfl <;> simp
  unfold Forces
  rw [hl] at key ⊢
  simpa using key

-- a square of side 2 and a triangle meet the hypotheses
noncomputable def square : Nat → Vec
  | 1 => ⟨0, 0, 0⟩
  | 2 => ⟨2, 0, 0⟩
  | 3 => ⟨2, 2, 0⟩
  | _ => ⟨0, 2, 0⟩

example : triArea (square 1) (square 2) (square 3) ≠ zero ∧
    NonDegenerate (square 1) (square 2) (square 3) (square 4) ∧
    sub (square 2) (square 1) = sub (square 3) (square 4) := by
  have h : ∀ {v : Vec}, v.z ≠ 0 → v ≠ zero := by rintro v h rfl; exact h rfl
  refine ⟨h ?_, ⟨h ?_, h ?_, h ?_, h ?_⟩, ?_⟩
  · norm_num [triArea, smul, cross, sub, square]
  · norm_num [triArea, smul, cross, sub, square]
  · norm_num [triArea, smul, cross, sub, square]
  · norm_num [triArea, smul, cross, sub, square]
  · norm_num [triArea, smul, cross, sub, square]
  · ext <;> norm_num [sub, square]

/-! ## What fails -/

/-- A square cut by one of its diagonals and pulled flat onto three of its corners: nodes 1, 2, 3
aligned, 4 apart. -/
noncomputable def flat : Nat → Vec
  | 1 => ⟨0, 0, 0⟩
  | 2 => ⟨1, 0, 0⟩
  | 3 => ⟨2, 0, 0⟩
  | _ => ⟨1, -3, 0⟩

/-- Refutation for a quadrangle with three aligned corners, whose area is not null: the forces at
nodes 1, 2 and 3 are not numbers. -/
theorem C40_aligned_false :
    let p : Pressure := ⟨1, 2, 3, some 4, 1⟩
    p.force flat 1 = .ok none ∧ p.force flat 2 = .ok none ∧ p.force flat 3 = .ok none ∧
    add (triArea (flat 1) (flat 2) (flat 3)) (triArea (flat 1) (flat 3) (flat 4)) ≠ zero := by
  intro p
  have hn : (sub (flat 3) (flat 1)).norm < (sub (flat 4) (flat 2)).norm := by
    unfold norm
    apply Real.sqrt_lt_sqrt <;> norm_num [sub, flat]
  have hc : cross (sub (flat 2) (flat 1)) (sub (flat 3) (flat 1)) = zero := by
    ext <;> norm_num [cross, sub, flat, zero]
  have ht : ∀ k, triForce k zero = none := by intro k; simp [triForce, normalized_zero]
  refine ⟨?_, ?_, ?_, ?_⟩
  · simp [force, nodes, p, hn, force13, hc, ht, addOpt]
  · simp [force, nodes, p, hn, force13, hc, ht]
  · simp [force, nodes, p, hn, force13, hc, ht, addOpt]
  · intro e
    have := congrArg Vec.z e
    norm_num [add, triArea, smul, cross, sub, flat, zero] at this

/-- Refutation for a triangle written as a quadrangle whose last node is repeated: not a number at
that node, wherever the three nodes are. -/
theorem C40_repeated_node_false (pos : Nat → Vec) (n1 n2 n3 : Nat) (m : ℝ) :
    (⟨n1, n2, n3, some n3, m⟩ : Pressure).force pos n3 = .ok none := by
  have ht : ∀ k, triForce k zero = none := by intro k; simp [triForce, normalized_zero]
  have hc : ∀ v, cross v v = zero := by
    intro v; ext <;> simp only [cross, zero] <;> ring
  have hr : ∀ f : Option Vec, addOpt f none = none := by intro f; cases f <;> rfl
  unfold force
  rw [if_neg (by simp [nodes])]
  simp only
  split
  · simp [force13, hc, ht, hr]
  · simp [force24, hc, ht, hr]

/-- Asking for the force at a node that is not part of the loading returns a vector that was never
initialised. -/
theorem C40_other_node_false (pos : Nat → Vec) (p : Pressure) (n : Nat) (h : n ∉ p.nodes) :
    p.force pos n = .ub := by
  unfold force
  rw [if_pos h]

end Vega.PressureSpec
