import Verif.Geom.Systems

/-!
# Coordinate systems are orthonormal (C43) and compose (C44)
-/
namespace Vega.CsSpec
open Vec CS

/-! ## Specification -/

/-- Direct orthonormal axes. -/
structure Direct (a : Axes) : Prop where
  xx : dot a.ex a.ex = 1
  yy : dot a.ey a.ey = 1
  zz : dot a.ez a.ez = 1
  xy : dot a.ex a.ey = 0
  yz : dot a.ey a.ez = 0
  zx : dot a.ez a.ex = 0
  hand : cross a.ex a.ey = a.ez

/-- An origin and axes. -/
structure Frame where
  o : Vec
  a : Axes

/-- The point with the given coordinates. -/
def Frame.point (f : Frame) (p : Vec) : Vec :=
  add f.o (add (smul p.x f.a.ex) (add (smul p.y f.a.ey) (smul p.z f.a.ez)))

/-- The vector with the given coordinates. -/
def Frame.vec (f : Frame) (v : Vec) : Vec :=
  add (smul v.x f.a.ex) (add (smul v.y f.a.ey) (smul v.z f.a.ez))

/-- Squared distance. -/
def dist2 (p q : Vec) : ℝ := dot (sub p q) (sub p q)

/-- `v` is a positive multiple of `u`. -/
def SameDirection (v u : Vec) : Prop := ∃ k > 0, v = smul k u

/-- `w` lies in the half-plane bounded by the line of `u` that contains `v`. -/
def InHalfPlane (u v w : Vec) : Prop := ∃ s, ∃ t > 0, w = add (smul s u) (smul t v)

/-! ## Vector algebra -/

theorem apply_eq (a : Axes) (v : Vec) :
    a.apply v = add (smul v.x a.ex) (add (smul v.y a.ey) (smul v.z a.ez)) := by
  ext <;> simp only [Axes.apply, add, smul] <;> ring

theorem frame_vec (f : Frame) (v : Vec) : f.vec v = f.a.apply v := (apply_eq _ _).symm

theorem frame_point (f : Frame) (v : Vec) : f.point v = add f.o (f.a.apply v) := by
  rw [apply_eq]; rfl

theorem cross_self_dot (a b : Vec) : dot a (cross a b) = 0 ∧ dot b (cross a b) = 0 := by
  constructor <;> simp only [dot, cross] <;> ring

/-- Lagrange's identity. -/
theorem cross_norm (a b : Vec) :
    dot (cross a b) (cross a b) = dot a a * dot b b - dot a b * dot a b := by
  simp only [dot, cross]; ring

theorem dot_comm (a b : Vec) : dot a b = dot b a := by simp only [dot]; ring

theorem direct_of_xy {x y : Vec} (hx : dot x x = 1) (hy : dot y y = 1) (hxy : dot x y = 0) :
    Direct ⟨x, y, cross x y⟩ := by
  refine ⟨hx, hy, ?_, hxy, ?_, ?_, rfl⟩
  · simp only; rw [cross_norm, hx, hy, hxy]; ring
  · exact (cross_self_dot x y).2
  · simp only; rw [dot_comm]; exact (cross_self_dot x y).1

theorem direct_of_zx {x z : Vec} (hx : dot x x = 1) (hz : dot z z = 1) (hzx : dot z x = 0) :
    Direct ⟨x, cross z x, z⟩ := by
  have d := direct_of_xy hz hx hzx
  refine ⟨hx, d.zz, hz, ?_, ?_, hzx, ?_⟩
  · exact d.yz
  · exact d.zx
  · -- x × (z × x) = z (x·x) - x (x·z)
    have h1 : cross x (cross z x) = sub (smul (dot x x) z) (smul (dot z x) x) := by
      ext <;> simp only [cross, sub, smul, dot] <;> ring
    simp only
    rw [h1, hx, hzx]
    ext <;> simp only [sub, smul] <;> ring

/-- Direct axes are not singular. -/
theorem direct_det {a : Axes} (h : Direct a) : a.det = 1 := by
  have e : a.det = dot (cross a.ex a.ey) a.ez := by
    simp only [Axes.det, dot, cross]; ring
  rw [e, h.hand, h.zz]

/-- The other two cross products. -/
theorem direct_cross {a : Axes} (h : Direct a) :
    cross a.ey a.ez = a.ex ∧ cross a.ez a.ex = a.ey := by
  rw [← h.hand]
  constructor
  · have : cross a.ey (cross a.ex a.ey) = sub (smul (dot a.ey a.ey) a.ex) (smul (dot a.ex a.ey) a.ey) := by
      ext <;> simp only [cross, sub, smul, dot] <;> ring
    rw [this, h.yy, h.xy]
    ext <;> simp only [sub, smul] <;> ring
  · have : cross (cross a.ex a.ey) a.ex = sub (smul (dot a.ex a.ex) a.ey) (smul (dot a.ex a.ey) a.ex) := by
      ext <;> simp only [cross, sub, smul, dot] <;> ring
    rw [this, h.xx, h.xy]
    ext <;> simp only [sub, smul] <;> ring

theorem apply_dot {a : Axes} (h : Direct a) (v w : Vec) : dot (a.apply v) (a.apply w) = dot v w := by
  have e : dot (a.apply v) (a.apply w) =
      v.x * w.x * dot a.ex a.ex + v.y * w.y * dot a.ey a.ey + v.z * w.z * dot a.ez a.ez +
      (v.x * w.y + v.y * w.x) * dot a.ex a.ey + (v.y * w.z + v.z * w.y) * dot a.ey a.ez +
      (v.z * w.x + v.x * w.z) * dot a.ez a.ex := by
    simp only [dot, Axes.apply]; ring
  rw [e, h.xx, h.yy, h.zz, h.xy, h.yz, h.zx]
  simp only [dot]; ring

theorem apply_sub (a : Axes) (v w : Vec) : a.apply (sub v w) = sub (a.apply v) (a.apply w) := by
  ext <;> simp only [Axes.apply, sub] <;> ring

theorem apply_add (a : Axes) (v w : Vec) : a.apply (add v w) = add (a.apply v) (a.apply w) := by
  ext <;> simp only [Axes.apply, add] <;> ring

/-! ## Gram-Schmidt -/

theorem pos_inv_norm {a : Vec} (h : a ≠ zero) : 0 < 1 / a.norm := by
  have : a.norm ≠ 0 := fun e => h (norm_eq_zero.mp e)
  exact one_div_pos.mpr (lt_of_le_of_ne (norm_nonneg a) (Ne.symm this))

theorem normalized_ok {a : Vec} (h : a ≠ zero) :
    ∃ u, a.normalized = some u ∧ dot u u = 1 ∧ SameDirection u a := by
  refine ⟨_, normalized_eq h, normalized_unit (normalized_eq h), _, pos_inv_norm h, rfl⟩

theorem orthonormalized_ok {v u : Vec} (hu : dot u u = 1) (h : cross u v ≠ zero) :
    ∃ w, v.orthonormalized u = some w ∧ dot w w = 1 ∧ dot u w = 0 ∧ InHalfPlane u v w := by
  have hne : dot u u ≠ 0 := by rw [hu]; exact one_ne_zero
  set p := sub v (smul (dot u v / dot u u) u) with hp
  have hp0 : p ≠ zero := by
    intro e
    apply h
    have hv : v = smul (dot u v) u := by
      have hx := congrArg Vec.x e
      have hy := congrArg Vec.y e
      have hz := congrArg Vec.z e
      simp only [hp, sub, smul, zero, hu, div_one] at hx hy hz
      ext <;> simp only [smul] <;> linarith
    rw [hv]
    ext <;> simp only [cross, smul, zero] <;> ring
  have hdot : dot u p = 0 := by
    have : dot u p = dot u v - dot u v / dot u u * dot u u := by
      simp only [hp, dot, sub, smul]; ring
    rw [this, hu]; ring
  refine ⟨smul (1 / p.norm) p, ?_, ?_, ?_, ?_⟩
  · unfold orthonormalized
    rw [if_neg hne]
    exact normalized_eq hp0
  · exact normalized_unit (normalized_eq hp0)
  · have : dot u (smul (1 / p.norm) p) = 1 / p.norm * dot u p := by
      simp only [dot, smul]; ring
    rw [this, hdot, mul_zero]
  · refine ⟨-(1 / p.norm * dot u v), 1 / p.norm, pos_inv_norm hp0, ?_⟩
    ext <;> simp only [hp, hu, div_one, add, smul, sub] <;> ring

theorem orthonormalized_none {v u : Vec} (hu : dot u u = 1) (h : cross u v = zero) :
    v.orthonormalized u = none := by
  have hne : dot u u ≠ 0 := by rw [hu]; exact one_ne_zero
  have hp : sub v (smul (dot u v / dot u u) u) = zero := by
    rw [← dot_self_eq_zero]
    have e : dot (sub v (smul (dot u v / dot u u) u)) (sub v (smul (dot u v / dot u u) u)) =
        dot (cross u v) (cross u v) := by
      rw [cross_norm, hu]
      have : dot (sub v (smul (dot u v / 1) u)) (sub v (smul (dot u v / 1) u)) =
          dot v v - 2 * dot u v * dot u v + dot u v * dot u v * dot u u := by
        simp only [dot, sub, smul]; ring
      rw [this, hu]; ring
    rw [e, h]
    simp [dot, zero]
  unfold orthonormalized
  rw [if_neg hne, hp, normalized_zero]

/-- The cross product of a positive multiple. -/
theorem cross_smul_ne {k : ℝ} (hk : k > 0) {a b : Vec} :
    cross (smul k a) b ≠ zero ↔ cross a b ≠ zero := by
  have e : cross (smul k a) b = smul k (cross a b) := by
    ext <;> simp only [cross, smul] <;> ring
  rw [e, not_iff_not]
  constructor
  · intro h
    have hx := congrArg Vec.x h
    have hy := congrArg Vec.y h
    have hz := congrArg Vec.z h
    simp only [smul, zero] at hx hy hz
    ext
    · exact (mul_eq_zero.mp hx).resolve_left hk.ne'
    · exact (mul_eq_zero.mp hy).resolve_left hk.ne'
    · exact (mul_eq_zero.mp hz).resolve_left hk.ne'
  · intro h; rw [h]; simp [smul, zero]

theorem cross_ne_left {a b : Vec} (h : cross a b ≠ zero) : a ≠ zero := by
  rintro rfl; apply h; simp [cross, zero]

theorem cross_ne_right {a b : Vec} (h : cross a b ≠ zero) : b ≠ zero := by
  rintro rfl; apply h; simp [cross, zero]

theorem cross_swap_ne {a b : Vec} (h : cross a b ≠ zero) : cross b a ≠ zero := by
  intro e
  apply h
  have hx := congrArg Vec.x e
  have hy := congrArg Vec.y e
  have hz := congrArg Vec.z e
  simp only [cross, zero] at hx hy hz
  ext <;> simp only [cross, zero] <;> linarith

theorem halfPlane_smul {k : ℝ} {u v w : Vec} (h : InHalfPlane (smul k u) v w) : InHalfPlane u v w := by
  obtain ⟨s, t, ht, rfl⟩ := h
  refine ⟨s * k, t, ht, ?_⟩
  ext <;> simp only [add, smul] <;> ring

theorem halfPlane_smul_right {k : ℝ} (hk : k > 0) {u v w : Vec} (h : InHalfPlane u (smul k v) w) :
    InHalfPlane u v w := by
  obtain ⟨s, t, ht, rfl⟩ := h
  refine ⟨s, t * k, mul_pos ht hk, ?_⟩
  ext <;> simp only [add, smul] <;> ring

/-! ## C43: axes -/

theorem invert_direct {a : Axes} (h : Direct a) : a.invert = some (a.ex, a.ey, a.ez) := by
  unfold Axes.invert
  rw [if_neg (by rw [direct_det h]; exact one_ne_zero), direct_det h, (direct_cross h).1,
    (direct_cross h).2, h.hand]
  have e : ∀ v : Vec, smul (1 / 1) v = v := by intro v; ext <;> simp [smul]
  rw [e, e, e]

theorem setInverse_direct {c : CS} {a : Axes} (ha : c.axes = some a) (h : Direct a) :
    c.setInverse = { c with inverse := .rows a.ex a.ey a.ez } := by
  simp only [setInverse, ha, invert_direct h]

/-- **C43** the axes of a system given by two independent vectors are direct and orthonormal; the
first is in the direction of the first vector, the second in the half-plane of the second. -/
theorem C43_axes (kind : CsKind) (o ex ey : Vec) (rcs : Option Nat) (h : cross ex ey ≠ zero) :
    ∃ a, (ofVectors kind o ex ey rcs).axes = some a ∧ Direct a ∧ SameDirection a.ex ex ∧
      InHalfPlane ex ey a.ey := by
  obtain ⟨x, hx, hxx, k, hk, rfl⟩ := normalized_ok (cross_ne_left h)
  obtain ⟨y, hy, hyy, hxy, hp⟩ := orthonormalized_ok hxx ((cross_smul_ne hk).mpr h)
  refine ⟨⟨smul k ex, y, cross (smul k ex) y⟩, ?_, direct_of_xy hxx hyy hxy, ⟨k, hk, rfl⟩,
    halfPlane_smul hp⟩
  simp only [ofVectors, axesOf, hx, hy, Option.bind_eq_bind, Option.bind_some]

/-- **C43** vectors that are not independent give axes that are not numbers; nothing is reported. -/
theorem C43_dependent (kind : CsKind) (o ex ey : Vec) (rcs : Option Nat) (h : cross ex ey = zero) :
    (ofVectors kind o ex ey rcs).axes = none := by
  simp only [ofVectors, axesOf]
  by_cases h0 : ex = zero
  · rw [h0, normalized_zero]; rfl
  · obtain ⟨x, hx, hxx, k, hk, rfl⟩ := normalized_ok h0
    have hc : cross (smul k ex) ey = zero := by
      by_contra hc
      exact (cross_smul_ne hk).mp hc h
    rw [hx]
    simp only [Option.bind_eq_bind, Option.bind_some, orthonormalized_none hxx hc, Option.bind_none]

/-- **C43** a Cartesian system built from three nodes that are not aligned (CORD1R): the origin is the
first node, the z axis points to the second, the third is in the half-plane of x; axes direct and
orthonormal. -/
theorem C43_from_nodes (node : NodeAt) (nO nZ nXZ : Nat) (rcs : Option Nat) (o z v : Vec)
    (ho : node nO = .ok (some o)) (hz : node nZ = .ok (some z)) (hv : node nXZ = .ok (some v))
    (h : cross (sub z o) (sub v o) ≠ zero) :
    ∃ c a, (ofNodes nO nZ nXZ rcs).build node = .ok c ∧ c.kind = .cartesian ∧ c.virt = false ∧
      c.rcs = rcs ∧ c.origin = some o ∧ c.axes = some a ∧
      c.inverse = .rows a.ex a.ey a.ez ∧ Direct a ∧
      SameDirection a.ez (sub z o) ∧ InHalfPlane (sub z o) (sub v o) a.ex := by
  obtain ⟨ez, hez, hzz, k, hk, rfl⟩ := normalized_ok (cross_ne_left h)
  obtain ⟨v', hv', _, l, hl, rfl⟩ := normalized_ok (cross_ne_right h)
  have hc : cross (smul k (sub z o)) (smul l (sub v o)) ≠ zero :=
    (cross_smul_ne hk).mpr (cross_swap_ne ((cross_smul_ne hl).mpr (cross_swap_ne h)))
  obtain ⟨x, hx, hxx, hzx, hp⟩ := orthonormalized_ok hzz hc
  have ha : axesZX (sub z o) (sub v o) =
      some ⟨x, cross (smul k (sub z o)) x, smul k (sub z o)⟩ := by
    simp only [axesZX, hez, hv', hx, Option.bind_eq_bind, Option.bind_some]
  have hd := direct_of_zx hxx hzz hzx
  refine ⟨{ ofNodes nO nZ nXZ rcs with
      origin := some o
      axes := some ⟨x, cross (smul k (sub z o)) x, smul k (sub z o)⟩
      virt := false
      inverse := .rows x (cross (smul k (sub z o)) x) (smul k (sub z o)) }, ⟨x, cross (smul k (sub z o)) x, smul k (sub z o)⟩, ?_, ?_⟩
  rotate_left
  · exact ⟨rfl, rfl, rfl, rfl, rfl, rfl, hd, ⟨k, hk, rfl⟩, halfPlane_smul_right hl (halfPlane_smul hp)⟩
  · simp only [build, ofNodes, if_true, buildCartesian, ho, hz, hv, Outcome.bind_ok, subOpt,
      Option.bind_eq_bind, Option.bind_some, ha]
    rw [setInverse_direct rfl hd]

/-- **C43** the orientation of an element given by two nodes and a vector. -/
theorem C43_orientation (node : NodeAt) (nO nX : Nat) (v : Vec) (rcs : Option Nat) (o x : Vec)
    (ho : node nO = .ok (some o)) (hx : node nX = .ok (some x))
    (h : cross (sub x o) v ≠ zero) :
    ∃ c a, (ofDirection nO nX v rcs).build node = .ok c ∧ c.kind = .orientation ∧ c.virt = false ∧
      c.rcs = rcs ∧ c.origin = some o ∧ c.axes = some a ∧
      c.inverse = .rows a.ex a.ey a.ez ∧ Direct a ∧
      SameDirection a.ex (sub x o) ∧ InHalfPlane (sub x o) v a.ey := by
  obtain ⟨ex, hex, hxx, k, hk, rfl⟩ := normalized_ok (cross_ne_left h)
  obtain ⟨v', hv', _, l, hl, rfl⟩ := normalized_ok (cross_ne_right h)
  have hc : cross (smul k (sub x o)) (smul l v) ≠ zero :=
    (cross_smul_ne hk).mpr (cross_swap_ne ((cross_smul_ne hl).mpr (cross_swap_ne h)))
  obtain ⟨y, hy, hyy, hxy, hp⟩ := orthonormalized_ok hxx hc
  have ha : axesXV (sub x o) (some (smul l v)) =
      some ⟨smul k (sub x o), y, cross (smul k (sub x o)) y⟩ := by
    simp only [axesXV, hex, hy, Option.bind_eq_bind, Option.bind_some]
  have hd := direct_of_xy hxx hyy hxy
  refine ⟨{ ofDirection nO nX v rcs with
      origin := some o
      axes := some ⟨smul k (sub x o), y, cross (smul k (sub x o)) y⟩
      virt := false
      inverse := .rows (smul k (sub x o)) y (cross (smul k (sub x o)) y) }, ⟨smul k (sub x o), y, cross (smul k (sub x o)) y⟩, ?_, ?_⟩
  rotate_left
  · exact ⟨rfl, rfl, rfl, rfl, rfl, rfl, hd, ⟨k, hk, rfl⟩, halfPlane_smul_right hl (halfPlane_smul hp)⟩
  · simp only [build, ofDirection, hv', if_true, buildOrientation, ho, hx, Outcome.bind_ok, subOpt,
      Option.bind_eq_bind, Option.bind_some, ha]
    rw [setInverse_direct rfl hd]

/-- **C43** the orientation of an element given by three nodes. -/
theorem C43_orientation_nodes (node : NodeAt) (nO nX nV : Nat) (rcs : Option Nat) (o x v : Vec)
    (ho : node nO = .ok (some o)) (hx : node nX = .ok (some x)) (hv : node nV = .ok (some v))
    (h : cross (sub x o) (sub v o) ≠ zero) :
    ∃ c a, (ofThreeNodes nO nX nV rcs).build node = .ok c ∧ c.kind = .orientation ∧ c.virt = false ∧
      c.rcs = rcs ∧ c.origin = some o ∧ c.axes = some a ∧
      c.inverse = .rows a.ex a.ey a.ez ∧ Direct a ∧
      SameDirection a.ex (sub x o) ∧ InHalfPlane (sub x o) (sub v o) a.ey := by
  obtain ⟨ex, hex, hxx, k, hk, rfl⟩ := normalized_ok (cross_ne_left h)
  obtain ⟨v', hv', _, l, hl, rfl⟩ := normalized_ok (cross_ne_right h)
  have hc : cross (smul k (sub x o)) (smul l (sub v o)) ≠ zero :=
    (cross_smul_ne hk).mpr (cross_swap_ne ((cross_smul_ne hl).mpr (cross_swap_ne h)))
  obtain ⟨y, hy, hyy, hxy, hp⟩ := orthonormalized_ok hxx hc
  have ha : axesXV (sub x o) (some (smul l (sub v o))) =
      some ⟨smul k (sub x o), y, cross (smul k (sub x o)) y⟩ := by
    simp only [axesXV, hex, hy, Option.bind_eq_bind, Option.bind_some]
  have hd := direct_of_xy hxx hyy hxy
  refine ⟨{ ofThreeNodes nO nX nV rcs with
      origin := some o
      axes := some ⟨smul k (sub x o), y, cross (smul k (sub x o)) y⟩
      virt := false
      inverse := .rows (smul k (sub x o)) y (cross (smul k (sub x o)) y) }, ⟨smul k (sub x o), y, cross (smul k (sub x o)) y⟩, ?_, ?_⟩
  rotate_left
  · exact ⟨rfl, rfl, rfl, rfl, rfl, rfl, hd, ⟨k, hk, rfl⟩, halfPlane_smul_right hl (halfPlane_smul hp)⟩
  · simp only [build, ofThreeNodes, if_true, buildOrientation, ho, hx, hv, hv', Outcome.bind_ok, subOpt,
      Option.bind_eq_bind, Option.bind_some, ha]
    rw [setInverse_direct rfl hd]

/-- **C43** the local base of a cylindrical system at a point off its axis: direct, orthonormal, the
first vector in the direction from the axis to the point. -/
theorem C43_cylindrical_base (c : CS) (a : Axes) (o p : Vec) (hk : c.kind = .cylindrical)
    (ha : c.axes = some a) (ho : c.origin = some o) (hd : Direct a)
    (hfar : 5 / 2 ^ 52 < |(sub p o).x| ∨ 5 / 2 ^ 52 < |(sub p o).y| ∨ 5 / 2 ^ 52 < |(sub p o).z|)
    (hoff : cross a.ez (sub p o) ≠ zero) :
    ∃ c' b, c.updateLocalBase p = .ok c' ∧ c'.localBase = some b ∧ c'.axes = some a ∧ Direct b ∧
      b.ez = a.ez ∧ InHalfPlane a.ez (sub p o) b.ex := by
  obtain ⟨t, ht, htt, k, hk0, rfl⟩ := normalized_ok hoff
  have htz : dot (smul k (cross a.ez (sub p o))) a.ez = 0 := by
    have : dot (smul k (cross a.ez (sub p o))) a.ez = k * dot a.ez (cross a.ez (sub p o)) := by
      simp only [dot, smul]; ring
    rw [this, (cross_self_dot _ _).1, mul_zero]
  refine ⟨{ c with localBase := some ⟨cross (smul k (cross a.ez (sub p o))) a.ez,
    smul k (cross a.ez (sub p o)), a.ez⟩ }, _, ?_, rfl, ha, ?_, rfl, ?_⟩
  · unfold updateLocalBase
    simp only [hk, ho]
    rw [if_neg (by
      rintro ⟨h1, h2, h3⟩
      rcases hfar with h | h | h
      · exact absurd h1 (not_le.mpr h)
      · exact absurd h2 (not_le.mpr h)
      · exact absurd h3 (not_le.mpr h))]
    simp only [localAxes, ha, ht, Option.bind_eq_bind, Option.bind_some]
  · have d := direct_of_xy htt hd.zz htz
    refine ⟨d.zz, htt, hd.zz, d.zx, htz, d.yz, ?_⟩
    have := (direct_cross d).2
    simpa using this
  · refine ⟨-(k * dot a.ez (sub p o)), k, hk0, ?_⟩
    have e : cross (cross a.ez (sub p o)) a.ez =
        sub (smul (dot a.ez a.ez) (sub p o)) (smul (dot a.ez (sub p o)) a.ez) := by
      ext <;> simp only [cross, sub, smul, dot] <;> ring
    have e2 : cross (smul k (cross a.ez (sub p o))) a.ez = smul k (cross (cross a.ez (sub p o)) a.ez) := by
      ext <;> simp only [cross, smul] <;> ring
    simp only
    rw [e2, e, hd.zz]
    ext <;> simp only [add, smul, sub] <;> ring

/-- Refutation on the axis: the base at a point of the axis other than the origin is not a number,
and so is every vector converted there. -/
theorem C43_axis_false (c : CS) (a : Axes) (o p : Vec) (hk : c.kind = .cylindrical)
    (ha : c.axes = some a) (ho : c.origin = some o) (hr : c.rcs = none)
    (hfar : 5 / 2 ^ 52 < |(sub p o).x| ∨ 5 / 2 ^ 52 < |(sub p o).y| ∨ 5 / 2 ^ 52 < |(sub p o).z|)
    (hon : cross a.ez (sub p o) = zero) (env : Env) (v : Vec) :
    ∃ c', c.updateLocalBase p = .ok c' ∧ vectorToGlobal env 1 c' (some v) = .ok none := by
  refine ⟨{ c with localBase := none }, ?_, ?_⟩
  · unfold updateLocalBase
    simp only [hk, ho]
    rw [if_neg (by
      rintro ⟨h1, h2, h3⟩
      rcases hfar with h | h | h
      · exact absurd h1 (not_le.mpr h)
      · exact absurd h2 (not_le.mpr h)
      · exact absurd h3 (not_le.mpr h))]
    simp only [localAxes, ha, hon, normalized_zero, Option.bind_eq_bind, Option.bind_some,
      Option.bind_none]
  · simp only [vectorToGlobal, hk, upTo, hr, applyOpt, Option.bind_eq_bind, Option.bind_none]

/-! ## C44: chains -/

/-- The frames from a system to the global one: every system of reference is Cartesian. -/
inductive Resolves (env : Env) : CS → List Frame → Prop
  | global {c : CS} {o : Vec} {a : Axes} : c.origin = some o → c.axes = some a → c.rcs = none →
      Resolves env c [⟨o, a⟩]
  | nested {c p : CS} {o : Vec} {a : Axes} {r : Nat} {fs : List Frame} : c.origin = some o →
      c.axes = some a → c.rcs = some r → env r = some p → p.kind = .cartesian → Resolves env p fs →
      Resolves env c (⟨o, a⟩ :: fs)

/-- A point seen through frames, innermost first. -/
def through (fs : List Frame) (p : Vec) : Vec := fs.foldl (fun p f => f.point p) p

/-- A vector seen through frames, innermost first. -/
def throughVec (fs : List Frame) (v : Vec) : Vec := fs.foldl (fun v f => f.vec v) v

theorem throughVec_add (fs : List Frame) (v w : Vec) :
    throughVec fs (add v w) = add (throughVec fs v) (throughVec fs w) := by
  induction fs generalizing v w with
  | nil => rfl
  | cons f fs ih =>
    simp only [throughVec, List.foldl_cons] at ih ⊢
    rw [frame_vec, frame_vec, frame_vec, apply_add]
    exact ih _ _

theorem through_add (fs : List Frame) (p v : Vec) :
    through fs (add p v) = add (through fs p) (throughVec fs v) := by
  induction fs generalizing p v with
  | nil => rfl
  | cons f fs ih =>
    simp only [through, throughVec, List.foldl_cons] at ih ⊢
    rw [frame_point, frame_point, frame_vec, apply_add]
    have : ∀ a b c : Vec, add a (add b c) = add (add a b) c := by
      intro a b c; ext <;> simp only [add] <;> ring
    rw [this]
    exact ih _ _

/-- **C44** vectors: the outer transform applied to the inner one, to any depth. -/
theorem C44_vector (env : Env) (c : CS) (fs : List Frame) (h : Resolves env c fs)
    (hk : c.kind = .cartesian) (n : Nat) (hn : fs.length ≤ n) (v : Vec) :
    vectorToGlobal env n c (some v) = .ok (some (throughVec fs v)) := by
  induction h generalizing n v with
  | @global c o a ho ha hr =>
    obtain ⟨n, rfl⟩ : ∃ m, n = m + 1 := ⟨n - 1, by simp at hn; omega⟩
    simp only [vectorToGlobal, hk, upTo, hr, applyOpt, ha, Option.bind_eq_bind, Option.bind_some,
      throughVec, List.foldl_cons, List.foldl_nil, frame_vec]
  | @nested c p o a r fs ho ha hr he hp _ ih =>
    rw [List.length_cons] at hn
    obtain ⟨n, rfl⟩ : ∃ m, n = m + 1 := ⟨n - 1, by omega⟩
    simp only [vectorToGlobal, hk, upTo, hr, he, applyOpt, ha, Option.bind_eq_bind, Option.bind_some]
    rw [ih hp n (by omega)]
    simp only [throughVec, List.foldl_cons, frame_vec]

/-- **C44** positions in a Cartesian system: the outer transform applied to the inner one, to any
depth. -/
theorem C44_position (env : Env) (c : CS) (fs : List Frame) (h : Resolves env c fs)
    (hk : c.kind = .cartesian) (n : Nat) (hn : fs.length ≤ n) (p : Vec) :
    positionToGlobal env n c (some p) = .ok (some (through fs p)) := by
  induction h generalizing n p with
  | @global c o a ho ha hr =>
    obtain ⟨n, rfl⟩ : ∃ m, n = m + 1 := ⟨n - 1, by simp at hn; omega⟩
    have hv := C44_vector env c [⟨o, a⟩] (.global ho ha hr) hk (n + 1) (by simp) p
    simp only [positionToGlobal, hk, hv, Outcome.bind_ok, upTo, hr, ho, addOpt]
    simp only [through, throughVec, List.foldl_cons, List.foldl_nil, frame_vec, frame_point]
  | @nested c q o a r fs ho ha hr he hp hq ih =>
    have hn' := hn
    rw [List.length_cons] at hn
    obtain ⟨n, rfl⟩ : ∃ m, n = m + 1 := ⟨n - 1, by omega⟩
    have hv := C44_vector env c _ (.nested ho ha hr he hp hq) hk (n + 1) hn' p
    simp only [positionToGlobal, hk, hv, Outcome.bind_ok, upTo, hr, he, ho, ih hp n (by omega), addOpt]
    have e1 : throughVec (⟨o, a⟩ :: fs) p = throughVec fs (a.apply p) := by
      simp only [throughVec, List.foldl_cons, frame_vec]
    have e2 : through (⟨o, a⟩ :: fs) p = through fs (add o (a.apply p)) := by
      simp only [through, List.foldl_cons, frame_point]
    rw [e1, e2, through_add]

theorem curvilinear (env : Env) (c : CS) (fs : List Frame) (h : Resolves env c fs) (n : Nat)
    (hn : fs.length ≤ n) (w p : Vec)
    (hc : ∀ n, positionToGlobal env (n + 1) c (some p) =
      upTo env c.rcs (positionToGlobal env n) (addOpt c.origin (applyOpt c.axes (some w)))) :
    positionToGlobal env n c (some p) = .ok (some (through fs w)) := by
  cases h with
  | global ho ha hr =>
    obtain ⟨n, rfl⟩ : ∃ m, n = m + 1 := ⟨n - 1, by simp at hn; omega⟩
    simp only [hc, upTo, hr, ho, ha, applyOpt, addOpt, Option.bind_eq_bind, Option.bind_some,
      through, List.foldl_cons, List.foldl_nil, frame_point]
  | nested ho ha hr he hp hq =>
    rw [List.length_cons] at hn
    obtain ⟨n, rfl⟩ : ∃ m, n = m + 1 := ⟨n - 1, by omega⟩
    simp only [hc, upTo, hr, he, ho, ha, applyOpt, addOpt, Option.bind_eq_bind, Option.bind_some]
    rw [C44_position env _ _ hq hp n (by omega)]
    simp only [through, List.foldl_cons, frame_point]

/-- **C44** positions in a cylindrical system (radius, angle in degrees, height), itself defined in
Cartesian systems to any depth. -/
theorem C44_cylindrical (env : Env) (c : CS) (fs : List Frame) (h : Resolves env c fs)
    (hk : c.kind = .cylindrical) (n : Nat) (hn : fs.length ≤ n) (r d z : ℝ) :
    positionToGlobal env n c (some ⟨r, d, z⟩) =
      .ok (some (through fs ⟨r * Real.cos (Real.pi * d / 180), r * Real.sin (Real.pi * d / 180), z⟩)) := by
  refine curvilinear env c fs h n hn _ _ fun n => ?_
  simp only [positionToGlobal, hk, Option.map_some, fromCylindrical, rad]

/-- **C44** positions in a spherical system (radius, angle from the z axis, angle about it), itself
defined in Cartesian systems to any depth. -/
theorem C44_spherical (env : Env) (c : CS) (fs : List Frame) (h : Resolves env c fs)
    (hk : c.kind = .spherical) (n : Nat) (hn : fs.length ≤ n) (r t p : ℝ) :
    positionToGlobal env n c (some ⟨r, t, p⟩) =
      .ok (some (through fs
        ⟨r * Real.sin (Real.pi * t / 180) * Real.cos (Real.pi * p / 180),
         r * Real.sin (Real.pi * t / 180) * Real.sin (Real.pi * p / 180),
         r * Real.cos (Real.pi * t / 180)⟩)) := by
  refine curvilinear env c fs h n hn _ _ fun n => ?_
  simp only [positionToGlobal, hk, Option.map_some, fromSpherical, rad]

/-! ## C43: lengths -/

theorem through_dot (fs : List Frame) (hd : ∀ f ∈ fs, Direct f.a) (v w : Vec) :
    dot (throughVec fs v) (throughVec fs w) = dot v w := by
  induction fs generalizing v w with
  | nil => rfl
  | cons f fs ih =>
    have := ih (fun g hg => hd g (List.mem_cons_of_mem _ hg)) (f.vec v) (f.vec w)
    simp only [throughVec, List.foldl_cons] at this ⊢
    rw [this, frame_vec, frame_vec, apply_dot (hd f List.mem_cons_self)]

theorem through_sub (fs : List Frame) (p q : Vec) :
    sub (through fs p) (through fs q) = throughVec fs (sub p q) := by
  have e : p = add q (sub p q) := by ext <;> simp only [add, sub] <;> ring
  have := through_add fs q (sub p q)
  rw [← e] at this
  rw [this]
  ext <;> simp only [sub, add] <;> ring

/-- **C43** converting vectors to the global system preserves scalar products. -/
theorem C43_scalar_product (env : Env) (c : CS) (fs : List Frame) (h : Resolves env c fs)
    (hk : c.kind = .cartesian) (hd : ∀ f ∈ fs, Direct f.a) (n : Nat) (hn : fs.length ≤ n) (v w : Vec) :
    ∃ v' w', vectorToGlobal env n c (some v) = .ok (some v') ∧
      vectorToGlobal env n c (some w) = .ok (some w') ∧ dot v' w' = dot v w :=
  ⟨_, _, C44_vector env c fs h hk n hn v, C44_vector env c fs h hk n hn w, through_dot fs hd v w⟩

/-- **C43** converting positions to the global system preserves distances. -/
theorem C43_distance (env : Env) (c : CS) (fs : List Frame) (h : Resolves env c fs)
    (hk : c.kind = .cartesian) (hd : ∀ f ∈ fs, Direct f.a) (n : Nat) (hn : fs.length ≤ n) (p q : Vec) :
    ∃ p' q', positionToGlobal env n c (some p) = .ok (some p') ∧
      positionToGlobal env n c (some q) = .ok (some q') ∧ dist2 p' q' = dist2 p q := by
  refine ⟨_, _, C44_position env c fs h hk n hn p, C44_position env c fs h hk n hn q, ?_⟩
  unfold dist2
  rw [through_sub, through_dot fs hd]

/-! ## C44: to local coordinates and back -/

/-- A chain of at most `d` Cartesian systems (or a built orientation) with direct axes, whose inverse
matrices were computed by `build`. -/
inductive Built (env : Env) : CS → Nat → Prop
  | global {c : CS} {a : Axes} {d : Nat} : (c.kind = .cartesian ∨ c.kind = .orientation ∧ c.virt = false) →
      c.axes = some a → Direct a → c.inverse = .rows a.ex a.ey a.ez → c.rcs = none → Built env c (d + 1)
  | nested {c p : CS} {a : Axes} {r d : Nat} :
      (c.kind = .cartesian ∨ c.kind = .orientation ∧ c.virt = false) → c.axes = some a → Direct a →
      c.inverse = .rows a.ex a.ey a.ez → c.rcs = some r → env r = some p → Built env p d →
      Built env c (d + 1)

theorem inverse_apply {a : Axes} (h : Direct a) (v : Vec) :
    (⟨dot (a.apply v) a.ex, dot (a.apply v) a.ey, dot (a.apply v) a.ez⟩ : Vec) = v := by
  have e1 : dot (a.apply v) a.ex = v.x * dot a.ex a.ex + v.y * dot a.ex a.ey + v.z * dot a.ez a.ex := by
    simp only [dot, Axes.apply]; ring
  have e2 : dot (a.apply v) a.ey = v.x * dot a.ex a.ey + v.y * dot a.ey a.ey + v.z * dot a.ey a.ez := by
    simp only [dot, Axes.apply]; ring
  have e3 : dot (a.apply v) a.ez = v.x * dot a.ez a.ex + v.y * dot a.ey a.ez + v.z * dot a.ez a.ez := by
    simp only [dot, Axes.apply]; ring
  rw [e1, e2, e3, h.xx, h.yy, h.zz, h.xy, h.yz, h.zx]
  ext <;> simp

theorem apply_inverse {a : Axes} (h : Direct a) (v : Vec) :
    a.apply ⟨dot v a.ex, dot v a.ey, dot v a.ez⟩ = v := by
  -- the difference is orthogonal to the three axes, hence to itself
  set w := a.apply ⟨dot v a.ex, dot v a.ey, dot v a.ez⟩ with hw
  have hi := inverse_apply h ⟨dot v a.ex, dot v a.ey, dot v a.ez⟩
  rw [← hw] at hi
  have hx : dot (sub w v) a.ex = 0 := by
    have := congrArg Vec.x hi
    simp only at this
    have e : dot (sub w v) a.ex = dot w a.ex - dot v a.ex := by simp only [dot, sub]; ring
    rw [e, this]; ring
  have hy : dot (sub w v) a.ey = 0 := by
    have := congrArg Vec.y hi
    simp only at this
    have e : dot (sub w v) a.ey = dot w a.ey - dot v a.ey := by simp only [dot, sub]; ring
    rw [e, this]; ring
  have hz : dot (sub w v) a.ez = 0 := by
    have := congrArg Vec.z hi
    simp only at this
    have e : dot (sub w v) a.ez = dot w a.ez - dot v a.ez := by simp only [dot, sub]; ring
    rw [e, this]; ring
  -- Cramer: det · d = (d·ex)(ey×ez) + (d·ey)(ez×ex) + (d·ez)(ex×ey)
  have hc : smul a.det (sub w v) = add (smul (dot (sub w v) a.ex) (cross a.ey a.ez))
      (add (smul (dot (sub w v) a.ey) (cross a.ez a.ex))
        (smul (dot (sub w v) a.ez) (cross a.ex a.ey))) := by
    ext <;> simp only [smul, add, dot, cross, sub, Axes.det] <;> ring
  rw [direct_det h, hx, hy, hz] at hc
  have h1 := congrArg Vec.x hc
  have h2 := congrArg Vec.y hc
  have h3 := congrArg Vec.z hc
  simp only [smul, add, sub] at h1 h2 h3
  ext <;> linarith

/-- **C44** converting a vector to the global system and back to local coordinates, or the other way
round, is the identity. -/
theorem C44_round_trip (env : Env) (c : CS) (d : Nat) (h : Built env c d) (n : Nat) (hn : d ≤ n)
    (v : Vec) :
    (∃ g, vectorToGlobal env n c (some v) = .ok (some g) ∧
      vectorToLocal env n c (some g) = .ok (some v)) ∧
    ∃ l, vectorToLocal env n c (some v) = .ok (some l) ∧
      vectorToGlobal env n c (some l) = .ok (some v) := by
  induction h generalizing n v with
  | @global c a d hk ha hd hi hr =>
    obtain ⟨n, rfl⟩ : ∃ m, n = m + 1 := ⟨n - 1, by omega⟩
    have hv : ∀ v, vectorToGlobal env (n + 1) c (some v) = .ok (some (a.apply v)) := by
      intro v
      rcases hk with hk | ⟨hk, hvirt⟩
      · simp only [vectorToGlobal, hk, upTo, hr, applyOpt, ha, Option.bind_eq_bind, Option.bind_some]
      · simp only [vectorToGlobal, hk, hvirt, upTo, hr, applyOpt, ha, Option.bind_eq_bind, Option.bind_some,
          Bool.false_eq_true, if_false]
    have hl : ∀ v, vectorToLocal env (n + 1) c (some v) =
        .ok (some ⟨dot v a.ex, dot v a.ey, dot v a.ez⟩) := by
      intro v
      have : ¬ (c.kind = .cylindrical ∨ c.kind = .spherical) := by
        rcases hk with hk | ⟨hk, _⟩ <;> rw [hk] <;> decide
      simp only [vectorToLocal, if_neg this, hr, hi, applyInverse]
    exact ⟨⟨_, hv v, by rw [hl, inverse_apply hd]⟩, ⟨_, hl v, by rw [hv, apply_inverse hd]⟩⟩
  | @nested c p a r d hk ha hd hi hr he _ ih =>
    obtain ⟨n, rfl⟩ : ∃ m, n = m + 1 := ⟨n - 1, by omega⟩
    have hv : ∀ v, vectorToGlobal env (n + 1) c (some v) = vectorToGlobal env n p (some (a.apply v)) := by
      intro v
      rcases hk with hk | ⟨hk, hvirt⟩
      · simp only [vectorToGlobal, hk, upTo, hr, he, applyOpt, ha, Option.bind_eq_bind, Option.bind_some]
      · simp only [vectorToGlobal, hk, hvirt, upTo, hr, he, applyOpt, ha, Option.bind_eq_bind,
          Option.bind_some, Bool.false_eq_true, if_false]
    have hl : ∀ v, vectorToLocal env (n + 1) c (some v) =
        (do
          let w ← vectorToLocal env n p (some v)
          applyInverse (.rows a.ex a.ey a.ez) w) := by
      intro v
      have : ¬ (c.kind = .cylindrical ∨ c.kind = .spherical) := by
        rcases hk with hk | ⟨hk, _⟩ <;> rw [hk] <;> decide
      simp only [vectorToLocal, if_neg this, hr, he, hi]
    constructor
    · obtain ⟨g, h1, h2⟩ := (ih n (by omega) (a.apply v)).1
      refine ⟨g, by rw [hv, h1], ?_⟩
      rw [hl, h2, Outcome.bind_ok]
      simp only [applyInverse, inverse_apply hd]
    · obtain ⟨l, h1, h2⟩ := (ih n (by omega) v).2
      refine ⟨⟨dot l a.ex, dot l a.ey, dot l a.ez⟩, ?_, ?_⟩
      · rw [hl, h1, Outcome.bind_ok]
        rfl
      · rw [hv, apply_inverse hd, h2]

/-! ## C43: all the systems of a model -/

/-- The nodes a system is built from are given in the global system. -/
def GlobalNodes (tab : NodeTable) (c : CS) : Prop := ∀ n ∈ c.nodes, (tab n).1 = none

theorem build_congr {c : CS} {f g : NodeAt} (h : ∀ n ∈ c.nodes, f n = g n) : c.build f = c.build g := by
  unfold build
  have h1 : buildCartesian f c = buildCartesian g c := by
    unfold buildCartesian
    split
    · rename_i a b d e
      rw [h a (by simp [e]), h b (by simp [e]), h d (by simp [e])]
    · rfl
  have h2 : buildOrientation f c = buildOrientation g c := by
    unfold buildOrientation
    split
    · rename_i a b e
      rw [h a (by simp [e]), h b (by simp [e])]
    · rename_i a b d e
      rw [h a (by simp [e]), h b (by simp [e]), h d (by simp [e])]
    · rfl
  rw [h1, h2]

/-- **C43** finishing a model builds every system from its own nodes (`C43_from_nodes`,
`C43_orientation`), when these are given in the global system. -/
theorem C43_build_partial (fuel : Nat) (tab : NodeTable) (rs : List Nat) (env : Env)
    (hn : rs.Nodup) (hg : ∀ r ∈ rs, ∃ c, env r = some c ∧ GlobalNodes tab c ∧
      ∃ c', c.build (fun n => .ok (some (tab n).2)) = .ok c') :
    ∃ env', buildAll fuel tab rs env = .ok env' ∧
      (∀ r ∈ rs, ∀ c, env r = some c →
        ∃ c', env' r = some c' ∧ c.build (fun n => .ok (some (tab n).2)) = .ok c') ∧
      ∀ r, r ∉ rs → env' r = env r := by
  induction rs generalizing env with
  | nil => exact ⟨env, rfl, by simp, by simp⟩
  | cons r rs ih =>
    obtain ⟨hr, hn⟩ := List.nodup_cons.mp hn
    obtain ⟨c, hc, hgl, c', hb⟩ := hg r List.mem_cons_self
    have hb' : c.build (findNode env fuel tab) = .ok c' := by
      rw [← hb]
      apply build_congr
      intro n hn
      simp only [findNode, hgl n hn]
    have hother : ∀ s ∈ rs, setEnv env r c' s = env s := by
      intro s hs
      have : s ≠ r := by rintro rfl; exact hr hs
      simp [setEnv, this]
    obtain ⟨env', h1, h2, h3⟩ := ih (setEnv env r c') hn (by
      intro s hs
      rw [hother s hs]
      exact hg s (List.mem_cons_of_mem _ hs))
    refine ⟨env', ?_, ?_, ?_⟩
    · simp only [buildAll, hc, hb', Outcome.bind_ok, h1]
    · intro s hs d hd
      rcases List.mem_cons.mp hs with rfl | hs
      · rw [hc] at hd
        cases hd
        refine ⟨c', ?_, hb⟩
        rw [h3 s hr]
        simp [setEnv]
      · exact h2 s hs d (by rw [hother s hs]; exact hd)
    · intro s hs
      rw [h3 s (fun h => hs (List.mem_cons_of_mem _ h))]
      have : s ≠ r := by rintro rfl; exact hs List.mem_cons_self
      simp [setEnv, this]

/-! ## Examples -/

/-- The axes of the global system. -/
def std : Axes := ⟨⟨1, 0, 0⟩, ⟨0, 1, 0⟩, ⟨0, 0, 1⟩⟩

/-- The same after a quarter turn about z. -/
def turned : Axes := ⟨⟨0, 1, 0⟩, ⟨-1, 0, 0⟩, ⟨0, 0, 1⟩⟩

theorem std_direct : Direct std := by
  constructor <;> first | (ext <;> norm_num [std, cross]) | norm_num [std, dot]

theorem turned_direct : Direct turned := by
  constructor <;> first | (ext <;> norm_num [turned, cross]) | norm_num [turned, dot]

/-- A built system. -/
def sys (kind : CsKind) (o : Vec) (a : Axes) (rcs : Option Nat) : CS :=
  ⟨kind, some o, some a, rcs, false, [], none, some a, .rows a.ex a.ey a.ez⟩

/-- System 1 is turned and shifted, system 2 is defined in system 1. -/
def twoLevels : Env
  | 1 => some (sys .cartesian ⟨5, 0, 0⟩ turned none)
  | 2 => some (sys .cartesian ⟨0, 0, 3⟩ turned (some 1))
  | _ => none

-- the hypotheses of `C44_position`, `C43_distance` and `C44_round_trip` are met
example : Resolves twoLevels (sys .cartesian ⟨1, 1, 1⟩ std (some 2))
      [⟨⟨1, 1, 1⟩, std⟩, ⟨⟨0, 0, 3⟩, turned⟩, ⟨⟨5, 0, 0⟩, turned⟩] ∧
    Built twoLevels (sys .cartesian ⟨1, 1, 1⟩ std (some 2)) 3 :=
  ⟨.nested rfl rfl rfl rfl rfl (.nested rfl rfl rfl rfl rfl (.global rfl rfl rfl)),
   .nested (Or.inl rfl) rfl std_direct rfl rfl rfl
     (.nested (Or.inl rfl) rfl turned_direct rfl rfl rfl
       (.global (Or.inl rfl) rfl turned_direct rfl rfl))⟩

-- two independent vectors, three nodes that are not aligned
example : cross ⟨1, 0, 0⟩ ⟨1, 1, 0⟩ ≠ zero := by
  intro e
  have := congrArg Vec.z e
  norm_num [cross, zero] at this

/-! ## What fails -/

/-- Refutation for the orientation of an element relative to another system: the system of reference
is applied twice. -/
theorem C44_orientation_false : ∃ (env : Env) (c : CS) (fs : List Frame) (p : Vec),
    c.kind = .orientation ∧ c.virt = false ∧ Resolves env c fs ∧ (∀ f ∈ fs, Direct f.a) ∧
    through fs p = ⟨0, 1, 0⟩ ∧ positionToGlobal env 9 c (some p) = .ok (some ⟨-1, 0, 0⟩) := by
  refine ⟨fun r => if r = 1 then some (sys .cartesian zero turned none) else none,
    sys .orientation zero std (some 1), [⟨zero, std⟩, ⟨zero, turned⟩], ⟨1, 0, 0⟩, rfl, rfl,
    .nested rfl rfl rfl rfl rfl (.global rfl rfl rfl), ?_, ?_, ?_⟩
  · intro f hf
    simp only [List.mem_cons, List.not_mem_nil, or_false] at hf
    rcases hf with rfl | rfl
    · exact std_direct
    · exact turned_direct
  · ext <;> norm_num [through, Frame.point, add, smul, zero, std, turned]
  · simp [positionToGlobal, vectorToGlobal, upTo, sys, applyOpt, addOpt, Axes.apply, add, zero, std,
      turned]

theorem rad_90 : rad 90 = Real.pi / 2 := by unfold rad; ring

/-- Refutation for a system of reference that is cylindrical: the position of a point depends on the
last vector converted in that system, which is not part of the question. -/
theorem C44_history_false : ∃ (cyl cyl' c : CS) (q p x x' : Vec),
    cyl.kind = .cylindrical ∧ cyl.updateLocalBase q = .ok cyl' ∧ c.kind = .cartesian ∧
    c.rcs = some 1 ∧
    positionToGlobal (fun r => if r = 1 then some cyl else none) 9 c (some p) = .ok (some x) ∧
    positionToGlobal (fun r => if r = 1 then some cyl' else none) 9 c (some p) = .ok (some x') ∧
    x ≠ x' := by
  have hn : (⟨-1, 0, 0⟩ : Vec).normalized = some ⟨-1, 0, 0⟩ := by
    rw [normalized_eq (by intro e; have := congrArg Vec.x e; norm_num [zero] at this)]
    norm_num [Vec.norm, smul]
  have hc : cross ⟨0, 0, 1⟩ (sub ⟨0, 1, 0⟩ zero) = (⟨-1, 0, 0⟩ : Vec) := by
    ext <;> norm_num [cross, sub, zero]
  refine ⟨sys .cylindrical zero std none, { sys .cylindrical zero std none with
      localBase := some ⟨cross ⟨-1, 0, 0⟩ ⟨0, 0, 1⟩, ⟨-1, 0, 0⟩, ⟨0, 0, 1⟩⟩ },
    sys .cartesian ⟨1, 90, 0⟩ std (some 1), ⟨0, 1, 0⟩, ⟨1, 0, 0⟩, ⟨1, 1, 0⟩, ⟨0, 2, 0⟩, rfl, ?_, rfl,
    rfl, ?_, ?_, ?_⟩
  · simp only [updateLocalBase, sys]
    rw [if_neg (by rintro ⟨-, h, -⟩; norm_num [sub, zero] at h)]
    simp only [localAxes, std, Option.bind_eq_bind, Option.bind_some, hc, hn]
  · simp [positionToGlobal, vectorToGlobal, upTo, sys, applyOpt, addOpt, Axes.apply, add, zero, std,
      fromCylindrical, rad_90]
  · simp [positionToGlobal, vectorToGlobal, upTo, sys, applyOpt, addOpt, Axes.apply, add, zero, std,
      fromCylindrical, rad_90, cross]
    norm_num
  · intro e
    have := congrArg Vec.x e
    norm_num at this

/-- Refutation for systems that were not built: reading back local coordinates uses a matrix that was
never initialised. -/
theorem C44_not_built_false (env : Env) (n : Nat) (o ex ey v : Vec) :
    vectorToLocal env (n + 1) (ofVectors .cartesian o ex ey none) (some v) = .ub := by
  simp [vectorToLocal, ofVectors, applyInverse]

/-- A system defined in itself: the conversion never ends, whatever the fuel. -/
theorem C44_cycle_false (c : CS) (hk : c.kind = .cartesian) (hr : c.rcs = some 1) (n : Nat) (p : Option Vec) :
    positionToGlobal (fun r => if r = 1 then some c else none) n c p = .diverges := by
  have hv : ∀ n v, vectorToGlobal (fun r => if r = 1 then some c else none) n c v = .diverges := by
    intro n
    induction n with
    | zero => intro v; rfl
    | succ n ih =>
      intro v
      simp only [vectorToGlobal, hk, upTo, hr, if_true]
      exact ih _
  cases n with
  | zero => rfl
  | succ n =>
    simp only [positionToGlobal, hk, hv]
    rfl

/-- A system of reference that is never defined: a null pointer is dereferenced. -/
theorem C44_missing_false (env : Env) (c : CS) (hk : c.kind = .cartesian) (r : Nat) (hr : c.rcs = some r)
    (he : env r = none) (n : Nat) (p : Option Vec) : positionToGlobal env (n + 1) c p = .ub := by
  simp only [positionToGlobal, hk, vectorToGlobal, upTo, hr, he]
  rfl

/-- The nodes of the next refutation: 1, 2, 3 in system 2, 4, 5, 6 in the global one. -/
def sixNodes : NodeTable
  | 1 => (some 2, ⟨0, 0, 0⟩)
  | 2 => (some 2, ⟨0, 0, 1⟩)
  | 3 => (some 2, ⟨1, 0, 0⟩)
  | 5 => (none, ⟨0, 0, 1⟩)
  | 6 => (none, ⟨1, 0, 0⟩)
  | _ => (none, ⟨0, 0, 0⟩)

/-- Systems 1 and 2 given by nodes; those of system 1 are given in system 2. -/
noncomputable def late : Env
  | 1 => some (ofNodes 1 2 3 none)
  | 2 => some (ofNodes 4 5 6 none)
  | _ => none

/-- Refutation for systems given by nodes that are themselves given in a system with a higher number:
the axes of the first are not numbers when the model is finished, although no three nodes are
aligned. -/
theorem C43_build_order_false (fuel : Nat) : ∃ env' c,
    buildAll (fuel + 1) sixNodes [1, 2] late = .ok env' ∧ env' 1 = some c ∧ c.axes = none := by
  have hax : axesOf zero zero = none := by simp [axesOf, normalized_zero]
  have hnode : ∀ n v, sixNodes n = (some 2, v) → findNode late (fuel + 1) sixNodes n = .ok none := by
    intro n v hv
    simp [findNode, hv, late, ofNodes, positionToGlobal, vectorToGlobal, upTo, applyOpt, hax, addOpt]
  have hb : ∃ c, (ofNodes 1 2 3 none).build (findNode late (fuel + 1) sixNodes) = .ok c ∧ c.axes = none := by
    refine ⟨{ ofNodes 1 2 3 none with origin := none, axes := none, virt := false, inverse := .nan },
      ?_, rfl⟩
    simp only [build, ofNodes, if_true, buildCartesian, hnode 1 _ rfl, hnode 2 _ rfl, hnode 3 _ rfl,
      Outcome.bind_ok, subOpt, Option.bind_eq_bind, Option.bind_none, setInverse]
  obtain ⟨c, hc, hca⟩ := hb
  have h1 : late 1 = some (ofNodes 1 2 3 none) := rfl
  have h2 : setEnv late 1 c 2 = some (ofNodes 4 5 6 none) := by simp [setEnv, late]
  have hb : ∃ c2, (ofNodes 4 5 6 none).build (findNode (setEnv late 1 c) (fuel + 1) sixNodes) = .ok c2 := by
    simp only [build, ofNodes, if_true, buildCartesian, findNode, sixNodes, Outcome.bind_ok]
    exact ⟨_, rfl⟩
  obtain ⟨c2, hb⟩ := hb
  exact ⟨setEnv (setEnv late 1 c) 2 c2, c, by simp only [buildAll, h1, hc, Outcome.bind_ok, h2, hb],
    by simp [setEnv], hca⟩

end Vega.CsSpec
