import Verif.Geom.Cord2
import Verif.Geom.SystemsProps

/-!
# A coordinate system given by three points (C60)
-/
namespace Vega.Cord2Spec
open Vec CS CsSpec

theorem unit_normalized {u : Vec} (h : dot u u = 1) : u.normalized = some u := by
  have hz : u ≠ zero := by
    rintro rfl
    simp [dot, zero] at h
  have hn : u.norm = 1 := by
    unfold Vec.norm
    have : u.x * u.x + u.y * u.y + u.z * u.z = 1 := h
    rw [this, Real.sqrt_one]
  rw [normalized_eq hz, hn]
  congr 1
  ext <;> simp [smul]

theorem orthonormalized_smul {v u : Vec} {k : ℝ} (hk : k ≠ 0) :
    v.orthonormalized (smul k u) = v.orthonormalized u := by
  unfold orthonormalized
  have e : dot (smul k u) (smul k u) = k * k * dot u u := by simp only [dot, smul]; ring
  by_cases h : dot u u = 0
  · rw [if_pos h, if_pos (by rw [e, h, mul_zero])]
  · rw [if_neg h, if_neg (by rw [e]; exact mul_ne_zero (mul_ne_zero hk hk) h)]
    congr 1
    have e2 : dot (smul k u) v = k * dot u v := by simp only [dot, smul]; ring
    rw [e, e2]
    have : ∀ x : ℝ, k * dot u v / (k * k * dot u u) * (k * x) = dot u v / dot u u * x := by
      intro x; field_simp
    ext <;> simp only [sub, smul, this]

/-- The axes found by the three cards. -/
theorem cord2_axes (kind : CsKind) (a b c : Vec) (rid : Option Nat)
    (h : cross (sub b a) (sub c a) ≠ zero) :
    ∃ x k, k > 0 ∧ dot x x = 1 ∧ dot (smul k (sub b a)) (smul k (sub b a)) = 1 ∧
      InHalfPlane (sub b a) (sub c a) x ∧ Direct ⟨x, cross (smul k (sub b a)) x, smul k (sub b a)⟩ ∧
      (cord2 kind a b c rid).axes = some ⟨x, cross (smul k (sub b a)) x, smul k (sub b a)⟩ := by
  obtain ⟨z, hz, hzz, k, hk, rfl⟩ := normalized_ok (cross_ne_left h)
  obtain ⟨x, hx, hxx, hzx, hp⟩ := orthonormalized_ok hzz ((cross_smul_ne hk).mpr h)
  have hd := direct_of_zx hxx hzz hzx
  refine ⟨x, k, hk, hxx, hzz, halfPlane_smul hp, hd, ?_⟩
  rw [orthonormalized_smul hk.ne'] at hx
  simp only [cord2, hx, ofVectors, axesOf, unit_normalized hxx, Option.bind_eq_bind, Option.bind_some]
  -- the second vector handed to the constructor is a positive multiple of the second axis
  have e1 : cross (sub b a) x = smul (1 / k) (cross (smul k (sub b a)) x) := by
    have : k ≠ 0 := hk.ne'
    ext <;> simp only [cross, smul] <;> field_simp
  have ho : (cross (sub b a) x).orthonormalized x = some (cross (smul k (sub b a)) x) := by
    unfold orthonormalized
    rw [if_neg (by rw [hxx]; exact one_ne_zero)]
    have hxy : dot x (cross (sub b a) x) = 0 := (cross_self_dot (sub b a) x).2
    have e2 : sub (cross (sub b a) x) (smul (dot x (cross (sub b a) x) / dot x x) x) =
        cross (sub b a) x := by
      rw [hxy]
      ext <;> simp [sub, smul]
    have hne : cross (sub b a) x ≠ zero := by
      intro e
      have hy := hd.yy
      have : cross (smul k (sub b a)) x = zero := by
        have e3 : cross (smul k (sub b a)) x = smul k (cross (sub b a) x) := by
          ext <;> simp only [cross, smul] <;> ring
        rw [e3, e]; simp [smul, zero]
      simp only [this] at hy
      simp [dot, zero] at hy
    rw [e2, normalized_eq hne]
    have hn : (cross (sub b a) x).norm = 1 / k := by
      have h1 : dot (cross (sub b a) x) (cross (sub b a) x) = 1 / k * (1 / k) := by
        rw [e1]
        have hy := hd.yy
        simp only at hy
        have e4 : ∀ (s : ℝ) (w : Vec), dot (smul s w) (smul s w) = s * s * dot w w := by
          intro s w; simp only [dot, smul]; ring
        rw [e4, hy, mul_one]
      have h2 := norm_sq (cross (sub b a) x)
      rw [h1] at h2
      have h3 := norm_nonneg (cross (sub b a) x)
      have h4 : 0 < 1 / k := one_div_pos.mpr hk
      nlinarith [mul_self_eq_mul_self_iff.mp h2]
    rw [hn]
    congr 1
    have : k ≠ 0 := hk.ne'
    ext <;> simp only [cross, smul] <;> field_simp
  rw [ho]
  simp only [Option.bind_some, Option.some.injEq]
  congr 1
  have hh := hd.hand
  simpa using hh

/-- **C60** a system given by three points that are not aligned: the origin is A, the z axis points
to B, C is in the half-plane of x; axes direct and orthonormal. -/
theorem C60_axes (kind : CsKind) (a b c : Vec) (rid : Option Nat)
    (h : cross (sub b a) (sub c a) ≠ zero) :
    (cord2 kind a b c rid).kind = kind ∧ (cord2 kind a b c rid).rcs = rid ∧
    (cord2 kind a b c rid).origin = some a ∧
    ∃ x, (cord2 kind a b c rid).axes = some x ∧ Direct x ∧ SameDirection x.ez (sub b a) ∧
      InHalfPlane (sub b a) (sub c a) x.ex := by
  obtain ⟨x, k, hk, _, _, hp, hd, ha⟩ := cord2_axes kind a b c rid h
  have hs : (cord2 kind a b c rid).kind = kind ∧ (cord2 kind a b c rid).rcs = rid ∧
      (cord2 kind a b c rid).origin = some a := by
    cases ho : (sub c a).orthonormalized (sub b a) with
    | none => simp only [cord2, ho, and_self]
    | some v => simp only [cord2, ho, ofVectors, and_self]
  exact ⟨hs.1, hs.2.1, hs.2.2, _, ha, hd, ⟨k, hk, rfl⟩, hp⟩

/-- **C60** three aligned points: the axes are not numbers, nothing is reported. -/
theorem C60_aligned (kind : CsKind) (a b c : Vec) (rid : Option Nat)
    (h : cross (sub b a) (sub c a) = zero) : (cord2 kind a b c rid).axes = none := by
  have : (sub c a).orthonormalized (sub b a) = none := by
    by_cases h0 : sub b a = zero
    · unfold orthonormalized
      rw [if_pos (by rw [h0]; simp [dot, zero])]
    · obtain ⟨z, hz, hzz, k, hk, rfl⟩ := normalized_ok h0
      rw [← orthonormalized_smul (k := k) hk.ne']
      apply orthonormalized_none hzz
      by_contra hc
      exact (cross_smul_ne hk).mp hc h
  simp only [cord2, this]

/-- Where a point given in the system of reference is: `positionToGlobal` of that system. -/
noncomputable def inReference (env : Env) (n : Nat) (rid : Option Nat) (p : Vec) : Outcome (Option Vec) :=
  upTo env rid (positionToGlobal env n) (some p)

/-- **C60** CORD2R seen from outside, for a system of reference that is global or reached through
Cartesian systems: A has local coordinates (0, 0, 0), B has (0, 0, t) with t positive, C has (x, 0, z)
with x positive. -/
theorem C60_points_partial (env : Env) (n : Nat) (a b c : Vec) (rid : Option Nat)
    (h : cross (sub b a) (sub c a) ≠ zero)
    (hr : rid = none ∨ ∃ r p fs, rid = some r ∧ env r = some p ∧ p.kind = .cartesian ∧
      Resolves env p fs ∧ fs.length ≤ n) :
    let s := cord2 .cartesian a b c rid
    positionToGlobal env (n + 1) s (some zero) = inReference env n rid a ∧
    (∃ t > 0, positionToGlobal env (n + 1) s (some ⟨0, 0, t⟩) = inReference env n rid b) ∧
    ∃ x > 0, ∃ z, positionToGlobal env (n + 1) s (some ⟨x, 0, z⟩) = inReference env n rid c := by
  intro s
  obtain ⟨x, k, hk, hxx, hzz, ⟨sx, tx, htx, hx⟩, hd, ha⟩ := cord2_axes .cartesian a b c rid h
  obtain ⟨hkind, hrcs, horig, _⟩ := C60_axes .cartesian a b c rid h
  -- both sides in terms of `inReference` of the point written in the frame
  have key : ∀ q, positionToGlobal env (n + 1) s (some q) = inReference env n rid
      (add a (Axes.apply ⟨x, cross (smul k (sub b a)) x, smul k (sub b a)⟩ q)) := by
    intro q
    rcases hr with hr | ⟨r, p, fs, hr, he, hp, hf, hn⟩
    · have := C44_position env s _ (.global horig ha (by rw [hrcs]; exact hr)) hkind (n + 1) (by simp) q
      rw [this]
      simp only [inReference, upTo, hr, through, List.foldl_cons, List.foldl_nil, frame_point]
    · have := C44_position env s _ (.nested horig ha (by rw [hrcs]; exact hr) he hp hf) hkind (n + 1)
        (by rw [List.length_cons]; omega) q
      rw [this]
      simp only [inReference, upTo, hr, he, C44_position env p fs hf hp n hn]
      simp only [through, List.foldl_cons, frame_point]
  have hk0 : k ≠ 0 := hk.ne'
  refine ⟨?_, ⟨1 / k, one_div_pos.mpr hk, ?_⟩, ⟨1 / tx, one_div_pos.mpr htx, -(sx / tx) / k, ?_⟩⟩
  · rw [key]
    congr 1
    ext <;> simp [add, Axes.apply, zero]
  · rw [key]
    congr 1
    ext <;> simp only [add, Axes.apply, smul, sub] <;> field_simp <;> ring
  · rw [key]
    congr 1
    have ht : tx ≠ 0 := htx.ne'
    have h1 := congrArg Vec.x hx
    have h2 := congrArg Vec.y hx
    have h3 := congrArg Vec.z hx
    simp only [add, smul, sub] at h1 h2 h3
    ext
    · simp only [add, Axes.apply, smul, sub, h1]; field_simp; ring
    · simp only [add, Axes.apply, smul, sub, h2]; field_simp; ring
    · simp only [add, Axes.apply, smul, sub, h3]; field_simp; ring

-- three points that are not aligned
example : cross (sub ⟨0, 0, 1⟩ zero) (sub ⟨1, 0, 0⟩ zero) ≠ zero := by
  intro e
  have := congrArg Vec.y e
  norm_num [cross, sub, zero] at this

/-- Refutation for a system of reference that is cylindrical: the points are subtracted as if they
were Cartesian. A is at radius 1, B a quarter turn further; B is nowhere on the z axis. -/
theorem C60_cylindrical_false : ∃ (env : Env) (a b c : Vec), cross (sub b a) (sub c a) ≠ zero ∧
    (∃ p, env 1 = some p ∧ p.kind = .cylindrical ∧ p.rcs = none) ∧
    ∀ n t, positionToGlobal env (n + 2) (cord2 .cartesian a b c (some 1)) (some ⟨0, 0, t⟩) ≠
      inReference env (n + 1) (some 1) b := by
  have hne : cross (sub ⟨1, 90, 0⟩ ⟨1, 0, 0⟩) (sub ⟨1, 0, 1⟩ ⟨1, 0, 0⟩) ≠ zero := by
    intro e
    have := congrArg Vec.x e
    norm_num [cross, sub, zero] at this
  refine ⟨fun r => if r = 1 then some (sys .cylindrical zero std none) else none, ⟨1, 0, 0⟩,
    ⟨1, 90, 0⟩, ⟨1, 0, 1⟩, hne, ⟨_, rfl, rfl, rfl⟩, ?_⟩
  intro n t e
  obtain ⟨x, k, hk, _, _, _, _, ha⟩ := cord2_axes .cartesian ⟨1, 0, 0⟩ ⟨1, 90, 0⟩ ⟨1, 0, 1⟩ (some 1) hne
  obtain ⟨hkind, hrcs, horig, _⟩ := C60_axes .cartesian ⟨1, 0, 0⟩ ⟨1, 90, 0⟩ ⟨1, 0, 1⟩ (some 1) hne
  simp only [positionToGlobal, hkind, vectorToGlobal, upTo, hrcs, if_true, ha, horig, applyOpt, sys,
    Option.bind_eq_bind, Option.bind_some, Outcome.bind_ok, Option.map_some, addOpt, inReference,
    fromCylindrical, Outcome.ok.injEq, Option.some.injEq] at e
  have hx := congrArg Vec.x e
  have h0 : rad 0 = 0 := by simp [rad]
  simp [add, Axes.apply, std, zero, sub, smul, rad_90, h0] at hx

end Vega.Cord2Spec
