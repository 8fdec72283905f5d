import Verif.Geom.Euler
import Verif.Geom.Cord2Props

/-!
# Euler angles reproduce the axes (C61)
-/
namespace Vega.EulerSpec
open Vec CS CsSpec

/-- The base turned by ψ around z, then θ around the new y, then φ around the new x: the columns of
Rz(ψ) Ry(θ) Rx(φ). -/
noncomputable def turnedBy (ψ θ φ : ℝ) : Axes :=
  ⟨⟨Real.cos ψ * Real.cos θ, Real.sin ψ * Real.cos θ, -Real.sin θ⟩,
   ⟨Real.cos ψ * Real.sin θ * Real.sin φ - Real.sin ψ * Real.cos φ,
    Real.sin ψ * Real.sin θ * Real.sin φ + Real.cos ψ * Real.cos φ, Real.cos θ * Real.sin φ⟩,
   ⟨Real.cos ψ * Real.sin θ * Real.cos φ + Real.sin ψ * Real.sin φ,
    Real.sin ψ * Real.sin θ * Real.cos φ - Real.cos ψ * Real.sin φ, Real.cos θ * Real.cos φ⟩⟩

/-- Elementary rotations around the axes x, y and z. -/
noncomputable def rotX (t : ℝ) (v : Vec) : Vec :=
  ⟨v.x, Real.cos t * v.y - Real.sin t * v.z, Real.sin t * v.y + Real.cos t * v.z⟩
noncomputable def rotY (t : ℝ) (v : Vec) : Vec :=
  ⟨Real.cos t * v.x + Real.sin t * v.z, v.y, -Real.sin t * v.x + Real.cos t * v.z⟩
noncomputable def rotZ (t : ℝ) (v : Vec) : Vec :=
  ⟨Real.cos t * v.x - Real.sin t * v.y, Real.sin t * v.x + Real.cos t * v.y, v.z⟩

/-- `turnedBy` is the product of the three elementary rotations. -/
theorem turnedBy_eq (ψ θ φ : ℝ) (v : Vec) :
    (turnedBy ψ θ φ).apply v = rotZ ψ (rotY θ (rotX φ v)) := by
  ext <;> simp only [Axes.apply, turnedBy, rotX, rotY, rotZ] <;> ring

theorem atan2_cos_sin {y x r : ℝ} (hr : 0 < r) (h : x * x + y * y = r * r) :
    Real.cos (atan2 y x) = x / r ∧ Real.sin (atan2 y x) = y / r := by
  have hn : ‖(⟨x, y⟩ : ℂ)‖ = r := by
    rw [Complex.norm_eq_sqrt_sq_add_sq]
    simp only
    rw [show x ^ 2 + y ^ 2 = r * r by nlinarith, Real.sqrt_mul_self hr.le]
  have h0 : (⟨x, y⟩ : ℂ) ≠ 0 := by
    intro e
    rw [e, norm_zero] at hn
    exact hr.ne hn
  unfold atan2
  rw [Complex.cos_arg h0, Complex.sin_arg, hn]
  exact ⟨rfl, rfl⟩

/-- The rows of direct axes are unit vectors. -/
theorem direct_row_z {a : Axes} (h : Direct a) :
    a.ex.z * a.ex.z + (a.ez.z * a.ez.z + a.ey.z * a.ey.z) = 1 := by
  have := apply_inverse h ⟨0, 0, 1⟩
  have hz := congrArg Vec.z this
  simp only [Axes.apply, dot] at hz
  nlinarith [hz]

theorem direct_facts {a : Axes} (h : Direct a) :
    a.ey = cross a.ez a.ex ∧ a.ez = cross a.ex a.ey ∧ a.ex = cross a.ey a.ez := by
  obtain ⟨h1, h2⟩ := direct_cross h
  exact ⟨h2.symm, h.hand.symm, h1.symm⟩

/-- **C61** the angles of direct axes reproduce them exactly, unless the x axis is within 1e-8 of the
vertical. -/
theorem C61_exact (a : Axes) (h : Direct a)
    (hc : 1 / 10 ^ 8 < Real.sqrt (a.ez.z * a.ez.z + a.ey.z * a.ey.z)) :
    turnedBy (anglesOf a).x (anglesOf a).y (anglesOf a).z = a := by
  have e : anglesOf a = ⟨atan2 a.ex.y a.ex.x,
      atan2 (-a.ex.z) (Real.sqrt (a.ez.z * a.ez.z + a.ey.z * a.ey.z)), atan2 a.ey.z a.ez.z⟩ := if_pos hc
  rw [e]
  simp only
  set c := Real.sqrt (a.ez.z * a.ez.z + a.ey.z * a.ey.z) with hcdef
  have hc0 : 0 < c := lt_trans (by norm_num) hc
  have hcc : c * c = a.ez.z * a.ez.z + a.ey.z * a.ey.z :=
    Real.mul_self_sqrt (by nlinarith [sq_nonneg a.ez.z, sq_nonneg a.ey.z])
  have hrow := direct_row_z h
  have hxx := h.xx
  simp only [dot] at hxx
  obtain ⟨f1, f2, f3⟩ := direct_facts h
  have y1 := congrArg Vec.x f1
  have y2 := congrArg Vec.y f1
  have z1 := congrArg Vec.x f2
  have z2 := congrArg Vec.y f2
  simp only [cross] at y1 y2 z1 z2
  obtain ⟨p1, p2⟩ := atan2_cos_sin (y := a.ex.y) (x := a.ex.x) hc0 (by nlinarith)
  obtain ⟨q1, q2⟩ := atan2_cos_sin (y := -a.ex.z) (x := c) (r := 1) one_pos (by nlinarith)
  obtain ⟨r1, r2⟩ := atan2_cos_sin (y := a.ey.z) (x := a.ez.z) hc0 (by nlinarith)
  have hk : c * c = 1 - a.ex.z * a.ex.z := by linarith
  simp only [turnedBy, p1, p2, q1, q2, r1, r2, div_one]
  obtain ⟨⟨xx, xy, xz⟩, ⟨yx, yy, yz⟩, ⟨zx, zy, zz⟩⟩ := a
  simp only at *
  have hc1 : c ≠ 0 := hc0.ne'
  congr 1
  · ext <;> simp only <;> field_simp
  · ext <;> simp only
    · field_simp; rw [sq, hk]; linear_combination (-xz) * z2 - y1
    · field_simp; rw [sq, hk]; linear_combination xz * z1 - y2
    · field_simp
  · ext <;> simp only
    · field_simp; rw [sq, hk]; linear_combination xz * y2 - z1
    · field_simp; rw [sq, hk]; linear_combination (-xz) * y1 - z2
    · field_simp

/-- Two vectors at most `e` apart along each axis. -/
def Near (e : ℝ) (u v : Vec) : Prop := |u.x - v.x| ≤ e ∧ |u.y - v.y| ≤ e ∧ |u.z - v.z| ≤ e

theorem near_zero {u v : Vec} (h : u = v) {e : ℝ} (he : 0 ≤ e) : Near e u v := by
  subst h
  simp [Near, he]

theorem mul_small {a b c : ℝ} (ha : |a| ≤ 1) (hb : |b| ≤ c) : |a * b| ≤ c := by
  rw [abs_mul]
  have := mul_le_mul ha hb (abs_nonneg _) zero_le_one
  linarith

theorem sq_small {a c : ℝ} (hc : 0 ≤ c) (h : a * a ≤ c * c) : |a| ≤ c :=
  abs_le_of_sq_le_sq (by rw [sq, sq]; exact h) hc

/-- Cosine and sine of the angle of (p, q), nearly a unit vector. -/
theorem angle_near {p q r : ℝ} (h : p * p + q * q + r * r = 1) {c : ℝ} (hr : r * r ≤ c)
    (hc : c ≤ 1 / 2) : |Real.cos (atan2 q p) - p| ≤ c ∧ |Real.sin (atan2 q p) - q| ≤ c := by
  set n := Real.sqrt (p * p + q * q) with hn
  have hnn : n * n = p * p + q * q := Real.mul_self_sqrt (by nlinarith [sq_nonneg p, sq_nonneg q])
  have hn0 : 0 ≤ n := Real.sqrt_nonneg _
  have hn1 : n ≤ 1 := by nlinarith [sq_nonneg r]
  have hpos : 0 < n := by
    rcases hn0.lt_or_eq with h' | h'
    · exact h'
    · rw [← h'] at hnn; nlinarith
  have hl : 1 - n ≤ c := by nlinarith
  obtain ⟨h1, h2⟩ := atan2_cos_sin hpos hnn.symm
  have e1 : Real.cos (atan2 q p) - p = Real.cos (atan2 q p) * (1 - n) := by rw [h1]; field_simp
  have e2 : Real.sin (atan2 q p) - q = Real.sin (atan2 q p) * (1 - n) := by rw [h2]; field_simp
  rw [e1, e2]
  exact ⟨mul_small (Real.abs_cos_le_one _) (by rw [abs_of_nonneg (by linarith)]; exact hl),
    mul_small (Real.abs_sin_le_one _) (by rw [abs_of_nonneg (by linarith)]; exact hl)⟩

/-- **C61** the angles of any direct axes reproduce them to 2e-8, exactly when the x axis is
vertical. -/
theorem C61_near (a : Axes) (h : Direct a)
    (hc : ¬ 1 / 10 ^ 8 < Real.sqrt (a.ez.z * a.ez.z + a.ey.z * a.ey.z)) :
    let t := turnedBy (anglesOf a).x (anglesOf a).y (anglesOf a).z
    let e := 2 * Real.sqrt (a.ez.z * a.ez.z + a.ey.z * a.ey.z)
    Near e t.ex a.ex ∧ Near e t.ey a.ey ∧ Near e t.ez a.ez := by
  have e : anglesOf a = ⟨atan2 (-a.ey.x) a.ey.y,
      atan2 (-a.ex.z) (Real.sqrt (a.ez.z * a.ez.z + a.ey.z * a.ey.z)), 0⟩ := if_neg hc
  rw [e]
  simp only
  set c := Real.sqrt (a.ez.z * a.ez.z + a.ey.z * a.ey.z) with hcdef
  have hc0 : 0 ≤ c := Real.sqrt_nonneg _
  have hcs : c ≤ 1 / 10 ^ 8 := not_lt.mp hc
  have hcc : c * c = a.ez.z * a.ez.z + a.ey.z * a.ey.z :=
    Real.mul_self_sqrt (by nlinarith [sq_nonneg a.ez.z, sq_nonneg a.ey.z])
  have hrow := direct_row_z h
  have hxx := h.xx
  have hyy := h.yy
  simp only [dot] at hxx hyy
  obtain ⟨_, f2, _⟩ := direct_facts h
  have z1 := congrArg Vec.x f2
  have z2 := congrArg Vec.y f2
  simp only [cross] at z1 z2
  have hyz2 : a.ey.z * a.ey.z ≤ c * c := by linarith [mul_self_nonneg a.ez.z]
  have hyz : |a.ey.z| ≤ c := sq_small hc0 hyz2
  have hzz : |a.ez.z| ≤ c := sq_small hc0 (by linarith [mul_self_nonneg a.ey.z])
  have hxx' : |a.ex.x| ≤ c := sq_small hc0 (by linarith [mul_self_nonneg a.ex.y])
  have hxy' : |a.ex.y| ≤ c := sq_small hc0 (by linarith [mul_self_nonneg a.ex.x])
  have hxz' : |a.ex.z| ≤ 1 := sq_small zero_le_one
    (by linarith [mul_self_nonneg a.ex.x, mul_self_nonneg a.ex.y])
  have hc1 : c ≤ 1 / 2 := hcs.trans (by norm_num)
  have hcle : c * c ≤ c / 2 := by
    have := mul_le_mul_of_nonneg_left hc1 hc0
    linarith
  have hnear := angle_near (p := a.ey.y) (q := -a.ey.x) (r := a.ey.z) (c := c * c)
    (by rw [neg_mul_neg]; linarith) hyz2 (by linarith)
  obtain ⟨q1, q2⟩ := atan2_cos_sin (y := -a.ex.z) (x := c) (r := 1) one_pos
    (by rw [neg_mul_neg]; linarith)
  have hC1 := Real.abs_cos_le_one (atan2 (-a.ey.x) a.ey.y)
  have hS1 := Real.abs_sin_le_one (atan2 (-a.ey.x) a.ey.y)
  obtain ⟨dC, dS⟩ := hnear
  rw [div_one] at q1 q2
  simp only [turnedBy, q1, q2, Real.cos_zero, Real.sin_zero, mul_zero, mul_one, zero_sub, zero_add,
    add_zero, sub_zero, Near]
  generalize Real.cos (atan2 (-a.ey.x) a.ey.y) = C at *
  generalize Real.sin (atan2 (-a.ey.x) a.ey.y) = S at *
  have hcabs : |c| ≤ c := by rw [abs_of_nonneg hc0]
  have g1 := mul_small hC1 hcabs
  have g2 := mul_small hS1 hcabs
  have g3 : |a.ex.y * a.ey.z| ≤ c := mul_small (hxy'.trans (by linarith)) hyz
  have g4 : |a.ex.x * a.ey.z| ≤ c := mul_small (hxx'.trans (by linarith)) hyz
  have g5 := mul_small hxz' dC
  have g6 := mul_small hxz' dS
  have e1 : C * -a.ex.z - a.ez.x = -(a.ex.z * (C - a.ey.y)) - a.ex.y * a.ey.z := by rw [z1]; ring
  have e2 : S * -a.ex.z - a.ez.y = -(a.ex.z * (S - -a.ey.x)) + a.ex.x * a.ey.z := by rw [z2]; ring
  rw [e1, e2]
  clear e1 e2 z1 z2 hcdef hcc hrow hxx hyy f2 e h hc q1 q2 hyz2
  rw [abs_le] at hyz hzz hxx' hxy' g1 g2 g3 g4 g5 g6 dC dS
  refine ⟨⟨?_, ?_, ?_⟩, ⟨?_, ?_, ?_⟩, ⟨?_, ?_, ?_⟩⟩ <;> rw [abs_le] <;> constructor <;> linarith

/-- The axes `a` seen in the system `b`. -/
def seenIn (b a : Axes) : Axes :=
  ⟨⟨dot a.ex b.ex, dot a.ex b.ey, dot a.ex b.ez⟩, ⟨dot a.ey b.ex, dot a.ey b.ey, dot a.ey b.ez⟩,
   ⟨dot a.ez b.ex, dot a.ez b.ey, dot a.ez b.ez⟩⟩

theorem seenIn_direct {a b : Axes} (ha : Direct a) (hb : Direct b) : Direct (seenIn b a) := by
  have k : ∀ u v : Vec, dot (⟨dot u b.ex, dot u b.ey, dot u b.ez⟩ : Vec) ⟨dot v b.ex, dot v b.ey, dot v b.ez⟩
      = dot u v := by
    intro u v
    rw [← apply_dot hb, apply_inverse hb, apply_inverse hb]
  refine ⟨?_, ?_, ?_, ?_, ?_, ?_, ?_⟩
  · exact (k _ _).trans ha.xx
  · exact (k _ _).trans ha.yy
  · exact (k _ _).trans ha.zz
  · exact (k _ _).trans ha.xy
  · exact (k _ _).trans ha.yz
  · exact (k _ _).trans ha.zx
  · -- (u·e)(v·f) - (u·f)(v·e) = (u×v)·(e×f)
    obtain ⟨h1, h2⟩ := direct_cross hb
    have h3 := hb.hand
    have bc : ∀ e f : Vec, dot a.ex e * dot a.ey f - dot a.ex f * dot a.ey e =
        dot (cross a.ex a.ey) (cross e f) := by
      intro e f; simp only [dot, cross]; ring
    ext
    · have := bc b.ey b.ez
      rw [h1, ha.hand] at this
      simpa only [seenIn, cross] using this
    · have := bc b.ez b.ex
      rw [h2, ha.hand] at this
      simpa only [seenIn, cross] using this
    · have := bc b.ex b.ey
      rw [h3, ha.hand] at this
      simpa only [seenIn, cross] using this

/-- The x axis of `a` is more than 1e-8 away from the vertical of the system `b`. -/
def Oblique (a : Axes) : Prop := 1 / 10 ^ 8 < Real.sqrt (a.ez.z * a.ez.z + a.ey.z * a.ey.z)

/-- **C61** the angles of a system given in the global one turn the global base onto its axes. -/
theorem C61_global_partial (env : Env) (n : Nat) (c : CS) (a : Axes) (ha : c.axes = some a) (hd : Direct a)
    (hr : c.rcs = none) : ∃ w, eulerAngles env n c none = .ok (some w) ∧
      (Oblique a → turnedBy w.x w.y w.z = a) ∧
      Near (2 / 10 ^ 8) (turnedBy w.x w.y w.z).ex a.ex ∧ Near (2 / 10 ^ 8) (turnedBy w.x w.y w.z).ey a.ey ∧
      Near (2 / 10 ^ 8) (turnedBy w.x w.y w.z).ez a.ez := by
  refine ⟨anglesOf a, ?_, C61_exact a hd, ?_⟩
  · simp only [eulerAngles, eulerAxes, hr, ha, Outcome.bind_ok, Option.map_some]
  · by_cases ho : Oblique a
    · rw [C61_exact a hd ho]
      exact ⟨near_zero rfl (by norm_num), near_zero rfl (by norm_num), near_zero rfl (by norm_num)⟩
    · obtain ⟨⟨a1, a2, a3⟩, ⟨b1, b2, b3⟩, ⟨c1, c2, c3⟩⟩ := C61_near a hd ho
      have hle : 2 * Real.sqrt (a.ez.z * a.ez.z + a.ey.z * a.ey.z) ≤ 2 / 10 ^ 8 := by
        have := not_lt.mp ho
        linarith
      exact ⟨⟨a1.trans hle, a2.trans hle, a3.trans hle⟩, ⟨b1.trans hle, b2.trans hle, b3.trans hle⟩,
        ⟨c1.trans hle, c2.trans hle, c3.trans hle⟩⟩

/-- **C61** the angles relative to another built Cartesian system turn the axes of that system onto
those of this one. -/
theorem C61_relative_partial (env : Env) (n : Nat) (c r : CS) (a b : Axes) (ha : c.axes = some a)
    (hd : Direct a) (hr : c.rcs = none) (hk : r.kind = .cartesian) (hrr : r.rcs = none)
    (hb : Direct b) (hi : r.inverse = .rows b.ex b.ey b.ez) (ho : Oblique (seenIn b a)) :
    ∃ w, eulerAngles env (n + 1) c (some r) = .ok (some w) ∧
      b.apply (turnedBy w.x w.y w.z).ex = a.ex ∧ b.apply (turnedBy w.x w.y w.z).ey = a.ey ∧
      b.apply (turnedBy w.x w.y w.z).ez = a.ez := by
  refine ⟨anglesOf (seenIn b a), ?_, ?_⟩
  · have hl : ∀ v, vectorToLocal env (n + 1) r (some v) =
        .ok (some ⟨dot v b.ex, dot v b.ey, dot v b.ez⟩) := by
      intro v
      have : ¬ (r.kind = .cylindrical ∨ r.kind = .spherical) := by rw [hk]; decide
      simp only [vectorToLocal, if_neg this, hrr, hi, applyInverse]
    simp only [eulerAngles, eulerAxes, hr, ha, Outcome.bind_ok, onAxes, Option.map_some, hl, axes?,
      Option.bind_eq_bind, Option.bind_some, seenIn]
  · rw [C61_exact _ (seenIn_direct hd hb) ho]
    exact ⟨apply_inverse hb _, apply_inverse hb _, apply_inverse hb _⟩

theorem axesOf_direct {a : Axes} (h : Direct a) : axesOf a.ex a.ey = some a := by
  have ho : a.ey.orthonormalized a.ex = some a.ey := by
    unfold orthonormalized
    rw [if_neg (by rw [h.xx]; exact one_ne_zero)]
    have : sub a.ey (smul (dot a.ex a.ey / dot a.ex a.ex) a.ex) = a.ey := by
      rw [h.xy, zero_div]; ext <;> simp [sub, smul]
    rw [this]
    exact Cord2Spec.unit_normalized h.yy
  simp only [axesOf, Cord2Spec.unit_normalized h.xx, ho, Option.bind_eq_bind, Option.bind_some, h.hand]

/-- **C61** the angles given for a node in a cylindrical system turn the global base onto the radial,
tangential and axial directions at that node, when the system is given in the global one. -/
theorem C61_cylindrical_partial (env : Env) (n : Nat) (c : CS) (a : Axes) (o p : Vec)
    (hk : c.kind = .cylindrical) (ha : c.axes = some a) (ho : c.origin = some o) (hd : Direct a)
    (hfar : 5 / 2 ^ 52 < |(sub p o).x| ∨ 5 / 2 ^ 52 < |(sub p o).y| ∨ 5 / 2 ^ 52 < |(sub p o).z|)
    (hoff : cross a.ez (sub p o) ≠ zero) :
    ∃ c' b w, c.updateLocalBase p = .ok c' ∧ localEulerAngles env n c' none = .ok (some w) ∧
      Direct b ∧ b.ez = a.ez ∧ InHalfPlane a.ez (sub p o) b.ex ∧
      (Oblique b → turnedBy w.x w.y w.z = b) := by
  obtain ⟨c', b, h1, h2, _, h4, h5, h6⟩ := C43_cylindrical_base c a o p hk ha ho hd hfar hoff
  have hax : (ofVectors .cartesian zero b.ex b.ey none).axes = some b := axesOf_direct h4
  obtain ⟨w, hw, he, _⟩ := C61_global_partial env n (ofVectors .cartesian zero b.ex b.ey none) b hax h4 rfl
  refine ⟨c', b, w, h1, ?_, h4, h5, h6, he⟩
  simp only [localEulerAngles, h2]
  exact hw

-- a quarter turn about z has the angles (π/2, 0, 0)
example : Oblique turned ∧ Direct turned := by
  refine ⟨?_, turned_direct⟩
  simp only [Oblique, turned]
  norm_num

/-! ## What fails -/

/-- Refutation for a system given in another one: its axes are converted as if they were local
coordinates, and so turned twice. The system turned by a quarter of a turn gets the angle of a half
turn. -/
theorem C61_nested_false : ∃ (env : Env) (c : CS) (w : Vec), Direct turned ∧
    vectorToGlobal env 2 c (some ⟨1, 0, 0⟩) = .ok (some ⟨0, 1, 0⟩) ∧
    eulerAngles env 2 c none = .ok (some w) ∧ (turnedBy w.x w.y w.z).ex = ⟨-1, 0, 0⟩ := by
  refine ⟨fun r => if r = 1 then some (sys .cartesian zero std none) else none,
    sys .cartesian zero turned (some 1), anglesOf ⟨⟨-1, 0, 0⟩, ⟨0, -1, 0⟩, ⟨0, 0, 1⟩⟩, turned_direct, ?_, ?_, ?_⟩
  · simp only [vectorToGlobal, sys, upTo, if_true, applyOpt, Option.bind_eq_bind, Option.bind_some]
    congr 2
    ext <;> simp [Axes.apply, turned, std]
  · simp only [eulerAngles, eulerAxes, onAxes, vectorToGlobal, sys, upTo, if_true, applyOpt,
      Option.bind_eq_bind, Option.bind_some, Option.map_some, Outcome.bind_ok, axes?]
    congr 3 <;> simp [Axes.apply, turned, std]
  · have hd : Direct ⟨⟨-1, 0, 0⟩, ⟨0, -1, 0⟩, ⟨0, 0, 1⟩⟩ := by
      constructor <;> first | (ext <;> norm_num [cross]) | norm_num [dot]
    rw [C61_exact _ hd (by norm_num)]

/-- Refutation for a cylindrical system given in another one: the local base is taken for global
directions. -/
theorem C61_cylindrical_false : ∃ (env : Env) (c : CS) (w : Vec), c.kind = .cylindrical ∧
    vectorToGlobal env 2 c (some ⟨1, 0, 0⟩) = .ok (some ⟨0, 1, 0⟩) ∧
    localEulerAngles env 2 c none = .ok (some w) ∧ (turnedBy w.x w.y w.z).ex = ⟨1, 0, 0⟩ := by
  refine ⟨fun r => if r = 1 then some (sys .cartesian zero turned none) else none,
    sys .cylindrical zero std (some 1), anglesOf std, rfl, ?_, ?_, ?_⟩
  · simp only [vectorToGlobal, sys, upTo, if_true, applyOpt, Option.bind_eq_bind, Option.bind_some]
    congr 2
    ext <;> simp [Axes.apply, turned, std]
  · simp only [localEulerAngles, sys, eulerAngles, eulerAxes, ofVectors, axesOf_direct std_direct,
      Outcome.bind_ok, Option.map_some]
  · rw [C61_exact _ std_direct (by norm_num [std])]
    rfl

end Vega.EulerSpec
