import Verif.Geom.EulerProps
import Verif.Systus.Frames

/-! # C137: the axes written for the elements of Systus are those of the model -/
namespace Vega

/-! ## Specification -/
namespace SystusFramesSpec
open Vec CsSpec SystusFrames

/-- The axes from which the angle of a bar along `x` is counted: the first one along the bar; the second one horizontal, to the left of
the bar, or in the half-plane of Y if the bar is vertical. -/
structure BarAxes (x : Vec) (b : Axes) : Prop where
  direct : Direct b
  along : SameDirection b.ex x
  side : ¬ (IsZero x.x ∧ IsZero x.y) → InHalfPlane x (cross ⟨0, 0, 1⟩ x) b.ey
  vertical : IsZero x.x ∧ IsZero x.y → InHalfPlane x ⟨0, 1, 0⟩ b.ey

/-- The axes `b` turned by three angles, around z, the new y and the new x, are the axes `a`. -/
def Turned (b : Axes) (psi theta phi : ℝ) (a : Axes) : Prop :=
  b.apply (EulerSpec.turnedBy psi theta phi).ex = a.ex ∧ b.apply (EulerSpec.turnedBy psi theta phi).ey = a.ey ∧
    b.apply (EulerSpec.turnedBy psi theta phi).ez = a.ez

/-- The axes of the global system. -/
def global : Axes := ⟨⟨1, 0, 0⟩, ⟨0, 1, 0⟩, ⟨0, 0, 1⟩⟩

/-- All components are taken for zero. -/
def SmallVec (v : Vec) : Prop := IsZero v.x ∧ IsZero v.y ∧ IsZero v.z

/-- The axes from which the angle of a triangle with the sides `u` and `v` is counted, if it is not horizontal: the third one is the
normal, the first one is horizontal, to the left of the normal seen from above. -/
structure TriangleAxes (u v : Vec) (b : Axes) : Prop where
  direct : Direct b
  normal : SameDirection b.ez (cross u v)
  horizontal : SameDirection b.ex (cross ⟨0, 0, 1⟩ (cross u v))

end SystusFramesSpec

/-! ## Lemmas -/
namespace SystusFrames
open Vec CS CsSpec EulerSpec SystusFramesSpec

theorem global_direct : Direct global := by
  constructor <;> simp [global, dot, cross]

/-- The default frame of two independent vectors. -/
theorem frame_of (x y : Vec) (h : cross x y ≠ zero) :
    ∃ b, Direct b ∧ SameDirection b.ex x ∧ InHalfPlane x y b.ey ∧
      (ofVectors .cartesian zero x y none).setInverse.kind = .cartesian ∧
      (ofVectors .cartesian zero x y none).setInverse.rcs = none ∧
      (ofVectors .cartesian zero x y none).setInverse.inverse = .rows b.ex b.ey b.ez := by
  obtain ⟨b, h1, h2, h3, h4⟩ := C43_axes .cartesian zero x y none h
  refine ⟨b, h2, h3, h4, ?_⟩
  rw [setInverse_direct h1 h2]
  exact ⟨rfl, rfl, rfl⟩

theorem bar_cross (x : Vec) (h : ¬ (IsZero x.x ∧ IsZero x.y ∧ IsZero x.z)) :
    (barVectors x).1 = x ∧ cross x (barVectors x).2 ≠ zero := by
  unfold barVectors
  have hz : IsZero 0 := by unfold IsZero; norm_num
  by_cases h1 : IsZero x.x ∧ IsZero x.y
  · have h2 : ¬ IsZero x.z := fun h3 => h ⟨h1.1, h1.2, h3⟩
    rw [if_pos h1, if_neg h2]
    refine ⟨rfl, fun e => h2 ?_⟩
    have := congrArg Vec.x e
    simp only [cross, axisY, zero] at this
    have hx : x.z = 0 := by linarith
    rw [hx]
    exact hz
  · rw [if_neg h1]
    refine ⟨rfl, fun e => h1 ?_⟩
    have := congrArg Vec.z e
    simp only [cross, axisZ, zero] at this
    have hx : x.x = 0 := by nlinarith [sq_nonneg x.x, sq_nonneg x.y]
    have hy : x.y = 0 := by nlinarith [sq_nonneg x.x, sq_nonneg x.y]
    rw [hx, hy]
    exact ⟨hz, hz⟩

/-- Unit vectors of one direction are equal. -/
theorem same_unit {u v x : Vec} (hu : dot u u = 1) (hv : dot v v = 1) (h1 : SameDirection u x) (h2 : SameDirection v x) :
    u = v := by
  obtain ⟨k, hk, rfl⟩ := h1
  obtain ⟨l, hl, rfl⟩ := h2
  have e1 : k ^ 2 * dot x x = 1 := by rw [← hu]; simp only [dot, smul]; ring
  have e2 : l ^ 2 * dot x x = 1 := by rw [← hv]; simp only [dot, smul]; ring
  have hne : dot x x ≠ 0 := by
    intro e
    rw [e] at e1
    norm_num at e1
  have e3 : k ^ 2 = l ^ 2 := by
    have : k ^ 2 * dot x x = l ^ 2 * dot x x := by rw [e1, e2]
    exact mul_right_cancel₀ hne this
  have e4 : k = l := by
    have : (k - l) * (k + l) = 0 := by ring_nf; linarith
    rcases mul_eq_zero.mp this with h | h
    · linarith
    · linarith
  rw [e4]

theorem atan2_zero {x : ℝ} (h : 0 ≤ x) : atan2 0 x = 0 := by
  unfold atan2
  have : (⟨x, 0⟩ : ℂ) = ((x : ℝ) : ℂ) := rfl
  rw [this]
  exact Complex.arg_ofReal_of_nonneg h

/-- With the same first axis, the first two angles are 0. -/
theorem angles_same_ex {a b : Axes} (ha : Direct a) (hb : Direct b) (h : a.ex = b.ex) :
    Oblique (seenIn b a) ∧ (anglesOf (seenIn b a)).x = 0 ∧ (anglesOf (seenIn b a)).y = 0 := by
  have hd := seenIn_direct ha hb
  have ex : (seenIn b a).ex = ⟨1, 0, 0⟩ := by
    simp only [seenIn, h, hb.xx, hb.xy]
    rw [dot_comm, hb.zx]
  have hs : (seenIn b a).ez.z * (seenIn b a).ez.z + (seenIn b a).ey.z * (seenIn b a).ey.z = 1 := by
    have := direct_row_z hd
    rw [ex] at this
    simpa using this
  have ho : Oblique (seenIn b a) := by
    unfold Oblique
    rw [hs, Real.sqrt_one]
    norm_num
  refine ⟨ho, ?_⟩
  unfold anglesOf
  unfold Oblique at ho
  simp only [gt_iff_lt]
  rw [if_pos ho, ex, hs, Real.sqrt_one]
  simp only [neg_zero]
  exact ⟨atan2_zero (by norm_num), atan2_zero (by norm_num)⟩

/-- What `writeFrame` writes when the default frame has the axes `b`. -/
theorem write_of {env : Env} {n : Nat} {node : Positions} {dim celltype : Nat} {nodes : List Nat} {c r : CS} {a b : Axes}
    (hr : defaultFrame node nodes dim celltype = .ok r) (hk : r.kind = .cartesian) (hrr : r.rcs = none)
    (hi : r.inverse = .rows b.ex b.ey b.ez) (ha : c.axes = some a) (hc : c.rcs = none) :
    writeFrame env (n + 1) node dim celltype nodes (some c) =
      .ok (some (choose dim celltype c.kind (anglesOf (seenIn b a)))) := by
  have hd : dismissed c.kind = false := by cases c.kind <;> rfl
  have hl : ∀ v, vectorToLocal env (n + 1) r (some v) = .ok (some ⟨dot v b.ex, dot v b.ey, dot v b.ez⟩) := by
    intro v
    have : ¬ (r.kind = .cylindrical ∨ r.kind = .spherical) := by rw [hk]; decide
    simp only [vectorToLocal, if_neg this, hrr, hi, applyInverse]
  simp only [writeFrame, hd, Bool.false_eq_true, if_false, hr, Outcome.bind_ok, eulerAngles, eulerAxes, hc, ha, onAxes,
    Option.map_some, hl, axes?, Option.bind_eq_bind, Option.bind_some, seenIn]

/-- The default frame is the global one for points, solids and elements of type 6. -/
theorem global_frame (node : Positions) (nodes : List Nat) (dim celltype : Nat)
    (h : dim = 0 ∨ dim = 3 ∨ (dim = 1 ∧ celltype = 6) ∨ (dim = 2 ∧ nodes.length > 3)) :
    ∃ r, defaultFrame node nodes dim celltype = .ok r ∧ r.kind = .cartesian ∧ r.rcs = none ∧
      r.inverse = .rows global.ex global.ey global.ez := by
  have hv : vectors node nodes dim celltype = .ok (axisX, axisY) := by
    unfold vectors
    rcases h with rfl | rfl | ⟨rfl, rfl⟩ | ⟨rfl, h⟩
    · simp
    · simp
    · simp
    · have h1 : ¬ nodes.length < 3 := by omega
      have h2 : ¬ nodes.length = 3 := by omega
      simp [h1, h2]
  refine ⟨(ofVectors .cartesian zero axisX axisY none).setInverse, by simp only [defaultFrame, hv, Outcome.bind_ok], ?_⟩
  have ha : (ofVectors .cartesian zero axisX axisY none).axes = some global := axesOf_direct global_direct
  rw [setInverse_direct ha global_direct]
  exact ⟨rfl, rfl, rfl⟩

theorem seen_global (a : Axes) : seenIn global a = a := by
  unfold seenIn global
  simp [dot]

theorem global_apply (v : Vec) : global.apply v = v := by
  ext <;> simp [Axes.apply, global]

end SystusFrames

/-! ## Properties -/
open Vec CS CsSpec EulerSpec SystusFrames SystusFramesSpec

/-- **C137** (bars): for an oriented bar between two points that are not the same, what is written is one angle around the bar, and this
angle turns the axes from which it is counted into those of the model. -/
theorem C137_bar_partial (env : Env) (n : Nat) (node : Positions) (celltype : Nat) (i j : Nat) (rest : List Nat) (p q : Vec) (c : CS) (a : Axes)
    (ht : celltype ≠ 6) (hp : node i = .ok p) (hq : node j = .ok q)
    (hx : ¬ (IsZero (sub q p).x ∧ IsZero (sub q p).y ∧ IsZero (sub q p).z))
    (hc : c.rcs = none) (ha : c.axes = some a) (hd : Direct a) (halong : SameDirection a.ex (sub q p)) :
    ∃ b phi, BarAxes (sub q p) b ∧ writeFrame env (n + 1) node 1 celltype (i :: j :: rest) (some c) = .ok (some (.three 0 0 phi)) ∧
      Turned b 0 0 phi a := by
  obtain ⟨h1, h2⟩ := bar_cross _ hx
  obtain ⟨b, b1, b2, b3, b4, b5, b6⟩ := frame_of (sub q p) (barVectors (sub q p)).2 h2
  have hr : defaultFrame node (i :: j :: rest) 1 celltype =
      .ok (ofVectors .cartesian zero (sub q p) (barVectors (sub q p)).2 none).setInverse := by
    simp only [defaultFrame, vectors, nodeOf, List.getElem?_cons_zero, List.getElem?_cons_succ, hp, hq, Outcome.bind_ok, if_neg ht,
      one_ne_zero, false_or, OfNat.one_ne_ofNat, if_false, if_true, h1]
  have hex : a.ex = b.ex := same_unit hd.xx b1.xx halong b2
  obtain ⟨o1, o2, o3⟩ := angles_same_ex hd b1 hex
  refine ⟨b, (anglesOf (seenIn b a)).z, ⟨b1, b2, fun h => ?_, fun h => ?_⟩, ?_, ?_⟩
  · unfold barVectors at b3
    rw [if_neg h] at b3
    exact b3
  · unfold barVectors at b3
    rw [if_pos h] at b3
    exact b3
  · rw [write_of hr b4 b5 b6 ha hc]
    simp only [choose, if_neg ht]
  · have := C61_exact _ (seenIn_direct hd b1) o1
    rw [o2, o3] at this
    unfold Turned
    rw [this]
    exact ⟨apply_inverse b1 _, apply_inverse b1 _, apply_inverse b1 _⟩

/-- **C137** (orientations by a vector): a bar whose orientation is built on its own nodes meets the hypotheses above. -/
theorem C137_vector_partial (env : Env) (n : Nat) (node : Positions) (celltype : Nat) (i j : Nat) (p q v : Vec)
    (ht : celltype ≠ 6) (hp : node i = .ok p) (hq : node j = .ok q)
    (hx : ¬ (IsZero (sub q p).x ∧ IsZero (sub q p).y ∧ IsZero (sub q p).z)) (hv : cross (sub q p) v ≠ zero) :
    ∃ c a b phi, (ofDirection i j v none).build (fun k => (node k).bind fun x => .ok (some x)) = .ok c ∧ c.axes = some a ∧
      SameDirection a.ex (sub q p) ∧ InHalfPlane (sub q p) v a.ey ∧ BarAxes (sub q p) b ∧
      writeFrame env (n + 1) node 1 celltype [i, j] (some c) = .ok (some (.three 0 0 phi)) ∧ Turned b 0 0 phi a := by
  have hp' : (fun k => (node k).bind fun x => Outcome.ok (some x)) i = .ok (some p) := by simp [hp, Outcome.bind]
  have hq' : (fun k => (node k).bind fun x => Outcome.ok (some x)) j = .ok (some q) := by simp [hq, Outcome.bind]
  obtain ⟨c, a, h1, _, _, h4, _, h6, _, h8, h9, h10⟩ := C43_orientation (fun k => (node k).bind fun x => .ok (some x)) i j v none p q hp' hq' hv
  obtain ⟨b, phi, g1, g2, g3⟩ := C137_bar_partial env n node celltype i j [] p q c a ht hp hq hx h4 h6 h8 h9
  exact ⟨c, a, b, phi, h1, h6, h9, h10, g1, g2, g3⟩

/-- **C137** (springs, points and solids): three angles that turn the axes of the global system into those of the model are written for
a Cartesian system, unless its first axis is within 1e-8 of the vertical. -/
theorem C137_spring_partial (env : Env) (n : Nat) (node : Positions) (dim celltype : Nat) (nodes : List Nat) (c : CS) (a : Axes)
    (h : dim = 0 ∨ dim = 3 ∨ (dim = 1 ∧ celltype = 6)) (hk : dim = 0 → c.kind ≠ .orientation)
    (hc : c.rcs = none) (ha : c.axes = some a) (hd : Direct a) (ho : Oblique a) :
    ∃ psi theta phi, writeFrame env (n + 1) node dim celltype nodes (some c) = .ok (some (.three psi theta phi)) ∧
      Turned global psi theta phi a := by
  obtain ⟨r, h1, h2, h3, h4⟩ := global_frame node nodes dim celltype (by tauto)
  refine ⟨(anglesOf a).x, (anglesOf a).y, (anglesOf a).z, ?_, ?_⟩
  · rw [write_of h1 h2 h3 h4 ha hc, seen_global]
    rcases h with rfl | rfl | ⟨rfl, rfl⟩
    · have : relative c.kind = false := by
        have := hk rfl
        cases hcc : c.kind <;> first | rfl | exact absurd hcc this
      simp only [choose, this]
      rfl
    · simp only [choose]
    · simp only [choose, if_true]
  · unfold Turned
    rw [C61_exact a hd ho]
    exact ⟨global_apply _, global_apply _, global_apply _⟩

/-- **C137** (triangles): the angle of a shell with three nodes is that of the projection on its plane of the first axis of the model. -/
theorem C137_triangle_partial (env : Env) (n : Nat) (node : Positions) (i j k : Nat) (p q s : Vec) (c : CS) (a : Axes)
    (hp : node i = .ok p) (hq : node j = .ok q) (hs : node k = .ok s)
    (hx : ¬ SmallVec (cross ⟨0, 0, 1⟩ (cross (sub q p) (sub s p))))
    (hy : ¬ SmallVec (cross (cross (sub q p) (sub s p)) (cross ⟨0, 0, 1⟩ (cross (sub q p) (sub s p)))))
    (hc : c.rcs = none) (ha : c.axes = some a) (hd : Direct a) :
    ∃ b psi, TriangleAxes (sub q p) (sub s p) b ∧ writeFrame env (n + 1) node 2 4 [i, j, k] (some c) = .ok (some (.one psi)) ∧
      (1 / 10 ^ 8 < Real.sqrt (dot a.ez b.ez * dot a.ez b.ez + dot a.ey b.ez * dot a.ey b.ez) →
        ∃ t > 0, sub a.ex (smul (dot a.ex b.ez) b.ez) = smul t (add (smul (Real.cos psi) b.ex) (smul (Real.sin psi) b.ey))) := by
  have hv : triangleVectors (sub q p) (sub s p) =
      (cross axisZ (cross (sub q p) (sub s p)), cross (cross (sub q p) (sub s p)) (cross axisZ (cross (sub q p) (sub s p)))) := by
    unfold triangleVectors
    exact if_neg fun h => h.elim hx hy
  have hne : cross axisZ (cross (sub q p) (sub s p)) ≠ zero := by
    intro e
    apply hx
    have hz : IsZero 0 := by unfold IsZero; norm_num
    have e' : cross ⟨0, 0, 1⟩ (cross (sub q p) (sub s p)) = zero := e
    rw [e']
    exact ⟨hz, hz, hz⟩
  set z := cross (sub q p) (sub s p) with hz
  have hzx : dot z (cross axisZ z) = 0 := (cross_self_dot _ _).2
  have hz0 : z ≠ zero := cross_ne_right hne
  have hcr : cross (cross axisZ z) (cross z (cross axisZ z)) = smul (dot (cross axisZ z) (cross axisZ z)) z := by
    have : cross (cross axisZ z) (cross z (cross axisZ z)) =
        sub (smul (dot (cross axisZ z) (cross axisZ z)) z) (smul (dot z (cross axisZ z)) (cross axisZ z)) := by
      ext <;> simp only [cross, smul, sub, dot] <;> ring
    rw [this, hzx]
    ext <;> simp [sub, smul]
  have hpos : 0 < dot (cross axisZ z) (cross axisZ z) := by
    have h0 : dot (cross axisZ z) (cross axisZ z) ≠ 0 := fun e => hne (dot_self_eq_zero.mp e)
    have h1 : 0 ≤ dot (cross axisZ z) (cross axisZ z) := by
      simp only [dot]
      nlinarith [sq_nonneg (cross axisZ z).x, sq_nonneg (cross axisZ z).y, sq_nonneg (cross axisZ z).z]
    exact lt_of_le_of_ne h1 (Ne.symm h0)
  have hcross : cross (cross axisZ z) (cross z (cross axisZ z)) ≠ zero := by
    rw [hcr]
    intro e
    apply hz0
    have ex := congrArg Vec.x e
    have ey := congrArg Vec.y e
    have ez := congrArg Vec.z e
    simp only [smul, zero] at ex ey ez
    ext
    · exact (mul_eq_zero.mp ex).resolve_left hpos.ne'
    · exact (mul_eq_zero.mp ey).resolve_left hpos.ne'
    · exact (mul_eq_zero.mp ez).resolve_left hpos.ne'
  obtain ⟨b, b1, b2, b3, b4, b5, b6⟩ := frame_of _ _ hcross
  have hr : defaultFrame node [i, j, k] 2 4 =
      .ok (ofVectors .cartesian zero (cross axisZ z) (cross z (cross axisZ z)) none).setInverse := by
    simp only [defaultFrame, vectors, nodeOf, List.getElem?_cons_zero, List.getElem?_cons_succ, hp, hq, hs, Outcome.bind_ok, hv]
    simp
  refine ⟨b, (anglesOf (seenIn b a)).x, ⟨b1, ?_, ?_⟩, ?_, ?_⟩
  · obtain ⟨k1, hk1, e1⟩ := b2
    obtain ⟨s1, t1, ht1, e2⟩ := b3
    refine ⟨k1 * t1 * dot (cross axisZ z) (cross axisZ z), by positivity, ?_⟩
    rw [← b1.hand, e1, e2]
    have : cross (smul k1 (cross axisZ z)) (add (smul s1 (cross axisZ z)) (smul t1 (cross z (cross axisZ z)))) =
        smul (k1 * t1) (cross (cross axisZ z) (cross z (cross axisZ z))) := by
      ext <;> simp only [cross, smul, add] <;> ring
    rw [this, hcr]
    ext <;> simp only [smul] <;> ring
  · exact b2
  · rw [write_of hr b4 b5 b6 ha hc]
    simp only [choose]
  · intro ho
    have ho' : Oblique (seenIn b a) := ho
    have hsd := seenIn_direct hd b1
    have hang : (anglesOf (seenIn b a)).x = atan2 (dot a.ex b.ey) (dot a.ex b.ex) := by
      unfold anglesOf
      unfold Oblique at ho'
      simp only [gt_iff_lt]
      rw [if_pos ho']
      rfl
    set t := Real.sqrt (dot a.ez b.ez * dot a.ez b.ez + dot a.ey b.ez * dot a.ey b.ez) with htd
    have ht : 0 < t := lt_trans (by norm_num) ho
    have htt : t * t = dot a.ez b.ez * dot a.ez b.ez + dot a.ey b.ez * dot a.ey b.ez :=
      Real.mul_self_sqrt (by nlinarith [sq_nonneg (dot a.ez b.ez), sq_nonneg (dot a.ey b.ez)])
    have hrow := direct_row_z hsd
    have hcol := hsd.xx
    have hxx : dot a.ex b.ex * dot a.ex b.ex + dot a.ex b.ey * dot a.ex b.ey = t * t := by
      rw [htt]
      simp only [seenIn] at hrow
      simp only [seenIn] at hcol
      have hcol' : dot a.ex b.ex * dot a.ex b.ex + dot a.ex b.ey * dot a.ex b.ey + dot a.ex b.ez * dot a.ex b.ez = 1 := hcol
      linarith
    obtain ⟨h1, h2⟩ := atan2_cos_sin (y := dot a.ex b.ey) (x := dot a.ex b.ex) ht hxx
    refine ⟨t, ht, ?_⟩
    rw [hang, h1, h2]
    have hinv := apply_inverse b1 a.ex
    simp only [Axes.apply] at hinv
    have ex := congrArg Vec.x hinv
    have ey := congrArg Vec.y hinv
    have ez := congrArg Vec.z hinv
    simp only at ex ey ez
    have htne : t ≠ 0 := ht.ne'
    ext
    · simp only [sub, smul, add]
      field_simp
      linarith
    · simp only [sub, smul, add]
      field_simp
      linarith
    · simp only [sub, smul, add]
      field_simp
      linarith

/-- For a shell with more than three nodes the angle does not depend on the shell: it is that of the first axis seen from above. -/
theorem C137_quadrangle_false (env : Env) (n : Nat) (node : Positions) (celltype : Nat) (nodes : List Nat) (h : nodes.length > 3) (c : CS)
    (a : Axes) (hc : c.rcs = none) (ha : c.axes = some a) :
    writeFrame env (n + 1) node 2 celltype nodes (some c) = .ok (some (.one (anglesOf a).x)) := by
  obtain ⟨r, h1, h2, h3, h4⟩ := global_frame node nodes 2 celltype (by tauto)
  rw [write_of h1 h2 h3 h4 ha hc, seen_global]
  rfl

/-- The axes of a spring in a cylindrical system are those of the system, wherever the spring is, although the axes at its nodes are
the radial and the tangential one. No class of systems is dismissed. -/
theorem C137_cylindrical_false :
    (∀ k, dismissed k = false) ∧
    ∀ (env : Env) (n : Nat) (node node' : Positions) (nodes nodes' : List Nat) (c : CS) (a : Axes), c.kind = .cylindrical → c.rcs = none →
      c.axes = some a → writeFrame env (n + 1) node 1 6 nodes (some c) = writeFrame env (n + 1) node' 1 6 nodes' (some c) := by
  refine ⟨fun k => by cases k <;> rfl, fun env n node node' nodes nodes' c a _ hc ha => ?_⟩
  obtain ⟨r, h1, h2, h3, h4⟩ := global_frame node nodes 1 6 (by tauto)
  obtain ⟨r', h1', h2', h3', h4'⟩ := global_frame node' nodes' 1 6 (by tauto)
  rw [write_of h1 h2 h3 h4 ha hc, write_of h1' h2' h3' h4' ha hc]

/-- The orientation of a spring with one node is not written. -/
theorem C137_point_false (env : Env) (n : Nat) (node : Positions) (celltype : Nat) (nodes : List Nat) (c : CS) (a : Axes)
    (hk : c.kind = .orientation) (hc : c.rcs = none) (ha : c.axes = some a) :
    writeFrame env (n + 1) node 0 celltype nodes (some c) = .ok (some .none) := by
  obtain ⟨r, h1, h2, h3, h4⟩ := global_frame node nodes 0 celltype (by tauto)
  rw [write_of h1 h2 h3 h4 ha hc]
  simp only [choose, hk, relative, if_true]

/-- Hypotheses that are met: a bar from the origin to (3, 0, 4) oriented by Y. -/
example : ∃ p q v : Vec, ¬ (IsZero (sub q p).x ∧ IsZero (sub q p).y ∧ IsZero (sub q p).z) ∧ cross (sub q p) v ≠ zero := by
  refine ⟨⟨0, 0, 0⟩, ⟨3, 0, 4⟩, ⟨0, 1, 0⟩, fun h => ?_, fun h => ?_⟩
  · have := h.1
    simp only [IsZero, sub] at this
    norm_num at this
  · have := congrArg Vec.z h
    simp [cross, sub, zero] at this

/-- A quarter turn around z is a system that meets the hypotheses for springs. -/
example : Direct turned ∧ Oblique turned := by
  refine ⟨turned_direct, ?_⟩
  simp only [Oblique, turned]
  norm_num

/-- Elements without a system of their own get no angles. -/
theorem C137_none (env : Env) (n : Nat) (node : Positions) (dim celltype : Nat) (nodes : List Nat) :
    writeFrame env n node dim celltype nodes none = .ok (some .none) := rfl

/-- A triangle that is not horizontal. -/
example : ¬ SmallVec (cross ⟨0, 0, 1⟩ (cross (⟨1, 0, 0⟩ : Vec) ⟨0, 0, 1⟩)) ∧
    ¬ SmallVec (cross (cross (⟨1, 0, 0⟩ : Vec) ⟨0, 0, 1⟩) (cross ⟨0, 0, 1⟩ (cross (⟨1, 0, 0⟩ : Vec) ⟨0, 0, 1⟩))) := by
  constructor
  · rintro ⟨h, _⟩
    simp only [IsZero, cross] at h
    norm_num at h
  · rintro ⟨_, _, h⟩
    simp only [IsZero, cross] at h
    norm_num at h

end Vega
