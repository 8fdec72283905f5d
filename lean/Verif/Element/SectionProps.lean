import Mathlib.Analysis.SpecialFunctions.PolarCoord
import Mathlib.Analysis.SpecialFunctions.Integrals.Basic
import Mathlib.MeasureTheory.Integral.Prod
import Mathlib.Tactic.NormNum
import Mathlib.Tactic.IntervalCases
import Verif.Element.Section

/-!
# Properties of the cross sections of beams (C47, C63, C64)

The specification is geometric: a section is a region of the plane `(y, z)`, its area and moments
of inertia are integrals over the region.
-/
namespace Vega.SectionSpec
open MeasureTheory Set Real Section

/-! ### specification -/

/-- Integral of a quantity over a plane region; a point is `(y, z)`. -/
noncomputable def over (R : Set (ℝ × ℝ)) (f : ℝ × ℝ → ℝ) : ℝ := ∫ p in R, f p

/-- Area of a region. -/
noncomputable def areaOf (R : Set (ℝ × ℝ)) : ℝ := over R fun _ => 1

/-- Centroid of a region. -/
noncomputable def centroidY (R : Set (ℝ × ℝ)) : ℝ := over R (fun p => p.1) / areaOf R
@[inherit_doc centroidY]
noncomputable def centroidZ (R : Set (ℝ × ℝ)) : ℝ := over R (fun p => p.2) / areaOf R

/-- Moment of inertia about the axis y through the centroid. -/
noncomputable def momentY (R : Set (ℝ × ℝ)) : ℝ := over R fun p => (p.2 - centroidZ R) ^ 2

/-- Moment of inertia about the axis z through the centroid. -/
noncomputable def momentZ (R : Set (ℝ × ℝ)) : ℝ := over R fun p => (p.1 - centroidY R) ^ 2

/-- Polar moment of inertia about the centroid. -/
noncomputable def momentPolar (R : Set (ℝ × ℝ)) : ℝ :=
  over R fun p => (p.1 - centroidY R) ^ 2 + (p.2 - centroidZ R) ^ 2

/-- A rectangle with its sides along the axes. -/
def box (y0 y1 z0 z1 : ℝ) : Set (ℝ × ℝ) := Icc y0 y1 ×ˢ Icc z0 z1

/-- The points between two circles around the origin. -/
def ring (a b : ℝ) : Set (ℝ × ℝ) := {p | a ^ 2 ≤ p.1 ^ 2 + p.2 ^ 2 ∧ p.1 ^ 2 + p.2 ^ 2 ≤ b ^ 2}

/-- The region a section card describes, with the meaning of the dimensions in Nastran's manual:
`BAR` width along z and height along y; `ROD` radius; `TUBE` outer and inner radius; `I` height,
widths of the lower and upper flanges, thickness of the web and of the lower and upper flanges. -/
def region : Card → Set (ℝ × ℝ)
  | .bar w h => box (-(h / 2)) (h / 2) (-(w / 2)) (w / 2)
  | .rod r => {p | p.1 ^ 2 + p.2 ^ 2 ≤ r ^ 2}
  | .tube re ri => ring ri re
  | .i H wl wu tw tl tu =>
    box (-(H / 2)) (-(H / 2) + tl) (-(wl / 2)) (wl / 2) ∪
    box (-(H / 2) + tl) (H / 2 - tu) (-(tw / 2)) (tw / 2) ∪
    box (H / 2 - tu) (H / 2) (-(wu / 2)) (wu / 2)

/-- Dimensions that describe a shape. -/
def Proper : Card → Prop
  | .bar w h => 0 ≤ w ∧ 0 ≤ h
  | .rod r => 0 ≤ r
  | .tube re ri => 0 ≤ ri ∧ ri ≤ re
  | .i H wl wu tw tl tu => 0 ≤ wl ∧ 0 ≤ wu ∧ 0 ≤ tw ∧ 0 ≤ tl ∧ 0 ≤ tu ∧ tl + tu ≤ H

/-- The region a section written for Code_Aster stands for, according to the common understanding of
`AFFE_CARA_ELEM`: sides along y and z, radius, outer radius and thickness; a general section is
given by its characteristics, which the writer raises to a small positive value. -/
def Describes : AsterSection → Set (ℝ × ℝ) → Prop
  | .rectangle hy hz, R => R = box (-(hy / 2)) (hy / 2) (-(hz / 2)) (hz / 2)
  | .cercle r, R => R = {p | p.1 ^ 2 + p.2 ^ 2 ≤ r ^ 2}
  | .cercleEp r ep, R => R = ring (r - ep) r
  | .generale a iy iz _, R =>
    a = max epsilon (areaOf R) ∧ iy = max epsilon (momentY R) ∧ iz = max epsilon (momentZ R)

/-! ### integrals over a ring -/

theorem measurable_ring (a b : ℝ) : MeasurableSet (ring a b) := by
  apply IsClosed.measurableSet
  have h1 : Continuous fun p : ℝ × ℝ => p.1 ^ 2 + p.2 ^ 2 := by fun_prop
  exact (isClosed_le continuous_const h1).inter (isClosed_le h1 continuous_const)

theorem polar (a b : ℝ) (ha : 0 ≤ a) (hab : a ≤ b) (n : ℕ) (f : ℝ × ℝ → ℝ) (g : ℝ → ℝ)
    (hf : ∀ r t, f (r * cos t, r * sin t) = r ^ n * g t) :
    over (ring a b) f = (b ^ (n + 2) - a ^ (n + 2)) / (n + 2) * ∫ t in (-π)..π, g t := by
  unfold over
  rw [← integral_indicator (measurable_ring a b), ← integral_comp_polarCoord_symm]
  have e : ∀ p ∈ polarCoord.target, p.1 • (ring a b).indicator f (polarCoord.symm p) =
      (Icc a b).indicator (fun r => r ^ (n + 1)) p.1 * g p.2 := by
    rintro ⟨r, t⟩ ⟨hr, _⟩
    have hr : 0 < r := hr
    have hsq : (r * cos t) ^ 2 + (r * sin t) ^ 2 = r ^ 2 := by
      have := sin_sq_add_cos_sq t
      linear_combination r ^ 2 * this
    have hm : ((r * cos t, r * sin t) ∈ ring a b) ↔ r ∈ Icc a b := by
      simp only [ring, mem_ofPred_eq, hsq, mem_Icc]
      rw [pow_le_pow_iff_left₀ ha hr.le (by norm_num),
        pow_le_pow_iff_left₀ hr.le (ha.trans hab) (by norm_num)]
    have hs : polarCoord.symm (r, t) = (r * cos t, r * sin t) := rfl
    rw [hs]
    by_cases h : r ∈ Icc a b
    · rw [indicator_of_mem (hm.mpr h), indicator_of_mem h, hf, smul_eq_mul]; ring
    · rw [indicator_of_notMem (fun h' => h (hm.mp h')), indicator_of_notMem h]; simp
  rw [setIntegral_congr_fun polarCoord.open_target.measurableSet e]
  have ht : polarCoord.target = Ioi (0 : ℝ) ×ˢ Ioo (-π) π := rfl
  rw [ht, Measure.volume_eq_prod, setIntegral_prod_mul]
  congr 1
  · rw [setIntegral_indicator measurableSet_Icc]
    have h1 : ∫ x in Ioi (0:ℝ) ∩ Icc a b, x ^ (n + 1) = ∫ x in Ioc a b, x ^ (n + 1) := by
      apply setIntegral_congr_set
      have : Ioi (0:ℝ) ∩ Icc a b ⊆ Icc a b := inter_subset_right
      have h2 : Ioc a b ⊆ Ioi (0:ℝ) ∩ Icc a b :=
        fun x hx => ⟨lt_of_le_of_lt ha hx.1, hx.1.le, hx.2⟩
      have h3 : Ioc a b =ᵐ[volume] Icc a b := Ioc_ae_eq_Icc
      exact (this.eventuallyLE.trans h3.symm.le).antisymm h2.eventuallyLE
    rw [h1, ← intervalIntegral.integral_of_le hab, integral_pow]
    push_cast; ring_nf
  · rw [← integral_Ioc_eq_integral_Ioo, ← intervalIntegral.integral_of_le (by linarith [pi_pos])]

variable {a b : ℝ}

theorem ring_area (ha : 0 ≤ a) (hab : a ≤ b) : areaOf (ring a b) = π * (b ^ 2 - a ^ 2) := by
  rw [areaOf, polar a b ha hab 0 _ (fun _ => 1) (fun r t => by simp), intervalIntegral.integral_const]
  simp only [smul_eq_mul, Nat.cast_zero]; ring

theorem ring_centroidY (ha : 0 ≤ a) (hab : a ≤ b) : centroidY (ring a b) = 0 := by
  rw [centroidY, polar a b ha hab 1 _ cos (fun r t => by simp), integral_cos]
  simp

theorem ring_centroidZ (ha : 0 ≤ a) (hab : a ≤ b) : centroidZ (ring a b) = 0 := by
  rw [centroidZ, polar a b ha hab 1 _ sin (fun r t => by simp), integral_sin]
  simp

theorem ring_momentZ (ha : 0 ≤ a) (hab : a ≤ b) :
    momentZ (ring a b) = (b ^ 4 - a ^ 4) * π / 4 := by
  simp only [momentZ, ring_centroidY ha hab]
  rw [polar a b ha hab 2 _ (fun t => cos t ^ 2) (fun r t => by ring), integral_cos_sq]
  simp only [sin_pi, sin_neg]; norm_num; ring

theorem ring_momentY (ha : 0 ≤ a) (hab : a ≤ b) :
    momentY (ring a b) = (b ^ 4 - a ^ 4) * π / 4 := by
  simp only [momentY, ring_centroidZ ha hab]
  rw [polar a b ha hab 2 _ (fun t => sin t ^ 2) (fun r t => by ring), integral_sin_sq]
  simp only [sin_pi, sin_neg]; norm_num; ring

theorem ring_polar (ha : 0 ≤ a) (hab : a ≤ b) :
    momentPolar (ring a b) = (b ^ 4 - a ^ 4) * π / 2 := by
  simp only [momentPolar, ring_centroidZ ha hab, ring_centroidY ha hab]
  rw [polar a b ha hab 2 _ (fun _ => 1)
    (fun r t => by have := sin_sq_add_cos_sq t; linear_combination r ^ 2 * this),
    intervalIntegral.integral_const]
  simp only [smul_eq_mul]; norm_num; ring

theorem disc_eq (r : ℝ) : {p : ℝ × ℝ | p.1 ^ 2 + p.2 ^ 2 ≤ r ^ 2} = ring 0 r := by
  ext p
  simp only [ring, mem_ofPred_eq]
  exact ⟨fun h => ⟨by nlinarith [sq_nonneg p.1, sq_nonneg p.2], h⟩, fun h => h.2⟩

/-! ### integrals over boxes -/

/-- Monomials integrate to products. -/
theorem box_monomial {y0 y1 z0 z1 : ℝ} (hy : y0 ≤ y1) (hz : z0 ≤ z1) (m n : ℕ) :
    over (box y0 y1 z0 z1) (fun p => p.1 ^ m * p.2 ^ n) =
      (y1 ^ (m + 1) - y0 ^ (m + 1)) / (m + 1) * ((z1 ^ (n + 1) - z0 ^ (n + 1)) / (n + 1)) := by
  unfold over box
  rw [Measure.volume_eq_prod,
    setIntegral_prod_mul (fun y : ℝ => y ^ m) (fun z : ℝ => z ^ n) (Icc y0 y1) (Icc z0 z1),
    integral_Icc_eq_integral_Ioc, integral_Icc_eq_integral_Ioc,
    ← intervalIntegral.integral_of_le hy, ← intervalIntegral.integral_of_le hz,
    integral_pow, integral_pow]

theorem compact_box (y0 y1 z0 z1 : ℝ) : IsCompact (box y0 y1 z0 z1) := isCompact_Icc.prod isCompact_Icc

theorem integrable_box (y0 y1 z0 z1 : ℝ) (m n : ℕ) :
    IntegrableOn (fun p : ℝ × ℝ => p.1 ^ m * p.2 ^ n) (box y0 y1 z0 z1) :=
  ContinuousOn.integrableOn_compact (compact_box _ _ _ _) (by fun_prop)

/-- Two boxes one above the other only share an edge. -/
theorem null_edge {y0 y1 y2 y3 z0 z1 z2 z3 : ℝ} (h : y1 ≤ y2) :
    AEDisjoint volume (box y0 y1 z0 z1) (box y2 y3 z2 z3) := by
  have hs : box y0 y1 z0 z1 ∩ box y2 y3 z2 z3 ⊆ {y1} ×ˢ univ := by
    rintro ⟨y, z⟩ ⟨⟨h1, _⟩, ⟨h2, _⟩⟩
    exact ⟨le_antisymm h1.2 (h.trans h2.1), trivial⟩
  refine measure_mono_null hs ?_
  rw [Measure.volume_eq_prod, Measure.prod_prod]
  simp

/-- Integral of a monomial over three boxes one above the other. -/
theorem three_monomial {y0 y1 y2 y3 a1 a2 b1 b2 c1 c2 : ℝ} (h2 : y1 ≤ y2) (m n : ℕ) :
    over (box y0 y1 a1 a2 ∪ box y1 y2 b1 b2 ∪ box y2 y3 c1 c2) (fun p => p.1 ^ m * p.2 ^ n) =
      over (box y0 y1 a1 a2) (fun p => p.1 ^ m * p.2 ^ n) +
      over (box y1 y2 b1 b2) (fun p => p.1 ^ m * p.2 ^ n) +
      over (box y2 y3 c1 c2) (fun p => p.1 ^ m * p.2 ^ n) := by
  have hc : NullMeasurableSet (box y2 y3 c1 c2) :=
    (compact_box _ _ _ _).measurableSet.nullMeasurableSet
  have hb : NullMeasurableSet (box y1 y2 b1 b2) :=
    (compact_box _ _ _ _).measurableSet.nullMeasurableSet
  unfold over
  rw [setIntegral_union₀ _ hc ((integrable_box _ _ _ _ m n).union (integrable_box _ _ _ _ m n))
    (integrable_box _ _ _ _ m n),
    setIntegral_union₀ (null_edge (le_refl _)) hb (integrable_box _ _ _ _ m n)
      (integrable_box _ _ _ _ m n)]
  rw [AEDisjoint.union_left_iff]
  exact ⟨null_edge h2, null_edge (le_refl _)⟩

/-- The integrals of the specification from those of the monomials. -/
theorem areaOf_eq (R : Set (ℝ × ℝ)) : areaOf R = over R fun p => p.1 ^ 0 * p.2 ^ 0 := by
  simp [areaOf]

theorem centroidY_eq_zero {R : Set (ℝ × ℝ)} (h : over R (fun p => p.1 ^ 1 * p.2 ^ 0) = 0) :
    centroidY R = 0 := by
  simp only [pow_one, pow_zero, mul_one] at h
  simp [centroidY, h]

theorem centroidZ_eq_zero {R : Set (ℝ × ℝ)} (h : over R (fun p => p.1 ^ 0 * p.2 ^ 1) = 0) :
    centroidZ R = 0 := by
  simp only [pow_one, pow_zero, one_mul] at h
  simp [centroidZ, h]

theorem momentY_eq {R : Set (ℝ × ℝ)} (h : over R (fun p => p.1 ^ 0 * p.2 ^ 1) = 0) :
    momentY R = over R (fun p => p.1 ^ 0 * p.2 ^ 2) := by
  simp [momentY, centroidZ_eq_zero h]

theorem momentZ_eq {R : Set (ℝ × ℝ)} (h : over R (fun p => p.1 ^ 1 * p.2 ^ 0) = 0) :
    momentZ R = over R (fun p => p.1 ^ 2 * p.2 ^ 0) := by
  simp [momentZ, centroidY_eq_zero h]

theorem isEqualR_self (x : ℝ) : IsEqualR x x := by
  have h : (0 : ℝ) ≤ ((tol : ℚ) : ℝ) := by exact_mod_cast tol_pos.le
  have : (0 : ℝ) ≤ ((tol : ℚ) : ℝ) * max 1 (max |x| |x|) :=
    mul_nonneg h (le_trans zero_le_one (le_max_left _ _))
  simpa [IsEqualR] using this

/-! ### properties -/

/-- **C47** rectangles. -/
theorem C47_bar (w h : ℝ) (hp : Proper (.bar w h)) :
    (ofCard (.bar w h)).area = areaOf (region (.bar w h)) ∧
    (ofCard (.bar w h)).inertiaY = momentY (region (.bar w h)) ∧
    (ofCard (.bar w h)).inertiaZ = .ok (momentZ (region (.bar w h))) := by
  obtain ⟨hw, hh⟩ := hp
  have hy : -(h / 2) ≤ h / 2 := by linarith
  have hz : -(w / 2) ≤ w / 2 := by linarith
  simp only [region, ofCard, area, inertiaY, inertiaZ]
  rw [areaOf_eq, momentY_eq (by rw [box_monomial hy hz]; ring),
    momentZ_eq (by rw [box_monomial hy hz]; ring), box_monomial hy hz, box_monomial hy hz,
    box_monomial hy hz]
  refine ⟨by norm_num; ring, by norm_num; ring, ?_⟩
  congr 1; norm_num; ring

example : Proper (.bar 2 3) := ⟨by norm_num, by norm_num⟩

/-- **C47** discs. -/
theorem C47_rod (r : ℝ) (hp : Proper (.rod r)) :
    (ofCard (.rod r)).area = areaOf (region (.rod r)) ∧
    (ofCard (.rod r)).inertiaY = momentY (region (.rod r)) ∧
    (ofCard (.rod r)).inertiaZ = .ok (momentZ (region (.rod r))) := by
  have hr : (0 : ℝ) ≤ r := hp
  simp only [region, ofCard, area, inertiaY, inertiaZ, disc_eq]
  rw [ring_area le_rfl hr, ring_momentY le_rfl hr, ring_momentZ le_rfl hr]
  exact ⟨by ring, by ring, by congr 1; ring⟩

example : Proper (.rod 2) := by show (0 : ℝ) ≤ 2; norm_num

/-- **C47** I sections: area and moment about y for all of them. -/
theorem C47_i (H wl wu tw tl tu : ℝ) (hp : Proper (.i H wl wu tw tl tu)) :
    (ofCard (.i H wl wu tw tl tu)).area = areaOf (region (.i H wl wu tw tl tu)) ∧
    (ofCard (.i H wl wu tw tl tu)).inertiaY = momentY (region (.i H wl wu tw tl tu)) := by
  obtain ⟨h1, h2, h3, h4, h5, h6⟩ := hp
  have e1 : -(H / 2) ≤ -(H / 2) + tl := by linarith
  have e2 : -(H / 2) + tl ≤ H / 2 - tu := by linarith
  have e3 : H / 2 - tu ≤ H / 2 := by linarith
  have f1 : -(wl / 2) ≤ wl / 2 := by linarith
  have f2 : -(tw / 2) ≤ tw / 2 := by linarith
  have f3 : -(wu / 2) ≤ wu / 2 := by linarith
  simp only [region, ofCard, area, inertiaY]
  rw [areaOf_eq, momentY_eq (by
      rw [three_monomial e2, box_monomial e1 f1, box_monomial e2 f2, box_monomial e3 f3]; ring),
    three_monomial e2, three_monomial e2, box_monomial e1 f1, box_monomial e2 f2,
    box_monomial e3 f3, box_monomial e1 f1, box_monomial e2 f2, box_monomial e3 f3]
  exact ⟨by norm_num; ring, by norm_num; ring⟩

/-- **C47** I sections with two equal flanges: the moment about z. -/
theorem C47_i_equal_flanges (H w tw t : ℝ) (hp : Proper (.i H w w tw t t)) :
    (ofCard (.i H w w tw t t)).inertiaZ = .ok (momentZ (region (.i H w w tw t t))) := by
  obtain ⟨h1, h2, h3, h4, h5, h6⟩ := hp
  have e1 : -(H / 2) ≤ -(H / 2) + t := by linarith
  have e2 : -(H / 2) + t ≤ H / 2 - t := by linarith
  have e3 : H / 2 - t ≤ H / 2 := by linarith
  have f1 : -(w / 2) ≤ w / 2 := by linarith
  have f2 : -(tw / 2) ≤ tw / 2 := by linarith
  simp only [region, ofCard, inertiaZ]
  rw [if_neg (fun h => h (isEqualR_self t)), if_neg (fun h => h (isEqualR_self w)),
    momentZ_eq (by
      rw [three_monomial e2, box_monomial e1 f1, box_monomial e2 f2, box_monomial e3 f1]; ring),
    three_monomial e2, box_monomial e1 f1, box_monomial e2 f2, box_monomial e3 f1]
  congr 1; norm_num; ring

/-- **C47** I sections whose flanges differ: no moment about z is reported. -/
theorem C47_i_refused (H wl wu tw tl tu : ℝ) (h : ¬ IsEqualR tu tl ∨ ¬ IsEqualR wu wl) :
    (ofCard (.i H wl wu tw tl tu)).inertiaZ = .throw := by
  simp only [ofCard, inertiaZ]
  by_cases h1 : IsEqualR tu tl
  · rw [if_neg (fun h => h h1), if_pos (h.resolve_left (fun h => h h1))]
  · rw [if_pos h1]

example : Proper (.i 10 4 4 1 1 1) ∧ Proper (.i 10 4 5 1 1 2) := by
  refine ⟨⟨?_, ?_, ?_, ?_, ?_, ?_⟩, ⟨?_, ?_, ?_, ?_, ?_, ?_⟩⟩ <;> norm_num

example : ¬ IsEqualR 2 1 := by
  have h : ((tol : ℚ) : ℝ) < ((1 / 4 : ℚ) : ℝ) := by
    have : tol < 1 / 4 := by norm_num [tol]
    exact_mod_cast this
  push_cast at h
  intro hc
  unfold IsEqualR at hc
  norm_num at hc
  linarith

/-- **C47** a tube object built from its outer radius and its inner radius reports the
characteristics of the ring. Missing for the full claim: the parser builds it otherwise. -/
theorem C47_tube_partial (re ri : ℝ) (hp : Proper (.tube re ri)) :
    (Section.tube re ri).area = areaOf (region (.tube re ri)) ∧
    (Section.tube re ri).inertiaY = momentY (region (.tube re ri)) ∧
    (Section.tube re ri).inertiaZ = .ok (momentZ (region (.tube re ri))) := by
  obtain ⟨h0, h1⟩ := hp
  simp only [region, area, inertiaY, inertiaZ]
  rw [ring_area h0 h1, ring_momentY h0 h1, ring_momentZ h0 h1]
  exact ⟨rfl, rfl, rfl⟩

/-- **C47** is false of tubes read from a card: the area is the one of the ring for a single ratio
of the radii. -/
theorem C47_tube_card_false (re ri : ℝ) (hp : Proper (.tube re ri)) :
    (ofCard (.tube re ri)).area = areaOf (region (.tube re ri)) ↔ ri ^ 2 + 2 * re * ri = 2 * re ^ 2 := by
  obtain ⟨h0, h1⟩ := hp
  simp only [region, ofCard, area]
  rw [ring_area h0 h1, mul_right_inj' pi_ne_zero]
  constructor <;> intro h <;> linarith

/-- **C47** a thick tube read from a card even has a negative area and negative moments. -/
theorem C47_tube_negative_false (re ri : ℝ) (h0 : 0 ≤ ri) (h : 2 * ri < re) :
    (ofCard (.tube re ri)).area < 0 ∧ (ofCard (.tube re ri)).inertiaY < 0 := by
  simp only [ofCard, area, inertiaY]
  have h1 : ri < re - ri := by linarith
  have h2 : ri ^ 2 < (re - ri) ^ 2 := pow_lt_pow_left₀ h1 h0 (by norm_num)
  have h4 : ri ^ 4 < (re - ri) ^ 4 := pow_lt_pow_left₀ h1 h0 (by norm_num)
  have := pi_pos
  constructor <;> nlinarith

example : Proper (.tube 10 9) ∧ (9 : ℝ) ^ 2 + 2 * 10 * 9 ≠ 2 * 10 ^ 2 :=
  ⟨⟨by norm_num, by norm_num⟩, by norm_num⟩

/-- **C63** discs and rings: the torsional constant is the polar moment. -/
theorem C63_round (re ri : ℝ) (hp : Proper (.tube re ri)) :
    (Section.tube re ri).torsion = some (momentPolar (region (.tube re ri))) ∧
    (Section.circular re).torsion = some (momentPolar (region (.rod re))) := by
  obtain ⟨h0, h1⟩ := hp
  simp only [region, torsion, disc_eq]
  rw [ring_polar h0 h1, ring_polar le_rfl (h0.trans h1)]
  exact ⟨rfl, by congr 1; ring⟩

theorem bar_polar {w h : ℝ} (hw : 0 ≤ w) (hh : 0 ≤ h) :
    momentPolar (region (.bar w h)) = w * h * (w ^ 2 + h ^ 2) / 12 := by
  have hy : -(h / 2) ≤ h / 2 := by linarith
  have hz : -(w / 2) ≤ w / 2 := by linarith
  have cy : centroidY (box (-(h / 2)) (h / 2) (-(w / 2)) (w / 2)) = 0 :=
    centroidY_eq_zero (by rw [box_monomial hy hz]; ring)
  have cz : centroidZ (box (-(h / 2)) (h / 2) (-(w / 2)) (w / 2)) = 0 :=
    centroidZ_eq_zero (by rw [box_monomial hy hz]; ring)
  simp only [momentPolar, region, cy, cz]
  have e : over (box (-(h / 2)) (h / 2) (-(w / 2)) (w / 2)) (fun p => (p.1 - 0) ^ 2 + (p.2 - 0) ^ 2) =
      over (box (-(h / 2)) (h / 2) (-(w / 2)) (w / 2)) (fun p => p.1 ^ 2 * p.2 ^ 0) +
      over (box (-(h / 2)) (h / 2) (-(w / 2)) (w / 2)) (fun p => p.1 ^ 0 * p.2 ^ 2) := by
    unfold over
    rw [← integral_add (integrable_box _ _ _ _ 2 0) (integrable_box _ _ _ _ 0 2)]
    congr 1; ext p; ring
  rw [e, box_monomial hy hz, box_monomial hy hz]
  norm_num; ring

/-- **C63** rectangles no higher than wide: the torsional constant lies between 0 and the polar
moment. Missing: rectangles higher than wide, for which it is false. -/
theorem C63_bar_partial (w h : ℝ) (hh : 0 < h) (hw : h ≤ w) :
    ∃ j, (ofCard (.bar w h)).torsion = some j ∧ 0 < j ∧ j ≤ momentPolar (region (.bar w h)) := by
  have hw0 : 0 < w := hh.trans_le hw
  rw [bar_polar hw0.le hh.le]
  simp only [ofCard, torsion]
  rw [if_neg hw0.ne']
  obtain ⟨x, hx⟩ : ∃ x, x = h / w := ⟨_, rfl⟩
  have hx0 : 0 < x := by rw [hx]; positivity
  have hx1 : x ≤ 1 := by rw [hx, div_le_one hw0]; exact hw
  have hxw : h = x * w := by rw [hx]; field_simp
  refine ⟨_, rfl, ?_⟩
  have e : w * h ^ 3 * (1 / 3 - 0.21 * h * (1 - h ^ 4 / (12 * w ^ 4)) / w) =
      w ^ 4 * (x ^ 3 * (1 / 3 - 0.21 * x * (1 - x ^ 4 / 12))) := by
    rw [hxw]; field_simp
  have e2 : w * h * (w ^ 2 + h ^ 2) / 12 = w ^ 4 * (x * (1 + x ^ 2) / 12) := by rw [hxw]; ring
  rw [e, e2]
  have hx4 : x ^ 4 ≤ 1 := pow_le_one₀ hx0.le hx1
  have hx40 : 0 < x ^ 4 := by positivity
  have hw4 : 0 < w ^ 4 := by positivity
  constructor
  · refine mul_pos hw4 (mul_pos (by positivity) ?_)
    have h1 : x * (1 - x ^ 4 / 12) ≤ 1 := by nlinarith
    norm_num at h1 ⊢
    nlinarith
  · refine mul_le_mul_of_nonneg_left ?_ hw4.le
    have h1 : x ^ 2 * (1 / 3 - 0.21 * x * (1 - x ^ 4 / 12)) ≤ (1 + x ^ 2) / 12 := by
      have h3 : x ^ 3 * x ^ 4 ≤ x ^ 3 * 1 := mul_le_mul_of_nonneg_left hx4 (by positivity)
      have h5 : 0 ≤ 1 - 3 * x ^ 2 + 2.31 * x ^ 3 := by
        norm_num
        nlinarith [mul_nonneg hx0.le (sq_nonneg (x - 0.866)), sq_nonneg (x - 0.866)]
      norm_num at h5 ⊢
      nlinarith
    nlinarith

example : (0 : ℝ) < 2 ∧ (2 : ℝ) ≤ 3 := by norm_num

/-- **C63** is false of rectangles higher than wide: exchanging the sides changes the constant,
which exceeds the polar moment. -/
theorem C63_bar_false :
    ∃ j j', (ofCard (.bar 1 10)).torsion = some j ∧ (ofCard (.bar 10 1)).torsion = some j' ∧
      j' < j ∧ momentPolar (region (.bar 1 10)) < j := by
  refine ⟨1 * 10 ^ 3 * (1 / 3 - 0.21 * 10 * (1 - 10 ^ 4 / (12 * 1 ^ 4)) / 1),
    10 * 1 ^ 3 * (1 / 3 - 0.21 * 1 * (1 - 1 ^ 4 / (12 * 10 ^ 4)) / 10), ?_, ?_, ?_, ?_⟩
  · simp only [ofCard, torsion]; rw [if_neg (by norm_num)]
  · simp only [ofCard, torsion]; rw [if_neg (by norm_num)]
  · norm_num
  · rw [bar_polar (by norm_num) (by norm_num)]; norm_num

/-- **C63** is false of every rectangle higher than wide: exchanging the sides changes the constant,
which exceeds the polar moment when the height is at least one and a half times the width. -/
theorem C63_high_false (w h : ℝ) (hw : 0 < w) (hh : w < h) :
    ∃ j j', (ofCard (.bar w h)).torsion = some j ∧ (ofCard (.bar h w)).torsion = some j' ∧ j' < j ∧
      (3 / 2 * w ≤ h → momentPolar (region (.bar w h)) < j) := by
  have hh0 : 0 < h := hw.trans hh
  rw [bar_polar hw.le hh0.le]
  simp only [ofCard, torsion]
  rw [if_neg hw.ne', if_neg hh0.ne']
  obtain ⟨t, ht⟩ : ∃ t, t = h / w - 1 := ⟨_, rfl⟩
  have hxw : h = (1 + t) * w := by rw [ht]; field_simp; ring
  have ht0 : 0 < t := by
    rw [ht, sub_pos, lt_div_iff₀ hw]; linarith
  have hx0 : (0 : ℝ) < 1 + t := by linarith
  refine ⟨_, _, rfl, rfl, ?_, ?_⟩
  · have e1 : w * h ^ 3 * (1 / 3 - 0.21 * h * (1 - h ^ 4 / (12 * w ^ 4)) / w) =
        w ^ 4 * ((1 + t) ^ 3 * (1 / 3 - 0.21 * (1 + t) * (1 - (1 + t) ^ 4 / 12))) := by
      rw [hxw]; field_simp
    have e2 : h * w ^ 3 * (1 / 3 - 0.21 * w * (1 - w ^ 4 / (12 * h ^ 4)) / h) =
        w ^ 4 * ((1 + t) / 3 - 0.21 + 0.0175 / (1 + t) ^ 4) := by
      rw [hxw]; field_simp; norm_num; ring
    rw [e1, e2]
    refine mul_lt_mul_of_pos_left ?_ (by positivity)
    rw [← sub_pos]
    have e3 : (1 + t) ^ 3 * (1 / 3 - 0.21 * (1 + t) * (1 - (1 + t) ^ 4 / 12)) -
        ((1 + t) / 3 - 0.21 + 0.0175 / (1 + t) ^ 4) =
        (0.0175 * (1 + t) ^ 12 - 0.21 * (1 + t) ^ 8 + (1 + t) ^ 7 / 3 - (1 + t) ^ 5 / 3 + 0.21 * (1 + t) ^ 4
          - 0.0175) / (1 + t) ^ 4 := by
      field_simp; norm_num; ring
    rw [e3]
    refine div_pos ?_ (by positivity)
    ring_nf
    positivity
  · intro h32
    have ht1 : 1 / 2 ≤ t := by
      rw [ht]
      have : 3 / 2 ≤ h / w := by rw [le_div_iff₀ hw]; exact h32
      linarith
    obtain ⟨u, hu⟩ : ∃ u, u = t - 1 / 2 := ⟨_, rfl⟩
    have hu0 : 0 ≤ u := by rw [hu]; linarith
    have htu : t = u + 1 / 2 := by rw [hu]; ring
    rw [← sub_pos]
    have e : w * h ^ 3 * (1 / 3 - 0.21 * h * (1 - h ^ 4 / (12 * w ^ 4)) / w) - w * h * (w ^ 2 + h ^ 2) / 12 =
        w ^ 4 * ((1 + t) ^ 3 * (1 / 3 - 0.21 * (1 + t) * (1 - (1 + t) ^ 4 / 12)) -
          (1 + t) * (1 + (1 + t) ^ 2) / 12) := by
      rw [hxw]; field_simp
    rw [e, htu]
    refine mul_pos (by positivity) ?_
    ring_nf
    positivity

/-- A rectangle the theorem is about. -/
example : (0 : ℝ) < 1 ∧ (1 : ℝ) < 3 / 2 := by norm_num

/-- **C64** what is written for Code_Aster describes the section of the card: rectangles, discs and
I sections with equal flanges. Missing: tubes, for which it is false. -/
theorem C64_partial (c : Card) (hp : Proper c) (hc : (∃ w h, c = .bar w h) ∨ (∃ r, c = .rod r) ∨
    ∃ H w tw t, c = .i H w w tw t t) :
    ∃ s, (ofCard c).writeAster = .ok s ∧ Describes s (region c) := by
  rcases hc with ⟨w, h, rfl⟩ | ⟨r, rfl⟩ | ⟨H, w, tw, t, rfl⟩
  · exact ⟨_, rfl, rfl⟩
  · exact ⟨_, rfl, rfl⟩
  · have h1 := C47_i H w w tw t t hp
    have h2 := C47_i_equal_flanges H w tw t hp
    refine ⟨.generale (max epsilon (areaOf (region (.i H w w tw t t))))
      (max epsilon (momentY (region (.i H w w tw t t))))
      (max epsilon (momentZ (region (.i H w w tw t t))))
      (max epsilon ((w * t ^ 3 + (H - t - t) * tw ^ 3 + w * t ^ 3) / 3)), ?_, rfl, rfl, rfl⟩
    rw [← h1.1, ← h1.2]
    simp only [ofCard] at h2
    simp only [ofCard, writeAster, h2, Outcome.bind_ok, torsion]

/-- **C64** an I section whose flanges differ is not written at all. -/
theorem C64_refused (H wl wu tw tl tu : ℝ) (h : ¬ IsEqualR tu tl ∨ ¬ IsEqualR wu wl) :
    (ofCard (.i H wl wu tw tl tu)).writeAster = .throw := by
  have := C47_i_refused H wl wu tw tl tu h
  simp only [ofCard] at this
  simp only [ofCard, writeAster, this, Outcome.bind_throw]

/-- **C64** is false of every tube: what is written for Code_Aster is another ring. -/
theorem C64_tube_false (re ri : ℝ) (h0 : 0 ≤ ri) (h : ri < re) :
    ∃ s, (ofCard (.tube re ri)).writeAster = .ok s ∧ ¬ Describes s (region (.tube re ri)) := by
  refine ⟨_, rfl, fun hd => ?_⟩
  have hm : (re, (0 : ℝ)) ∈ region (.tube re ri) := by
    refine ⟨?_, ?_⟩
    · show ri ^ 2 ≤ re ^ 2 + 0 ^ 2
      nlinarith
    · show re ^ 2 + 0 ^ 2 ≤ re ^ 2
      nlinarith
  rw [hd] at hm
  have : re ^ 2 + 0 ^ 2 ≤ ri ^ 2 := hm.2
  nlinarith

end Vega.SectionSpec
