import Verif.Load.Lines
import Mathlib.Tactic.Linarith
import Mathlib.Tactic.Ring
import Mathlib.Tactic.FieldSimp

/-! # Loads along beams for Code_Aster: property C121 -/
namespace Vega

/-! ## Specification -/
namespace LineLoadSpec

/-- A table that is linear between its points and not defined elsewhere has the value `y` at `x`: the point is on one of the segments between
neighbours. -/
def On : List (ℚ × ℚ) → ℚ → ℚ → Prop
  | p :: q :: r, x, y => (∃ t, 0 ≤ t ∧ t ≤ 1 ∧ x = p.1 + t * (q.1 - p.1) ∧ y = p.2 + t * (q.2 - p.2)) ∨ On (q :: r) x y
  | _, _, _ => False

/-- The first coordinate of the point of a beam at a fraction of its length. -/
def at_ (a b s : ℚ) : ℚ := a + s * (b - a)

/-- What the card says: the intensity at a position, linear from `p1` at `x1` to `p2` at `x2`, and zero elsewhere. -/
def Intensity (x1 p1 x2 p2 s y : ℚ) : Prop :=
  if x1 ≤ s ∧ s ≤ x2 then y * (x2 - x1) = p1 * (x2 - s) + p2 * (s - x1) else y = 0

end LineLoadSpec

namespace LineLoad
open Table NastranWrite LineLoadSpec

/-! ## Lemmas -/

theorem absolute_eq (a b s : ℚ) : a * (1 - s) + b * s = at_ a b s := by unfold at_; ring

theorem at_inj {a b : ℚ} (hab : a ≠ b) {s t : ℚ} (h : at_ a b s = at_ a b t) : s = t := by
  unfold at_ at h
  have h1 : (s - t) * (b - a) = 0 := by linarith
  rcases mul_eq_zero.1 h1 with h2 | h2
  · linarith
  · exact absurd (by linarith) hab

theorem on_absolute {a b : ℚ} (hab : a ≠ b) (pts : List (ℚ × ℚ)) (s y : ℚ) : On (absolute a b pts) (at_ a b s) y ↔ On pts s y := by
  induction pts with
  | nil => exact Iff.rfl
  | cons p r ih =>
    cases r with
    | nil => exact Iff.rfl
    | cons q r' =>
      show ((∃ t, 0 ≤ t ∧ t ≤ 1 ∧ at_ a b s = (a * (1 - p.1) + b * p.1) + t * ((a * (1 - q.1) + b * q.1) - (a * (1 - p.1) + b * p.1)) ∧
        y = p.2 + t * (q.2 - p.2)) ∨ On (absolute a b (q :: r')) (at_ a b s) y) ↔
        ((∃ t, 0 ≤ t ∧ t ≤ 1 ∧ s = p.1 + t * (q.1 - p.1) ∧ y = p.2 + t * (q.2 - p.2)) ∨ On (q :: r') s y)
      rw [ih]
      refine or_congr (exists_congr fun t => and_congr Iff.rfl (and_congr Iff.rfl (and_congr ?_ Iff.rfl))) Iff.rfl
      have e : (a * (1 - p.1) + b * p.1) + t * ((a * (1 - q.1) + b * q.1) - (a * (1 - p.1) + b * p.1)) = at_ a b (p.1 + t * (q.1 - p.1)) := by
        unfold at_; ring
      rw [e]
      exact ⟨at_inj hab, fun h => by rw [h]⟩

theorem ne_of_isEqual {a b : ℚ} (h : isEqual a b = false) : a ≠ b := by
  rintro rfl
  rw [isEqual_self] at h
  cases h

/-- A segment between two abscissas that increase. -/
theorem seg_iff {a b u v x y : ℚ} (hab : a < b) :
    (∃ t, 0 ≤ t ∧ t ≤ 1 ∧ x = a + t * (b - a) ∧ y = u + t * (v - u)) ↔ a ≤ x ∧ x ≤ b ∧ y * (b - a) = u * (b - x) + v * (x - a) := by
  have hd : 0 < b - a := by linarith
  constructor
  · rintro ⟨t, h0, h1, rfl, rfl⟩
    refine ⟨?_, ?_, by ring⟩
    · have := mul_nonneg h0 hd.le
      linarith
    · have := mul_le_mul_of_nonneg_right h1 hd.le
      linarith
  · rintro ⟨h0, h1, h2⟩
    have hne : b - a ≠ 0 := hd.ne'
    refine ⟨(x - a) / (b - a), div_nonneg (by linarith) hd.le, (div_le_one hd).2 (by linarith), ?_, ?_⟩
    · rw [div_mul_cancel₀ _ hne]; ring
    · apply mul_right_cancel₀ hne
      rw [h2, add_mul, mul_assoc, mul_comm (v - u), ← mul_assoc, div_mul_cancel₀ _ hne]
      ring

/-- The points of a card with positions that increase. -/
theorem on_card {x1 p1 x2 p2 : ℚ} {pts : List (ℚ × ℚ)} (h0 : 0 ≤ x1) (h12 : x1 < x2) (ht : lineTable x1 p1 x2 p2 = .ok pts) (s y : ℚ) :
    On pts s y ↔ (0 < x1 ∧ x1 - x1 / 1000 ≤ s ∧ s ≤ x1 ∧ y * x1 = p1 * (1000 * s - 999 * x1)) ∨
      (x1 ≤ s ∧ s ≤ x2 ∧ y * (x2 - x1) = p1 * (x2 - s) + p2 * (s - x1)) ∨
      (x2 ≤ s ∧ s ≤ x2 + x2 / 1000 ∧ y * x2 = p2 * (1001 * x2 - 1000 * s)) := by
  have hlast : (∃ t, 0 ≤ t ∧ t ≤ 1 ∧ s = x2 + t * (x2 + x2 / 1000 - x2) ∧ y = p2 + t * (0 - p2)) ↔
      (x2 ≤ s ∧ s ≤ x2 + x2 / 1000 ∧ y * x2 = p2 * (1001 * x2 - 1000 * s)) := by
    rw [seg_iff (by linarith)]
    refine and_congr Iff.rfl (and_congr Iff.rfl ?_)
    constructor <;> intro h <;> linarith
  have hmid := @seg_iff x1 x2 p1 p2 s y h12
  unfold lineTable at ht
  split at ht
  · cases ht
  · cases ht
    by_cases hx : x1 > 0
    · rw [if_pos hx]
      show ((∃ t, 0 ≤ t ∧ t ≤ 1 ∧ s = (x1 - x1 / 1000) + t * (x1 - (x1 - x1 / 1000)) ∧ y = 0 + t * (p1 - 0)) ∨
        (∃ t, 0 ≤ t ∧ t ≤ 1 ∧ s = x1 + t * (x2 - x1) ∧ y = p1 + t * (p2 - p1)) ∨
        (∃ t, 0 ≤ t ∧ t ≤ 1 ∧ s = x2 + t * (x2 + x2 / 1000 - x2) ∧ y = p2 + t * (0 - p2)) ∨ False) ↔ _
      rw [hlast, hmid, seg_iff (by linarith), or_false]
      refine or_congr ?_ Iff.rfl
      constructor
      · rintro ⟨h1, h2, h3⟩
        exact ⟨hx, h1, h2, by linarith⟩
      · rintro ⟨_, h1, h2, h3⟩
        exact ⟨h1, h2, by linarith⟩
    · rw [if_neg hx]
      show ((∃ t, 0 ≤ t ∧ t ≤ 1 ∧ s = x1 + t * (x2 - x1) ∧ y = p1 + t * (p2 - p1)) ∨
        (∃ t, 0 ≤ t ∧ t ≤ 1 ∧ s = x2 + t * (x2 + x2 / 1000 - x2) ∧ y = p2 + t * (0 - p2)) ∨ False) ↔ _
      rw [hlast, hmid, or_false]
      constructor
      · exact .inr
      · rintro (h | h)
        · exact absurd h.1 hx
        · exact h

theorem convert_fraction {a b : ℚ} (hab : isEqual a b = false) (r : LineRead) (hs : r.scale = .fraction) :
    convert [[a, b]] (.table (forceOf r)) = .ok { forceOf r with names := ⟨some .parax, none⟩, points := absolute a b r.table } := by
  unfold convert
  simp only [hab, forceOf, hs]
  rfl

theorem convert_length {a b : ℚ} (hab : isEqual a b = false) (r : LineRead) (hs : r.scale = .length) :
    convert [[a, b]] (.table (forceOf r)) = .ok (forceOf r) := by
  unfold convert
  simp only [hab, forceOf, hs]
  rfl

/-! ## C121 -/

/-- **C121, tables.** A load that is given by fractions of the length of a beam has at every point of the beam the value which the table says, if the
beam is not perpendicular to the first axis. This is so for every table, not only for those of PLOAD1. -/
theorem C121_table (a b : ℚ) (hab : isEqual a b = false) (t : FunctionTable) (ht : t.names.x = some .absc) :
    ∃ t', convert [[a, b]] (.table t) = .ok t' ∧ t'.names = ⟨some .parax, t.names.y⟩ ∧ t'.parameter = t.parameter ∧ t'.value = t.value ∧
      t'.left = t.left ∧ t'.right = t.right ∧ t'.points.length = t.points.length ∧ ∀ s y, On t'.points (at_ a b s) y ↔ On t.points s y := by
  refine ⟨{ t with names := ⟨some .parax, t.names.y⟩, points := absolute a b t.points }, ?_, rfl, rfl, rfl, rfl, rfl, ?_, ?_⟩
  · unfold convert
    simp only [hab, ht]
    rfl
  · exact List.length_map _
  · exact fun s y => on_absolute (ne_of_isEqual hab) t.points s y

/-- **C121, fractions.** On the part of the beam that the card names, the load of Code_Aster is that of the card. -/
theorem C121_fraction_partial (a b : ℚ) (hab : isEqual a b = false) (r : LineRead) (hs : r.scale = .fraction) (x1 p1 x2 p2 : ℚ)
    (h0 : 0 ≤ x1) (h12 : x1 < x2) (ht : lineTable x1 p1 x2 p2 = .ok r.table) :
    ∃ t', convert [[a, b]] (.table (forceOf r)) = .ok t' ∧
      ∀ s y, x1 ≤ s → s ≤ x2 → (On t'.points (at_ a b s) y ↔ Intensity x1 p1 x2 p2 s y) := by
  refine ⟨_, convert_fraction hab r hs, fun s y h1 h2 => ?_⟩
  show On (absolute a b r.table) (at_ a b s) y ↔ _
  rw [on_absolute (ne_of_isEqual hab), on_card h0 h12 ht, Intensity, if_pos ⟨h1, h2⟩]
  constructor
  · rintro (⟨hx, _, h4, h5⟩ | ⟨_, _, h5⟩ | ⟨h3, _, h5⟩)
    · have : s = x1 := le_antisymm h4 h1
      subst this
      have : y = p1 := mul_right_cancel₀ hx.ne' (by linarith)
      rw [this]; ring
    · exact h5
    · have : s = x2 := le_antisymm h2 h3
      subst this
      have hx : s ≠ 0 := by intro h; linarith
      have : y = p2 := mul_right_cancel₀ hx (by linarith)
      rw [this]; ring
  · intro h
    exact .inr (.inl ⟨h1, h2, h⟩)

/-- **C121 is false on the rest of the beam:** where the card says that there is no load, but for a thousandth on either side, the function of the load has no
value, zero or other. -/
theorem C121_rest_false (a b : ℚ) (hab : isEqual a b = false) (r : LineRead) (hs : r.scale = .fraction) (x1 p1 x2 p2 : ℚ)
    (h0 : 0 ≤ x1) (h12 : x1 < x2) (ht : lineTable x1 p1 x2 p2 = .ok r.table) :
    ∃ t', convert [[a, b]] (.table (forceOf r)) = .ok t' ∧ t'.left = .none ∧ t'.right = .none ∧
      ∀ s, (s < x1 - x1 / 1000 ∨ x2 + x2 / 1000 < s) → Intensity x1 p1 x2 p2 s 0 ∧ ∀ y, ¬ On t'.points (at_ a b s) y := by
  refine ⟨_, convert_fraction hab r hs, rfl, rfl, fun s hs' => ⟨?_, fun y => ?_⟩⟩
  · unfold Intensity
    rw [if_neg]
    rintro ⟨h1, h2⟩
    rcases hs' with h | h <;> linarith
  · show ¬ On (absolute a b r.table) (at_ a b s) y
    rw [on_absolute (ne_of_isEqual hab), on_card h0 h12 ht]
    rintro (⟨_, h3, h4, _⟩ | ⟨h3, h4, _⟩ | ⟨h3, h4, _⟩) <;> rcases hs' with h | h <;> linarith

/-- **C121 is false just beside the part that is loaded:** there is a load of half the intensity where the card has none. -/
theorem C121_ramp_false (a b : ℚ) (hab : isEqual a b = false) (r : LineRead) (hs : r.scale = .fraction) (x1 p1 x2 p2 : ℚ)
    (h0 : 0 ≤ x1) (h12 : x1 < x2) (ht : lineTable x1 p1 x2 p2 = .ok r.table) (hp : p2 ≠ 0) :
    ∃ t', convert [[a, b]] (.table (forceOf r)) = .ok t' ∧ On t'.points (at_ a b (x2 + x2 / 2000)) (p2 / 2) ∧
      ¬ Intensity x1 p1 x2 p2 (x2 + x2 / 2000) (p2 / 2) := by
  refine ⟨_, convert_fraction hab r hs, ?_, ?_⟩
  · show On (absolute a b r.table) _ _
    rw [on_absolute (ne_of_isEqual hab), on_card h0 h12 ht]
    exact .inr (.inr ⟨by linarith, by linarith, by ring⟩)
  · unfold Intensity
    rw [if_neg (by rintro ⟨_, h⟩; linarith)]
    intro h
    exact hp (by linarith)

/-- **C121, the order of abscissas.** The abscissas of the table increase if the beam does, … -/
theorem C121_increasing_partial (a b : ℚ) (hab : a < b) (r : LineRead) (x1 p1 x2 p2 : ℚ)
    (h0 : 0 ≤ x1) (h12 : x1 < x2) (ht : lineTable x1 p1 x2 p2 = .ok r.table) : (absolute a b r.table).Pairwise fun p q => p.1 < q.1 := by
  have hin : r.table.Pairwise fun p q => p.1 < q.1 := by
    unfold lineTable at ht
    split at ht
    · cases ht
    · have ht' := Outcome.ok.inj ht
      rw [← ht']
      split <;> simp <;> constructor <;> (try constructor) <;> (try constructor) <;> linarith
  refine List.pairwise_map.2 (hin.imp fun {p q} h => ?_)
  rw [absolute_eq, absolute_eq]
  unfold at_
  have := mul_pos (sub_pos.2 h) (sub_pos.2 hab)
  linarith

/-- **… and C121 is false of beams that go the other way:** they decrease, which `DEFI_FONCTION` does not admit (as generally known). -/
theorem C121_decreasing_false (a b : ℚ) (hab : b < a) (r : LineRead) (x1 p1 x2 p2 : ℚ)
    (h0 : 0 ≤ x1) (h12 : x1 < x2) (ht : lineTable x1 p1 x2 p2 = .ok r.table) : (absolute a b r.table).Pairwise fun p q => q.1 < p.1 := by
  have h := C121_increasing_partial b a hab ⟨r.set, r.cell, r.dof, r.scale, r.table⟩ x1 p1 x2 p2 h0 h12 ht
  have hin := List.pairwise_map.1 h
  refine List.pairwise_map.2 (hin.imp fun {p q} h => ?_)
  linarith

/-- **C121, lengths.** A load given by lengths is right on a beam that begins at the origin of the first axis and goes along it, … -/
theorem C121_length_partial (len : ℚ) (hl : isEqual 0 len = false) (r : LineRead) (hs : r.scale = .length) (x1 p1 x2 p2 : ℚ)
    (h0 : 0 ≤ x1) (h12 : x1 < x2) (ht : lineTable x1 p1 x2 p2 = .ok r.table) :
    ∃ t', convert [[0, len]] (.table (forceOf r)) = .ok t' ∧ t'.names.x = some .parax ∧
      ∀ d y, x1 ≤ d → d ≤ x2 → (On t'.points (at_ 0 len (d / len)) y ↔ Intensity x1 p1 x2 p2 d y) := by
  refine ⟨_, convert_length hl r hs, by simp [forceOf, hs], fun d y h1 h2 => ?_⟩
  have hne : len ≠ 0 := fun h => ne_of_isEqual hl h.symm
  have he : at_ 0 len (d / len) = d := by
    unfold at_
    field_simp
    ring
  show On r.table _ y ↔ _
  rw [he, on_card h0 h12 ht, Intensity, if_pos ⟨h1, h2⟩]
  constructor
  · rintro (⟨hx, _, h4, h5⟩ | ⟨_, _, h5⟩ | ⟨h3, _, h5⟩)
    · have : d = x1 := le_antisymm h4 h1
      subst this
      have : y = p1 := mul_right_cancel₀ hx.ne' (by linarith)
      rw [this]; ring
    · exact h5
    · have : d = x2 := le_antisymm h2 h3
      subst this
      have hx : d ≠ 0 := by intro h; linarith
      have : y = p2 := mul_right_cancel₀ hx (by linarith)
      rw [this]; ring
  · intro h
    exact .inr (.inl ⟨h1, h2, h⟩)

/-- **… and C121 is false of beams elsewhere:** the lengths are taken for coordinates. A beam of which the coordinates are beyond the lengths has no
load at any of its points. -/
theorem C121_length_false (a b : ℚ) (hab : isEqual a b = false) (r : LineRead) (hs : r.scale = .length) (x1 p1 x2 p2 : ℚ)
    (h0 : 0 ≤ x1) (h12 : x1 < x2) (ht : lineTable x1 p1 x2 p2 = .ok r.table) (ha : x2 + x2 / 1000 < a) (hb : x2 + x2 / 1000 < b) :
    ∃ t', convert [[a, b]] (.table (forceOf r)) = .ok t' ∧ ∀ s, 0 ≤ s → s ≤ 1 → ∀ y, ¬ On t'.points (at_ a b s) y := by
  refine ⟨_, convert_length hab r hs, fun s hs0 hs1 y => ?_⟩
  show ¬ On r.table _ y
  rw [on_card h0 h12 ht]
  have hbig : x2 + x2 / 1000 < at_ a b s := by
    unfold at_
    have e : a + s * (b - a) = (1 - s) * a + s * b := by ring
    rw [e]
    have h1 := mul_le_mul_of_nonneg_left ha.le (sub_nonneg.2 hs1)
    have h2 := mul_le_mul_of_nonneg_left hb.le hs0
    rcases eq_or_lt_of_le hs0 with h | h
    · rw [← h]; linarith
    · have h3 := mul_lt_mul_of_pos_left hb h
      linarith
  rintro (⟨_, h3, h4, _⟩ | ⟨h3, h4, _⟩ | ⟨h3, h4, _⟩) <;> linarith

/-- **C121 is false of projected intensities:** the two scales make the same load, so that the intensity for the projected length is taken for one of
the length. -/
theorem C121_projected_false : readScale "FRPR".toList = readScale "FR".toList := by decide +kernel

/-- **C121 is false of beams perpendicular to the first axis:** no load along such a beam, of whatever scale, can be translated. -/
theorem C121_axis_false (a b : ℚ) (hab : isEqual a b = true) (more : List ℚ) (f : Force) : convert [a :: b :: more] f = .throw := by
  unfold convert
  simp only [hab]
  rfl

/-! ## Examples -/

/-- A load from a quarter to half of a beam. -/
def exR : LineRead := ⟨1, 10, .DY, .fraction, [(1/4 - 1/4/1000, 0), (1/4, 3), (1/2, 5), (1/2 + 1/2/1000, 0)]⟩
example : lineTable (1/4) 3 (1/2) 5 = .ok exR.table := by decide +kernel
example : isEqual (2 : ℚ) 6 = false ∧ isEqual (0 : ℚ) 4 = false ∧ isEqual (2 : ℚ) 2 = true := by decide +kernel
example : Intensity (1/4) 3 (1/2) 5 (3/8) 4 := by unfold Intensity; norm_num
example : (forceOf exR).names.x = some .absc := rfl
/-- The same numbers as lengths, on a beam from 2 to 6. -/
example : (1/2 : ℚ) + 1/2/1000 < 2 := by norm_num

/-- **C121 (false).** The beams under the load have to have two nodes: with a third, a load that is given by fractions of the length is
refused. -/
theorem C121_three_nodes_false (a b m : ℚ) (more : List ℚ) (r : LineRead) (hs : r.scale = .fraction) :
    convert [a :: b :: m :: more] (.table (forceOf r)) = .throw := by
  unfold convert
  simp [forceOf, hs]

end LineLoad
end Vega
