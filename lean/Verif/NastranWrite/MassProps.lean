import Verif.NastranWrite.Masses
import Verif.NastranWrite.PropertyProps
import Mathlib.Tactic.FinCases
import Mathlib.Tactic.FieldSimp
import Mathlib.Tactic.Linarith

/-! # C92: masses at nodes, from Nastran to Nastran, Code_Aster and Systus -/
namespace Vega

/-! ## Specification -/
namespace MassSpec
open NastranWrite WriteSpec PressureSpec

/-- The fields of CONM2: number, node, coordinate system, mass, offset, nothing, and the moments and products of inertia I11,
I21, I22, I31, I32, I33. -/
def massFields (id node cid : Int) (m : ℚ) (x1 x2 x3 i11 i21 i22 i31 i32 i33 : Option ℚ) : List Arg :=
  [.int id, .int node, .int cid, .real m, optReal x1, optReal x2, optReal x3, .blank, optReal i11, optReal i21, optReal i22,
    optReal i31, optReal i32, optReal i33]

/-- The entry of the inertia matrix in row and column `i`, `j` according to the Nastran manual: I11 -I21 -I31 / -I21 I22 -I32
/ -I31 -I32 I33. -/
def inertia (i11 i21 i22 i31 i32 i33 : ℚ) (i j : Fin 3) : ℚ :=
  match i, j with
  | 0, 0 => i11
  | 1, 1 => i22
  | 2, 2 => i33
  | 0, 1 => -i21
  | 1, 0 => -i21
  | 0, 2 => -i31
  | 2, 0 => -i31
  | 1, 2 => -i32
  | 2, 1 => -i32

/-- The inertia matrix of a mass of the program: `ixz` is the entry of x and z, and so on. -/
def inertiaOf (p : NodalMass) (i j : Fin 3) : ℚ :=
  match i, j with
  | 0, 0 => p.ixx
  | 1, 1 => p.iyy
  | 2, 2 => p.izz
  | 0, 1 => p.ixy
  | 1, 0 => p.ixy
  | 0, 2 => p.ixz
  | 2, 0 => p.ixz
  | 1, 2 => p.iyz
  | 2, 1 => p.iyz

/-- What Code_Aster makes of the values of `M_T_D_N` (one value) and `M_TR_D_N` (ten values: M, IXX, IYY, IZZ, IXY, IYZ, IXZ,
EX, EY, EZ). -/
def asterMass : List ℚ → Option NodalMass
  | [m] => some ⟨m, 0, 0, 0, 0, 0, 0, 0, 0, 0⟩
  | [m, a, b, c, d, e, f, x, y, z] => some ⟨m, a, b, c, d, e, f, x, y, z⟩
  | _ => none

/-- The mass in a system of units in which masses are `k` times as large. -/
def scaled (k : ℚ) (p : NodalMass) : NodalMass :=
  ⟨p.m * k, p.ixx * k, p.iyy * k, p.izz * k, p.ixy * k, p.iyz * k, p.ixz * k, p.ex, p.ey, p.ez⟩

/-- The diagonal of the mass matrix that Systus makes of its values: a lumped mass, three or six of them. -/
def systusDiagonal (l : List ℚ) (i : Fin 6) : ℚ :=
  match l[i.val]? with
  | some x => x
  | none => 0

/-- The fields of the matrix of CONM1, row by row up to the diagonal: M11, M21, M22, M31, ... -/
def matrixFields (a : Fin 6 → Fin 6 → ℚ) (rows : List (Fin 6)) : List Arg :=
  rows.flatMap fun r => ((List.finRange 6).filter (· ≤ r)).map fun c => .real (a r c)

/-- The degrees of freedom in the order of the manual. -/
def dofOf (i : Fin 6) : Dof :=
  match i with
  | 0 => .DX | 1 => .DY | 2 => .DZ | 3 => .RX | 4 => .RY | 5 => .RZ

end MassSpec

namespace NastranWrite
open Nastran FieldSpec FixedSpec WriteSpec RigidSpec SpcCardSpec LoadSpec PressureSpec MaterialSpec PropertySpec MassSpec
open CellSpec (Number)

/-! ## Helper lemmas -/

theorem conm1_name : Name false "CONM1".toList := ⟨by decide, by decide, by decide⟩
theorem conm2_name : Name false "CONM2".toList := ⟨by decide, by decide, by decide⟩

theorem cidOf_pos {n : Int} (h : Number n) : cidOf n = n := by
  unfold cidOf
  rw [if_neg]
  have := h.1
  omega

/-! ## C92: CONM2 -/

/-- **C92 (partial).** CONM2 is read with its number, its node, its mass, its offset, its moments of inertia and the product
I21, blanks counting as zero; the coordinate system is kept when there is no offset. -/
theorem C92_read_partial (counter : Nat) (id node cid : Int) (m : ℚ) (x1 x2 x3 i11 i21 i22 i31 i32 i33 : Option ℚ)
    (rest : List Nastran.Line) (h1 : Number id) (h2 : Number node) (h3 : Number cid) (hm : |m| ≤ dblMax)
    (hr : ∀ o ∈ [x1, x2, x3, i11, i21, i22, i31, i32, i33], ∀ x ∈ o, |x| ≤ dblMax) (hc : counter + 2 < 10 ^ 7)
    (hnew : NewCard rest) :
    ∃ lines counter' texts q j11 j21 j22 j31 j32 j33,
      writeCard counter "CONM2".toList (massFields id node cid m x1 x2 x3 i11 i21 i22 i31 i32 i33) =
        some (lines, counter') ∧
      nextLine (lines ++ rest) = .ok (some (texts, afterComments rest)) ∧
      readBulk parseCONM2 texts = .ok q ∧ q.id = id ∧ q.node = node ∧
      (x1 = none → x2 = none → x3 = none → q.cid = cid) ∧
      Near m q.mass.m ∧ NearOr 0 x1 q.mass.ex ∧ NearOr 0 x2 q.mass.ey ∧ NearOr 0 x3 q.mass.ez ∧
      NearOr 0 i11 j11 ∧ NearOr 0 i21 j21 ∧ NearOr 0 i22 j22 ∧ NearOr 0 i31 j31 ∧ NearOr 0 i32 j32 ∧ NearOr 0 i33 j33 ∧
      (∀ i j, (i = j ∨ i.val + j.val = 1) → inertiaOf q.mass i j = inertia j11 j21 j22 j31 j32 j33 i j) ∧
      inertiaOf q.mass 1 2 = inertia j11 j21 j22 j31 j32 j33 0 2 ∧
      inertiaOf q.mass 0 2 = inertia j11 j21 j22 j31 j32 j33 1 2 := by
  have hfit : ∀ b ∈ massFields id node cid m x1 x2 x3 i11 i21 i22 i31 i32 i33, Fits b := by
    intro b hb
    simp only [massFields, List.mem_cons, List.not_mem_nil, or_false] at hb
    rcases hb with rfl | rfl | rfl | rfl | rfl | rfl | rfl | rfl | rfl | rfl | rfl | rfl | rfl | rfl
    · exact h1
    · exact h2
    · exact h3
    · exact hm
    · exact fits_optReal (hr _ (by simp))
    · exact fits_optReal (hr _ (by simp))
    · exact fits_optReal (hr _ (by simp))
    · trivial
    all_goals exact fits_optReal (hr _ (by simp))
  obtain ⟨lines, counter', texts, g1, g2, -, -, g5⟩ := C78_card_partial counter "CONM2".toList _ rest conm2_name hfit
    (by simp only [massFields, List.length_cons, List.length_nil]; omega) hnew
  obtain _ | ⟨k0, hs⟩ := g2
  obtain _ | ⟨k1, hs⟩ := hs
  obtain _ | ⟨k2, hs⟩ := hs
  obtain _ | ⟨k3, hs⟩ := hs
  obtain _ | ⟨k4, hs⟩ := hs
  obtain _ | ⟨k5, hs⟩ := hs
  obtain _ | ⟨k6, hs⟩ := hs
  obtain _ | ⟨k7, hs⟩ := hs
  obtain _ | ⟨k8, hs⟩ := hs
  obtain _ | ⟨k9, hs⟩ := hs
  obtain _ | ⟨k10, hs⟩ := hs
  obtain _ | ⟨k11, hs⟩ := hs
  obtain _ | ⟨k12, hs⟩ := hs
  obtain _ | ⟨k13, hs⟩ := hs
  cases hs
  rename_i t0 t1 t2 t3 t4 t5 t6 t7 t8 t9 t10 t11 t12 t13
  obtain ⟨m', n3, r3⟩ := says_real_read k3
  obtain ⟨y1, n4, r4⟩ := says_optReal_or 0 k4
  obtain ⟨y2, n5, r5⟩ := says_optReal_or 0 k5
  obtain ⟨y3, n6, r6⟩ := says_optReal_or 0 k6
  obtain ⟨j11, n8, r8⟩ := says_optReal_or 0 k8
  obtain ⟨j21, n9, r9⟩ := says_optReal_or 0 k9
  obtain ⟨j22, n10, r10⟩ := says_optReal_or 0 k10
  obtain ⟨j31, n11, r11⟩ := says_optReal_or 0 k11
  obtain ⟨j32, n12, r12⟩ := says_optReal_or 0 k12
  obtain ⟨j33, n13, r13⟩ := says_optReal_or 0 k13
  refine ⟨lines, counter', _,
    ⟨id, node, if cid ≠ 0 ∧ (!isZero y1 || !isZero y2 || !isZero y3) then 0 else cid,
      ⟨m', j11, j22, j33, -j21, -j31, -j32, y1, y2, y3⟩⟩, j11, j21, j22, j31, j32, j33, g1, g5, ?_, rfl, rfl, ?_, n3, n4, n5,
    n6, n8, n9, n10, n11, n12, n13, ?_, rfl, rfl⟩
  · unfold readBulk
    rw [keyword_read (by decide) (by decide)]
    simp only [Outcome.bind_ok, parseCONM2, says_int_read k0 h1, says_int_read k1 h2, says_int_read k2 h3, r3, r4, r5, r6,
      skip_after, List.take_succ_cons, List.take_zero, List.drop_succ_cons, List.drop_zero, r8, r9, r10, r11, r12, r13,
      isEmpty_end, if_true, cidOf_pos h3]
  · rintro rfl rfl rfl
    have e1 : y1 = 0 := n4
    have e2 : y2 = 0 := n5
    have e3 : y3 = 0 := n6
    have hz : isZero (0 : ℚ) = true := by decide +kernel
    simp [e1, e2, e3, hz]
  · intro i j hij
    fin_cases i <;> fin_cases j <;> simp_all [inertiaOf, inertia]

/-- **C92 is false for the products of inertia.** Whenever I31 and I32 are different (and have few digits), the mass that is
read does not have the inertia matrix of the card: I31 and I32 are exchanged. -/
theorem C92_products_false (counter : Nat) (id node : Int) (m i11 i21 i22 i31 i32 i33 : ℚ)
    (rest : List Nastran.Line) (h1 : Number id) (h2 : Number node) (hm : |m| ≤ dblMax)
    (hr : ∀ x ∈ [i11, i21, i22, i31, i32, i33], |x| ≤ dblMax) (s31 : Short i31) (s32 : Short i32)
    (b31 : tol < |i31|) (b32 : tol < |i32|) (hne : i31 ≠ i32)
    (hc : counter + 2 < 10 ^ 7) (hnew : NewCard rest) :
    ∃ lines counter' texts q,
      writeCard counter "CONM2".toList (massFields id node 0 m none none none (some i11) (some i21) (some i22) (some i31)
        (some i32) (some i33)) = some (lines, counter') ∧
      nextLine (lines ++ rest) = .ok (some (texts, afterComments rest)) ∧
      readBulk parseCONM2 texts = .ok q ∧
      inertiaOf q.mass 0 2 = inertia i11 i21 i22 i31 i32 i33 1 2 ∧
      inertiaOf q.mass 1 2 = inertia i11 i21 i22 i31 i32 i33 0 2 ∧
      inertiaOf q.mass 0 2 ≠ inertia i11 i21 i22 i31 i32 i33 0 2 := by
  obtain ⟨lines, counter', texts, q, j11, j21, j22, j31, j32, j33, g1, g2, g3, -, -, -, -, -, -, -, -, -, -, n31, n32, -, -,
    e1, e2⟩ := C92_read_partial counter id node 0 m none none none (some i11) (some i21) (some i22) (some i31)
      (some i32) (some i33) rest h1 h2 number_zero hm (by
        intro o ho x hx
        simp only [List.mem_cons, List.not_mem_nil, or_false] at ho
        rcases ho with rfl | rfl | rfl | rfl | rfl | rfl | rfl | rfl | rfl <;> cases hx <;>
          exact hr _ (by simp)) hc hnew
  have a31 : j31 = i31 := by
    have : Near i31 j31 := n31
    unfold Near at this
    rw [if_neg (by linarith)] at this
    exact this.2 s31
  have a32 : j32 = i32 := by
    have : Near i32 j32 := n32
    unfold Near at this
    rw [if_neg (by linarith)] at this
    exact this.2 s32
  rw [a31, a32] at e1 e2
  refine ⟨lines, counter', texts, q, g1, g2, g3, e2, e1, ?_⟩
  rw [e2]
  simp only [inertia]
  intro h
  exact hne (neg_injective h).symm

/-- **C92 (partial).** The mass of a written CONM2 is read back at its node. -/
theorem C92_write_partial (counter : Nat) (id node : Int) (k : Option ℚ) (p : NodalMass) (rest : List Nastran.Line)
    (h1 : Number id) (h2 : Number node) (hm : |p.getMass k| ≤ dblMax) (hc : counter + 1 < 10 ^ 7) (hnew : NewCard rest) :
    ∃ lines counter' texts m', writeCard counter "CONM2".toList (conm2Args id node k p) = some (lines, counter') ∧
      nextLine (lines ++ rest) = .ok (some (texts, afterComments rest)) ∧
      readBulk parseCONM2 texts = .ok ⟨id, node, 0, ⟨m', 0, 0, 0, 0, 0, 0, 0, 0, 0⟩⟩ ∧ Near (p.m * k.getD 1) m' := by
  have hfit : ∀ b ∈ conm2Args id node k p, Fits b := by
    intro b hb
    simp only [conm2Args, List.mem_cons, List.not_mem_nil, or_false] at hb
    rcases hb with rfl | rfl | rfl | rfl
    · exact h1
    · exact h2
    · exact number_zero
    · exact hm
  obtain ⟨lines, counter', texts, g1, g2, -, -, g5⟩ := C78_card_partial counter "CONM2".toList _ rest conm2_name hfit
    (by simp only [conm2Args, List.length_cons, List.length_nil]; omega) hnew
  obtain _ | ⟨k0, hs⟩ := g2
  obtain _ | ⟨k1, hs⟩ := hs
  obtain _ | ⟨k2, hs⟩ := hs
  obtain _ | ⟨k3, hs⟩ := hs
  cases hs
  rename_i t0 t1 t2 t3
  obtain ⟨m', n3, r3⟩ := says_real_read k3
  refine ⟨lines, counter', _, m', g1, g5, ?_, n3⟩
  unfold readBulk
  rw [keyword_read (by decide) (by decide)]
  have hz : isZero (0 : ℚ) = true := by decide +kernel
  simp only [Outcome.bind_ok, parseCONM2, says_int_read k0 h1, says_int_read k1 h2, says_int_read k2 number_zero, r3,
    nextDouble_end, skip_end, isEmpty_end, if_true, neg_zero, cidOf_pos number_zero, ne_eq, not_true, false_and, if_false]

/-- **C92 is false for moments of inertia and offsets written to Nastran.** They are all lost. -/
theorem C92_inertia_false (counter : Nat) (id node : Int) (k : Option ℚ) (p : NodalMass) (rest : List Nastran.Line)
    (h1 : Number id) (h2 : Number node) (hm : |p.getMass k| ≤ dblMax) (hc : counter + 1 < 10 ^ 7) (hnew : NewCard rest)
    (i j : Fin 3) (hp : inertiaOf p i j ≠ 0) :
    ∃ lines counter' texts q, writeCard counter "CONM2".toList (conm2Args id node k p) = some (lines, counter') ∧
      nextLine (lines ++ rest) = .ok (some (texts, afterComments rest)) ∧
      readBulk parseCONM2 texts = .ok q ∧ inertiaOf q.mass i j = 0 ∧ inertiaOf q.mass i j ≠ inertiaOf p i j := by
  obtain ⟨lines, counter', texts, m', g1, g2, g3, -⟩ := C92_write_partial counter id node k p rest h1 h2 hm hc hnew
  have h0 : inertiaOf ⟨m', 0, 0, 0, 0, 0, 0, 0, 0, 0⟩ i j = 0 := by
    fin_cases i <;> fin_cases j <;> rfl
  exact ⟨lines, counter', texts, _, g1, g2, g3, h0, by rw [h0]; exact hp.symm⟩

/-! ## C92: masses for Code_Aster and Systus -/

/-- **C92 (partial).** Without multiplier, a mass with some inertia reaches Code_Aster as it is. -/
theorem C92_aster_partial (p : NodalMass) (h : p.hasRotations = true) : asterMass (p.asterValues none) = some p := by
  unfold NodalMass.asterValues
  rw [if_pos h]
  simp [asterMass, NodalMass.getMass]

example : (⟨1, 2, 0, 0, 0, 0, 0, 0, 0, 3⟩ : NodalMass).hasRotations = true := by decide +kernel

/-- **C92 is false for offsets for Code_Aster.** The offset of a mass without inertia is lost, however large it is. -/
theorem C92_aster_offset_false (k : Option ℚ) (p : NodalMass) (h : p.hasRotations = false)
    (ho : p.ex ≠ 0 ∨ p.ey ≠ 0 ∨ p.ez ≠ 0) :
    ∃ q, asterMass (p.asterValues k) = some q ∧ q.ex = 0 ∧ q.ey = 0 ∧ q.ez = 0 ∧
      ¬ (q.ex = p.ex ∧ q.ey = p.ey ∧ q.ez = p.ez) := by
  unfold NodalMass.asterValues
  rw [h]
  refine ⟨_, rfl, rfl, rfl, rfl, ?_⟩
  rintro ⟨a, b, c⟩
  rcases ho with h | h | h
  · exact h a.symm
  · exact h b.symm
  · exact h c.symm

example : (⟨1, 0, 0, 0, 0, 0, 0, 0, 0, 3⟩ : NodalMass).hasRotations = false := by decide +kernel

/-- **C92 is false for the multiplier of masses.** With a multiplier other than 1, the mass is multiplied and its inertia is
not: no mass with a moment of inertia about x is as it should be. -/
theorem C92_multiplier_false (k : ℚ) (hk : k ≠ 1) (p : NodalMass) (hi : isZero p.ixx = false) :
    ∃ q, asterMass (p.asterValues (some k)) = some q ∧ q.m = (scaled k p).m ∧ q.ixx = p.ixx ∧ q.ixx ≠ (scaled k p).ixx := by
  unfold NodalMass.asterValues
  have hr : p.hasRotations = true := by simp [NodalMass.hasRotations, hi]
  rw [if_pos hr]
  refine ⟨_, rfl, rfl, rfl, ?_⟩
  show p.ixx ≠ p.ixx * k
  have h0 : p.ixx ≠ 0 := by
    intro h
    rw [h] at hi
    exact absurd hi (by decide +kernel)
  intro h
  apply hk
  field_simp at h
  exact h.symm

/-- **C92 (partial).** A mass without products of inertia and without offset is written for Systus with its mass three times
and its moments of inertia, those up to the tolerance counting as zero when they all are. -/
theorem C92_systus_partial (strict : Bool) (k : Option ℚ) (p : NodalMass)
    (h : isZero p.ixy = true ∧ isZero p.iyz = true ∧ isZero p.ixz = true) :
    ∃ l, p.systusValues strict k = .ok l ∧ systusDiagonal l 0 = p.m * k.getD 1 ∧ systusDiagonal l 1 = p.m * k.getD 1 ∧
      systusDiagonal l 2 = p.m * k.getD 1 ∧
      ((systusDiagonal l 3 = p.ixx ∧ systusDiagonal l 4 = p.iyy ∧ systusDiagonal l 5 = p.izz) ∨
        (|p.ixx| ≤ tol ∧ |p.iyy| ≤ tol ∧ |p.izz| ≤ tol ∧ l.length = 3)) := by
  unfold NodalMass.systusValues
  simp only [h.1, h.2.1, h.2.2, Bool.not_true, Bool.or_false, Bool.false_and, Bool.false_eq_true, if_false]
  by_cases hz : (!isZero p.ixx || !isZero p.iyy || !isZero p.izz) = true
  · rw [if_pos hz]
    exact ⟨_, rfl, rfl, rfl, rfl, .inl ⟨rfl, rfl, rfl⟩⟩
  · rw [if_neg hz]
    refine ⟨_, rfl, rfl, rfl, rfl, .inr ?_⟩
    simp only [Bool.or_eq_true, not_or, Bool.not_eq_true, Bool.not_eq_false'] at hz
    simpa [isZero, and_assoc] using hz

/-- **C92 (partial).** In strict mode a mass with a product of inertia is refused for Systus. -/
theorem C92_systus_strict_partial (k : Option ℚ) (p : NodalMass)
    (h : ¬ (isZero p.ixy = true ∧ isZero p.iyz = true ∧ isZero p.ixz = true)) : p.systusValues true k = .throw := by
  unfold NodalMass.systusValues
  rw [if_pos]
  by_contra hc
  apply h
  simp only [Bool.and_true, Bool.or_eq_true, not_or, Bool.not_eq_true, Bool.not_eq_false'] at hc
  exact ⟨hc.1.1, hc.1.2, hc.2⟩

/-- **C92 is false for offsets for Systus.** Masses that differ by their offset alone are written alike, also in strict
mode. -/
theorem C92_systus_offset_false (strict : Bool) (k : Option ℚ) (p : NodalMass) (x y z : ℚ) :
    NodalMass.systusValues strict { p with ex := x, ey := y, ez := z } k = p.systusValues strict k := rfl

/-! ## C92: CONM1 -/

theorem matrixFields_rows (a : Fin 6 → Fin 6 → ℚ) : matrixFields a [0, 1, 2, 3, 4] =
    [.real (a 0 0), .real (a 1 0), .real (a 1 1), .real (a 2 0), .real (a 2 1), .real (a 2 2), .real (a 3 0), .real (a 3 1),
      .real (a 3 2), .real (a 3 3), .real (a 4 0), .real (a 4 1), .real (a 4 2), .real (a 4 3), .real (a 4 4)] := by
  rfl

theorem fits_matrix {a : Fin 6 → Fin 6 → ℚ} (h : ∀ r c, |a r c| ≤ dblMax) {rows : List (Fin 6)} :
    ∀ b ∈ matrixFields a rows, Fits b := by
  intro b hb
  simp only [matrixFields, List.mem_flatMap, List.mem_map] at hb
  obtain ⟨r, -, c, -, rfl⟩ := hb
  exact h r c

/-- One entry of a row. -/
theorem conm1Row_real {row col : Nat} {cols : List Nat} {r k : Dof} (hr : Dof.findByPosition row = .ok r)
    (hk : Dof.findByPosition col = .ok k) {x y : ℚ} {t : Text} (hs : Says (.real x) t)
    (hread : ∀ (d : Option ℚ) (pre rest : List Nastran.Line),
      nextDouble d (after pre (t :: rest)) = .ok (y, after (pre ++ [t]) rest))
    (p : DiscretePoint) (pre rest : List Nastran.Line) :
    conm1Row row (col :: cols) p (after pre (t :: rest)) =
      (p.add .mass r k y >>= fun p => conm1Row row cols p (after (pre ++ [t]) rest)) := by
  simp only [conm1Row, hr, hk, Outcome.bind_ok, says_real_isDouble hs, hread, if_true]

theorem conm1Row_nil (row : Nat) (p : DiscretePoint) (c : Cursor) : conm1Row row [] p c = .ok (p, c) := rfl

/-- A symmetric point with a mass matrix alone. -/
def massPoint (m : Map (Dof × Dof) ℚ) : DiscretePoint :=
  ⟨.SYMMETRIC, fun q => if q = .mass then ⟨.SYMMETRIC, m⟩ else DofMatrix.new .SYMMETRIC⟩

theorem massPoint_new : DiscretePoint.new .SYMMETRIC = massPoint [] := by
  unfold DiscretePoint.new massPoint
  congr 1
  funext q
  split <;> rfl

theorem massPoint_add (m : Map (Dof × Dof) ℚ) (r k : Dof) (v : ℚ) :
    (massPoint m).add .mass r k v = .ok (massPoint (m.set (if k.lt r then (k, r) else (r, k)) v)) := by
  unfold DiscretePoint.add DofMatrix.addComponent massPoint
  by_cases h : k.lt r = true
  · simp only [if_true, h, Outcome.bind_ok, reduceCtorEq, false_and, if_false, true_and]
    congr 2
    funext q
    split <;> simp_all
  · simp only [if_true, h, Outcome.bind_ok, reduceCtorEq, false_and, if_false, true_and]
    congr 2
    funext q
    split <;> simp_all

/-- All the entries of five rows. -/
theorem conm1_rows {a : Fin 6 → Fin 6 → ℚ} {texts : List Text}
    (hs : List.Forall₂ Says (matrixFields a [0, 1, 2, 3, 4]) texts) :
    ∃ p : DiscretePoint, (∀ pre rest, conm1Rows (List.range 5) (DiscretePoint.new .SYMMETRIC) (after pre (texts ++ rest)) =
        .ok (p, after (pre ++ texts) rest)) ∧
      (∀ q, q ≠ .mass → p.matrix q = DofMatrix.new .SYMMETRIC) ∧
      (∀ r c, c ≤ r → r ≤ 4 → Near (a r c) ((p.matrix .mass).findComponent (dofOf r) (dofOf c)) ∧
        (p.matrix .mass).findComponent (dofOf c) (dofOf r) = (p.matrix .mass).findComponent (dofOf r) (dofOf c)) ∧
      (∀ c, (p.matrix .mass).findComponent .RZ c = 0 ∧ (p.matrix .mass).findComponent c .RZ = 0) := by
  rw [matrixFields_rows] at hs
  obtain _ | ⟨k0, hs⟩ := hs
  obtain _ | ⟨k1, hs⟩ := hs
  obtain _ | ⟨k2, hs⟩ := hs
  obtain _ | ⟨k3, hs⟩ := hs
  obtain _ | ⟨k4, hs⟩ := hs
  obtain _ | ⟨k5, hs⟩ := hs
  obtain _ | ⟨k6, hs⟩ := hs
  obtain _ | ⟨k7, hs⟩ := hs
  obtain _ | ⟨k8, hs⟩ := hs
  obtain _ | ⟨k9, hs⟩ := hs
  obtain _ | ⟨k10, hs⟩ := hs
  obtain _ | ⟨k11, hs⟩ := hs
  obtain _ | ⟨k12, hs⟩ := hs
  obtain _ | ⟨k13, hs⟩ := hs
  obtain _ | ⟨k14, hs⟩ := hs
  cases hs
  rename_i t0 t1 t2 t3 t4 t5 t6 t7 t8 t9 t10 t11 t12 t13 t14
  obtain ⟨y0, n0, r0⟩ := says_real_read k0
  obtain ⟨y1, n1, r1⟩ := says_real_read k1
  obtain ⟨y2, n2, r2⟩ := says_real_read k2
  obtain ⟨y3, n3, r3⟩ := says_real_read k3
  obtain ⟨y4, n4, r4⟩ := says_real_read k4
  obtain ⟨y5, n5, r5⟩ := says_real_read k5
  obtain ⟨y6, n6, r6⟩ := says_real_read k6
  obtain ⟨y7, n7, r7⟩ := says_real_read k7
  obtain ⟨y8, n8, r8⟩ := says_real_read k8
  obtain ⟨y9, n9, r9⟩ := says_real_read k9
  obtain ⟨y10, n10, r10⟩ := says_real_read k10
  obtain ⟨y11, n11, r11⟩ := says_real_read k11
  obtain ⟨y12, n12, r12⟩ := says_real_read k12
  obtain ⟨y13, n13, r13⟩ := says_real_read k13
  obtain ⟨y14, n14, r14⟩ := says_real_read k14
  let entries : List ((Dof × Dof) × ℚ) := [((.DX, .DX), y0), ((.DX, .DY), y1), ((.DY, .DY), y2), ((.DX, .DZ), y3),
    ((.DY, .DZ), y4), ((.DZ, .DZ), y5), ((.DX, .RX), y6), ((.DY, .RX), y7), ((.DZ, .RX), y8), ((.RX, .RX), y9),
    ((.DX, .RY), y10), ((.DY, .RY), y11), ((.DZ, .RY), y12), ((.RX, .RY), y13), ((.RY, .RY), y14)]
  refine ⟨massPoint entries, ?_, ?_, ?_, ?_⟩
  · intro pre rest
    have e5 : List.range 5 = [0, 1, 2, 3, 4] := rfl
    have e1 : List.range (0 + 1) = [0] := rfl
    have e2 : List.range (1 + 1) = [0, 1] := rfl
    have e3 : List.range (2 + 1) = [0, 1, 2] := rfl
    have e4 : List.range (3 + 1) = [0, 1, 2, 3] := rfl
    simp only [e5, conm1Rows, e1, e2, e3, e4, List.cons_append, List.nil_append, massPoint_new]
    have d0 : Dof.findByPosition 0 = .ok .DX := rfl
    have d1 : Dof.findByPosition 1 = .ok .DY := rfl
    have d2 : Dof.findByPosition 2 = .ok .DZ := rfl
    have d3 : Dof.findByPosition 3 = .ok .RX := rfl
    have d4 : Dof.findByPosition 4 = .ok .RY := rfl
    simp only [conm1Row_real d0 d0 k0 r0, conm1Row_real d1 d0 k1 r1,
      conm1Row_real d1 d1 k2 r2, conm1Row_real d2 d0 k3 r3,
      conm1Row_real d2 d1 k4 r4, conm1Row_real d2 d2 k5 r5,
      conm1Row_real d3 d0 k6 r6, conm1Row_real d3 d1 k7 r7,
      conm1Row_real d3 d2 k8 r8, conm1Row_real d3 d3 k9 r9,
      conm1Row_real d4 d0 k10 r10, conm1Row_real d4 d1 k11 r11,
      conm1Row_real d4 d2 k12 r12, conm1Row_real d4 d3 k13 r13,
      conm1Row_real d4 d4 k14 r14, massPoint_add, Outcome.bind_ok, conm1Row_nil, List.append_assoc,
      List.cons_append, List.nil_append]
    rfl
  · intro q hq
    simp [massPoint, hq]
  · intro r c hc hr
    fin_cases r <;> fin_cases c <;> first
      | exact absurd hc (by decide)
      | exact absurd hr (by decide)
      | exact ⟨by assumption, rfl⟩
  · intro c
    cases c <;> exact ⟨rfl, rfl⟩

/-- **C92 (partial).** CONM1 with all the entries of the first five rows is read as this symmetric matrix; the entries of the
sixth row are zero. -/
theorem C92_matrix_partial (counter : Nat) (id node cid : Int) (a : Fin 6 → Fin 6 → ℚ) (rest : List Nastran.Line)
    (h1 : Number id) (h2 : Number node) (h3 : Number cid) (ha : ∀ r c, |a r c| ≤ dblMax) (hc : counter + 3 < 10 ^ 7)
    (hnew : NewCard rest) :
    ∃ lines counter' texts q,
      writeCard counter "CONM1".toList ([.int id, .int node, .int cid] ++ matrixFields a [0, 1, 2, 3, 4]) =
        some (lines, counter') ∧
      nextLine (lines ++ rest) = .ok (some (texts, afterComments rest)) ∧
      readBulk parseCONM1 texts = .ok q ∧ q.id = id ∧ q.node = node ∧ q.cid = cid ∧
      (∀ r c, c ≤ r → r ≤ 4 → Near (a r c) ((q.point.matrix .mass).findComponent (dofOf r) (dofOf c)) ∧
        (q.point.matrix .mass).findComponent (dofOf c) (dofOf r) =
          (q.point.matrix .mass).findComponent (dofOf r) (dofOf c)) ∧
      (∀ c, (q.point.matrix .mass).findComponent .RZ c = 0 ∧ (q.point.matrix .mass).findComponent c .RZ = 0) := by
  obtain ⟨lines, counter', texts, g1, g2, -, -, g5⟩ := C78_card_partial counter "CONM1".toList
    ([.int id, .int node, .int cid] ++ matrixFields a [0, 1, 2, 3, 4]) rest conm1_name (by
      intro b hb
      simp only [List.mem_append, List.mem_cons, List.not_mem_nil, or_false] at hb
      rcases hb with (rfl | rfl | rfl) | hb
      · exact h1
      · exact h2
      · exact h3
      · exact fits_matrix ha b hb)
    (by rw [matrixFields_rows]; simp only [List.length_append, List.length_cons, List.length_nil]; omega) hnew
  obtain _ | ⟨k0, hs⟩ := g2
  obtain _ | ⟨k1, hs⟩ := hs
  obtain _ | ⟨k2, hs⟩ := hs
  rename_i t0 t1 t2 ts2
  obtain ⟨p, e1, -, e3, e4⟩ := conm1_rows hs
  refine ⟨lines, counter', _, ⟨id, node, cid, p⟩, g1, g5, ?_, rfl, rfl, rfl, e3, e4⟩
  unfold readBulk
  rw [keyword_read (by decide) (by decide)]
  have e1' := e1 ([] ++ ["CONM1".toList] ++ [t0] ++ [t1] ++ [t2]) []
  rw [List.append_nil] at e1'
  simp only [List.nil_append] at e1'
  simp only [Outcome.bind_ok, parseCONM1, says_int_read k0 h1, says_int_read k1 h2, says_int_read k2 h3, e1', cidOf_pos h3,
    isEmpty_end, if_true]

/-- **C92 is false for the sixth row.** CONM1 with all its entries is refused (in strict mode; the card is dropped
otherwise). -/
theorem C92_row_false (counter : Nat) (id node cid : Int) (a : Fin 6 → Fin 6 → ℚ) (rest : List Nastran.Line)
    (h1 : Number id) (h2 : Number node) (h3 : Number cid) (ha : ∀ r c, |a r c| ≤ dblMax) (hc : counter + 3 < 10 ^ 7)
    (hnew : NewCard rest) :
    ∃ lines counter' texts,
      writeCard counter "CONM1".toList ([.int id, .int node, .int cid] ++ matrixFields a [0, 1, 2, 3, 4, 5]) =
        some (lines, counter') ∧
      nextLine (lines ++ rest) = .ok (some (texts, afterComments rest)) ∧ readBulk parseCONM1 texts = .throw := by
  have hsplit : matrixFields a [0, 1, 2, 3, 4, 5] = matrixFields a [0, 1, 2, 3, 4] ++
      [.real (a 5 0), .real (a 5 1), .real (a 5 2), .real (a 5 3), .real (a 5 4), .real (a 5 5)] := rfl
  obtain ⟨lines, counter', texts, g1, g2, -, -, g5⟩ := C78_card_partial counter "CONM1".toList
    ([.int id, .int node, .int cid] ++ matrixFields a [0, 1, 2, 3, 4, 5]) rest conm1_name (by
      intro b hb
      simp only [List.mem_append, List.mem_cons, List.not_mem_nil, or_false] at hb
      rcases hb with (rfl | rfl | rfl) | hb
      · exact h1
      · exact h2
      · exact h3
      · exact fits_matrix ha b hb)
    (by rw [hsplit, matrixFields_rows]; simp only [List.length_append, List.length_cons, List.length_nil]; omega) hnew
  rw [hsplit] at g2
  obtain _ | ⟨k0, hs⟩ := g2
  obtain _ | ⟨k1, hs⟩ := hs
  obtain _ | ⟨k2, hs⟩ := hs
  rename_i t0 t1 t2 ts2
  rw [show ([] : List Arg).append (matrixFields a [0, 1, 2, 3, 4] ++
      [.real (a 5 0), .real (a 5 1), .real (a 5 2), .real (a 5 3), .real (a 5 4), .real (a 5 5)]) =
    matrixFields a [0, 1, 2, 3, 4] ++
      [.real (a 5 0), .real (a 5 1), .real (a 5 2), .real (a 5 3), .real (a 5 4), .real (a 5 5)] from rfl] at hs
  obtain ⟨u1, u2, hs1, hs2, rfl⟩ : ∃ u1 u2, List.Forall₂ Says (matrixFields a [0, 1, 2, 3, 4]) u1 ∧
      List.Forall₂ Says [.real (a 5 0), .real (a 5 1), .real (a 5 2), .real (a 5 3), .real (a 5 4), .real (a 5 5)] u2 ∧
      ts2 = u1 ++ u2 := by
    refine ⟨ts2.take 15, ts2.drop 15, ?_, ?_, (List.take_append_drop _ _).symm⟩
    · have := List.forall₂_take 15 hs
      rwa [List.take_left' (by rw [matrixFields_rows]; rfl)] at this
    · have := List.forall₂_drop 15 hs
      rwa [List.drop_left' (by rw [matrixFields_rows]; rfl)] at this
  obtain ⟨p, e1, -⟩ := conm1_rows hs1
  obtain _ | ⟨k3, hs2⟩ := hs2
  rename_i t3 ts3
  refine ⟨lines, counter', _, g1, g5, ?_⟩
  unfold readBulk
  rw [keyword_read (by decide) (by decide)]
  have e1' := e1 (["CONM1".toList] ++ [t0] ++ [t1] ++ [t2]) (t3 :: ts3)
  simp only [Outcome.bind_ok, parseCONM1, says_int_read k0 h1, says_int_read k1 h2, says_int_read k2 h3, e1',
    isEmpty_after_false (List.mem_cons_self ..) (says_real_ne k3), Bool.false_eq_true, if_false]

theorem isNextDouble_blank (pre rest : List Nastran.Line) : isNextDouble (after pre ([] :: rest)) = .ok false := by
  rw [isNextDouble_after]; rfl

/-- **C92 is false for blank entries.** A blank entry should count as zero, but a diagonal matrix M11, blank, M22 is refused
(in strict mode; the card is dropped otherwise): after a blank entry nothing more is read. -/
theorem C92_blank_false (counter : Nat) (id node cid : Int) (m1 m2 : ℚ) (rest : List Nastran.Line)
    (h1 : Number id) (h2 : Number node) (h3 : Number cid) (hm1 : |m1| ≤ dblMax) (hm2 : |m2| ≤ dblMax)
    (hc : counter + 3 < 10 ^ 7) (hnew : NewCard rest) :
    ∃ lines counter' texts,
      writeCard counter "CONM1".toList [.int id, .int node, .int cid, .real m1, .blank, .real m2] =
        some (lines, counter') ∧
      nextLine (lines ++ rest) = .ok (some (texts, afterComments rest)) ∧ readBulk parseCONM1 texts = .throw := by
  obtain ⟨lines, counter', texts, g1, g2, -, -, g5⟩ := C78_card_partial counter "CONM1".toList
    [.int id, .int node, .int cid, .real m1, .blank, .real m2] rest conm1_name (by
      intro b hb
      simp only [List.mem_cons, List.not_mem_nil, or_false] at hb
      rcases hb with rfl | rfl | rfl | rfl | rfl | rfl
      · exact h1
      · exact h2
      · exact h3
      · exact hm1
      · trivial
      · exact hm2)
    (by simp only [List.length_cons, List.length_nil]; omega) hnew
  obtain _ | ⟨k0, hs⟩ := g2
  obtain _ | ⟨k1, hs⟩ := hs
  obtain _ | ⟨k2, hs⟩ := hs
  obtain _ | ⟨k3, hs⟩ := hs
  obtain _ | ⟨k4, hs⟩ := hs
  obtain _ | ⟨k5, hs⟩ := hs
  cases hs
  rename_i t0 t1 t2 t3 t4 t5
  have e4 : t4 = [] := k4
  subst e4
  obtain ⟨y3, n3, r3⟩ := says_real_read k3
  refine ⟨lines, counter', _, g1, g5, ?_⟩
  unfold readBulk
  rw [keyword_read (by decide) (by decide)]
  have e5 : List.range 5 = [0, 1, 2, 3, 4] := rfl
  have e1 : List.range (0 + 1) = [0] := rfl
  have e2 : List.range (1 + 1) = [0, 1] := rfl
  have e3 : List.range (2 + 1) = [0, 1, 2] := rfl
  have e4 : List.range (3 + 1) = [0, 1, 2, 3] := rfl
  simp only [Outcome.bind_ok, parseCONM1, says_int_read k0 h1, says_int_read k1 h2, says_int_read k2 h3, e5, conm1Rows, e1,
    e2, e3, e4, massPoint_new, conm1Row_real (row := 0) (col := 0) rfl rfl k3 r3, massPoint_add, conm1Row_nil]
  simp only [conm1Row, Dof.findByPosition, Outcome.bind_ok, isNextDouble_blank, Bool.false_eq_true, if_false]
  rw [isEmpty_after_false (t := t5) (by simp) (says_real_ne k5)]
  rfl

/-- **C92 is false for mass matrices written to Nastran.** The diagonal is not written: a point with a diagonal mass matrix
(without the other quantities) comes back without any mass. -/
theorem C92_diagonal_false (counter : Nat) (strict : Bool) (id node : Int) (p : DiscretePoint) (rest : List Nastran.Line)
    (h1 : Number id) (h2 : Number node)
    (hq : hasQuantity p .stiffness = false ∧ hasQuantity p .damping = false)
    (hd : ∀ r c : Dof, r ≠ c → (p.matrix .mass).findComponent r c = 0)
    (hc : counter + 3 < 10 ^ 7) (hnew : NewCard rest) :
    ∃ args lines counter' texts q, conm1Args strict id node p = .ok args ∧
      writeCard counter "CONM1".toList args = some (lines, counter') ∧
      nextLine (lines ++ rest) = .ok (some (texts, afterComments rest)) ∧ readBulk parseCONM1 texts = .ok q ∧
      ∀ r c : Dof, (q.point.matrix .mass).findComponent r c = 0 := by
  have hargs : conm1Args strict id node p = .ok [.int id, .int node, .int 0, .real 0, .real 0, .real 0, .real 0, .real 0,
      .real 0, .real 0, .real 0, .real 0, .real 0] := by
    unfold conm1Args
    rw [hq.1, hq.2]
    have e5 : ((List.range 5).flatMap fun row => (List.range row).map fun col => (row, col)) =
      [(1, 0), (2, 0), (2, 1), (3, 0), (3, 1), (3, 2), (4, 0), (4, 1), (4, 2), (4, 3)] := by decide
    rw [e5]
    simp only [conm1Entries, Dof.findByPosition, Outcome.bind_ok, Bool.or_self, Bool.false_and, Bool.false_eq_true, if_false,
      hd .DY .DX (by decide), hd .DZ .DX (by decide), hd .DZ .DY (by decide), hd .RX .DX (by decide),
      hd .RX .DY (by decide), hd .RX .DZ (by decide), hd .RY .DX (by decide), hd .RY .DY (by decide),
      hd .RY .DZ (by decide), hd .RY .RX (by decide), List.cons_append, List.nil_append]
  have hz : |(0 : ℚ)| ≤ dblMax := by decide +kernel
  obtain ⟨lines, counter', texts, g1, g2, -, -, g5⟩ := C78_card_partial counter "CONM1".toList
    [.int id, .int node, .int 0, .real 0, .real 0, .real 0, .real 0, .real 0, .real 0, .real 0, .real 0, .real 0, .real 0]
    rest conm1_name (by
      intro b hb
      simp only [List.mem_cons, List.not_mem_nil, or_false] at hb
      rcases hb with rfl | rfl | rfl | hb
      · exact h1
      · exact h2
      · exact number_zero
      · have : b = .real 0 := by tauto
        subst this
        exact hz)
    (by simp only [List.length_cons, List.length_nil]; omega) hnew
  obtain _ | ⟨k0, hs⟩ := g2
  obtain _ | ⟨k1, hs⟩ := hs
  obtain _ | ⟨k2, hs⟩ := hs
  obtain _ | ⟨k3, hs⟩ := hs
  obtain _ | ⟨k4, hs⟩ := hs
  obtain _ | ⟨k5, hs⟩ := hs
  obtain _ | ⟨k6, hs⟩ := hs
  obtain _ | ⟨k7, hs⟩ := hs
  obtain _ | ⟨k8, hs⟩ := hs
  obtain _ | ⟨k9, hs⟩ := hs
  obtain _ | ⟨k10, hs⟩ := hs
  obtain _ | ⟨k11, hs⟩ := hs
  obtain _ | ⟨k12, hs⟩ := hs
  cases hs
  rename_i t0 t1 t2 t3 t4 t5 t6 t7 t8 t9 t10 t11 t12
  have zero : ∀ {t : Text}, Says (.real 0) t → ∀ (d : Option ℚ) (pre rest : List Nastran.Line),
      nextDouble d (after pre (t :: rest)) = .ok (0, after (pre ++ [t]) rest) := by
    intro t hs
    obtain ⟨y, hy, hr⟩ := says_real_read hs
    have : y = 0 := by
      unfold Near at hy
      rwa [if_pos (by rw [abs_zero]; exact tol_pos.le)] at hy
    subst this
    exact hr
  let entries : List ((Dof × Dof) × ℚ) := [((.DX, .DX), 0), ((.DX, .DY), 0), ((.DY, .DY), 0), ((.DX, .DZ), 0),
    ((.DY, .DZ), 0), ((.DZ, .DZ), 0), ((.DX, .RX), 0), ((.DY, .RX), 0), ((.DZ, .RX), 0), ((.RX, .RX), 0)]
  refine ⟨_, lines, counter', _, ⟨id, node, 0, massPoint entries⟩, hargs, g1, g5, ?_, ?_⟩
  · unfold readBulk
    rw [keyword_read (by decide) (by decide)]
    have e5 : List.range 5 = [0, 1, 2, 3, 4] := rfl
    have e1 : List.range (0 + 1) = [0] := rfl
    have e2 : List.range (1 + 1) = [0, 1] := rfl
    have e3 : List.range (2 + 1) = [0, 1, 2] := rfl
    have e4 : List.range (3 + 1) = [0, 1, 2, 3] := rfl
    have d0 : Dof.findByPosition 0 = .ok .DX := rfl
    have d1 : Dof.findByPosition 1 = .ok .DY := rfl
    have d2 : Dof.findByPosition 2 = .ok .DZ := rfl
    have d3 : Dof.findByPosition 3 = .ok .RX := rfl
    simp only [Outcome.bind_ok, parseCONM1, says_int_read k0 h1, says_int_read k1 h2, says_int_read k2 number_zero, e5,
      conm1Rows, e1, e2, e3, e4, massPoint_new]
    simp only [conm1Row_real d0 d0 k3 (zero k3), conm1Row_real d1 d0 k4 (zero k4), conm1Row_real d1 d1 k5 (zero k5),
      conm1Row_real d2 d0 k6 (zero k6), conm1Row_real d2 d1 k7 (zero k7), conm1Row_real d2 d2 k8 (zero k8),
      conm1Row_real d3 d0 k9 (zero k9), conm1Row_real d3 d1 k10 (zero k10), conm1Row_real d3 d2 k11 (zero k11),
      conm1Row_real d3 d3 k12 (zero k12), massPoint_add, Outcome.bind_ok, conm1Row_nil]
    simp only [conm1Row, Dof.findByPosition, Outcome.bind_ok, isNextDouble_end, Bool.false_eq_true, if_false, isEmpty_end,
      if_true, cidOf_pos number_zero]
    rfl
  · intro r c
    cases r <;> cases c <;> rfl

/-- A point with masses in two directions. -/
example : let p := massPoint [((.DX, .DX), 5), ((.DY, .DY), 7)]
    hasQuantity p .stiffness = false ∧ hasQuantity p .damping = false ∧
      (p.matrix .mass).findComponent .DX .DX = 5 ∧
      ∀ r c : Dof, r ≠ c → (p.matrix .mass).findComponent r c = 0 := by
  refine ⟨by decide +kernel, by decide +kernel, by decide +kernel, ?_⟩
  intro r c
  cases r <;> cases c <;> decide +kernel

end NastranWrite
end Vega
