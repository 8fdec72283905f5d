import Verif.NastranWrite.LineLoadProps
import Verif.NastranWrite.MaterialProps
import Verif.NastranWrite.Property

/-! # C91: properties of shells, solids and beams written to Nastran and read from Nastran -/
namespace Vega

/-! ## Specification -/
namespace PropertySpec
open NastranWrite WriteSpec PressureSpec

/-- A field and what is read from it: a blank has a default. -/
def NearOr (d : ℚ) (o : Option ℚ) (y : ℚ) : Prop :=
  match o with
  | none => y = d
  | some x => Near x y

/-- The fields of PSHELL: number, material, thickness, material for bending, ratio of inertia, material for shear, ratio of
thickness, mass per area, two fibre distances, material for coupling. -/
def shellFields (id mid1 : Int) (t : Option ℚ) (mid2 : Option Int) (r : Option ℚ) (mid3 : Option Int)
    (ts nsm z1 z2 : Option ℚ) (mid4 : Option Int) : List Arg :=
  [.int id, .int mid1, optReal t, optInt mid2, optReal r, optInt mid3, optReal ts, optReal nsm, optReal z1, optReal z2,
    optInt mid4]

/-- The first fields of PBAR: number, material, area, I1 (bending in plane 1, about z), I2 (about y), torsion, mass per
length. -/
def barFields (id mid : Int) (a : ℚ) (i1 i2 j nsm : Option ℚ) : List Arg :=
  [.int id, .int mid, .real a, optReal i1, optReal i2, optReal j, optReal nsm]

/-- The words of PSOLID that ask for full integration. -/
def asksFull (in_ isop : Text) : Prop :=
  (in_ = "TWO".toList ∨ in_ = "2".toList ∨ in_ = "THREE".toList ∨ in_ = "3".toList) ∧
    (isop = "FULL".toList ∨ isop = "1".toList)

/-- A word of capital letters and digits that fits in a field. -/
structure Word (w : Text) : Prop where
  fits : FixedSpec.Value 8 w
  some_ : w.isEmpty = false
  plain : Nastran.toUpper (Nastran.trim (Nastran.trimRight w)) = w

end PropertySpec

namespace NastranWrite
open Nastran FieldSpec FixedSpec WriteSpec RigidSpec SpcCardSpec LoadSpec PressureSpec MaterialSpec PropertySpec
open CellSpec (Number)

/-! ## Helper lemmas -/

theorem pshell_name : Name false "PSHELL".toList := ⟨by decide, by decide, by decide⟩
theorem psolid_name : Name false "PSOLID".toList := ⟨by decide, by decide, by decide⟩
theorem pbeam_name : Name false "PBEAM".toList := ⟨by decide, by decide, by decide⟩
theorem pbar_name : Name false "PBAR".toList := ⟨by decide, by decide, by decide⟩

theorem says_optReal_or (d : ℚ) {o : Option ℚ} {t : Text} (hs : Says (optReal o) t) :
    ∃ y, NearOr d o y ∧ ∀ pre rest, nextDouble (some d) (after pre (t :: rest)) = .ok (y, after (pre ++ [t]) rest) := by
  cases o with
  | none =>
    have : t = [] := hs
    subst this
    exact ⟨d, rfl, fun pre rest => nextDouble_blank _ pre rest⟩
  | some x =>
    obtain ⟨y, hy, hr⟩ := says_real_read hs
    exact ⟨y, hy, fun pre rest => hr _ pre rest⟩

theorem fits_opt {o : Option Int} (h : ∀ n ∈ o, Number n) : Fits (optInt o) := by
  cases o with
  | none => trivial
  | some n => exact h n rfl

theorem passReals_end (d : ℚ) (n : Nat) (pre : List Nastran.Line) : passReals d n (after pre []) = .ok (after pre []) := by
  induction n with
  | zero => rfl
  | succ n ih => simp only [passReals, nextDouble_end, Outcome.bind_ok, ih]

theorem stations_end (n : Nat) (pre : List Nastran.Line) : stations (n + 1) (after pre []) = .ok (after pre []) := by
  simp only [stations, isEmpty_end, if_true]

theorem invFactor_blank : invFactor unavailable = 0 := by
  simp only [invFactor, isEqual_self, if_true]

/-- The choice, with any words in place of the literal ones. -/
theorem full_choice (B R W2 N2 W3 N3 F N1 in_ isop : Text) (hB : ¬ (B = W2 ∨ B = N2 ∨ B = W3 ∨ B = N3)) :
    (if (in_ = B && isop = R : Bool) then false
      else if ((in_ = W2 || in_ = N2) && (isop = F || isop = N1) : Bool) then true
      else if ((in_ = W3 || in_ = N3) && (isop = F || isop = N1) : Bool) then true
      else false) = true ↔
    (in_ = W2 ∨ in_ = N2 ∨ in_ = W3 ∨ in_ = N3) ∧ (isop = F ∨ isop = N1) := by
  simp only [Bool.and_eq_true, Bool.or_eq_true, decide_eq_true_eq]
  by_cases h1 : in_ = B
  · subst h1
    by_cases h2 : isop = R <;> simp_all
  · by_cases a : in_ = W2 ∨ in_ = N2 <;> by_cases b : isop = F ∨ isop = N1 <;>
      by_cases c : in_ = W3 ∨ in_ = N3 <;> simp [h1, a, b, c]

theorem isFull_iff (in_ isop : Text) : isFull in_ isop = true ↔ asksFull in_ isop := by
  unfold isFull asksFull
  exact full_choice _ _ _ _ _ _ _ _ in_ isop (by decide)

/-! ## C91: shells -/

/-- **C91 (partial).** PSHELL is read as a shell with its number, its first material, its thickness and its mass per area,
blanks counting as zero, whatever the other fields are. -/
theorem C91_shell_read_partial (counter : Nat) (id mid1 : Int) (t : Option ℚ) (mid2 : Option Int) (r : Option ℚ)
    (mid3 : Option Int) (ts nsm z1 z2 : Option ℚ) (mid4 : Option Int) (rest : List Nastran.Line)
    (h1 : Number id) (h2 : Number mid1) (hi : ∀ o ∈ [mid2, mid3, mid4], ∀ n ∈ o, Number n)
    (hr : ∀ o ∈ [t, r, ts, nsm, z1, z2], ∀ x ∈ o, |x| ≤ dblMax) (hc : counter + 2 < 10 ^ 7) (hnew : NewCard rest) :
    ∃ lines counter' texts t' nsm',
      writeCard counter "PSHELL".toList (shellFields id mid1 t mid2 r mid3 ts nsm z1 z2 mid4) = some (lines, counter') ∧
      nextLine (lines ++ rest) = .ok (some (texts, afterComments rest)) ∧
      readBulk parsePSHELL texts = .ok ⟨id, mid1, t', nsm'⟩ ∧ NearOr 0 t t' ∧ NearOr 0 nsm nsm' := by
  have hfit : ∀ b ∈ shellFields id mid1 t mid2 r mid3 ts nsm z1 z2 mid4, Fits b := by
    intro b hb
    simp only [shellFields, List.mem_cons, List.not_mem_nil, or_false] at hb
    rcases hb with rfl | rfl | rfl | rfl | rfl | rfl | rfl | rfl | rfl | rfl | rfl
    · exact h1
    · exact h2
    · exact fits_optReal (hr _ (by simp))
    · exact fits_opt (hi _ (by simp))
    · exact fits_optReal (hr _ (by simp))
    · exact fits_opt (hi _ (by simp))
    · exact fits_optReal (hr _ (by simp))
    · exact fits_optReal (hr _ (by simp))
    · exact fits_optReal (hr _ (by simp))
    · exact fits_optReal (hr _ (by simp))
    · exact fits_opt (hi _ (by simp))
  obtain ⟨lines, counter', texts, g1, g2, -, -, g5⟩ := C78_card_partial counter "PSHELL".toList _ rest pshell_name hfit
    (by simp only [shellFields, List.length_cons, List.length_nil]; omega) hnew
  obtain _ | ⟨k0, hs⟩ := g2
  obtain _ | ⟨k1, hs⟩ := hs
  obtain _ | ⟨k2, hs⟩ := hs
  obtain _ | ⟨k3, hs⟩ := hs
  obtain _ | ⟨k4, hs⟩ := hs
  obtain _ | ⟨k5, hs⟩ := hs
  obtain _ | ⟨k6, hs⟩ := hs
  obtain _ | ⟨k7, hs⟩ := hs
  obtain _ | ⟨k8, hs⟩ := hs
  obtain _ | ⟨k9, hs⟩ := hs
  obtain _ | ⟨k10, hs⟩ := hs
  cases hs
  rename_i t0 t1 t2 t3 t4 t5 t6 t7 t8 t9 t10
  obtain ⟨t', n2, r2⟩ := says_optReal_or 0 k2
  obtain ⟨_, -, r4⟩ := says_optReal_or 1 k4
  obtain ⟨_, -, r6⟩ := says_optReal_or (833333 / 1000000) k6
  obtain ⟨nsm', n7, r7⟩ := says_optReal_or 0 k7
  obtain ⟨_, -, r8⟩ := says_optReal_or unavailable k8
  obtain ⟨_, -, r9⟩ := says_optReal_or unavailable k9
  refine ⟨lines, counter', _, t', nsm', g1, g5, ?_, n2, n7⟩
  unfold readBulk
  rw [keyword_read (by decide) (by decide)]
  simp only [Outcome.bind_ok, parsePSHELL, says_int_read k0 h1, says_int_read k1 h2, r2,
    says_optInt k3 (hi _ (by simp)), r4, says_optInt k5 (hi _ (by simp)), r6, r7, r8, r9, says_optInt k10 (hi _ (by simp)),
    isEmpty_end, if_true]

example : NearOr 0 none 0 ∧ NearOr 0 (some 0) 0 := ⟨rfl, by simp [NearOr, Near, tol_pos.le]⟩

/-- **C91 (partial).** A written shell is read back with its number, its material and its thickness. -/
theorem C91_shell_partial (counter : Nat) (s : ShellProp) (rest : List Nastran.Line)
    (h1 : Number s.id) (h2 : Number s.material) (ht : |s.thickness| ≤ dblMax) (hc : counter + 1 < 10 ^ 7)
    (hnew : NewCard rest) :
    ∃ lines counter' texts t', writeCard counter "PSHELL".toList (pshellArgs s) = some (lines, counter') ∧
      nextLine (lines ++ rest) = .ok (some (texts, afterComments rest)) ∧
      readBulk parsePSHELL texts = .ok ⟨s.id, s.material, t', 0⟩ ∧ Near s.thickness t' := by
  have hfit : ∀ b ∈ pshellArgs s, Fits b := by
    intro b hb
    simp only [pshellArgs, List.mem_cons, List.not_mem_nil, or_false] at hb
    rcases hb with rfl | rfl | rfl | rfl
    · exact h1
    · exact h2
    · exact ht
    · exact h2
  obtain ⟨lines, counter', texts, g1, g2, -, -, g5⟩ := C78_card_partial counter "PSHELL".toList _ rest pshell_name hfit
    (by simp only [pshellArgs, List.length_cons, List.length_nil]; omega) hnew
  obtain _ | ⟨k0, hs⟩ := g2
  obtain _ | ⟨k1, hs⟩ := hs
  obtain _ | ⟨k2, hs⟩ := hs
  obtain _ | ⟨k3, hs⟩ := hs
  cases hs
  rename_i t0 t1 t2 t3
  obtain ⟨t', n2, r2⟩ := says_real_read k2
  refine ⟨lines, counter', _, t', g1, g5, ?_, n2⟩
  unfold readBulk
  rw [keyword_read (by decide) (by decide)]
  simp only [Outcome.bind_ok, parsePSHELL, says_int_read k0 h1, says_int_read k1 h2, r2, says_int_read k3 h2,
    nextDouble_end, nextInt_end, isEmpty_end, if_true]

/-- **C91 is false for masses on shells.** Any shell with a mass per area comes back without. -/
theorem C91_shell_mass_false (counter : Nat) (s : ShellProp) (rest : List Nastran.Line)
    (h1 : Number s.id) (h2 : Number s.material) (ht : |s.thickness| ≤ dblMax) (hm : s.nsm ≠ 0) (hc : counter + 1 < 10 ^ 7)
    (hnew : NewCard rest) :
    ∃ lines counter' texts s', writeCard counter "PSHELL".toList (pshellArgs s) = some (lines, counter') ∧
      nextLine (lines ++ rest) = .ok (some (texts, afterComments rest)) ∧
      readBulk parsePSHELL texts = .ok s' ∧ s'.nsm = 0 ∧ s'.nsm ≠ s.nsm := by
  obtain ⟨lines, counter', texts, t', g1, g2, g3, -⟩ := C91_shell_partial counter s rest h1 h2 ht hc hnew
  exact ⟨lines, counter', texts, _, g1, g2, g3, rfl, fun h => hm h.symm⟩

example : (⟨3, 1, 1 / 2, 7⟩ : ShellProp).nsm ≠ 0 ∧ Number 3 ∧ |(1 / 2 : ℚ)| ≤ dblMax :=
  ⟨by decide +kernel, by decide, by decide +kernel⟩

/-! ## C91: solids -/

/-- **C91 (partial).** PSOLID is read with its number and its material; the integration is full exactly when IN is TWO, 2,
THREE or 3 and ISOP is FULL or 1. -/
theorem C91_solid_read_partial (counter : Nat) (id mid cs : Int) (in_ stress isop fctn : Text) (rest : List Nastran.Line)
    (h1 : Number id) (h2 : Number mid) (h3 : Number cs) (w1 : Word in_) (w2 : Word stress) (w3 : Word isop) (w4 : Word fctn)
    (hc : counter + 1 < 10 ^ 7) (hnew : NewCard rest) :
    ∃ lines counter' texts s, writeCard counter "PSOLID".toList
        [.int id, .int mid, .int cs, .text in_, .text stress, .text isop, .text fctn] = some (lines, counter') ∧
      nextLine (lines ++ rest) = .ok (some (texts, afterComments rest)) ∧
      readBulk parsePSOLID texts = .ok s ∧ s.id = id ∧ s.material = mid ∧ (s.full = true ↔ asksFull in_ isop) := by
  have hfit : ∀ b ∈ [Arg.int id, .int mid, .int cs, .text in_, .text stress, .text isop, .text fctn], Fits b := by
    intro b hb
    simp only [List.mem_cons, List.not_mem_nil, or_false] at hb
    rcases hb with rfl | rfl | rfl | rfl | rfl | rfl | rfl
    · exact h1
    · exact h2
    · exact h3
    · exact w1.fits
    · exact w2.fits
    · exact w3.fits
    · exact w4.fits
  obtain ⟨lines, counter', texts, g1, g2, -, -, g5⟩ := C78_card_partial counter "PSOLID".toList _ rest psolid_name hfit
    (by simp only [List.length_cons, List.length_nil]; omega) hnew
  obtain _ | ⟨k0, hs⟩ := g2
  obtain _ | ⟨k1, hs⟩ := hs
  obtain _ | ⟨k2, hs⟩ := hs
  obtain _ | ⟨k3, hs⟩ := hs
  obtain _ | ⟨k4, hs⟩ := hs
  obtain _ | ⟨k5, hs⟩ := hs
  obtain _ | ⟨k6, hs⟩ := hs
  cases hs
  rename_i t0 t1 t2 t3 t4 t5 t6
  have e3 : t3 = in_ := k3
  have e4 : t4 = stress := k4
  have e5 : t5 = isop := k5
  have e6 : t6 = fctn := k6
  subst e3 e4 e5 e6
  refine ⟨lines, counter', _, ⟨id, mid, isFull t3 t5⟩, g1, g5, ?_, rfl, rfl, isFull_iff _ _⟩
  unfold readBulk
  rw [keyword_read (by decide) (by decide)]
  simp only [Outcome.bind_ok, parsePSOLID, says_int_read k0 h1, says_int_read k1 h2, says_int_read k2 h3,
    nextString_after w1.some_ w1.plain, nextString_after w2.some_ w2.plain, nextString_after w3.some_ w3.plain,
    nextString_after w4.some_ w4.plain, isEmpty_end, if_true]

/-- The words of the card. -/
theorem word_list : Word "THREE".toList ∧ Word "GRID".toList ∧ Word "FULL".toList ∧ Word "SMECH".toList ∧
    Word "BUBBLE".toList ∧ Word "REDUCED".toList :=
  ⟨⟨⟨by decide, by decide, by decide, by decide⟩, by decide, by decide⟩,
    ⟨⟨by decide, by decide, by decide, by decide⟩, by decide, by decide⟩,
    ⟨⟨by decide, by decide, by decide, by decide⟩, by decide, by decide⟩,
    ⟨⟨by decide, by decide, by decide, by decide⟩, by decide, by decide⟩,
    ⟨⟨by decide, by decide, by decide, by decide⟩, by decide, by decide⟩,
    ⟨⟨by decide, by decide, by decide, by decide⟩, by decide, by decide⟩⟩

example : Word "THREE".toList ∧ asksFull "THREE".toList "FULL".toList ∧ ¬ asksFull "BUBBLE".toList "REDUCED".toList :=
  ⟨word_list.1, by unfold asksFull; decide, by unfold asksFull; decide⟩

/-- **C91 (partial).** A written solid with full or reduced integration is read back as it was. -/
theorem C91_solid_partial (counter : Nat) (s : SolidProp) (rest : List Nastran.Line)
    (h1 : Number s.id) (h2 : Number s.material) (hc : counter + 1 < 10 ^ 7) (hnew : NewCard rest) :
    ∃ lines counter' texts, writeCard counter "PSOLID".toList (psolidArgs false s) = some (lines, counter') ∧
      nextLine (lines ++ rest) = .ok (some (texts, afterComments rest)) ∧ readBulk parsePSOLID texts = .ok s := by
  obtain ⟨id, mid, full⟩ := s
  cases full with
  | true =>
    obtain ⟨v1, v2, v3, v4, -, -⟩ := word_list
    obtain ⟨lines, counter', texts, ⟨i, m, f⟩, g1, g2, g3, g4, g5, g6⟩ :=
      C91_solid_read_partial counter id mid 0 _ _ _ _ rest h1 h2 number_zero v1 v2 v3 v4 hc hnew
    have hf : f = true := g6.2 (by unfold asksFull; decide)
    have g4' : i = id := g4
    have g5' : m = mid := g5
    subst g4' g5' hf
    exact ⟨lines, counter', texts, g1, g2, g3⟩
  | false =>
    obtain ⟨lines, counter', texts, g1, g2, -, -, g5⟩ := C78_card_partial counter "PSOLID".toList
      (psolidArgs false ⟨id, mid, false⟩) rest psolid_name (by
        intro b hb
        simp only [psolidArgs, Bool.false_and, Bool.false_eq_true, if_false, List.mem_cons, List.not_mem_nil, or_false] at hb
        rcases hb with rfl | rfl
        · exact h1
        · exact h2)
      (by simp only [psolidArgs, Bool.false_and, Bool.false_eq_true, if_false, List.length_cons, List.length_nil]; omega) hnew
    simp only [psolidArgs, Bool.false_and, Bool.false_eq_true, if_false] at g2
    obtain _ | ⟨k0, hs⟩ := g2
    obtain _ | ⟨k1, hs⟩ := hs
    cases hs
    refine ⟨lines, counter', _, g1, g5, ?_⟩
    unfold readBulk
    rw [keyword_read (by decide) (by decide)]
    simp only [Outcome.bind_ok, parsePSOLID, says_int_read k0 h1, says_int_read k1 h2, nextInt_end, nextString_end,
      isEmpty_end, if_true]
    have hb : isFull "BUBBLE".toList "REDUCED".toList = false := by decide
    rw [hb]

theorem pihex_name : Name false "PIHEX".toList := ⟨by decide, by decide, by decide⟩

/-- **C91 is false for solids written for Cosmic Nastran.** The card PIHEX is read back as a property of shells, without
thickness. -/
theorem C91_pihex_false (counter : Nat) (s : SolidProp) (rest : List Nastran.Line)
    (h1 : Number s.id) (h2 : Number s.material) (hc : counter + 1 < 10 ^ 7) (hnew : NewCard rest) :
    ∃ lines counter' texts, writeCard counter "PIHEX".toList (psolidArgs true s) = some (lines, counter') ∧
      nextLine (lines ++ rest) = .ok (some (texts, afterComments rest)) ∧
      readBulk (parseProp "PIHEX".toList) texts = .ok (.shell ⟨s.id, s.material, 0, 0⟩) := by
  obtain ⟨id, mid, full⟩ := s
  have ha : psolidArgs true ⟨id, mid, full⟩ = [.int id, .int mid] := by simp [psolidArgs]
  rw [ha]
  obtain ⟨lines, counter', texts, g1, g2, -, -, g5⟩ := C78_card_partial counter "PIHEX".toList [.int id, .int mid] rest
    pihex_name (by
      intro b hb
      simp only [List.mem_cons, List.not_mem_nil, or_false] at hb
      rcases hb with rfl | rfl
      · exact h1
      · exact h2)
    (by simp only [List.length_cons, List.length_nil]; omega) hnew
  obtain _ | ⟨k0, hs⟩ := g2
  obtain _ | ⟨k1, hs⟩ := hs
  cases hs
  refine ⟨lines, counter', _, g1, g5, ?_⟩
  unfold readBulk
  rw [keyword_read (by decide) (by decide)]
  simp only [Outcome.bind_ok, parseProp, or_true, if_true, parsePSHELL, says_int_read k0 h1, says_int_read k1 h2, nextInt_end,
    nextDouble_end, isEmpty_end]

example : Number (⟨8, 2, true⟩ : SolidProp).id ∧ Number (⟨8, 2, true⟩ : SolidProp).material := by decide

/-! ## C91: beams -/

/-- **C91 (partial).** PBAR is read with its number, its material, its area, its moments of inertia (I1 about z, I2 about y),
its torsional constant and its mass per length. -/
theorem C91_bar_read_partial (counter : Nat) (id mid : Int) (a : ℚ) (i1 i2 j nsm : Option ℚ) (rest : List Nastran.Line)
    (h1 : Number id) (h2 : Number mid) (ha : |a| ≤ dblMax) (hr : ∀ o ∈ [i1, i2, j, nsm], ∀ x ∈ o, |x| ≤ dblMax)
    (hc : counter + 1 < 10 ^ 7) (hnew : NewCard rest) :
    ∃ lines counter' texts b,
      writeCard counter "PBAR".toList (barFields id mid a i1 i2 j nsm) = some (lines, counter') ∧
      nextLine (lines ++ rest) = .ok (some (texts, afterComments rest)) ∧
      readBulk parsePBAR texts = .ok b ∧ b.id = id ∧ b.material = mid ∧ Near a b.area ∧ NearOr 0 i1 b.iz ∧
      NearOr 0 i2 b.iy ∧ NearOr 0 j b.j ∧ NearOr 0 nsm b.nsm := by
  have hfit : ∀ b ∈ barFields id mid a i1 i2 j nsm, Fits b := by
    intro b hb
    simp only [barFields, List.mem_cons, List.not_mem_nil, or_false] at hb
    rcases hb with rfl | rfl | rfl | rfl | rfl | rfl | rfl
    · exact h1
    · exact h2
    · exact ha
    all_goals exact fits_optReal (hr _ (by simp))
  obtain ⟨lines, counter', texts, g1, g2, -, -, g5⟩ := C78_card_partial counter "PBAR".toList _ rest pbar_name hfit
    (by simp only [barFields, List.length_cons, List.length_nil]; omega) hnew
  obtain _ | ⟨k0, hs⟩ := g2
  obtain _ | ⟨k1, hs⟩ := hs
  obtain _ | ⟨k2, hs⟩ := hs
  obtain _ | ⟨k3, hs⟩ := hs
  obtain _ | ⟨k4, hs⟩ := hs
  obtain _ | ⟨k5, hs⟩ := hs
  obtain _ | ⟨k6, hs⟩ := hs
  cases hs
  rename_i t0 t1 t2 t3 t4 t5 t6
  obtain ⟨a', n2, r2⟩ := says_real_read k2
  obtain ⟨i1', n3, r3⟩ := says_optReal_or 0 k3
  obtain ⟨i2', n4, r4⟩ := says_optReal_or 0 k4
  obtain ⟨j', n5, r5⟩ := says_optReal_or 0 k5
  obtain ⟨nsm', n6, r6⟩ := says_optReal_or 0 k6
  refine ⟨lines, counter', _, ⟨id, mid, a', i2', i1', j', 0, 0, true, nsm'⟩, g1, g5, ?_, rfl, rfl, n2, n3, n4, n5, n6⟩
  unfold readBulk
  rw [keyword_read (by decide) (by decide)]
  simp only [Outcome.bind_ok, parsePBAR, says_int_read k0 h1, says_int_read k1 h2, r2, r3, r4, r5, r6, skipField,
    passReals_end, nextDouble_end, invFactor_blank, isEmpty_end, if_true]

/-- **C91 (partial).** A written beam is read back with its number, its material, its area, its moments of inertia and its
torsional constant. -/
theorem C91_beam_partial (counter : Nat) (b : BeamProp) (rest : List Nastran.Line) (h1 : Number b.id)
    (h2 : Number b.material) (hr : ∀ x ∈ [b.area, b.iz, b.iy, b.j], |x| ≤ dblMax) (hc : counter + 1 < 10 ^ 7)
    (hnew : NewCard rest) :
    ∃ lines counter' texts a' iy' iz' j', writeCard counter "PBEAM".toList (pbeamArgs b) = some (lines, counter') ∧
      nextLine (lines ++ rest) = .ok (some (texts, afterComments rest)) ∧
      readBulk parsePBEAM texts = .ok ⟨b.id, b.material, a', iy', iz', j', 0, 0, false, 0⟩ ∧ Near b.area a' ∧
      Near b.iy iy' ∧ Near b.iz iz' ∧ Near b.j j' := by
  have hfit : ∀ x ∈ pbeamArgs b, Fits x := by
    intro x hb
    simp only [pbeamArgs, List.mem_cons, List.not_mem_nil, or_false] at hb
    rcases hb with rfl | rfl | rfl | rfl | rfl | rfl | rfl
    · exact h1
    · exact h2
    · exact hr _ (by simp)
    · exact hr _ (by simp)
    · exact hr _ (by simp)
    · show |(0 : ℚ)| ≤ dblMax; decide +kernel
    · exact hr _ (by simp)
  obtain ⟨lines, counter', texts, g1, g2, -, -, g5⟩ := C78_card_partial counter "PBEAM".toList _ rest pbeam_name hfit
    (by simp only [pbeamArgs, List.length_cons, List.length_nil]; omega) hnew
  obtain _ | ⟨k0, hs⟩ := g2
  obtain _ | ⟨k1, hs⟩ := hs
  obtain _ | ⟨k2, hs⟩ := hs
  obtain _ | ⟨k3, hs⟩ := hs
  obtain _ | ⟨k4, hs⟩ := hs
  obtain _ | ⟨k5, hs⟩ := hs
  obtain _ | ⟨k6, hs⟩ := hs
  cases hs
  rename_i t0 t1 t2 t3 t4 t5 t6
  obtain ⟨a', n2, r2⟩ := says_real_read k2
  obtain ⟨iz', n3, r3⟩ := says_real_read k3
  obtain ⟨iy', n4, r4⟩ := says_real_read k4
  obtain ⟨z', -, r5⟩ := says_real_read k5
  obtain ⟨j', n6, r6⟩ := says_real_read k6
  refine ⟨lines, counter', _, a', iy', iz', j', g1, g5, ?_, n2, n4, n3, n6⟩
  unfold readBulk
  rw [keyword_read (by decide) (by decide)]
  simp only [Outcome.bind_ok, parsePBEAM, says_int_read k0 h1, says_int_read k1 h2, r2, r3, r4, r5, r6,
    passReals_end, nextDouble_end, stations_end, isEmpty_end, if_true]

example : ∀ x ∈ [(100 : ℚ), 5 / 3, 7, 0], |x| ≤ dblMax := by
  intro x hx
  simp only [List.mem_cons, List.not_mem_nil, or_false] at hx
  rcases hx with rfl | rfl | rfl | rfl <;> decide +kernel

/-- **C91 is false for masses and shear of beams.** A beam read from PBAR with a mass per length or with shear comes back
from PBEAM without them. -/
theorem C91_beam_shear_false (counter : Nat) (b : BeamProp) (rest : List Nastran.Line) (h1 : Number b.id)
    (h2 : Number b.material) (hr : ∀ x ∈ [b.area, b.iz, b.iy, b.j], |x| ≤ dblMax) (hb : b.timoshenko = true)
    (hc : counter + 1 < 10 ^ 7) (hnew : NewCard rest) :
    ∃ lines counter' texts b', writeCard counter "PBEAM".toList (pbeamArgs b) = some (lines, counter') ∧
      nextLine (lines ++ rest) = .ok (some (texts, afterComments rest)) ∧
      readBulk parsePBEAM texts = .ok b' ∧ b'.timoshenko ≠ b.timoshenko ∧ b'.shearY = 0 ∧ b'.shearZ = 0 ∧ b'.nsm = 0 := by
  obtain ⟨lines, counter', texts, a', iy', iz', j', g1, g2, g3, -⟩ := C91_beam_partial counter b rest h1 h2 hr hc hnew
  exact ⟨lines, counter', texts, _, g1, g2, g3, by rw [hb]; simp, rfl, rfl, rfl⟩

/-- **C91 is false for beams written for Cosmic Nastran.** The card PBAR has a field too many: it is read with a torsional
constant of zero, and with the torsional constant as mass per length. -/
theorem C91_cosmic_false (counter : Nat) (b : BeamProp) (rest : List Nastran.Line) (h1 : Number b.id)
    (h2 : Number b.material) (hr : ∀ x ∈ [b.area, b.iz, b.iy, b.j], |x| ≤ dblMax) (hc : counter + 1 < 10 ^ 7)
    (hnew : NewCard rest) :
    ∃ lines counter' texts b', writeCard counter "PBAR".toList (pbeamArgs b) = some (lines, counter') ∧
      nextLine (lines ++ rest) = .ok (some (texts, afterComments rest)) ∧
      readBulk parsePBAR texts = .ok b' ∧ b'.j = 0 ∧ Near b.j b'.nsm := by
  obtain ⟨lines, counter', texts, b', g1, g2, g3, -, -, -, -, -, g4, g5⟩ := C91_bar_read_partial counter b.id b.material
    b.area (some b.iz) (some b.iy) (some 0) (some b.j) rest h1 h2 (hr _ (by simp)) (by
      intro o ho x hx
      simp only [List.mem_cons, List.not_mem_nil, or_false] at ho
      rcases ho with rfl | rfl | rfl | rfl <;> cases hx
      · exact hr _ (by simp)
      · exact hr _ (by simp)
      · decide +kernel
      · exact hr _ (by simp)) hc hnew
  refine ⟨lines, counter', texts, b', g1, g2, g3, ?_, g5⟩
  have h0 : Near 0 b'.j := g4
  unfold Near at h0
  rw [if_pos (by rw [abs_zero]; exact tol_pos.le)] at h0
  exact h0

end NastranWrite
end Vega
