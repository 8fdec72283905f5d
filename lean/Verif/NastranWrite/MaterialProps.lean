import Verif.Element.ElasticProps
import Verif.NastranWrite.Material
import Verif.NastranWrite.PressureProps

/-! # C90: isotropic materials written to Nastran and read from Nastran -/
namespace Vega

/-! ## Specification -/
namespace MaterialSpec
open NastranWrite WriteSpec PressureSpec

/-- A value that is neither huge nor the number standing for a blank. -/
def Ordinary (x : ℚ) : Prop := |x| ≤ dblMax / 4

/-- A field and what is read from it: a blank is the number that stands for a blank. -/
def NearField (o : Option ℚ) (y : ℚ) : Prop :=
  match o with
  | none => y = unavailable
  | some x => Near x y

/-- The fields of MAT1: number, E, G, nu, density, expansion, temperature, damping. -/
def mat1Fields (id : Int) (e g nu rho a tref ge : Option ℚ) : List Arg :=
  [.int id, optReal e, optReal g, optReal nu, optReal rho, optReal a, optReal tref, optReal ge]

end MaterialSpec

namespace NastranWrite
open Nastran FieldSpec FixedSpec WriteSpec RigidSpec SpcCardSpec LoadSpec PressureSpec MaterialSpec
open CellSpec (Number)

/-! ## Helper lemmas -/

theorem mat1_name : Name false "MAT1".toList := ⟨by decide, by decide, by decide⟩

theorem says_optReal_near {o : Option ℚ} {t : Text} (hs : Says (optReal o) t) :
    ∃ y, NearField o y ∧ ∀ pre rest, nextDouble (some unavailable) (after pre (t :: rest)) =
      .ok (y, after (pre ++ [t]) rest) := by
  cases o with
  | none =>
    have : t = [] := hs
    subst this
    exact ⟨unavailable, rfl, fun pre rest => nextDouble_blank _ pre rest⟩
  | some x =>
    obtain ⟨y, hy, hr⟩ := says_real_read hs
    exact ⟨y, hy, fun pre rest => hr _ pre rest⟩

theorem fits_optReal {o : Option ℚ} (h : ∀ x ∈ o, |x| ≤ dblMax) : Fits (optReal o) := by
  cases o with
  | none => trivial
  | some x => exact h x rfl

/-- A number read for an ordinary one cannot be taken for a blank. -/
theorem near_ordinary {x y : ℚ} (h : Near x y) (hx : Ordinary x) : ElasticSpec.Ordinary y := by
  have hd := dblMax_pos
  unfold ElasticSpec.Ordinary
  unfold Ordinary at hx
  by_cases ht : |x| ≤ tol
  · unfold Near at h
    rw [if_pos ht] at h
    rw [h, abs_zero]; linarith
  · have hq := near_quarter h (not_le.mp ht)
    have := abs_sub_abs_le_abs_sub y x
    linarith

theorem ordinary_max {x : ℚ} (h : Ordinary x) : |x| ≤ dblMax := by
  have hd := dblMax_pos
  unfold Ordinary at h
  linarith

theorem ordinary_ordinary {x : ℚ} (h : Ordinary x) : ElasticSpec.Ordinary x := by
  have hd := dblMax_pos
  unfold Ordinary at h
  unfold ElasticSpec.Ordinary
  linarith

theorem realOrBlank_ordinary {x : ℚ} (h : Ordinary x) : realOrBlank x = .real x := by
  rw [realOrBlank, ElasticSpec.blank_some (ordinary_ordinary h)]; rfl

/-! ## C90: isotropic materials -/

/-- **C90 (partial).** Every field of MAT1, blank or not, reaches the material: the constants are those of `mat1` (C48) for
the numbers in the fields, up to the precision of a field. -/
theorem C90_read_partial (counter : Nat) (id : Int) (e g nu rho a tref ge : Option ℚ) (rest : List Nastran.Line)
    (h : Number id) (hx : ∀ o ∈ [e, g, nu, rho, a, tref, ge], ∀ x ∈ o, |x| ≤ dblMax)
    (hc : counter + 1 < 10 ^ 7) (hnew : NewCard rest) :
    ∃ lines counter' texts e' g' nu' rho' a' tref' ge',
      writeCard counter "MAT1".toList (mat1Fields id e g nu rho a tref ge) = some (lines, counter') ∧
      nextLine (lines ++ rest) = .ok (some (texts, afterComments rest)) ∧
      readBulk parseMAT1 texts = (Elastic.mat1 e' nu' g' rho' a' tref').bind (fun m => .ok ⟨id, m, ge'⟩) ∧
      NearField e e' ∧ NearField g g' ∧ NearField nu nu' ∧ NearField rho rho' ∧ NearField a a' ∧ NearField tref tref' ∧
      NearField ge ge' := by
  have hfit : ∀ b ∈ mat1Fields id e g nu rho a tref ge, Fits b := by
    intro b hb
    simp only [mat1Fields, List.mem_cons, List.not_mem_nil, or_false] at hb
    rcases hb with rfl | rfl | rfl | rfl | rfl | rfl | rfl | rfl
    · exact h
    all_goals exact fits_optReal (hx _ (by simp))
  obtain ⟨lines, counter', texts, g1, g2, -, -, g5⟩ := C78_card_partial counter "MAT1".toList _ rest mat1_name hfit
    (by simp only [mat1Fields, List.length_cons, List.length_nil]; omega) hnew
  obtain _ | ⟨k0, hs⟩ := g2
  obtain _ | ⟨k1, hs⟩ := hs
  obtain _ | ⟨k2, hs⟩ := hs
  obtain _ | ⟨k3, hs⟩ := hs
  obtain _ | ⟨k4, hs⟩ := hs
  obtain _ | ⟨k5, hs⟩ := hs
  obtain _ | ⟨k6, hs⟩ := hs
  obtain _ | ⟨k7, hs⟩ := hs
  cases hs
  rename_i t0 t1 t2 t3 t4 t5 t6 t7
  obtain ⟨e', n1, r1⟩ := says_optReal_near k1
  obtain ⟨g', n2, r2⟩ := says_optReal_near k2
  obtain ⟨nu', n3, r3⟩ := says_optReal_near k3
  obtain ⟨rho', n4, r4⟩ := says_optReal_near k4
  obtain ⟨a', n5, r5⟩ := says_optReal_near k5
  obtain ⟨tref', n6, r6⟩ := says_optReal_near k6
  obtain ⟨ge', n7, r7⟩ := says_optReal_near k7
  refine ⟨lines, counter', _, e', g', nu', rho', a', tref', ge', g1, g5, ?_, n1, n2, n3, n4, n5, n6, n7⟩
  unfold readBulk
  rw [keyword_read (by decide) (by decide)]
  simp only [Outcome.bind_ok, parseMAT1, says_int_read k0 h, r1, r2, r3, r4, r5, r6, r7, nextDouble_end, nextInt_end]
  cases Elastic.mat1 e' nu' g' rho' a' tref' with
  | ok m => simp only [Outcome.bind_ok, isEmpty_end, if_true]; rfl
  | throw => rfl
  | ub => rfl
  | diverges => rfl

/-- **C90 (partial).** An isotropic material whose constants are ordinary numbers is read back with its number and the
constants it reports: E, G, nu, the density (in units of mass), the expansion, the reference temperature and the damping,
up to the precision of a field. -/
theorem C90_write_partial (counter : Nat) (id : Int) (multiplier : Option ℚ) (m : Elastic) (ge : Option ℚ) (g nu : ℚ)
    (rest : List Nastran.Line) (h : Number id) (hg : m.getG = some g) (hnu : m.getNu = some nu)
    (ho : ∀ x ∈ [m.getE, g, nu, m.getRho multiplier, m.getAlpha, m.getTref], Ordinary x) (hge : ∀ x ∈ ge, Ordinary x)
    (hc : counter + 1 < 10 ^ 7) (hnew : NewCard rest) :
    ∃ args lines counter' texts m' g' nu' ge',
      mat1Args id multiplier (some (m, ge.getD unavailable)) = some args ∧
      writeCard counter "MAT1".toList args = some (lines, counter') ∧
      nextLine (lines ++ rest) = .ok (some (texts, afterComments rest)) ∧
      readBulk parseMAT1 texts = .ok ⟨id, some m', ge'⟩ ∧
      Near m.getE m'.getE ∧ m'.getG = some g' ∧ Near g g' ∧ m'.getNu = some nu' ∧ Near nu nu' ∧
      Near (m.getRho multiplier) (m'.getRho none) ∧ Near m.getAlpha m'.getAlpha ∧ Near m.getTref m'.getTref ∧
      NearField ge ge' := by
  simp only [List.mem_cons, List.not_mem_nil, or_false, forall_eq_or_imp, forall_eq] at ho
  obtain ⟨o1, o2, o3, o4, o5, o6⟩ := ho
  obtain ⟨lines, counter', texts, e', g', nu', rho', a', tref', ge', w1, w2, w3, n1, n2, n3, n4, n5, n6, n7⟩ :=
    C90_read_partial counter id (some m.getE) (some g) (some nu) (some (m.getRho multiplier)) (some m.getAlpha)
      (some m.getTref) ge rest h (by
        intro o hmem x hx
        simp only [List.mem_cons, List.not_mem_nil, or_false] at hmem
        rcases hmem with rfl | rfl | rfl | rfl | rfl | rfl | rfl
        · cases hx; exact ordinary_max o1
        · cases hx; exact ordinary_max o2
        · cases hx; exact ordinary_max o3
        · cases hx; exact ordinary_max o4
        · cases hx; exact ordinary_max o5
        · cases hx; exact ordinary_max o6
        · exact ordinary_max (hge x hx)) hc hnew
  have b1 := ElasticSpec.blank_some (near_ordinary n1 o1)
  have b2 := ElasticSpec.blank_some (near_ordinary n2 o2)
  have b3 := ElasticSpec.blank_some (near_ordinary n3 o3)
  have b4 := ElasticSpec.blank_some (near_ordinary n4 o4)
  have b5 := ElasticSpec.blank_some (near_ordinary n5 o5)
  have b6 := ElasticSpec.blank_some (near_ordinary n6 o6)
  have hm : Elastic.mat1 e' nu' g' rho' a' tref' = .ok (some ⟨e', nu', g', rho', a', tref'⟩) := by
    simp [Elastic.mat1, Elastic.mat1Nu, Elastic.mat1E, Elastic.mat1G, Elastic.new, b1, b2, b3]
  have hargs : mat1Args id multiplier (some (m, ge.getD unavailable)) =
      some (mat1Fields id (some m.getE) (some g) (some nu) (some (m.getRho multiplier)) (some m.getAlpha)
        (some m.getTref) ge) := by
    have e7 : realOrBlank (ge.getD unavailable) = optReal ge := by
      cases ge with
      | none => simp [realOrBlank, ElasticSpec.blank_none, optReal]
      | some x => simpa [optReal] using realOrBlank_ordinary (hge x rfl)
    simp [mat1Args, hg, hnu, realOrBlank_ordinary o5, realOrBlank_ordinary o6, e7, mat1Fields, optReal]
  refine ⟨_, lines, counter', texts, ⟨e', nu', g', rho', a', tref'⟩, g', nu', ge', hargs, w1, w2, ?_, ?_, ?_, n2, ?_, n3,
    ?_, ?_, ?_, n7⟩
  · rw [w3, hm]; rfl
  · have hh : (⟨e', nu', g', rho', a', tref'⟩ : Elastic).getE = e' := by simp [Elastic.getE, b1]
    rw [hh]; exact n1
  · simp [Elastic.getG, b2]
  · simp [Elastic.getNu, b3]
  · have hh : (⟨e', nu', g', rho', a', tref'⟩ : Elastic).getRho none = rho' := by simp [Elastic.getRho, b4]
    rw [hh]; exact n4
  · have hh : (⟨e', nu', g', rho', a', tref'⟩ : Elastic).getAlpha = a' := by simp [Elastic.getAlpha, b5]
    rw [hh]; exact n5
  · have hh : (⟨e', nu', g', rho', a', tref'⟩ : Elastic).getTref = tref' := by simp [Elastic.getTref, b6]
    rw [hh]; exact n6

/-- A material given by E and nu; G is computed. -/
example : (⟨210000, 3 / 10, unavailable, 785 / 10 ^ 11, unavailable, 20⟩ : Elastic).getG = some (1050000 / 13) ∧
    (⟨210000, 3 / 10, unavailable, 785 / 10 ^ 11, unavailable, 20⟩ : Elastic).getNu = some (3 / 10) ∧
    Ordinary (1050000 / 13) ∧ Ordinary 210000 := by
  have b : Elastic.blank (3 / 10) = false := ElasticSpec.blank_some (by unfold ElasticSpec.Ordinary; decide +kernel)
  refine ⟨?_, ?_, by unfold Ordinary; decide +kernel, by unfold Ordinary; decide +kernel⟩
  · simp [Elastic.getG, b, ElasticSpec.blank_none, Elastic.quotient]; norm_num
  · simp [Elastic.getNu, b]

/-- **C90 is false for materials without an elastic nature** (orthotropic, hyperelastic): the card has nothing but the
number of the material, and it is read back as an isotropic material whose stiffness and density are zero. -/
theorem C90_other_false (counter : Nat) (id : Int) (multiplier : Option ℚ) (rest : List Nastran.Line) (h : Number id)
    (hc : counter + 1 < 10 ^ 7) (hnew : NewCard rest) :
    ∃ args lines counter' texts m, mat1Args id multiplier none = some args ∧
      writeCard counter "MAT1".toList args = some (lines, counter') ∧
      nextLine (lines ++ rest) = .ok (some (texts, afterComments rest)) ∧
      readBulk parseMAT1 texts = .ok ⟨id, some m, unavailable⟩ ∧
      m.getE = 0 ∧ m.getG = some 0 ∧ m.getNu = some 0 ∧ m.getRho none = 0 := by
  obtain ⟨lines, counter', texts, g1, g2, -, -, g5⟩ := C78_card_partial counter "MAT1".toList [.int id] rest mat1_name
    (by intro a ha; simp only [List.mem_singleton] at ha; subst ha; exact h)
    (by simp only [List.length_cons, List.length_nil]; omega) hnew
  obtain _ | ⟨k0, hs⟩ := g2
  cases hs
  have z := ElasticSpec.blank_some ElasticSpec.ordinary_zero
  have u := ElasticSpec.blank_none
  have hm : Elastic.mat1 unavailable unavailable unavailable unavailable unavailable unavailable =
      .ok (some ⟨0, 0, 0, unavailable, unavailable, unavailable⟩) := by
    simp [Elastic.mat1, Elastic.mat1Nu, Elastic.mat1E, Elastic.mat1G, Elastic.new, z, u]
  refine ⟨_, lines, counter', _, ⟨0, 0, 0, unavailable, unavailable, unavailable⟩, rfl, g1, g5, ?_, ?_, ?_, ?_, ?_⟩
  · unfold readBulk
    rw [keyword_read (by decide) (by decide)]
    simp only [Outcome.bind_ok, parseMAT1, says_int_read k0 h, nextDouble_end, nextInt_end, hm, isEmpty_end, if_true]
  · simp [Elastic.getE, z]
  · simp [Elastic.getG, z]
  · simp [Elastic.getNu, z]
  · simp [Elastic.getRho, u]

end NastranWrite
end Vega
