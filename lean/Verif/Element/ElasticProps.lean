import Mathlib.Tactic.FieldSimp
import Mathlib.Tactic.Linarith
import Mathlib.Tactic.NormNum
import Mathlib.Tactic.Ring
import Verif.Element.Elastic

/-! # Properties of elastic constants (C48) -/
namespace Vega.ElasticSpec
open Elastic

/-! ### specification -/

/-- How a field of a card reaches the program: a blank is a special number. -/
def code : Option Dbl → Dbl
  | none => unavailable
  | some x => x

/-- A number that cannot be confused with the one standing for a blank. -/
def Ordinary (x : Dbl) : Prop := |x| ≤ dblMax / 2

/-- The given fields are ordinary numbers. -/
def Given (x : Option Dbl) : Prop := ∀ v ∈ x, Ordinary v

/-- The relation between the constants of an isotropic material. -/
def Isotropic (e nu g : Dbl) : Prop := e = 2 * (1 + nu) * g

/-- How many fields are given. -/
def count (e nu g : Option Dbl) : Nat := e.toList.length + nu.toList.length + g.toList.length

/-! ### helper lemmas -/

theorem code_none : code none = unavailable := rfl

theorem code_some (x : Dbl) : code (some x) = x := rfl

theorem blank_none : blank unavailable = true := isEqual_self _

theorem blank_some {x : Dbl} (h : Ordinary x) : blank x = false :=
  isEqual_unavailable_of_le_half x h

theorem ordinary_zero : Ordinary 0 := by
  unfold Ordinary; have := dblMax_pos; rw [abs_zero]; linarith

/-! ### properties -/

/-- **C48** without `E` and `G` the material is refused, and only then. -/
theorem C48_refused (e nu g rho alpha tref : Option Dbl) (he : Given e) (hg : Given g) :
    new (code e) (code nu) (code g) (code rho) (code alpha) (code tref) = .throw ↔
      e = none ∧ g = none := by
  cases e with
  | none =>
    cases g with
    | none => simp [code_none, new, blank_none]
    | some k =>
      have b := blank_some (hg k rfl)
      simp [code_none, code_some, new, b]
  | some x =>
    have b := blank_some (he x rfl)
    simp [code_some, new, b]

/-- **C48** what is given is reported as given. -/
theorem C48_given (e nu g rho alpha tref : Option Dbl) (he : Given e) (hn : Given nu) (hg : Given g)
    (m : Elastic)
    (hm : new (code e) (code nu) (code g) (code rho) (code alpha) (code tref) = .ok m) :
    (∀ x, e = some x → m.getE = x) ∧ (∀ x, nu = some x → m.getNu = some x) ∧
      ∀ x, g = some x → m.getG = some x := by
  unfold new at hm
  split at hm
  · cases hm
  cases hm
  refine ⟨?_, ?_, ?_⟩
  · rintro x rfl
    simp [code_none, code_some, getE, blank_some (he _ rfl)]
  · rintro x rfl
    simp [code_none, code_some, getNu, blank_some (hn _ rfl)]
  · rintro x rfl
    simp [code_none, code_some, getG, blank_some (hg _ rfl)]

/-- **C48** when exactly two constants are given the three reported ones are those of an isotropic
material, unless the missing one would be the quotient by zero. -/
theorem C48_two (e nu g rho alpha tref : Option Dbl) (he : Given e) (hn : Given nu) (hg : Given g)
    (h2 : count e nu g = 2) (hnu : nu ≠ some (-1)) (hg0 : g ≠ some 0) (m : Elastic)
    (hm : new (code e) (code nu) (code g) (code rho) (code alpha) (code tref) = .ok m) :
    ∃ n k, m.getNu = some n ∧ m.getG = some k ∧ Isotropic m.getE n k := by
  unfold new at hm
  split at hm
  · cases hm
  cases hm
  cases e with
  | none =>
    cases nu with
    | none => cases g <;> simp [count] at h2
    | some n =>
      cases g with
      | none => simp [count] at h2
      | some k =>
        have b1 := blank_some (hn _ rfl)
        have b2 := blank_some (hg _ rfl)
        refine ⟨n, k, ?_, ?_, ?_⟩
        · simp [code_none, code_some, getNu, b1]
        · simp [code_none, code_some, getG, b2]
        · simp [code_none, code_some, getE, b1, blank_none, Isotropic]
  | some x =>
    have b0 := blank_some (he _ rfl)
    cases nu with
    | none =>
      cases g with
      | none => simp [count] at h2
      | some k =>
        have b2 := blank_some (hg _ rfl)
        have hk : k ≠ 0 := fun h => hg0 (by rw [h])
        refine ⟨x / (2 * k) - 1, k, ?_, ?_, ?_⟩
        · simp [code_none, code_some, getNu, b0, b2, blank_none, quotient, hk]
        · simp [code_none, code_some, getG, b2]
        · simp only [code_none, code_some, getE, b0, Bool.and_false, Bool.false_eq_true, if_false, Isotropic]
          field_simp; ring
    | some n =>
      have b1 := blank_some (hn _ rfl)
      cases g with
      | none =>
        have hn1 : 2 * (1 + n) ≠ 0 := fun h => hnu (by rw [show n = -1 by linarith])
        refine ⟨n, x / (2 * (1 + n)), ?_, ?_, ?_⟩
        · simp [code_none, code_some, getNu, b1]
        · simp only [code_none, code_some, getG, b1, blank_none, Bool.false_and, Bool.false_eq_true, if_false, if_true, quotient]
          exact if_neg hn1
        · simp only [code_none, code_some, getE, b0, Bool.and_false, Bool.false_eq_true, if_false, Isotropic]
          have hn2 : 1 + n ≠ 0 := fun h => hn1 (by rw [h, mul_zero])
          field_simp
      | some k => simp [count] at h2

/-- **C48** with `E` or `G` alone the two missing constants are zero. -/
theorem C48_one (x : Dbl) (hx : Ordinary x) (rho alpha tref : Option Dbl) (m : Elastic) :
    (new (code (some x)) (code none) (code none) (code rho) (code alpha) (code tref) = .ok m →
      m.getE = x ∧ m.getNu = some 0 ∧ m.getG = some 0) ∧
    (new (code none) (code none) (code (some x)) (code rho) (code alpha) (code tref) = .ok m →
      m.getE = 0 ∧ m.getNu = some 0 ∧ m.getG = some x) := by
  have b := blank_some hx
  constructor <;>
  · intro hm
    simp only [code_none, code_some, new, b, blank_none, Bool.true_and, Bool.and_true, Bool.false_and, Bool.and_false, Bool.false_eq_true, if_false, Outcome.ok.injEq] at hm
    subst hm
    simp [code_none, code_some, getE, getNu, getG, b, blank_none]

/-- **C48** density, expansion and reference temperature: blanks are zeros and the mass density is
the force density times the multiplier of the model, 1 when there is none. -/
theorem C48_density (e nu g rho alpha tref : Option Dbl) (hr : Given rho) (ha : Given alpha)
    (ht : Given tref) (m : Elastic) (k : Option Dbl)
    (hm : new (code e) (code nu) (code g) (code rho) (code alpha) (code tref) = .ok m) :
    m.getRhoAsForceDensity = rho.getD 0 ∧ m.getRho k = rho.getD 0 * k.getD 1 ∧
      m.getAlpha = alpha.getD 0 ∧ m.getTref = tref.getD 0 := by
  unfold new at hm
  split at hm
  · cases hm
  cases hm
  refine ⟨?_, ?_, ?_, ?_⟩
  · cases rho with
    | none => simp [code_none, code_some, getRhoAsForceDensity, blank_none]
    | some x => simp [code_none, code_some, getRhoAsForceDensity, blank_some (hr _ rfl)]
  · cases rho with
    | none => cases k <;> simp [code_none, code_some, getRho, blank_none]
    | some x => cases k <;> simp [code_none, code_some, getRho, blank_some (hr _ rfl)]
  · cases alpha with
    | none => simp [code_none, code_some, getAlpha, blank_none]
    | some x => simp [code_none, code_some, getAlpha, blank_some (ha _ rfl)]
  · cases tref with
    | none => simp [code_none, code_some, getTref, blank_none]
    | some x => simp [code_none, code_some, getTref, blank_some (ht _ rfl)]

/-- **C48** a `MAT1` card with `E` or `G` gives the constants the material built directly from its
fields reports, as long as these are ordinary numbers. -/
theorem C48_mat1_partial (e nu g rho alpha tref : Option Dbl) (he : Given e) (hn : Given nu)
    (hg : Given g) (heg : e ≠ none ∨ g ≠ none) (hnu : nu ≠ some (-1)) (hg0 : g ≠ some 0) (m : Elastic)
    (hm : new (code e) (code nu) (code g) (code rho) (code alpha) (code tref) = .ok m)
    (hE : Ordinary m.getE) (hN : Given m.getNu) (hG : Given m.getG) :
    ∃ m', mat1 (code e) (code nu) (code g) (code rho) (code alpha) (code tref) = .ok (some m') ∧
      m'.getE = m.getE ∧ m'.getNu = m.getNu ∧ m'.getG = m.getG ∧ m'.rho = m.rho ∧
      m'.alpha = m.alpha ∧ m'.tref = m.tref := by
  unfold new at hm
  split at hm
  · cases hm
  cases hm
  have z := blank_some ordinary_zero
  cases e with
  | none =>
    cases g with
    | none => simp at heg
    | some k =>
      have b2 := blank_some (hg _ rfl)
      cases nu with
      | none =>
        refine ⟨⟨0, 0, k, code rho, code alpha, code tref⟩, ?_, ?_⟩
        · simp only [code_none, code_some, mat1, mat1Nu, blank_none, b2, if_true, Bool.false_eq_true, if_false, Option.bind, mat1E, z, Bool.false_and, mat1G, new, Outcome.bind_ok]
        · simp [code_none, code_some, getE, getNu, getG, z, blank_none, b2]
      | some n =>
        have b1 := blank_some (hn _ rfl)
        have hv : Ordinary (2 * (1 + n) * k) := by
          simpa [code_none, code_some, getE, b1, blank_none] using hE
        have bv := blank_some hv
        refine ⟨⟨2 * (1 + n) * k, n, k, code rho, code alpha, code tref⟩, ?_, ?_⟩
        · simp only [code_none, code_some, mat1, mat1Nu, b1, Bool.false_eq_true, if_false, Option.bind, mat1E, blank_none, b2, Bool.not_false, Bool.and_self, if_true, mat1G, Bool.false_and, new]
          simp [bv]
        · simp only [code_none, code_some]
          have bn : blank unavailable = true := blank_none
          simp [code_none, code_some, getE, getNu, getG, b1, b2, bv, bn]
  | some x =>
    have b0 := blank_some (he _ rfl)
    cases g with
    | none =>
      cases nu with
      | none =>
        refine ⟨⟨x, 0, 0, code rho, code alpha, code tref⟩, ?_, ?_⟩
        · simp only [code_none, code_some, mat1, mat1Nu, blank_none, if_true, Option.bind, mat1E, b0, z, mat1G, Bool.false_and, Bool.false_eq_true, if_false, new, Outcome.bind_ok]
        · simp only [code_none, code_some]
          have bn : blank unavailable = true := blank_none
          simp [code_none, code_some, getE, getNu, getG, z, bn, b0]
      | some n =>
        have b1 := blank_some (hn _ rfl)
        have hn1 : 2 * (1 + n) ≠ 0 := fun h => hnu (by rw [show n = -1 by linarith])
        have hq : quotient x (2 * (1 + n)) = some (x / (2 * (1 + n))) := if_neg hn1
        have bn : blank unavailable = true := blank_none
        have hv : Ordinary (x / (2 * (1 + n))) := by
          refine hG _ ?_
          simp only [code_none, code_some]
          simp only [code_none, code_some, getG, b1, bn, Bool.false_and, Bool.false_eq_true, if_false, if_true, hq, Option.mem_def]
        have bv := blank_some hv
        refine ⟨⟨x, n, x / (2 * (1 + n)), code rho, code alpha, code tref⟩, ?_, ?_⟩
        · simp only [code_none, code_some]
          simp only [code_none, code_some, mat1, mat1Nu, b1, Bool.false_eq_true, if_false, Option.bind, mat1E, b0, bn, Bool.false_and, mat1G, Bool.not_false, Bool.and_self, if_true, hq, Option.map, new, Outcome.bind_ok]
        · simp only [code_none, code_some]
          simp only [code_none, code_some, getE, getNu, getG, b0, b1, bv, bn, Bool.false_and, Bool.and_false, Bool.or_self, Bool.false_eq_true, if_false, if_true, hq, and_self]
    | some k =>
      have b2 := blank_some (hg _ rfl)
      have hk : 2 * k ≠ 0 := fun h => hg0 (by rw [show k = 0 by linarith])
      have bn : blank unavailable = true := blank_none
      cases nu with
      | none =>
        have hq : quotient x (2 * k) = some (x / (2 * k)) := if_neg hk
        have hv : Ordinary (x / (2 * k) - 1) := by
          refine hN _ ?_
          simp only [code_none, code_some]
          simp only [code_none, code_some, getNu, b0, b2, bn, Bool.and_false, Bool.or_self, Bool.false_eq_true, if_false, if_true, hq, Option.map, Option.mem_def]
        have bv := blank_some hv
        refine ⟨⟨x, x / (2 * k) - 1, k, code rho, code alpha, code tref⟩, ?_, ?_⟩
        · simp only [code_none, code_some]
          simp only [code_none, code_some, mat1, mat1Nu, bn, b0, b2, Bool.false_eq_true, if_false, if_true, hq, Option.map, Option.bind, mat1E, Bool.false_and, mat1G, new, Outcome.bind_ok]
        · simp only [code_none, code_some]
          simp only [code_none, code_some, getE, getNu, getG, b0, b2, bv, bn, Bool.false_and, Bool.and_false, Bool.or_self, Bool.false_eq_true, if_false, if_true, hq, Option.map, and_self]
      | some n =>
        have b1 := blank_some (hn _ rfl)
        refine ⟨⟨x, n, k, code rho, code alpha, code tref⟩, ?_, rfl, rfl, rfl, rfl, rfl, rfl⟩
        simp only [code_none, code_some]
        simp only [code_none, code_some, mat1, mat1Nu, b0, b1, b2, Bool.false_eq_true, if_false, Option.bind, mat1E, Bool.false_and, mat1G, new, Outcome.bind_ok]

/-- **C48** is false of a `MAT1` card with blank `E`, `G` and `NU`: it is not refused but gives a
material without stiffness. -/
theorem C48_mat1_blank_false :
    ∃ m, mat1 (code none) (code none) (code none) (code none) (code none) (code none) = .ok (some m) ∧
      m.getE = 0 ∧ m.getG = some 0 := by
  have z := blank_some ordinary_zero
  have bn : blank unavailable = true := blank_none
  refine ⟨⟨0, 0, 0, unavailable, unavailable, unavailable⟩, ?_, ?_⟩
  · simp only [code_none, code_some, mat1, mat1Nu, bn, if_true, Option.bind, mat1E, z, Bool.not_false, Bool.and_self, mat1G, Bool.false_and, Bool.false_eq_true, if_false, new, Outcome.bind_ok]
    norm_num [z]
  · simp [code_none, code_some, getE, getG, z]

/-- Steel: `E` and `NU` given. -/
example : ∃ m, new (code (some 210000)) (code (some (3/10))) (code none) (code none) (code none)
    (code none) = .ok m ∧ count (some 210000) (some (3/10)) none = 2 ∧ Given (some 210000) ∧
    Given (some (3/10)) := by
  have h1 : Ordinary 210000 := by
    unfold Ordinary
    have h : (2 : ℚ) ^ 20 ≤ 2 ^ 1023 := pow_le_pow_right₀ (by norm_num) (by norm_num)
    have h2 : (1 : ℚ) ≤ 2 - 1 / 2 ^ 52 := by norm_num
    unfold dblMax
    generalize (2 : ℚ) ^ 1023 = a at h ⊢
    generalize (2 : ℚ) - 1 / 2 ^ 52 = b at h2 ⊢
    rw [abs_of_pos (by norm_num)]
    norm_num at h
    nlinarith
  have h2 : Ordinary (3/10) := by
    unfold Ordinary; have := four_le_dblMax; rw [abs_of_pos (by norm_num)]; linarith
  refine ⟨⟨210000, 3/10, unavailable, unavailable, unavailable, unavailable⟩, ?_, rfl, ?_, ?_⟩
  · simp only [code_none, code_some, new, blank_some h1, Bool.false_and, Bool.false_eq_true, if_false]
  · intro v hv; cases hv; exact h1
  · intro v hv; cases hv; exact h2

end Vega.ElasticSpec
