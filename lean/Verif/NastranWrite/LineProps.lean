import Verif.NastranWrite.RealLemmas
import Mathlib.Tactic.ByContra

/-! # C78, C79: written cards and written reals are read back -/
namespace Vega

/-! ## Specification -/
namespace WriteSpec
open Nastran NastranWrite

/-- How many digits the exponent of a number takes; numbers below `10^-99` are not considered. -/
def exponentDigits (x : ℚ) : Nat :=
  if 1 / 10 ^ 9 ≤ |x| ∧ |x| < 10 ^ 10 then 1
  else if |x| < 10 ^ 100 then 2
  else 3

/-- How many decimals of the mantissa a field of eight columns keeps: the sign takes one away. -/
def decimals (x : ℚ) : Nat := 5 - exponentDigits x - if x < 0 then 1 else 0

/-- A number with no more digits than the field keeps. -/
def Short (x : ℚ) : Prop := ∃ k f : Int, x = k * 10 ^ f ∧ |k| < 10 ^ (decimals x + 1)

/-- `y` is `x` up to the precision of a field of eight columns: half a unit of the last decimal, relatively to the
number, and what is lost with eleven decimals. Short numbers are kept exactly. Numbers that count as zero are zero. -/
def Near (x y : ℚ) : Prop :=
  if |x| ≤ tol then y = 0 else |y - x| ≤ |x| * (1 / (2 * 10 ^ decimals x) + 1 / 10 ^ 11) ∧ (Short x → y = x)

/-- The text of a field, blanks at both ends left out, says what was put in it. Numbers are read by
the reader; reals have a point, which tells them from integers. -/
def Says : Arg → Text → Prop
  | .blank, t => t = []
  | .text s, t => t = s
  | .int n, t => t = FieldSpec.decimal n
  | .real x, t => '.' ∈ t ∧ (∀ c ∈ t, c.isDigit = true ∨ c = '.' ∨ c = '+' ∨ c = '-') ∧ ∀ (pre rest : List Nastran.Line) (dflt : Option ℚ), ∃ y, Near x y ∧
      nextDouble dflt (FieldSpec.after pre (t :: rest)) = .ok (y, FieldSpec.after (pre ++ [t]) rest)

/-- What fits in a field of eight columns. -/
def Fits : Arg → Prop
  | .blank => True
  | .text s => FixedSpec.Value 8 s
  | .int n => 0 ≤ n ∧ n < 10 ^ 8
  | .real x => |x| ≤ dblMax

end WriteSpec

namespace NastranWrite
open Nastran FieldSpec FixedSpec WriteSpec

/-! ## Helper lemmas -/

theorem takeWhile_digits {ip : Line} (h : ∀ c ∈ ip, c.isDigit = true) (d : Char) (hd : d.isDigit = false) (t : Line) :
    (ip ++ d :: t).takeWhile Char.isDigit = ip ∧ (ip ++ d :: t).dropWhile Char.isDigit = d :: t := by
  induction ip with
  | nil => simp [hd]
  | cons c cs ih =>
    have hc := h c (by simp)
    obtain ⟨h1, h2⟩ := ih fun c hc => h c (by simp [hc])
    simp [hc, h1, h2]

theorem lexical_mantissa {neg up : Bool} {ip fp ds : Line} (h1 : ip ≠ []) (h2 : ∀ c ∈ ip, c.isDigit = true)
    (h3 : ∀ c ∈ fp, c.isDigit = true) (h4 : ds ≠ []) (h5 : ∀ c ∈ ds, c.isDigit = true) :
    lexicalDouble ((if neg then ['-'] else []) ++ (ip ++ '.' :: fp) ++ 'E' :: (if up then '+' else '-') :: ds) =
      some ((if neg then -1 else 1) * ((natOf (ip ++ fp) : ℚ) / 10 ^ fp.length) *
        10 ^ (if up then (natOf ds : Int) else -natOf ds)) := by
  have hs : signed ((if neg then ['-'] else []) ++ (ip ++ '.' :: fp) ++ 'E' :: (if up then '+' else '-') :: ds) =
      (neg, ip ++ '.' :: (fp ++ 'E' :: (if up then '+' else '-') :: ds)) := by
    cases neg
    · obtain ⟨c, cs, rfl⟩ : ∃ c cs, ip = c :: cs := by
        cases ip with
        | nil => exact absurd rfl h1
        | cons c cs => exact ⟨c, cs, rfl⟩
      have hc := h2 c (by simp)
      have n1 : c ≠ '-' := by rintro rfl; revert hc; decide
      have n2 : c ≠ '+' := by rintro rfl; revert hc; decide
      simp [signed, n1, n2]
    · simp [signed]
  obtain ⟨t1, d1⟩ := takeWhile_digits h2 '.' (by decide) (fp ++ 'E' :: (if up then '+' else '-') :: ds)
  obtain ⟨t2, d2⟩ := takeWhile_digits h3 'E' (by decide) ((if up then '+' else '-') :: ds)
  have hall : ds.all Char.isDigit = true := by simpa using h5
  have hexp : exponent? ((if up then '+' else '-') :: ds) =
      some (if up then (natOf ds : Int) else -natOf ds) := by
    have h4' : ds.isEmpty = false := by simpa using h4
    cases up <;> simp [exponent?, h4', hall]
  have hie : ip.isEmpty = false := by simpa using h1
  unfold lexicalDouble
  simp only [hs, t1, d1, fraction, t2, d2, hie, Bool.false_and, Bool.false_eq_true, if_false,
    decide_true, Bool.or_true, if_true, hexp, Option.map_some]
  cases neg <;> simp

theorem natAbs_lt_log {L : Int} {k : Nat} (h1 : -(k : Int) < L) (h2 : L < k) : L.natAbs < k := by omega

theorem showNat_one_digit {n : Nat} (h : n < 10) : (showNat n).length = 1 := by
  rw [showNat, if_pos h]; rfl

theorem showNat_length_two {n : Nat} (h1 : 10 ≤ n) (h2 : n < 100) : (showNat n).length = 2 := by
  rw [showNat, if_neg (by omega), List.length_append, showNat_one_digit (by omega)]; rfl

theorem showNat_length_three {n : Nat} (h1 : 100 ≤ n) (h2 : n < 1000) : (showNat n).length = 3 := by
  rw [showNat, if_neg (by omega), List.length_append, showNat_length_two (by omega) (by omega)]; rfl

theorem dblMax_lt : dblMax < 10 ^ 309 := by
  unfold dblMax
  have h : (2 : ℚ) ^ 1024 < 10 ^ 309 := by
    have : (2 : Nat) ^ 1024 < 10 ^ 309 := by decide +kernel
    exact_mod_cast this
  have h2 : (2 : ℚ) ^ 1024 = 2 * 2 ^ 1023 := by rw [show (1024 : Nat) = 1023 + 1 from rfl, pow_succ, mul_comm]
  have h3 : (0 : ℚ) < 2 ^ 1023 := by positivity
  rw [h2] at h
  generalize (10 : ℚ) ^ 309 = b at *
  generalize (2 : ℚ) ^ 1023 = a at *
  have : (2 - 1 / 2 ^ 52) * a ≤ 2 * a := by
    have : (2 - 1 / 2 ^ 52 : ℚ) ≤ 2 := by norm_num
    exact mul_le_mul_of_nonneg_right this h3.le
  exact lt_of_le_of_lt this h

theorem log_lt_iff {x : ℚ} (hx : 0 < x) (k : Int) : Int.log 10 x < k ↔ x < 10 ^ k := by
  have := Int.lt_zpow_iff_log_lt (b := 10) (by norm_num) (x := k) hx
  push_cast at this
  exact this.symm

theorem le_log_iff {x : ℚ} (hx : 0 < x) (k : Int) : k ≤ Int.log 10 x ↔ (10 : ℚ) ^ k ≤ x := by
  have := Int.zpow_le_iff_le_log (b := 10) (by norm_num) (x := k) hx
  push_cast at this
  exact this.symm

/-- The exponent of a number that is neither zero nor out of range. -/
theorem log_facts {x : ℚ} (h0 : tol < |x|) (h1 : |x| ≤ dblMax) :
    -16 ≤ Int.log 10 |x| ∧ Int.log 10 |x| < 309 ∧ (0 ≤ Int.log 10 |x| ↔ ¬ |x| < 1) ∧
    (showNat (Int.log 10 |x|).natAbs).length = exponentDigits x := by
  have hx : 0 < |x| := lt_trans tol_pos h0
  have a1 : -16 ≤ Int.log 10 |x| := by
    rw [le_log_iff hx]
    refine le_trans ?_ h0.le
    norm_num [tol]
  have a2 : Int.log 10 |x| < 309 := by
    rw [log_lt_iff hx]
    exact_mod_cast lt_of_le_of_lt h1 dblMax_lt
  have a3 : 0 ≤ Int.log 10 |x| ↔ ¬ |x| < 1 := by
    rw [le_log_iff hx]; simp
  refine ⟨a1, a2, a3, ?_⟩
  have b1 : 1 / 10 ^ 9 ≤ |x| ↔ -9 ≤ Int.log 10 |x| := by
    rw [le_log_iff hx]
    norm_num [zpow_neg]
  have b2 : |x| < 10 ^ 10 ↔ Int.log 10 |x| < 10 := by
    rw [log_lt_iff hx]; norm_cast
  have b3 : |x| < 10 ^ 100 ↔ Int.log 10 |x| < 100 := by
    rw [log_lt_iff hx]; norm_cast
  unfold exponentDigits
  split_ifs with c1 c2 <;> simp only [b1, b2, b3] at *
  · exact showNat_one_digit (by omega)
  · exact showNat_length_two (by omega) (by omega)
  · exact showNat_length_three (by omega) (by omega)

theorem roundEven_int (a : Int) : roundEven (a : Dbl) = a :=
  le_antisymm (roundEven_le le_rfl) (le_roundEven le_rfl)

/-- Short numbers are not rounded. -/
theorem short_digits {x : ℚ} (hx : 0 < |x|) (h : Short x) :
    (scientific |x|).2 = Int.log 10 |x| ∧
    (roundEven (((scientific |x|).1 : ℚ) / 10 ^ 11 * 10 ^ decimals x) : ℚ) / 10 ^ decimals x * 10 ^ Int.log 10 |x| =
      |x| := by
  obtain ⟨k, f, hk, hlt⟩ := h
  have h10 : (10 : ℚ) ≠ 0 := by norm_num
  have hp : ∀ a : Int, (0 : ℚ) < 10 ^ a := fun a => zpow_pos (by norm_num) a
  have habs : |x| = |k| * 10 ^ f := by
    rw [hk, abs_mul, abs_of_pos (hp f)]; push_cast; rfl
  set L := Int.log 10 |x| with hL
  have hl : (10 : ℚ) ^ L ≤ |x| := (le_log_iff hx L).1 le_rfl
  have hu : |x| < (10 : ℚ) ^ (L + 1) := (log_lt_iff hx (L + 1)).1 (by omega)
  have hfL : L ≤ decimals x + f := by
    have h1 : (10 : ℚ) ^ L < 10 ^ ((decimals x : Int) + 1 + f) := by
      rw [zpow_add₀ h10]
      have hkq : ((|k| : Int) : ℚ) < (10 : ℚ) ^ ((decimals x : Int) + 1) := by
        have : (10 : ℚ) ^ ((decimals x : Int) + 1) = ((10 ^ (decimals x + 1) : Int) : ℚ) := by
          push_cast; exact_mod_cast rfl
        rw [this]; exact_mod_cast hlt
      calc (10 : ℚ) ^ L ≤ |x| := hl
        _ = |k| * 10 ^ f := habs
        _ < _ := mul_lt_mul_of_pos_right (by exact_mod_cast hkq) (hp f)
    have := (zpow_lt_zpow_iff_right₀ (by norm_num : (1 : ℚ) < 10)).1 h1
    omega
  have hdec : decimals x ≤ 11 := by unfold decimals; omega
  -- the digits as an integer
  have whole : ∀ j : Nat, decimals x ≤ j → ∃ a : Int, |x| / 10 ^ L * 10 ^ j = a := by
    intro j hj
    refine ⟨|k| * 10 ^ (f - L + j).toNat, ?_⟩
    have ht : ((f - L + j).toNat : Int) = f - L + j := by omega
    push_cast
    rw [habs]
    rw [← zpow_natCast (10 : ℚ) (f - L + j).toNat, ht, zpow_add₀ h10, zpow_sub₀ h10, zpow_natCast]
    push_cast
    ring
  obtain ⟨a, ha⟩ := whole 11 hdec
  obtain ⟨b, hb⟩ := whole (decimals x) le_rfl
  have hsc : scientific |x| = (a, L) := by
    unfold scientific
    simp only [← hL, ha, roundEven_int]
    rw [if_neg]
    intro ha12
    have : |x| / 10 ^ L < 10 := by
      rw [div_lt_iff₀ (hp L)]
      rw [zpow_add_one₀ h10] at hu
      linarith
    rw [ha12] at ha
    push_cast at ha
    have : |x| / 10 ^ L * 10 ^ 11 < 10 * 10 ^ 11 := mul_lt_mul_of_pos_right this (by norm_num)
    rw [ha] at this
    norm_num at this
  rw [hsc]
  refine ⟨rfl, ?_⟩
  simp only
  have e1 : ((a : ℚ) / 10 ^ 11 * 10 ^ decimals x) = b := by
    rw [← ha, ← hb]; field_simp
  rw [e1, roundEven_int, ← hb]
  have := (hp L).ne'
  field_simp

/-- What `Line::add(double)` writes, as a number in Nastran notation, and its value. -/
theorem realText_spec {x : ℚ} (h0 : tol < |x|) (h1 : |x| ≤ dblMax) :
    ∃ (n v e : Nat) (up : Bool), realText x = (if x < 0 then ['-'] else []) ++ mantissa n v ++
        (if up then '+' else '-') :: showNat e ∧
      (realText x).length ≤ 8 ∧
      |(if x < 0 then -1 else 1) * ((v : ℚ) / 10 ^ n) * 10 ^ (if up then (e : Int) else -e) - x| ≤
        |x| * (1 / (2 * 10 ^ decimals x) + 1 / 10 ^ 11) ∧
      (Short x → (if x < 0 then -1 else 1) * ((v : ℚ) / 10 ^ n) * 10 ^ (if up then (e : Int) else -e) = x) := by
  have hx : 0 < |x| := lt_trans tol_pos h0
  obtain ⟨l1, l2, l3, l4⟩ := log_facts h0 h1
  obtain ⟨s1, s2, s3, s4⟩ := scientific_spec hx
  set m := (scientific |x|).1 with hm
  set e := (scientific |x|).2 with he
  have hlen : (showNat e.natAbs).length ≤ 3 := showNat_length_le 2 _ (by
    rcases s4 with h | h <;> rw [h] <;> omega)
  set n := 5 - (showNat e.natAbs).length - (if x < 0 then 1 else 0) with hn
  have hn1 : 1 ≤ n := by rw [hn]; split <;> omega
  set v := (roundEven ((m : ℚ) / 10 ^ 11 * 10 ^ n)).toNat with hv
  have hp : (0 : ℚ) < 10 ^ n := by positivity
  have q1 : (1 : ℚ) ≤ (m : ℚ) / 10 ^ 11 := by
    rw [le_div_iff₀ (by norm_num)]; exact_mod_cast (by simpa using s1)
  have q2 : (m : ℚ) / 10 ^ 11 ≤ 10 := by
    rw [div_le_iff₀ (by norm_num)]
    have : (m : ℚ) ≤ ((10 ^ 12 : Int) : ℚ) := Int.cast_le.2 s2.le
    push_cast at this
    linarith
  have r1 : (10 ^ n : Int) ≤ roundEven ((m : ℚ) / 10 ^ 11 * 10 ^ n) := le_roundEven (by
    push_cast
    have := mul_le_mul_of_nonneg_right q1 hp.le
    linarith)
  have r2 : roundEven ((m : ℚ) / 10 ^ 11 * 10 ^ n) ≤ 10 ^ (n + 1) := roundEven_le (by
    have := mul_le_mul_of_nonneg_right q2 hp.le
    have e : ((10 ^ (n + 1) : Int) : ℚ) = 10 * 10 ^ n := by push_cast; ring
    rw [e]
    exact this)
  have hvi : (v : Int) = roundEven ((m : ℚ) / 10 ^ 11 * 10 ^ n) := by
    rw [hv, Int.toNat_of_nonneg]
    have : (0 : Int) ≤ 10 ^ n := by positivity
    omega
  have v1 : 10 ^ n ≤ v := by
    have : ((10 ^ n : Nat) : Int) ≤ (v : Int) := by rw [hvi]; push_cast; exact r1
    exact_mod_cast this
  have v2 : v ≤ 10 ^ (n + 1) := by
    have : (v : Int) ≤ ((10 ^ (n + 1) : Nat) : Int) := by rw [hvi]; push_cast; exact r2
    exact_mod_cast this
  have hsign : (|x| < 1 → e ≤ 0) ∧ (¬ |x| < 1 → 0 ≤ e) := by
    rcases s4 with h | h <;> rw [h] <;> constructor <;> intro hc
    · have := mt l3.1 (not_not.2 hc); omega
    · exact l3.2 hc
    · have := mt l3.1 (not_not.2 hc); omega
    · have := l3.2 hc; omega
  have hexp : (if ¬ |x| < 1 then (e.natAbs : Int) else -e.natAbs) = e := by
    by_cases hc : |x| < 1
    · have := hsign.1 hc
      rw [if_neg (not_not.2 hc)]; omega
    · have := hsign.2 hc
      rw [if_pos hc]; omega
  have htext : realText x = (if x < 0 then ['-'] else []) ++ mantissa n v ++
      (if |x| < 1 then '-' else '+') :: showNat e.natAbs := by
    have t := trim_fixed v1
    unfold realText
    simp only [← hm, ← he, ← hn, ← hv]
    by_cases hc : x < 0
    · simp only [hc, if_true]
      rw [t.2]; rfl
    · simp only [hc, if_false, List.nil_append]
      rw [t.1]; rfl
  refine ⟨n, v, e.natAbs, decide (¬ |x| < 1), ?_, ?_, ?_, ?_⟩
  · rw [htext]
    by_cases hc : |x| < 1 <;> simp [hc]
  · rw [htext]
    have := mantissa_length hn1 v2
    simp only [List.length_append, List.length_cons]
    by_cases hc : x < 0
    · rw [if_pos hc] at hn ⊢
      simp; omega
    · rw [if_neg hc] at hn ⊢
      simp; omega
  · have hexp' : (if decide (¬ |x| < 1) = true then (e.natAbs : Int) else -e.natAbs) = e := by
      simpa using hexp
    rw [hexp']
    have hE : (0 : ℚ) < 10 ^ e := zpow_pos (by norm_num) _
    -- absolute value first
    have habs : |(if x < 0 then -1 else 1) * ((v : ℚ) / 10 ^ n) * 10 ^ e - x| =
        abs ((v : ℚ) / 10 ^ n * 10 ^ e - |x|) := by
      by_cases hc : x < 0
      · rw [if_pos hc, abs_of_neg hc]
        rw [← abs_neg]
        congr 1; ring
      · rw [if_neg hc, abs_of_nonneg (not_lt.1 hc), one_mul]
    rw [habs]
    have hvq : (v : ℚ) = roundEven ((m : ℚ) / 10 ^ 11 * 10 ^ n) := by exact_mod_cast hvi
    -- the second rounding
    have second : |(v : ℚ) / 10 ^ n * 10 ^ e - (m : ℚ) / 10 ^ 11 * 10 ^ e| ≤
        |x| * (1 / (2 * 10 ^ decimals x)) := by
      have e1 : (v : ℚ) / 10 ^ n * 10 ^ e - (m : ℚ) / 10 ^ 11 * 10 ^ e =
          ((v : ℚ) - (m : ℚ) / 10 ^ 11 * 10 ^ n) * (10 ^ e / 10 ^ n) := by
        field_simp
      rw [e1, abs_mul, abs_of_pos (a := (10 : ℚ) ^ e / 10 ^ n) (by positivity)]
      by_cases hL : e = Int.log 10 |x|
      · have hd : decimals x = n := by
          unfold decimals
          rw [hn, hL, l4]
        rw [hd]
        have hle : (10 : ℚ) ^ e ≤ |x| := by
          rw [hL]; exact (le_log_iff hx _).1 le_rfl
        have hc := roundEven_close ((m : ℚ) / 10 ^ 11 * 10 ^ n)
        rw [← hvq] at hc
        calc _ ≤ 1 / 2 * ((10 : ℚ) ^ e / 10 ^ n) := mul_le_mul_of_nonneg_right hc (by positivity)
          _ = 10 ^ e * (1 / (2 * 10 ^ n)) := by field_simp
          _ ≤ _ := mul_le_mul_of_nonneg_right hle (by positivity)
      · -- the mantissa is one: nothing is lost
        have hm1 : m = 10 ^ 11 := by
          have hh : (scientific |x|).2 = Int.log 10 |x| → False := fun h => hL h
          rw [hm]
          unfold scientific at hh ⊢
          simp only at hh ⊢
          split_ifs at hh ⊢ with h12
          · rfl
          · exact absurd rfl hh
        have : (v : ℚ) - (m : ℚ) / 10 ^ 11 * 10 ^ n = 0 := by
          have hq : (m : ℚ) / 10 ^ 11 * 10 ^ n = ((10 ^ n : Int) : ℚ) := by
            rw [hm1]; push_cast; norm_num
          rw [hvq, hq]
          have a := roundEven_le (x := ((10 ^ n : Int) : ℚ)) le_rfl
          have b := le_roundEven (x := ((10 ^ n : Int) : ℚ)) le_rfl
          rw [le_antisymm a b, sub_self]
        rw [this, abs_zero, zero_mul]
        positivity
    calc abs ((v : ℚ) / 10 ^ n * 10 ^ e - |x|) ≤ |(v : ℚ) / 10 ^ n * 10 ^ e - (m : ℚ) / 10 ^ 11 * 10 ^ e| +
          abs ((m : ℚ) / 10 ^ 11 * 10 ^ e - |x|) := by
          have := abs_add_le ((v : ℚ) / 10 ^ n * 10 ^ e - (m : ℚ) / 10 ^ 11 * 10 ^ e)
            ((m : ℚ) / 10 ^ 11 * 10 ^ e - |x|)
          simpa using this
      _ ≤ |x| * (1 / (2 * 10 ^ decimals x)) + |x| / (2 * 10 ^ 11) := add_le_add second s3
      _ ≤ _ := by
        rw [mul_add]
        have : |x| / (2 * 10 ^ 11) ≤ |x| * (1 / 10 ^ 11) := by
          have : |x| / (2 * 10 ^ 11) = |x| * (1 / (2 * 10 ^ 11)) := by ring
          rw [this]
          gcongr
          norm_num
        linarith
  · intro hshort
    have hexp' : (if decide (¬ |x| < 1) = true then (e.natAbs : Int) else -e.natAbs) = e := by
      simpa using hexp
    rw [hexp']
    obtain ⟨he', hfin⟩ := short_digits hx hshort
    have hL : e = Int.log 10 |x| := he'
    have hd : decimals x = n := by
      unfold decimals
      rw [hn, hL, l4]
    have hvq : (v : ℚ) = roundEven ((m : ℚ) / 10 ^ 11 * 10 ^ n) := by exact_mod_cast hvi
    have hfin' : (v : ℚ) / 10 ^ n * 10 ^ e = |x| := by
      rw [hvq, hL, ← hd]; exact hfin
    by_cases hc : x < 0
    · rw [if_pos hc, mul_assoc, hfin', abs_of_neg hc]; ring
    · rw [if_neg hc, one_mul, hfin', abs_of_nonneg (not_lt.1 hc)]

/-- The text of a real, as a number in Nastran notation. -/
theorem realText_read {x : ℚ} (h0 : tol < |x|) (h1 : |x| ≤ dblMax) (t : Text)
    (ht : t.filter (fun c => c ≠ ' ') = realText x) :
    ∃ y, lexicalDouble (normReal (trim t)) = some y ∧
      |y - x| ≤ |x| * (1 / (2 * 10 ^ decimals x) + 1 / 10 ^ 11) ∧ (Short x → y = x) := by
  obtain ⟨n, v, e, up, htext, -, hval⟩ := realText_spec h0 h1
  let r : NReal := ⟨if x < 0 then some '-' else none, mantissa n v,
    some (none, some (if up then '+' else '-'), showNat e)⟩
  have hr : r.Valid := by
    refine ⟨?_, ⟨by simp [r, mantissa], fun c hc => mantissa_char hc⟩, ?_, ?_, ?_, ?_⟩
    · intro c hc
      by_cases hx : x < 0 <;> simp [r, hx] at hc
      exact .inr hc.symm
    all_goals
      intro l s ds h
      simp only [r, Option.some.injEq, Prod.mk.injEq] at h
      obtain ⟨rfl, rfl, rfl⟩ := h
    · simp
    · intro c hc
      cases up <;> simp at hc <;> simp [← hc]
    · refine ⟨?_, fun c hc => (showNat_plain hc).2.2.2⟩
      rw [showNat_eq]; exact digitsOf_ne e
    · simp
  have hn : t.filter (fun c => c ≠ ' ') = r.nastran := by
    rw [ht, htext]
    unfold NReal.nastran
    by_cases hx : x < 0 <;> simp [r, hx]
  have hstd : r.standard = (if decide (x < 0) then ['-'] else []) ++
      (showNat (v / 10 ^ n) ++ '.' :: strip (lastDigits n v)) ++ 'E' :: (if up then '+' else '-') :: showNat e := by
    unfold NReal.standard
    by_cases hx : x < 0 <;> simp [r, hx, stdLetter, mantissa]
  rw [C26_standard r hr t hn, hstd, lexical_mantissa (by rw [showNat_eq]; exact digitsOf_ne _)
    (fun c hc => (showNat_plain hc).2.2.2) (fun c hc => lastDigits_digit (strip_subset hc))
    (by rw [showNat_eq]; exact digitsOf_ne _) (fun c hc => (showNat_plain hc).2.2.2)]
  refine ⟨_, rfl, ?_⟩
  have hmant : ((natOf (showNat (v / 10 ^ n) ++ strip (lastDigits n v)) : Nat) : ℚ) /
      10 ^ (strip (lastDigits n v)).length = (v : ℚ) / 10 ^ n := by
    rw [strip_value, natOf_append, natOf_showNat, natOf_lastDigits, lastDigits_length]
    have := Nat.div_add_mod v (10 ^ n)
    rw [mul_comm] at this
    rw [this]
  rw [hmant, natOf_showNat]
  simpa using hval

theorem filter_fillBefore (w : Nat) (s : Text) :
    (fillBefore w s).filter (fun c => c ≠ ' ') = s.filter (fun c => c ≠ ' ') := by
  simp [fillBefore, List.filter_append]

theorem realText_plain {x : ℚ} (h0 : tol < |x|) (h1 : |x| ≤ dblMax) :
    ∀ c ∈ realText x, isSpace c = false ∧ c ≠ '$' ∧ c ≠ '\t' ∧ c ≠ ' ' := by
  obtain ⟨n, v, e, up, htext, -, -⟩ := realText_spec h0 h1
  have hd : ∀ c : Char, c.isDigit = true → isSpace c = false ∧ c ≠ '$' ∧ c ≠ '\t' ∧ c ≠ ' ' := by
    intro c hc
    have h := (digit_plain (c := c) (.inl hc)).2.2.2.2.2.2
    refine ⟨h, ?_, ?_, ?_⟩ <;> rintro rfl <;> revert hc <;> decide
  intro c hc
  rw [htext] at hc
  rcases List.mem_append.1 hc with hc | hc
  · rcases List.mem_append.1 hc with hc | hc
    · by_cases hx : x < 0
      · rw [if_pos hx] at hc
        rw [List.mem_singleton.1 hc]; decide
      · rw [if_neg hx] at hc; simp at hc
    · rcases mantissa_char hc with h | rfl
      · exact hd c h
      · decide
  · rcases List.mem_cons.1 hc with rfl | hc
    · cases up <;> decide
    · exact hd c (showNat_plain hc).2.2.2

theorem realText_char {x : ℚ} (h0 : tol < |x|) (h1 : |x| ≤ dblMax) :
    ∀ c ∈ realText x, c.isDigit = true ∨ c = '.' ∨ c = '+' ∨ c = '-' := by
  obtain ⟨n, v, e, up, htext, -, -⟩ := realText_spec h0 h1
  intro c hc
  rw [htext] at hc
  rcases List.mem_append.1 hc with hc | hc
  · rcases List.mem_append.1 hc with hc | hc
    · by_cases hx : x < 0
      · rw [if_pos hx] at hc
        simp [List.mem_singleton.1 hc]
      · rw [if_neg hx] at hc; simp at hc
    · rcases mantissa_char hc with h | rfl
      · exact .inl h
      · simp
  · rcases List.mem_cons.1 hc with rfl | hc
    · cases up <;> simp
    · exact .inl (showNat_plain hc).2.2.2

theorem realText_point {x : ℚ} (h0 : tol < |x|) (h1 : |x| ≤ dblMax) : '.' ∈ realText x := by
  obtain ⟨n, v, e, up, htext, -, -⟩ := realText_spec h0 h1
  rw [htext]
  simp [mantissa]

theorem isZero_iff (x : ℚ) : isZero x = true ↔ |x| ≤ tol := by simp [isZero]

/-- The field written for something that fits: eight columns, no tabulation, no dollar; its text says it. -/
theorem field_spec {a : Arg} (h : Fits a) : ∃ f, field 8 a = some f ∧ Piece f ∧ Says a (trim f) := by
  cases a with
  | blank =>
    refine ⟨_, rfl, ⟨by decide, by decide, by decide⟩, by show trim _ = []; decide⟩
  | text s =>
    have hs : Value 8 s := h
    refine ⟨_, rfl, ⟨fillBefore_length hs.fits, ?_, ?_⟩, ?_⟩
    · simp [fillBefore, hs.noTab]
    · simp [fillBefore, hs.noDollar]
    · show trim _ = s
      rw [trim_fillBefore, hs.trimmed]
  | int n =>
    obtain ⟨h0, h8⟩ : 0 ≤ n ∧ n < 10 ^ 8 := h
    have hlen := showNat_length_le 7 n.natAbs (by omega)
    have hf : fillInt 8 n = fillBefore 8 (showNat n.natAbs) := by
      rw [fillInt, if_neg (by omega)]
    refine ⟨_, rfl, ⟨?_, ?_, ?_⟩, ?_⟩
    · rw [hf]; exact fillBefore_length hlen
    · rw [hf]
      simp only [fillBefore, List.mem_append, List.mem_replicate, not_or]
      exact ⟨by simp, fun hc => (showNat_plain hc).2.2.1 rfl⟩
    · rw [hf]
      simp only [fillBefore, List.mem_append, List.mem_replicate, not_or]
      exact ⟨by simp, fun hc => (showNat_plain hc).2.1 rfl⟩
    · show trim _ = decimal n
      rw [hf, trim_fillBefore, trim_plain fun c hc => (showNat_plain hc).1, showNat_eq, decimal,
        if_neg (by omega)]
  | real x =>
    have hx : |x| ≤ dblMax := h
    by_cases hz : |x| ≤ tol
    · have hg : gnum x = ['0', '.'] := by rw [gnum, if_pos ((isZero_iff x).2 hz)]
      refine ⟨fillBefore 8 ['0', '.'], by simp [field, hg], ⟨by decide, by decide, by decide⟩, ?_⟩
      have ht : trim (fillBefore 8 ['0', '.']) = ['0', '.'] := by decide
      rw [ht]
      refine ⟨by simp, by decide, fun pre rest dflt => ⟨0, by simp [Near, hz], ?_⟩⟩
      have h0 : lexicalDouble (normReal (trim (trimRight ['0', '.']))) = some 0 := by decide +kernel
      have hne : (trim (trimRight ['0', '.'])).isEmpty = false := by decide
      unfold nextDouble
      rw [next_after]
      simp only [hne, Bool.false_eq_true, if_false, h0]
    · have hz' : tol < |x| := not_le.1 hz
      have hg : gnum x = fillBefore 8 (realText x) := by
        rw [gnum, if_neg (fun h => hz ((isZero_iff x).1 h))]
      obtain ⟨n, v, e, up, htext, hlen, -, -⟩ := realText_spec hz' hx
      have hgl : (gnum x).length = 8 := by rw [hg]; exact fillBefore_length hlen
      have hfill : fillBefore 8 (gnum x) = gnum x := by simp [fillBefore, hgl]
      have hpl := realText_plain hz' hx
      have ht : trim (gnum x) = realText x := by
        rw [hg, trim_fillBefore, trim_plain fun c hc => (hpl c hc).1]
      have hne : realText x ≠ [] := by rw [htext]; simp
      refine ⟨gnum x, by simp [field, hgl, hfill], ⟨hgl, ?_, ?_⟩, ?_⟩
      · rw [hg]
        simp only [fillBefore, List.mem_append, List.mem_replicate, not_or]
        exact ⟨by simp, fun hc => (hpl _ hc).2.2.1 rfl⟩
      · rw [hg]
        simp only [fillBefore, List.mem_append, List.mem_replicate, not_or]
        exact ⟨by simp, fun hc => (hpl _ hc).2.1 rfl⟩
      · rw [ht]
        refine ⟨realText_point hz' hx, realText_char hz' hx, fun pre rest dflt => ?_⟩
        have hfil : (realText x).filter (fun c => c ≠ ' ') = realText x := by
          rw [List.filter_eq_self]
          intro c hc
          simpa using (hpl c hc).2.2.2
        obtain ⟨y, hy, herr⟩ := realText_read hz' hx (realText x) hfil
        refine ⟨y, by rw [Near, if_neg hz]; exact herr, ?_⟩
        have htr : trim (realText x) = realText x := trim_plain fun c hc => (hpl c hc).1
        have hemp : (realText x).isEmpty = false := by simpa using hne
        unfold nextDouble
        rw [next_after]
        rw [htr] at hy
        simp only [trim_trimRight, htr, hemp, Bool.false_eq_true, if_false, hy]

theorem fieldsOf_spec : ∀ {args : List Arg}, (∀ a ∈ args, Fits a) → ∃ fs, fieldsOf 8 args = some fs ∧
    (∀ f ∈ fs, Piece f) ∧ fs.length = args.length ∧ List.Forall₂ Says args (fs.map trim) := by
  intro args
  induction args with
  | nil => intro _; exact ⟨[], rfl, by simp, rfl, .nil⟩
  | cons a as ih =>
    intro h
    obtain ⟨f, hf, hp, hs⟩ := field_spec (h a (by simp))
    obtain ⟨fs, hfs, hps, hl, hss⟩ := ih fun a ha => h a (by simp [ha])
    refine ⟨f :: fs, by simp [fieldsOf, hf, hfs], ?_, by simp [hl], .cons hs hss⟩
    intro g hg
    rcases List.mem_cons.1 hg with rfl | hg
    · exact hp
    · exact hps g hg

theorem emitLoop_counter (len : Nat) : ∀ (fs : List Text) (count n : Nat) (cur : Text),
    n ≤ (emitLoop len 9 fs count n cur).2 ∧
      (emitLoop len 9 fs count n cur).2 ≤ n + (count % 9 + fs.length) / 8 ∧
      (emitLoop len 9 fs count n cur).1.length = (emitLoop len 9 fs count n cur).2 - n + 1 := by
  intro fs
  induction fs with
  | nil => intro count n cur; simp [emitLoop]
  | cons f fs ih =>
    intro count n cur
    rw [emitLoop]
    split
    · obtain ⟨h1, h2, h3⟩ := ih (count + 2) (n + 1) (fillAfter len (separator (n + 1)) ++ f)
      simp only [List.length_cons, h3]
      omega
    · obtain ⟨h1, h2, h3⟩ := ih (count + 1) n (cur ++ f)
      have : (count + 1) % 9 = count % 9 + 1 := by omega
      refine ⟨h1, ?_, h3⟩
      rw [this] at h2
      rw [List.length_cons, Nat.add_comm fs.length, ← Nat.add_assoc]
      exact h2

theorem trim_trim (l : Nastran.Line) : trim (trim l) = trim l := by
  conv_lhs => rw [trim.eq_1 l]
  rw [trim_trimRight, trim, trim, dropWhile_twice]

/-! ## The theorems -/

/-- **C78 (partial).** A card whose values fit in eight columns is read back by the reader of the same program: the name
and the values in their order, whatever their number, and the reader is then at the next card. (Integers that do not
fit, negative integers, long cards and files with more than ten million continuation lines are excluded: see the
theorems below. The output stream itself is not represented.) -/
theorem C78_card_partial (counter : Nat) (name : Text) (args : List Arg) (rest : List Nastran.Line)
    (hname : Name false name) (hargs : ∀ a ∈ args, Fits a) (hcount : counter + args.length / 8 < 10 ^ 7)
    (hnew : NewCard rest) :
    ∃ lines counter' texts, writeCard counter name args = some (lines, counter') ∧
      List.Forall₂ Says args texts ∧ counter' + 1 = counter + lines.length ∧
      counter' ≤ counter + args.length / 8 ∧
      nextLine (lines ++ rest) = .ok (some (name :: texts, afterComments rest)) := by
  obtain ⟨fs, hfs, hps, hl, hsays⟩ := fieldsOf_spec hargs
  have hplain : ∀ c ∈ name, isSpace c = false := fun c hc => (hname.plain c hc).1
  have hlen : name.length ≤ 8 := by simpa using hname.fits
  have hpiece : Piece (fillAfter 8 name) := fillAfter_piece hlen
    (fun h => by have := hplain _ h; simp [isSpace] at this) fun h => (hname.plain _ h).2.2.2 rfl
  have hstar : name.getLast? ≠ some '*' := fun h =>
    (hname.plain '*' (List.mem_of_getLast? h)).2.2.1 rfl
  have hw : fieldLength name = 8 := by simp [fieldLength, hstar]
  have hm : fieldNum name = 9 := by simp [fieldNum, hstar]
  obtain ⟨tail, more, e, hd, hr⟩ := read_emit rest hnew fs 0 counter (fillAfter 8 name) [] true hpiece
    (by simp) hps (by simp) (by simp only [List.length_nil]; omega)
  simp only [List.flatten_nil, List.append_nil] at e
  obtain ⟨c1, c3, c2⟩ := emitLoop_counter 8 fs 0 counter (fillAfter 8 name)
  have hcard : writeCard counter name args = some (emitLoop 8 9 fs 0 counter (fillAfter 8 name)) := by
    rw [writeCard, hw, hfs]
    show some (emit _ _ _) = _
    rw [emit, hw, hm]
  refine ⟨_, _, _, hcard, hsays, ?_, ?_, ?_⟩
  · rw [c2]; omega
  · rw [← hl]; simpa using c3
  · rw [e]
    obtain ⟨c0, cs, hn0⟩ : ∃ c cs, name = c :: cs := by
      cases name with
      | nil => exact absurd rfl hname.nonempty
      | cons c cs => exact ⟨c, cs, rfl⟩
    have hb : blank (fillAfter 8 name ++ tail) = false := by
      have hc := hplain c0 (by simp [hn0])
      have hc' : isBlank c0 = false := by
        simp only [isSpace, isBlank, Bool.or_eq_false_iff] at hc ⊢
        exact ⟨hc.1.1.1.1.1, hc.1.1.1.1.2⟩
      subst hn0
      simp [blank, fillAfter, hc']
    have htake : (fillAfter 8 name ++ tail).take 8 = fillAfter 8 name := by
      rw [List.take_append_of_le_length (by rw [hpiece.length]), List.take_of_length_le (by rw [hpiece.length])]
    have htype : getLineType (fillAfter 8 name ++ tail) = .short := by
      have hno : ∀ c, c ≠ ' ' → c ∉ name → (fillAfter 8 name).contains c = false := by
        intro c h1 h2
        rw [← Bool.not_eq_true, List.contains_iff_mem]
        simp [fillAfter, h1, h2]
      unfold getLineType
      simp only [htake, hno ',' (by decide) fun h => (hname.plain _ h).2.1 rfl,
        hno '*' (by decide) fun h => (hname.plain _ h).2.2.1 rfl, if_true]
    rw [List.cons_append, nextLine, readLine_true hd hb]
    simp only
    rw [parseBulk_fixed (by rw [htype]; simp), htype]
    have hdec : decide (LineType.short = LineType.long) = false := rfl
    have hfuel : more.length < fuelFor (fillAfter 8 name ++ tail) (more ++ rest) := by
      have hs : ∀ ls : List Nastran.Line, ls.length ≤ (ls.map fun l => l.length + 1).sum := by
        intro ls
        induction ls with
        | nil => simp
        | cons l ls ih => simp; omega
      have := hs (more ++ rest)
      rw [List.length_append] at this
      unfold fuelFor
      omega
    rw [hdec, hr _ _ hfuel]
    have htrim : trim (fillAfter 8 name) = name := by
      exact trim_pad (trim_plain hplain)
    have her : eraseStars name = name := by
      unfold eraseStars
      rw [List.filter_eq_self]
      intro c hc
      simpa using (hname.plain c hc).2.2.1
    simp [htrim, her]

/-- The cards of the examples: nine values take two lines. -/
def sampleArgs : List Arg := [.int 12, .blank, .real (-314159 / 100000), .text "THRU".toList, .real 0, .int 5,
  .real 210000000000, .int 7, .int 99999999]

theorem sampleArgs_fits : ∀ a ∈ sampleArgs, Fits a := by
  have hb : (10 : ℚ) ^ 12 ≤ dblMax := by decide +kernel
  simp only [sampleArgs, List.mem_cons, List.not_mem_nil, or_false, forall_eq_or_imp, forall_eq]
  refine ⟨by simp [Fits], trivial, ?_, ⟨by decide, by decide, by decide, by decide⟩, ?_, by simp [Fits], ?_,
    by simp [Fits], by simp [Fits]⟩
  all_goals
    refine le_trans ?_ hb
    norm_num [abs_le]

example : writeCard 3 "CARD".toList sampleArgs = some (
    ["CARD          12        -3.142+0    THRU      0.       5  2.1+11       7+4".toList,
      "+4      99999999".toList], 4) := by decide +kernel
example : Name false "CARD".toList := ⟨by decide, by decide, by decide⟩
example : ∃ lines counter' texts, writeCard 3 "CARD".toList sampleArgs = some (lines, counter') ∧
    List.Forall₂ Says sampleArgs texts ∧ counter' + 1 = 3 + lines.length ∧
    counter' ≤ 3 + sampleArgs.length / 8 ∧
    nextLine (lines ++ ["GRID,1".toList]) = .ok (some ("CARD".toList :: texts, ["GRID,1".toList])) :=
  C78_card_partial 3 _ _ _ ⟨by decide, by decide, by decide⟩ sampleArgs_fits (by decide) (by simp [NewCard])

/-- All the cards of a file, one after the other: the counter of continuation lines goes on. -/
def writeAll : Nat → List (Text × List Arg) → Option (List Text)
  | _, [] => some []
  | counter, c :: cs => do
    let r ← writeCard counter c.1 c.2
    let more ← writeAll r.2 cs
    some (r.1 ++ more)

theorem newCard_written {counter : Nat} {name : Text} {args : List Arg} {lines : List Text} {k : Nat}
    (hname : Name false name) (hplus : name.head? ≠ some '+') (h : writeCard counter name args = some (lines, k))
    (rest : List Nastran.Line) : NewCard (lines ++ rest) ∧ afterComments (lines ++ rest) = lines ++ rest := by
  obtain ⟨c0, cs, rfl⟩ : ∃ c cs, name = c :: cs := by
    cases name with
    | nil => exact absurd rfl hname.nonempty
    | cons c cs => exact ⟨c, cs, rfl⟩
  have hfirst : ∀ (len num : Nat) (fs : List Text) (count n : Nat) (cur : Text), cur.head? = some c0 →
      ∃ l more, (emitLoop len num fs count n cur).1 = l :: more ∧ l.head? = some c0 := by
    intro len num fs
    induction fs with
    | nil => intro count n cur h; exact ⟨cur, [], rfl, h⟩
    | cons f fs ih =>
      intro count n cur h
      rw [emitLoop]
      split
      · exact ⟨_, _, rfl, by cases cur <;> simp_all⟩
      · exact ih _ _ _ (by cases cur <;> simp_all)
  unfold writeCard at h
  cases hfs : fieldsOf (fieldLength (c0 :: cs)) args with
  | none => rw [hfs] at h; simp at h
  | some fs =>
    rw [hfs] at h
    simp only [Option.bind_eq_bind, Option.bind_some, Option.some.injEq] at h
    obtain ⟨l, more, e, hl⟩ := hfirst (fieldLength (c0 :: cs)) (fieldNum (c0 :: cs)) fs 0 counter
      (fillAfter 8 (c0 :: cs)) (by simp [fillAfter])
    have e' : lines = l :: more := by rw [← e, ← emit, h]
    obtain ⟨h1, h2, h3, h4⟩ := hname.plain c0 (by simp)
    have hb : c0 ≠ ' ' := by rintro rfl; revert h1; decide
    have ht : c0 ≠ '\t' := by rintro rfl; revert h1; decide
    simp only [List.head?_cons, ne_eq, Option.some.injEq] at hplus
    subst e'
    simp [NewCard, afterComments, hl, h3, h4, hb, ht, hplus]

/-- **C78 (partial).** A whole file: what the reader finds is the list of the cards that were written, in their order.
(Same restrictions.) -/
theorem C78_file_partial : ∀ (cs : List (Text × List Arg)) (counter : Nat),
    (∀ c ∈ cs, Name false c.1 ∧ c.1.head? ≠ some '+' ∧ ∀ a ∈ c.2, Fits a) →
    counter + (cs.map fun c => c.2.length / 8).sum < 10 ^ 7 →
    ∃ lines read, writeAll counter cs = some lines ∧
      List.Forall₂ (fun c r => ∃ texts, r = c.1 :: texts ∧ List.Forall₂ Says c.2 texts) cs read ∧
      ∀ fuel, cs.length < fuel → cards fuel lines = .ok read := by
  intro cs
  induction cs with
  | nil =>
    intro counter _ _
    refine ⟨[], [], rfl, .nil, fun fuel hf => ?_⟩
    obtain ⟨k, rfl⟩ : ∃ k, fuel = k + 1 := ⟨fuel - 1, by simp at hf; omega⟩
    rfl
  | cons c cs ih =>
    intro counter h hcount
    simp only [List.map_cons, List.sum_cons] at hcount
    obtain ⟨hname, hplus, hargs⟩ := h c (by simp)
    obtain ⟨lines, counter', texts, hw, hs, hk, hk', -⟩ := C78_card_partial counter c.1 c.2 [] hname hargs
      (by omega) trivial
    obtain ⟨more, read, hm, hf, hr⟩ := ih counter' (fun c hc => h c (by simp [hc])) (by omega)
    have hnew : NewCard more ∧ afterComments more = more := by
      cases cs with
      | nil => simp only [writeAll, Option.some.injEq] at hm; subst hm; exact ⟨trivial, rfl⟩
      | cons d ds =>
        obtain ⟨dname, dplus, -⟩ := h d (by simp)
        rw [writeAll] at hm
        cases hd : writeCard counter' d.1 d.2 with
        | none => rw [hd] at hm; simp at hm
        | some r =>
          rw [hd] at hm
          cases hd' : writeAll r.2 ds with
          | none => simp [hd'] at hm
          | some m =>
            simp only [Option.bind_eq_bind, Option.bind_some, hd', Option.some.injEq] at hm
            rw [← hm]
            exact newCard_written dname dplus (hd.trans (by rfl)) m
    obtain ⟨lines2, c2, texts2, hw2, hs2, -, -, hn2⟩ := C78_card_partial counter c.1 c.2 more hname hargs
      (by omega) hnew.1
    rw [hw] at hw2
    simp only [Option.some.injEq, Prod.mk.injEq] at hw2
    obtain ⟨rfl, rfl⟩ := hw2
    refine ⟨lines ++ more, (c.1 :: texts2) :: read, by simp [writeAll, hw, hm], .cons ⟨_, rfl, hs2⟩ hf, ?_⟩
    intro fuel hfu
    obtain ⟨k, rfl⟩ : ∃ k, fuel = k + 1 := ⟨fuel - 1, by simp at hfu; omega⟩
    rw [cards, hn2]
    simp only [Outcome.bind_ok, hnew.2]
    rw [hr k (by simp at hfu; omega)]
    rfl

example : ∃ lines read, writeAll 0 [("CARD".toList, sampleArgs), ("GRID".toList, [.int 1])] = some lines ∧
    cards 5 lines = .ok read ∧ read.length = 2 := by
  obtain ⟨lines, read, hw, hf, hr⟩ := C78_file_partial
    [("CARD".toList, sampleArgs), ("GRID".toList, [.int 1])] 0 (by
      intro c hc
      simp only [List.mem_cons, List.not_mem_nil, or_false] at hc
      rcases hc with rfl | rfl
      · exact ⟨⟨by decide, by decide, by decide⟩, by decide, sampleArgs_fits⟩
      · refine ⟨⟨by decide, by decide, by decide⟩, by decide, ?_⟩
        simp [Fits]) (by decide)
  exact ⟨lines, read, hw, hr 5 (by decide), hf.length_eq.symm⟩

/-- **C78, false in full.** A number of nine digits takes nine columns: the values after it are shifted. -/
theorem C78_wide_integer_false : ¬ ∀ (args : List Arg), (∀ a ∈ args, ∃ n : Int, 0 ≤ n ∧ n ≤ intMax ∧ a = .int n) →
    ∃ lines k texts, writeCard 0 "CARD".toList args = some (lines, k) ∧ List.Forall₂ Says args texts ∧
      nextLine lines = .ok (some ("CARD".toList :: texts, [])) := by
  intro h
  obtain ⟨lines, k, texts, hw, hs, hr⟩ := h [.int 123456789, .int 5] (by
    intro a ha
    simp only [List.mem_cons, List.not_mem_nil, or_false] at ha
    rcases ha with rfl | rfl
    · exact ⟨_, by decide, by decide, rfl⟩
    · exact ⟨_, by decide, by decide, rfl⟩)
  have e : writeCard 0 "CARD".toList [.int 123456789, .int 5] =
      some (["CARD    123456789       5".toList], 0) := by decide +kernel
  rw [e] at hw
  simp only [Option.some.injEq, Prod.mk.injEq] at hw
  rw [← hw.1] at hr
  have r : nextLine ["CARD    123456789       5".toList] =
      .ok (some (["CARD".toList, "12345678".toList, "9".toList, "5".toList], [])) := by decide +kernel
  rw [r] at hr
  simp only [Outcome.ok.injEq, Option.some.injEq, Prod.mk.injEq, List.cons.injEq] at hr
  rw [← hr.1.2] at hs
  have := hs.length_eq
  simp at this

/-- **C78, false in full.** A negative integer is written with its blanks after the sign, which the reader refuses. -/
theorem C78_negative_integer_false : ¬ ∀ n : Int, -10 ^ 7 < n → n < 10 ^ 8 → ∃ f, field 8 (.int n) = some f ∧
    ∀ pre rest dflt, nextInt dflt (after pre (f :: rest)) = .ok (n, after (pre ++ [f]) rest) := by
  intro h
  obtain ⟨f, hf, hr⟩ := h (-5) (by decide) (by decide)
  have e : field 8 (.int (-5)) = some "-      5".toList := by decide +kernel
  rw [e] at hf
  simp only [Option.some.injEq] at hf
  subst hf
  have := hr [] [] none
  revert this
  decide +kernel

/-- **C78, false in full.** Of a card in the long format with more than four values, written on two lines, the reader
takes the second line as short: the values are cut in the middle. -/
theorem C78_long_format_false : ¬ ∀ args : List Arg, (∀ a ∈ args, Fits a) →
    ∃ lines k texts, writeCard 0 "CARD*".toList args = some (lines, k) ∧ List.Forall₂ Says args texts ∧
      nextLine lines = .ok (some ("CARD".toList :: texts, [])) := by
  intro h
  obtain ⟨lines, k, texts, hw, hs, hr⟩ := h [.int 1, .int 2, .int 3, .int 4, .int 5] (by
    intro a ha
    simp only [List.mem_cons, List.not_mem_nil, or_false] at ha
    rcases ha with rfl | rfl | rfl | rfl | rfl <;> simp [Fits])
  have e : writeCard 0 "CARD*".toList [.int 1, .int 2, .int 3, .int 4, .int 5] =
      some (["CARD*                  1               2               3               4+1".toList,
        "+1                             5".toList], 1) := by decide +kernel
  rw [e] at hw
  simp only [Option.some.injEq, Prod.mk.injEq] at hw
  rw [← hw.1] at hr
  have r : nextLine ["CARD*                  1               2               3               4+1".toList,
        "+1                             5".toList] =
      .ok (some (["CARD", "1", "2", "3", "4", "", "5"].map String.toList, [])) := by decide +kernel
  rw [r] at hr
  simp only [List.map_cons, Outcome.ok.injEq, Option.some.injEq, Prod.mk.injEq, List.cons.injEq] at hr
  rw [← hr.1.2] at hs
  have := hs.length_eq
  simp at this

/-- **C79 (partial).** Every real is written in exactly eight columns, and what is read there differs from it by
half a unit of the last decimal that is kept. (Exact arithmetic: the roundings of `std::log10`, `pow` and of the
conversions to and from text are not represented.) -/
theorem C79_real_partial (x : ℚ) (hx : |x| ≤ dblMax) : ∃ f, field 8 (.real x) = some f ∧ f.length = 8 ∧
    ∀ (pre rest : List Nastran.Line) (dflt : Option ℚ), ∃ y, Near x y ∧
      nextDouble dflt (after pre (f :: rest)) = .ok (y, after (pre ++ [f]) rest) := by
  obtain ⟨f, hf, hp, hs⟩ := field_spec (a := .real x) hx
  refine ⟨f, hf, hp.length, fun pre rest dflt => ?_⟩
  obtain ⟨hdot, -, hs⟩ := hs
  have hne : trim f ≠ [] := List.ne_nil_of_mem hdot
  obtain ⟨y, hy, hr⟩ := hs pre rest dflt
  refine ⟨y, hy, ?_⟩
  unfold nextDouble at hr ⊢
  rw [next_after] at hr ⊢
  have he : (trim f).isEmpty = false := by simpa using hne
  simp only [trim_trimRight, trim_trim, he, Bool.false_eq_true, if_false] at hr ⊢
  cases hl : lexicalDouble (normReal (trim f)) with
  | none => simp [hl] at hr
  | some v =>
    simp only [hl, Outcome.ok.injEq, Prod.mk.injEq] at hr ⊢
    exact ⟨hr.1, trivial⟩

example : field 8 (.real (-314159 / 100000)) = some "-3.142+0".toList ∧
    field 8 (.real (1 / 30000)) = some "3.3333-5".toList ∧
    field 8 (.real 99999999) = some "   10.+7".toList ∧ field 8 (.real 1) = some "    1.+0".toList := by
  decide +kernel

/-- **C79 (partial).** Usual magnitudes: positive numbers keep five digits, negative ones four. -/
theorem C79_usual_partial (x : ℚ) (h1 : 1 / 10 ^ 9 ≤ |x|) (h2 : |x| < 10 ^ 10) : ∃ f, field 8 (.real x) = some f ∧
    ∀ (pre rest : List Nastran.Line) (dflt : Option ℚ), ∃ y,
      |y - x| ≤ |x| * (if x < 0 then 501 / 10 ^ 6 else 501 / 10 ^ 7) ∧
      nextDouble dflt (after pre (f :: rest)) = .ok (y, after (pre ++ [f]) rest) := by
  have hb : (10 : ℚ) ^ 10 ≤ dblMax := by decide +kernel
  obtain ⟨f, hf, -, hr⟩ := C79_real_partial x (h2.le.trans hb)
  refine ⟨f, hf, fun pre rest dflt => ?_⟩
  obtain ⟨y, hy, hr⟩ := hr pre rest dflt
  refine ⟨y, ?_, hr⟩
  have ht : ¬ |x| ≤ tol := by
    intro h
    have : tol < 1 / 10 ^ 9 := by unfold tol; norm_num
    linarith
  rw [Near, if_neg ht] at hy
  refine hy.1.trans (mul_le_mul_of_nonneg_left ?_ (abs_nonneg x))
  have he : exponentDigits x = 1 := by rw [exponentDigits, if_pos ⟨h1, h2⟩]
  unfold decimals
  rw [he]
  split <;> norm_num

example : (1 : ℚ) / 10 ^ 9 ≤ |210000000| ∧ |(210000000 : ℚ)| < 10 ^ 10 := by norm_num

/-- **C79 (partial).** A number with no more digits than the field keeps is written exactly: five digits for usual
positive numbers, four for negative ones, fewer when the exponent is long. -/
theorem C79_short_partial (x : ℚ) (h0 : tol < |x|) (hx : |x| ≤ dblMax) (k f : Int) (hk : x = k * 10 ^ f)
    (hlen : |k| < 10 ^ (decimals x + 1)) : ∃ t, field 8 (.real x) = some t ∧
    ∀ (pre rest : List Nastran.Line) (dflt : Option ℚ),
      nextDouble dflt (after pre (t :: rest)) = .ok (x, after (pre ++ [t]) rest) := by
  obtain ⟨t, ht, -, hr⟩ := C79_real_partial x hx
  refine ⟨t, ht, fun pre rest dflt => ?_⟩
  obtain ⟨y, hy, hr⟩ := hr pre rest dflt
  rw [Near, if_neg (not_le.2 h0)] at hy
  rw [hr, hy.2 ⟨k, f, hk, hlen⟩]

/-- Young's modulus of steel. -/
example : tol < |(210000000000 : ℚ)| ∧ (210000000000 : ℚ) = (21 : Int) * 10 ^ (10 : Int) ∧
    |(21 : Int)| < 10 ^ (decimals 210000000000 + 1) := by
  refine ⟨by unfold tol; norm_num, by norm_num, by decide +kernel⟩

/-- **C79, false in full.** A number that a field of eight columns holds exactly is not written exactly. -/
theorem C79_exact_false : ¬ ∀ (x : ℚ) (t : Text), t.length = 8 → (∀ c ∈ t, c.isDigit = true ∨ c = '.') →
    lexicalDouble (normReal t) = some x →
    ∃ f, field 8 (.real x) = some f ∧ nextDouble none (after [] [f]) = .ok (x, after [f] []) := by
  intro h
  obtain ⟨f, hf, hr⟩ := h (1234567 / 100) "12345.67".toList (by decide) (by decide) (by decide +kernel)
  have e : field 8 (.real (1234567 / 100)) = some "1.2346+4".toList := by decide +kernel
  rw [e] at hf
  simp only [Option.some.injEq] at hf
  subst hf
  revert hr
  decide +kernel

/-- **C79, false in full.** A small number is written as zero: no relative accuracy is kept for it. -/
theorem C79_small_false : ¬ ∀ x : ℚ, x ≠ 0 → |x| ≤ dblMax → ∃ f y, field 8 (.real x) = some f ∧ y ≠ 0 ∧
    nextDouble none (after [] [f]) = .ok (y, after [f] []) := by
  intro h
  obtain ⟨f, y, hf, hy, hr⟩ := h (1 / 10 ^ 15) (by norm_num) (by decide +kernel)
  have e : field 8 (.real (1 / 10 ^ 15)) = some "      0.".toList := by decide +kernel
  rw [e] at hf
  simp only [Option.some.injEq] at hf
  subst hf
  have r : nextDouble none (after [] ["      0.".toList]) = .ok (0, after ["      0.".toList] []) := by
    decide +kernel
  rw [r] at hr
  simp only [Outcome.ok.injEq, Prod.mk.injEq] at hr
  exact hy hr.1.symm

end NastranWrite
end Vega
