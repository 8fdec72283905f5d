import Verif.NastranWrite.LineLemmas
import Verif.Nastran.Reals
import Mathlib.Tactic.Linarith
import Mathlib.Tactic.Ring
import Mathlib.Tactic.FieldSimp
import Mathlib.Tactic.SplitIfs
import Mathlib.Tactic.Positivity

/-! # Lemmas on written reals -/
namespace Vega
namespace NastranWrite
open Nastran FieldSpec

/-! ## Rounding -/

theorem roundEven_close (x : Dbl) : |(roundEven x : Dbl) - x| ≤ 1 / 2 := by
  have h1 := Int.floor_le x
  have h2 := Int.lt_floor_add_one x
  unfold roundEven
  rw [abs_le]
  split_ifs <;> push_cast <;> constructor <;> linarith

theorem le_roundEven {x : Dbl} {a : Int} (h : (a : Dbl) ≤ x) : a ≤ roundEven x := by
  have : a ≤ ⌊x⌋ := Int.le_floor.2 h
  unfold roundEven
  split_ifs <;> omega

theorem roundEven_le {x : Dbl} {a : Int} (h : x ≤ a) : roundEven x ≤ a := by
  have h0 := (abs_le.1 (roundEven_close x)).2
  have : (roundEven x : Dbl) < (a + 1 : Int) := by push_cast; linarith
  have := Int.cast_lt.1 this
  omega

/-- The scientific notation of a positive number. -/
theorem scientific_spec {x : Dbl} (hx : 0 < x) : 10 ^ 11 ≤ (scientific x).1 ∧ (scientific x).1 < 10 ^ 12 ∧
    |((scientific x).1 : Dbl) / 10 ^ 11 * 10 ^ (scientific x).2 - x| ≤ x / (2 * 10 ^ 11) ∧
    ((scientific x).2 = Int.log 10 x ∨ (scientific x).2 = Int.log 10 x + 1) := by
  have hl := Int.zpow_log_le_self (b := 10) (by norm_num) hx
  have hu := Int.lt_zpow_succ_log_self (b := 10) (by norm_num) x
  rw [zpow_add_one₀ (by norm_num)] at hu
  push_cast at hl hu
  have hpos : (0 : Dbl) < 10 ^ Int.log 10 x := zpow_pos (by norm_num) _
  set p : Dbl := 10 ^ Int.log 10 x with hp
  have h1 : (1 : Dbl) ≤ x / p := by rw [le_div_iff₀ hpos]; linarith
  have h2 : x / p < 10 := by rw [div_lt_iff₀ hpos]; linarith
  have m1 : (10 ^ 11 : Int) ≤ roundEven (x / p * 10 ^ 11) := le_roundEven (by push_cast; linarith)
  have m2 : roundEven (x / p * 10 ^ 11) ≤ 10 ^ 12 := roundEven_le (by push_cast; linarith)
  have hc := roundEven_close (x / p * 10 ^ 11)
  have herr : |(roundEven (x / p * 10 ^ 11) : Dbl) / 10 ^ 11 * p - x| ≤ x / (2 * 10 ^ 11) := by
    have e : (roundEven (x / p * 10 ^ 11) : Dbl) / 10 ^ 11 * p - x =
        ((roundEven (x / p * 10 ^ 11) : Dbl) - x / p * 10 ^ 11) * (p / 10 ^ 11) := by
      field_simp
    have hq : (0 : Dbl) ≤ p / 10 ^ 11 := by positivity
    rw [e, abs_mul, abs_of_nonneg hq]
    calc _ ≤ 1 / 2 * (p / 10 ^ 11) := mul_le_mul_of_nonneg_right hc hq
      _ ≤ x / (2 * 10 ^ 11) := by
        have : 1 / 2 * (p / 10 ^ 11) = p / (2 * 10 ^ 11) := by ring
        rw [this]
        gcongr
  unfold scientific
  simp only [← hp]
  by_cases h : roundEven (x / p * 10 ^ 11) = 10 ^ 12
  · rw [if_pos h]
    refine ⟨le_refl _, by norm_num, ?_, .inr rfl⟩
    rw [h] at herr
    rw [zpow_add_one₀ (by norm_num), ← hp]
    push_cast at herr ⊢
    have e : (100000000000 : Dbl) / 10 ^ 11 * (p * 10) = 1000000000000 / 10 ^ 11 * p := by ring
    rw [e]
    exact herr
  · rw [if_neg h]
    exact ⟨m1, lt_of_le_of_ne m2 h, herr, .inl rfl⟩

/-! ## Texts of numbers -/

theorem natOf_append (a b : Line) : natOf (a ++ b) = natOf a * 10 ^ b.length + natOf b := by
  have key : ∀ (b : Line) (n : Nat), b.foldl (fun a c => 10 * a + (c.toNat - 48)) n =
      n * 10 ^ b.length + b.foldl (fun a c => 10 * a + (c.toNat - 48)) 0 := by
    intro b
    induction b with
    | nil => intro n; simp
    | cons c cs ih =>
      intro n
      simp only [List.foldl_cons, List.length_cons]
      rw [ih, ih (10 * 0 + (c.toNat - 48))]
      ring
  unfold natOf
  rw [List.foldl_append, key]

theorem digit_toNat : ∀ d : Fin 10, (Char.ofNat (48 + d.1)).toNat - 48 = d.1 := by decide

theorem natOf_digit {d : Nat} (h : d < 10) : natOf [Char.ofNat (48 + d)] = d := by
  have := digit_toNat ⟨d, h⟩
  simpa [natOf] using this

theorem natOf_showNat (n : Nat) : natOf (showNat n) = n := by
  induction n using showNat.induct with
  | case1 n h => rw [showNat, if_pos h, natOf_digit h]
  | case2 n h ih =>
    rw [showNat, if_neg h, natOf_append, ih, natOf_digit (Nat.mod_lt _ (by norm_num))]
    simp
    omega

theorem lastDigits_length (n v : Nat) : (lastDigits n v).length = n := by
  induction n generalizing v with
  | zero => rfl
  | succ n ih => simp [lastDigits, ih]

theorem natOf_lastDigits (n v : Nat) : natOf (lastDigits n v) = v % 10 ^ n := by
  induction n generalizing v with
  | zero => simp [lastDigits, natOf, Nat.mod_one]
  | succ n ih =>
    rw [lastDigits, natOf_append, ih, natOf_digit (Nat.mod_lt _ (by norm_num))]
    simp only [List.length_singleton, pow_one]
    rw [pow_succ', Nat.mod_mul]
    ring

theorem lastDigits_digit {n v : Nat} {c : Char} (h : c ∈ lastDigits n v) : c.isDigit = true := by
  induction n generalizing v with
  | zero => simp [lastDigits] at h
  | succ n ih =>
    rw [lastDigits] at h
    rcases List.mem_append.1 h with h | h
    · exact ih h
    · rw [List.mem_singleton.1 h]
      exact (digit_facts ⟨v % 10, Nat.mod_lt _ (by norm_num)⟩).2.2.2.1

/-- Removing the zeros at the end. -/
def strip (l : Text) : Text := (l.reverse.dropWhile (· = '0')).reverse

theorem strip_append (a : Text) (c : Char) (b : Text) (hc : c ≠ '0') :
    strip (a ++ c :: b) = a ++ c :: strip b := by
  unfold strip
  rw [List.reverse_append, List.reverse_cons, List.append_assoc]
  have key : ∀ l m : Text, (l ++ [c] ++ m).dropWhile (· = '0') = l.dropWhile (· = '0') ++ [c] ++ m := by
    intro l m
    induction l with
    | nil => simp [hc]
    | cons d l ih =>
      simp only [List.cons_append, List.dropWhile_cons]
      split
      · exact ih
      · rfl
  rw [← List.append_assoc, key]
  simp

theorem strip_zeros (b : Text) : ∃ k, b = strip b ++ List.replicate k '0' := by
  refine ⟨(b.reverse.takeWhile (· = '0')).length, ?_⟩
  have h : b.reverse.takeWhile (· = '0') = List.replicate (b.reverse.takeWhile (· = '0')).length '0' := by
    rw [List.eq_replicate_iff]
    refine ⟨rfl, fun c hc => ?_⟩
    have : ∀ (l : Text), ∀ c ∈ l.takeWhile (· = '0'), c = '0' := by
      intro l
      induction l with
      | nil => simp
      | cons d l ih =>
        intro c hc
        rw [List.takeWhile_cons] at hc
        by_cases hd : d = '0'
        · rw [if_pos (by simpa using hd)] at hc
          rcases List.mem_cons.1 hc with rfl | hc
          · exact hd
          · exact ih c hc
        · rw [if_neg (by simpa using hd)] at hc
          simp at hc
    exact this _ c hc
  have e := List.takeWhile_append_dropWhile (p := (· = '0')) (l := b.reverse)
  have e' := congrArg List.reverse e
  rw [List.reverse_append, List.reverse_reverse] at e'
  unfold strip
  rw [h, List.reverse_replicate] at e'
  exact e'.symm

theorem natOf_zeros (k : Nat) : natOf (List.replicate k '0') = 0 := by
  induction k with
  | zero => rfl
  | succ k ih =>
    rw [List.replicate_succ', natOf_append, ih]
    rfl

/-- The value of a number with a point does not change when zeros are removed at the end. -/
theorem strip_value (a b : Text) : (natOf (a ++ strip b) : Dbl) / 10 ^ (strip b).length =
    (natOf (a ++ b) : Dbl) / 10 ^ b.length := by
  obtain ⟨k, e⟩ := strip_zeros b
  have e1 : b.length = (strip b).length + k := by
    conv_lhs => rw [e]
    simp
  have e2 : natOf (a ++ b) = natOf (a ++ strip b) * 10 ^ k := by
    conv_lhs => rw [e]
    rw [← List.append_assoc, natOf_append, natOf_zeros]
    simp
  rw [e1, e2, pow_add]
  push_cast
  field_simp

theorem head_showNat {n : Nat} (h : 0 < n) : ∃ c t, showNat n = c :: t ∧ c ≠ '0' := by
  induction n using showNat.induct with
  | case1 n hn =>
    rw [showNat, if_pos hn]
    refine ⟨_, [], rfl, ?_⟩
    have : ∀ d : Fin 10, 0 < d.1 → Char.ofNat (48 + d.1) ≠ '0' := by decide
    exact this ⟨n, hn⟩ h
  | case2 n hn ih =>
    obtain ⟨c, t, e, hc⟩ := ih (by omega)
    rw [showNat, if_neg hn, e]
    exact ⟨c, _, rfl, hc⟩

theorem trimZeros_of_head {c : Char} {t : Text} (hc : c ≠ '0') : trimZeros (c :: t) = strip (c :: t) := by
  unfold trimZeros strip
  rw [List.dropWhile_cons, if_neg (by simpa using hc)]

theorem trim_fixed {n v : Nat} (h : 10 ^ n ≤ v) :
    trimZeros (fixed n v) = showNat (v / 10 ^ n) ++ '.' :: strip (lastDigits n v) ∧
    trimZeros ('-' :: fixed n v) = '-' :: (showNat (v / 10 ^ n) ++ '.' :: strip (lastDigits n v)) := by
  have hpos : 0 < v / 10 ^ n := Nat.div_pos h (by positivity)
  obtain ⟨c, t, e, hc⟩ := head_showNat hpos
  constructor
  · have hf : fixed n v = c :: (t ++ '.' :: lastDigits n v) := by simp [fixed, e]
    rw [hf, trimZeros_of_head hc, ← hf, fixed, strip_append _ _ _ (by decide)]
  · rw [trimZeros_of_head (by decide), fixed, ← List.cons_append, strip_append _ _ _ (by decide)]
    rfl

theorem strip_subset {b : Text} {c : Char} (h : c ∈ strip b) : c ∈ b := by
  obtain ⟨k, e⟩ := strip_zeros b
  rw [e]
  exact List.mem_append_left _ h

theorem strip_length_le (b : Text) : (strip b).length ≤ b.length := by
  obtain ⟨k, e⟩ := strip_zeros b
  have := congrArg List.length e
  simp at this
  omega

/-- The mantissa that is written, without its sign, for the number `v / 10^n`. -/
def mantissa (n v : Nat) : Text := showNat (v / 10 ^ n) ++ '.' :: strip (lastDigits n v)

theorem mantissa_length {n v : Nat} (hn : 1 ≤ n) (h2 : v ≤ 10 ^ (n + 1)) :
    (mantissa n v).length ≤ n + 2 := by
  unfold mantissa
  have hl := strip_length_le (lastDigits n v)
  rw [lastDigits_length] at hl
  rcases Nat.lt_or_ge v (10 ^ (n + 1)) with h | h
  · have : v / 10 ^ n < 10 := by
      rw [Nat.div_lt_iff_lt_mul (by positivity)]
      rw [pow_succ'] at h
      exact h
    rw [showNat, if_pos this]
    simp
    omega
  · have hv : v = 10 ^ n * 10 := by rw [← pow_succ]; omega
    have hd : v / 10 ^ n = 10 := by rw [hv]; exact Nat.mul_div_cancel_left _ (by positivity)
    have hz : ∀ n, strip (lastDigits n (10 ^ n * 10)) = [] := by
      intro n
      have : lastDigits n (10 ^ n * 10) = List.replicate n '0' := by
        induction n with
        | zero => rfl
        | succ n ih =>
          rw [lastDigits]
          have e1 : 10 ^ (n + 1) * 10 / 10 = 10 ^ n * 10 := by
            rw [Nat.mul_div_cancel _ (by norm_num), pow_succ]
          have e2 : 10 ^ (n + 1) * 10 % 10 = 0 := Nat.mul_mod_left _ _
          rw [e1, e2, ih, List.replicate_succ']
      rw [this]
      unfold strip
      rw [List.reverse_replicate]
      have : (List.replicate n '0').dropWhile (· = '0') = [] := by
        rw [List.dropWhile_eq_nil_iff]
        intro c hc
        simpa using (List.mem_replicate.1 hc).2
      rw [this]
      rfl
    rw [hd, hv, hz]
    have : showNat 10 = ['1', '0'] := by decide +kernel
    rw [this]
    simp
    omega

theorem mantissa_char {n v : Nat} {c : Char} (h : c ∈ mantissa n v) : c.isDigit = true ∨ c = '.' := by
  unfold mantissa at h
  rcases List.mem_append.1 h with h | h
  · exact .inl (showNat_plain h).2.2.2
  · rcases List.mem_cons.1 h with h | h
    · exact .inr h
    · exact .inl (lastDigits_digit (strip_subset h))

end NastranWrite
end Vega
