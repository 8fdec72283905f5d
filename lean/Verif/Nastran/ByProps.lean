import Mathlib.Tactic.Ring
import Verif.Nastran.FieldProps

/-! # C25: ranges with `BY`; C57: looking at several fields -/
namespace Vega.FieldSpec
open Nastran

theorem rangeLoop_by {hi n : Int} (hn : 1 ≤ n) (hhi : hi + n ≤ intMax) : ∀ (fuel : Nat) (i : Int), intMin ≤ i →
    i ≤ hi + n → (hi - i + 1).toNat < fuel →
    ∃ r, rangeLoop hi n fuel i = .ok r ∧ ∀ x, x ∈ r ↔ ∃ k : Nat, x = i + k * n ∧ x ≤ hi := by
  intro fuel
  induction fuel with
  | zero => intro i _ _ h; omega
  | succ m ih =>
    intro i hmin hi1 hf
    rw [rangeLoop, if_neg (by omega)]
    by_cases h : i ≤ hi
    · obtain ⟨r, h1, h2⟩ := ih (i + n) (by omega) (by omega) (by omega)
      refine ⟨i :: r, by rw [if_pos h, h1]; rfl, fun x => ?_⟩
      rw [List.mem_cons, h2]
      constructor
      · rintro (rfl | ⟨k, rfl, hk⟩)
        · exact ⟨0, by simp, h⟩
        · have e : i + ((k + 1 : Nat) : Int) * n = i + n + (k : Int) * n := by push_cast; ring
          exact ⟨k + 1, e.symm, hk⟩
      · rintro ⟨k, rfl, hk⟩
        cases k with
        | zero => left; simp
        | succ k =>
          have e : i + ((k + 1 : Nat) : Int) * n = i + n + (k : Int) * n := by push_cast; ring
          exact .inr ⟨k, e, hk⟩
    · refine ⟨[], by rw [if_neg h], fun x => ?_⟩
      simp only [List.not_mem_nil, false_iff, not_exists, not_and]
      rintro k rfl
      have : 0 ≤ (k : Int) * n := Int.mul_nonneg (by omega) (by omega)
      omega

/-- **C25, false with `BY`**, for every range and every step of at least two: `a THRU b BY n` gives `a` and
then `a + 1`, `a + 1 + n`, …, so `a + n` is left out. -/
theorem C25_by_always_false (pre post : List Line) (f t g u v : Line) (a b n : Int)
    (hf : trim f = decimal a) (ht : toUpper (trim t) = ['T', 'H', 'R', 'U']) (hg : trim g = decimal b)
    (hu : toUpper (trim u) = ['B', 'Y']) (hv : trim v = decimal n) (hab : a < b) (hn : 2 ≤ n) (hn2 : n ≤ intMax)
    (ha : intMin ≤ a) (hb : b + n ≤ intMax) (hp : Ends post) :
    ∃ r, nextInts (after pre ([f, t, g, u, v] ++ post)) = .ok (r, after (pre ++ [f, t, g, u, v]) post) ∧
      (∀ x, x ∈ r ↔ x = a ∨ ∃ k : Nat, x = a + 1 + k * n ∧ x ≤ b) ∧ a + 1 ∈ r ∧ a + n ∉ r := by
  have hmin : intMin ≤ 0 := by decide
  obtain ⟨r, h1, h2⟩ := rangeLoop_by (by omega : 1 ≤ n) hb ((b - a).toNat + 2) (a + 1) (by omega) (by omega)
    (by omega)
  have hpush : pushRange a b n = .ok r := by
    unfold pushRange
    rw [if_neg (by omega), if_neg (by omega), h1]
  have hstep : thruStep [a] (after (pre ++ [f]) (t :: g :: u :: v :: post)) =
      .ok (a :: r, after (pre ++ [f] ++ [t] ++ [g] ++ [u] ++ [v]) post) := by
    unfold thruStep
    rw [skip_after]
    simp only [List.take_succ_cons, List.take_zero, List.drop_succ_cons, List.drop_zero,
      Outcome.bind_ok, List.getLast?_singleton, nextInt_after hg (by omega) (by omega)]
    rw [isNextBY, isNextWord_after]
    simp only [hu, decide_true, Outcome.bind_ok, if_true]
    rw [skip_after]
    simp only [List.take_succ_cons, List.take_zero, List.drop_succ_cons, List.drop_zero,
      Outcome.bind_ok, nextInt_after hv (by omega) (by omega), gt_iff_lt, not_lt_of_gt hab, if_false, hpush,
      List.singleton_append]
  have hloop : ∀ fuel, nextIntsLoop (fuel + 3) [] (after pre ([f, t, g, u, v] ++ post)) =
      .ok (a :: r, after (pre ++ [f, t, g, u, v]) post) := by
    intro fuel
    simp only [List.cons_append, List.nil_append]
    rw [loop_int hf ha (by omega), nextIntsLoop, isNextInt_after, thru_not_int ht]
    simp only [Outcome.bind_ok, Bool.false_eq_true, if_false, isNextTHRU, isNextWord_after, ht,
      decide_true, if_true, List.nil_append, hstep]
    have := loop_items Writes.nil post hp (fuel + 1) (a :: r) (pre ++ [f] ++ [t] ++ [g] ++ [u] ++ [v])
      (by simp) (by simp)
    simpa using this
  refine ⟨a :: r, ?_, ?_, ?_, ?_⟩
  · have e : (after pre ([f, t, g, u, v] ++ post)).fields.length + 1 =
        (pre.length + post.length + 3) + 3 := by simp [after]; omega
    unfold nextInts
    rw [e]
    exact hloop _
  · intro x
    rw [List.mem_cons, h2]
  · rw [List.mem_cons, h2]
    exact .inr ⟨0, by simp, by omega⟩
  · rw [List.mem_cons, h2]
    rintro (h | ⟨k, h, _⟩)
    · omega
    · have hd : n ∣ 1 := ⟨1 - k, by rw [Int.mul_sub, Int.mul_comm n k]; omega⟩
      have := Int.le_of_dvd (by omega) hd
      omega

/-- A card the last theorem is about. -/
example : trim "1".toList = decimal 1 ∧ trim " 10".toList = decimal 10 ∧ trim "3".toList = decimal 3 ∧
    toUpper (trim "by ".toList) = ['B', 'Y'] := by decide +kernel



/-! ### C57: looking at several fields -/

theorem fieldAt_get (pre rest : List Line) (i : Nat) :
    fieldAt (after pre rest) i = match rest[i]? with
      | some f => .ok (trim f)
      | none => .ub := by
  unfold fieldAt after
  simp only
  rw [List.getElem?_append_right (by omega)]
  simp only [Nat.add_sub_cancel_left]
  cases rest[i]? <;> rfl

/-- **C57** when at least `n` fields remain, the `n` next are told empty exactly when they are. -/
theorem C57_empty (pre rest : List Line) (n : Nat) (hn : n ≤ rest.length) :
    isNextEmpty n (after pre rest) = .ok ((rest.take n).all fun f => (trim f).isEmpty) := by
  have key : ∀ (n i : Nat), i + n ≤ rest.length → isNextEmptyLoop (after pre rest) n i =
      .ok (((rest.drop i).take n).all fun f => (trim f).isEmpty) := by
    intro n
    induction n with
    | zero => intro i _; simp [isNextEmptyLoop]
    | succ n ih =>
      intro i hi
      have hlt : i < rest.length := by omega
      cases rest with
      | nil => simp at hlt
      | cons f fs =>
        rw [isNextEmptyLoop, sym_after_cons, if_neg (by simp), fieldAt_get, List.getElem?_eq_getElem hlt]
        simp only [Outcome.bind_ok, ih (i + 1) (by omega)]
        rw [List.drop_eq_getElem_cons hlt, List.take_succ_cons, List.all_cons]
  have := key n 0 (by omega)
  rw [List.drop_zero] at this
  exact this

/-- **C57** whenever fewer than `n` fields remain, and at least one, asking whether the `n` next are
empty reads beyond the card. -/
theorem C57_empty_beyond_always_false (pre rest : List Line) (n : Nat) (h0 : rest ≠ []) (hn : rest.length < n) :
    isNextEmpty n (after pre rest) = .ub := by
  have key : ∀ (n i : Nat), i ≤ rest.length → rest.length < i + n →
      isNextEmptyLoop (after pre rest) n i = .ub := by
    intro n
    induction n with
    | zero => intro i h1 h2; omega
    | succ n ih =>
      intro i h1 h2
      cases rest with
      | nil => exact absurd rfl h0
      | cons f fs =>
        rw [isNextEmptyLoop, sym_after_cons, if_neg (by simp), fieldAt_get]
        by_cases hlt : i < (f :: fs).length
        · rw [List.getElem?_eq_getElem hlt]
          simp only [Outcome.bind_ok, ih (i + 1) (by omega) (by omega)]
          rfl
        · rw [List.getElem?_eq_none (by omega)]
          rfl
  exact key n 0 (by omega) (by omega)

/-- A card of three fields, the second and third of which are blank. -/
example : isNextEmpty 2 (after [['A'], ['1']] [[' '], []]) = .ok true ∧
    isNextEmpty 3 (after [['A'], ['1']] [[' '], []]) = .ub := by decide +kernel

end Vega.FieldSpec
