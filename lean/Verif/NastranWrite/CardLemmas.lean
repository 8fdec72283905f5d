import Verif.NastranWrite.CellProps
import Mathlib.Tactic.SplitIfs

/-! # Reading the texts of a card that was written: helper lemmas -/
namespace Vega
namespace NastranWrite
open Nastran FieldSpec FixedSpec WriteSpec CellSpec

theorem says_int_read {n : Int} {t : Text} (hs : Says (.int n) t) (h : Number n) (dflt : Option Int)
    (pre rest : List Nastran.Line) :
    nextInt dflt (after pre (t :: rest)) = .ok (n, after (pre ++ [t]) rest) := by
  have : t = decimal n := hs
  subst this
  exact nextInt_decimal h dflt pre rest

theorem says_int_isInt {n : Int} {t : Text} (hs : Says (.int n) t) (pre rest : List Nastran.Line) :
    isNextInt (after pre (t :: rest)) = .ok true := by
  have : t = decimal n := hs
  subst this
  rw [isNextInt_after, trim_decimal, decimal_int]

theorem says_int_ne {n : Int} {t : Text} (hs : Says (.int n) t) : (trim t).isEmpty = false := by
  have : t = decimal n := hs
  subst this
  rw [trim_decimal]
  have he := decimal_int n
  simp only [Bool.and_eq_true] at he
  simpa using he.1

theorem says_real_trim {x : ℚ} {t : Text} (hs : Says (.real x) t) : trim t = t := by
  refine trim_plain fun c hc => ?_
  rcases hs.2.1 c hc with h | rfl | rfl | rfl
  · exact (digit_plain (c := c) (.inl h)).2.2.2.2.2.2
  all_goals decide

theorem says_real_notInt {x : ℚ} {t : Text} (hs : Says (.real x) t) (pre rest : List Nastran.Line) :
    isNextInt (after pre (t :: rest)) = .ok false := by
  rw [isNextInt_after, says_real_trim hs]
  have h : t.all intChar = false := by
    rw [List.all_eq_false]
    exact ⟨'.', hs.1, by decide⟩
  rw [h, Bool.and_false]

theorem says_real_ne {x : ℚ} {t : Text} (hs : Says (.real x) t) : (trim t).isEmpty = false := by
  rw [says_real_trim hs]
  simpa using List.ne_nil_of_mem hs.1

theorem isNextInt_end (pre : List Nastran.Line) : isNextInt (after pre []) = .ok false := rfl

theorem isNextInt_blank (pre rest : List Nastran.Line) : isNextInt (after pre ([] :: rest)) = .ok false := by
  rw [isNextInt_after]; rfl

theorem isEmpty_end (pre : List Nastran.Line) : isEmptyUntilNextKeyword (after pre []) = true := rfl

/-- Something remains on the card. -/
theorem isEmpty_after_false {pre rest : List Nastran.Line} {t : Nastran.Line} (ht : t ∈ rest)
    (hne : (trim t).isEmpty = false) : isEmptyUntilNextKeyword (after pre rest) = false := by
  unfold isEmptyUntilNextKeyword
  have hs : (after pre rest).sym = .field := by
    cases rest with
    | nil => simp at ht
    | cons f r => rfl
  rw [hs, if_neg (by simp), if_neg (by simp)]
  rw [List.all_eq_false]
  refine ⟨t, ?_, by simp [hne]⟩
  have : (after pre rest).fields.drop (after pre rest).pos = rest := by simp [after]
  rw [this]
  exact ht

theorem isNextDouble_end (pre : List Nastran.Line) : isNextDouble (after pre []) = .ok false := rfl

theorem isNextDouble_after (pre : List Nastran.Line) (f : Nastran.Line) (rest : List Nastran.Line) :
    isNextDouble (after pre (f :: rest)) =
      .ok (!((trim f).filter (· ≠ ' ')).isEmpty && ((trim f).filter (· ≠ ' ')).all realChar) := by
  unfold isNextDouble
  rw [sym_after_cons, if_neg (by simp), fieldAt_after]
  rfl

theorem says_real_isDouble {x : ℚ} {t : Text} (hs : Says (.real x) t) (pre rest : List Nastran.Line) :
    isNextDouble (after pre (t :: rest)) = .ok true := by
  have hf : t.filter (· ≠ ' ') = t := by
    rw [List.filter_eq_self]
    intro c hc
    rcases hs.2.1 c hc with h | rfl | rfl | rfl
    · simp only [decide_eq_true_eq]; rintro rfl; revert h; decide
    all_goals decide
  rw [isNextDouble_after, says_real_trim hs, hf]
  have h1 : t.isEmpty = false := by simpa using List.ne_nil_of_mem hs.1
  have h2 : t.all realChar = true := by
    rw [List.all_eq_true]
    intro c hc
    rcases hs.2.1 c hc with h | rfl | rfl | rfl
    · simp [realChar, h]
    all_goals decide
  rw [h1, h2]; rfl

/-- The integer in a field. -/
def textInt (d : Option Int) (t : Nastran.Line) : Outcome (Int × Cursor) := nextInt d (after [] [t])

/-- The real in a field. -/
def textReal (d : Option ℚ) (t : Nastran.Line) : Outcome (ℚ × Cursor) := nextDouble d (after [] [t])

theorem nextInt_text (d : Option Int) (t : Nastran.Line) (pre rest : List Nastran.Line) :
    nextInt d (after pre (t :: rest)) =
      (textInt d t >>= fun r => Outcome.ok (r.1, after (pre ++ [t]) rest)) := by
  unfold textInt nextInt
  rw [next_after, next_after]
  simp only
  split_ifs
  · cases d <;> rfl
  · split <;> rfl

theorem nextDouble_text (d : Option ℚ) (t : Nastran.Line) (pre rest : List Nastran.Line) :
    nextDouble d (after pre (t :: rest)) =
      (textReal d t >>= fun r => Outcome.ok (r.1, after (pre ++ [t]) rest)) := by
  unfold textReal nextDouble
  rw [next_after, next_after]
  simp only
  split_ifs
  · cases d <;> rfl
  · split <;> rfl

/-- A real that was written is read as the same number whatever the fields around it and the default are. -/
theorem says_real_read {x : ℚ} {t : Text} (hs : Says (.real x) t) : ∃ y, Near x y ∧
    ∀ (d : Option ℚ) (pre rest : List Nastran.Line),
      nextDouble d (after pre (t :: rest)) = .ok (y, after (pre ++ [t]) rest) := by
  obtain ⟨y, hy, hr⟩ := hs.2.2 [] [] none
  refine ⟨y, hy, fun d pre rest => ?_⟩
  unfold nextDouble at hr ⊢
  rw [next_after] at hr ⊢
  simp only at hr ⊢
  split_ifs at hr ⊢
  revert hr
  cases lexicalDouble (normReal (trim (trimRight t))) with
  | none => intro hr; simp at hr
  | some z =>
    intro hr
    simp only [Outcome.ok.injEq, Prod.mk.injEq] at hr ⊢
    exact ⟨hr.1, trivial⟩

/-- The keyword of a card, and the cursor after it. -/
theorem keyword_read {name : Text} (hne : name.isEmpty = false)
    (hup : toUpper (trim (toUpper (trimRight name))) = name) (rest : List Nastran.Line) :
    nextString (some []) (Cursor.start (name :: rest)) = .ok (name, after [name] rest) := by
  unfold nextString
  rw [C57_keyword]
  simp only [hup, hne, Bool.false_eq_true, if_false]

end NastranWrite
end Vega
