import Verif.Nastran.Fields
import Verif.Nastran.FixedLemmas
import Mathlib.Data.List.Basic

/-! # C25, C26, C57: lists of integers, reals, walking through a card -/
namespace Vega

/-! ## Specification -/
namespace FieldSpec
open Nastran

/-- A real number as written in Nastran files: sign, mantissa, exponent with or without a letter. -/
structure NReal where
  sign : Option Char
  mant : Line
  exp : Option (Option Char × Option Char × Line)

structure NReal.Valid (r : NReal) : Prop where
  sign : ∀ c ∈ r.sign, c = '+' ∨ c = '-'
  mant : r.mant ≠ [] ∧ ∀ c ∈ r.mant, c.isDigit = true ∨ c = '.'
  letter : ∀ l s ds, r.exp = some (l, s, ds) → ∀ c ∈ l, c = 'e' ∨ c = 'E' ∨ c = 'd' ∨ c = 'D'
  expSign : ∀ l s ds, r.exp = some (l, s, ds) → ∀ c ∈ s, c = '+' ∨ c = '-'
  expDigits : ∀ l s ds, r.exp = some (l, s, ds) → ds ≠ [] ∧ ∀ c ∈ ds, c.isDigit = true
  /-- without a letter the exponent must have a sign -/
  omitted : ∀ l s ds, r.exp = some (l, s, ds) → l ≠ none ∨ s ≠ none

/-- As written in the file. -/
def NReal.nastran (r : NReal) : Line :=
  r.sign.toList ++ r.mant ++ match r.exp with
    | none => []
    | some (l, s, ds) => l.toList ++ s.toList ++ ds

/-- The letter of standard notation. -/
def stdLetter : Option Char → Char
  | some 'e' => 'e'
  | some 'd' => 'e'
  | _ => 'E'

/-- The same number in standard notation. -/
def NReal.standard (r : NReal) : Line :=
  r.sign.toList ++ r.mant ++ match r.exp with
    | none => []
    | some (l, s, ds) => stdLetter l :: (s.toList ++ ds)

/-- Decimal notation of a natural number. -/
def digitsOf (n : Nat) : Line :=
  if n < 10 then [Char.ofNat (48 + n)] else digitsOf (n / 10) ++ [Char.ofNat (48 + n % 10)]
termination_by n
decreasing_by omega

/-- Decimal notation of an integer. -/
def decimal (n : Int) : Line := if n < 0 then '-' :: digitsOf n.natAbs else digitsOf n.natAbs

/-- Items of a list of ids. -/
inductive Item where
  | one (n : Int)
  | thru (a b : Int)

/-- All integers from `lo` to `hi`. -/
def between (lo hi : Int) : List Int := (List.range (hi - lo + 1).toNat).map fun k : Nat => lo + (k : Int)

/-- The ids an item denotes. -/
def Item.values : Item → List Int
  | .one n => [n]
  | .thru a b => between (min a b) (max a b)

/-- Numbers are within the range of `int`; the upper end of a range is not its last value. -/
def Item.InRange : Item → Prop
  | .one n => intMin ≤ n ∧ n ≤ intMax
  | .thru a b => intMin ≤ min a b ∧ max a b < intMax

/-- The fields in which a list of items is written: blanks around the texts and the case of `THRU`
do not matter. -/
inductive Writes : List Item → List Line → Prop where
  | nil : Writes [] []
  | one {n : Int} {f : Line} {is : List Item} {fs : List Line} : trim f = decimal n → Writes is fs →
      Writes (.one n :: is) (f :: fs)
  | thru {a b : Int} {f t g : Line} {is : List Item} {fs : List Line} : trim f = decimal a →
      toUpper (trim t) = ['T', 'H', 'R', 'U'] → trim g = decimal b → Writes is fs →
      Writes (.thru a b :: is) (f :: t :: g :: fs)

/-- The list of ids ends here: end of card or a field that is no integer, `THRU` or `BY`. -/
def Ends (post : List Line) : Prop :=
  ∀ h, post.head? = some h → (trim h = [] ∨ ∃ c ∈ trim h, intChar c = false) ∧
    toUpper (trim h) ≠ ['T', 'H', 'R', 'U'] ∧ toUpper (trim h) ≠ ['B', 'Y']

/-- The state of a card whose fields `pre` have been read, the keyword at least, and `rest` remain. -/
def after (pre rest : List Line) : Cursor :=
  ⟨pre ++ rest, pre.length, if rest.isEmpty then .keyword else .field⟩

/-- What a command may do with the fields of its card. -/
inductive Op where
  | next | skip (n : Nat) | skipAll | isEmptyToEnd | isInt | isWord (w : Line) | isEmpty | atEnd

inductive Out where
  | text (l : Line) | flag (b : Bool) | none
  deriving DecidableEq

/-- The intended effect, in terms of the fields that remain. -/
def specStep (rest : List Line) : Op → Out × List Line
  | .next => match rest with
    | [] => (.text [], [])
    | f :: fs => (.text (trimRight f), fs)
  | .skip n => (.none, rest.drop n)
  | .skipAll => (.none, [])
  | .isEmptyToEnd => (.flag (rest.all fun f => (trim f).isEmpty), rest)
  | .isInt => (.flag (match rest with
    | [] => false
    | f :: _ => !(trim f).isEmpty && (trim f).all intChar), rest)
  | .isWord w => (.flag (match rest with
    | [] => false
    | f :: _ => decide (toUpper (trim f) = w)), rest)
  | .isEmpty => (.flag (match rest with
    | [] => false
    | f :: _ => (trim f).isEmpty), rest)
  | .atEnd => (.flag rest.isEmpty, rest)

def specRun : List Line → List Op → List Out × List Line
  | rest, [] => ([], rest)
  | rest, op :: ops =>
    let r := specStep rest op
    let rs := specRun r.2 ops
    (r.1 :: rs.1, rs.2)

/-- The same on the tokenizer. -/
def opStep (c : Cursor) : Op → Outcome (Out × Cursor)
  | .next => .ok (.text (nextSymbolString c).1, (nextSymbolString c).2)
  | .skip n => do
    let c' ← Nastran.skip n c
    .ok (.none, c')
  | .skipAll => .ok (.none, skipToNextKeyword c)
  | .isEmptyToEnd => .ok (.flag (isEmptyUntilNextKeyword c), c)
  | .isInt => do
    let b ← isNextInt c
    .ok (.flag b, c)
  | .isWord w => do
    let b ← isNextWord w c
    .ok (.flag b, c)
  | .isEmpty => do
    let b ← isNextEmpty 1 c
    .ok (.flag b, c)
  | .atEnd => .ok (.flag (c.sym = .keyword), c)

def opRun : Cursor → List Op → Outcome (List Out × Cursor)
  | c, [] => .ok ([], c)
  | c, op :: ops => do
    let r ← opStep c op
    let rs ← opRun r.2 ops
    .ok (r.1 :: rs.1, rs.2)

end FieldSpec

namespace Nastran
open FieldSpec

/-! ## Helper lemmas -/

theorem dropWhile_twice (p : Char → Bool) (l : Line) :
    (l.dropWhile p).dropWhile p = l.dropWhile p := by
  induction l with
  | nil => rfl
  | cons c cs ih =>
    rw [List.dropWhile_cons]
    split
    · exact ih
    · rename_i h
      rw [List.dropWhile_cons, if_neg h]

theorem trimRight_trimRight (l : Line) : trimRight (trimRight l) = trimRight l := by
  unfold trimRight
  rw [List.reverse_reverse, dropWhile_twice]

theorem dropWhile_trimRight (l : Line) :
    (trimRight l).dropWhile isSpace = trimRight (l.dropWhile isSpace) := by
  induction l with
  | nil => rfl
  | cons c cs ih =>
    have hr : trimRight (c :: cs) = if isSpace c && (trimRight cs).isEmpty then [] else c :: trimRight cs := by
      unfold trimRight
      rw [List.reverse_cons, List.dropWhile_append]
      cases e : cs.reverse.dropWhile isSpace with
      | nil =>
        by_cases h : isSpace c = true <;> simp [h]
      | cons a b => simp
    by_cases h : isSpace c = true
    · rw [List.dropWhile_cons, if_pos h, ← ih, hr]
      by_cases he : (trimRight cs).isEmpty = true
      · have : trimRight cs = [] := by simpa using he
        simp [h, this]
      · simp [h, he]
    · rw [List.dropWhile_cons, if_neg h, hr]
      simp [h]

theorem trim_trimRight (l : Line) : trim (trimRight l) = trim l := by
  unfold trim
  rw [dropWhile_trimRight, trimRight_trimRight]

theorem next_after (pre : List Line) (f : Line) (rest : List Line) :
    nextSymbolString (after pre (f :: rest)) = (trimRight f, after (pre ++ [f]) rest) := by
  unfold nextSymbolString after
  simp only [List.isEmpty_cons, Bool.false_eq_true, if_false]
  rw [List.getElem?_append_right (Nat.le_refl _), Nat.sub_self]
  simp only [List.getElem?_cons_zero, List.append_assoc, List.singleton_append, List.length_append,
    List.length_cons, List.length_nil]
  cases rest with
  | nil => simp
  | cons g gs => simp

theorem fieldAt_after (pre : List Line) (f : Line) (rest : List Line) :
    fieldAt (after pre (f :: rest)) 0 = .ok (trim f) := by
  unfold fieldAt after
  simp

theorem skip_after (pre rest : List Line) (n : Nat) :
    skip n (after pre rest) = .ok (after (pre ++ rest.take n) (rest.drop n)) := by
  unfold skip
  have hs : (after pre rest).sym ≠ .eof := by
    unfold after; dsimp only; split <;> simp
  rw [if_neg hs]
  unfold after
  simp only [List.length_append, List.append_assoc, List.take_append_drop, List.length_take,
    List.isEmpty_iff, List.drop_eq_nil_iff]
  congr 2
  · omega
  · by_cases h : rest.length ≤ n
    · rw [if_pos h, if_pos (by omega)]
    · rw [if_neg h, if_neg (by omega)]

theorem sym_after_cons (pre : List Line) (f : Line) (rest : List Line) :
    (after pre (f :: rest)).sym = .field := rfl

theorem sym_after_nil (pre : List Line) : (after pre []).sym = .keyword := rfl

theorem isNextInt_after (pre : List Line) (f : Line) (rest : List Line) :
    isNextInt (after pre (f :: rest)) = .ok (!(trim f).isEmpty && (trim f).all intChar) := by
  unfold isNextInt
  rw [sym_after_cons, if_neg (by simp), fieldAt_after]
  rfl

theorem isNextWord_after (w : Line) (pre : List Line) (f : Line) (rest : List Line) :
    isNextWord w (after pre (f :: rest)) = .ok (decide (toUpper (trim f) = w)) := by
  unfold isNextWord
  rw [sym_after_cons, if_neg (by simp), fieldAt_after]
  rfl

/-! ### Decimal notation -/

theorem digit_char (d : Nat) (h : d < 10) :
    digit? (Char.ofNat (48 + d)) = some d ∧ intChar (Char.ofNat (48 + d)) = true ∧
    Char.ofNat (48 + d) ≠ '-' ∧ Char.ofNat (48 + d) ≠ '+' ∧
    (Char.ofNat (48 + d)).toUpper = Char.ofNat (48 + d) ∧ Char.ofNat (48 + d) ≠ 'B' := by
  have : d ∈ List.range 10 := by simpa using h
  revert this
  revert d
  decide

theorem digits_append (l : Line) (c : Char) : ∀ acc, digits? acc (l ++ [c]) =
    (digits? acc l).bind fun v => (digit? c).map fun d => v * 10 + d := by
  induction l with
  | nil => intro acc; simp only [List.nil_append, digits?]; cases digit? c <;> rfl
  | cons a l ih =>
    intro acc
    rw [List.cons_append, digits?, digits?]
    cases digit? a with
    | none => rfl
    | some d => exact ih _

theorem digits_digitsOf (n : Nat) : digits? 0 (digitsOf n) = some n := by
  induction n using Nat.strongRecOn with
  | ind n ih =>
    rw [digitsOf]
    split
    · rename_i h
      simp only [digits?, (digit_char n h).1]
      simp
    · rename_i h
      rw [digits_append, ih (n / 10) (by omega), (digit_char (n % 10) (by omega)).1]
      simp
      omega

theorem digitsOf_mem (n : Nat) : ∀ c ∈ digitsOf n, ∃ d < 10, c = Char.ofNat (48 + d) := by
  induction n using Nat.strongRecOn with
  | ind n ih =>
    rw [digitsOf]
    split
    · rename_i h
      intro c hc
      simp only [List.mem_singleton] at hc
      exact ⟨n, h, hc⟩
    · rename_i h
      intro c hc
      rcases List.mem_append.1 hc with hc | hc
      · exact ih (n / 10) (by omega) c hc
      · simp only [List.mem_singleton] at hc
        exact ⟨n % 10, by omega, hc⟩

theorem digitsOf_ne (n : Nat) : digitsOf n ≠ [] := by
  rw [digitsOf]
  split <;> simp

theorem parse_decimal {n : Int} (h1 : intMin ≤ n) (h2 : n ≤ intMax) : parseInt (decimal n) = some n := by
  unfold parseInt decimal
  by_cases h : n < 0
  · rw [if_pos h]
    have he : (digitsOf n.natAbs).isEmpty = false := by
      simpa using digitsOf_ne n.natAbs
    have hn : -((n.natAbs : Nat) : Int) = n := by omega
    simp [he, digits_digitsOf, hn, h1, h2]
  · rw [if_neg h]
    cases e : digitsOf n.natAbs with
    | nil => exact absurd e (digitsOf_ne _)
    | cons c cs =>
      obtain ⟨d, hd, hc⟩ := digitsOf_mem n.natAbs c (by simp [e])
      have hf := digit_char d hd
      have hn : ((n.natAbs : Nat) : Int) = n := by omega
      have hv := digits_digitsOf n.natAbs
      rw [e] at hv
      have c1 : ¬ c = '-' := by rw [hc]; exact hf.2.2.1
      have c2 : ¬ c = '+' := by rw [hc]; exact hf.2.2.2.1
      simp [c1, c2, hv]
      omega

theorem decimal_int (n : Int) : (!(decimal n).isEmpty && (decimal n).all intChar) = true := by
  have hd : (digitsOf n.natAbs).all intChar = true := by
    rw [List.all_eq_true]
    intro c hc
    obtain ⟨d, hd, rfl⟩ := digitsOf_mem _ c hc
    exact (digit_char d hd).2.1
  have hne := digitsOf_ne n.natAbs
  unfold decimal
  by_cases h : n < 0
  · rw [if_pos h]
    simp only [List.isEmpty_cons, Bool.not_false, List.all_cons, hd, Bool.and_true, Bool.true_and]
    decide
  · rw [if_neg h]
    simp [hd, hne]

theorem intChar_noB {c : Char} (h : intChar c = true) : c.toUpper ≠ 'B' ∧ c.toUpper ≠ 'T' := by
  unfold intChar at h
  simp only [Bool.or_eq_true, Bool.and_eq_true, decide_eq_true_eq] at h
  rcases h with rfl | ⟨h1, h2⟩
  · decide
  · have h1' : 48 ≤ c.toNat := h1
    have h2' : c.toNat ≤ 57 := h2
    have : c = Char.ofNat (48 + (c.toNat - 48)) := by
      have : 48 + (c.toNat - 48) = c.toNat := by omega
      rw [this, Char.ofNat_toNat]
    have hd : c.toNat - 48 < 10 := by omega
    rw [this]
    generalize c.toNat - 48 = d at hd
    have hm : d ∈ List.range 10 := by simpa using hd
    revert hm
    revert d
    decide

theorem int_not_word {t : Line} (h : (!t.isEmpty && t.all intChar) = true) :
    toUpper t ≠ ['B', 'Y'] ∧ toUpper t ≠ ['T', 'H', 'R', 'U'] := by
  cases t with
  | nil => simp at h
  | cons c cs =>
    simp only [List.isEmpty_cons, Bool.not_false, List.all_cons, Bool.and_eq_true, Bool.true_and] at h
    have := intChar_noB h.1
    constructor <;> intro e <;> simp only [toUpper, List.map_cons, List.cons.injEq] at e
    · exact this.1 e.1
    · exact this.2 e.1

theorem nextInt_after {pre : List Line} {f : Line} {rest : List Line} {n : Int}
    (hf : trim f = decimal n) (h1 : intMin ≤ n) (h2 : n ≤ intMax) :
    nextInt none (after pre (f :: rest)) = .ok (n, after (pre ++ [f]) rest) := by
  have hne : (decimal n).isEmpty = false := by
    have := decimal_int n
    simp only [Bool.and_eq_true, Bool.not_eq_true'] at this
    exact this.1
  unfold nextInt
  rw [next_after]
  simp only [trim_trimRight, hf, hne, Bool.false_eq_true, if_false, parse_decimal h1 h2]

/-! ### Ranges -/

theorem between_empty {lo hi : Int} (h : hi < lo) : between lo hi = [] := by
  have : (hi - lo + 1).toNat = 0 := by omega
  simp [between, this]

theorem between_cons {lo hi : Int} (h : lo ≤ hi) : between lo hi = lo :: between (lo + 1) hi := by
  have e : (hi - lo + 1).toNat = (hi - (lo + 1) + 1).toNat + 1 := by omega
  unfold between
  rw [e, List.range_succ_eq_map, List.map_cons, List.map_map]
  simp only [List.cons.injEq]
  refine ⟨by simp, List.map_congr_left fun k _ => ?_⟩
  simp only [Function.comp]
  push_cast
  omega

theorem rangeLoop_one {hi : Int} (hhi : hi < intMax) : ∀ (fuel : Nat) (i : Int), intMin ≤ i →
    i ≤ hi + 1 → (hi - i + 1).toNat < fuel → rangeLoop hi 1 fuel i = .ok (between i hi) := by
  intro fuel
  induction fuel with
  | zero => intro i _ _ h; omega
  | succ n ih =>
    intro i hmin hi1 hf
    rw [rangeLoop, if_neg (by omega)]
    by_cases h : i ≤ hi
    · rw [if_pos h, ih (i + 1) (by omega) (by omega) (by omega), between_cons h]
      rfl
    · rw [if_neg h, between_empty (by omega)]

theorem pushRange_one {lo hi : Int} (h : lo ≤ hi) (hhi : hi < intMax) (hlo : intMin ≤ lo) :
    pushRange lo hi 1 = .ok (between (lo + 1) hi) := by
  unfold pushRange
  rw [if_neg (by omega), if_neg (by omega)]
  exact rangeLoop_one hhi _ _ (by omega) (by omega) (by omega)

/-! ### The list of ids -/

theorem head_not_by {is : List Item} {fs post : List Line} (hw : Writes is fs) (hp : Ends post)
    (pre : List Line) : isNextBY (after pre (fs ++ post)) = .ok false := by
  have key : ∀ (f : Line) (r : List Line), toUpper (trim f) ≠ ['B', 'Y'] →
      isNextBY (after pre (f :: r)) = .ok false := by
    intro f r h
    unfold isNextBY
    rw [isNextWord_after]
    simp [h]
  cases hw with
  | nil =>
    cases post with
    | nil => rfl
    | cons h t => exact key h t (hp h rfl).2.2
  | one hf _ =>
    refine key _ _ ?_
    rw [hf]
    exact (int_not_word (decimal_int _)).1
  | thru hf _ _ _ =>
    refine key _ _ ?_
    rw [hf]
    exact (int_not_word (decimal_int _)).1

theorem loop_int {fuel : Nat} {acc : List Int} {pre : List Line} {f : Line} {rest : List Line} {n : Int}
    (hf : trim f = decimal n) (h1 : intMin ≤ n) (h2 : n ≤ intMax) :
    nextIntsLoop (fuel + 1) acc (after pre (f :: rest)) =
      nextIntsLoop fuel (acc ++ [n]) (after (pre ++ [f]) rest) := by
  rw [nextIntsLoop, isNextInt_after, hf, decimal_int, nextInt_after hf h1 h2]
  rfl

theorem thru_not_int {t : Line} (h : toUpper t = ['T', 'H', 'R', 'U']) :
    (!t.isEmpty && t.all intChar) = false := by
  rw [← Bool.not_eq_true]
  intro h'
  exact (int_not_word h').2 h

theorem loop_thru {fuel : Nat} {acc : List Int} {pre : List Line} {t g : Line} {rest : List Line}
    {a b : Int} (ht : toUpper (trim t) = ['T', 'H', 'R', 'U']) (hg : trim g = decimal b)
    (hr : (Item.thru a b).InRange)
    (hby : isNextBY (after (pre ++ [t] ++ [g]) rest) = .ok false) :
    nextIntsLoop (fuel + 1) (acc ++ [a]) (after pre (t :: g :: rest)) =
      nextIntsLoop fuel (acc ++ between (min a b) (max a b)) (after (pre ++ [t] ++ [g]) rest) := by
  obtain ⟨hr1, hr2⟩ := hr
  have hb1 : intMin ≤ b := by omega
  have hb2 : b ≤ intMax := by omega
  have hstep : thruStep (acc ++ [a]) (after pre (t :: g :: rest)) =
      .ok (acc ++ between (min a b) (max a b), after (pre ++ [t] ++ [g]) rest) := by
    unfold thruStep
    rw [skip_after]
    simp only [List.take_succ_cons, List.take_zero, List.drop_succ_cons, List.drop_zero,
      Outcome.bind_ok, List.getLast?_concat, nextInt_after hg hb1 hb2, hby, Bool.false_eq_true,
      if_false, List.dropLast_concat]
    by_cases h : a > b
    · have e1 : min a b = b := by omega
      have e2 : max a b = a := by omega
      simp only [h, if_true, e1, e2]
      rw [pushRange_one (by omega) (by omega) hb1]
      simp only [Outcome.bind_ok]
      rw [between_cons (lo := b) (hi := a) (by omega)]
      simp
    · have e1 : min a b = a := by omega
      have e2 : max a b = b := by omega
      simp only [h, if_false, e1, e2]
      rw [pushRange_one (by omega) (by omega) (by omega)]
      simp only [Outcome.bind_ok]
      rw [between_cons (lo := a) (hi := b) (by omega)]
      simp
  rw [nextIntsLoop, isNextInt_after, thru_not_int ht]
  simp only [Outcome.bind_ok, Bool.false_eq_true, if_false, isNextTHRU, isNextWord_after, ht,
    decide_true, if_true, hstep]

theorem loop_items {is : List Item} {fs : List Line} (hw : Writes is fs) (post : List Line)
    (hp : Ends post) : ∀ (fuel : Nat) (acc : List Int) (pre : List Line), (∀ i ∈ is, i.InRange) →
    fs.length < fuel →
    nextIntsLoop fuel acc (after pre (fs ++ post)) =
      .ok (acc ++ is.flatMap Item.values, after (pre ++ fs) post) := by
  induction hw with
  | nil =>
    intro fuel acc pre _ hf
    obtain ⟨n, rfl⟩ : ∃ n, fuel = n + 1 := ⟨fuel - 1, by simp at hf; omega⟩
    rw [nextIntsLoop]
    cases post with
    | nil =>
      have h1 : isNextInt (after pre []) = .ok false := rfl
      have h2 : isNextTHRU (after pre []) = .ok false := rfl
      simp [h1, h2]
    | cons h t =>
      obtain ⟨hi, ht, -⟩ := hp h rfl
      have e : (!(trim h).isEmpty && (trim h).all intChar) = false := by
        rcases hi with hi | ⟨c, hc, hc'⟩
        · simp [hi]
        · rw [Bool.and_eq_false_iff]
          right
          rw [List.all_eq_false]
          exact ⟨c, hc, by simp [hc']⟩
      simp [isNextInt_after, e, isNextTHRU, isNextWord_after, ht]
  | @one n f is fs hf hw ih =>
    intro fuel acc pre hr hfl
    obtain ⟨m, rfl⟩ : ∃ m, fuel = m + 1 := ⟨fuel - 1, by simp at hfl; omega⟩
    have hn : intMin ≤ n ∧ n ≤ intMax := hr (.one n) (by simp)
    rw [List.cons_append, loop_int hf hn.1 hn.2,
      ih m _ _ (fun i hi => hr i (by simp [hi])) (by simp at hfl; omega)]
    simp [Item.values]
  | @thru a b f t g is fs hf ht hg hw ih =>
    intro fuel acc pre hr hfl
    obtain ⟨m, rfl⟩ : ∃ m, fuel = m + 1 + 1 := ⟨fuel - 2, by simp at hfl; omega⟩
    have hi : intMin ≤ min a b ∧ max a b < intMax := hr (.thru a b) (by simp)
    simp only [List.cons_append]
    rw [loop_int hf (by omega) (by omega), loop_thru ht hg hi (head_not_by hw hp _),
      ih m _ _ (fun i hi => hr i (by simp [hi])) (by simp at hfl; omega)]
    simp [Item.values]

/-! ### Reals -/

theorem findFrom1_append {p : Char → Bool} {pre t : Line} (hne : pre ≠ [])
    (h : ∀ c ∈ pre.tail, p c = false) :
    findFrom1 p (pre ++ t) = (t.findIdx? p).map (· + pre.length) := by
  cases pre with
  | nil => exact absurd rfl hne
  | cons x xs =>
    rw [List.cons_append, findFrom1]
    rw [List.tail_cons] at h
    rw [List.findIdx?_append]
    have : xs.findIdx? p = none := by
      rw [List.findIdx?_eq_none_iff]
      exact h
    rw [this]
    cases t.findIdx? p <;> simp [Nat.add_assoc]

theorem trim_filter {b : Line} (h : ∀ c ∈ b, isSpace c = true → c = ' ') :
    (trim b).filter (fun c => c ≠ ' ') = b.filter fun c => c ≠ ' ' := by
  have d : ∀ m : Line, (∀ c ∈ m, isSpace c = true → c = ' ') →
      (m.dropWhile isSpace).filter (fun c => c ≠ ' ') = m.filter fun c => c ≠ ' ' := by
    intro m
    induction m with
    | nil => intro _; rfl
    | cons c cs ih =>
      intro hm
      rw [List.dropWhile_cons]
      split
      · rename_i hc
        rw [ih fun x hx => hm x (by simp [hx]), hm c (by simp) hc]
        simp
      · rfl
  have hsub : ∀ c ∈ b.dropWhile isSpace, isSpace c = true → c = ' ' :=
    fun c hc => h c ((List.dropWhile_sublist _).subset hc)
  unfold trim trimRight
  rw [List.filter_reverse, d _ (fun c hc => hsub c (by simpa using hc)), List.filter_reverse,
    List.reverse_reverse, d _ h]

theorem digit_plain {c : Char} (h : c.isDigit = true ∨ c = '.') :
    c ≠ '+' ∧ c ≠ '-' ∧ c ≠ 'e' ∧ c ≠ 'E' ∧ c ≠ 'd' ∧ c ≠ 'D' ∧ isSpace c = false := by
  refine ⟨?_, ?_, ?_, ?_, ?_, ?_, ?_⟩
  all_goals first
    | (rintro rfl; revert h; decide)
    | skip
  rw [← Bool.not_eq_true]
  intro hs
  unfold isSpace at hs
  simp only [Bool.or_eq_true, decide_eq_true_eq] at hs
  rcases hs with ((((rfl | rfl) | rfl) | rfl) | rfl) | rfl <;> (revert h; decide)

/-! ## C25 -/

/-- **C25, partial.** A list of ids and ranges `a THRU b`, in either order of bounds, written in any number of
fields after the first fields `pre` of a card, is read as the ids it denotes, each range
completely and once, in order, and reading stops right after it. Missing, and false (see below): ranges
with `BY`. Also excluded: a range that ends at the largest `int`. -/
theorem C25_thru_partial (is : List Item) (pre fs post : List Line) (hw : Writes is fs)
    (hr : ∀ i ∈ is, i.InRange) (hp : Ends post) :
    nextInts (after pre (fs ++ post)) = .ok (is.flatMap Item.values, after (pre ++ fs) post) := by
  have := loop_items hw post hp ((after pre (fs ++ post)).fields.length + 1) [] pre hr (by
    simp [after]; omega)
  rw [List.nil_append] at this
  exact this

theorem C25_between (lo hi n : Int) : n ∈ between lo hi ↔ lo ≤ n ∧ n ≤ hi := by
  simp only [between, List.mem_map, List.mem_range]
  constructor
  · rintro ⟨k, hk, rfl⟩; omega
  · intro h
    exact ⟨(n - lo).toNat, by omega, by omega⟩

/-- Two ids and a range in decreasing order. -/
example : ∃ fs, Writes [.one 7, .thru 5 2, .one (-1)] fs ∧ Ends [[' ']] :=
  ⟨[decimal 7, decimal 5, "thru".toList, decimal 2, decimal (-1)], by
    have h : ∀ n : Int, trim (decimal n) = decimal n := by
      intro n
      have := decimal_int n
      simp only [Bool.and_eq_true, List.all_eq_true] at this
      have hs : ∀ c, intChar c = true → isSpace c = false := by
        intro c hc
        rw [← Bool.not_eq_true]
        intro hs
        unfold isSpace at hs
        simp only [Bool.or_eq_true, decide_eq_true_eq] at hs
        rcases hs with ((((rfl | rfl) | rfl) | rfl) | rfl) | rfl <;> (revert hc; decide)
      have d : ∀ m : Line, (∀ c ∈ m, isSpace c = false) → m.dropWhile isSpace = m := by
        intro m hm
        cases m with
        | nil => rfl
        | cons c cs => rw [List.dropWhile_cons, hm c (by simp)]; simp
      unfold trim trimRight
      rw [d _ fun c hc => hs c (this.2 c hc), d _ fun c hc => hs c (this.2 c (by simpa using hc)),
        List.reverse_reverse]
    exact .one (h 7) (.thru (h 5) (by decide) (h 2) (.one (h (-1)) .nil)), by
    intro h hh
    simp at hh
    subst hh
    decide⟩
example : nextInts (after [['S', 'E', 'T']] (["7", " 5", "Thru", "2 ", "-1", ""].map String.toList)) =
    .ok ([7, 2, 3, 4, 5, -1], after (["SET", "7", " 5", "Thru", "2 ", "-1"].map String.toList) [[]]) := by
  decide +kernel

/-- **C25, false with `BY`.** `1 THRU 10 BY 3` is read as 1, 2, 5, 8 and not as 1, 4, 7, 10. -/
theorem C25_by_false : (nextInts (after [['S', 'E', 'T']]
      (["1", "THRU", "10", "BY", "3"].map String.toList))).toOption.map Prod.fst =
    some [1, 2, 5, 8] := by decide +kernel

/-- **C25.** `THRU` before any id is not diagnosed: undefined behaviour. -/
theorem C25_leading_thru_false : nextInts (after [['S', 'E', 'T']] (["THRU", "10"].map String.toList)) = .ub := by
  decide +kernel

/-- **C25.** `BY 0` never ends. -/
theorem C25_by_zero_false : nextInts (after [['S', 'E', 'T']]
      (["1", "THRU", "10", "BY", "0"].map String.toList)) = .diverges := by decide +kernel

/-! ## C26 -/

/-- **C26.** A real written in any Nastran notation, with blanks anywhere, is rewritten to
standard notation, with the same sign, mantissa, exponent sign and exponent digits. -/
theorem C26_standard (r : NReal) (hv : r.Valid) (b : Line)
    (hb : b.filter (fun c => c ≠ ' ') = r.nastran) : normReal (trim b) = r.standard := by
  have hmant : ∀ c ∈ r.mant, c.isDigit = true ∨ c = '.' := hv.mant.2
  have hne : r.sign.toList ++ r.mant ≠ [] := by simp [hv.mant.1]
  -- blanks
  have hspace : ∀ c ∈ r.nastran, isSpace c = false := by
    intro c hc
    unfold NReal.nastran at hc
    have hsg : ∀ c : Char, c = '+' ∨ c = '-' → isSpace c = false := by
      rintro c (rfl | rfl) <;> decide
    rcases List.mem_append.1 hc with hc | hc
    · rcases List.mem_append.1 hc with hc | hc
      · exact hsg c (hv.sign c (by simpa using hc))
      · exact (digit_plain (hmant c hc)).2.2.2.2.2.2
    · cases he : r.exp with
      | none => rw [he] at hc; simp at hc
      | some e =>
        obtain ⟨l, s, ds⟩ := e
        rw [he] at hc
        simp only [List.mem_append] at hc
        rcases hc with (hc | hc) | hc
        · rcases hv.letter l s ds he c (by simpa using hc) with rfl | rfl | rfl | rfl <;> decide
        · exact hsg c (hv.expSign l s ds he c (by simpa using hc))
        · exact (digit_plain (.inl ((hv.expDigits l s ds he).2 c hc))).2.2.2.2.2.2
  have hbs : ∀ c ∈ b, isSpace c = true → c = ' ' := by
    intro c hc hs
    by_contra hne
    have : c ∈ r.nastran := by
      rw [← hb]
      exact List.mem_filter.2 ⟨hc, by simpa using hne⟩
    rw [hspace c this] at hs
    cases hs
  -- letters
  have hmap : ∀ v : Line, (((v.map fun c => if c = 'd' then 'e' else c).map
      fun c => if c = 'D' then 'E' else c).filter fun c => c ≠ ' ') =
      (v.filter fun c => c ≠ ' ').map fun c => if c = 'd' then 'e' else if c = 'D' then 'E' else c := by
    intro v
    rw [List.map_map]
    induction v with
    | nil => rfl
    | cons c cs ih =>
      rw [List.map_cons, List.filter_cons, List.filter_cons, ih]
      by_cases h1 : c = 'd'
      · subst h1; simp
      · by_cases h2 : c = 'D'
        · subst h2; simp
        · by_cases h3 : c = ' '
          · subst h3; simp
          · simp [h1, h2, h3]
  have hfix : ∀ v : Line, (∀ c ∈ v, c ≠ 'd' ∧ c ≠ 'D') →
      (v.map fun c => if c = 'd' then 'e' else if c = 'D' then 'E' else c) = v := by
    intro v hv
    conv_rhs => rw [← List.map_id v]
    refine List.map_congr_left fun c hc => ?_
    simp [(hv c hc).1, (hv c hc).2]
  have hpre : ∀ c ∈ r.sign.toList ++ r.mant, c ≠ 'd' ∧ c ≠ 'D' := by
    intro c hc
    rcases List.mem_append.1 hc with hc | hc
    · rcases hv.sign c (by simpa using hc) with rfl | rfl <;> decide
    · have := digit_plain (hmant c hc)
      exact ⟨this.2.2.2.2.1, this.2.2.2.2.2.1⟩
  have htail : ∀ c ∈ (r.sign.toList ++ r.mant).tail, c ∈ r.mant := by
    intro c hc
    cases hs : r.sign with
    | none => rw [hs] at hc; simp at hc; exact List.mem_of_mem_tail hc
    | some x => rw [hs] at hc; simpa using hc
  have hnosign : ∀ c ∈ (r.sign.toList ++ r.mant).tail, (decide (c = '+') || decide (c = '-')) = false := by
    intro c hc
    have := digit_plain (hmant c (htail c hc))
    simp [this.1, this.2.1]
  have hnolet : ∀ c ∈ (r.sign.toList ++ r.mant).tail, (decide (c = 'e') || decide (c = 'E')) = false := by
    intro c hc
    have := digit_plain (hmant c (htail c hc))
    simp [this.2.2.1, this.2.2.2.1]
  have hds : ∀ ds : Line, (∀ c ∈ ds, c.isDigit = true) →
      ds.findIdx? (fun c => decide (c = '+') || decide (c = '-')) = none ∧
      ds.findIdx? (fun c => decide (c = 'e') || decide (c = 'E')) = none ∧
      (∀ c ∈ ds, c ≠ 'd' ∧ c ≠ 'D') := by
    intro ds h
    refine ⟨?_, ?_, ?_⟩
    · rw [List.findIdx?_eq_none_iff]
      intro c hc
      have := digit_plain (.inl (h c hc))
      simp [this.1, this.2.1]
    · rw [List.findIdx?_eq_none_iff]
      intro c hc
      have := digit_plain (.inl (h c hc))
      simp [this.2.2.1, this.2.2.2.1]
    · intro c hc
      have := digit_plain (.inl (h c hc))
      exact ⟨this.2.2.2.2.1, this.2.2.2.2.2.1⟩
  have hpos : 0 < (r.sign.toList ++ r.mant).length := List.length_pos_iff.2 hne
  unfold normReal
  simp only [hmap, trim_filter hbs, hb]
  unfold NReal.nastran NReal.standard
  rw [List.map_append, hfix _ hpre]
  generalize r.sign.toList ++ r.mant = pre at *
  cases he : r.exp with
  | none =>
    simp only [List.map_nil, List.append_nil]
    have := findFrom1_append (t := []) hne hnosign
    simp only [List.append_nil, List.findIdx?_nil, Option.map_none] at this
    rw [this]
  | some e =>
    obtain ⟨l, s, ds⟩ := e
    obtain ⟨hd1, hd2, hd3⟩ := hds ds (hv.expDigits l s ds he).2
    simp only [List.map_append, hfix ds hd3]
    rw [findFrom1_append hne hnosign, findFrom1_append hne hnolet]
    have hE : ∀ c, c ∈ l → (if c = 'd' then 'e' else if c = 'D' then 'E' else c) = stdLetter l ∧
        (stdLetter l = 'e' ∨ stdLetter l = 'E') := by
      intro c hc
      cases l with
      | none => simp at hc
      | some x =>
        simp at hc
        subst hc
        rcases hv.letter _ _ _ he x (by simp) with rfl | rfl | rfl | rfl <;> decide
    have hS : ∀ c, c ∈ s → c = '+' ∨ c = '-' := fun c hc => hv.expSign _ _ _ he c hc
    cases s with
    | none =>
      cases l with
      | none => rcases hv.omitted _ _ _ he with h | h <;> exact absurd rfl h
      | some x =>
        obtain ⟨h1, h2⟩ := hE x rfl
        have h3 : (decide (stdLetter (some x) = '+') || decide (stdLetter (some x) = '-')) = false := by
          rcases h2 with h | h <;> rw [h] <;> decide
        simp only [Option.toList_some, Option.toList_none, List.map_cons, List.map_nil, h1,
          List.append_nil, List.singleton_append, List.nil_append, List.findIdx?_cons, h3, hd1]
        simp
    | some y =>
      have hy := hS y rfl
      have hy1 : (decide (y = '+') || decide (y = '-')) = true := by
        rcases hy with rfl | rfl <;> decide
      have hy2 : (if y = 'd' then 'e' else if y = 'D' then 'E' else y) = y := by
        rcases hy with rfl | rfl <;> decide
      have hy3 : (decide (y = 'e') || decide (y = 'E')) = false := by
        rcases hy with rfl | rfl <;> decide
      cases l with
      | none =>
        simp only [Option.toList_some, Option.toList_none, List.map_cons, List.map_nil, hy2,
          List.nil_append, List.singleton_append, List.findIdx?_cons, hy1, hy3, hd2]
        simp [stdLetter, hne]
      | some x =>
        obtain ⟨h1, h2⟩ := hE x rfl
        have h3 : (decide (stdLetter (some x) = '+') || decide (stdLetter (some x) = '-')) = false := by
          rcases h2 with h | h <;> rw [h] <;> decide
        have h4 : (decide (stdLetter (some x) = 'e') || decide (stdLetter (some x) = 'E')) = true := by
          rcases h2 with h | h <;> rw [h] <;> decide
        simp only [Option.toList_some, List.map_cons, List.map_nil, h1, hy2, List.nil_append,
          List.cons_append, List.findIdx?_cons, hy1, h3, h4]
        simp [Nat.add_comm]

/-- **C26.** Numbers already in standard notation are unchanged. -/
theorem C26_unchanged (r : NReal) (hv : r.Valid)
    (h : ∀ l s ds, r.exp = some (l, s, ds) → l = some 'e' ∨ l = some 'E') :
    normReal r.nastran = r.nastran := by
  have hstd : r.standard = r.nastran := by
    unfold NReal.standard NReal.nastran
    cases he : r.exp with
    | none => rfl
    | some e =>
      obtain ⟨l, s, ds⟩ := e
      rcases h l s ds he with rfl | rfl <;> simp [stdLetter]
  have hnosp : ∀ c ∈ r.nastran, isSpace c = false := by
    intro c hc
    unfold NReal.nastran at hc
    have hsg : ∀ c : Char, c = '+' ∨ c = '-' → isSpace c = false := by
      rintro c (rfl | rfl) <;> decide
    rcases List.mem_append.1 hc with hc | hc
    · rcases List.mem_append.1 hc with hc | hc
      · exact hsg c (hv.sign c (by simpa using hc))
      · exact (digit_plain (hv.mant.2 c hc)).2.2.2.2.2.2
    · cases he : r.exp with
      | none => rw [he] at hc; simp at hc
      | some e =>
        obtain ⟨l, s, ds⟩ := e
        rw [he] at hc
        simp only [List.mem_append] at hc
        rcases hc with (hc | hc) | hc
        · rcases hv.letter l s ds he c (by simpa using hc) with rfl | rfl | rfl | rfl <;> decide
        · exact hsg c (hv.expSign l s ds he c (by simpa using hc))
        · exact (digit_plain (.inl ((hv.expDigits l s ds he).2 c hc))).2.2.2.2.2.2
  have hf : r.nastran.filter (fun c => c ≠ ' ') = r.nastran := by
    rw [List.filter_eq_self]
    intro c hc
    simp only [decide_eq_true_eq]
    rintro rfl
    exact absurd (hnosp _ hc) (by decide)
  have ht : trim r.nastran = r.nastran := by
    have d : ∀ m : Line, (∀ c ∈ m, isSpace c = false) → m.dropWhile isSpace = m := by
      intro m hm
      cases m with
      | nil => rfl
      | cons c cs => rw [List.dropWhile_cons, hm c (by simp)]; simp
    unfold trim trimRight
    rw [d _ hnosp, d _ fun c hc => hnosp c (by simpa using hc), List.reverse_reverse]
  have := C26_standard r hv r.nastran hf
  rw [ht, hstd] at this
  exact this

/-- `-1.5-3`. -/
def sampleReal : NReal := ⟨some '-', "1.5".toList, some (none, some '-', ['3'])⟩

example : sampleReal.Valid := by
  refine ⟨by simp [sampleReal], ⟨by decide, by decide⟩, ?_, ?_, ?_, ?_⟩ <;>
    · intro l s ds h
      simp only [sampleReal, Option.some.injEq, Prod.mk.injEq] at h
      obtain ⟨rfl, rfl, rfl⟩ := h
      simp
example : normReal (trim " -1.5 - 3 ".toList) = "-1.5E-3".toList := by decide
example : normReal "1.D+3".toList = "1.E+3".toList ∧ normReal "2d5".toList = "2e5".toList := by decide

/-! ## C57 -/

/-- **C57.** The first field read is the name of the card, in capitals; then the other fields remain. -/
theorem C57_keyword (f : Line) (rest : List Line) :
    nextSymbolString (Cursor.start (f :: rest)) = (toUpper (trimRight f), after [f] rest) := by
  unfold nextSymbolString Cursor.start after
  cases rest <;> simp

/-- **C57.** However a command reads, skips and inspects the fields of its card, each field is
delivered at most once and in order, none is delivered twice or invented, skipping drops exactly the
fields asked for, questions do not move, and the end is announced exactly when no field remains. -/
theorem C57_fields (ops : List Op) : ∀ (pre rest : List Line), pre ≠ [] →
    ∃ pre', opRun (after pre rest) ops =
      .ok ((specRun rest ops).1, after pre' (specRun rest ops).2) ∧
      pre' ++ (specRun rest ops).2 = pre ++ rest := by
  induction ops with
  | nil => intro pre rest _; exact ⟨pre, rfl, rfl⟩
  | cons op ops ih =>
    intro pre rest hpre
    have hstep : ∃ pre', opStep (after pre rest) op =
        .ok ((specStep rest op).1, after pre' (specStep rest op).2) ∧
        pre' ++ (specStep rest op).2 = pre ++ rest ∧ pre' ≠ [] := by
      cases op with
      | next =>
        cases rest with
        | nil =>
          refine ⟨pre, ?_, rfl, hpre⟩
          unfold opStep nextSymbolString after
          simp [specStep]
        | cons f fs =>
          refine ⟨pre ++ [f], ?_, by simp [specStep], by simp⟩
          simp only [opStep, next_after, specStep]
      | skip n =>
        refine ⟨pre ++ rest.take n, ?_, by simp [specStep], by simp [hpre]⟩
        simp only [opStep, skip_after, Outcome.bind_ok, specStep]
      | skipAll =>
        refine ⟨pre ++ rest, ?_, by simp [specStep], by simp [hpre]⟩
        simp [opStep, skipToNextKeyword, specStep, after]
      | isEmptyToEnd =>
        refine ⟨pre, ?_, rfl, hpre⟩
        cases rest with
        | nil => rfl
        | cons f fs => simp [opStep, isEmptyUntilNextKeyword, after, specStep]
      | isInt =>
        refine ⟨pre, ?_, rfl, hpre⟩
        cases rest with
        | nil => rfl
        | cons f fs => simp only [opStep, isNextInt_after, Outcome.bind_ok, specStep]
      | isWord w =>
        refine ⟨pre, ?_, rfl, hpre⟩
        cases rest with
        | nil => rfl
        | cons f fs => simp only [opStep, isNextWord_after, Outcome.bind_ok, specStep]
      | isEmpty =>
        refine ⟨pre, ?_, rfl, hpre⟩
        cases rest with
        | nil => rfl
        | cons f fs =>
          simp only [opStep, isNextEmpty, isNextEmptyLoop, sym_after_cons, fieldAt_after]
          simp [specStep]
      | atEnd =>
        refine ⟨pre, ?_, rfl, hpre⟩
        cases rest with
        | nil => rfl
        | cons f fs => rfl
    obtain ⟨p1, h1, h2, h3⟩ := hstep
    obtain ⟨p2, h4, h5⟩ := ih p1 (specStep rest op).2 h3
    refine ⟨p2, ?_, ?_⟩
    · simp only [opRun, h1, Outcome.bind_ok, h4, specRun]
    · rw [← h2, ← h5]
      rfl

example : (specRun (["1", "", "x"].map String.toList) [.isInt, .next, .skip 1, .atEnd, .next, .atEnd]).1 =
    [.flag true, .text ['1'], .none, .flag false, .text ['x'], .flag true] := by decide

/-- **C57, false for several fields.** Asking whether the next `n` fields are empty looks beyond the end of the
card when fewer remain. -/
theorem C57_empty_beyond_end_false : isNextEmpty 2 (after [['A']] [[]]) = .ub := by decide

end Nastran
end Vega
