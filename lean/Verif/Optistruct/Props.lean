import Verif.Optistruct.Cards
import Verif.NastranWrite.BushProps
import Verif.NastranWrite.RigidProps
import Verif.NastranWrite.MoreCards

/-! # C113: sets, surfaces and contacts of OptiStruct -/
namespace Vega
namespace OptistructSpec
open Nastran NastranWrite FieldSpec Optistruct

/-- A field in which nothing is written. -/
def Blank (f : Line) : Prop := trim f = []

/-- The field of a keyword, in any case, with blanks around it. -/
def Keyword (w : String) (f : Line) : Prop := toUpper (trim f) = w.toList

instance (f : Line) : Decidable (Blank f) := inferInstanceAs (Decidable (trim f = []))
instance (w : String) (f : Line) : Decidable (Keyword w f) := inferInstanceAs (Decidable (toUpper (trim f) = w.toList))

/-- The field of a number that may be left out. -/
def Optional (dflt n : Int) (f : Line) : Prop :=
  (Blank f ∧ n = dflt) ∨ (trim f = decimal n ∧ intMin ≤ n ∧ n ≤ intMax)

/-- The fields in which faces are written: blanks, the cell, two nodes (of a solid) and a field that is `1` when the normal is to be
reversed. The nodes and the last field may be left out; the last field may be beyond the end of the card. -/
inductive WritesFaces : List Face → List Line → Prop where
  | nil {bs : List Line} : (∀ b ∈ bs, Blank b) → WritesFaces [] bs
  | cons {bs : List Line} {f f1 f2 f3 : Line} {cell n1 n2 normal : Int} {faces : List Face} {fs : List Line} :
      (∀ b ∈ bs, Blank b) → trim f = decimal cell → intMin ≤ cell → cell ≤ intMax →
      Optional unavailableInt n1 f1 → Optional unavailableInt n2 f2 → Optional 0 normal f3 → WritesFaces faces fs →
      WritesFaces (⟨cell, n1, n2, decide (normal = 1)⟩ :: faces) (bs ++ f :: f1 :: f2 :: f3 :: fs)
  | last {bs : List Line} {f f1 f2 : Line} {cell n1 n2 : Int} :
      (∀ b ∈ bs, Blank b) → trim f = decimal cell → intMin ≤ cell → cell ≤ intMax →
      Optional unavailableInt n1 f1 → Optional unavailableInt n2 f2 →
      WritesFaces [⟨cell, n1, n2, false⟩] (bs ++ [f, f1, f2])

/-- The fields in which frequencies are written, blanks wherever one likes. -/
inductive WritesReals : List Dbl → List Line → Prop where
  | nil : WritesReals [] []
  | blank {b : Line} {xs : List Dbl} {fs : List Line} : Blank b → WritesReals xs fs → WritesReals xs (b :: fs)
  | real {f : Line} {x : Dbl} {xs : List Dbl} {fs : List Line} : trim f ≠ [] → (∀ c ∈ trim f, realChar c = true) →
      lexicalDouble (normReal (trim f)) = some x → WritesReals xs fs → WritesReals (x :: xs) (f :: fs)

/-- The beginning of SET up to the list. -/
def SetHead (sid : Int) (type : String) (head : List Line) : Prop :=
  ∃ f0 f1 f2 bs, head = f0 :: f1 :: f2 :: bs ∧ trim f0 = decimal sid ∧ intMin ≤ sid ∧ sid ≤ intMax ∧ Keyword type f1 ∧
    (Blank f2 ∨ Keyword "LIST" f2) ∧ ∀ b ∈ bs, Blank b

/-- The fields of a list that is no number, nor empty: a word. -/
def Word (f : Line) : Prop := ((trim f).filter (· ≠ ' ')).isEmpty = false ∧ ((trim f).filter (· ≠ ' ')).all realChar = false

end OptistructSpec

namespace Optistruct
open Nastran NastranWrite FieldSpec FixedSpec WriteSpec OptistructSpec
open CellSpec (Number)

/-! ## Helper lemmas -/

theorem isNextEmpty_end (pre : List Nastran.Line) : isNextEmpty 1 (after pre []) = .ok false := rfl

theorem skip_all {bs : List Nastran.Line} (hb : ∀ b ∈ bs, Blank b) : ∀ (n : Nat) (pre rest : List Nastran.Line), bs.length < n →
    (∀ t, rest.head? = some t → trim t ≠ []) → skipToNotEmpty n (after pre (bs ++ rest)) = .ok (after (pre ++ bs) rest) := by
  induction bs with
  | nil =>
    intro n pre rest hn hr
    obtain ⟨m, rfl⟩ : ∃ m, n = m + 1 := ⟨n - 1, by simp at hn; omega⟩
    cases rest with
    | nil => simp [skipToNotEmpty, isNextEmpty_end]
    | cons t r => simp [skipToNotEmpty, isNextEmpty_after, hr t rfl]
  | cons b bs ih =>
    intro n pre rest hn hr
    obtain ⟨m, rfl⟩ : ∃ m, n = m + 1 := ⟨n - 1, by simp at hn; omega⟩
    have h1 : (trim b).isEmpty = true := by
      have := hb b (by simp)
      unfold Blank at this
      simp [this]
    rw [List.cons_append, skipToNotEmpty, isNextEmpty_after, h1]
    simp only [Outcome.bind_ok, if_true, skip_after, List.take_succ_cons, List.take_zero, List.drop_succ_cons, List.drop_zero]
    rw [ih (fun x hx => hb x (by simp [hx])) m _ rest (by simpa using hn) hr]
    simp

theorem toNotEmpty_all {bs : List Nastran.Line} (hb : ∀ b ∈ bs, Blank b) (pre rest : List Nastran.Line)
    (hr : ∀ t, rest.head? = some t → trim t ≠ []) : toNotEmpty (after pre (bs ++ rest)) = .ok (after (pre ++ bs) rest) := by
  unfold toNotEmpty
  exact skip_all hb _ pre rest (by rw [after_length, List.length_append]; omega) hr

theorem isEmpty_all {bs : List Nastran.Line} (hb : ∀ b ∈ bs, Blank b) (pre : List Nastran.Line) :
    isEmptyUntilNextKeyword (after pre bs) = true := by
  cases bs with
  | nil => rfl
  | cons b bs =>
    unfold isEmptyUntilNextKeyword
    rw [sym_after_cons, if_neg (by simp), if_neg (by simp)]
    have : (after pre (b :: bs)).fields.drop (after pre (b :: bs)).pos = b :: bs := by simp [after]
    rw [this, List.all_eq_true]
    intro f hf
    have := hb f hf
    unfold Blank at this
    simp [this]

theorem decimal_ne (n : Int) : decimal n ≠ [] := by
  have := decimal_int n
  simp only [Bool.and_eq_true, Bool.not_eq_true'] at this
  intro h
  rw [h] at this
  simp at this

theorem nextInt_any (d : Option Int) {pre : List Nastran.Line} {f : Nastran.Line} {rest : List Nastran.Line} {n : Int}
    (hf : trim f = decimal n) (h1 : intMin ≤ n) (h2 : n ≤ intMax) :
    nextInt d (after pre (f :: rest)) = .ok (n, after (pre ++ [f]) rest) := by
  have hne : (decimal n).isEmpty = false := by simpa using decimal_ne n
  unfold nextInt
  rw [next_after]
  simp only [trim_trimRight, hf, hne, Bool.false_eq_true, if_false, parse_decimal h1 h2]

theorem nextInt_optional {d n : Int} {f : Nastran.Line} (h : Optional d n f) (pre rest : List Nastran.Line) :
    nextInt (some d) (after pre (f :: rest)) = .ok (n, after (pre ++ [f]) rest) := by
  rcases h with ⟨hb, rfl⟩ | ⟨hf, h1, h2⟩
  · unfold nextInt
    rw [next_after]
    unfold Blank at hb
    simp [trim_trimRight, hb]
  · exact nextInt_any _ hf h1 h2

theorem nextString_word (d : Option Nastran.Line) {f : Nastran.Line} {w : String} (h : Keyword w f) (hw : w.toList ≠ [])
    (pre rest : List Nastran.Line) :
    nextString d (after pre (f :: rest)) = .ok (w.toList, after (pre ++ [f]) rest) := by
  unfold Keyword at h
  unfold nextString
  rw [next_after]
  simp only [trim_trimRight, h]
  rw [if_neg (by simpa using hw)]

theorem surfLoop_read : ∀ {faces : List Face} {fs : List Nastran.Line}, WritesFaces faces fs → ∀ (fuel : Nat) (pre : List Nastran.Line),
    fs.length < fuel → ∃ c, surfLoop fuel (after pre fs) = .ok (faces, c) ∧ isEmptyUntilNextKeyword c = true := by
  intro faces fs h
  induction h with
  | nil hb =>
    intro fuel pre hf
    obtain ⟨m, rfl⟩ : ∃ m, fuel = m + 1 := ⟨fuel - 1, by omega⟩
    exact ⟨_, by rw [surfLoop, isEmpty_all hb]; rfl, isEmpty_all hb pre⟩
  | @cons bs f f1 f2 f3 cell n1 n2 normal faces fs hb h0 h1 h2 k1 k2 k3 _ ih =>
    intro fuel pre hf
    obtain ⟨m, rfl⟩ : ∃ m, fuel = m + 1 := ⟨fuel - 1, by omega⟩
    have hne : trim f ≠ [] := by rw [h0]; exact decimal_ne cell
    obtain ⟨c, hc, he⟩ := ih m (pre ++ bs ++ [f] ++ [f1] ++ [f2] ++ [f3]) (by simp at hf; omega)
    refine ⟨c, ?_, he⟩
    rw [surfLoop, isEmpty_after_false (t := f) (by simp) (by simpa using hne)]
    simp only [Bool.false_eq_true, if_false]
    rw [toNotEmpty_all hb pre _ (by intro t ht; simp at ht; rw [← ht]; exact hne)]
    simp only [Outcome.bind_ok, nextInt_any none h0 h1 h2, nextInt_optional k1, nextInt_optional k2, nextInt_optional k3, hc]
  | @last bs f f1 f2 cell n1 n2 hb h0 h1 h2 k1 k2 =>
    intro fuel pre hf
    obtain ⟨m, rfl⟩ : ∃ m, fuel = m + 1 := ⟨fuel - 1, by omega⟩
    obtain ⟨k, rfl⟩ : ∃ k, m = k + 1 := ⟨m - 1, by simp at hf; omega⟩
    have hne : trim f ≠ [] := by rw [h0]; exact decimal_ne cell
    refine ⟨after (pre ++ bs ++ [f] ++ [f1] ++ [f2]) [], ?_, rfl⟩
    rw [surfLoop, isEmpty_after_false (t := f) (by simp) (by simpa using hne)]
    simp only [Bool.false_eq_true, if_false]
    rw [toNotEmpty_all hb pre _ (by intro t ht; simp at ht; rw [← ht]; exact hne)]
    simp only [Outcome.bind_ok, nextInt_any none h0 h1 h2, nextInt_optional k1, nextInt_optional k2, nextInt_end]
    rw [surfLoop, isEmpty_end]
    simp

theorem nextInts_stop : ∀ (fuel : Nat) (acc : List Int) (c : Cursor) (ids : List Int) (c' : Cursor),
    nextIntsLoop fuel acc c = .ok (ids, c') → isNextInt c' = .ok false ∧ isNextTHRU c' = .ok false := by
  intro fuel
  induction fuel with
  | zero => intro acc c ids c' h; simp [nextIntsLoop] at h
  | succ n ih =>
    intro acc c ids c' h
    rw [nextIntsLoop] at h
    cases hi : isNextInt c <;> rw [hi] at h <;> try (simp at h; done)
    rename_i i
    simp only [Outcome.bind_ok] at h
    cases i with
    | true =>
      simp only [if_true] at h
      cases hn : nextInt none c <;> rw [hn] at h <;> try (simp at h; done)
      simp only [Outcome.bind_ok] at h
      exact ih _ _ _ _ h
    | false =>
      simp only [Bool.false_eq_true, if_false] at h
      cases ht : isNextTHRU c <;> rw [ht] at h <;> try (simp at h; done)
      rename_i t
      simp only [Outcome.bind_ok] at h
      cases t with
      | true =>
        simp only [if_true] at h
        cases hn : thruStep acc c <;> rw [hn] at h <;> try (simp at h; done)
        simp only [Outcome.bind_ok] at h
        exact ih _ _ _ _ h
      | false =>
        simp only [Bool.false_eq_true, if_false, Outcome.ok.injEq, Prod.mk.injEq] at h
        rw [← h.2]
        exact ⟨hi, ht⟩

theorem nextInts_again {c c' : Cursor} {ids : List Int} (h : nextInts c = .ok (ids, c')) : nextInts c' = .ok ([], c') := by
  obtain ⟨h1, h2⟩ := nextInts_stop _ _ _ _ _ h
  unfold nextInts
  rw [nextIntsLoop, h1]
  simp only [Outcome.bind_ok, Bool.false_eq_true, if_false, h2]

theorem filter_real {f : Nastran.Line} (h : ∀ c ∈ f, realChar c = true) : f.filter (· ≠ ' ') = f := by
  rw [List.filter_eq_self]
  intro c hc
  have := h c hc
  simp only [decide_eq_true_eq]
  rintro rfl
  revert this
  decide

theorem isNextDouble_real {f : Nastran.Line} (h0 : trim f ≠ []) (h : ∀ c ∈ trim f, realChar c = true) (pre rest : List Nastran.Line) :
    isNextDouble (after pre (f :: rest)) = .ok true := by
  rw [isNextDouble_after, filter_real h]
  have h1 : (trim f).isEmpty = false := by simpa using h0
  have h2 : (trim f).all realChar = true := by rw [List.all_eq_true]; exact h
  rw [h1, h2]
  rfl

theorem isNextDouble_blank {f : Nastran.Line} (h : Blank f) (pre rest : List Nastran.Line) :
    isNextDouble (after pre (f :: rest)) = .ok false := by
  unfold Blank at h
  rw [isNextDouble_after, h]
  rfl

theorem nextDouble_real {f : Nastran.Line} {x : Dbl} (h0 : trim f ≠ []) (h : lexicalDouble (normReal (trim f)) = some x)
    (pre rest : List Nastran.Line) : nextDouble none (after pre (f :: rest)) = .ok (x, after (pre ++ [f]) rest) := by
  unfold nextDouble
  rw [next_after]
  have h1 : (trim f).isEmpty = false := by simpa using h0
  simp only [trim_trimRight, h1, Bool.false_eq_true, if_false, h]

/-- The inner loop reads the reals up to the first blank. -/
theorem reals_read : ∀ {xs : List Dbl} {fs : List Nastran.Line}, WritesReals xs fs → ∃ xs₁ xs₂ fs₁ fs₂, xs = xs₁ ++ xs₂ ∧ fs = fs₁ ++ fs₂ ∧
    WritesReals xs₂ fs₂ ∧ (∀ t, fs₂.head? = some t → Blank t) ∧ (∀ t, fs.head? = some t → trim t ≠ [] → fs₁ ≠ []) ∧
    ∀ (fuel : Nat) (acc : List Dbl) (pre : List Nastran.Line), fs₁.length < fuel →
      reals fuel acc (after pre fs) = .ok (acc ++ xs₁, after (pre ++ fs₁) fs₂) := by
  intro xs fs h
  induction h with
  | nil =>
    refine ⟨[], [], [], [], rfl, rfl, .nil, by simp, by simp, ?_⟩
    intro fuel acc pre hf
    obtain ⟨m, rfl⟩ : ∃ m, fuel = m + 1 := ⟨fuel - 1, by omega⟩
    simp [reals, isNextDouble_end]
  | @blank b xs fs hb h ih =>
    refine ⟨[], xs, [], b :: fs, rfl, rfl, .blank hb h, by simpa using hb, ?_, ?_⟩
    · intro t ht hne
      simp only [List.head?_cons, Option.some.injEq] at ht
      exact absurd (ht ▸ hb) hne
    · intro fuel acc pre hf
      obtain ⟨m, rfl⟩ : ∃ m, fuel = m + 1 := ⟨fuel - 1, by omega⟩
      simp [reals, isNextDouble_blank hb]
  | @real f x xs fs h0 h1 h2 h ih =>
    obtain ⟨xs₁, xs₂, fs₁, fs₂, rfl, rfl, k1, k2, -, k3⟩ := ih
    refine ⟨x :: xs₁, xs₂, f :: fs₁, fs₂, rfl, rfl, k1, k2, by simp, ?_⟩
    intro fuel acc pre hf
    obtain ⟨m, rfl⟩ : ∃ m, fuel = m + 1 := ⟨fuel - 1, by omega⟩
    rw [reals, isNextDouble_real h0 h1]
    simp only [Outcome.bind_ok, if_true, nextDouble_real h0 h2]
    rw [k3 m _ _ (by simpa using hf)]
    simp

/-- Blanks at the beginning. -/
theorem split_blanks : ∀ {xs : List Dbl} {fs : List Nastran.Line}, WritesReals xs fs → ∃ bs rest, fs = bs ++ rest ∧ (∀ b ∈ bs, Blank b) ∧
    (∀ t, rest.head? = some t → trim t ≠ []) ∧ WritesReals xs rest := by
  intro xs fs h
  induction h with
  | nil => exact ⟨[], [], rfl, by simp, by simp, .nil⟩
  | @blank b xs fs hb h ih =>
    obtain ⟨bs, rest, rfl, k1, k2, k3⟩ := ih
    exact ⟨b :: bs, rest, rfl, by simpa using ⟨hb, k1⟩, k2, k3⟩
  | @real f x xs fs h0 h1 h2 h ih =>
    exact ⟨[], f :: fs, rfl, by simp, by simpa using h0, .real h0 h1 h2 h⟩

/-- The outer loop, from a field that is not blank. -/
theorem frequencies_read : ∀ (n : Nat) {xs : List Dbl} {fs : List Nastran.Line}, fs.length ≤ n → WritesReals xs fs →
    (∀ t, fs.head? = some t → trim t ≠ []) → ∀ (fuel : Nat) (acc : List Dbl) (pre : List Nastran.Line), n < fuel →
    ∃ c, frequencies fuel acc (after pre fs) = .ok (acc ++ xs, c) := by
  intro n
  induction n with
  | zero =>
    intro xs fs hl h _ fuel acc pre hf
    obtain ⟨m, rfl⟩ : ∃ m, fuel = m + 1 := ⟨fuel - 1, by omega⟩
    have : fs = [] := by simpa using hl
    subst this
    cases h
    exact ⟨_, by rw [frequencies, isEmpty_end, if_pos rfl, List.append_nil]⟩
  | succ n ih =>
    intro xs fs hl h hne fuel acc pre hf
    obtain ⟨m, rfl⟩ : ∃ m, fuel = m + 1 := ⟨fuel - 1, by omega⟩
    cases hfs : fs with
    | nil =>
      subst hfs
      cases h
      exact ⟨_, by rw [frequencies, isEmpty_end, if_pos rfl, List.append_nil]⟩
    | cons t ts =>
      have ht := hne t (by rw [hfs]; rfl)
      obtain ⟨xs₁, xs₂, fs₁, fs₂, rfl, e, k1, -, k3, k4⟩ := reals_read h
      have hfs₁ := k3 t (by rw [hfs]; rfl) ht
      obtain ⟨bs, rest, rfl, b1, b2, b3⟩ := split_blanks k1
      have hlen : rest.length ≤ n := by
        have := List.length_pos_of_ne_nil hfs₁
        rw [e] at hl
        simp only [List.length_append] at hl
        omega
      obtain ⟨c, hc⟩ := ih hlen b3 b2 m (acc ++ xs₁) (pre ++ fs₁ ++ bs) (by omega)
      refine ⟨c, ?_⟩
      rw [← hfs, frequencies, isEmpty_after_false (t := t) (by rw [hfs]; simp) (by simpa using ht)]
      simp only [Bool.false_eq_true, if_false]
      rw [k4 _ acc pre (by rw [after_length, e]; simp; omega)]
      simp only [Outcome.bind_ok]
      rw [toNotEmpty_all b1 _ _ b2]
      simp only [Outcome.bind_ok]
      rw [hc, List.append_assoc]

theorem nextString_list {f : Nastran.Line} (h : Blank f ∨ Keyword "LIST" f) (pre rest : List Nastran.Line) :
    nextString (some "LIST".toList) (after pre (f :: rest)) = .ok ("LIST".toList, after (pre ++ [f]) rest) := by
  rcases h with h | h
  · unfold Blank at h
    unfold nextString
    rw [next_after]
    simp only [trim_trimRight, h]
    rfl
  · exact nextString_word _ h (by decide) pre rest

theorem set_head {sid : Int} {type : String} {head : List Nastran.Line} (h : SetHead sid type head) (ht : type.toList ≠ [])
    (rest : List Nastran.Line) (hr : ∀ t, rest.head? = some t → trim t ≠ []) :
    ∃ pre, parseSET (after ["SET".toList] (head ++ rest)) =
      (if type.toList = "GRID".toList then do
        let (ids, c) ← nextInts (after pre rest)
        let c ← toNotEmpty c
        .ok (.grid sid ids ids, skipToNextKeyword c)
      else if type.toList = "ELEM".toList then do
        let (ids, c) ← nextInts (after pre rest)
        let (again, c) ← nextInts c
        let c ← toNotEmpty c
        .ok (.elem sid ids again, skipToNextKeyword c)
      else if type.toList = "FREQ".toList then do
        let (values, c) ← frequencies ((after pre rest).fields.length + 1) [] (after pre rest)
        .ok (.freq sid values, skipToNextKeyword c)
      else .throw) := by
  obtain ⟨f0, f1, f2, bs, rfl, h0, h1, h2, h3, h4, hb⟩ := h
  refine ⟨["SET".toList] ++ [f0] ++ [f1] ++ [f2] ++ bs, ?_⟩
  unfold parseSET
  simp only [List.cons_append, nextInt_any none h0 h1 h2, Outcome.bind_ok, nextString_word none h3 ht, nextString_list h4,
    toNotEmpty_all hb _ _ hr]
  rw [if_neg (by simp)]

theorem set_keyword (rest : List Nastran.Line) :
    nextString (some []) (Cursor.start ("SET".toList :: rest)) = .ok ("SET".toList, after ["SET".toList] rest) :=
  keyword_read (by decide) (by decide) rest

theorem skipToNextKeyword_empty (c : Cursor) : isEmptyUntilNextKeyword (skipToNextKeyword c) = true := rfl

/-- Fields that are not blank, from some point on, are reached. -/
theorem toNotEmpty_ok : ∀ (rest pre : List Nastran.Line), ∃ c, toNotEmpty (after pre rest) = .ok c := by
  have key : ∀ (rest pre : List Nastran.Line) (n : Nat), rest.length < n → ∃ c, skipToNotEmpty n (after pre rest) = .ok c := by
    intro rest
    induction rest with
    | nil =>
      intro pre n hn
      obtain ⟨m, rfl⟩ : ∃ m, n = m + 1 := ⟨n - 1, by omega⟩
      exact ⟨_, by simp [skipToNotEmpty, isNextEmpty_end]; rfl⟩
    | cons t rest ih =>
      intro pre n hn
      obtain ⟨m, rfl⟩ : ∃ m, n = m + 1 := ⟨n - 1, by omega⟩
      obtain ⟨c, hc⟩ := ih (pre ++ [t]) m (by simpa using hn)
      rw [skipToNotEmpty, isNextEmpty_after]
      simp only [Outcome.bind_ok]
      split_ifs
      · simp only [skip_after, List.take_succ_cons, List.take_zero, List.drop_succ_cons, List.drop_zero, Outcome.bind_ok]
        exact ⟨c, hc⟩
      · exact ⟨_, rfl⟩
  intro rest pre
  exact key rest pre _ (by rw [after_length]; omega)

theorem writes_head {is : List Item} {fs : List Nastran.Line} (h : Writes is fs) (hne : is ≠ []) (post : List Nastran.Line) :
    ∀ t, (fs ++ post).head? = some t → trim t ≠ [] := by
  intro t ht
  cases h with
  | nil => exact absurd rfl hne
  | one h1 _ => simp at ht; rw [← ht, h1]; exact decimal_ne _
  | thru h1 _ _ _ => simp at ht; rw [← ht, h1]; exact decimal_ne _

theorem blank_ends {bs : List Nastran.Line} (hb : ∀ t, bs.head? = some t → Blank t) : Ends bs := by
  intro t ht
  have := hb t ht
  unfold Blank at this
  rw [this]
  exact ⟨.inl rfl, by decide, by decide⟩

theorem grid_read {sid : Int} {head fs post : List Nastran.Line} {is : List Item} (hh : SetHead sid "GRID" head) (hw : Writes is fs)
    (hne : is ≠ []) (hr : ∀ i ∈ is, i.InRange) (hp : Ends post) :
    readBulk parseSET ("SET".toList :: (head ++ (fs ++ post))) = .ok (.grid sid (is.flatMap Item.values) (is.flatMap Item.values)) := by
  obtain ⟨pre, hs⟩ := set_head hh (by decide) (fs ++ post) (writes_head hw hne post)
  obtain ⟨c, hc⟩ := toNotEmpty_ok post (pre ++ fs)
  unfold readBulk
  rw [set_keyword]
  simp only [Outcome.bind_ok, hs, if_true, C25_thru_partial is pre fs post hw hr hp, hc, skipToNextKeyword_empty]

/-! ## C113 -/

/-- **C113.** A set of nodes: the fields may have blanks around their texts, the list may begin after any number of blank fields
(the rest of the first line) and may be made of numbers and of ranges; the group holds exactly the nodes that are listed, in the
order of the list. -/
theorem C113_grid_partial (sid : Int) (head fs bs : List Nastran.Line) (is : List Item) (hh : SetHead sid "GRID" head) (hw : Writes is fs)
    (hne : is ≠ []) (hr : ∀ i ∈ is, i.InRange) (hb : ∀ b ∈ bs, Blank b) :
    readBulk parseSET ("SET".toList :: (head ++ (fs ++ bs))) = .ok (.grid sid (is.flatMap Item.values) (is.flatMap Item.values)) :=
  grid_read hh hw hne hr (blank_ends fun t ht => hb t (List.mem_of_head? ht))

example : SetHead 7 "GRID" ["7".toList, "GRID".toList, " list ".toList, [], [], [], [], []] ∧
    Writes [.one 3, .thru 5 9] ["3".toList, "5".toList, "THRU".toList, "9".toList] ∧ ([.one 3, .thru 5 9] : List Item).flatMap Item.values = [3, 5, 6, 7, 8, 9] := by
  refine ⟨⟨_, _, _, _, rfl, by decide +kernel, by decide +kernel, by decide +kernel, by decide +kernel, .inr (by decide +kernel), by decide +kernel⟩,
    .one (by decide +kernel) (.thru (by decide +kernel) (by decide +kernel) (by decide +kernel) .nil), by decide +kernel⟩

/-- **C113 is false after a blank field.** Whatever follows the first blank field of the list is lost without a message: the numbers
`js` are written on the card and are not read. -/
theorem C113_gap_false (sid : Int) (head fs gs : List Nastran.Line) (b : Nastran.Line) (is js : List Item) (hh : SetHead sid "GRID" head)
    (hw : Writes is fs) (_hw' : Writes js gs) (hne : is ≠ []) (hr : ∀ i ∈ is, i.InRange) (hb : Blank b) :
    readBulk parseSET ("SET".toList :: (head ++ (fs ++ b :: gs))) = .ok (.grid sid (is.flatMap Item.values) (is.flatMap Item.values)) :=
  grid_read hh hw hne hr (blank_ends fun t ht => by
    simp only [List.head?_cons, Option.some.injEq] at ht
    rw [← ht]; exact hb)

example : Writes [.one 3] ["3".toList] ∧ Writes [.one 4] ["4".toList] ∧ Blank "  ".toList :=
  ⟨.one (by decide +kernel) .nil, .one (by decide +kernel) .nil, by decide +kernel⟩

/-- **C113 is false for sets of elements.** Whatever a card SET of elements lists, the group of cells that it creates is empty: the
list is read twice, and nothing is left the second time. -/
theorem C113_elem_false (fields : List Nastran.Line) (sid : Int) (value cells : List Int)
    (h : readBulk parseSET fields = .ok (.elem sid value cells)) : cells = [] := by
  unfold readBulk at h
  cases h0 : nextString (some []) (Cursor.start fields) <;> rw [h0] at h <;> try (simp at h; done)
  rename_i r0
  obtain ⟨k, c⟩ := r0
  simp only [Outcome.bind_ok] at h
  cases h1 : parseSET c <;> rw [h1] at h <;> try (simp at h; done)
  rename_i r1
  obtain ⟨r, c'⟩ := r1
  simp only [Outcome.bind_ok] at h
  split_ifs at h
  simp only [Outcome.ok.injEq] at h
  subst h
  unfold parseSET at h1
  cases h2 : nextInt none c <;> rw [h2] at h1 <;> try (simp at h1; done)
  rename_i r2
  simp only [Outcome.bind_ok] at h1
  cases h3 : nextString none r2.2 <;> rw [h3] at h1 <;> try (simp at h1; done)
  rename_i r3
  simp only [Outcome.bind_ok] at h1
  cases h4 : nextString (some "LIST".toList) r3.2 <;> rw [h4] at h1 <;> try (simp at h1; done)
  rename_i r4
  simp only [Outcome.bind_ok] at h1
  cases h5 : toNotEmpty r4.2 <;> rw [h5] at h1 <;> try (simp at h1; done)
  rename_i r5
  simp only [Outcome.bind_ok] at h1
  split_ifs at h1
  · cases h6 : nextInts r5 <;> rw [h6] at h1 <;> try (simp at h1; done)
    rename_i r6
    simp only [Outcome.bind_ok] at h1
    cases h7 : toNotEmpty r6.2 <;> rw [h7] at h1 <;> simp at h1
  · cases h6 : nextInts r5 <;> rw [h6] at h1 <;> try (simp at h1; done)
    rename_i r6
    simp only [Outcome.bind_ok, nextInts_again h6] at h1
    cases h7 : toNotEmpty r6.2 <;> rw [h7] at h1 <;> try (simp at h1; done)
    simp only [Outcome.bind_ok, Outcome.ok.injEq, Prod.mk.injEq, SetRead.elem.injEq] at h1
    exact h1.1.2.2.symm
  · cases h6 : frequencies (r5.fields.length + 1) [] r5 <;> rw [h6] at h1 <;> simp at h1

/-- **C113 (partial).** The numbers of a set of elements are kept as the value of the set (the group of cells is empty, see above). -/
theorem C113_elem_partial (sid : Int) (head fs bs : List Nastran.Line) (is : List Item) (hh : SetHead sid "ELEM" head) (hw : Writes is fs)
    (hne : is ≠ []) (hr : ∀ i ∈ is, i.InRange) (hb : ∀ b ∈ bs, Blank b) :
    readBulk parseSET ("SET".toList :: (head ++ (fs ++ bs))) = .ok (.elem sid (is.flatMap Item.values) []) := by
  have hp : Ends bs := blank_ends fun t ht => hb t (List.mem_of_head? ht)
  obtain ⟨pre, hs⟩ := set_head hh (by decide) (fs ++ bs) (writes_head hw hne bs)
  obtain ⟨c, hc⟩ := toNotEmpty_ok bs (pre ++ fs)
  have h1 := C25_thru_partial is pre fs bs hw hr hp
  unfold readBulk
  rw [set_keyword]
  simp only [Outcome.bind_ok, hs, h1, nextInts_again h1, hc, skipToNextKeyword_empty, if_true]
  rw [if_neg (by decide)]
  rfl

example : SetHead 8 "ELEM" ["8".toList, "elem".toList, []] ∧ Writes [.one 100] ["100".toList] :=
  ⟨⟨_, _, _, [], rfl, by decide +kernel, by decide +kernel, by decide +kernel, by decide +kernel, .inl (by decide +kernel), by simp⟩, .one (by decide +kernel) .nil⟩

/-- **C113 (partial).** A set of frequencies: all reals of the card, in order, whatever blank fields lie between them. (Exact
arithmetic: `double`s are rounded.) -/
theorem C113_freq_partial (sid : Int) (head fs : List Nastran.Line) (xs : List Dbl) (hh : SetHead sid "FREQ" head) (hw : WritesReals xs fs) :
    readBulk parseSET ("SET".toList :: (head ++ fs)) = .ok (.freq sid xs) := by
  obtain ⟨bs, rest, rfl, k1, k2, k3⟩ := split_blanks hw
  obtain ⟨f0, f1, f2, bs', rfl, h0, h1, h2, h3, h4, hb⟩ := hh
  have hh' : SetHead sid "FREQ" (f0 :: f1 :: f2 :: (bs' ++ bs)) :=
    ⟨f0, f1, f2, _, rfl, h0, h1, h2, h3, h4, by
      intro b hb'
      rcases List.mem_append.1 hb' with h | h
      · exact hb b h
      · exact k1 b h⟩
  obtain ⟨pre, hs⟩ := set_head hh' (by decide) rest k2
  obtain ⟨c, hc⟩ := frequencies_read rest.length le_rfl k3 k2 ((after pre rest).fields.length + 1) [] pre (by rw [after_length]; omega)
  have e : f0 :: f1 :: f2 :: bs' ++ (bs ++ rest) = f0 :: f1 :: f2 :: (bs' ++ bs) ++ rest := by simp
  unfold readBulk
  rw [e, set_keyword]
  simp only [Outcome.bind_ok, hs, hc, skipToNextKeyword_empty, if_true, List.nil_append]
  rw [if_neg (by decide), if_neg (by decide)]
  rfl

example : SetHead 9 "FREQ" ["9".toList, "FREQ".toList, "LIST".toList, [], [], [], [], []] ∧
    WritesReals [10, 5/2] ["10.".toList, [], "2.5".toList] := by
  refine ⟨⟨_, _, _, _, rfl, by decide +kernel, by decide +kernel, by decide +kernel, by decide +kernel, .inr (by decide +kernel), by decide +kernel⟩,
    .real (by decide +kernel) (by decide +kernel) (by decide +kernel) (.blank (by decide +kernel) (.real (by decide +kernel) (by decide +kernel) (by decide +kernel) .nil))⟩

/-- **C113 is false for a word among the frequencies** (a range with `THRU`, say): the reading never ends, whatever number of
turns it is given, since nothing reads the word. -/
theorem C113_freq_word_false (sid : Int) (head rest : List Nastran.Line) (f w : Nastran.Line) (x : Dbl) (hh : SetHead sid "FREQ" head)
    (hf : WritesReals [x] [f]) (hw : Word w) :
    readBulk parseSET ("SET".toList :: (head ++ f :: w :: rest)) = .diverges ∧
    ∀ fuel acc pre, frequencies fuel acc (after pre (w :: rest)) = .diverges := by
  have hww : trim w ≠ [] := by
    intro e
    have := hw.1
    rw [e] at this
    simp at this
  have hd : ∀ pre, isNextDouble (after pre (w :: rest)) = .ok false := by
    intro pre
    rw [isNextDouble_after, hw.2]
    simp
  have hskip : ∀ pre, toNotEmpty (after pre (w :: rest)) = .ok (after pre (w :: rest)) := by
    intro pre
    have := toNotEmpty_all (bs := []) (by simp) pre (w :: rest) (by simpa using hww)
    simpa using this
  have stuck : ∀ fuel acc pre, frequencies fuel acc (after pre (w :: rest)) = .diverges := by
    intro fuel
    induction fuel with
    | zero => intro _ _; rfl
    | succ n ih =>
      intro acc pre
      rw [frequencies, isEmpty_after_false (t := w) (by simp) (by simpa using hww)]
      simp only [Bool.false_eq_true, if_false]
      rw [reals, hd]
      simp only [Outcome.bind_ok, Bool.false_eq_true, if_false, hskip]
      exact ih acc pre
  refine ⟨?_, stuck⟩
  cases hf with
  | blank _ h => cases h
  | real h0 h1 h2 _ =>
    obtain ⟨pre, hs⟩ := set_head hh (by decide) (f :: w :: rest) (by simpa using h0)
    unfold readBulk
    rw [set_keyword]
    simp only [Outcome.bind_ok, hs]
    rw [if_neg (by decide), if_neg (by decide), if_pos trivial, frequencies, isEmpty_after_false (t := f) (by simp) (by simpa using h0)]
    simp only [Bool.false_eq_true, if_false]
    rw [reals, isNextDouble_real h0 h1]
    simp only [Outcome.bind_ok, if_true, nextDouble_real h0 h2]
    have hlen : (after pre (f :: w :: rest)).fields.length = (pre.length + rest.length + 1) + 1 := by
      rw [after_length]; simp; omega
    rw [hlen, reals, hd]
    simp only [Outcome.bind_ok, Bool.false_eq_true, if_false, hskip, stuck]
    rfl

example : WritesReals [1] ["1.0".toList] ∧ Word "THRU".toList :=
  ⟨.real (by decide +kernel) (by decide +kernel) (by decide +kernel) .nil, by decide +kernel, by decide +kernel⟩

/-- **C113.** A surface: the cell, the nodes and the reversal of every face of the card, in order. The text that may stand after the
number (`ELFACE`) is anything that is no integer. -/
theorem C113_surface (sid : Int) (t kind : Nastran.Line) (fs : List Nastran.Line) (faces : List Face) (ht : trim t = decimal sid)
    (h1 : intMin ≤ sid) (h2 : sid ≤ intMax) (hk : ∃ c ∈ trim kind, intChar c = false) (hw : WritesFaces faces fs) :
    readBulk parseSURF ("SURF".toList :: t :: kind :: fs) = .ok (sid, faces) := by
  obtain ⟨c, hc, he⟩ := surfLoop_read hw ((after (["SURF".toList] ++ [t] ++ [kind]) fs).fields.length + 1)
    (["SURF".toList] ++ [t] ++ [kind]) (by rw [after_length]; omega)
  have hint : ∀ pre rest, isNextInt (after pre (kind :: rest)) = .ok false := by
    intro pre rest
    obtain ⟨a, ha, ha'⟩ := hk
    have : (trim kind).all intChar = false := by
      rw [List.all_eq_false]
      exact ⟨a, ha, by simp [ha']⟩
    rw [isNextInt_after, this]
    simp
  unfold readBulk
  rw [keyword_read (by decide) (by decide)]
  simp only [Outcome.bind_ok, parseSURF, nextInt_any none ht h1 h2, hint, Bool.false_eq_true, if_false, skip_after,
    List.take_succ_cons, List.take_zero, List.drop_succ_cons, List.drop_zero, hc, he, if_true]

example : WritesFaces [⟨10, 1, 3, false⟩, ⟨11, 4, 6, true⟩, ⟨12, unavailableInt, unavailableInt, false⟩]
    ([[], [], [], [], [], []] ++ "10".toList :: "1".toList :: "3".toList :: [] ::
      ([[], [], [], []] ++ "11".toList :: "4".toList :: "6".toList :: "1".toList :: ([] ++ ["12".toList, [], []]))) := by
  refine .cons (normal := 0) (by decide +kernel) (by decide +kernel) (by decide +kernel) (by decide +kernel) (.inr (by decide +kernel)) (.inr (by decide +kernel)) (.inl (by decide +kernel))
    (.cons (normal := 1) (by decide +kernel) (by decide +kernel) (by decide +kernel) (by decide +kernel) (.inr (by decide +kernel)) (.inr (by decide +kernel)) (.inr (by decide +kernel))
      (.last (by decide +kernel) (by decide +kernel) (by decide +kernel) (by decide +kernel) (.inl (by decide +kernel)) (.inl (by decide +kernel))))

theorem surf_name : Name false "SURF".toList := ⟨by decide, by decide, by decide⟩
theorem contact_name : Name false "CONTACT".toList := ⟨by decide, by decide, by decide⟩

theorem optional_number {d n : Int} {t : Text} (h : Says (.int n) t) (hn : Number n) : Optional d n t := by
  have : t = decimal n := h
  subst this
  exact .inr ⟨trim_decimal n, (number_range hn).1, (number_range hn).2⟩

/-- What the faces are written as. -/
theorem faces_written : ∀ {fs : List Face} {texts : List Text},
    List.Forall₂ Says (fs.flatMap fun f => .int f.cell :: .int f.node1 :: .int f.node2 :: List.replicate 5 .blank) texts →
    (∀ f ∈ fs, Number f.cell ∧ Number f.node1 ∧ Number f.node2) → ∀ bs : List Nastran.Line, (∀ b ∈ bs, Blank b) →
    WritesFaces (fs.map fun f => { f with swap := false }) (bs ++ texts) := by
  intro fs
  induction fs with
  | nil =>
    intro texts h _ bs hb
    cases h
    rw [List.append_nil]
    exact .nil hb
  | cons f fs ih =>
    intro texts h hn bs hb
    simp only [List.flatMap_cons, List.cons_append, List.replicate, List.nil_append] at h
    obtain _ | ⟨k0, h⟩ := h
    obtain _ | ⟨k1, h⟩ := h
    obtain _ | ⟨k2, h⟩ := h
    obtain _ | ⟨k3, h⟩ := h
    obtain _ | ⟨k4, h⟩ := h
    obtain _ | ⟨k5, h⟩ := h
    obtain _ | ⟨k6, h⟩ := h
    obtain _ | ⟨k7, h⟩ := h
    rename_i t0 t1 t2 t3 t4 t5 t6 t7 ts
    obtain ⟨n0, n1, n2⟩ := hn f (by simp)
    have e3 : t3 = [] := k3
    have e4 : t4 = [] := k4
    have e5 : t5 = [] := k5
    have e6 : t6 = [] := k6
    have e7 : t7 = [] := k7
    subst e3 e4 e5 e6 e7
    have hr := ih h (fun g hg => hn g (by simp [hg])) [[], [], [], []] (by decide)
    have e0 : t0 = decimal f.cell := k0
    have := WritesFaces.cons (normal := 0) hb (f := t0) (cell := f.cell) (by rw [e0]; exact trim_decimal _) (number_range n0).1 (number_range n0).2
      (optional_number k1 n1) (optional_number k2 n2) (.inl ⟨by decide, rfl⟩ : Optional 0 0 []) hr
    simpa using this

/-- **C113 (partial).** A surface that is written to Nastran is read back by the parser of OptiStruct with the same number and the same
faces when no face is reversed and all nodes are known. -/
theorem C113_surface_partial (counter : Nat) (number : Int) (fs : List Face) (rest : List Nastran.Line) (h0 : Number number)
    (hf : ∀ f ∈ fs, Number f.cell ∧ Number f.node1 ∧ Number f.node2) (hs : ∀ f ∈ fs, f.swap = false)
    (hc : counter + fs.length + 1 < 10 ^ 7) (hnew : NewCard rest) :
    ∃ lines counter' fields, writeCard counter "SURF".toList (surfArgs number fs) = some (lines, counter') ∧
      nextLine (lines ++ rest) = .ok (some (fields, afterComments rest)) ∧ readBulk parseSURF fields = .ok (number, fs) := by
  have hfit : ∀ a ∈ surfArgs number fs, Fits a := by
    intro a ha
    simp only [surfArgs, List.replicate, List.cons_append, List.nil_append, List.mem_cons, List.mem_flatMap] at ha
    rcases ha with rfl | rfl | rfl | rfl | rfl | rfl | rfl | rfl | ⟨f, hf', ha⟩
    · exact h0
    · exact ⟨by decide, by decide, by decide, by decide⟩
    iterate 6 trivial
    obtain ⟨n0, n1, n2⟩ := hf f hf'
    rcases ha with rfl | rfl | rfl | rfl | rfl | rfl | rfl | rfl | ha
    · exact n0
    · exact n1
    · exact n2
    iterate 5 trivial
    simp at ha
  have hlen : (surfArgs number fs).length = 8 + 8 * fs.length := by
    simp [surfArgs, List.length_flatMap, Function.comp_def]
    omega
  obtain ⟨lines, counter', texts, g1, g2, -, -, g5⟩ := C78_card_partial counter "SURF".toList _ rest surf_name hfit
    (by rw [hlen]; omega) hnew
  refine ⟨lines, counter', _, g1, g5, ?_⟩
  simp only [surfArgs, List.replicate, List.cons_append, List.nil_append] at g2
  obtain _ | ⟨k0, g2⟩ := g2
  obtain _ | ⟨k1, g2⟩ := g2
  obtain _ | ⟨k2, g2⟩ := g2
  obtain _ | ⟨k3, g2⟩ := g2
  obtain _ | ⟨k4, g2⟩ := g2
  obtain _ | ⟨k5, g2⟩ := g2
  obtain _ | ⟨k6, g2⟩ := g2
  obtain _ | ⟨k7, g2⟩ := g2
  rename_i t0 t1 t2 t3 t4 t5 t6 t7 ts
  have e0 : t0 = decimal number := k0
  have e1 : t1 = "ELFACE".toList := k1
  have e2 : t2 = [] := k2
  have e3 : t3 = [] := k3
  have e4 : t4 = [] := k4
  have e5 : t5 = [] := k5
  have e6 : t6 = [] := k6
  have e7 : t7 = [] := k7
  subst e0 e1 e2 e3 e4 e5 e6 e7
  have hw := faces_written g2 hf [[], [], [], [], [], []] (by decide)
  have hmap : fs.map (fun f => { f with swap := false }) = fs := by
    conv_rhs => rw [← List.map_id fs]
    apply List.map_congr_left
    intro f hf'
    have := hs f hf'
    cases f
    simp only at this
    simp [this]
  rw [hmap] at hw
  exact C113_surface number _ "ELFACE".toList _ fs (trim_decimal _) (number_range h0).1 (number_range h0).2 (by decide +kernel) hw

example : (∀ f ∈ ([⟨10, 1, 3, false⟩, ⟨11, 4, 6, false⟩] : List Face), Number f.cell ∧ Number f.node1 ∧ Number f.node2) ∧ Number 5 ∧ NewCard [] := by
  refine ⟨?_, by decide, trivial⟩
  unfold Number
  decide

/-- **C113 is false for reversed faces.** Whether the normals of faces are reversed is not written: surfaces that differ in it only are
written alike. -/
theorem C113_swap_false (number : Int) (fs gs : List Face)
    (h : fs.map (fun f => (f.cell, f.node1, f.node2)) = gs.map (fun f => (f.cell, f.node1, f.node2))) :
    surfArgs number fs = surfArgs number gs := by
  have key : ∀ l : List Face, (l.flatMap fun f => (.int f.cell :: .int f.node1 :: .int f.node2 :: List.replicate 5 .blank : List Arg)) =
      (l.map fun f => (f.cell, f.node1, f.node2)).flatMap fun p => .int p.1 :: .int p.2.1 :: .int p.2.2 :: List.replicate 5 .blank := by
    intro l
    rw [List.flatMap_map]
  unfold surfArgs
  rw [key fs, key gs, h]

example : ([⟨10, 1, 3, true⟩] : List Face).map (fun f => (f.cell, f.node1, f.node2)) =
    ([⟨10, 1, 3, false⟩] : List Face).map fun f => (f.cell, f.node1, f.node2) := rfl

/-- **C113 is false for faces given without nodes** (faces of shells): the mark of a node that is not given is written as a number of
eleven characters, the columns of the card are wrong, and the card cannot be read back. Here the surface of one face of the shell 10. -/
theorem C113_blank_node_false :
    readBulk parseSURF ["SURF".toList, "5".toList, "ELFACE".toList, "10".toList, [], []] =
      .ok (5, [⟨10, unavailableInt, unavailableInt, false⟩]) ∧
    ∃ lines c fields after, writeCard 1 "SURF".toList (surfArgs 5 [⟨10, unavailableInt, unavailableInt, false⟩]) = some (lines, c) ∧
      nextLine lines = .ok (some (fields, after)) ∧ readBulk parseSURF fields = .throw := by
  refine ⟨by decide +kernel, ["SURF           5  ELFACE                                                +2".toList,
    "+2            10-2147483648-2147483648                                        ".toList], 2,
    ["SURF", "5", "ELFACE", "", "", "", "", "", "", "10", "-2147483", "648-2147", "483648", "", "", "", ""].map String.toList, [],
    by decide +kernel, by decide +kernel, by decide +kernel⟩

/-- **C113.** A contact that is written is read back with its master and its slave in their places. -/
theorem C113_contact (counter : Nat) (k : Contact) (rest : List Nastran.Line) (h0 : Number k.number) (h1 : Number k.master)
    (h2 : Number k.slave) (hc : counter + 1 < 10 ^ 7) (hnew : NewCard rest) :
    ∃ lines counter' fields, writeCard counter "CONTACT".toList (contactArgs k) = some (lines, counter') ∧
      nextLine (lines ++ rest) = .ok (some (fields, afterComments rest)) ∧ readBulk parseCONTACT fields = .ok k := by
  have hfit : ∀ a ∈ contactArgs k, Fits a := by
    intro a ha
    simp only [contactArgs, List.mem_cons, List.not_mem_nil, or_false] at ha
    rcases ha with rfl | rfl | rfl | rfl
    · exact h0
    · exact ⟨by decide, by decide, by decide, by decide⟩
    · exact h2
    · exact h1
  obtain ⟨lines, counter', texts, g1, g2, -, -, g5⟩ := C78_card_partial counter "CONTACT".toList _ rest contact_name hfit
    (by simp [contactArgs]; omega) hnew
  refine ⟨lines, counter', _, g1, g5, ?_⟩
  unfold contactArgs at g2
  obtain _ | ⟨k0, g2⟩ := g2
  obtain _ | ⟨k1, g2⟩ := g2
  obtain _ | ⟨k2, g2⟩ := g2
  obtain _ | ⟨k3, g2⟩ := g2
  cases g2
  rename_i t0 t1 t2 t3
  have e1 : t1 = "SLIDE".toList := k1
  subst e1
  unfold readBulk
  rw [keyword_read (by decide) (by decide)]
  simp only [Outcome.bind_ok, parseCONTACT, says_int_read k0 h0, nextString_word none (f := "SLIDE".toList) (w := "SLIDE") (by decide +kernel) (by decide),
    says_int_read k2 h2, says_int_read k3 h1, isEmpty_end, if_true]

example : Number (⟨1, 5, 6⟩ : Contact).number ∧ Number (⟨1, 5, 6⟩ : Contact).master ∧ Number (⟨1, 5, 6⟩ : Contact).slave := by
  unfold Number; decide

/-- **C113.** The slave is the third field of CONTACT, the master the fourth, whatever the type. -/
theorem C113_contact_fields (ctid ssid msid : Int) (f0 f1 f2 f3 : Nastran.Line) (bs : List Nastran.Line) (h0 : trim f0 = decimal ctid) (h1 : trim f1 ≠ [])
    (h2 : trim f2 = decimal ssid) (h3 : trim f3 = decimal msid) (r0 : intMin ≤ ctid ∧ ctid ≤ intMax) (r2 : intMin ≤ ssid ∧ ssid ≤ intMax)
    (r3 : intMin ≤ msid ∧ msid ≤ intMax) (hb : ∀ b ∈ bs, Blank b) :
    readBulk parseCONTACT ("CONTACT".toList :: f0 :: f1 :: f2 :: f3 :: bs) = .ok ⟨ctid, msid, ssid⟩ := by
  have hs : ∀ pre rest, nextString none (after pre (f1 :: rest)) = .ok (toUpper (trim f1), after (pre ++ [f1]) rest) := by
    intro pre rest
    unfold nextString
    rw [next_after]
    simp only [trim_trimRight]
    rw [if_neg (by simpa [toUpper] using h1)]
  unfold readBulk
  rw [keyword_read (by decide) (by decide)]
  simp only [Outcome.bind_ok, parseCONTACT, nextInt_any none h0 r0.1 r0.2, hs, nextInt_any none h2 r2.1 r2.2, nextInt_any none h3 r3.1 r3.2,
    isEmpty_all hb, if_true]

example : trim " 12 ".toList = decimal 12 ∧ trim "FREEZE".toList ≠ [] := by decide +kernel

/-- **C113 is false for the type of a contact.** The type is read and not kept: a contact that sticks or is frozen is the sliding contact
of the same surfaces. -/
theorem C113_type_false (f0 f2 f3 : Nastran.Line) (bs : List Nastran.Line) (s t : Nastran.Line) (hs : trim s ≠ []) (ht : trim t ≠ []) (ctid ssid msid : Int)
    (h0 : trim f0 = decimal ctid) (h2 : trim f2 = decimal ssid) (h3 : trim f3 = decimal msid) (r0 : intMin ≤ ctid ∧ ctid ≤ intMax)
    (r2 : intMin ≤ ssid ∧ ssid ≤ intMax) (r3 : intMin ≤ msid ∧ msid ≤ intMax) (hb : ∀ b ∈ bs, Blank b) :
    readBulk parseCONTACT ("CONTACT".toList :: f0 :: s :: f2 :: f3 :: bs) = readBulk parseCONTACT ("CONTACT".toList :: f0 :: t :: f2 :: f3 :: bs) := by
  rw [C113_contact_fields ctid ssid msid f0 s f2 f3 bs h0 hs h2 h3 r0 r2 r3 hb, C113_contact_fields ctid ssid msid f0 t f2 f3 bs h0 ht h2 h3 r0 r2 r3 hb]

/-- **C113.** A set that is neither a list nor blank in the third field (a range, say) is refused and not read as a list. -/
theorem C113_subtype (sid : Int) (f0 f1 f2 : Nastran.Line) (rest : List Nastran.Line) (h0 : trim f0 = decimal sid)
    (hr : intMin ≤ sid ∧ sid ≤ intMax) (h1 : trim f1 ≠ []) (h2 : ¬ Blank f2) (h3 : ¬ Keyword "LIST" f2) :
    readBulk parseSET ("SET".toList :: f0 :: f1 :: f2 :: rest) = .throw := by
  have hs : ∀ (d : Option Nastran.Line) (f : Nastran.Line) pre rest, trim f ≠ [] →
      nextString d (after pre (f :: rest)) = .ok (toUpper (trim f), after (pre ++ [f]) rest) := by
    intro d f pre rest h
    unfold nextString
    rw [next_after]
    simp only [trim_trimRight]
    rw [if_neg (by simpa [toUpper] using h)]
  obtain ⟨c, hc⟩ := toNotEmpty_ok rest (["SET".toList] ++ [f0] ++ [f1] ++ [f2])
  unfold readBulk
  rw [set_keyword]
  simp only [Outcome.bind_ok, parseSET, nextInt_any none h0 hr.1 hr.2, hs none f1 _ _ h1, hs _ f2 _ _ h2, hc]
  rw [if_pos (show toUpper (trim f2) ≠ "LIST".toList from h3)]
  rfl

example : ¬ Blank "RANGE".toList ∧ ¬ Keyword "LIST" "RANGE".toList ∧ trim "GRID".toList ≠ [] ∧ trim " 5".toList = decimal 5 := by decide +kernel

/-- **C113 (partial).** A contact is written as three cards, which are read back as its two surfaces, each with the number by which the contact
calls it and with its faces, and the contact, for faces that are not swapped. -/
theorem C113_cards_partial (k : Contact) (master slave : List Face) (h0 : Number k.number) (h1 : Number k.master) (h2 : Number k.slave)
    (hf : ∀ f ∈ master ++ slave, Number f.cell ∧ Number f.node1 ∧ Number f.node2) (hs : ∀ f ∈ master ++ slave, f.swap = false)
    (counter : Nat) (hc : counter + master.length + slave.length + 1 < 10 ^ 7) (rest : List Nastran.Line) (hnew : NewCard rest) :
    ∃ c1 c2 c3, contactCards k master slave = [c1, c2, c3] ∧
      (∃ lines n fields, writeCard counter c1.1 c1.2 = some (lines, n) ∧
        nextLine (lines ++ rest) = .ok (some (fields, afterComments rest)) ∧ readBulk parseSURF fields = .ok (k.slave, slave)) ∧
      (∃ lines n fields, writeCard counter c2.1 c2.2 = some (lines, n) ∧
        nextLine (lines ++ rest) = .ok (some (fields, afterComments rest)) ∧ readBulk parseSURF fields = .ok (k.master, master)) ∧
      (∃ lines n fields, writeCard counter c3.1 c3.2 = some (lines, n) ∧
        nextLine (lines ++ rest) = .ok (some (fields, afterComments rest)) ∧ readBulk parseCONTACT fields = .ok k) := by
  refine ⟨_, _, _, rfl, C113_surface_partial counter k.slave slave rest h2 (fun f h => hf f (List.mem_append_right _ h))
      (fun f h => hs f (List.mem_append_right _ h)) (by omega) hnew,
    C113_surface_partial counter k.master master rest h1 (fun f h => hf f (List.mem_append_left _ h))
      (fun f h => hs f (List.mem_append_left _ h)) (by omega) hnew, C113_contact counter k rest h0 h1 h2 (by omega) hnew⟩

example : ∀ f ∈ ([⟨10, 1, 3, false⟩] : List Face) ++ [⟨11, 2, 4, false⟩], Number f.cell ∧ Number f.node1 ∧ Number f.node2 := by
  unfold Number; decide

end Optistruct
end Vega
