import Verif.Results.F06

/-! # Lemmas on texts for the reading of results -/
namespace Vega
namespace F06
open Nastran (Line isSpace trim trimRight lexicalDouble natOf signed fraction exponent? intMin intMax)

/-! ## Occurrences -/

theorem after?_some {pat : Line} : ∀ {l t : Line}, after? pat l = some t → ∃ a, l = a ++ pat ++ t := by
  intro l
  induction l with
  | nil =>
    intro t h
    unfold after? at h
    split at h
    · rename_i hp
      simp only [Option.some.injEq] at h
      exact ⟨[], by simp [hp, ← h]⟩
    · exact absurd h (by simp)
  | cons c l ih =>
    intro t h
    unfold after? at h
    split at h
    · rename_i hp
      simp only [Option.some.injEq] at h
      obtain ⟨u, hu⟩ := List.isPrefixOf_iff_prefix.1 hp
      refine ⟨[], ?_⟩
      rw [← h, ← hu]
      simp
    · obtain ⟨a, ha⟩ := ih h
      exact ⟨c :: a, by simp [ha]⟩

theorem after?_ne_none {pat : Line} : ∀ (a t : Line), (after? pat (a ++ pat ++ t)).isSome := by
  intro a t
  induction a with
  | nil =>
    cases pat with
    | nil => cases t <;> simp [after?]
    | cons c p => simp [after?]
  | cons c a ih =>
    simp only [List.cons_append]
    unfold after?
    split
    · simp
    · exact ih

/-- The search finds a text that is in the line, and no other. -/
theorem has_iff {pat l : Line} : has pat l = true ↔ pat <:+: l := by
  unfold has
  constructor
  · intro h
    obtain ⟨t, ht⟩ := Option.isSome_iff_exists.1 h
    obtain ⟨a, ha⟩ := after?_some ht
    exact ⟨a, t, by rw [ha]⟩
  · rintro ⟨a, t, h⟩
    rw [← h]
    exact after?_ne_none a t

theorem has_false {pat l : Line} : has pat l = false ↔ ¬ pat <:+: l := by
  rw [← has_iff]; simp

theorem after?_none {pat l : Line} (h : ¬ pat <:+: l) : after? pat l = none := by
  rw [← has_false] at h
  unfold has at h
  cases hh : after? pat l with
  | none => rfl
  | some t => rw [hh] at h; exact absurd h (by simp)

theorem not_infix_of_char {pat l : Line} {c : Char} (h : c ∈ pat) (hn : c ∉ l) : ¬ pat <:+: l := fun hi => hn (hi.subset h)

/-- The first occurrence: there is none that begins before. -/
theorem after?_first {pat : Line} (hne : pat ≠ []) : ∀ (pre t : Line), ¬ pat <:+: pre ++ pat.dropLast →
    after? pat (pre ++ pat ++ t) = some t := by
  intro pre t
  induction pre with
  | nil =>
    intro _
    cases pat with
    | nil => exact absurd rfl hne
    | cons c p => simp [after?]
  | cons a pre ih =>
    intro h
    simp only [List.cons_append]
    unfold after?
    split
    · rename_i hp
      exfalso
      apply h
      have hp := List.isPrefixOf_iff_prefix.1 hp
      have h2 : (a :: pre) ++ pat.dropLast <+: a :: (pre ++ pat ++ t) := by
        obtain ⟨b, hb⟩ : ∃ b, pat.dropLast ++ [b] = pat := ⟨_, List.dropLast_append_getLast hne⟩
        refine ⟨[b] ++ t, ?_⟩
        have : pre ++ pat ++ t = pre ++ (pat.dropLast ++ [b]) ++ t := by rw [hb]
        rw [this]
        simp
      have hl : pat.length ≤ ((a :: pre) ++ pat.dropLast).length := by
        simp only [List.length_append, List.length_cons, List.length_dropLast]
        omega
      exact (List.prefix_of_prefix_length_le hp h2 hl).isInfix
    · exact ih (fun hi => h (hi.trans (List.suffix_cons _ _).isInfix))

/-! ## Spaces -/

theorem dropWhile_append_of {p : Char → Bool} (a : Line) {c : Char} {b : Line} (hc : p c = false) :
    (a ++ c :: b).dropWhile p = a.dropWhile p ++ c :: b := by
  induction a with
  | nil => simp [hc]
  | cons d a ih =>
    simp only [List.cons_append, List.dropWhile_cons]
    split
    · exact ih
    · rfl

theorem dropWhile_all {p : Char → Bool} (a : Line) (b : Line) (h : ∀ c ∈ a, p c = true) :
    (a ++ b).dropWhile p = b.dropWhile p := by
  induction a with
  | nil => rfl
  | cons d a ih =>
    rw [List.cons_append, List.dropWhile_cons, if_pos (h d (by simp)), ih (fun c hc => h c (by simp [hc]))]

theorem trimRight_append (a tail : Line) {c : Char} (hc : isSpace c = false) (ht : ∀ c ∈ tail, isSpace c = true) :
    trimRight (a ++ [c] ++ tail) = a ++ [c] := by
  unfold trimRight
  rw [List.reverse_append, dropWhile_all _ _ (by intro d hd; exact ht d (by simpa using hd))]
  simp [hc]

/-- Trimming keeps what is between the first and the last character that are not spaces. -/
theorem trim_mid (pre mid tail : Line) {a b : Char} (ha : isSpace a = false) (hb : isSpace b = false)
    (ht : ∀ c ∈ tail, isSpace c = true) :
    trim (pre ++ a :: (mid ++ [b]) ++ tail) = pre.dropWhile isSpace ++ a :: (mid ++ [b]) := by
  unfold trim
  have h1 : pre ++ a :: (mid ++ [b]) ++ tail = pre ++ a :: (mid ++ [b] ++ tail) := by simp
  rw [h1, dropWhile_append_of _ ha]
  have h2 : pre.dropWhile isSpace ++ a :: (mid ++ [b] ++ tail) = (pre.dropWhile isSpace ++ a :: mid) ++ [b] ++ tail := by simp
  rw [h2, trimRight_append _ _ hb ht]
  simp

theorem trim_infix (l : Line) : trim l <:+: l := by
  unfold trim trimRight
  have h1 : l.dropWhile isSpace <:+ l := List.dropWhile_suffix _
  have h2 : ∀ m : Line, (m.reverse.dropWhile isSpace).reverse <+: m := by
    intro m
    have : m.reverse.dropWhile isSpace <:+ m.reverse := List.dropWhile_suffix _
    have := List.reverse_prefix.2 this
    simpa using this
  exact (h2 _).isInfix.trans h1.isInfix

theorem dropWhile_nil_of_all {a : Line} (h : ∀ c ∈ a, isSpace c = true) : a.dropWhile isSpace = [] := by
  have := dropWhile_all a [] h
  simpa using this

/-! ## Words -/

theorem wordsFrom_spaces : ∀ (g l : Line), (∀ c ∈ g, isSpace c = true) → wordsFrom [] (g ++ l) = wordsFrom [] l := by
  intro g l h
  induction g with
  | nil => rfl
  | cons c g ih =>
    rw [List.cons_append, wordsFrom, if_pos (h c (by simp))]
    exact ih fun d hd => h d (by simp [hd])

theorem wordsFrom_word : ∀ (w cur l : Line), (∀ c ∈ w, isSpace c = false) →
    wordsFrom cur (w ++ l) = wordsFrom (cur ++ w) l := by
  intro w
  induction w with
  | nil => intro cur l _; simp
  | cons c w ih =>
    intro cur l h
    rw [List.cons_append, wordsFrom, if_neg (by simp [h c (by simp)]), ih _ _ fun d hd => h d (by simp [hd])]
    simp

/-! ## Numbers -/

/-- The characters of a number. -/
def numberChar (c : Char) : Bool := c.isDigit || c = '+' || c = '-' || c = '.' || c = 'e' || c = 'E'

theorem takeWhile_dropWhile_mem {p : Char → Bool} {l : Line} {c : Char} (h : c ∈ l) : p c = true ∨ c ∈ l.dropWhile p := by
  have := List.takeWhile_append_dropWhile (p := p) (l := l)
  rw [← this] at h
  rcases List.mem_append.1 h with h | h
  · exact Or.inl (List.all_eq_true.1 List.all_takeWhile c h)
  · exact Or.inr h

theorem signed_mem {l : Line} {c : Char} (h : c ∈ l) : numberChar c = true ∨ c ∈ (signed l).2 := by
  unfold signed
  split
  · rcases List.mem_cons.1 h with rfl | h
    · exact Or.inl (by decide)
    · exact Or.inr h
  · rcases List.mem_cons.1 h with rfl | h
    · exact Or.inl (by decide)
    · exact Or.inr h
  · exact Or.inr h

theorem fraction_mem {l : Line} {c : Char} (h : c ∈ l) : numberChar c = true ∨ c ∈ (fraction l).2 := by
  unfold fraction
  split
  · rcases List.mem_cons.1 h with rfl | h
    · exact Or.inl (by decide)
    · rcases takeWhile_dropWhile_mem (p := Char.isDigit) h with h | h
      · exact Or.inl (by simp [numberChar, h])
      · exact Or.inr h
  · exact Or.inr h

theorem exponent_mem {l : Line} {e : Int} (he : exponent? l = some e) {c : Char} (h : c ∈ l) : numberChar c = true := by
  have key : ∀ r : Bool × Line, (if r.2.isEmpty || !r.2.all Char.isDigit then none
      else some (if r.1 then -(natOf r.2 : Int) else natOf r.2)) = some e → c ∈ r.2 → numberChar c = true := by
    intro r hr hc
    split at hr
    · exact absurd hr (by simp)
    · rename_i hh
      simp only [Bool.or_eq_true, Bool.not_eq_true', not_or, Bool.not_eq_false] at hh
      have := List.all_eq_true.1 hh.2 c hc
      simp [numberChar, this]
  unfold exponent? at he
  split at he
  · rcases List.mem_cons.1 h with rfl | h
    · decide
    · exact key _ he h
  · rcases List.mem_cons.1 h with rfl | h
    · decide
    · exact key _ he h
  · exact key _ he h

/-- A text that is a number has only digits, signs, points and letters of an exponent. -/
theorem number_chars {l : Line} {x : Dbl} (hx : lexicalDouble l = some x) {c : Char} (h : c ∈ l) : numberChar c = true := by
  rcases signed_mem h with h | h
  · exact h
  rcases takeWhile_dropWhile_mem (p := Char.isDigit) h with h | h
  · simp [numberChar, h]
  rcases fraction_mem h with h | h
  · exact h
  unfold lexicalDouble at hx
  simp only at hx
  split at hx
  · exact absurd hx (by simp)
  · split at hx
    · rename_i hf
      rw [hf] at h
      exact absurd h (by simp)
    · rename_i d t hf
      rw [hf] at h
      split at hx
      · rename_i hd
        obtain ⟨e, he, _⟩ := Option.map_eq_some_iff.1 hx
        rcases List.mem_cons.1 h with rfl | h
        · simp only [Bool.or_eq_true, decide_eq_true_eq] at hd
          rcases hd with rfl | rfl <;> decide
        · exact exponent_mem he h
      · exact absurd hx (by simp)

theorem number_ne_nil {l : Line} {x : Dbl} (hx : lexicalDouble l = some x) : l ≠ [] := by
  rintro rfl
  exact absurd hx (by simp [lexicalDouble, signed, fraction])

theorem numberChar_space {c : Char} (h : numberChar c = true) : isSpace c = false := by
  by_contra hs
  have hs : isSpace c = true := by simpa using hs
  simp only [isSpace, Bool.or_eq_true, decide_eq_true_eq] at hs
  rcases hs with ((((rfl | rfl) | rfl) | rfl) | rfl) | rfl <;> exact absurd h (by decide)

theorem stod_number {l : Line} {x : Dbl} (hx : lexicalDouble l = some x) : stod l = some x := by
  unfold stod
  rw [List.range_succ]
  simp [hx]

theorem digit_not_sign {c : Char} (h : c.isDigit = true) : c ≠ '-' ∧ c ≠ '+' := by
  constructor <;> rintro rfl <;> exact absurd h (by decide)

theorem signed_digits {l : Line} (h : ∀ c ∈ l, c.isDigit = true) : signed l = (false, l) := by
  unfold signed
  split
  · exact absurd rfl (digit_not_sign (h _ (by simp))).1
  · exact absurd rfl (digit_not_sign (h _ (by simp))).2
  · rfl

theorem takeWhile_all {p : Char → Bool} {l : Line} (h : ∀ c ∈ l, p c = true) : l.takeWhile p = l := by
  induction l with
  | nil => rfl
  | cons c l ih =>
    rw [List.takeWhile_cons, if_pos (h c (by simp)), ih fun d hd => h d (by simp [hd])]

theorem stoi_digits {l : Line} (h : ∀ c ∈ l, c.isDigit = true) (hne : l ≠ []) (hm : (natOf l : Int) ≤ intMax) :
    stoi l = some ((natOf l : Nat) : Int) := by
  unfold stoi
  simp only [signed_digits h, takeWhile_all h]
  rw [if_neg (by simpa using hne)]
  have : intMin ≤ (natOf l : Int) := by have : intMin ≤ 0 := by decide
                                        omega
  simp [this, hm]

theorem digit_space {c : Char} (h : c.isDigit = true) : isSpace c = false :=
  numberChar_space (by simp [numberChar, h])

end F06
end Vega
