import Verif.Nastran.FixedProps
import Mathlib.Data.List.Infix

/-! # C27: comments and blank lines -/
namespace Vega

/-! ## Specification -/
namespace CommentSpec
open Nastran

/-- A line that holds data: its first character other than a blank exists and is not `$`. -/
def significant (l : Line) : Bool :=
  match l.dropWhile isBlank with
  | [] => false
  | c :: _ => c ≠ '$'

/-- The data of a line: what precedes the first `$`. -/
def strip (l : Line) : Line := l.takeWhile (· ≠ '$')

/-- The lines obtained by reading a text to its end, card by card (first lines). -/
inductive Delivers : List Line → List Line → Prop where
  | done {text : List Line} : readLine true text = none → Delivers text []
  | more {text rest ls : List Line} {l : Line} : readLine true text = some (l, rest) →
      Delivers rest ls → Delivers text (l :: ls)

/-- The text without the lines that begin with `$`. -/
def withoutComments (text : List Line) : List Line := text.filter fun l => l.head? ≠ some '$'

/-- All the cards of a text. -/
def allCards (text : List Line) : Outcome (List (List Line)) := cards (text.length + 1) text

end CommentSpec

namespace Nastran
open CommentSpec

/-! ## Helper lemmas -/

theorem blank_dropWhile (l : Line) : blank l = true ↔ l.dropWhile isBlank = [] := by
  rw [blank, List.all_eq_true]
  exact List.dropWhile_eq_nil_iff.symm

theorem blank_takeWhile (l : Line) : blank (l.takeWhile (· ≠ '$')) = !significant l := by
  induction l with
  | nil => rfl
  | cons c cs ih =>
    by_cases hb : isBlank c = true
    · have hc : c ≠ '$' := by rintro rfl; simp [isBlank] at hb
      have h1 : significant (c :: cs) = significant cs := by
        unfold significant
        rw [List.dropWhile_cons, if_pos hb]
      rw [h1, ← ih]
      simp [hc, blank, hb]
    · have h1 : significant (c :: cs) = decide (c ≠ '$') := by
        unfold significant
        rw [List.dropWhile_cons, if_neg hb]
      rw [h1]
      by_cases hc : c = '$'
      · subst hc; simp [blank]
      · simp [hc, blank, hb]

theorem blank_not_significant {l : Line} (h : blank l = true) : significant l = false := by
  unfold significant
  rw [(blank_dropWhile l).1 h]

theorem dollar_not_significant {l : Line} (h : l.head? = some '$') : significant l = false := by
  cases l with
  | nil => simp at h
  | cons c cs =>
    simp at h
    subst h
    simp [significant, isBlank]

/-- Reading a first line: the first line that holds data. -/
theorem readLine_true_cons (l : Line) (rest : List Line) :
    readLine true (l :: rest) = if significant l then some (strip l, rest) else readLine true rest := by
  rw [readLine, blank_takeWhile]
  by_cases hs : significant l = true
  · have hb : blank l = false := by
      rw [← Bool.not_eq_true]
      intro h
      rw [blank_not_significant h] at hs
      cases hs
    have hl : l.isEmpty = false := by
      cases l with
      | nil => cases hs
      | cons => rfl
    have hd : l.head? ≠ some '$' := by
      intro h
      rw [dollar_not_significant h] at hs
      cases hs
    simp [hs, hb, hl, hd, strip]
  · have hs' : significant l = false := by simpa using hs
    simp [hs']

theorem delivers_total : ∀ text : List Line,
    Delivers text ((text.filter significant).map strip) := by
  intro text
  induction text with
  | nil => exact .done rfl
  | cons l rest ih =>
    by_cases hs : significant l = true
    · rw [List.filter_cons_of_pos hs]
      exact .more (by rw [readLine_true_cons, if_pos hs]) ih
    · rw [List.filter_cons_of_neg hs]
      have e : readLine true (l :: rest) = readLine true rest := by
        rw [readLine_true_cons, if_neg hs]
      generalize List.map strip (List.filter significant rest) = ls at ih
      cases ih with
      | done h => exact .done (e.trans h)
      | more h h' => exact .more (e.trans h) h'

theorem delivers_unique {text ls : List Line} (h : Delivers text ls) :
    ∀ {ls'}, Delivers text ls' → ls = ls' := by
  induction h with
  | done h =>
    intro ls' h'
    cases h' with
    | done => rfl
    | more h2 => rw [h] at h2; cases h2
  | more h _ ih =>
    intro ls' h'
    cases h' with
    | done h2 => rw [h] at h2; cases h2
    | more h2 h3 =>
      rw [h] at h2
      cases h2
      rw [ih h3]

theorem readLine_filter (fl : Bool) (text : List Line) :
    readLine fl (withoutComments text) =
      (readLine fl text).map fun p => (p.1, withoutComments p.2) := by
  induction text with
  | nil => rfl
  | cons l rest ih =>
    by_cases hd : l.head? = some '$'
    · have e : withoutComments (l :: rest) = withoutComments rest := by
        simp [withoutComments, hd]
      have hb : blank l = false := by
        cases l with
        | nil => simp at hd
        | cons c cs => simp at hd; subst hd; simp [blank, isBlank]
      have e2 : readLine fl (l :: rest) = readLine fl rest := by
        rw [readLine]
        simp [hd, hb]
      rw [e, e2, ih]
    · have e : withoutComments (l :: rest) = l :: withoutComments rest := by
        simp [withoutComments, hd]
      rw [e, readLine, readLine, ih]
      by_cases h1 : (!l.isEmpty && !blank l && decide (l.head? ≠ some '$')) = true
      · rw [if_pos h1, if_pos h1]
        by_cases h2 : (!blank (l.takeWhile (· ≠ '$'))) = true
        · rw [if_pos h2, if_pos h2]; rfl
        · rw [if_neg h2, if_neg h2]
      · rw [if_neg h1, if_neg h1]
        by_cases h2 : (!fl && blank l) = true
        · rw [if_pos h2, if_pos h2]; rfl
        · rw [if_neg h2, if_neg h2]

theorem readLine_suffix {fl : Bool} {text rest : List Line} {l : Line}
    (h : readLine fl text = some (l, rest)) :
    rest <:+ text ∧ rest.length < text.length ∧
      (fl = true → ∃ l0 ∈ text, l0.head? ≠ some '$' ∧ l = strip l0) := by
  induction text with
  | nil => cases h
  | cons l0 text ih =>
    rw [readLine] at h
    have hrec : readLine fl text = some (l, rest) → rest <:+ l0 :: text ∧
        rest.length < (l0 :: text).length ∧
        (fl = true → ∃ l1 ∈ l0 :: text, l1.head? ≠ some '$' ∧ l = strip l1) := by
      intro h
      obtain ⟨a, b, c⟩ := ih h
      refine ⟨a.trans (List.suffix_cons _ _), by simp; omega, fun hf => ?_⟩
      obtain ⟨l1, h1, h2⟩ := c hf
      exact ⟨l1, by simp [h1], h2⟩
    split at h
    · rename_i hc
      split at h
      · cases h
        refine ⟨List.suffix_cons _ _, by simp, fun _ => ⟨l0, by simp, ?_, rfl⟩⟩
        simp only [Bool.and_eq_true, decide_eq_true_eq] at hc
        exact hc.2
      · exact hrec h
    · split at h
      · rename_i hc
        cases h
        refine ⟨List.suffix_cons _ _, by simp, fun hf => ?_⟩
        subst hf
        simp at hc
      · exact hrec h

theorem skipDollar_suffix (rest : List Line) : skipDollar rest <:+ rest := by
  induction rest with
  | nil => exact List.suffix_refl _
  | cons l rest ih =>
    rw [skipDollar]
    split
    · exact ih.trans (List.suffix_cons _ _)
    · exact List.suffix_refl _

theorem filter_skipDollar (rest : List Line) :
    withoutComments (skipDollar rest) = withoutComments rest := by
  induction rest with
  | nil => rfl
  | cons l rest ih =>
    rw [skipDollar]
    split
    · rename_i h
      rw [ih]
      simp [withoutComments, h]
    · rfl

theorem skipDollar_filter (rest : List Line) :
    skipDollar (withoutComments rest) = withoutComments rest := by
  cases h : withoutComments rest with
  | nil => rfl
  | cons l r =>
    have : l ∈ withoutComments rest := by simp [h]
    simp only [withoutComments, List.mem_filter, decide_eq_true_eq] at this
    rw [skipDollar, if_neg this.2]

theorem peek_filter (rest : List Line) :
    peek (withoutComments rest) = peek (skipDollar rest) := by
  induction rest with
  | nil => rfl
  | cons l rest ih =>
    rw [skipDollar]
    split
    · rename_i h
      rw [← ih]
      simp [withoutComments, h]
    · rename_i h
      have e : withoutComments (l :: rest) = l :: withoutComments rest := by
        simp [withoutComments, h]
      rw [e]
      cases l <;> rfl

/-- Effect of `f` on the value of an outcome. -/
def mapRest (f : List Line → List Line) : Outcome (List Line × List Line) → Outcome (List Line × List Line)
  | .ok (a, b) => .ok (a, f b)
  | .throw => .throw
  | .ub => .ub
  | .diverges => .diverges

theorem splitFixed_filter : ∀ (fuel : Nat) (fuel' : Nat) (line : Line) (lf fl : Bool)
    (rest vec : List Line), rest.length < fuel → (withoutComments rest).length < fuel' →
    splitFixed fuel' line lf fl (withoutComments rest) vec =
      mapRest withoutComments (splitFixed fuel line lf fl rest vec) := by
  intro fuel
  induction fuel with
  | zero => intro fuel' line lf fl rest vec h; omega
  | succ n ih =>
    intro fuel' line lf fl rest vec h h'
    obtain ⟨m, rfl⟩ : ∃ m, fuel' = m + 1 := ⟨fuel' - 1, by omega⟩
    rw [splitFixed, splitFixed]
    simp only [skipDollar_filter, peek_filter]
    generalize (if fl = true then fieldLoop (fieldMax lf) (cut (offsets lf) (replaceTabs lf line)) 0
      else fieldLoop (fieldMax lf) (List.drop 1 (cut (offsets lf) (replaceTabs lf line))) 1) = r
    have hread : readLine false (withoutComments rest) =
        (readLine false (skipDollar rest)).map fun p => (p.1, withoutComments p.2) := by
      rw [← readLine_filter, filter_skipDollar]
    have hlen : (skipDollar rest).length ≤ rest.length := (skipDollar_suffix rest).length_le
    rw [hread]
    split
    · rfl
    · split
      · cases e : readLine false (skipDollar rest) with
        | none => rfl
        | some p =>
          obtain ⟨l2, r2⟩ := p
          have hs := readLine_suffix e
          have hr := congrArg (Option.map Prod.snd) hread
          rw [e] at hr hread
          have hs' := readLine_suffix hread
          exact ih m l2 lf false r2 _ (by omega) (by have := hs'.2.1; simp at this; omega)
      · split
        · cases e : readLine false (skipDollar rest) with
          | none => rfl
          | some p =>
            obtain ⟨l2, r2⟩ := p
            have hs := readLine_suffix e
            rw [e] at hread
            have hs' := readLine_suffix hread
            exact ih m l2 _ false r2 _ (by omega) (by have := hs'.2.1; simp at this; omega)
        · simp [mapRest, filter_skipDollar]

theorem splitFixed_suffix : ∀ (fuel : Nat) (line : Line) (lf fl : Bool) (rest vec : List Line)
    (f r : List Line), splitFixed fuel line lf fl rest vec = .ok (f, r) → r <:+ rest := by
  intro fuel
  induction fuel with
  | zero => intro line lf fl rest vec f r h; cases h
  | succ n ih =>
    intro line lf fl rest vec f r h
    rw [splitFixed] at h
    dsimp only at h
    generalize (if fl = true then fieldLoop (fieldMax lf) (cut (offsets lf) (replaceTabs lf line)) 0
      else fieldLoop (fieldMax lf) (List.drop 1 (cut (offsets lf) (replaceTabs lf line))) 1) = r0 at h
    have hsd := skipDollar_suffix rest
    split at h
    · cases h
    · split at h
      · split at h
        · cases h
        · rename_i e
          exact (ih _ _ _ _ _ _ _ h).trans ((readLine_suffix e).1.trans hsd)
      · split at h
        · split at h
          · cases h
          · rename_i e
            exact (ih _ _ _ _ _ _ _ h).trans ((readLine_suffix e).1.trans hsd)
        · cases h
          exact hsd

theorem length_lt_fuel (line : Line) (rest : List Line) : rest.length < fuelFor line rest := by
  have hs : ∀ ls : List Line, ls.length ≤ (ls.map fun l => l.length + 1).sum := by
    intro ls
    induction ls with
    | nil => simp
    | cons l ls ih => simp; omega
  have := hs rest
  unfold fuelFor
  omega

theorem nextLine_filter {text : List Line}
    (hfix : ∀ l ∈ text, l.head? ≠ some '$' → getLineType (strip l) ≠ .free) :
    (∀ card rest, nextLine text = .ok (some (card, rest)) → rest <:+ text ∧ rest.length < text.length) ∧
    nextLine (withoutComments text) = match nextLine text with
      | .ok none => .ok none
      | .ok (some (card, rest)) => .ok (some (card, withoutComments rest))
      | .throw => .throw
      | .ub => .ub
      | .diverges => .diverges := by
  unfold nextLine
  rw [readLine_filter]
  cases e : readLine true text with
  | none => exact ⟨fun _ _ h => by simp at h, rfl⟩
  | some p =>
    obtain ⟨l, rest⟩ := p
    obtain ⟨hsuf, hlt, hl⟩ := readLine_suffix e
    obtain ⟨l0, h0, hd, rfl⟩ := hl rfl
    have hf := hfix l0 h0 hd
    simp only [Option.map_some, parseBulk_fixed hf]
    rw [splitFixed_filter (fuelFor (strip l0) rest) _ _ _ _ _ _ (length_lt_fuel _ _) (length_lt_fuel _ _)]
    cases e2 : splitFixed (fuelFor (strip l0) rest) (strip l0)
        (decide (getLineType (strip l0) = LineType.long)) true rest [] with
    | ok q =>
      obtain ⟨f, r⟩ := q
      have hs2 := splitFixed_suffix _ _ _ _ _ _ _ _ e2
      refine ⟨fun card rest' h => ?_, rfl⟩
      cases h
      exact ⟨hs2.trans hsuf, Nat.lt_of_le_of_lt hs2.length_le hlt⟩
    | throw => exact ⟨fun _ _ h => (by cases h), rfl⟩
    | ub => exact ⟨fun _ _ h => (by cases h), rfl⟩
    | diverges => exact ⟨fun _ _ h => (by cases h), rfl⟩

theorem cards_filter : ∀ (fuel fuel' : Nat) (text : List Line),
    (∀ l ∈ text, l.head? ≠ some '$' → getLineType (strip l) ≠ .free) →
    text.length < fuel → (withoutComments text).length < fuel' →
    cards fuel' (withoutComments text) = cards fuel text := by
  intro fuel
  induction fuel with
  | zero => intro _ _ _ h; omega
  | succ n ih =>
    intro fuel' text hfix h h'
    obtain ⟨m, rfl⟩ : ∃ m, fuel' = m + 1 := ⟨fuel' - 1, by omega⟩
    obtain ⟨hsuf, heq⟩ := nextLine_filter hfix
    have hfix' : ∀ l ∈ withoutComments text, l.head? ≠ some '$' → getLineType (strip l) ≠ .free :=
      fun l hl => hfix l (List.mem_filter.1 hl).1
    obtain ⟨hsuf', -⟩ := nextLine_filter hfix'
    rw [cards, cards, heq]
    cases e : nextLine text with
    | ok o =>
      cases o with
      | none => rfl
      | some p =>
        obtain ⟨card, rest⟩ := p
        obtain ⟨h1, h2⟩ := hsuf card rest e
        rw [e] at heq
        obtain ⟨h3, h4⟩ := hsuf' card (withoutComments rest) heq
        have := ih m rest (fun l hl => hfix l (h1.subset hl)) (by omega) (by omega)
        simp only [Outcome.bind_ok, this]
    | throw => rfl
    | ub => rfl
    | diverges => rfl

/-! ## C27 -/

/-- **C27.** The lines at which cards begin being read, whatever comments and blank lines a text
holds, are exactly its lines that hold data, in order, each without its trailing comment. -/
theorem C27_lines (text ls : List Line) :
    Delivers text ls ↔ ls = (text.filter significant).map strip := by
  constructor
  · exact fun h => delivers_unique h (delivers_total text)
  · rintro rfl
    exact delivers_total text

/-- **C27.** Inserting a comment or a blank line anywhere, or a comment at the end of a line that holds
data, does not change the lines delivered. -/
theorem C27_insert (a b ls : List Line) (l c : Line) (hl : significant l = false)
    (hc : c.head? = some '$') :
    (Delivers (a ++ b) ls ↔ Delivers (a ++ l :: b) ls) ∧
    (∀ d : Line, significant d = true → '$' ∉ d →
      (Delivers (a ++ d :: b) ls ↔ Delivers (a ++ (d ++ c) :: b) ls)) := by
  refine ⟨?_, ?_⟩
  · rw [C27_lines, C27_lines]
    simp [hl]
  · intro d hd hdd
    have hs : strip (d ++ c) = strip d := by
      have hself : d.takeWhile (· ≠ '$') = d := by
        rw [List.takeWhile_eq_self_iff]
        intro x hx
        simp only [decide_eq_true_eq]
        rintro rfl
        exact hdd hx
      unfold strip
      rw [List.takeWhile_append, hself, if_pos rfl]
      cases c with
      | nil => simp at hc
      | cons x xs =>
        simp at hc
        subst hc
        simp
    have hsig : significant (d ++ c) = true := by
      unfold significant at hd ⊢
      by_cases h : d.dropWhile isBlank = []
      · rw [h] at hd; cases hd
      · rw [dropWhile_append_ne h]
        cases e : d.dropWhile isBlank with
        | nil => exact absurd e h
        | cons x xs =>
          rw [e] at hd
          exact hd
    rw [C27_lines, C27_lines]
    simp [hd, hs, hsig]

example : significant "  $ x".toList = false ∧ significant "".toList = false ∧
    significant "GRID".toList = true := by decide

/-- **C27, cards, partial.** Lines that begin with `$` have no effect on the cards of a text in fixed
format, wherever they stand, inside cards too. Missing, and false (see below): free format, comments
that do not begin in the first column, and blank lines inside cards. -/
theorem C27_cards_partial (text : List Line)
    (hfix : ∀ l ∈ text, l.head? ≠ some '$' → getLineType (strip l) ≠ .free) :
    allCards (withoutComments text) = allCards text :=
  cards_filter _ _ text hfix (Nat.lt_succ_self _) (Nat.lt_succ_self _)

example : ∀ l ∈ ["GRID    1".toList, "$ c, *".toList, "        2".toList],
    l.head? ≠ some '$' → getLineType (strip l) ≠ .free := by decide
example : allCards ["GRID    1".toList, "$ c, *".toList, "+       2".toList] =
    .ok [["GRID".toList, "1".toList, "2".toList]] := by decide +kernel

/-- **C27, false for cards.** An indented comment after a fixed format card makes the next card
be read as its continuation. -/
theorem C27_indented_comment_false :
    allCards ["A       1".toList, "B       2".toList] =
      .ok [["A".toList, "1".toList], ["B".toList, "2".toList]] ∧
    allCards ["A       1".toList, "  $ c".toList, "B       2".toList] =
      .ok [["A".toList, "1".toList, [], [], [], [], [], [], [], "2".toList]] := by decide +kernel

/-- **C27, false for cards.** A comment between a free format card and its continuation cuts the card
in two. -/
theorem C27_free_comment_false :
    allCards ["A,1".toList, ",2".toList] = .ok [["A".toList, "1".toList, "2".toList]] ∧
    allCards ["A,1".toList, "$ c".toList, ",2".toList] =
      .ok [["A".toList, "1".toList], [[], "2".toList]] := by decide +kernel

/-- **C27, false for cards.** So does an empty line between a card and its continuation. -/
theorem C27_blank_line_false :
    allCards ["A       1".toList, "+       2".toList] =
      .ok [["A".toList, "1".toList, "2".toList]] ∧
    allCards ["A       1".toList, [], "+       2".toList] =
      .ok [["A".toList, "1".toList], [['+'], "2".toList]] := by decide +kernel

end Nastran
end Vega
