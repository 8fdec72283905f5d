import Verif.Case.Refuted

/-! # Lists of numbers (C99) and combinations of subcases (C98) -/
namespace Vega

/-! ## What a list says -/
namespace CaseSpec
open Nastran (Line toUpper natOf intMax)
open Case (Word Gives Tight)
open F06Spec (Digits)

/-- A number, or all numbers from one to another. -/
inductive Entry where
  | one (n : Nat)
  | thru (a b : Nat)

/-- The numbers of an entry. -/
def Entry.values : Entry → List Int
  | .one n => [(n : Int)]
  | .thru a b => (List.range' a (b + 1 - a)).map fun (n : Nat) => (n : Int)

/-- Spaces and commas, at least one of them. -/
def Gap (s : Line) : Prop := s ≠ [] ∧ ∀ c ∈ s, c = ' ' ∨ c = ','

/-- How an entry is written; a range stays below the largest `int`. -/
inductive Entry.Text : Entry → Line → Prop
  | one (n : Nat) (t : Line) : Digits t n → Entry.Text (.one n) t
  | thru (a b : Nat) (ta tb s s' u : Line) : Digits ta a → Digits tb b → (b : Int) < intMax → toUpper u = "THRU".toList → Gap s → Gap s' →
    Entry.Text (.thru a b) (ta ++ (s ++ (u ++ (s' ++ tb))))

/-- How a list is written. -/
inductive ListText : List Entry → Line → Prop
  | one (e : Entry) (t : Line) : e.Text t → ListText [e] t
  | cons (e : Entry) (t s : Line) (es : List Entry) (more : Line) : e.Text t → Gap s → ListText es more → ListText (e :: es) (t ++ (s ++ more))

/-- The text of a `SET` command. -/
def SetText (id : Nat) (es : List Entry) (text : Line) : Prop :=
  ∃ w s t s' s'' l, text = (w ++ ' ' :: (s ++ t ++ s')) ++ '=' :: (s'' ++ l) ∧ Word w ∧ toUpper w = "SET".toList ∧ Blanks s ∧ Digits t id ∧
    Blanks s' ∧ Blanks s'' ∧ ListText es l

/-- A text on one line, or broken after commas into several ones. -/
inductive Broken : Line → List Line → Prop
  | last (b piece b' : Line) (ls : List Line) : Gives ls (b ++ piece ++ b') → Blanks b → Tight piece → Blanks b' →
    piece.getLast? ≠ some ',' → Broken piece ls
  | more (b piece b' text : Line) (ls rest : List Line) : Gives ls (b ++ piece ++ b') → Blanks b → Tight piece → Blanks b' →
    piece.getLast? = some ',' → Broken text rest → Broken (piece ++ text) (ls ++ rest)

/-- The lines of several `SET` commands. -/
inductive Sets : List (Nat × List Entry) → List Line → Prop
  | nil : Sets [] []
  | cons (id : Nat) (es : List Entry) (text : Line) (ls : List Line) (sets : List (Nat × List Entry)) (rest : List Line) :
    SetText id es text → Broken text ls → Sets sets rest → Sets ((id, es) :: sets) (ls ++ rest)

end CaseSpec

namespace Case
open Nastran (Line isSpace isBlank blank trim trimRight toUpper Cursor Symbol nextString nextInt intMin intMax natOf)
open F06 (has)
open CaseSpec
open F06Spec (Digits)

/-! ## Reading a list -/

/-- The words of an entry. -/
inductive Toks : Entry → List Line → Prop
  | one (n : Nat) (t : Line) : Digits t n → Toks (.one n) [t]
  | thru (a b : Nat) (ta tb : Line) : Digits ta a → Digits tb b → (b : Int) < intMax → Toks (.thru a b) [ta, "THRU".toList, tb]

theorem number_digits {v : Line} {n : Nat} (hd : Digits v n) : number v = .ok (n : Int) := by
  have := number_entry (b := []) (by intro c hc; simp at hc) hd
  simpa using this

theorem thru_not_digits {t : Line} {n : Nat} (h : Digits t n) : t ≠ "THRU".toList := by
  rintro rfl
  exact absurd (h.2.1 'T' (by decide)) (by decide)

theorem setRange_eq {a b : Nat} (hb : (b : Int) < intMax) : setRange a b = .ok (Entry.thru a b).values := by
  unfold setRange
  rw [if_neg (by omega)]
  congr 1
  have hn : ((b : Int) + 1 - a).toNat = b + 1 - a := by omega
  rw [hn, Entry.values, List.range'_eq_map_range, List.map_map]
  refine List.map_congr_left ?_
  intro i _
  simp

/-- What follows an entry begins with no `THRU`. -/
theorem setValues_entry {e : Entry} {ts : List Line} (h : Toks e ts) (more : List Line) (vs : List Int)
    (hm : setValues more = .ok vs) (hh : ∀ t, more.head? = some t → t ≠ "THRU".toList) :
    setValues (ts ++ more) = .ok (e.values ++ vs) := by
  cases h with
  | one n t hd =>
    cases more with
    | nil =>
      cases hm
      change setValues [t] = _
      rw [setValues, number_digits hd]
      rfl
    | cons b more =>
      have hb := hh b rfl
      cases more with
      | nil =>
        rw [setValues] at hm
        obtain ⟨m, h1, h2⟩ := bind_eq_ok hm
        cases h2
        change setValues [t, b] = _
        rw [setValues, number_digits hd, h1]
        rfl
      | cons c more =>
        change setValues (t :: b :: c :: more) = _
        rw [setValues, if_neg hb, number_digits hd, hm]
        rfl
  | thru a b ta tb ha hb hlt =>
    change setValues (ta :: "THRU".toList :: tb :: more) = _
    rw [setValues, if_pos rfl, number_digits ha, number_digits hb]
    simp only [Outcome.bind_ok, setRange_eq hlt, hm]

inductive AllToks : List Entry → List Line → Prop
  | nil : AllToks [] []
  | cons (e : Entry) (ts : List Line) (es : List Entry) (more : List Line) : Toks e ts → AllToks es more → AllToks (e :: es) (ts ++ more)

theorem AllToks.head {es : List Entry} {ts : List Line} (h : AllToks es ts) : ∀ t, ts.head? = some t → t ≠ "THRU".toList := by
  cases h with
  | nil => intro t ht; exact nomatch ht
  | cons e ts es more he hm =>
    intro t ht
    cases he with
    | one n t' hd => simp only [List.cons_append, List.head?_cons, Option.some.injEq] at ht; subst ht; exact thru_not_digits hd
    | thru a b ta tb ha hb _ =>
      simp only [List.cons_append, List.head?_cons, Option.some.injEq] at ht; subst ht; exact thru_not_digits ha

theorem setValues_all {es : List Entry} {ts : List Line} (h : AllToks es ts) : setValues ts = .ok (es.flatMap Entry.values) := by
  induction h with
  | nil => rfl
  | cons e ts es more he hm ih =>
    rw [List.flatMap_cons]
    exact setValues_entry he more _ ih hm.head

theorem digit_listSep {c : Char} (h : c.isDigit = true) : isListSep c = false := by
  unfold isListSep
  have h1 : c ≠ ',' := by rintro rfl; exact absurd h (by decide)
  have h2 : c ≠ ' ' := by rintro rfl; exact absurd h (by decide)
  simp [h1, h2]

theorem gap_sep {s : Line} (h : Gap s) : ∀ c ∈ s, isListSep c = true := by
  intro c hc
  rcases h.2 c hc with rfl | rfl <;> decide

/-- A word, a gap, and more. -/
theorem split_gap (b : Bool) {w s : Line} (hw : w ≠ []) (hc : ∀ c ∈ w, isListSep c = false) (hs : Gap s) (t : Line) :
    splitRuns isListSep b (w ++ (s ++ t)) = w :: splitRuns isListSep true t := by
  cases s with
  | nil => exact absurd rfl hs.1
  | cons x s =>
    have hx := gap_sep hs
    rw [List.cons_append, split_cons isListSep (hx x (by simp)) (s ++ t) w b hw hc,
      split_run isListSep t s (fun c hc => hx c (by simp [hc]))]

theorem upper_append (a b : Line) : toUpper (a ++ b) = toUpper a ++ toUpper b := by simp [toUpper]

theorem gap_upper {s : Line} (h : Gap s) : toUpper s = s := by
  unfold toUpper
  conv_rhs => rw [← List.map_id s]
  refine List.map_congr_left ?_
  intro c hc
  rcases h.2 c hc with rfl | rfl <;> decide

/-- The words of an entry, after the letters are made capitals. -/
theorem entry_split {e : Entry} {t : Line} (h : e.Text t) (b : Bool) : ∃ ts, Toks e ts ∧
    splitRuns isListSep b (toUpper t) = ts ∧ ∀ s more, Gap s → splitRuns isListSep b (toUpper t ++ (s ++ more)) = ts ++ splitRuns isListSep true more := by
  cases h with
  | one n t hd =>
    rw [toUpper_digits hd.2.1]
    have hc : ∀ c ∈ t, isListSep c = false := fun c hc => digit_listSep (hd.2.1 c hc)
    refine ⟨[t], .one n t hd, split_word isListSep t b hd.1 hc, ?_⟩
    intro s more hs
    rw [split_gap b hd.1 hc hs more]
    rfl
  | thru a z ta tb s s' u ha hb hlt hu hs hs' =>
    have hca : ∀ c ∈ ta, isListSep c = false := fun c hc => digit_listSep (ha.2.1 c hc)
    have hcb : ∀ c ∈ tb, isListSep c = false := fun c hc => digit_listSep (hb.2.1 c hc)
    have hup : toUpper (ta ++ (s ++ (u ++ (s' ++ tb)))) = ta ++ (s ++ ("THRU".toList ++ (s' ++ tb))) := by
      rw [upper_append, upper_append, upper_append, upper_append, toUpper_digits ha.2.1, toUpper_digits hb.2.1, gap_upper hs, gap_upper hs', hu]
    refine ⟨_, .thru a z ta tb ha hb hlt, ?_, ?_⟩
    · rw [hup, split_gap b ha.1 hca hs, split_gap true (by decide) (by decide) hs', split_word isListSep tb true hb.1 hcb]
    · intro g more hg
      have hre : ta ++ (s ++ ("THRU".toList ++ (s' ++ tb))) ++ (g ++ more) = ta ++ (s ++ ("THRU".toList ++ (s' ++ (tb ++ (g ++ more))))) := by simp
      rw [hup, hre, split_gap b ha.1 hca hs, split_gap true (by decide) (by decide) hs', split_gap true hb.1 hcb hg]
      rfl

theorem list_split {es : List Entry} {t : Line} (h : ListText es t) : ∀ b, ∃ ts, AllToks es ts ∧ splitRuns isListSep b (toUpper t) = ts := by
  induction h with
  | one e t he =>
    intro b
    obtain ⟨ts, h1, h2, _⟩ := entry_split he b
    exact ⟨ts, by have := AllToks.cons e ts [] [] h1 .nil; simpa using this, h2⟩
  | cons e t s es more he hs hl ih =>
    intro b
    obtain ⟨ts, h1, _, h3⟩ := entry_split he b
    obtain ⟨us, h4, h5⟩ := ih true
    refine ⟨ts ++ us, .cons e ts es us h1 h4, ?_⟩
    rw [upper_append, upper_append, gap_upper hs, h3 s _ hs, h5]

/-! ## The characters of a list -/

/-- Digits, commas, spaces and the letters of `THRU`. -/
def ListChar (c : Char) : Prop := c.isDigit = true ∨ c ∈ [',', ' ', 'T', 'H', 'R', 'U']

theorem entry_chars {e : Entry} {t : Line} (h : e.Text t) : ∀ c ∈ toUpper t, ListChar c := by
  have hgap : ∀ {s : Line}, Gap s → ∀ c ∈ s, ListChar c := by
    intro s hs c hc
    rcases hs.2 c hc with rfl | rfl <;> exact Or.inr (by decide)
  cases h with
  | one n t hd =>
    intro c hc
    rw [toUpper_digits hd.2.1] at hc
    exact Or.inl (hd.2.1 c hc)
  | thru a z ta tb s s' u ha hb hlt hu hs hs' =>
    intro c hc
    rw [upper_append, upper_append, upper_append, upper_append, toUpper_digits ha.2.1, toUpper_digits hb.2.1, gap_upper hs, gap_upper hs', hu] at hc
    simp only [List.mem_append] at hc
    rcases hc with h | h | h | h | h
    · exact Or.inl (ha.2.1 c h)
    · exact hgap hs c h
    · refine Or.inr ?_
      revert c
      decide
    · exact hgap hs' c h
    · exact Or.inl (hb.2.1 c h)

theorem list_chars {es : List Entry} {t : Line} (h : ListText es t) : ∀ c ∈ toUpper t, ListChar c := by
  induction h with
  | one e t he => exact entry_chars he
  | cons e t s es more he hs hl ih =>
    intro c hc
    rw [upper_append, upper_append, gap_upper hs] at hc
    simp only [List.mem_append] at hc
    rcases hc with h | h | h
    · exact entry_chars he c h
    · rcases hs.2 c h with rfl | rfl <;> exact Or.inr (by decide)
    · exact ih c h

theorem digits_head {t : Line} {n : Nat} (h : Digits t n) : ∃ c l, t = c :: l ∧ c.isDigit = true := by
  cases t with
  | nil => exact absurd rfl h.1
  | cons c l => exact ⟨c, l, rfl, h.2.1 c (by simp)⟩

theorem digits_last {t : Line} {n : Nat} (h : Digits t n) : ∃ c, t.getLast? = some c ∧ c.isDigit = true := by
  refine ⟨t.getLast h.1, List.getLast?_eq_some_getLast h.1, h.2.1 _ (List.getLast_mem h.1)⟩

theorem entry_ends {e : Entry} {t : Line} (h : e.Text t) :
    (∃ c l, t = c :: l ∧ c.isDigit = true) ∧ ∃ c, t.getLast? = some c ∧ c.isDigit = true := by
  cases h with
  | one n t hd => exact ⟨digits_head hd, digits_last hd⟩
  | thru a z ta tb s s' u ha hb hlt hu hs hs' =>
    obtain ⟨c, l, hc, hd⟩ := digits_head ha
    obtain ⟨x, hx, hxd⟩ := digits_last hb
    refine ⟨⟨c, l ++ (s ++ (u ++ (s' ++ tb))), by rw [hc]; rfl, hd⟩, x, ?_, hxd⟩
    rw [show ta ++ (s ++ (u ++ (s' ++ tb))) = (ta ++ s ++ u ++ s') ++ tb by simp, List.getLast?_append, hx]
    rfl

theorem list_ends {es : List Entry} {t : Line} (h : ListText es t) :
    (∃ c l, t = c :: l ∧ c.isDigit = true) ∧ ∃ c, t.getLast? = some c ∧ c.isDigit = true := by
  induction h with
  | one e t he => exact entry_ends he
  | cons e t s es more he hs hl ih =>
    obtain ⟨⟨c, l, hc, hd⟩, _⟩ := entry_ends he
    obtain ⟨_, x, hx, hxd⟩ := ih
    refine ⟨⟨c, l ++ (s ++ more), by rw [hc]; rfl, hd⟩, x, ?_, hxd⟩
    rw [show t ++ (s ++ more) = (t ++ s) ++ more by simp, List.getLast?_append, hx]
    rfl

theorem list_tight {es : List Entry} {t : Line} (h : ListText es t) : Tight t := by
  obtain ⟨⟨c, l, hc, hd⟩, x, hx, hxd⟩ := list_ends h
  exact ⟨⟨c, by rw [hc]; rfl, F06.digit_space hd⟩, x, hx, F06.digit_space hxd⟩

theorem prefix_head {p : Char} {w t : Line} {c : Char} (h : (p :: w).isPrefixOf (c :: t) = true) : p = c := by
  simp only [List.isPrefixOf, Bool.and_eq_true, beq_iff_eq] at h
  exact h.1

/-- A list gives its numbers. -/
theorem setValue_list {es : List Entry} {t s : Line} (h : ListText es t) (hs : Blanks s) :
    setValue (s ++ t) = .ok (some (.list (es.flatMap Entry.values))) := by
  have ht : trim (s ++ t) = t := by
    have := trim_tight (blanks_space hs) (list_tight h) (b := []) (by simp)
    simpa using this
  obtain ⟨ts, h1, h2⟩ := list_split h false
  obtain ⟨⟨c, l, hc, hd⟩, _⟩ := list_ends h
  have hup : ∃ l', toUpper t = c :: l' := ⟨toUpper l, by rw [hc]; simp [toUpper, digit_upper hd]⟩
  obtain ⟨l', hl'⟩ := hup
  have hno : ∀ (p : Char) (w : Line), p.isDigit = false → (p :: w).isPrefixOf (toUpper t) = false := by
    intro p w hp
    cases hq : (p :: w).isPrefixOf (toUpper t) with
    | false => rfl
    | true =>
      rw [hl'] at hq
      rw [prefix_head hq, hd] at hp
      exact nomatch hp
  have hex : has "EXCEPT".toList (toUpper t) = false := by
    cases hq : has "EXCEPT".toList (toUpper t) with
    | false => rfl
    | true =>
      have hin := F06.has_iff.mp hq
      have := list_chars h 'E' (hin.subset (by decide))
      exact absurd this (by unfold ListChar; decide)
  unfold setValue
  simp only [ht]
  rw [show "ALL".toList.isPrefixOf (toUpper t) = false from hno _ _ (by decide),
    show "INCLUDE".toList.isPrefixOf (toUpper t) = false from hno _ _ (by decide),
    show "EXCLUDE".toList.isPrefixOf (toUpper t) = false from hno _ _ (by decide),
    show "ELEMENTS".toList.isPrefixOf (toUpper t) = false from hno _ _ (by decide),
    show "GRID".toList.isPrefixOf (toUpper t) = false from hno _ _ (by decide), hex]
  have hh : (toUpper t).head?.any Char.isDigit = true := by rw [hl']; simpa using hd
  rw [hh, h2, setValues_all h1]
  rfl

/-! ## The lines of a list -/

theorem setText_stop (fuel : Nat) (t : Tok) {line : Line} (h : line.getLast? ≠ some ',') : setText (fuel + 1) t line = .ok (line, t) := by
  rw [setText, if_neg h]

theorem broken_last {text : Line} {ls : List Line} (h : Broken text ls) : text ≠ [] ∧ text.getLast? ≠ some ',' := by
  induction h with
  | last b piece b' ls hg hb hp hb' hl =>
    refine ⟨?_, hl⟩
    rintro rfl
    obtain ⟨⟨a, ha, _⟩, _⟩ := hp
    exact nomatch ha
  | more b piece b' text ls rest hg hb hp hb' hl hr ih =>
    refine ⟨by simp [ih.1], ?_⟩
    rw [List.getLast?_append]
    cases hx : text.getLast? with
    | none => exact absurd (List.getLast?_eq_none_iff.mp hx) ih.1
    | some x =>
      have := ih.2
      rw [hx] at this
      simpa using this

theorem gives_piece {ls : List Line} {b piece b' : Line} (hg : Gives ls (b ++ piece ++ b')) (hb : Blanks b) (hp : Tight piece) (hb' : Blanks b')
    (rest : List Line) : (nextLine (between (ls ++ rest))).raw = piece ∧ (nextLine (between (ls ++ rest))).rest = rest ∧
      (nextLine (between (ls ++ rest))).cur = Cursor.start (splitRuns isSep false piece) := by
  unfold between
  rw [gives_next hg rest, trim_tight (blanks_space hb) hp (blanks_space hb')]
  exact ⟨rfl, rfl, rfl⟩

theorem broken_length {text : Line} {ls : List Line} (h : Broken text ls) : 1 ≤ ls.length := by
  cases h with
  | last b piece b' ls hg hb hp hb' hl => exact gives_length hg
  | more b piece b' text ls rest hg hb hp hb' hl hr =>
    have := gives_length hg
    rw [List.length_append]
    omega

theorem setText_broken {text : Line} {ls : List Line} (h : Broken text ls) : ∀ (fuel : Nat) (t : Tok) (acc : Line) (rest : List Line),
    ls.length < fuel → t.rest = ls ++ rest → acc.getLast? = some ',' → ∃ t', setText fuel t acc = .ok (acc ++ text, t') ∧ t'.rest = rest := by
  induction h with
  | last b piece b' ls hg hb hp hb' hl =>
    intro fuel t acc rest hf ht hacc
    have hlen := gives_length hg
    obtain ⟨n, rfl⟩ : ∃ n, fuel = n + 1 + 1 := ⟨fuel - 2, by omega⟩
    obtain ⟨h1, h2, _⟩ := gives_piece hg hb hp hb' rest
    rw [setText, if_pos hacc]
    simp only
    rw [next_between, ht, h1, trim_self hp]
    have hlast := (broken_last (Broken.last b piece b' ls hg hb hp hb' hl))
    refine ⟨_, setText_stop n _ ?_, h2⟩
    rw [List.getLast?_append]
    cases hx : piece.getLast? with
    | none => exact absurd (List.getLast?_eq_none_iff.mp hx) hlast.1
    | some x =>
      rw [hx] at hl
      simpa using hl
  | more b piece b' text ls rest' hg hb hp hb' hl hr ih =>
    intro fuel t acc rest hf ht hacc
    have hlen := gives_length hg
    rw [List.length_append] at hf
    obtain ⟨n, rfl⟩ : ∃ n, fuel = n + 1 := ⟨fuel - 1, by omega⟩
    rw [List.append_assoc] at ht
    obtain ⟨h1, h2, _⟩ := gives_piece hg hb hp hb' (rest' ++ rest)
    rw [setText, if_pos hacc]
    simp only
    rw [next_between, ht, h1, trim_self hp]
    obtain ⟨t', h3, h4⟩ := ih n (nextLine (between (ls ++ (rest' ++ rest)))) (acc ++ piece) rest (by omega) h2 (by
      rw [List.getLast?_append, hl]; rfl)
    exact ⟨t', by rw [h3, List.append_assoc], h4⟩

/-- The first line of a text, and the whole of it. -/
theorem broken_first {text : Line} {ls : List Line} (h : Broken text ls) (rest : List Line) :
    ∃ piece after, text = piece ++ after ∧ Tight piece ∧ (after = [] ∨ piece.getLast? = some ',') ∧
      (nextLine (between (ls ++ rest))).raw = piece ∧
      (nextLine (between (ls ++ rest))).cur = Cursor.start (splitRuns isSep false piece) ∧
      ∀ (t : Tok), t.rest = (nextLine (between (ls ++ rest))).rest → ∃ t', setText (t.rest.length + 2) t piece = .ok (text, t') ∧ t'.rest = rest := by
  cases h with
  | last b piece b' ls hg hb hp hb' hl =>
    obtain ⟨h1, h2, h3⟩ := gives_piece hg hb hp hb' rest
    refine ⟨text, [], by simp, hp, Or.inl rfl, h1, h3, ?_⟩
    intro t ht
    exact ⟨t, setText_stop _ t hl, by rw [ht, h2]⟩
  | more b piece b' text ls rest' hg hb hp hb' hl hr =>
    obtain ⟨h1, h2, h3⟩ := gives_piece hg hb hp hb' (rest' ++ rest)
    rw [List.append_assoc]
    refine ⟨piece, text, rfl, hp, Or.inr hl, h1, h3, ?_⟩
    intro t ht
    rw [h2] at ht
    exact setText_broken hr _ t piece rest (by rw [ht, List.length_append]; omega) ht hl

theorem step_set (cfg : Config) (found : Bool) (t : Tok) (c : Context) (d : Deck) :
    commandStep cfg "SET".toList found t c d = (do
      match ← addSet cfg t d with
      | (t, some d) => .ok ⟨t, c, d, none, false, false, false⟩
      | (t, none) => .ok ⟨t, c, d, none, false, false, true⟩) := by
  unfold commandStep
  rw [if_neg (by decide), if_neg (by decide), if_neg (by decide), if_neg (by decide), if_neg (by decide), if_neg (by decide), if_neg (by decide),
    if_neg (by decide), if_neg (by decide), if_neg (by decide), if_pos rfl]
  rfl

theorem no_equal_blank {s : Line} (h : Blanks s) : ∀ c ∈ s, (decide (c = '=')) = false := by
  intro c hc
  rcases h c hc with rfl | rfl <;> decide

theorem no_equal_list {es : List Entry} {t : Line} (h : ListText es t) : ∀ c ∈ t, (decide (c = '=')) = false := by
  intro c hc
  by_contra hn
  have hce : c = '=' := by simpa using hn
  subst hce
  have hm : '=' ∈ toUpper t := List.mem_map.mpr ⟨'=', hc, by decide⟩
  exact absurd (list_chars h '=' hm) (by unfold ListChar; decide)

theorem resume_set (cfg : Config) {id : Nat} {es : List Entry} {text : Line} {ls : List Line} (hst : SetText id es text) (hbr : Broken text ls)
    (rest : List Line) (fuel : Nat) (found : Bool) (c : Context) (d : Deck) (hn : ∀ e ∈ d.sets, e.1 ≠ (id : Int)) :
    resume cfg (fuel + 1) found (ls ++ rest) c d =
      resume cfg fuel found rest c { d with sets := d.sets ++ [((id : Int), .list (es.flatMap Entry.values))] } := by
  obtain ⟨w, s, t, s', s'', l, htext, hw, hup, hs, ht, hs', hs'', hl⟩ := hst
  obtain ⟨piece, after, hpa, hp, hcase, hraw, hcur, hread⟩ := broken_first hbr rest
  have hw3 : w.length = 3 := by
    have := congrArg List.length hup
    rw [toUpper_length] at this
    exact this
  -- the first line has the word `SET`
  obtain ⟨p', hp'⟩ : ∃ p', piece = w ++ ' ' :: p' := by
    have htext' : text = (w ++ [' ']) ++ ((s ++ t ++ s') ++ '=' :: (s'' ++ l)) := by rw [htext]; simp
    rcases hcase with h | h
    · subst h
      rw [List.append_nil] at hpa
      exact ⟨_, by rw [← hpa, htext', List.append_assoc]; rfl⟩
    · have hpre : piece <+: (w ++ [' ']) ++ ((s ++ t ++ s') ++ '=' :: (s'' ++ l)) := ⟨after, by rw [← hpa, htext']⟩
      rcases List.prefix_or_prefix_of_prefix hpre (List.prefix_append (w ++ [' ']) _) with h1 | h1
      · exfalso
        have hmem : ',' ∈ w ++ [' '] := h1.subset (List.mem_of_getLast? h)
        rcases List.mem_append.mp hmem with h2 | h2
        · have : ',' ∈ toUpper w := List.mem_map.mpr ⟨',', h2, by decide⟩
          rw [hup] at this
          exact absurd this (by decide)
        · exact absurd h2 (by decide)
      · obtain ⟨q, hq⟩ := h1
        exact ⟨q, by rw [← hq]; simp⟩
  have hsplit : splitRuns isSep false piece = w :: splitRuns isSep true p' := by
    rw [hp']
    exact split_cons isSep (by decide) p' w false hw.1 (fun c hc => (hw.2 c hc).1)
  have hkey : keyOf (ls ++ rest) = "SET".toList := by
    unfold keyOf
    rw [hcur, hsplit, keyword_first hw, hup]
  have hthere : (nextLine (between (ls ++ rest))).cur.sym ≠ .eof := by
    rw [hcur]
    simp [Cursor.start]
  obtain ⟨t', hst', hrest⟩ := hread (afterKey (ls ++ rest)) rfl
  have hraw' : (afterKey (ls ++ rest)).raw = piece := hraw
  -- the two sides
  have hsides : setSides text = some (w ++ ' ' :: (s ++ t ++ s'), s'' ++ l) := by
    unfold setSides
    have hne : l ≠ [] := by
      obtain ⟨⟨c, l', hc, _⟩, _⟩ := list_ends hl
      rw [hc]
      simp
    have hno : ∀ c ∈ w ++ ' ' :: (s ++ t ++ s'), (decide (c = '=')) = false := by
      intro c hc
      simp only [List.mem_append, List.mem_cons] at hc
      rcases hc with h | rfl | (h | h) | h
      · exact word_no hw (p := fun c => decide (c = '=')) (fun c h => by simpa using h) (by decide) c h
      · decide
      · exact no_equal_blank hs c h
      · have hd := ht.2.1 c h
        by_contra hn
        have : c = '=' := by simpa using hn
        subst this
        exact absurd hd (by decide)
      · exact no_equal_blank hs' c h
    rw [htext, split_cons (fun c => decide (c = '=')) (by decide) (s'' ++ l) (w ++ ' ' :: (s ++ t ++ s')) false (by simp) hno,
      split_word (fun c => decide (c = '=')) (s'' ++ l) true (by simp [hne]) (by
        intro c hc
        rcases List.mem_append.mp hc with h | h
        · exact no_equal_blank hs'' c h
        · exact no_equal_list hl c h)]
  have hid : number (trim ((w ++ ' ' :: (s ++ t ++ s')).drop 4)) = .ok (id : Int) := by
    have hdrop : (w ++ ' ' :: (s ++ t ++ s')).drop 4 = s ++ t ++ s' := by
      rw [show w ++ ' ' :: (s ++ t ++ s') = (w ++ [' ']) ++ (s ++ t ++ s') by simp]
      exact List.drop_left' (by rw [List.length_append, hw3]; rfl)
    rw [hdrop, trim_tight (blanks_space hs) (digits_word ht.1 ht.2.1).tight (blanks_space hs')]
    exact number_digits ht
  have hadd : addSet cfg (afterKey (ls ++ rest)) d =
      .ok (t', some { d with sets := d.sets ++ [((id : Int), .list (es.flatMap Entry.values))] }) := by
    unfold addSet
    rw [hraw', trim_self hp, hst']
    simp only [Outcome.bind_ok, hsides]
    rw [if_neg (by rw [List.length_append, hw3, List.length_cons]; omega), hid]
    have hfree : (d.sets.any fun e => decide (e.1 = (id : Int))) = false := List.any_eq_false.mpr fun e he => by simp [hn e he]
    simp only [Outcome.bind_ok, setValue_list hl hs'', hfree]
    rfl
  unfold resume
  rw [if_neg hthere, hkey]
  have hstep : commandStep cfg "SET".toList found (afterKey (ls ++ rest)) c d =
      .ok ⟨t', c, { d with sets := d.sets ++ [((id : Int), .list (es.flatMap Entry.values))] }, none, false, false, false⟩ := by
    rw [step_set, hadd]
    rfl
  rw [section_none fuel hstep rfl rfl, Bool.or_false]
  simp only [hrest]
  rfl

/-- The sets that lists give. -/
def setsOf (sets : List (Nat × List Entry)) : List (Int × SetValue) := sets.map fun e => ((e.1 : Int), .list (e.2.flatMap Entry.values))

theorem resume_sets (cfg : Config) {sets : List (Nat × List Entry)} {ls : List Line} (h : Sets sets ls) :
    ∀ (rest : List Line) (fuel : Nat) (found : Bool) (c : Context) (d : Deck), (sets.map (·.1)).Nodup → (∀ s ∈ sets, ∀ e ∈ d.sets, e.1 ≠ (s.1 : Int)) →
    sets.length ≤ ls.length ∧
    resume cfg (fuel + ls.length) found (ls ++ rest) c d =
      resume cfg (fuel + (ls.length - sets.length)) found rest c { d with sets := d.sets ++ setsOf sets } := by
  induction h with
  | nil =>
    intro rest fuel found c d _ _
    simp [setsOf]
  | cons id es text ls sets more hst hbr hs ih =>
    intro rest fuel found c d hnd hfree
    rw [List.map_cons, List.nodup_cons] at hnd
    have hlen := broken_length hbr
    have hstep := fun n => ih rest n found c { d with sets := d.sets ++ [((id : Int), .list (es.flatMap Entry.values))] } hnd.2 (by
      intro s hs' e he
      rcases List.mem_append.mp he with h | h
      · exact hfree s (by simp [hs']) e h
      · rw [List.mem_singleton] at h
        subst h
        intro heq
        exact hnd.1 (List.mem_map.mpr ⟨s, hs', by simpa using heq.symm⟩))
    have hle := (hstep fuel).1
    refine ⟨by rw [List.length_append, List.length_cons]; omega, ?_⟩
    rw [List.append_assoc, List.length_append,
      show fuel + (ls.length + more.length) = (fuel + (ls.length - 1) + more.length) + 1 by omega, resume_set cfg hst hbr _ _ _ _ _ (hfree (id, es) (by simp)),
      (hstep _).2]
    congr 1
    · rw [List.length_cons]; omega
    · simp [setsOf]

theorem sets_there {sets : List (Nat × List Entry)} {ls : List Line} (h : Sets sets ls) (rest : List Line)
    (hr : (nextLine (between rest)).cur.sym ≠ .eof) : (nextLine (between (ls ++ rest))).cur.sym ≠ .eof := by
  cases h with
  | nil => simpa using hr
  | cons id es text ls sets more hst hbr hs =>
    obtain ⟨piece, after, hpa, hp, hcase, hraw, hcur, hread⟩ := broken_first hbr (more ++ rest)
    rw [List.append_assoc, hcur]
    simp [Cursor.start]

/-- C99. The lists of numbers above the subcases, with different numbers, are read as they are written: each `SET` has its number, and the values are
those of its entries, all numbers of a range from the first to the last included, whichever way the list is broken into lines
after commas. Missing: `ALL`, lists in a subcase, and lists with two numbers twice (the values are kept in a `std::set`). -/
theorem C99_sets_partial (cfg : Config) (hgnu : cfg.gnu = true) (hl : ∀ i, cfg.loadstep i = none) (items : List Item)
    (sets : List (Nat × List Entry)) (front mid last rest : List Line) (text : Line) (hf : Above items front) (hm : Sets sets mid)
    (hnum : (sets.map (·.1)).Nodup)
    (hb : Gives last text) (ht : BeginsWith text "BEGIN".toList) (ha : ∀ e ∈ given items, AllowedAbove e.1 e.2)
    (hk : ∃ kind, HasKind (lastFor (given items)) kind) :
    ∃ d, readSection cfg (front ++ (mid ++ (last ++ rest))) = .ok d ∧
      d.sets = sets.map fun e => ((e.1 : Int), .list (e.2.flatMap Entry.values)) := by
  have hends : Ends (last ++ rest) := ends_begin hb ht
  rw [readSection_resume cfg _ (front_there hf _ (sets_there hm _ hends.there))]
  obtain ⟨c, hr, h1, hle⟩ := resume_above cfg hf rep_nil ha ((mid ++ (last ++ rest)).length + 2) false (mid ++ (last ++ rest)) Deck.empty
  rw [List.nil_append] at hr
  obtain ⟨kind, hk⟩ := hk
  obtain ⟨d, a, hadd, han, hset, hmade, hkn, _⟩ := addAnalysis_made hgnu hl hr hk noId
    { Deck.empty with sets := Deck.empty.sets ++ setsOf sets } fun h => absurd rfl h
  obtain ⟨hle2, h2⟩ := resume_sets cfg hm (last ++ rest) ((last ++ rest).length + 2 + (front.length - items.length)) false c Deck.empty hnum
    (by intro _ _ e he; exact absurd he (by simp [Deck.empty]))
  refine ⟨d, ?_, ?_⟩
  · rw [List.length_append, show front.length + (mid ++ (last ++ rest)).length + 2 = (mid ++ (last ++ rest)).length + 2 + front.length by omega,
      h1, List.length_append, show mid.length + (last ++ rest).length + 2 + (front.length - items.length) =
        (last ++ rest).length + 2 + (front.length - items.length) + mid.length by omega, h2,
      show (last ++ rest).length + 2 + (front.length - items.length) + (mid.length - sets.length) =
        ((last ++ rest).length + 1 + (front.length - items.length) + (mid.length - sets.length)) + 1 by omega]
    exact resume_begin_new cfg hb ht rest _ c _ d hadd
  · rw [hset]
    rfl

/-- C99. The same in a file with subcases; C97 holds of it too. -/
theorem C99_subcases_partial (cfg : Config) (hgnu : cfg.gnu = true) (hl : ∀ i, cfg.loadstep i = none) (items : List Item)
    (sets : List (Nat × List Entry)) (subs : List Sub) (front list mid last rest : List Line) (text : Line) (hf : Above items front)
    (hls : Sets sets list) (hset : (sets.map (·.1)).Nodup) (hnum : (subs.map (·.id)).Nodup) (hm : Subcases subs mid) (hne : subs ≠ []) (hb : Gives last text) (ht : BeginsWith text "BEGIN".toList)
    (ha : ∀ e ∈ given items, AllowedAbove e.1 e.2) (hs : ∀ s ∈ subs, ∀ e ∈ s.sels, Allowed e.1 e.2)
    (hk : ∀ s ∈ subs, ∃ kind, HasKind (lastFor (given items ++ s.sels)) kind) :
    ∃ d, readSection cfg (front ++ (list ++ (mid ++ (last ++ rest)))) = .ok d ∧
      d.sets = (sets.map fun e => ((e.1 : Int), .list (e.2.flatMap Entry.values))) ∧ d.analyses.length = subs.length ∧
      ∀ i s, subs[i]? = some s → ∃ a, d.analyses[i]? = some a ∧
        Made (lastFor (given items ++ s.sels)) s.id ("Analysis_".toList ++ (toString s.id).toList) (if i = 0 then none else some (i - 1)) a ∧
        (∀ x ∈ a.constraints, x ∈ d.constraintSets) ∧ ∀ x ∈ a.loads, x ∈ d.loadSets := by
  have hends : Ends (mid ++ (last ++ rest)) := by
    cases hm with
    | nil => exact absurd rfl hne
    | cons s' text' v' ls' own' subs' more' hg' hsel' hd' ho' hsub' =>
      rw [List.append_assoc, List.append_assoc]
      exact ends_subcase hg' hsel'
  rw [readSection_resume cfg _ (front_there hf _ (sets_there hls _ hends.there))]
  obtain ⟨c, hr, h1, hle⟩ := resume_above cfg hf rep_nil ha ((list ++ (mid ++ (last ++ rest))).length + 2) false
    (list ++ (mid ++ (last ++ rest))) Deck.empty
  rw [List.nil_append] at hr
  obtain ⟨hle2, h2⟩ := resume_sets cfg hls (mid ++ (last ++ rest)) ((mid ++ (last ++ rest)).length + 2 + (front.length - items.length)) false c
    Deck.empty hset (by intro _ _ e he; exact absurd he (by simp [Deck.empty]))
  obtain ⟨d, as, h3, han, hset', hlen, hall, _⟩ := resume_subs hgnu hl hm hb ht rest hr hs hk
    ((mid ++ (last ++ rest)).length + 2 + (front.length - items.length) + (list.length - sets.length))
    (by rw [List.length_append]; omega) false (Or.inr hne) { Deck.empty with sets := Deck.empty.sets ++ setsOf sets } hnum
    (by intro _ _ b hb'; exact absurd hb' (by simp [Deck.empty]))
  refine ⟨d, ?_, ?_, ?_, ?_⟩
  · rw [List.length_append, show front.length + (list ++ (mid ++ (last ++ rest))).length + 2 =
        (list ++ (mid ++ (last ++ rest))).length + 2 + front.length by omega,
      h1, List.length_append, show list.length + (mid ++ (last ++ rest)).length + 2 + (front.length - items.length) =
        (mid ++ (last ++ rest)).length + 2 + (front.length - items.length) + list.length by omega, h2, h3]
  · rw [hset']; rfl
  · rw [han]; simpa [Deck.empty] using hlen
  · intro i s hi
    obtain ⟨a, haa, hma, hkn⟩ := hall i s hi
    refine ⟨a, by rw [han]; simpa [Deck.empty] using haa, ?_, hkn.1, hkn.2⟩
    simpa [Deck.empty] using hma

end Case
end Vega
