import Verif.Nastran.FixedLemmas

/-! # C22: fixed format cards -/
namespace Vega

/-! ## Specification -/
namespace FixedSpec
open Nastran

/-- First column of field `k`. -/
def start (longFormat : Bool) (k : Nat) : Nat :=
  if longFormat then (if k = 0 then 0 else 8 + 16 * (k - 1)) else 8 * k

/-- Width of field `k`. -/
def width (longFormat : Bool) (k : Nat) : Nat :=
  if longFormat && k ≠ 0 then 16 else 8

/-- Number of data fields on one line. -/
def perLine (longFormat : Bool) : Nat := if longFormat then 4 else 8

/-- Width of a data field. -/
def dataWidth (longFormat : Bool) : Nat := if longFormat then 16 else 8

/-- What follows, comment lines apart, is the end of the text or a line that does not
continue the card. -/
def NewCard : List Line → Prop
  | [] => True
  | l :: rest =>
    if l.head? = some '$' then NewCard rest
    else l.head? ≠ some ' ' ∧ l.head? ≠ some '+' ∧ l.head? ≠ some '*' ∧ l.head? ≠ some '\t'

/-- The text after the comment lines that follow the card. -/
def afterComments : List Line → List Line
  | [] => []
  | l :: rest => if l.head? = some '$' then afterComments rest else l :: rest

/-- A text written left-justified in a field. -/
def pad (w : Nat) (s : Line) : Line := s ++ List.replicate (w - s.length) ' '

/-- Values written in consecutive fields. -/
def writeRow (w : Nat) (vals : List Line) : Line := (vals.map (pad w)).flatten

/-- A card written on several lines: `rows` are the values of the lines, `label` is written after the
last field of the lines that are continued, `head` in the first field of continuations. -/
def writeCard (w : Nat) (label head : Line) : Line → List (List Line) → List Line
  | _, [] => []
  | first, [r] => [pad 8 first ++ writeRow w r]
  | first, r :: rs => (pad 8 first ++ writeRow w r ++ label) :: writeCard w label head head rs

/-- The values of the card: lines that are continued count as complete. -/
def valuesOf (n : Nat) : List (List Line) → List Line
  | [] => []
  | [r] => r
  | r :: rs => r ++ List.replicate (n - r.length) [] ++ valuesOf n rs

/-- A value that fits in a field of width `w`. -/
structure Value (w : Nat) (v : Line) : Prop where
  fits : v.length ≤ w
  trimmed : trim v = v
  noTab : '\t' ∉ v
  noDollar : '$' ∉ v

/-- The three ways to write continuations: with marks `+`, with a blank first field (short lines), with
an asterisk (long lines). -/
inductive Style where
  | plus | automatic
  deriving DecidableEq

def label : Style → Line
  | .plus => ['+']
  | .automatic => []

def contHead (longFormat : Bool) : Style → Line
  | .plus => ['+']
  | .automatic => if longFormat then ['*'] else []

/-- Lines carry at most `n` values; with marks, lines that are continued are full. -/
def RowsOk (n : Nat) (style : Style) : List (List Line) → Prop
  | [] => False
  | [r] => r.length ≤ n
  | r :: rs => (match style with
      | .plus => r.length = n
      | .automatic => r.length ≤ n) ∧ RowsOk n style rs

/-- First field of the next line. -/
def nextHead : List (Bool × List Line) → Line
  | [] => []
  | (lf, _) :: _ => contHead lf .automatic

/-- A card whose lines, short or long as told by the flags, follow each other automatically. -/
def writeMixed : Line → List (Bool × List Line) → List Line
  | _, [] => []
  | first, (lf, r) :: rs => (pad 8 first ++ writeRow (dataWidth lf) r) ::
      writeMixed (nextHead rs) rs

/-- The values of such a card. -/
def valuesMixed : List (Bool × List Line) → List Line
  | [] => []
  | [(_, r)] => r
  | (lf, r) :: rs => r ++ List.replicate (perLine lf - r.length) [] ++ valuesMixed rs

/-- The name of a card. -/
structure Name (longFormat : Bool) (name : Line) : Prop where
  nonempty : name ≠ []
  fits : name.length ≤ if longFormat then 7 else 8
  plain : ∀ c ∈ name, isSpace c = false ∧ c ≠ ',' ∧ c ≠ '*' ∧ c ≠ '$'

/-- The first field of a card: long lines are marked by an asterisk. -/
def firstField (longFormat : Bool) (name : Line) : Line :=
  if longFormat then name ++ ['*'] else name

end FixedSpec

namespace Nastran
open FixedSpec LineSpec

/-! ## Helper lemmas -/

theorem skipDollar_eq (rest : List Line) : skipDollar rest = afterComments rest := by
  induction rest with
  | nil => rfl
  | cons l rest ih => simp only [skipDollar, afterComments, ih]

theorem peek_head (rest : List Line) (c : Char) (hc : c ≠ '\n') :
    peek rest = some c ↔ ∃ l r, rest = l :: r ∧ l.head? = some c := by
  cases rest with
  | nil => simp [peek]
  | cons l r =>
    cases l with
    | nil => simp [peek]; exact fun h => hc h.symm
    | cons d l => simp [peek]

theorem newCard_peek {rest : List Line} (h : NewCard rest) (c : Char) (hc : c ∈ [' ', '+', '*', '\t']) :
    peek (skipDollar rest) ≠ some c := by
  induction rest with
  | nil => simp [skipDollar, peek]
  | cons l rest ih =>
    rw [skipDollar]
    rw [NewCard] at h
    by_cases hd : l.head? = some '$'
    · rw [if_pos hd] at h ⊢
      exact ih h
    · rw [if_neg hd] at h ⊢
      intro hp
      have hn : c ≠ '\n' := by rintro rfl; simp at hc
      obtain ⟨l', r', e, e'⟩ := (peek_head _ c hn).1 hp
      cases e
      simp only [List.mem_cons, List.not_mem_nil, or_false] at hc
      rcases hc with rfl | rfl | rfl | rfl
      · exact h.1 e'
      · exact h.2.1 e'
      · exact h.2.2.1 e'
      · exact h.2.2.2 e'

theorem offsets_sum (lf : Bool) (k : Nat) (h : k ≤ fieldMax lf) :
    ((offsets lf).take k).sum = start lf k := by
  cases lf
  · simp only [fieldMax] at h
    have : k ∈ List.range 10 := by simp at *; omega
    revert this; revert k
    decide
  · simp only [fieldMax] at h
    have : k ∈ List.range 6 := by simp at *; omega
    revert this; revert k
    decide

theorem offsets_getD (lf : Bool) (k : Nat) (h : k < fieldMax lf) :
    (offsets lf).getD k 0 = width lf k := by
  cases lf
  · simp only [fieldMax] at h
    have : k ∈ List.range 9 := by simp at *; omega
    revert this; revert k
    decide
  · simp only [fieldMax] at h
    have : k ∈ List.range 5 := by simp at *; omega
    revert this; revert k
    decide

theorem fieldMax_gt (lf : Bool) : 1 < fieldMax lf := by cases lf <;> decide

theorem offsets_length (lf : Bool) : (offsets lf).length = fieldMax lf + 1 := by cases lf <;> rfl

/-- Fields of a first line, from its pieces. -/
theorem first_fields (lf : Bool) (toks : List Line) (k : Nat) :
    (fieldLoop (fieldMax lf) toks 0).1[k]? =
      if k < fieldMax lf then
        toks[k]?.map (fun t => if k = 0 then eraseStars (trim t) else trim t)
      else none := by
  have hm := fieldMax_gt lf
  cases toks with
  | nil => simp [fieldLoop]
  | cons t ts =>
    rw [fieldLoop_first _ hm]
    cases k with
    | zero => simp; omega
    | succ k =>
      simp only [List.getElem?_cons_succ, List.getElem?_map, List.getElem?_take]
      by_cases h : k < fieldMax lf - 1
      · have h' : k + 1 < fieldMax lf := by omega
        simp [h, h']
      · have h' : ¬ k + 1 < fieldMax lf := by omega
        simp [h, h']

theorem first_explicit (lf : Bool) (toks : List Line) :
    (fieldLoop (fieldMax lf) toks 0).2.2 = match toks[fieldMax lf]? with
      | some t => !(trim t).isEmpty
      | none => false := by
  have hm := fieldMax_gt lf
  cases toks with
  | nil => simp [fieldLoop]
  | cons t ts =>
    rw [fieldLoop_first _ hm]
    obtain ⟨m, e⟩ : ∃ m, fieldMax lf = m + 1 := ⟨fieldMax lf - 1, by omega⟩
    rw [e]
    simp
    rfl

theorem parseBulk_fixed {line : Line} (h : getLineType line ≠ .free) (rest : List Line) :
    parseBulkLine line rest =
      splitFixed (fuelFor line rest) line (getLineType line = .long) true rest [] := by
  unfold parseBulkLine
  cases e : getLineType line <;> simp_all

theorem pad_length {w : Nat} {s : Line} (h : s.length ≤ w) : (pad w s).length = w := by
  simp [pad]; omega

theorem trim_pad {w : Nat} {v : Line} (h : trim v = v) : trim (pad w v) = v := by
  rw [pad, trim_append_space, h]

theorem trim_plain {l : Line} (h : ∀ c ∈ l, isSpace c = false) : trim l = l := by
  have d : ∀ m : Line, (∀ c ∈ m, isSpace c = false) → m.dropWhile isSpace = m := by
    intro m hm
    cases m with
    | nil => rfl
    | cons c cs => rw [List.dropWhile_cons, hm c (by simp)]; simp
  unfold trim trimRight
  rw [d l h, d l.reverse (fun c hc => h c (by simpa using hc)), List.reverse_reverse]

theorem readLine_false {l : Line} (h : '$' ∉ l) (rest : List Line) :
    readLine false (l :: rest) = some (l, rest) := by
  have ht : l.takeWhile (· ≠ '$') = l := by
    rw [List.takeWhile_eq_self_iff]
    intro c hc
    simp only [decide_eq_true_eq]
    rintro rfl
    exact h hc
  rw [readLine, ht]
  by_cases hb : blank l = true
  · simp [hb]
  · have hl : l ≠ [] := by rintro rfl; exact hb rfl
    have hd : l.head? ≠ some '$' := by
      intro hd
      exact h (List.mem_of_head? hd)
    have hb' : blank l = false := by simpa using hb
    have hl' : l.isEmpty = false := by simpa using hl
    simp [hb', hl', hd]

theorem readLine_true {l : Line} (h : '$' ∉ l) (hb : blank l = false) (rest : List Line) :
    readLine true (l :: rest) = some (l, rest) := by
  have ht : l.takeWhile (· ≠ '$') = l := by
    rw [List.takeWhile_eq_self_iff]
    intro c hc
    simp only [decide_eq_true_eq]
    rintro rfl
    exact h hc
  have hl : l ≠ [] := by rintro rfl; cases hb
  have hd : l.head? ≠ some '$' := fun hd => h (List.mem_of_head? hd)
  have hl' : l.isEmpty = false := by simpa using hl
  rw [readLine, ht]
  simp [hb, hl', hd]

theorem skipDollar_cons {l : Line} (h : '$' ∉ l) (rest : List Line) :
    skipDollar (l :: rest) = l :: rest := by
  have hd : l.head? ≠ some '$' := fun hd => h (List.mem_of_head? hd)
  rw [skipDollar, if_neg hd]

/-- The line that carries the values `r`. -/
def rowLine (lf : Bool) (first : Line) (r : List Line) (lab : Line) : Line :=
  pad 8 first ++ writeRow (dataWidth lf) r ++ lab

theorem rowLine_noDollar {lf : Bool} {first lab : Line} {r : List Line} (h1 : '$' ∉ first)
    (h2 : ∀ v ∈ r, Value (dataWidth lf) v) (h3 : '$' ∉ lab) : '$' ∉ rowLine lf first r lab := by
  simp only [rowLine, pad, writeRow, List.mem_append, List.mem_flatten, List.mem_map, not_or]
  refine ⟨⟨⟨h1, by simp⟩, ?_⟩, h3⟩
  rintro ⟨l, ⟨v, hv, rfl⟩, hl⟩
  rcases List.mem_append.1 hl with hl | hl
  · exact (h2 v hv).noDollar hl
  · simp at hl

theorem rowLine_noTab {lf : Bool} {first lab : Line} {r : List Line} (h1 : '\t' ∉ first)
    (h2 : ∀ v ∈ r, Value (dataWidth lf) v) (h3 : '\t' ∉ lab) : '\t' ∉ rowLine lf first r lab := by
  simp only [rowLine, pad, writeRow, List.mem_append, List.mem_flatten, List.mem_map, not_or]
  refine ⟨⟨⟨h1, by simp⟩, ?_⟩, h3⟩
  rintro ⟨l, ⟨v, hv, rfl⟩, hl⟩
  rcases List.mem_append.1 hl with hl | hl
  · exact (h2 v hv).noTab hl
  · simp at hl

theorem rowLine_cut {lf : Bool} {first lab : Line} {r : List Line} (h1 : first.length ≤ 8)
    (h2 : ∀ v ∈ r, Value (dataWidth lf) v) (hr : r.length ≤ perLine lf) (h3 : lab.length ≤ 8)
    (h4 : lab = [] ∨ r.length = perLine lf) :
    cut (offsets lf) (rowLine lf first r lab) =
      pad 8 first :: (r.map (pad (dataWidth lf)) ++ if lab.isEmpty then [] else [lab]) := by
  have hmax : fieldMax lf = 1 + perLine lf := by cases lf <;> rfl
  have hol := offsets_length lf
  have key := cut_pieces (offsets lf) (pad 8 first :: r.map (pad (dataWidth lf))) lab
    (by simp; omega) ?_ (by cases lf <;> decide) ?_
  · simpa [rowLine, writeRow] using key
  · intro k hk
    have hk' : k < fieldMax lf := by simp at hk; omega
    rw [offsets_getD lf k hk']
    cases k with
    | zero =>
      have : (pad 8 first).length = 8 := pad_length h1
      simpa [width] using this
    | succ k =>
      have hkr : k < r.length := by simpa using hk
      have e : (pad 8 first :: r.map (pad (dataWidth lf)))[k + 1] = pad (dataWidth lf) r[k] := by
        simp
      rw [e, pad_length (h2 _ (List.getElem_mem hkr)).fits]
      cases lf <;> simp [width, dataWidth]
  · rcases h4 with rfl | h4
    · simp
    · have : (pad 8 first :: r.map (pad (dataWidth lf))).length = fieldMax lf := by simp; omega
      rw [this]
      cases lf <;> simpa [offsets, fieldMax] using h3

theorem map_trim_pad {w : Nat} {r : List Line} (h : ∀ v ∈ r, Value w v) :
    (r.map (pad w)).map trim = r := by
  rw [List.map_map]
  conv_rhs => rw [← List.map_id r]
  exact List.map_congr_left fun v hv => trim_pad (h v hv).trimmed

/-- The fields read from the line that carries the values `r`. -/
theorem rowLine_parse {lf fl : Bool} {first lab : Line} {r : List Line} (h1 : first.length ≤ 8)
    (h1t : '\t' ∉ first) (h1s : trim first = first)
    (h2 : ∀ v ∈ r, Value (dataWidth lf) v) (hr : r.length ≤ perLine lf)
    (h3 : lab = [] ∨ (lab = ['+'] ∧ r.length = perLine lf)) :
    (cut (offsets lf) (replaceTabs lf (rowLine lf first r lab))).isEmpty = false ∧
    (if fl then fieldLoop (fieldMax lf) (cut (offsets lf) (replaceTabs lf (rowLine lf first r lab))) 0
      else fieldLoop (fieldMax lf)
        ((cut (offsets lf) (replaceTabs lf (rowLine lf first r lab))).drop 1) 1) =
    ((if fl then [eraseStars first] else []) ++ r, 1 + r.length, !lab.isEmpty) := by
  have hmax : fieldMax lf = 1 + perLine lf := by cases lf <;> rfl
  have hp : 0 < perLine lf := by cases lf <;> decide
  have hlt : '\t' ∉ lab := by rcases h3 with rfl | ⟨rfl, _⟩ <;> simp
  have hll : lab.length ≤ 8 := by rcases h3 with rfl | ⟨rfl, _⟩ <;> simp
  rw [replaceTabs_noTab lf (rowLine_noTab h1t h2 hlt),
    rowLine_cut h1 h2 hr hll (h3.imp id And.right)]
  have e1 : fieldMax lf - 1 = perLine lf := by omega
  have e2 : ((r.map (pad (dataWidth lf)) ++ if lab.isEmpty then [] else [lab]).take
      (perLine lf)).map trim = r := by
    rcases h3 with rfl | ⟨rfl, h⟩
    · simp only [List.isEmpty_nil, if_true, List.append_nil]
      rw [List.take_of_length_le (by simpa using hr), map_trim_pad h2]
    · rw [List.take_append_of_le_length (by simp; omega), List.take_of_length_le (by simpa using hr),
        map_trim_pad h2]
  have e3 : 1 + min (r.map (pad (dataWidth lf)) ++ if lab.isEmpty then [] else [lab]).length
      (perLine lf) = 1 + r.length := by
    rcases h3 with rfl | ⟨rfl, h⟩ <;> simp <;> omega
  have e4 : (match (r.map (pad (dataWidth lf)) ++ if lab.isEmpty then [] else [lab])[perLine lf]? with
      | some t => !(trim t).isEmpty
      | none => false) = !lab.isEmpty := by
    rcases h3 with rfl | ⟨rfl, h⟩
    · have : (r.map (pad (dataWidth lf)) ++ if ([] : Line).isEmpty then [] else [[]])[perLine lf]? =
        none := by
        simp only [List.isEmpty_nil, if_true, List.append_nil]
        exact List.getElem?_eq_none (by simpa using hr)
      rw [this]; rfl
    · have : (r.map (pad (dataWidth lf)) ++ if (['+'] : Line).isEmpty then [] else [['+']])[perLine lf]? =
        some ['+'] := by
        rw [List.getElem?_append_right (by simp; omega)]
        simp [h]
      rw [this]; decide
  refine ⟨by simp, ?_⟩
  cases fl
  · simp only [Bool.false_eq_true, if_false, List.drop_one, List.tail_cons, List.nil_append]
    rw [fieldLoop_cont _ _ 1 (by omega) (by omega), e1, e2, e3]
    exact Prod.ext rfl (Prod.ext rfl e4)
  · simp only [if_true]
    rw [fieldLoop_first _ (by omega), e1, e2, e3, trim_pad h1s]
    exact Prod.ext rfl (Prod.ext rfl e4)

theorem contHead_ok (lf : Bool) (style : Style) : (contHead lf style).length ≤ 8 ∧
    '\t' ∉ contHead lf style ∧ '$' ∉ contHead lf style ∧
    trim (contHead lf style) = contHead lf style := by
  cases lf <;> cases style <;> decide

theorem writeCard_cons (w : Nat) (lab hd first : Line) (r : List Line) (r' : List Line)
    (rs : List (List Line)) : writeCard w lab hd first (r :: r' :: rs) =
      (pad 8 first ++ writeRow w r ++ lab) :: writeCard w lab hd hd (r' :: rs) := rfl

theorem writeCard_head {lf : Bool} {style : Style} (first : Line) {rows : List (List Line)}
    (h : rows ≠ []) : ∃ r lab more, writeCard (dataWidth lf) (label style) (contHead lf style) first rows =
      rowLine lf first r lab :: more ∧ r ∈ rows ∧ (lab = [] ∨ lab = label style) := by
  match rows, h with
  | [r], _ => exact ⟨r, [], [], by simp [writeCard, rowLine], by simp, .inl rfl⟩
  | r :: r' :: rs, _ => exact ⟨r, _, _, rfl, by simp, .inr rfl⟩

/-- Reading the lines of a card from one of its lines on. -/
theorem read_rows (lf : Bool) (style : Style) (rest : List Line) (hnew : NewCard rest) :
    ∀ (rows : List (List Line)) (first line : Line) (more : List Line) (fl : Bool) (fuel : Nat)
      (vec : List Line),
    RowsOk (perLine lf) style rows → (∀ r ∈ rows, ∀ v ∈ r, Value (dataWidth lf) v) →
    first.length ≤ 8 → '\t' ∉ first → trim first = first → rows.length ≤ fuel →
    writeCard (dataWidth lf) (label style) (contHead lf style) first rows = line :: more →
    splitFixed fuel line lf fl (more ++ rest) vec =
      .ok (vec ++ (if fl then [eraseStars first] else []) ++ valuesOf (perLine lf) rows,
        afterComments rest) := by
  intro rows
  induction rows with
  | nil => intro first line more fl fuel vec h; exact h.elim
  | cons r rs ih =>
    intro first line more fl fuel vec hok hval h1 h1t h1s hfuel hw
    obtain ⟨n, rfl⟩ : ∃ n, fuel = n + 1 := ⟨fuel - 1, by simp at hfuel; omega⟩
    have hvr := hval r (by simp)
    cases rs with
    | nil =>
      have hlen : r.length ≤ perLine lf := hok
      cases hw
      have hline : pad 8 first ++ writeRow (dataWidth lf) r = rowLine lf first r [] := by
        simp [rowLine]
      rw [hline]
      obtain ⟨hne, hparse⟩ := rowLine_parse (fl := fl) h1 h1t h1s hvr hlen (.inl rfl)
      rw [splitFixed]
      simp only [hne, Bool.and_false, Bool.false_eq_true, if_false, hparse]
      have p1 := newCard_peek hnew '+' (by simp)
      have p2 := newCard_peek hnew ' ' (by simp)
      have p3 := newCard_peek hnew '*' (by simp)
      have p4 := newCard_peek hnew '\t' (by simp)
      simp [p1, p2, p3, p4, valuesOf, ← skipDollar_eq]
    | cons r' rs =>
      rw [writeCard_cons] at hw
      injection hw with hline hmore
      have hlab : label style = [] ∨ (label style = ['+'] ∧ r.length = perLine lf) := by
        cases style
        · exact .inr ⟨rfl, hok.1⟩
        · exact .inl rfl
      have hlen : r.length ≤ perLine lf := by
        have := hok.1
        cases style
        · exact Nat.le_of_eq this
        · exact this
      obtain ⟨hc1, hc2, hc3, hc4⟩ := contHead_ok lf style
      obtain ⟨r2, lab2, more2, e, hr2, hl2⟩ := writeCard_head (lf := lf) (style := style)
        (contHead lf style) (rows := r' :: rs) (by simp)
      have hd2 : '$' ∉ rowLine lf (contHead lf style) r2 lab2 :=
        rowLine_noDollar hc3 (hval r2 (List.mem_cons_of_mem _ hr2)) (by
          rcases hl2 with rfl | rfl
          · simp
          · cases style <;> simp [label])
      rw [e] at hmore
      subst hmore
      subst hline
      obtain ⟨hne, hparse⟩ := rowLine_parse (fl := fl) h1 h1t h1s hvr hlen hlab
      have hrec := fun v => ih (contHead lf style) _ _ false n v hok.2
        (fun r hr => hval r (List.mem_cons_of_mem _ hr)) hc1 hc2 hc4 (by simp at hfuel ⊢; omega) e
      change splitFixed (n + 1) (rowLine lf first r (label style)) lf fl _ vec = _
      rw [splitFixed]
      simp only [hne, Bool.and_false, Bool.false_eq_true, if_false, hparse, List.cons_append,
        skipDollar_cons hd2, readLine_false hd2]
      cases style with
      | plus =>
        have : r.length = perLine lf := hok.1
        simp only [label, List.isEmpty_cons, Bool.not_false, Bool.true_or, if_true, hrec]
        simp [valuesOf, this]
      | automatic =>
        have hpk : peek (rowLine lf (contHead lf .automatic) r2 lab2 :: (more2 ++ rest)) =
            some (if lf then '*' else ' ') := by
          cases lf <;> rfl
        have hm : fieldMax lf - (1 + r.length) = perLine lf - r.length := by
          have : fieldMax lf = 1 + perLine lf := by cases lf <;> rfl
          omega
        rw [hpk]
        cases lf
        · simp only [label, List.isEmpty_nil, Bool.not_true, Bool.false_or, Option.some.injEq,
            Bool.false_eq_true, if_false]
          simp only [show ((' ' : Char) = '+') = False by simp, show ((' ' : Char) = '*') = False by simp,
            decide_false, decide_true, Bool.true_or, if_true, Bool.false_eq_true, if_false, hrec, hm]
          simp [valuesOf]
        · simp only [label, List.isEmpty_nil, Bool.not_true, Bool.false_or, Option.some.injEq,
            if_true]
          simp only [show (('*' : Char) = '+') = False by simp, show (('*' : Char) = ' ') = False by simp,
            decide_false, decide_true, Bool.true_or, Bool.false_or, if_true, Bool.false_eq_true,
            if_false, hrec, hm]
          simp [valuesOf]

theorem read_mixed (rest : List Line) (hnew : NewCard rest) :
    ∀ (rows : List (Bool × List Line)) (lf : Bool) (r : List Line) (first : Line) (fl : Bool) (fuel : Nat)
      (vec : List Line),
    (∀ q ∈ (lf, r) :: rows, q.2.length ≤ perLine q.1 ∧ ∀ v ∈ q.2, Value (dataWidth q.1) v) →
    first.length ≤ 8 → '\t' ∉ first → trim first = first → rows.length < fuel →
    splitFixed fuel (rowLine lf first r []) lf fl (writeMixed (nextHead rows) rows ++ rest) vec =
      .ok (vec ++ (if fl then [eraseStars first] else []) ++ valuesMixed ((lf, r) :: rows),
        afterComments rest) := by
  intro rows
  induction rows with
  | nil =>
    intro lf r first fl fuel vec hq h1 h1t h1s hfuel
    obtain ⟨n, rfl⟩ : ∃ n, fuel = n + 1 := ⟨fuel - 1, by simp at hfuel; omega⟩
    obtain ⟨hlen, hval⟩ := hq (lf, r) (by simp)
    obtain ⟨hne, hparse⟩ := rowLine_parse (fl := fl) h1 h1t h1s hval hlen (.inl rfl)
    rw [splitFixed]
    simp only [hne, Bool.and_false, Bool.false_eq_true, if_false, hparse]
    have p1 := newCard_peek hnew '+' (by simp)
    have p2 := newCard_peek hnew ' ' (by simp)
    have p3 := newCard_peek hnew '*' (by simp)
    have p4 := newCard_peek hnew '\t' (by simp)
    simp [p1, p2, p3, p4, valuesMixed, writeMixed, ← skipDollar_eq]
  | cons q2 rows ih =>
    obtain ⟨lf2, r2⟩ := q2
    intro lf r first fl fuel vec hq h1 h1t h1s hfuel
    obtain ⟨n, rfl⟩ : ∃ n, fuel = n + 1 := ⟨fuel - 1, by simp at hfuel; omega⟩
    obtain ⟨hlen, hval⟩ := hq (lf, r) (by simp)
    obtain ⟨hlen2, hval2⟩ := hq (lf2, r2) (by simp)
    obtain ⟨hne, hparse⟩ := rowLine_parse (fl := fl) h1 h1t h1s hval hlen (.inl rfl)
    obtain ⟨hc1, hc2, hc3, hc4⟩ := contHead_ok lf2 .automatic
    have hd2 : '$' ∉ rowLine lf2 (FixedSpec.contHead lf2 .automatic) r2 [] :=
      rowLine_noDollar hc3 hval2 (by simp)
    have hrec := fun v => ih lf2 r2 (FixedSpec.contHead lf2 .automatic) false n v
      (fun q hq' => hq q (List.mem_cons_of_mem _ hq')) hc1 hc2 hc4 (by simp at hfuel ⊢; omega)
    have hw : writeMixed (nextHead ((lf2, r2) :: rows)) ((lf2, r2) :: rows) ++ rest =
        rowLine lf2 (FixedSpec.contHead lf2 .automatic) r2 [] :: (writeMixed (nextHead rows) rows ++ rest) := by
      simp [writeMixed, rowLine, nextHead]
    rw [hw]
    generalize writeMixed (nextHead rows) rows ++ rest = more at hrec ⊢
    have hpk : peek (rowLine lf2 (FixedSpec.contHead lf2 .automatic) r2 [] :: more) =
        some (if lf2 then '*' else ' ') := by
      cases lf2 <;> rfl
    have hm : fieldMax lf - (1 + r.length) = perLine lf - r.length := by
      have : fieldMax lf = 1 + perLine lf := by cases lf <;> rfl
      omega
    rw [splitFixed]
    simp only [hne, Bool.and_false, Bool.false_eq_true, if_false, hparse, skipDollar_cons hd2,
      readLine_false hd2, hpk, hm]
    cases lf2
    · simp [hrec, valuesMixed]
    · simp [hrec, valuesMixed]

theorem firstLine_facts {lf : Bool} {name : Line} (hname : Name lf name) (r : List Line) (lab : Line)
    (hval : ∀ v ∈ r, Value (dataWidth lf) v) (hl2 : '$' ∉ lab) :
    (∀ c ∈ firstField lf name, isSpace c = false ∧ c ≠ ',' ∧ c ≠ '$') ∧
    (firstField lf name).length ≤ 8 ∧ '$' ∉ rowLine lf (firstField lf name) r lab ∧
    '\t' ∉ firstField lf name ∧ trim (firstField lf name) = firstField lf name ∧
    blank (rowLine lf (firstField lf name) r lab) = false ∧
    getLineType (rowLine lf (firstField lf name) r lab) = (if lf then .long else .short) ∧
    eraseStars (firstField lf name) = name := by
  have hpl : ∀ c ∈ firstField lf name, isSpace c = false ∧ c ≠ ',' ∧ c ≠ '$' := by
    intro c hc
    unfold firstField at hc
    cases lf
    · have := hname.plain c hc
      exact ⟨this.1, this.2.1, this.2.2.2⟩
    · simp only [if_true, List.mem_append, List.mem_singleton] at hc
      rcases hc with hc | rfl
      · have := hname.plain c hc
        exact ⟨this.1, this.2.1, this.2.2.2⟩
      · decide
  have h8 : (firstField lf name).length ≤ 8 := by
    have := hname.fits
    cases lf <;> simp [firstField] at * <;> omega
  have hdol : '$' ∉ firstField lf name := fun h => (hpl _ h).2.2 rfl
  have htab : '\t' ∉ firstField lf name := fun h => by
    have := (hpl _ h).1
    simp [isSpace] at this
  have htrim : trim (firstField lf name) = firstField lf name := trim_plain fun c hc => (hpl c hc).1
  have hd : '$' ∉ rowLine lf (firstField lf name) r lab :=
    rowLine_noDollar hdol hval hl2
  obtain ⟨c0, cs, hn0⟩ : ∃ c cs, name = c :: cs := by
    cases name with
    | nil => exact absurd rfl hname.nonempty
    | cons c cs => exact ⟨c, cs, rfl⟩
  have hb : blank (rowLine lf (firstField lf name) r lab) = false := by
    have hc := (hname.plain c0 (by simp [hn0])).1
    have hc' : isBlank c0 = false := by
      simp only [isSpace, isBlank, Bool.or_eq_false_iff] at hc ⊢
      exact ⟨hc.1.1.1.1.1, hc.1.1.1.1.2⟩
    subst hn0
    unfold blank rowLine firstField pad
    cases lf <;> simp [hc']
  have htake : (rowLine lf (firstField lf name) r lab).take 8 = pad 8 (firstField lf name) := by
    unfold rowLine
    rw [List.append_assoc, List.take_append_of_le_length (by rw [pad_length h8])]
    exact List.take_of_length_le (by rw [pad_length h8])
  have htype : getLineType (rowLine lf (firstField lf name) r lab) = if lf then .long else .short := by
    unfold getLineType
    rw [htake]
    have h1 : (pad 8 (firstField lf name)).contains ',' = false := by
      rw [← Bool.not_eq_true, List.contains_iff_mem]
      intro h
      rcases List.mem_append.1 h with h | h
      · exact (hpl _ h).2.1 rfl
      · simp at h
    have h2 : (pad 8 (firstField lf name)).contains '*' = lf := by
      cases lf
      · rw [← Bool.not_eq_true, List.contains_iff_mem]
        intro h
        rcases List.mem_append.1 h with h | h
        · exact (hname.plain _ h).2.2.1 rfl
        · simp at h
      · rw [List.contains_iff_mem]
        simp [pad, firstField]
    simp only [h1, h2, if_true]
    cases lf <;> rfl
  have her : eraseStars (firstField lf name) = name := by
    have : eraseStars name = name := by
      unfold eraseStars
      rw [List.filter_eq_self]
      intro c hc
      simpa using (hname.plain c hc).2.2.1
    cases lf
    · exact this
    · unfold eraseStars at this ⊢
      rw [firstField, if_pos rfl, List.filter_append, this]
      simp
  exact ⟨hpl, h8, hd, htab, htrim, hb, htype, her⟩

/-! ## C22 -/

/-- **C22.** The fields of a fixed format card on one line are, for every field that begins
within the line (tabulations expanded) and before column 73, the trimmed text of its columns, in
order; asterisks are removed from the first. Reading goes on after the comment lines that follow. -/
theorem C22_columns (line x : Line) (rest : List Line) (lf : Bool)
    (hfree : getLineType line ≠ .free) (hlf : lf = true ↔ getLineType line = .long)
    (hx : Expands (Stop lf) 0 line x)
    (hcont : trim ((x.drop 72).take 8) = []) (hnew : NewCard rest) :
    ∃ fields, parseBulkLine line rest = .ok (fields, afterComments rest) ∧
      ∀ k, fields[k]? = if k < 1 + perLine lf ∧ start lf k < x.length then
        some (let f := trim ((x.drop (start lf k)).take (width lf k))
          if k = 0 then f.filter (· ≠ '*') else f) else none := by
  have hxe := (C21_unique lf line x hx).1
  have hl : decide (getLineType line = .long) = lf := by
    cases lf <;> simp_all
  rw [parseBulk_fixed hfree, hl]
  have hmax : fieldMax lf = 1 + perLine lf := by cases lf <;> rfl
  obtain ⟨n, hn⟩ : ∃ n, fuelFor line rest = n + 1 := ⟨_, rfl⟩
  rw [hn, splitFixed]
  simp only [Bool.not_true, Bool.false_and, Bool.false_eq_true, if_false, if_true, ← hxe]
  have hexp : (fieldLoop (fieldMax lf) (cut (offsets lf) x) 0).2.2 = false := by
    rw [first_explicit, cut_getElem?, offsets_sum lf _ (Nat.le_refl _), offsets_length]
    have h72 : start lf (fieldMax lf) = 72 := by cases lf <;> rfl
    have h8 : (offsets lf).getD (fieldMax lf) 0 = 8 := by cases lf <;> rfl
    rw [h72, h8]
    by_cases h : fieldMax lf < fieldMax lf + 1 ∧ 72 < x.length
    · rw [if_pos h]; simp [hcont]
    · rw [if_neg h]
  have p1 := newCard_peek hnew '+' (by simp)
  have p2 := newCard_peek hnew ' ' (by simp)
  have p3 := newCard_peek hnew '*' (by simp)
  have p4 := newCard_peek hnew '\t' (by simp)
  simp only [hexp, p1, p2, p3, p4, decide_false, Bool.or_false, Bool.false_eq_true, if_false,
    List.nil_append]
  rw [skipDollar_eq]
  refine ⟨_, rfl, fun k => ?_⟩
  rw [first_fields, cut_getElem?]
  by_cases hk : k < fieldMax lf
  · rw [if_pos hk, offsets_sum lf k (by omega), offsets_getD lf k hk, offsets_length]
    by_cases hs : start lf k < x.length
    · rw [if_pos ⟨by omega, hs⟩, if_pos ⟨by omega, hs⟩]
      simp [eraseStars]
    · rw [if_neg (fun h => hs h.2), if_neg (fun h => hs h.2)]
      rfl
  · rw [if_neg hk, if_neg (fun h => hk (by omega))]

/-- **C22.** A card written in fixed format, short or long, on any number of lines, whether continued
by marks or automatically, is read back: its name, then its values in order, nothing else,
lines that are continued counting for all their fields. Reading goes on with the next card. -/
theorem C22_round_trip (lf : Bool) (style : Style) (name : Line) (rows : List (List Line))
    (rest : List Line) (hname : Name lf name) (hrows : RowsOk (perLine lf) style rows)
    (hval : ∀ r ∈ rows, ∀ v ∈ r, Value (dataWidth lf) v) (hnew : NewCard rest) :
    nextLine (writeCard (dataWidth lf) (label style) (contHead lf style) (firstField lf name) rows
        ++ rest) =
      .ok (some (name :: valuesOf (perLine lf) rows, afterComments rest)) := by
  have hne : rows ≠ [] := by rintro rfl; exact hrows
  obtain ⟨r, lab, more, e, hr, hl⟩ := writeCard_head (lf := lf) (style := style)
    (firstField lf name) hne
  have hlab : lab.length ≤ 8 ∧ '$' ∉ lab := by
    rcases hl with rfl | rfl
    · simp
    · cases style <;> simp [label]
  obtain ⟨hpl, h8, hd, htab, htrim, hb, htype, her⟩ := firstLine_facts hname r lab (hval r hr)
    hlab.2
  rw [e, List.cons_append, nextLine, readLine_true hd hb]
  simp only
  rw [parseBulk_fixed (by rw [htype]; cases lf <;> simp)]
  have hdec : decide (getLineType (rowLine lf (firstField lf name) r lab) = .long) = lf := by
    rw [htype]; cases lf <;> rfl
  have hlen : rows.length = 1 + more.length := by
    have := congrArg List.length e
    have hwl : ∀ (rows : List (List Line)) (f : Line), (writeCard (dataWidth lf) (label style)
        (contHead lf style) f rows).length = rows.length := by
      intro rows
      induction rows with
      | nil => intro f; rfl
      | cons r rs ih =>
        intro f
        cases rs with
        | nil => rfl
        | cons r' rs => rw [writeCard_cons, List.length_cons, ih]; rfl
    rw [hwl, List.length_cons] at this
    omega
  have hfuel : rows.length ≤ fuelFor (rowLine lf (firstField lf name) r lab) (more ++ rest) := by
    have hs : ∀ ls : List Line, ls.length ≤ (ls.map fun l => l.length + 1).sum := by
      intro ls
      induction ls with
      | nil => simp
      | cons l ls ih => simp; omega
    have := hs (more ++ rest)
    rw [List.length_append] at this
    unfold fuelFor
    omega
  rw [hdec, read_rows lf style rest hnew rows _ _ more true _ [] hrows hval h8 htab htrim hfuel e]
  simp [her]

/-- **C22.** Lines that follow each other automatically may mix the short and the long format: each is read in
its own format. (After the first line of the card, which is read as the first field tells.) -/
theorem C22_mixed_formats (rest : List Line) (rows : List (Bool × List Line)) (lf : Bool)
    (r : List Line) (name : Line) (hname : Name lf name) (hnew : NewCard rest)
    (hq : ∀ q ∈ (lf, r) :: rows, q.2.length ≤ perLine q.1 ∧ ∀ v ∈ q.2, Value (dataWidth q.1) v) :
    nextLine (writeMixed (firstField lf name) ((lf, r) :: rows) ++ rest) =
      .ok (some (name :: valuesMixed ((lf, r) :: rows), afterComments rest)) := by
  obtain ⟨hpl, h8, hd0, htab, htrim, hb0, htype, her⟩ := firstLine_facts hname r []
    (hq (lf, r) (by simp)).2 (by simp)
  have e : writeMixed (firstField lf name) ((lf, r) :: rows) ++ rest =
      rowLine lf (firstField lf name) r [] :: (writeMixed (nextHead rows) rows ++ rest) := by
    simp [writeMixed, rowLine]
  rw [e, nextLine, readLine_true hd0 hb0]
  simp only
  rw [parseBulk_fixed (by rw [htype]; cases lf <;> simp)]
  have hdec : decide (getLineType (rowLine lf (firstField lf name) r []) = .long) = lf := by
    rw [htype]; cases lf <;> rfl
  have hlen : ∀ (rows : List (Bool × List Line)) (f : Line), (writeMixed f rows).length = rows.length := by
    intro rows
    induction rows with
    | nil => intro f; rfl
    | cons q rows ih => intro f; obtain ⟨a, b⟩ := q; simp [writeMixed, ih]
  have hs : ∀ ls : List Line, ls.length ≤ (ls.map fun l => l.length + 1).sum := by
    intro ls
    induction ls with
    | nil => simp
    | cons l ls ih => simp; omega
  rw [hdec, read_mixed rest hnew rows lf r (firstField lf name) true _ [] hq h8 htab htrim]
  · simp [her]
  · have := hs (writeMixed (nextHead rows) rows ++ rest)
    rw [List.length_append, hlen] at this
    unfold fuelFor
    omega

example : nextLine ["A*      1".toList, "        2".toList, "*       3".toList] =
    .ok (some (["A", "1", "", "", "", "2", "", "", "", "", "", "", "", "3"].map String.toList, [])) := by
  decide +kernel

/-- A concrete card on two lines, followed by a comment and another card. -/
def sampleRows : List (List Line) :=
  [["1".toList, "+2.5".toList, [], "3".toList, "4".toList, "5".toList, "6".toList, "7".toList],
    ["8".toList, "THRU".toList]]

example : Name true "CBAR".toList ∧ Name false "CQUAD4".toList :=
  ⟨⟨by decide, by decide, by decide⟩, ⟨by decide, by decide, by decide⟩⟩
example : RowsOk (perLine false) .plus sampleRows ∧ RowsOk (perLine false) .automatic sampleRows := by
  simp [RowsOk, perLine, sampleRows]
example : ∀ r ∈ sampleRows, ∀ v ∈ r, Value (dataWidth false) v := by
  have h : ∀ r ∈ sampleRows, ∀ v ∈ r, v.length ≤ dataWidth false ∧ trim v = v ∧ '\t' ∉ v ∧ '$' ∉ v := by
    decide
  exact fun r hr v hv => ⟨(h r hr v hv).1, (h r hr v hv).2.1, (h r hr v hv).2.2.1, (h r hr v hv).2.2.2⟩
example : NewCard ["$ comment".toList, "GRID,1".toList] := by simp [NewCard]
example : nextLine (["SPC1    1       2               3       4       5       6       7       +".toList,
      "+       8".toList, "$ comment".toList, "GRID,1".toList]) =
    .ok (some (["SPC1", "1", "2", "", "3", "4", "5", "6", "7", "8"].map String.toList,
      ["GRID,1".toList])) := by decide +kernel

/-- **C22, false in full.** A continuation marked by `+` alone, after a line that is not full, does not
begin at the ninth value: the values follow those of the first line at once. -/
theorem C22_plus_after_short_line_false :
    ¬ ∀ (name : Line) (r r' : List Line), Name false name → r.length ≤ 8 → r'.length ≤ 8 →
      (∀ v ∈ r ++ r', Value 8 v) →
      nextLine [pad 8 name ++ writeRow 8 r, pad 8 ['+'] ++ writeRow 8 r'] =
        .ok (some (name :: valuesOf 8 [r, r'], [])) := by
  intro h
  have := h "A".toList ["1".toList] ["2".toList] ⟨by decide, by decide, by decide⟩ (by decide)
    (by decide) (by
      intro v hv
      simp at hv
      rcases hv with rfl | rfl <;> exact ⟨by decide, by decide, by decide, by decide⟩)
  revert this
  decide +kernel

end Nastran
end Vega
