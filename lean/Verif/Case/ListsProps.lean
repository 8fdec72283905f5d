import Verif.Case.Lists

/-! # Lists that are not read (C99), and the coefficients of combinations (C98) -/
namespace Vega
namespace Case
open Nastran (Line isSpace isBlank blank trim trimRight toUpper Cursor Symbol nextString nextInt intMin intMax natOf splitComma)
open F06 (has)
open CaseSpec
open F06Spec (Digits)

/-! ## C99 -/

/-- C99 is false of a list that ends with a comma at the end of the file: its reading does not end. -/
theorem C99_comma_false (t : Tok) (ht : Nastran.readLine true t.rest = none) (line : Line) (hl : line.getLast? = some ',') :
    ∀ fuel, setText fuel t line = .diverges := by
  intro fuel
  have key : ∀ (fuel : Nat) (t : Tok), Nastran.readLine true t.rest = none → setText fuel t line = .diverges := by
    intro fuel
    induction fuel with
    | zero => intro t _; rfl
    | succ n ih =>
      intro t ht
      have hn : nextLine t = ⟨[], ⟨[], 0, .eof⟩, []⟩ := by
        unfold nextLine
        rw [ht]
      rw [setText, if_pos hl]
      simp only [hn]
      rw [show trim [] = [] from rfl, List.append_nil]
      exact ih _ rfl
  exact key fuel t ht

example : readSection gnu ["SOL 101".toList, "SET 1 = 5, 6,".toList] = .diverges := by decide +kernel

/-- C99 is false of a range up to the largest `int`: the loop over it goes beyond. -/
theorem C99_largest_false (a : Int) (h : a ≤ intMax) : setRange a intMax = .ub := by
  unfold setRange
  rw [if_pos ⟨h, rfl⟩]

/-- C99 is false of exceptions, which make the list be left out; of steps, at which the program ends; and of lists without an equal
sign, of which only the last word is kept. -/
theorem C99_forms_false :
    (readSection gnu ["SOL 101".toList, "SET 1 = 5 THRU 9 EXCEPT 7".toList, "BEGIN BULK".toList]).toOption.map (·.sets) = some [] ∧
    readSection gnu ["SOL 101".toList, "SET 1 = 5 THRU 9 BY 2".toList, "BEGIN BULK".toList] = .throw ∧
    (readSection gnu ["SOL 101".toList, "SET 1 5, 6".toList, "BEGIN BULK".toList]).toOption.map (·.sets) = some [(1, .list [6])] ∧
    (readSection gnu ["SOL 101".toList, "SET 1 = 5, 6".toList, "BEGIN BULK".toList]).toOption.map (·.sets) = some [(1, .list [5, 6])] ∧
    (readSection gnu ["SOL 101".toList, "SET 1 = 5 THRU 7, 9".toList, "BEGIN BULK".toList]).toOption.map (·.sets) =
      some [(1, .list [5, 6, 7, 9])] := by
  decide +kernel

/-- C99 is false of a number that is used again: whatever the text of the list, and whether it is in another subcase or not, a list with
values is never added to the model when there is one of its number. -/
theorem C99_number_again_false (cfg : Config) (t t' : Tok) (d d' : Deck) (h : addSet cfg t d = .ok (t', some d')) :
    d'.sets = d.sets ∨ ∃ e, d'.sets = d.sets ++ [e] ∧ ∀ x ∈ d.sets, x.1 ≠ e.1 := by
  unfold addSet at h
  obtain ⟨⟨line, t1⟩, _, h⟩ := bind_eq_ok h
  simp only at h
  split at h
  · split at h <;> exact nomatch h
  · split at h
    · exact nomatch h
    · obtain ⟨id, _, h⟩ := bind_eq_ok h
      obtain ⟨v, _, h⟩ := bind_eq_ok h
      cases v with
      | none => cases h; exact Or.inl rfl
      | some v =>
        simp only at h
        split at h
        · exact nomatch h
        · rename_i hn
          cases h
          refine Or.inr ⟨_, rfl, fun x hx he => hn (List.any_eq_true.mpr ⟨x, hx, by simpa using he⟩)⟩

/-- Each subcase may have its own lists. With the same number in both, the program ends; so it does with a subcase number that is used
twice. -/
theorem C99_subcases_false :
    readSection gnu ["SOL 101".toList, "SUBCASE 1".toList, "SET 5 = 1, 2".toList, "DISP = 5".toList, "SUBCASE 2".toList,
      "SET 5 = 3, 4".toList, "DISP = 5".toList, "BEGIN BULK".toList] = .throw ∧
    (readSection gnu ["SOL 101".toList, "SUBCASE 1".toList, "SET 5 = 1, 2".toList, "DISP = 5".toList, "SUBCASE 2".toList,
      "SET 6 = 3, 4".toList, "DISP = 6".toList, "BEGIN BULK".toList]).toOption.map (·.sets) = some [(5, .list [1, 2]), (6, .list [3, 4])] ∧
    readSection gnu ["SOL 101".toList, "SUBCASE 1".toList, "LOAD = 1".toList, "SUBCASE 1".toList, "LOAD = 2".toList,
      "BEGIN BULK".toList] = .throw := by decide +kernel

/-- A file that meets the hypotheses of C99: a list on two lines, with a range. -/
theorem sample_set : Sets [(12, [.one 3, .thru 5 8, .one 20])] ["SET 12 = 3, 5 thru 8,".toList, "    20 $ the last".toList] := by
  refine .cons 12 _ ("SET 12 = 3, 5 thru 8,".toList ++ "20".toList) ["SET 12 = 3, 5 thru 8,".toList, "    20 $ the last".toList] [] [] ?_ ?_ .nil
  · exact ⟨"SET".toList, [], "12".toList, [' '], [' '], "3, 5 thru 8,20".toList, by decide, by decide, by decide, by decide, by decide, by decide,
      by decide,
      .cons _ "3".toList ", ".toList _ "5 thru 8,20".toList (.one 3 _ (by decide)) ⟨by decide, by decide⟩
        (.cons _ "5 thru 8".toList ",".toList _ "20".toList
          (.thru 5 8 "5".toList "8".toList " ".toList " ".toList "thru".toList (by decide) (by decide) (by decide) (by decide) ⟨by decide, by decide⟩
            ⟨by decide, by decide⟩)
          ⟨by decide, by decide⟩ (.one _ _ (.one 20 _ (by decide))))⟩
  · exact .more [] "SET 12 = 3, 5 thru 8,".toList [] "20".toList ["SET 12 = 3, 5 thru 8,".toList] ["    20 $ the last".toList]
      (gives_line "SET 12 = 3, 5 thru 8,".toList (by decide)) (by decide) ⟨⟨'S', by decide, by decide⟩, ',', by decide, by decide⟩ (by decide) (by decide)
      (.last "    ".toList "20".toList " ".toList ["    20 $ the last".toList] (gives_line "    20 $ the last".toList (by decide)) (by decide)
        ⟨⟨'2', by decide, by decide⟩, '0', by decide, by decide⟩ (by decide) (by decide))

example : ∃ d, readSection gnu (sampleFront ++ (["SET 12 = 3, 5 thru 8,".toList, "    20 $ the last".toList] ++ (["BEGIN BULK".toList] ++ []))) = .ok d ∧
    d.sets = [(12, .list [3, 5, 6, 7, 8, 20])] :=
  C99_sets_partial gnu rfl (fun _ => rfl) sampleItems _ sampleFront _ ["BEGIN BULK".toList] [] _ sample_above sample_set (by decide) sample_begin.1
    sample_begin.2 sample_allowed.1 ⟨.linearStatic, .static "101".toList (by decide) (by decide)⟩

/-! ## C98 -/

end Case

namespace CaseSpec
open Nastran (Line)

/-- Texts with commas between them. -/
def joined : List Line → Line
  | [] => []
  | [t] => t
  | t :: l => t ++ ',' :: joined l

end CaseSpec

namespace Case
open Nastran (Line isSpace isBlank blank trim trimRight toUpper Cursor Symbol nextString nextInt intMin intMax natOf splitComma)
open CaseSpec

theorem splitComma_ne (l : Line) : splitComma l ≠ [] := by
  cases l with
  | nil => simp [splitComma]
  | cons c l =>
    rw [splitComma]
    by_cases h : c = ','
    · rw [if_pos h]; simp
    · rw [if_neg h]
      cases splitComma l <;> simp

theorem splitComma_piece (rest : Line) : ∀ (t : Line), (∀ c ∈ t, c ≠ ',') → splitComma (t ++ ',' :: rest) = t :: splitComma rest := by
  intro t
  induction t with
  | nil => intro _; simp [splitComma]
  | cons c t ih =>
    intro h
    rw [List.cons_append, splitComma, if_neg (h c (by simp)), ih (fun x hx => h x (by simp [hx]))]

theorem splitComma_one : ∀ (t : Line), (∀ c ∈ t, c ≠ ',') → splitComma t = [t] := by
  intro t
  induction t with
  | nil => intro _; rfl
  | cons c t ih =>
    intro h
    rw [splitComma, if_neg (h c (by simp)), ih (fun x hx => h x (by simp [hx]))]

theorem splitComma_joined : ∀ (ts : List Line), ts ≠ [] → (∀ t ∈ ts, ∀ c ∈ t, c ≠ ',') → splitComma (joined ts) = ts := by
  intro ts
  induction ts with
  | nil => intro h; exact absurd rfl h
  | cons t ts ih =>
    intro _ h
    cases ts with
    | nil => exact splitComma_one t (h t (by simp))
    | cons u ts =>
      rw [joined, splitComma_piece _ t (h t (by simp)), ih (by simp) (fun t ht => h t (by simp [ht]))]
      simp

/-- The coefficients at the places `i`, `i + 2`, `i + 4`, … are kept. -/
theorem coefficients_places (size : Nat) : ∀ (n : Nat) (ts : List Line) (xs : List Dbl) (i : Nat), ts.length ≤ n →
    ts.map stod = xs.map some → i + ts.length ≤ size →
    ∃ cs, coefficients size i ts = .ok cs ∧ ∀ j x, (j, x) ∈ cs ↔ ∃ k, j = i + k ∧ k % 2 = 0 ∧ xs[k]? = some x := by
  intro n
  induction n with
  | zero =>
    intro ts xs i hn hx _
    have : ts = [] := List.length_eq_zero_iff.mp (by omega)
    subst this
    have : xs = [] := by cases xs <;> simp at hx; rfl
    subst this
    exact ⟨[], rfl, by simp⟩
  | succ n ih =>
    intro ts xs i hn hx hs
    match ts, xs, hx with
    | [], [], _ => exact ⟨[], rfl, by simp⟩
    | [], _ :: _, hx => simp at hx
    | _ :: _, [], hx => simp at hx
    | [t], [x], hx =>
      simp only [List.map_cons, List.map_nil, List.cons.injEq, and_true] at hx
      refine ⟨[(i, x)], ?_, ?_⟩
      · rw [coefficients, if_pos (by simp at hs; omega), hx]
      · intro j y
        simp only [List.mem_singleton, Prod.mk.injEq]
        constructor
        · rintro ⟨rfl, rfl⟩
          exact ⟨0, by simp, by simp, rfl⟩
        · rintro ⟨k, hj, _, hk⟩
          cases k with
          | zero => simp at hk; exact ⟨by omega, hk.symm⟩
          | succ k => simp at hk
    | [t], _ :: _ :: _, hx => simp at hx
    | _ :: _ :: _, [_], hx => simp at hx
    | t :: u :: ts, x :: y :: xs, hx =>
      simp only [List.map_cons, List.cons.injEq] at hx
      simp only [List.length_cons] at hn hs
      obtain ⟨cs, h1, h2⟩ := ih ts xs (i + 2) (by omega) hx.2.2 (by omega)
      refine ⟨(i, x) :: cs, ?_, ?_⟩
      · rw [coefficients, if_pos (by omega), hx.1]
        simp only [h1, Outcome.bind_ok]
      · intro j z
        simp only [List.mem_cons, Prod.mk.injEq, h2]
        constructor
        · rintro (⟨rfl, rfl⟩ | ⟨k, hj, hk, hz⟩)
          · exact ⟨0, by simp, by simp, rfl⟩
          · exact ⟨k + 2, by omega, by omega, by simpa using hz⟩
        · rintro ⟨k, hj, hk, hz⟩
          match k, hz with
          | 0, hz => simp at hz; exact Or.inl ⟨by omega, hz.symm⟩
          | 1, _ => omega
          | k + 2, hz => exact Or.inr ⟨k, by omega, by omega, by simpa using hz⟩

theorem not_taken {l : List Analysis} {id : Int} {t : AType} (h : ∀ b ∈ l, b.kind.type = t → b.id ≠ id) : taken l t id = false := by
  unfold taken
  rw [Bool.and_eq_false_iff]
  refine Or.inr (List.any_eq_false.mpr fun b hb => ?_)
  simpa using h b hb

/-- C98. A combination of subcases whose number is not that of another combination is added with the number and the label asked for, and the coefficients in the places 1, 3, 5, … are
those of the analyses in these places. The full property, that all coefficients are taken, is false: see below. -/
theorem C98_combination_partial (cfg : Config) (c : Context) (id : Int) (d : Deck) (ts : List Line) (xs : List Dbl) (hne : ts ≠ [])
    (hc : ∀ t ∈ ts, ∀ c ∈ t, c ≠ ',') (hx : ts.map stod = xs.map some) (hs : get c "SUBSEQ".toList = some (joined ts))
    (hn : ts.length ≤ d.analyses.length) (hf : ∀ b ∈ d.analyses, b.kind.type = .combination → b.id ≠ id) :
    ∃ cs a, addCombination cfg c id d = .ok { d with analyses := d.analyses ++ [a] } ∧ a.kind = .combination cs ∧ a.id = id ∧
      a.label = labelOf cfg c id ∧ ∀ i x, i % 2 = 0 → ((i, x) ∈ cs ↔ xs[i]? = some x) := by
  obtain ⟨cs, h1, h2⟩ := coefficients_places d.analyses.length ts.length ts xs 0 (le_refl _) hx (by omega)
  refine ⟨cs, ⟨.combination cs, id, labelOf cfg c id, [], [], [], none⟩, ?_, rfl, rfl, rfl, ?_⟩
  · unfold addCombination
    rw [hs]
    simp only [splitComma_joined ts hne hc, h1, Outcome.bind_ok, not_taken hf]
    rfl
  · intro i x hi
    rw [h2]
    constructor
    · rintro ⟨k, hj, _, hk⟩
      rw [show i = k by omega]
      exact hk
    · intro hk
      exact ⟨i, by omega, hi, hk⟩

/-- C98 is false of every second coefficient: the analyses in the places 2, 4, 6, … have no coefficient in the combination, whatever
is asked for. -/
theorem C98_second_false (cfg : Config) (c : Context) (id : Int) (d : Deck) (ts : List Line) (xs : List Dbl) (hne : ts ≠ [])
    (hc : ∀ t ∈ ts, ∀ c ∈ t, c ≠ ',') (hx : ts.map stod = xs.map some) (hs : get c "SUBSEQ".toList = some (joined ts))
    (hn : ts.length ≤ d.analyses.length) (hf : ∀ b ∈ d.analyses, b.kind.type = .combination → b.id ≠ id) :
    ∃ cs a, addCombination cfg c id d = .ok { d with analyses := d.analyses ++ [a] } ∧ a.kind = .combination cs ∧
      ∀ i x, i % 2 = 1 → (i, x) ∉ cs := by
  obtain ⟨cs, h1, h2⟩ := coefficients_places d.analyses.length ts.length ts xs 0 (le_refl _) hx (by omega)
  refine ⟨cs, ⟨.combination cs, id, labelOf cfg c id, [], [], [], none⟩, ?_, rfl, ?_⟩
  · unfold addCombination
    rw [hs]
    simp only [splitComma_joined ts hne hc, h1, Outcome.bind_ok, not_taken hf]
    rfl
  · intro i x hi hm
    obtain ⟨k, hj, hk, _⟩ := (h2 i x).mp hm
    omega

/-- C98 is false of a combination without coefficients: what is after the end of the map is used. -/
theorem C98_missing_false (cfg : Config) (c : Context) (id : Int) (d : Deck) (h : get c "SUBSEQ".toList = none) :
    addCombination cfg c id d = .ub := by
  unfold addCombination
  rw [h]

def combined (subseq : String) : List Line :=
  ["SOL 101".toList, "SUBCASE 1".toList, "LOAD = 1".toList, "SUBCASE 2".toList, "LOAD = 2".toList, "SUBCASE 3".toList, "LOAD = 3".toList,
    "SUBCOM 10".toList, "LABEL = SUM".toList, subseq.toList, "BEGIN BULK".toList]

/-- The kinds of the analyses of a file. -/
def kinds (lines : List Line) : Option (List Kind) := (readSection gnu lines).toOption.map fun d => d.analyses.map (·.kind)

/-- C98 is false of more coefficients than analyses, and of spaces after the commas. -/
theorem C98_texts_false :
    kinds (combined "SUBSEQ = 1.0,-2.0,0.5") = some [.linearStatic, .linearStatic, .linearStatic, .combination [(0, 1), (2, 1 / 2)]] ∧
    kinds (combined "SUBSEQ = 1.0,-2.0") = some [.linearStatic, .linearStatic, .linearStatic, .combination [(0, 1)]] ∧
    readSection gnu (combined "SUBSEQ = 1.0,2.0,3.0,4.0,5.0") = .ub ∧
    readSection gnu (combined "SUBSEQ = 1.0, 2.0, 3.0") = .throw := by decide +kernel

/-- The hypotheses of C98 are met. -/
example : ["1.0".toList, "-2.0".toList, "0.5".toList].map stod = [1, -2, 1 / 2].map some ∧
    joined ["1.0".toList, "-2.0".toList, "0.5".toList] = "1.0,-2.0,0.5".toList := by decide +kernel

end Case
end Vega
