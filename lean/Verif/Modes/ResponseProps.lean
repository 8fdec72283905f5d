import Verif.Modes.Response
import Mathlib.Tactic.FieldSimp
import Mathlib.Tactic.Ring

/-! # C108: the frequencies and the damping of a response are those given -/
namespace Vega

/-! ## Specification -/
namespace ResponseSpec
open Response Table

/-- The frequencies of `FREQ1` (Nastran, as generally known): `F1 + k DF` for `k` from 0 to `NDF`. -/
def steps (f1 df : Dbl) (ndf : Nat) : List Dbl := (List.range (ndf + 1)).map fun k : Nat => f1 + k * df

/-- A card with frequencies that do not depend on the structure. -/
inductive Card where
  | freq (l : List Dbl)
  | freq1 (f1 df : Dbl) (ndf : Option Nat)

/-- The frequencies of a card; the default number of steps is 1. -/
def Card.frequencies : Card → List Dbl
  | .freq l => l
  | .freq1 f1 df ndf => steps f1 df (ndf.getD 1)

/-- The frequencies of a set: those of all its cards. -/
def ofSet (cs : List Card) : List Dbl := cs.flatMap Card.frequencies

/-- The values of a `DEFI_LIST_REEL`. -/
def values : ListReel → Option (List Dbl)
  | .vale l => some l
  | .interval a b n => if 0 < n then some ((List.range (n.toNat + 1)).map fun k : Nat => a + k * ((b - a) / n)) else none

/-- The frequencies that Systus runs through: from the initial one, without it, by steps to the last one. -/
def Swept (s : Sweep) (x : Dbl) : Prop := ∃ k : Nat, 1 ≤ k ∧ x = s.initial + k * s.step ∧ x ≤ s.last

/-- The critical damping ratio that a value of a damping table stands for. -/
def ratio : Damping → Dbl → Dbl
  | .crit, y => y
  | .g, y => y / 2
  | .q, y => 1 / (2 * y)

end ResponseSpec

namespace Response
open ResponseSpec Table

/-- How a card is read. -/
def readCard : Card → Outcome Freqs
  | .freq l => parseFREQ (l.map (Field.num false) ++ [.blank])
  | .freq1 f1 df ndf => parseFREQ1 (some f1) (some df) (ndf.map fun n : Nat => (n : Int))

/-- The cards of a set, read one after the other. -/
def readSet : List Card → Outcome (List Freqs)
  | [] => .ok []
  | c :: cs => (readCard c).bind fun f => (readSet cs).bind fun fs => .ok (f :: fs)

/-! ## Reading -/

theorem nextDoubles_map (l : List Dbl) (r : List Field) (hr : nextDoubles r = .ok []) :
    nextDoubles (l.map (Field.num false) ++ r) = .ok l := by
  induction l with
  | nil => exact hr
  | cons x l ih => simp [nextDoubles, ih, Outcome.bind]

/-- C108: all frequencies of a `FREQ` are read. -/
theorem C108_freq (l : List Dbl) : readCard (.freq l) = .ok (.list l) := by
  show (nextDoubles (l.map (Field.num false) ++ [.blank])).bind _ = _
  rw [nextDoubles_map l _ rfl]
  rfl

/-- The frequencies of a card `FREQ` are read whether they are written as reals or as integers, up to the end of the card. -/
theorem C108_freq_forms (l : List (Bool × Dbl)) :
    parseFREQ (l.map (fun p => Field.num p.1 p.2) ++ [.blank]) = .ok (.list (l.map (·.2))) := by
  have h : nextDoubles (l.map (fun p => Field.num p.1 p.2) ++ [.blank]) = .ok (l.map (·.2)) := by
    induction l with
    | nil => rfl
    | cons x l ih => simp [nextDoubles, ih, Outcome.bind]
  show (nextDoubles _).bind _ = _
  rw [h]
  rfl

example : parseFREQ [.num true 10, .num false (25 / 2), .blank] = .ok (.list [10, 25 / 2]) := rfl

/-- Reading a set never fails, and keeps the cards in order. -/
theorem readSet_ok (cs : List Card) : ∃ fs, readSet cs = .ok fs ∧ fs.length = cs.length := by
  induction cs with
  | nil => exact ⟨[], rfl, rfl⟩
  | cons c cs ih =>
    obtain ⟨fs, h1, h2⟩ := ih
    have hc : ∃ f, readCard c = .ok f := by
      cases c with
      | freq l => exact ⟨_, C108_freq l⟩
      | freq1 f1 df ndf => exact ⟨_, rfl⟩
    obtain ⟨f, hf⟩ := hc
    exact ⟨f :: fs, by simp [readSet, hf, h1, Outcome.bind], by simp [h2]⟩

/-! ## Code_Aster -/

/-- A card that is written: some frequencies, or steps that `is_equal` tells from none. -/
def Visible : Card → Prop
  | .freq l => l ≠ []
  | .freq1 f1 df ndf => 0 < ndf.getD 1 ∧ isEqual df 0 = false ∧ isEqual f1 (f1 + df * (ndf.getD 1 : Nat)) = false

theorem card_values (c : Card) (hv : Visible c) :
    ∃ f r, readCard c = .ok f ∧ asterList f = some r ∧ values r = some c.frequencies := by
  cases c with
  | freq l =>
    refine ⟨_, .vale l, C108_freq l, ?_, rfl⟩
    have : l ≠ [] := hv
    simp [asterList, this]
  | freq1 f1 df ndf =>
    obtain ⟨hn, hd, he⟩ := hv
    have hcount : (ndf.map fun n : Nat => (n : Int)).getD 1 = ((ndf.getD 1 : Nat) : Int) := by cases ndf <;> rfl
    refine ⟨.step ⟨f1, some df, ((ndf.getD 1 : Nat) : Int), f1 + df * ((ndf.getD 1 : Nat) : Int)⟩,
      .interval f1 (f1 + df * ((ndf.getD 1 : Nat) : Int)) ((ndf.getD 1 : Nat) : Int), ?_, ?_, ?_⟩
    · simp only [readCard, parseFREQ1, StepRange.ofStepCount, hcount]
    · have h0 : ((ndf.getD 1 : Nat) : Int) ≠ 0 := by omega
      have he' : isEqual f1 (f1 + df * (((ndf.getD 1 : Nat) : Int) : Dbl)) = false := by
        rw [Int.cast_natCast]; exact he
      have hz : StepRange.isZero ⟨f1, some df, ((ndf.getD 1 : Nat) : Int), f1 + df * ((ndf.getD 1 : Nat) : Int)⟩ = false := by
        simp only [StepRange.isZero, he', hd, h0, decide_false, Bool.or_false]
      simp only [asterList, hz, Bool.false_eq_true, if_false]
    · have hpos : (0 : Int) < ((ndf.getD 1 : Nat) : Int) := by omega
      simp only [values, if_pos hpos, Card.frequencies, steps, Int.toNat_natCast, Option.some.injEq]
      refine List.map_congr_left fun k _ => ?_
      have hq : ((ndf.getD 1 : Nat) : Dbl) ≠ 0 := by
        have : ndf.getD 1 ≠ 0 := by omega
        exact_mod_cast this
      rw [Int.cast_natCast]
      field_simp
      ring

/-- C108 for Code_Aster: with one card in the set, the frequencies of the response are those of the card. -/
theorem C108_aster_partial (c : Card) (hv : Visible c) :
    ∃ fs f r, readSet [c] = .ok fs ∧ excitation (some fs) = .ok f ∧ asterList f = some r ∧ values r = some (ofSet [c]) := by
  obtain ⟨f, r, h1, h2, h3⟩ := card_values c hv
  refine ⟨[f], f, r, ?_, rfl, h2, ?_⟩
  · simp [readSet, h1, Outcome.bind]
  · simp [ofSet, h3]

/-- C108 is false when a set has several cards: all but the first are dropped. -/
theorem C108_several_false (c : Card) (hv : Visible c) (cs : List Card) (x : Dbl) (hx : x ∈ ofSet cs)
    (hnot : x ∉ c.frequencies) :
    ∃ fs f r l, readSet (c :: cs) = .ok fs ∧ excitation (some fs) = .ok f ∧ asterList f = some r ∧ values r = some l ∧
      x ∈ ofSet (c :: cs) ∧ x ∉ l := by
  obtain ⟨f, r, h1, h2, h3⟩ := card_values c hv
  obtain ⟨fs, h4, -⟩ := readSet_ok cs
  refine ⟨f :: fs, f, r, _, ?_, rfl, h2, h3, ?_, hnot⟩
  · simp [readSet, h1, h4, Outcome.bind]
  · simp only [ofSet, List.flatMap_cons, List.mem_append] at hx ⊢
    exact .inr hx

/-- The cards of the file that have a number and can be read, in order. -/
def readable (n : Int) : List (Int × FreqCard) → List Freqs
  | [] => []
  | (i, c) :: cs => match c.parse with
    | .ok f => if i = n then f :: readable n cs else readable n cs
    | _ => readable n cs

theorem readSets_find (n : Int) : ∀ (cs : List (Int × FreqCard)) (m : Map Int (List Freqs)),
    ((readSets cs m).find n).getD [] = (m.find n).getD [] ++ readable n cs
  | [], m => by simp [readSets, readable]
  | (i, c) :: cs, m => by
    unfold readSets readable
    cases e : c.parse with
    | ok f =>
      simp only
      rw [readSets_find n cs]
      by_cases h : i = n
      · subst h
        simp [Map.find_set_self]
      · rw [Map.find_set_ne _ _ h]
        simp [h]
    | throw | ub | diverges =>
      simp only
      rw [readSets_find n cs]
      by_cases h : i = n
      · subst h
        simp [Map.find_set_self]
      · rw [Map.find_set_ne _ _ h]

/-- C108, which card is used outside of strict mode: for every file, the frequencies selected by a number are those of the first card with that
number that can be read, whatever cards with errors and other numbers are around it. -/
theorem C108_selected (cs : List (Int × FreqCard)) (n : Int) (f : Freqs) :
    excitation ((readSets cs []).find n) = .ok f ↔ (readable n cs).head? = some f := by
  have h := readSets_find n cs []
  rw [show Map.find ([] : Map Int (List Freqs)) n = none from rfl, Option.getD_none, List.nil_append] at h
  rw [← h]
  cases e : (readSets cs []).find n with
  | none => simp [excitation]
  | some l => cases l <;> simp [excitation]

/-- C108 is false when no card with the number can be read, because there is none or all have errors: for every such file the behaviour is
undefined, instead of a refusal of the analysis. -/
theorem C108_missing_false (cs : List (Int × FreqCard)) (n : Int) (hno : ∀ c, (n, c) ∈ cs → ∀ f, c.parse ≠ .ok f) :
    excitation ((readSets cs []).find n) = .ub := by
  have hr : readable n cs = [] := by
    induction cs with
    | nil => rfl
    | cons p cs ih =>
      obtain ⟨i, c⟩ := p
      have ih' := ih fun c hc => hno c (List.mem_cons_of_mem _ hc)
      unfold readable
      split
      · rename_i f e
        split
        · rename_i h
          subst h
          exact absurd e (hno c (by simp) f)
        · exact ih'
      · exact ih'
  have h := readSets_find n cs []
  rw [show Map.find ([] : Map Int (List Freqs)) n = none from rfl, Option.getD_none, List.nil_append, hr] at h
  cases e : (readSets cs []).find n with
  | none => rfl
  | some l =>
    rw [e, Option.getD_some] at h
    rw [h]
    rfl

example : excitation ((readSets [(7, .freq1 (some 1) (some 2) none), (5, .freq1 (some 1) none none), (5, .freq3 (some 0) (some 9) true none none),
    (5, .freq [.num false 3])] []).find 5) = .ok (.interpolate 0 9 10) ∧
    ∀ c, (5, c) ∈ [((7 : Int), FreqCard.freq1 (some 1) (some 2) none), (5, .freq1 (some 1) none none)] → ∀ f, c.parse ≠ .ok f := by
  refine ⟨(C108_selected _ _ _).mpr ?_, ?_⟩
  · have : isEqual ((none : Option Dbl).getD 1) 1 = true := by decide +kernel
    simp [readable, FreqCard.parse, parseFREQ1, parseFREQ3, this]
  · intro c hc f
    simp at hc
    subst hc
    simp [FreqCard.parse, parseFREQ1]

/-- C108 is false for steps below the tolerance of `is_equal`: no list is written. -/
theorem C108_small_false (f1 df : Dbl) (ndf : Option Nat) (h : isEqual df 0 = true) :
    ∃ f, readCard (.freq1 f1 df ndf) = .ok f ∧ asterList f = none := by
  refine ⟨_, rfl, ?_⟩
  simp [asterList, StepRange.isZero, StepRange.ofStepCount, h]

/-- C108 is false for a `FREQ4` that relies on a default value of Nastran (0, 1.+20 and 0.1): it is refused; and the number of
frequencies has another default value (1 instead of 3). -/
theorem C108_freq4_false (f1 f2 s : Option Dbl) (nef : Option Int) (h : f1 = none ∨ f2 = none ∨ s = none) :
    parseFREQ4 f1 f2 s nef = .throw := by
  rcases h with rfl | rfl | rfl
  · cases f2 <;> cases s <;> rfl
  · cases f1 <;> cases s <;> rfl
  · cases f1 <;> cases f2 <;> rfl

theorem C108_freq4_number_false (f1 f2 s : Dbl) : parseFREQ4 (some f1) (some f2) (some s) none = .ok (.spread f1 f2 1 s) := rfl

/-! ## Systus -/

/-- C108 for Systus: steps in ascending order are run through as given. -/
theorem C108_systus_partial (f1 df : Dbl) (hd : 0 < df) (ndf : Option Nat) :
    ∃ f s, readCard (.freq1 f1 df ndf) = .ok f ∧ systusSweep f = some s ∧
      ∀ x, Swept s x ↔ x ∈ (Card.freq1 f1 df ndf).frequencies := by
  have hcount : (ndf.map fun n : Nat => (n : Int)).getD 1 = ((ndf.getD 1 : Nat) : Int) := by cases ndf <;> rfl
  refine ⟨_, _, rfl, rfl, fun x => ?_⟩
  simp only [StepRange.ofStepCount, hcount, Int.cast_natCast, Swept, Card.frequencies, steps, List.mem_map, List.mem_range]
  generalize ndf.getD 1 = n
  constructor
  · rintro ⟨k, hk, hx, hle⟩
    obtain ⟨j, rfl⟩ : ∃ j, k = j + 1 := ⟨k - 1, by omega⟩
    refine ⟨j, ?_, ?_⟩
    · rw [hx] at hle
      push_cast at hle
      have : (j : Dbl) * df ≤ n * df := by linarith [mul_comm df (n : Dbl)]
      have : (j : Dbl) ≤ n := le_of_mul_le_mul_right this hd
      have : j ≤ n := by exact_mod_cast this
      omega
    · rw [hx]; push_cast; ring
  · rintro ⟨j, hj, rfl⟩
    refine ⟨j + 1, by omega, by push_cast; ring, ?_⟩
    have h1 : (j : Dbl) ≤ n := by
      have : j ≤ n := by omega
      exact_mod_cast this
    have := mul_le_mul_of_nonneg_right h1 hd.le
    linarith [mul_comm df (n : Dbl)]

/-- C108 is false for Systus with a list of frequencies, `FREQ3` or `FREQ4`: no frequency is written. -/
theorem C108_systus_list_false (l : List Dbl) (a b s : Dbl) (n : Int) :
    (∃ f, readCard (.freq l) = .ok f ∧ systusSweep f = none) ∧ systusSweep (.interpolate a b n) = none ∧
      systusSweep (.spread a b n s) = none := ⟨⟨_, C108_freq l, rfl⟩, rfl, rfl⟩

/-! ## Damping -/

/-- C108 for a damping table of type `CRIT`: Code_Aster is given the values of the table, Systus its first value. -/
theorem C108_crit_partial (strict : Bool) (x y : Dbl) (l : List (Dbl × Dbl)) (hl : ∀ p ∈ l, p.2 = y) :
    asterFactor strict .crit = .ok (some 1) ∧
      ∀ p ∈ (x, y) :: l, gamma .crit ((x, y) :: l) = .ok (some (ratio .crit p.2)) := by
  refine ⟨rfl, ?_⟩
  intro p hp
  rcases List.mem_cons.mp hp with rfl | hp
  · rfl
  · simp [gamma, ratio, hl p hp]

/-- C108 is false for the other types, whatever `GAMMA` may stand for: the same damping, given as `CRIT`, as `G` and as `Q`, is
written as three different numbers. -/
theorem C108_types_false (c : Dbl) (hc : 0 < c) (x : Dbl) :
    ratio .g (2 * c) = ratio .crit c ∧ ratio .q (1 / (2 * c)) = ratio .crit c ∧
      gamma .crit [(x, c)] = .ok (some c) ∧ gamma .g [(x, 2 * c)] = .ok (some (4 * c)) ∧
      gamma .q [(x, 1 / (2 * c))] = .ok (some (2 * c)) ∧ c ≠ 2 * c ∧ 2 * c ≠ 4 * c ∧ c ≠ 4 * c := by
  have h2 : (2 * c) ≠ 0 := by linarith
  refine ⟨by simp only [ratio]; ring, by simp only [ratio]; field_simp, rfl, ?_, ?_, by intro h; linarith, by intro h; linarith,
    by intro h; linarith⟩
  · simp only [gamma, Outcome.ok.injEq, Option.some.injEq]; ring
  · have : (1 : Dbl) / (2 * c) ≠ 0 := one_div_ne_zero h2
    simp only [gamma, if_neg this, one_div_one_div]

/-- For Code_Aster the factor of the type `G` is 2 instead of 1/2 (and the command names no function: C105_damping_false); the
type `Q` is not written. -/
theorem C108_aster_types_false (y : Dbl) (hy : y ≠ 0) : asterFactor false .g = .ok (some 2) ∧ 2 * y ≠ ratio .g y ∧
    asterFactor false .q = .ok none := by
  refine ⟨rfl, ?_, rfl⟩
  simp only [ratio]
  intro h
  apply hy
  linarith

/-- C108 is false for Systus when the damping depends on the frequency: only the first value is used. -/
theorem C108_first_false (x1 y1 x2 y2 : Dbl) (l : List (Dbl × Dbl)) (h : y1 ≠ y2) :
    gamma .crit ((x1, y1) :: (x2, y2) :: l) = .ok (some y1) ∧ y1 ≠ ratio .crit y2 := ⟨rfl, h⟩

/-- C108 is false for an empty damping table: the behaviour is undefined. -/
theorem C108_empty_false (d : Damping) : gamma d [] = .ub := rfl

/-! ## Examples -/

example : Visible (.freq1 10 5 (some 3)) ∧ (Card.freq1 10 5 (some 3)).frequencies = [10, 15, 20, 25] := by
  refine ⟨⟨by decide, by decide +kernel, by decide +kernel⟩, by decide +kernel⟩

example : ofSet [.freq [1, 2], .freq1 10 5 none] = [1, 2, 10, 15] := by decide +kernel

end Response
end Vega
