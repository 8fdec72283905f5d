import Verif.Modes.CardsProps
import Verif.Aster.NonLinear
import Mathlib.Tactic.FieldSimp
import Mathlib.Tactic.Ring
import Mathlib.Tactic.Linarith
import Mathlib.Tactic.NormNum

/-!
# Nonlinear analyses (C142)
-/
namespace Vega

namespace NonLinearSpec
open Nastran NonLinear BarsSpec LoadCardsSpec

/-- The number of increments that a file gives to a number: that of the first card `NLPARM` with it. -/
def Increments (xs : List (Int × Objective)) (sid n : Int) : Prop :=
  ∃ before after, xs = before ++ (sid, .strategy n) :: after ∧ ∀ m, (sid, Objective.strategy m) ∉ before

/-- The straight line through two points, as Code_Aster takes it between them. -/
def valueAt (f : TwoPoints) (t : Dbl) : Dbl := f.y0 + (f.y1 - f.y0) * (t - f.x0) / (f.x1 - f.x0)

/-- The factor of a load set at an instant: the sum over its appearances. -/
def factor (es : List Excit) (l : Nat) (t : Dbl) : Dbl :=
  (es.map fun | .load m f => if m = l then valueAt f t else 0 | .support _ => 0).sum

/-- The instants of `DEFI_LIST_REEL`. -/
def instants (d f : Dbl) (n : Nat) : List Dbl := (List.range (n + 1)).map fun k : Nat => d + (f - d) * (k : Dbl) / n

/-- One if the load set is asked for. -/
def asked (s : Subcase) (l : Nat) : Dbl := if l ∈ s.loads then 1 else 0

/-- The loads of the subcase before: none for the first one. -/
def askedBefore (ss : List Subcase) (i : Nat) (l : Nat) : Dbl :=
  match i with
  | 0 => 0
  | i + 1 => match ss[i]? with
    | none => 0
    | some s => asked s l

end NonLinearSpec

namespace NonLinear
open Nastran BarsSpec Bars LoadCards ModeCards NonLinearSpec
open LoadCardsSpec hiding Says Usual

/-! ## Lemmas -/

theorem find_all (xs : List (Int × Objective)) (sid : Int) :
    (Map.find (allSets xs) sid).getD [] = (xs.filter fun x => x.1 = sid).map (·.2) := by
  induction xs using List.reverseRecOn with
  | nil => rfl
  | append_singleton xs x ih =>
    have hs : allSets (xs ++ [x]) = addObjective (allSets xs) x := by simp [allSets]
    rw [hs, List.filter_append, List.map_append, ← ih]
    unfold addObjective
    by_cases h : x.1 = sid
    · subst h; simp
    · rw [Map.find_set_ne _ _ h]; simp [h]

theorem find_some (xs : List (Int × Objective)) (sid : Int) :
    Map.find (allSets xs) sid = none ↔ ∀ x ∈ xs, x.1 ≠ sid := by
  induction xs using List.reverseRecOn with
  | nil => simp [allSets]
  | append_singleton xs x ih =>
    have hs : allSets (xs ++ [x]) = addObjective (allSets xs) x := by simp [allSets]
    rw [hs]
    unfold addObjective
    by_cases h : x.1 = sid
    · constructor
      · intro he
        rw [h, Map.find_set_self] at he
        cases he
      · intro hx
        exact absurd h (hx x (by simp))
    · rw [Map.find_set_ne _ _ h, ih]
      constructor
      · intro hx y hy
        rcases List.mem_append.1 hy with hy | hy
        · exact hx y hy
        · simp only [List.mem_singleton] at hy; subst hy; exact h
      · exact fun hx y hy => hx y (List.mem_append_left _ hy)

theorem increments_of {xs : List (Int × Objective)} {sid n : Int} (h : Increments xs sid n) (strict : Bool) :
    increments strict (allSets xs) sid = .ok n := by
  obtain ⟨before, after, rfl, hb⟩ := h
  unfold increments
  cases hf : Map.find (allSets (before ++ (sid, Objective.strategy n) :: after)) sid with
  | none => exact absurd rfl ((find_some _ _).1 hf (sid, .strategy n) (by simp))
  | some os =>
    have := find_all (before ++ (sid, Objective.strategy n) :: after) sid
    rw [hf] at this
    simp only [Option.getD_some] at this
    subst this
    have h0 : ((before.filter fun x => x.1 = sid).map (·.2)).filterMap Objective.count = [] := by
      rw [List.filterMap_eq_nil_iff]
      intro o ho
      obtain ⟨x, hx, rfl⟩ := List.mem_map.1 ho
      obtain ⟨hx1, hx2⟩ := List.mem_filter.1 hx
      obtain ⟨k, o⟩ := x
      simp only [decide_eq_true_eq] at hx2
      subst hx2
      cases o with
      | arcLength => rfl
      | strategy m => exact absurd hx1 (hb m)
    rw [List.filter_append, List.map_append]
    simp only [List.filterMap_append]
    rw [h0]
    simp [Objective.count]

theorem factor_append (a b : List Excit) (l : Nat) (t : Dbl) : factor (a ++ b) l t = factor a l t + factor b l t := by
  simp [factor]

theorem factor_loads {ls : List Nat} (h : ls.Nodup) (f : TwoPoints) (l : Nat) (t : Dbl) :
    factor (ls.map fun m => Excit.load m f) l t = if l ∈ ls then valueAt f t else 0 := by
  induction ls with
  | nil => rfl
  | cons m ms ih =>
    rw [List.nodup_cons] at h
    have := ih h.2
    unfold factor at this ⊢
    rw [List.map_cons, List.map_cons, List.sum_cons, this]
    by_cases hm : m = l
    · subst hm
      simp [h.1]
    · have : l ≠ m := fun e => hm e.symm
      simp [hm, this]

theorem factor_supports (ss : List Nat) (l : Nat) (t : Dbl) : factor (ss.map .support) l t = 0 := by
  induction ss with
  | nil => rfl
  | cons s ss ih =>
    unfold factor at ih ⊢
    rw [List.map_cons, List.map_cons, List.sum_cons, ih]
    simp

theorem up_at (d t : Dbl) : valueAt ⟨d, 0, d + 1, 1⟩ t = t - d := by
  unfold valueAt
  simp

theorem down_at (d t : Dbl) : valueAt ⟨d, 1, d + 1, 0⟩ t = d + 1 - t := by
  unfold valueAt
  simp
  ring

theorem listOf_ok {d : Dbl} (hd : 0 ≤ d) (hd' : d < 2 ^ 49) {n : Int} (hn : 0 < n) (hn' : n ≤ intMax) :
    listOf (StepRange.ofCountEnd d n (d + 1)) = some (d, d + 1, n) := by
  have hnq : (0 : ℚ) < n := by exact_mod_cast hn
  have hn2 : (n : ℚ) ≤ 2147483647 := by
    have : n ≤ 2147483647 := hn'
    exact_mod_cast this
  have hz : (StepRange.ofCountEnd d n (d + 1)).isZero = false := by
    unfold StepRange.isZero StepRange.ofCountEnd
    have h0 : n ≠ 0 := by omega
    have h1 : isEqual d (d + 1) = false := by
      unfold isEqual
      rw [decide_eq_false_iff_not, not_le]
      have e1 : |d - (d + 1)| = 1 := by
        have : d - (d + 1) = -1 := by ring
        rw [this]; norm_num
      have e2 : max 1 (max |d| |d + 1|) = d + 1 := by
        rw [abs_of_nonneg hd, abs_of_nonneg (by linarith), max_eq_right (show d ≤ d + 1 by linarith),
          max_eq_right (show 1 ≤ d + 1 by linarith)]
      rw [e1, e2]
      unfold tol
      rw [div_mul_eq_mul_div, div_lt_one (by norm_num)]
      linarith
    have h2 : isEqual (1 / (n : ℚ)) 0 = false := by
      unfold isEqual
      rw [decide_eq_false_iff_not, not_le]
      have hp : (0 : ℚ) < 1 / n := by positivity
      have hle : 1 / (n : ℚ) ≤ 1 := by
        rw [div_le_one hnq]
        exact_mod_cast hn
      have e2 : max 1 (max |1 / (n : ℚ)| |0|) = 1 := by
        rw [abs_of_pos hp, abs_zero, max_eq_left hp.le, max_eq_left hle]
      rw [e2, sub_zero, abs_of_pos hp, mul_one]
      unfold tol
      rw [div_lt_div_iff₀ (by norm_num) hnq]
      linarith
    have e : (d + 1 - d) / (n : ℚ) = 1 / n := by ring
    simp only [h1, h0, if_false, e, h2]
    simp
  have hu : isEqual (d + 1) unavailable = false := by
    unfold isEqual
    rw [decide_eq_false_iff_not, not_le]
    have hM := four_le_dblMax
    have e1 : |d + 1 - unavailable| = d + 1 + dblMax := by
      unfold unavailable
      rw [sub_neg_eq_add, abs_of_nonneg (by linarith)]
    have e2 : |unavailable| = dblMax := by
      unfold unavailable
      rw [abs_neg, abs_of_nonneg (by linarith)]
    have e3 : |d + 1| = d + 1 := abs_of_nonneg (by linarith)
    rw [e1, e2, e3]
    have e4 : max 1 (max (d + 1) dblMax) ≤ d + 1 + dblMax :=
      max_le (by linarith) (max_le (by linarith) (by linarith))
    calc tol * max 1 (max (d + 1) dblMax) ≤ tol * (d + 1 + dblMax) :=
          mul_le_mul_of_nonneg_left e4 tol_pos.le
      _ < 1 * (d + 1 + dblMax) := mul_lt_mul_of_pos_right tol_lt_one (by linarith)
      _ = d + 1 + dblMax := one_mul _
  unfold listOf
  rw [hz]
  have : (StepRange.ofCountEnd d n (d + 1)).end_ = d + 1 := rfl
  rw [this, hu]
  rfl

/-- The loads of the analysis before. -/
def prevAsked (prev : Option (Nat × Subcase)) (l : Nat) : Dbl :=
  match prev with
  | none => 0
  | some p => asked p.2 l

theorem path_aux (xs : List (Int × Objective)) (strict : Bool) :
    ∀ (ss : List Subcase) (k : Nat) (prev : Option (Nat × Subcase)), (prev = none → k = 0) →
      (∀ p, prev = some p → p.2.loads.Nodup) → k + ss.length < 2 ^ 49 →
      (∀ s ∈ ss, s.loads.Nodup ∧ ∃ sid n, s.strategy = some sid ∧ Increments xs sid n ∧ 0 < n ∧ n ≤ intMax) →
      ∃ ws : List Written, writeAll strict (allSets xs) k (chain (k + 1) prev ss) = .ok (ws.map some) ∧ ws.length = ss.length ∧
        ∀ i s w, ss[i]? = some s → ws[i]? = some w → w.id = k + i + 1 ∧
          w.initial = (match i with | 0 => prev.map (·.1) | _ + 1 => some (k + i)) ∧
          (∃ sid n, s.strategy = some sid ∧ Increments xs sid n ∧
            w.list = some (((k + i : Nat) : Dbl), ((k + i : Nat) : Dbl) + 1, n)) ∧
          ∀ l t, factor w.excit l t = (t - ((k + i : Nat) : Dbl)) * asked s l +
            (((k + i : Nat) : Dbl) + 1 - t) * (match i with | 0 => prevAsked prev l | j + 1 => askedBefore ss (j + 1) l)
  | [], k, prev, _, _, _, _ => ⟨[], rfl, rfl, by intro i s w h; simp at h⟩
  | s :: ss, k, prev, hk, hp, hlen, h => by
    obtain ⟨hnd, sid, n, hs, hinc, hn, hn'⟩ := h s (by simp)
    obtain ⟨ws, hw, hl, hi⟩ := path_aux xs strict ss (k + 1) (some (k + 1, s)) (by simp)
      (by intro p e; cases e; exact hnd) (by simp at hlen; omega) (fun s' h' => h s' (by simp [h']))
    have hd : (if prev = none then (0 : Dbl) else (k : Dbl)) = k := by
      by_cases e : prev = none
      · rw [if_pos e, hk e]; rfl
      · rw [if_neg e]
    have hlist : listOf (StepRange.ofCountEnd (k : Dbl) n (k + 1)) = some ((k : Dbl), (k : Dbl) + 1, n) := by
      refine listOf_ok (Nat.cast_nonneg k) ?_ hn hn'
      have : k < 2 ^ 49 := by omega
      exact_mod_cast this
    refine ⟨⟨k + 1, some ((k : Dbl), (k : Dbl) + 1, n),
      fading prev (k : Dbl) ((k : Dbl) + 1) ++
      (s.loads.map fun l => Excit.load l ⟨(k : Dbl), 0, (k : Dbl) + 1, 1⟩) ++ s.supports.map .support,
      prev.map (·.1)⟩ :: ws, ?_, by simp [hl], ?_⟩
    · rw [chain, writeAll, write]
      simp only [hs, increments_of hinc, Outcome.bind_ok, hd, hlist]
      have e : (k : Dbl) + 1 = ((k + 1 : Nat) : Dbl) := by push_cast; rfl
      rw [e] at *
      rw [hw]
      rfl
    · intro i s' w h1 h2
      cases i with
      | zero =>
        simp only [List.getElem?_cons_zero, Option.some.injEq] at h1 h2
        subst h1 h2
        refine ⟨rfl, rfl, ⟨sid, n, hs, hinc, rfl⟩, fun l t => ?_⟩
        simp only [factor_append, factor_supports, factor_loads hnd, up_at, add_zero]
        have hprev : factor (fading prev (k : Dbl) ((k : Dbl) + 1)) l t =
            ((k : Dbl) + 1 - t) * prevAsked prev l := by
          cases prev with
          | none => simp [prevAsked, factor, fading]
          | some p =>
            simp only [fading, factor_loads (hp p rfl), down_at, prevAsked, asked]
            split <;> simp
        rw [hprev]
        unfold asked
        split <;> simp <;> ring
      | succ j =>
        rw [List.getElem?_cons_succ] at h1 h2
        obtain ⟨a1, a2, a3, a4⟩ := hi j s' w h1 h2
        have e : k + 1 + j = k + (j + 1) := by omega
        rw [e] at a1 a2 a3 a4
        refine ⟨a1, ?_, a3, fun l t => ?_⟩
        · rw [a2]
          cases j with
          | zero => rfl
          | succ j => rfl
        · rw [a4]
          cases j with
          | zero => simp [prevAsked, askedBefore]
          | succ j => simp [askedBefore]

theorem Increments.unique {xs : List (Int × Objective)} {sid n m : Int} (h : Increments xs sid n) (h' : Increments xs sid m) :
    n = m := by
  have h1 := increments_of (strict := true) h
  rw [increments_of (strict := true) h'] at h1
  exact (Outcome.ok.inj h1).symm

/-! ## C142 -/

/-- **C142.** A card `NLPARM` is read iff its first field is a number and its second one a number or blank (ten); a warning tells
that it says more. -/
theorem C142_card (f : List Line) (x : Int × Objective) (w : Bool) :
    readNLPARM f = .ok (x, w) ↔
      ∃ sid n, x = (sid, .strategy n) ∧ IsInt f 1 sid ∧ IntOr f 2 10 n ∧ (w = true ↔ ¬ Ends f 3) := by
  unfold readNLPARM
  rw [start_at]
  unfold parseNLPARM
  simp only [nextInt_at, bind_assoc', Outcome.bind_ok]
  have hskip : isEmptyUntilNextKeyword (skipToNextKeyword (at' f 3)) = true := rfl
  have hend : isEmptyUntilNextKeyword (at' f 3) = true ↔ Ends f 3 := isEmpty_at f 3
  constructor
  · intro h
    obtain ⟨sid, h1, h⟩ := bind_ok_iff.mp h
    obtain ⟨n, h2, h⟩ := bind_ok_iff.mp h
    refine ⟨sid, n, ?_⟩
    by_cases he : isEmptyUntilNextKeyword (at' f 3) = true
    · rw [if_pos he, Outcome.bind_ok] at h
      simp only at h
      rw [if_pos he] at h
      cases h
      exact ⟨rfl, readInt_given.mp h1, readInt_default.mp h2, by simp [hend.mp he]⟩
    · rw [if_neg he, Outcome.bind_ok] at h
      simp only at h
      rw [if_pos hskip] at h
      cases h
      exact ⟨rfl, readInt_given.mp h1, readInt_default.mp h2, by simp [mt hend.mpr he]⟩
  · rintro ⟨sid, n, rfl, h1, h2, hw⟩
    rw [readInt_given.mpr h1, Outcome.bind_ok, readInt_default.mpr h2, Outcome.bind_ok]
    by_cases he : isEmptyUntilNextKeyword (at' f 3) = true
    · rw [if_pos he, Outcome.bind_ok]
      simp only
      rw [if_pos he]
      have : w = false := by
        cases w with
        | false => rfl
        | true => exact absurd (hend.mp he) (hw.mp rfl)
      rw [this]
    · rw [if_neg he, Outcome.bind_ok]
      simp only
      rw [if_pos hskip, hw.mpr (mt hend.mpr he)]

example : readNLPARM ["NLPARM".toList, "3".toList] = .ok ((3, .strategy 10), false) ∧
    readNLPARM ["NLPARM".toList, "3".toList, "5".toList, "".toList, "AUTO".toList] = .ok ((3, .strategy 5), true) ∧
    readNLPCI ["NLPCI".toList, "3".toList, "CRIS".toList] = .ok ((3, .arcLength), true) := by decide +kernel

/-- **C142, partial.** Nonlinear subcases follow each other: the `i`-th one runs over the instants from `i` to `i + 1`, with the
number of increments of the first card that it names, from the result of the one before. The factor of each load set goes from
what the subcase before asked for to what this one asks for, in a straight line. Missing: subcases of other types, numbers of
increments that are not positive, imposed displacements of supports (see below), materials and contacts. -/
theorem C142_path_partial (xs : List (Int × Objective)) (strict : Bool) (ss : List Subcase) (hlen : ss.length < 2 ^ 49)
    (h : ∀ s ∈ ss, s.loads.Nodup ∧ ∃ sid n, s.strategy = some sid ∧ Increments xs sid n ∧ 0 < n ∧ n ≤ intMax) :
    ∃ ws : List Written, writeAll strict (allSets xs) 0 (chain 1 none ss) = .ok (ws.map some) ∧ ws.length = ss.length ∧
      ∀ (i : Nat) s w, ss[i]? = some s → ws[i]? = some w → w.id = i + 1 ∧
        w.initial = (if i = 0 then none else some i) ∧
        (∃ sid n, s.strategy = some sid ∧ Increments xs sid n ∧ w.list = some ((i : Dbl), (i : Dbl) + 1, n)) ∧
        ∀ l t, factor w.excit l t = (t - i) * asked s l + (i + 1 - t) * askedBefore ss i l := by
  obtain ⟨ws, h1, h2, h3⟩ := path_aux xs strict ss 0 none (fun _ => rfl) (by intro p e; cases e) (by omega) h
  refine ⟨ws, by simpa using h1, h2, fun i s w hs hw => ?_⟩
  obtain ⟨a1, a2, a3, a4⟩ := h3 i s w hs hw
  rw [Nat.zero_add] at a1 a2 a3 a4
  refine ⟨a1, ?_, a3, fun l t => ?_⟩
  · rw [a2]
    cases i <;> rfl
  · rw [a4]
    cases i <;> rfl

/-- Two subcases, the second one with more increments. -/
def sampleCards : List (Int × Objective) := [(3, .strategy 5), (4, .arcLength), (4, .strategy 20), (3, .strategy 7)]

def sampleCases : List Subcase := [⟨some 3, [1, 2], [9]⟩, ⟨some 4, [2, 5], [9]⟩]

example : sampleCases.length < 2 ^ 49 ∧ ∀ s ∈ sampleCases, s.loads.Nodup ∧
    ∃ sid n, s.strategy = some sid ∧ Increments sampleCards sid n ∧ 0 < n ∧ n ≤ intMax := by
  refine ⟨by decide, fun s hs => ?_⟩
  simp only [sampleCases, List.mem_cons, List.not_mem_nil, or_false] at hs
  rcases hs with rfl | rfl
  · exact ⟨by decide, 3, 5, rfl, ⟨[], _, rfl, by simp⟩, by decide, by decide⟩
  · exact ⟨by decide, 4, 20, rfl, ⟨[(3, .strategy 5), (4, .arcLength)], _, rfl, by simp⟩, by decide, by decide⟩

/-- **C142, partial.** At its end a subcase has just the loads that it asks for, and at its beginning those of the one before; a load
that both ask for is constant. -/
theorem C142_ends_partial (xs : List (Int × Objective)) (strict : Bool) (ss : List Subcase) (hlen : ss.length < 2 ^ 49)
    (h : ∀ s ∈ ss, s.loads.Nodup ∧ ∃ sid n, s.strategy = some sid ∧ Increments xs sid n ∧ 0 < n ∧ n ≤ intMax)
    (ws : List Written) (hw : writeAll strict (allSets xs) 0 (chain 1 none ss) = .ok (ws.map some))
    (i : Nat) (s : Subcase) (w : Written) (hs : ss[i]? = some s) (hwi : ws[i]? = some w) (l : Nat) :
    factor w.excit l (i + 1) = asked s l ∧ factor w.excit l i = askedBefore ss i l ∧
      (asked s l = 1 → askedBefore ss i l = 1 → ∀ t, factor w.excit l t = 1) := by
  obtain ⟨ws', h1, h2, h3⟩ := C142_path_partial xs strict ss hlen h
  rw [hw] at h1
  have e : ws = ws' := List.map_injective_iff.2 (Option.some_injective _) (Outcome.ok.inj h1)
  subst e
  have := (h3 i s w hs hwi).2.2.2 l
  refine ⟨by rw [this]; ring, by rw [this]; ring, fun ha hb t => ?_⟩
  rw [this, ha, hb]
  ring

/-- **C142, partial.** At the `j`-th of the `n` increments that the card asks for, the loads are `j / n` of the way to what the subcase
asks for. -/
theorem C142_increments_partial (xs : List (Int × Objective)) (strict : Bool) (ss : List Subcase) (hlen : ss.length < 2 ^ 49)
    (h : ∀ s ∈ ss, s.loads.Nodup ∧ ∃ sid n, s.strategy = some sid ∧ Increments xs sid n ∧ 0 < n ∧ n ≤ intMax)
    (ws : List Written) (hw : writeAll strict (allSets xs) 0 (chain 1 none ss) = .ok (ws.map some))
    (i : Nat) (s : Subcase) (w : Written) (hs : ss[i]? = some s) (hwi : ws[i]? = some w) :
    ∃ sid n d f, s.strategy = some sid ∧ Increments xs sid n ∧ w.list = some (d, f, n) ∧
      (instants d f n.toNat).length = n.toNat + 1 ∧
      ∀ (j : Nat) t l, (instants d f n.toNat)[j]? = some t →
        factor w.excit l t = askedBefore ss i l + (j : Dbl) / n * (asked s l - askedBefore ss i l) := by
  obtain ⟨ws', h1, h2, h3⟩ := C142_path_partial xs strict ss hlen h
  rw [hw] at h1
  have e : ws = ws' := List.map_injective_iff.2 (Option.some_injective _) (Outcome.ok.inj h1)
  subst e
  obtain ⟨-, -, ⟨sid, n, hsid, hn, hl⟩, hf⟩ := h3 i s w hs hwi
  refine ⟨sid, n, _, _, hsid, hn, hl, by simp [instants], fun j t l ht => ?_⟩
  rw [hf]
  have hlt : j < n.toNat + 1 := by
    have := (List.getElem?_eq_some_iff.mp ht).1
    simpa [instants] using this
  have hnn : ((n.toNat : Nat) : Dbl) = (n : Dbl) := by
    have h0 : 0 ≤ n := by
      obtain ⟨-, sid', n', e1, e2, e3, -⟩ := h s (List.mem_of_getElem? hs)
      rw [hsid] at e1
      cases e1
      rw [Increments.unique hn e2]
      omega
    have : ((n.toNat : Int) : Dbl) = (n : Dbl) := by rw [Int.toNat_of_nonneg h0]
    exact_mod_cast this
  have : t = i + (j : Dbl) / n := by
    unfold instants at ht
    rw [List.getElem?_map, List.getElem?_range hlt] at ht
    simp only [Option.map_some, Option.some.injEq] at ht
    rw [← ht, hnn]
    ring
  rw [this]
  ring

/-- **C142, false in full.** A number of increments that is zero is accepted; the list of instants is not written and its name is
empty where it is used. -/
theorem C142_zero_false (strict : Bool) (xs : List (Int × Objective)) (a : Analysis) (sid : Int) (debut : Dbl)
    (ha : a.case.strategy = some sid) (h : Increments xs sid 0) :
    ∃ w d, write strict (allSets xs) a debut = .ok (some w, d) ∧ w.list = none := by
  have hz : ∀ d e : Dbl, listOf (StepRange.ofCountEnd d 0 e) = none := by
    intro d e
    unfold listOf StepRange.isZero StepRange.ofCountEnd
    simp
  refine ⟨_, _, by unfold write; simp only [ha, increments_of h, Outcome.bind_ok]; rfl, hz _ _⟩

example : readNLPARM ["NLPARM".toList, "3".toList, "0".toList] = .ok ((3, .strategy 0), false) := by decide +kernel

/-- **C142, false in full.** A set with nothing but an arc length method is used as if it had a strategy, in strict mode too; a number that no
card has is used without strict mode. -/
theorem C142_strategy_false (strict : Bool) (a : Analysis) (sid : Int) (debut : Dbl) (ha : a.case.strategy = some sid) :
    write strict (allSets [(sid, .arcLength)]) a debut = .ub ∧ write false (allSets []) a debut = .ub := by
  have h1 : increments strict (allSets [(sid, .arcLength)]) sid = .ub := by
    unfold increments allSets
    simp [addObjective, Objective.count, List.filterMap]
  have h2 : increments false (allSets []) sid = .ub := rfl
  unfold write
  simp only [ha, h1, h2]
  exact ⟨rfl, rfl⟩

/-- C142: in strict mode a number of a strategy that no card has is an error. -/
theorem C142_missing (a : Analysis) (sid : Int) (debut : Dbl) (ha : a.case.strategy = some sid) (sets : Sets)
    (h : Map.find sets sid = none) : write true sets a debut = .throw := by
  have h1 : increments true sets sid = .throw := by
    unfold increments
    rw [h]
    rfl
  unfold write
  simp only [ha, h1]
  rfl

example : Map.find (allSets [(1, .strategy 4)]) 2 = none := by decide

/-- **C142, false in full.** A nonlinear subcase after one of another type starts from the result of the latter, which is not one of a nonlinear
analysis, and its loads are taken away from it. -/
theorem C142_mixed_false (strict : Bool) (xs : List (Int × Objective)) (l l' : List Nat) (p p' : List Nat) (sid n : Int)
    (h : Increments xs sid n) :
    ∃ w, writeAll strict (allSets xs) 0 (chain 1 none [⟨none, l, p⟩, ⟨some sid, l', p'⟩]) = .ok [none, some w] ∧
      w.initial = some 1 ∧ ∀ m ∈ l, Excit.load m ⟨0, 1, 0 + 1, 0⟩ ∈ w.excit := by
  refine ⟨_, by
    simp only [chain, writeAll, write, increments_of h, Outcome.bind_ok]
    rfl, rfl, fun m hm => ?_⟩
  simp [hm, fading]

/-- **C142, false in full.** The displacements that supports impose have no function: they are all there at the first
instant, when the loads are at the fraction of one increment. -/
theorem C142_imposed_false (strict : Bool) (xs : List (Int × Objective)) (a : Analysis) (sid n : Int) (debut : Dbl)
    (ha : a.case.strategy = some sid) (h : Increments xs sid n) :
    ∃ w d, write strict (allSets xs) a debut = .ok (some w, d) ∧ ∀ s ∈ a.case.supports, Excit.support s ∈ w.excit := by
  refine ⟨_, _, by unfold write; simp only [ha, increments_of h, Outcome.bind_ok]; rfl, fun s hs => ?_⟩
  simp [hs]

example : Increments [(1, .strategy 4)] 1 4 := ⟨[], [], rfl, by simp⟩

end NonLinear
end Vega
