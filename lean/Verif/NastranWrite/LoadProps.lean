import Verif.NastranWrite.SpcProps
import Verif.NastranWrite.Loads

/-! # C85: nodal forces, moments and gravity written to Nastran and read from Nastran -/
namespace Vega

/-! ## Specification -/
namespace LoadSpec
open NastranWrite WriteSpec

/-- Two vectors agree up to the precision of a field of eight columns. -/
def NearVec (v w : V3) : Prop := Near v.x w.x ∧ Near v.y w.y ∧ Near v.z w.z

/-- The components fit in a `double`. -/
def Finite (v : V3) : Prop := |v.x| ≤ dblMax ∧ |v.y| ≤ dblMax ∧ |v.z| ≤ dblMax

/-- The vector times a factor. -/
def times (k : ℚ) (v : V3) : V3 := ⟨v.x * k, v.y * k, v.z * k⟩

end LoadSpec

namespace NastranWrite
open Nastran FieldSpec FixedSpec WriteSpec RigidSpec SpcCardSpec LoadSpec
open CellSpec (Number)

/-! ## Helper lemmas -/

theorem force_name : Name false "FORCE".toList := ⟨by decide, by decide, by decide⟩
theorem moment_name : Name false "MOMENT".toList := ⟨by decide, by decide, by decide⟩
theorem grav_name : Name false "GRAV".toList := ⟨by decide, by decide, by decide⟩

theorem near_one {y : ℚ} (h : Near 1 y) : y = 1 := by
  unfold Near at h
  rw [if_neg (by decide +kernel)] at h
  exact h.2 ⟨1, 0, by norm_num, by decide +kernel⟩

theorem number_zero : Number 0 := by decide

/-- What the reader makes of the first seven fields of FORCE or MOMENT. -/
theorem force_fields {set node cs : Int} {s x y z : ℚ} {ts : List Text}
    (hs : List.Forall₂ Says [.int set, .int node, .int cs, .real s, .real x, .real y, .real z] ts)
    (h1 : Number set) (h2 : Number node) (h3 : Number cs) (pre : List Nastran.Line) (d : Option ℚ) (d0 : Option Int) :
    ∃ t0 t1 t2 t3 t4 t5 t6 s' x' y' z', ts = [t0, t1, t2, t3, t4, t5, t6] ∧ Near s s' ∧ Near x x' ∧ Near y y' ∧
      Near z z' ∧
      (∀ pre rest, nextInt none (after pre (t0 :: rest)) = .ok (set, after (pre ++ [t0]) rest)) ∧
      (∀ pre rest, nextInt none (after pre (t1 :: rest)) = .ok (node, after (pre ++ [t1]) rest)) ∧
      (∀ pre rest, nextInt d0 (after pre (t2 :: rest)) = .ok (cs, after (pre ++ [t2]) rest)) ∧
      nextDouble d (after (pre ++ [t0] ++ [t1] ++ [t2]) [t3, t4, t5, t6]) =
        .ok (s', after (pre ++ [t0] ++ [t1] ++ [t2] ++ [t3]) [t4, t5, t6]) ∧
      nextDouble d (after (pre ++ [t0] ++ [t1] ++ [t2] ++ [t3]) [t4, t5, t6]) =
        .ok (x', after (pre ++ [t0] ++ [t1] ++ [t2] ++ [t3] ++ [t4]) [t5, t6]) ∧
      nextDouble d (after (pre ++ [t0] ++ [t1] ++ [t2] ++ [t3] ++ [t4]) [t5, t6]) =
        .ok (y', after (pre ++ [t0] ++ [t1] ++ [t2] ++ [t3] ++ [t4] ++ [t5]) [t6]) ∧
      nextDouble d (after (pre ++ [t0] ++ [t1] ++ [t2] ++ [t3] ++ [t4] ++ [t5]) [t6]) =
        .ok (z', after (pre ++ [t0] ++ [t1] ++ [t2] ++ [t3] ++ [t4] ++ [t5] ++ [t6]) []) := by
  obtain _ | ⟨k0, hs⟩ := hs
  obtain _ | ⟨k1, hs⟩ := hs
  obtain _ | ⟨k2, hs⟩ := hs
  obtain _ | ⟨k3, hs⟩ := hs
  obtain _ | ⟨k4, hs⟩ := hs
  obtain _ | ⟨k5, hs⟩ := hs
  obtain _ | ⟨k6, hs⟩ := hs
  cases hs
  rename_i t0 t1 t2 t3 t4 t5 t6
  obtain ⟨s', hs1, hs2⟩ := k3.2.2 (pre ++ [t0] ++ [t1] ++ [t2]) [t4, t5, t6] d
  obtain ⟨x', hx1, hx2⟩ := k4.2.2 (pre ++ [t0] ++ [t1] ++ [t2] ++ [t3]) [t5, t6] d
  obtain ⟨y', hy1, hy2⟩ := k5.2.2 (pre ++ [t0] ++ [t1] ++ [t2] ++ [t3] ++ [t4]) [t6] d
  obtain ⟨z', hz1, hz2⟩ := k6.2.2 (pre ++ [t0] ++ [t1] ++ [t2] ++ [t3] ++ [t4] ++ [t5]) [] d
  exact ⟨t0, t1, t2, t3, t4, t5, t6, s', x', y', z', rfl, hs1, hx1, hy1, hz1,
    fun pre rest => says_int_read k0 h1 none pre rest, fun pre rest => says_int_read k1 h2 none pre rest,
    fun pre rest => says_int_read k2 h3 d0 pre rest, hs2, hx2, hy2, hz2⟩

theorem force_fits {set node cs : Int} {s : ℚ} {v : V3} (h1 : Number set) (h2 : Number node) (h3 : Number cs)
    (hs : |s| ≤ dblMax) (hv : Finite v) :
    ∀ a ∈ [Arg.int set, .int node, .int cs, .real s, .real v.x, .real v.y, .real v.z], Fits a := by
  intro a ha
  simp only [List.mem_cons, List.not_mem_nil, or_false] at ha
  rcases ha with rfl | rfl | rfl | rfl | rfl | rfl | rfl
  · exact h1
  · exact h2
  · exact h3
  · exact hs
  · exact hv.1
  · exact hv.2.1
  · exact hv.2.2

/-! ## C85: forces, moments and gravity -/

/-- **C85 (partial).** A card FORCE is read as a force on its node in its coordinate system, the direction times the
factor, without moment. -/
theorem C85_force_read_partial (counter : Nat) (set node cs : Int) (s : ℚ) (v : V3) (rest : List Nastran.Line)
    (h1 : Number set) (h2 : Number node) (h3 : Number cs) (hs : |s| ≤ dblMax) (hv : Finite v)
    (hc : counter + 1 < 10 ^ 7) (hnew : NewCard rest) :
    ∃ lines counter' texts s' v',
      writeCard counter "FORCE".toList [.int set, .int node, .int cs, .real s, .real v.x, .real v.y, .real v.z] =
        some (lines, counter') ∧
      nextLine (lines ++ rest) = .ok (some (texts, afterComments rest)) ∧
      readBulk parseFORCE texts = .ok ⟨set, node, cs, times s' v', ⟨0, 0, 0⟩⟩ ∧ Near s s' ∧ NearVec v v' := by
  obtain ⟨lines, counter', texts, g1, g2, -, -, g5⟩ := C78_card_partial counter "FORCE".toList _ rest force_name
    (force_fits h1 h2 h3 hs hv) (by simp only [List.length_cons, List.length_nil]; omega) hnew
  obtain ⟨t0, t1, t2, t3, t4, t5, t6, s', x', y', z', rfl, e1, e2, e3, e4, r0, r1, r2, r3, r4, r5, r6⟩ :=
    force_fields g2 h1 h2 h3 ["FORCE".toList] (some 0) (some 0)
  refine ⟨lines, counter', _, s', ⟨x', y', z'⟩, g1, g5, ?_, e1, e2, e3, e4⟩
  unfold readBulk
  rw [keyword_read (by decide) (by decide)]
  simp only [Outcome.bind_ok, parseFORCE, r0, r1, r2, r3, r4, r5, r6, isEmpty_end, if_true, times]

/-- **C85 (partial).** A nodal force without moment is written on one card FORCE for each of its nodes; each is read back
with the number of the set, the number of the node, in the global system, and as this force, without moment. -/
theorem C85_force_partial (strict : Bool) (nodeIds : List Int) (set : Ids) (p : Nat) (n : Int) (force moment : V3)
    (counter : Nat) (rest : List Nastran.Line) (hset : Number set.bestId) (hids : AllNumbers nodeIds)
    (hn : nodeIds[p]? = some n) (hv : Finite force) (hm : moment.iszero = true)
    (hc : counter + 1 < 10 ^ 7) (hnew : NewCard rest) :
    ∃ args lines counter' texts v', forceArgs strict nodeIds set force moment p = .ok args ∧
      writeCard counter "FORCE".toList args = some (lines, counter') ∧
      nextLine (lines ++ rest) = .ok (some (texts, afterComments rest)) ∧
      readBulk parseFORCE texts = .ok ⟨set.bestId, n, 0, v', ⟨0, 0, 0⟩⟩ ∧ NearVec force v' := by
  obtain ⟨lines, counter', texts, s', v', g1, g2, g3, g4, g5⟩ := C85_force_read_partial counter set.bestId n 0 1 force
    rest hset (hids _ (List.mem_of_getElem? hn)) number_zero (by decide +kernel) hv hc hnew
  rw [near_one g4] at g3
  refine ⟨_, lines, counter', texts, v', ?_, g1, g2, ?_, g5⟩
  · simp only [forceArgs, idAt, hn, Outcome.bind_ok, hm, Bool.not_true, Bool.false_and, Bool.false_eq_true, if_false]
  · rw [g3]; simp [times]

example : (⟨0, 0, 1 / 10 ^ 20⟩ : V3).iszero = true ∧ Finite ⟨1000, -1 / 3, 0⟩ ∧ Number 12 :=
  ⟨by norm_num [V3.iszero, isZero, tol], ⟨by decide +kernel, by decide +kernel, by decide +kernel⟩, by decide⟩

/-- **C85 is false for moments.** A nodal force with a moment stops the translation in strict mode; otherwise the card is
the one of the same force without moment, and there is no card for the moment. -/
theorem C85_moment_false (nodeIds : List Int) (set : Ids) (p : Nat) (n : Int) (force moment : V3)
    (hn : nodeIds[p]? = some n) (hm : moment.iszero = false) :
    forceArgs true nodeIds set force moment p = .throw ∧
      forceArgs false nodeIds set force moment p = forceArgs false nodeIds set force ⟨0, 0, 0⟩ p := by
  constructor
  · simp only [forceArgs, idAt, hn, Outcome.bind_ok, hm, Bool.not_false, Bool.true_and, if_true]
  · simp only [forceArgs, Bool.and_false]

/-- A pure torque of 100 is written as no load at all. -/
example : forceArgs false [7] ⟨1, some 3⟩ ⟨0, 0, 0⟩ ⟨0, 0, 100⟩ 0 =
    .ok [.int (⟨1, some 3⟩ : Ids).bestId, .int 7, .int 0, .real 1, .real 0, .real 0, .real 0] ∧
    (⟨0, 0, 100⟩ : V3).iszero = false := by
  refine ⟨?_, by decide +kernel⟩
  simp only [forceArgs, Bool.and_false]
  rfl

/-- **C85 (partial).** A card MOMENT with all its components is read as a moment on its node in its coordinate system,
the direction times the factor, without force. -/
theorem C85_moment_read_partial (counter : Nat) (set node cs : Int) (s : ℚ) (v : V3) (rest : List Nastran.Line)
    (h1 : Number set) (h2 : Number node) (h3 : Number cs) (hs : |s| ≤ dblMax) (hv : Finite v)
    (hc : counter + 1 < 10 ^ 7) (hnew : NewCard rest) :
    ∃ lines counter' texts s' v',
      writeCard counter "MOMENT".toList [.int set, .int node, .int cs, .real s, .real v.x, .real v.y, .real v.z] =
        some (lines, counter') ∧
      nextLine (lines ++ rest) = .ok (some (texts, afterComments rest)) ∧
      readBulk parseMOMENT texts = .ok ⟨set, node, cs, ⟨0, 0, 0⟩, times s' v'⟩ ∧ Near s s' ∧ NearVec v v' := by
  obtain ⟨lines, counter', texts, g1, g2, -, -, g5⟩ := C78_card_partial counter "MOMENT".toList _ rest moment_name
    (force_fits h1 h2 h3 hs hv) (by simp only [List.length_cons, List.length_nil]; omega) hnew
  obtain ⟨t0, t1, t2, t3, t4, t5, t6, s', x', y', z', rfl, e1, e2, e3, e4, r0, r1, r2, r3, r4, r5, r6⟩ :=
    force_fields g2 h1 h2 h3 ["MOMENT".toList] (some unavailable) (some 0)
  refine ⟨lines, counter', _, s', ⟨x', y', z'⟩, g1, g5, ?_, e1, e2, e3, e4⟩
  unfold readBulk
  rw [keyword_read (by decide) (by decide)]
  simp only [Outcome.bind_ok, parseMOMENT, r0, r1, r2, r3, r4, r5, r6, isEmpty_end, if_true, times]

/-- **C85 is false for blank components of a moment.** A blank component counts as zero, and so it does when it stands
on a card FORCE; on a card MOMENT the reader takes the marker of a missing number (minus the largest `double`) times
the factor. -/
theorem C85_moment_blank_false (set node cs : Int) (h1 : Number set) (h2 : Number node) (h3 : Number cs) {s z : ℚ}
    {t u : Text} (hs : Says (.real s) t) (hz : Says (.real z) u) :
    (∃ s' z', Near s s' ∧ Near z z' ∧ readBulk parseFORCE
      ["FORCE".toList, decimal set, decimal node, decimal cs, t, [], [], u] =
        .ok ⟨set, node, cs, times s' ⟨0, 0, z'⟩, ⟨0, 0, 0⟩⟩) ∧
    (∃ s' z', Near s s' ∧ Near z z' ∧ readBulk parseMOMENT
      ["MOMENT".toList, decimal set, decimal node, decimal cs, t, [], [], u] =
        .ok ⟨set, node, cs, ⟨0, 0, 0⟩, times s' ⟨unavailable, unavailable, z'⟩⟩) := by
  constructor
  · obtain ⟨s', a1, a2⟩ := hs.2.2 (["FORCE".toList] ++ [decimal set] ++ [decimal node] ++ [decimal cs]) [[], [], u] (some 0)
    obtain ⟨z', b1, b2⟩ := hz.2.2 (["FORCE".toList] ++ [decimal set] ++ [decimal node] ++ [decimal cs] ++ [t] ++ [[]] ++ [[]])
      [] (some 0)
    refine ⟨s', z', a1, b1, ?_⟩
    unfold readBulk
    rw [keyword_read (by decide) (by decide)]
    simp only [Outcome.bind_ok, parseFORCE, nextInt_decimal h1, nextInt_decimal h2, nextInt_decimal h3, a2, b2,
      nextDouble_blank, isEmpty_end, if_true, times]
  · obtain ⟨s', a1, a2⟩ := hs.2.2 (["MOMENT".toList] ++ [decimal set] ++ [decimal node] ++ [decimal cs]) [[], [], u]
      (some unavailable)
    obtain ⟨z', b1, b2⟩ := hz.2.2 (["MOMENT".toList] ++ [decimal set] ++ [decimal node] ++ [decimal cs] ++ [t] ++ [[]] ++ [[]])
      [] (some unavailable)
    refine ⟨s', z', a1, b1, ?_⟩
    unfold readBulk
    rw [keyword_read (by decide) (by decide)]
    simp only [Outcome.bind_ok, parseMOMENT, nextInt_decimal h1, nextInt_decimal h2, nextInt_decimal h3, a2, b2,
      nextDouble_blank, isEmpty_end, if_true, times]

/-- With the factor one, the first component is minus the largest `double` instead of zero. -/
example : (times 1 ⟨unavailable, unavailable, 5⟩).x = -dblMax ∧ (0 : ℚ) < dblMax :=
  ⟨by simp [times, unavailable], by decide +kernel⟩

/-- **C85 (partial).** A gravity is written on a card GRAV that is read back with the number of the set, this
acceleration and this direction. -/
theorem C85_gravity_partial (counter : Nat) (set : Ids) (a : ℚ) (v : V3) (rest : List Nastran.Line)
    (hset : Number set.bestId) (ha : |a| ≤ dblMax) (hv : Finite v) (hc : counter + 1 < 10 ^ 7) (hnew : NewCard rest) :
    ∃ lines counter' texts a' v', writeCard counter "GRAV".toList (gravArgs set a v) = some (lines, counter') ∧
      nextLine (lines ++ rest) = .ok (some (texts, afterComments rest)) ∧
      readBulk parseGRAV texts = .ok ⟨set.bestId, a', v'⟩ ∧ Near a a' ∧ NearVec v v' := by
  have hfit : ∀ x ∈ gravArgs set a v, Fits x := by
    intro x hx
    simp only [gravArgs, List.mem_cons, List.not_mem_nil, or_false] at hx
    rcases hx with rfl | rfl | rfl | rfl | rfl | rfl
    · exact hset
    · exact number_zero
    · exact ha
    · exact hv.1
    · exact hv.2.1
    · exact hv.2.2
  obtain ⟨lines, counter', texts, g1, g2, -, -, g5⟩ := C78_card_partial counter "GRAV".toList _ rest grav_name hfit
    (by simp only [gravArgs, List.length_cons, List.length_nil]; omega) hnew
  unfold gravArgs at g2
  obtain _ | ⟨k0, hs⟩ := g2
  obtain _ | ⟨k2, hs⟩ := hs
  obtain _ | ⟨k3, hs⟩ := hs
  obtain _ | ⟨k4, hs⟩ := hs
  obtain _ | ⟨k5, hs⟩ := hs
  obtain _ | ⟨k6, hs⟩ := hs
  cases hs
  rename_i t0 t2 t3 t4 t5 t6
  obtain ⟨s', hs1, hs2⟩ := k3.2.2 (["GRAV".toList] ++ [t0] ++ [t2]) [t4, t5, t6] (some 0)
  obtain ⟨x', hx1, hx2⟩ := k4.2.2 (["GRAV".toList] ++ [t0] ++ [t2] ++ [t3]) [t5, t6] (some 0)
  obtain ⟨y', hy1, hy2⟩ := k5.2.2 (["GRAV".toList] ++ [t0] ++ [t2] ++ [t3] ++ [t4]) [t6] (some 0)
  obtain ⟨z', hz1, hz2⟩ := k6.2.2 (["GRAV".toList] ++ [t0] ++ [t2] ++ [t3] ++ [t4] ++ [t5]) [] (some 0)
  refine ⟨lines, counter', _, s', ⟨x', y', z'⟩, g1, g5, ?_, hs1, hx1, hy1, hz1⟩
  unfold readBulk
  rw [keyword_read (by decide) (by decide)]
  simp only [Outcome.bind_ok, parseGRAV, says_int_read k0 hset, says_int_read k2 number_zero, hs2, hx2, hy2, hz2,
    nextInt_end, isEmpty_end, if_true]

example : |(981 / 100 : ℚ)| ≤ dblMax ∧ Finite ⟨0, 0, -1⟩ :=
  ⟨by decide +kernel, by decide +kernel, by decide +kernel, by decide +kernel⟩

/-- **C85 is false for the coordinate system of a gravity.** Whatever coordinate system a card GRAV names, the gravity
is the same, so that its direction is taken in the global system. -/
theorem C85_grav_system_false (cs1 cs2 : Int) (h1 : Number cs1) (h2 : Number cs2) (t0 t1 t2 t3 t4 : Nastran.Line) :
    readBulk parseGRAV ["GRAV".toList, t0, decimal cs1, t1, t2, t3, t4] =
      readBulk parseGRAV ["GRAV".toList, t0, decimal cs2, t1, t2, t3, t4] := by
  unfold readBulk
  rw [keyword_read (by decide) (by decide), keyword_read (by decide) (by decide)]
  simp only [Outcome.bind_ok, parseGRAV, nextInt_text none]
  cases textInt none t0 with
  | ok r =>
    simp only [Outcome.bind_ok, nextInt_decimal h1, nextInt_decimal h2, nextDouble_text _ t1]
    cases textReal (some 0) t1 with
    | ok r =>
      simp only [Outcome.bind_ok, nextDouble_text _ t2]
      cases textReal (some 0) t2 with
      | ok r =>
        simp only [Outcome.bind_ok, nextDouble_text _ t3]
        cases textReal (some 0) t3 with
        | ok r =>
          simp only [Outcome.bind_ok, nextDouble_text _ t4]
          cases textReal (some 0) t4 with
          | ok r => simp only [Outcome.bind_ok, nextInt_end, isEmpty_end]
          | throw => simp only [Outcome.bind_throw]
          | ub => simp only [Outcome.bind_ub]
          | diverges => rfl
        | throw => simp only [Outcome.bind_throw]
        | ub => simp only [Outcome.bind_ub]
        | diverges => rfl
      | throw => simp only [Outcome.bind_throw]
      | ub => simp only [Outcome.bind_ub]
      | diverges => rfl
    | throw => simp only [Outcome.bind_throw]
    | ub => simp only [Outcome.bind_ub]
    | diverges => rfl
  | throw => simp only [Outcome.bind_throw]
  | ub => simp only [Outcome.bind_ub]
  | diverges => rfl

/-- The gravity along the first axis of the system 5, which may be any direction, is read as one along the global axis. -/
example : Number 5 ∧ Number 0 := ⟨by decide, by decide⟩

end NastranWrite
end Vega
