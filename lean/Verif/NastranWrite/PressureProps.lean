import Verif.NastranWrite.LoadProps
import Verif.NastranWrite.Pressures
import Mathlib.Tactic.NormNum.GCD
import Mathlib.Tactic.Positivity
import Mathlib.Tactic.Linarith

/-! # C86: pressures written to Nastran and read from Nastran -/
namespace Vega

/-! ## Specification -/
namespace PressureSpec
open NastranWrite WriteSpec LoadSpec

/-- A number, or a blank. -/
def optInt : Option Int → Arg
  | none => .blank
  | some n => .int n

/-- A real, or a blank. -/
def optReal : Option ℚ → Arg
  | none => .blank
  | some x => .real x

/-- The fields of a card PLOAD4 with all its numbers: set, cell, pressure, pressures at the other corners, two nodes of
the face, coordinate system and direction. -/
def fields4 (set cell : Int) (p : ℚ) (p2 p3 p4 : Option ℚ) (g1 g3 : Option Int) (cid : Int) (n : V3) : List Arg :=
  [.int set, .int cell, .real p, optReal p2, optReal p3, optReal p4, optInt g1, optInt g3, .int cid, .real n.x, .real n.y,
    .real n.z]

/-- A direction is given: a component differs from zero, with some margin over the tolerance of `is_equal`. -/
def GivesDirection (n : V3) : Prop := 2 * tol ≤ |n.x| ∨ 2 * tol ≤ |n.y| ∨ 2 * tol ≤ |n.z|

/-- A force of this intensity, in a given direction: on the face with these nodes, or on the cell. -/
def directed (force : V3) (g1 g3 : Option Int) : Load4 :=
  match g1 with
  | some g => .surfaceNodes force g g3
  | none => .surface force

/-- A pressure: positive pressures go into the solid through the face with these nodes, and along the normal of a
shell. -/
def normal (p : ℚ) (g1 g3 : Option Int) : Load4 :=
  match g1 with
  | some g => .faceNodes (-p) g g3
  | none => .face p

end PressureSpec

namespace NastranWrite
open Nastran FieldSpec FixedSpec WriteSpec RigidSpec SpcCardSpec LoadSpec PressureSpec
open CellSpec (Number)

/-! ## Helper lemmas -/

theorem pload_name : Name false "PLOAD".toList := ⟨by decide, by decide, by decide⟩
theorem pload2_name : Name false "PLOAD2".toList := ⟨by decide, by decide, by decide⟩
theorem pload4_name : Name false "PLOAD4".toList := ⟨by decide, by decide, by decide⟩

theorem isNextEmpty_end (pre : List Nastran.Line) : isNextEmpty 1 (after pre []) = .ok false := rfl

theorem isNextEmpty_after (pre : List Nastran.Line) (t : Nastran.Line) (rest : List Nastran.Line) :
    isNextEmpty 1 (after pre (t :: rest)) = .ok ((trim t).isEmpty) := by
  unfold isNextEmpty isNextEmptyLoop
  rw [sym_after_cons, if_neg (by simp), fieldAt_after]
  simp [isNextEmptyLoop]

theorem nextString_end (d : Nastran.Line) (pre : List Nastran.Line) :
    nextString (some d) (after pre []) = .ok (d, after pre []) := by
  unfold nextString
  rw [next_end]
  rfl

theorem says_optInt {o : Option Int} {t : Text} (hs : Says (optInt o) t) (h : ∀ n ∈ o, Number n) (d : Int)
    (pre rest : List Nastran.Line) :
    nextInt (some d) (after pre (t :: rest)) = .ok (o.getD d, after (pre ++ [t]) rest) := by
  cases o with
  | none =>
    have : t = [] := hs
    subst this
    exact nextInt_blank d pre rest
  | some n => exact says_int_read hs (h n rfl) _ pre rest

theorem says_optReal {o : Option ℚ} {t : Text} (hs : Says (optReal o) t) (d : ℚ) (pre rest : List Nastran.Line) :
    ∃ y, nextDouble (some d) (after pre (t :: rest)) = .ok (y, after (pre ++ [t]) rest) := by
  cases o with
  | none =>
    have : t = [] := hs
    subst this
    exact ⟨d, nextDouble_blank d pre rest⟩
  | some x =>
    obtain ⟨y, -, hy⟩ := says_real_read hs
    exact ⟨y, hy _ _ _⟩

theorem available_optInt {o : Option Int} (h : ∀ n ∈ o, Number n) : available (o.getD unavailableInt) = o := by
  cases o with
  | none => rfl
  | some n => simp [available, number_available (h n rfl)]

theorem one_cell {n : Int} (h : Number n) : pushRange (n - 1) n 1 = .ok [n] := by
  obtain ⟨h1, h2⟩ := h
  rw [pushRange_one (by omega) (by unfold intMax; omega) (by unfold intMin; omega)]
  have : between (n - 1 + 1) n = [n] := by
    unfold between
    rw [show n - (n - 1 + 1) + 1 = 1 by omega, show n - 1 + 1 = n by omega]
    simp
  rw [this]

/-- The nodes of the face. -/
theorem pload4Face_read {g1 g3 : Option Int} {t u : Text} (ht : Says (optInt g1) t) (hu : Says (optInt g3) u)
    (h1 : ∀ n ∈ g1, Number n) (h3 : ∀ n ∈ g3, Number n) (eid : Int) (pre rest : List Nastran.Line) :
    pload4Face eid (after pre (t :: u :: rest)) =
      .ok ((g1.getD unavailableInt, g3.getD unavailableInt, eid), after (pre ++ [t] ++ [u]) rest) := by
  unfold pload4Face
  cases g1 with
  | none =>
    have : t = [] := ht
    subst this
    simp only [isNextInt_blank, Outcome.bind_ok, Bool.false_eq_true, if_false, isNextEmpty_after,
      says_optInt ht h1, says_optInt hu h3]
    rfl
  | some n =>
    simp only [says_int_isInt ht, Outcome.bind_ok, if_true, Bool.true_or, says_optInt ht h1, says_optInt hu h3]

theorem pload4Face_end (eid : Int) (pre : List Nastran.Line) :
    pload4Face eid (after pre []) = .ok ((unavailableInt, unavailableInt, eid), after pre []) := by
  unfold pload4Face
  simp only [isNextInt_end, Outcome.bind_ok, Bool.false_eq_true, if_false, isNextEmpty_end, isEmpty_end, Bool.or_true,
    if_true, nextInt_end]

theorem near_quarter {x y : ℚ} (h : Near x y) (hx : tol < |x|) : |y - x| ≤ |x| / 4 := by
  unfold Near at h
  rw [if_neg (not_le.2 hx)] at h
  refine h.1.trans ?_
  have hd : 1 ≤ decimals x := by
    unfold decimals exponentDigits
    split_ifs <;> omega
  have hp : (10 : ℚ) ≤ 10 ^ decimals x := by
    calc (10 : ℚ) = 10 ^ 1 := by norm_num
      _ ≤ 10 ^ decimals x := pow_le_pow_right₀ (by norm_num) hd
  have hle : 1 / (2 * (10 : ℚ) ^ decimals x) ≤ 1 / (2 * 10) :=
    one_div_le_one_div_of_le (by norm_num) (by linarith)
  have : 1 / (2 * (10 : ℚ) ^ decimals x) + 1 / 10 ^ 11 ≤ 1 / 4 := by
    calc _ ≤ 1 / (2 * (10 : ℚ)) + 1 / 10 ^ 11 := by linarith
      _ ≤ 1 / 4 := by norm_num
  calc _ ≤ |x| * (1 / 4) := mul_le_mul_of_nonneg_left this (abs_nonneg x)
    _ = |x| / 4 := by ring

theorem near_far {x y : ℚ} (h : Near x y) (hx : 2 * tol ≤ |x|) : isEqual y 0 = false := by
  have ht := tol_pos
  have hq := near_quarter h (by linarith)
  have hy : 3 / 4 * |x| ≤ |y| := by
    have := abs_sub_abs_le_abs_sub x y
    rw [abs_sub_comm] at this
    linarith
  have hone : tol < 1 := by norm_num [tol]
  unfold isEqual
  rw [decide_eq_false_iff_not, not_le, sub_zero, abs_zero]
  rcases le_total (|y|) 1 with hy1 | hy1
  · rw [max_eq_left (max_le hy1 zero_le_one), mul_one]
    linarith
  · rw [max_eq_left (abs_nonneg y), max_eq_right hy1]
    nlinarith

theorem near_zero {x y : ℚ} (h : Near x y) (hx : |x| ≤ tol) : isEqual y 0 = true := by
  unfold Near at h
  rw [if_pos hx] at h
  subst h
  simp [isEqual, tol_pos.le]

theorem hasDirection_near {n n' : V3} (h : NearVec n n') (hd : GivesDirection n) (cid : Int) : hasDirection cid n' = true := by
  unfold hasDirection
  rcases hd with hd | hd | hd
  · rw [near_far h.1 hd]; rfl
  · rw [near_far h.2.1 hd]; simp
  · rw [near_far h.2.2 hd]; simp

theorem hasDirection_none {n n' : V3} (h : NearVec n n') (hd : n.iszero = true) : hasDirection 0 n' = false := by
  unfold V3.iszero isZero at hd
  simp only [Bool.and_eq_true, decide_eq_true_eq] at hd
  unfold hasDirection
  rw [near_zero h.1 hd.1.1, near_zero h.2.1 hd.1.2, near_zero h.2.2 hd.2]
  rfl

theorem hasDirection_cid {cid : Int} (h : cid ≠ 0) (n : V3) : hasDirection cid n = true := by
  simp [hasDirection, h]

/-- The whole card PLOAD4. -/
theorem pload4_read {set cell cid : Int} {p : ℚ} {p2 p3 p4 : Option ℚ} {g1 g3 : Option Int} {n : V3} {ts : List Text}
    (hs : List.Forall₂ Says (fields4 set cell p p2 p3 p4 g1 g3 cid n) ts)
    (h1 : Number set) (h2 : Number cell) (h3 : Number cid) (hg1 : ∀ n ∈ g1, Number n) (hg3 : ∀ n ∈ g3, Number n) :
    ∃ p' n', Near p p' ∧ NearVec n n' ∧ readBulk parsePLOAD4 ("PLOAD4".toList :: ts) =
      .ok ⟨set, [cell], if hasDirection cid n' then directed (times p' n') g1 g3 else normal p' g1 g3⟩ := by
  obtain _ | ⟨k0, hs⟩ := hs
  obtain _ | ⟨k1, hs⟩ := hs
  obtain _ | ⟨k2, hs⟩ := hs
  obtain _ | ⟨k3, hs⟩ := hs
  obtain _ | ⟨k4, hs⟩ := hs
  obtain _ | ⟨k5, hs⟩ := hs
  obtain _ | ⟨k6, hs⟩ := hs
  obtain _ | ⟨k7, hs⟩ := hs
  obtain _ | ⟨k8, hs⟩ := hs
  obtain _ | ⟨k9, hs⟩ := hs
  obtain _ | ⟨k10, hs⟩ := hs
  obtain _ | ⟨k11, hs⟩ := hs
  cases hs
  rename_i t0 t1 t2 t3 t4 t5 t6 t7 t8 t9 t10 t11
  obtain ⟨p', hp, hp'⟩ := says_real_read k2
  obtain ⟨x', hx, hx'⟩ := says_real_read k9
  obtain ⟨y', hy, hy'⟩ := says_real_read k10
  obtain ⟨z', hz, hz'⟩ := says_real_read k11
  obtain ⟨q2, hq2⟩ := says_optReal k3 p' (["PLOAD4".toList] ++ [t0] ++ [t1] ++ [t2]) [t4, t5, t6, t7, t8, t9, t10, t11]
  obtain ⟨q3, hq3⟩ := says_optReal k4 p' (["PLOAD4".toList] ++ [t0] ++ [t1] ++ [t2] ++ [t3]) [t5, t6, t7, t8, t9, t10, t11]
  obtain ⟨q4, hq4⟩ := says_optReal k5 p' (["PLOAD4".toList] ++ [t0] ++ [t1] ++ [t2] ++ [t3] ++ [t4])
    [t6, t7, t8, t9, t10, t11]
  refine ⟨p', ⟨x', y', z'⟩, hp, ⟨hx, hy, hz⟩, ?_⟩
  unfold readBulk
  rw [keyword_read (by decide) (by decide)]
  simp only [Outcome.bind_ok, parsePLOAD4, says_int_read k0 h1, says_int_read k1 h2, hp', hq2, hq3, hq4,
    pload4Face_read k6 k7 hg1 hg3, says_int_read k8 h3, hx', hy', hz', nextString_end, one_cell h2, isEmpty_end, if_true]
  unfold pload4Load directed normal times
  rw [available_optInt hg1, available_optInt hg3]
  rfl

theorem fields4_fits {set cell cid : Int} {p : ℚ} {p2 p3 p4 : Option ℚ} {g1 g3 : Option Int} {n : V3}
    (h1 : Number set) (h2 : Number cell) (h3 : Number cid) (hg1 : ∀ n ∈ g1, Number n) (hg3 : ∀ n ∈ g3, Number n)
    (hp : |p| ≤ dblMax) (hp2 : ∀ x ∈ p2, |x| ≤ dblMax) (hp3 : ∀ x ∈ p3, |x| ≤ dblMax) (hp4 : ∀ x ∈ p4, |x| ≤ dblMax)
    (hn : Finite n) : ∀ a ∈ fields4 set cell p p2 p3 p4 g1 g3 cid n, Fits a := by
  have hi : ∀ (o : Option Int), (∀ n ∈ o, Number n) → Fits (optInt o) := by
    intro o ho
    cases o with
    | none => trivial
    | some n => exact ho n rfl
  have hr : ∀ (o : Option ℚ), (∀ x ∈ o, |x| ≤ dblMax) → Fits (optReal o) := by
    intro o ho
    cases o with
    | none => trivial
    | some x => exact ho x rfl
  intro a ha
  simp only [fields4, List.mem_cons, List.not_mem_nil, or_false] at ha
  rcases ha with rfl | rfl | rfl | rfl | rfl | rfl | rfl | rfl | rfl | rfl | rfl | rfl
  · exact h1
  · exact h2
  · exact hp
  · exact hr _ hp2
  · exact hr _ hp3
  · exact hr _ hp4
  · exact hi _ hg1
  · exact hi _ hg3
  · exact h3
  · exact hn.1
  · exact hn.2.1
  · exact hn.2.2

theorem nodeOrBlank_named {nodeIds : List Int} {p : Option Nat} {n : Option Int}
    (h : p.map (fun i => nodeIds[i]?) = n.map some) : nodeOrBlank nodeIds p = .ok (optInt n) := by
  cases p with
  | none =>
    cases n with
    | none => rfl
    | some n => simp at h
  | some i =>
    cases n with
    | none => simp at h
    | some n =>
      have : nodeIds[i]? = some n := by simpa using h
      simp [nodeOrBlank, idAt, this, optInt]

/-! ## C86: pressures -/

/-- **C86 (partial).** A card PLOAD4 is read with the number of its set, its cell and its pressure: as a force in the
given direction when there is one, as a pressure otherwise, on the face with the given nodes if there are any. (The
pressures at the other corners and the coordinate system are dismissed, see `C86_corners_false` and
`C86_system_false`.) -/
theorem C86_read_partial (counter : Nat) (set cell : Int) (p : ℚ) (g1 g3 : Option Int) (n : V3)
    (rest : List Nastran.Line) (h1 : Number set) (h2 : Number cell) (hg1 : ∀ n ∈ g1, Number n) (hg3 : ∀ n ∈ g3, Number n)
    (hp : |p| ≤ dblMax) (hn : Finite n) (hc : counter + 2 < 10 ^ 7)
    (hnew : NewCard rest) :
    ∃ lines counter' texts p' n', writeCard counter "PLOAD4".toList (fields4 set cell p none none none g1 g3 0 n) =
        some (lines, counter') ∧
      nextLine (lines ++ rest) = .ok (some (texts, afterComments rest)) ∧ Near p p' ∧ NearVec n n' ∧
      (GivesDirection n → readBulk parsePLOAD4 texts = .ok ⟨set, [cell], directed (times p' n') g1 g3⟩) ∧
      (n.iszero = true → readBulk parsePLOAD4 texts = .ok ⟨set, [cell], normal p' g1 g3⟩) := by
  obtain ⟨lines, counter', texts, e1, e2, -, -, e5⟩ := C78_card_partial counter "PLOAD4".toList _ rest pload4_name
    (fields4_fits (p2 := none) (p3 := none) (p4 := none) h1 h2 number_zero hg1 hg3 hp (by simp) (by simp) (by simp) hn)
    (by simp only [fields4, List.length_cons, List.length_nil]; omega) hnew
  obtain ⟨p', n', hp', hn', hr⟩ := pload4_read e2 h1 h2 number_zero hg1 hg3
  refine ⟨lines, counter', _, p', n', e1, e5, hp', hn', fun hd => ?_, fun hd => ?_⟩
  · rw [hr, hasDirection_near hn' hd, if_pos rfl]
  · rw [hr, hasDirection_none hn' hd]; rfl

example : GivesDirection ⟨0, 0, -1⟩ ∧ Finite ⟨0, 0, -1⟩ :=
  ⟨.inr (.inr (by norm_num [tol])), by decide +kernel, by decide +kernel, by decide +kernel⟩

/-- **C86 (partial).** A force on the face of a solid, along any direction, is written on a card PLOAD4 for each of its
cells; each is read back with the number of the set, the cell, the nodes of the face, and the same length and
direction, up to the precision of the fields. -/
theorem C86_surface_partial (strict : Bool) (nodeIds : List Int) (set : Ids) (cell : Int) (force moment : V3) (norm : ℚ)
    (i : Nat) (j : Option Nat) (g1 : Int) (g3 : Option Int) (counter : Nat) (rest : List Nastran.Line)
    (hset : Number set.bestId) (hcell : Number cell) (hids : AllNumbers nodeIds)
    (hi : nodeIds[i]? = some g1) (hj : j.map (fun k => nodeIds[k]?) = g3.map some)
    (hnorm : 0 < norm ∧ norm * norm = force.x * force.x + force.y * force.y + force.z * force.z) (hmax : norm ≤ dblMax)
    (hm : moment.iszero = true) (hc : counter + 2 < 10 ^ 7) (hnew : NewCard rest) :
    ∃ args lines counter' texts norm' u u', surfaceArgs strict nodeIds set cell (.twoNodes force moment norm i j) = .ok args ∧
      writeCard counter "PLOAD4".toList args = some (lines, counter') ∧
      nextLine (lines ++ rest) = .ok (some (texts, afterComments rest)) ∧
      readBulk parsePLOAD4 texts = .ok ⟨set.bestId, [cell], .surfaceNodes (times norm' u') g1 g3⟩ ∧
      force = times norm u ∧ Near norm norm' ∧ NearVec u u' := by
  obtain ⟨hpos, hsq⟩ := hnorm
  set u : V3 := force.normalized norm with hu
  have hforce : force = times norm u := by
    rcases force with ⟨x, y, z⟩
    simp only [hu, times, V3.normalized, V3.mk.injEq]
    refine ⟨?_, ?_, ?_⟩ <;> field_simp
  have hunit : u.x * u.x + u.y * u.y + u.z * u.z = 1 := by
    have hne : norm ≠ 0 := ne_of_gt hpos
    simp only [hu, V3.normalized]
    field_simp
    nlinarith [hsq]
  have hx : |u.x| ≤ 1 := by
    rw [← sq_le_one_iff_abs_le_one]; nlinarith [mul_self_nonneg u.y, mul_self_nonneg u.z]
  have hy : |u.y| ≤ 1 := by
    rw [← sq_le_one_iff_abs_le_one]; nlinarith [mul_self_nonneg u.x, mul_self_nonneg u.z]
  have hz : |u.z| ≤ 1 := by
    rw [← sq_le_one_iff_abs_le_one]; nlinarith [mul_self_nonneg u.y, mul_self_nonneg u.x]
  have hbig : (1 : ℚ) ≤ dblMax := by decide +kernel
  have hfin : Finite u := ⟨hx.trans hbig, hy.trans hbig, hz.trans hbig⟩
  have hdir : GivesDirection u := by
    have ht : 2 * tol ≤ 1 / 2 := by norm_num [tol]
    by_contra hcon
    simp only [GivesDirection, not_or, not_le] at hcon
    obtain ⟨c1, c2, c3⟩ := hcon
    have e1 : u.x * u.x < 1 / 4 := by
      rw [← abs_mul_abs_self]; nlinarith [abs_nonneg u.x]
    have e2 : u.y * u.y < 1 / 4 := by
      rw [← abs_mul_abs_self]; nlinarith [abs_nonneg u.y]
    have e3 : u.z * u.z < 1 / 4 := by
      rw [← abs_mul_abs_self]; nlinarith [abs_nonneg u.z]
    linarith
  have hg1 : ∀ n ∈ some g1, Number n := by
    intro n hn
    cases hn
    exact hids _ (List.mem_of_getElem? hi)
  have hg3 : ∀ n ∈ g3, Number n := by
    intro n hn
    cases hn
    cases j with
    | none => simp at hj
    | some k => exact hids _ (List.mem_of_getElem? (i := k) (by simpa using hj))
  obtain ⟨lines, counter', texts, p', n', e1, e2, e3, e4, e5, -⟩ := C86_read_partial counter set.bestId cell norm (some g1)
    g3 u rest hset hcell hg1 hg3 (by rwa [abs_of_pos hpos]) hfin hc hnew
  refine ⟨_, lines, counter', texts, p', u, n', ?_, e1, e2, e5 hdir, hforce, e3, e4⟩
  simp only [surfaceArgs, hm, Bool.not_true, Bool.false_and, Bool.false_eq_true, if_false, idAt, hi, Outcome.bind_ok,
    nodeOrBlank_named hj]
  rfl

/-- A force of length five on a face given by two nodes. -/
example : (0 : ℚ) < 5 ∧ (5 : ℚ) * 5 = 3 * 3 + 0 * 0 + 4 * 4 ∧
    (some 1).map (fun k => [7, 8, 9][k]?) = (some (8 : Int)).map some := ⟨by norm_num, by norm_num, rfl⟩

/-- **C86 is false for forces on whole cells.** The reader makes a force on a cell of a card PLOAD4 with a direction but
no nodes (`C86_read_partial`); the writer throws in strict mode and follows a null pointer otherwise. -/
theorem C86_plain_false (nodeIds : List Int) (set : Ids) (cell : Int) (force : V3) :
    surfaceArgs true nodeIds set cell (.plain force) = .throw ∧
      surfaceArgs false nodeIds set cell (.plain force) = .ub := ⟨rfl, rfl⟩

/-- **C86 (partial).** A pressure on the face of a solid is written on a card PLOAD4 for each of its cells; each is read
back with the number of the set, the cell, the nodes of the face and the same intensity. -/
theorem C86_face_nodes_partial (nodeIds : List Int) (set : Ids) (cell : Int) (intensity : ℚ)
    (i : Nat) (j : Option Nat) (g1 : Int) (g3 : Option Int) (counter : Nat) (rest : List Nastran.Line)
    (hset : Number set.bestId) (hcell : Number cell) (hids : AllNumbers nodeIds)
    (hi : nodeIds[i]? = some g1) (hj : j.map (fun k => nodeIds[k]?) = g3.map some) (hmax : |intensity| ≤ dblMax)
    (hc : counter + 1 < 10 ^ 7) (hnew : NewCard rest) :
    ∃ args lines counter' texts p', faceNodesArgs nodeIds set intensity i j cell = .ok args ∧
      writeCard counter "PLOAD4".toList args = some (lines, counter') ∧
      nextLine (lines ++ rest) = .ok (some (texts, afterComments rest)) ∧
      readBulk parsePLOAD4 texts = .ok ⟨set.bestId, [cell], .faceNodes p' g1 g3⟩ ∧ Near (-intensity) (-p') := by
  have hn1 : Number g1 := hids _ (List.mem_of_getElem? hi)
  have hg1 : ∀ n ∈ some g1, Number n := by
    intro n hn; cases hn; exact hn1
  have hg3 : ∀ n ∈ g3, Number n := by
    intro n hn
    cases hn
    cases j with
    | none => simp at hj
    | some k => exact hids _ (List.mem_of_getElem? (i := k) (by simpa using hj))
  have hfit : ∀ a ∈ [Arg.int set.bestId, .int cell, .real (-intensity), .blank, .blank, .blank, .int g1, optInt g3],
      Fits a := by
    intro a ha
    simp only [List.mem_cons, List.not_mem_nil, or_false] at ha
    rcases ha with rfl | rfl | rfl | rfl | rfl | rfl | rfl | rfl
    · exact hset
    · exact hcell
    · show |(-intensity)| ≤ dblMax
      rwa [abs_neg]
    · trivial
    · trivial
    · trivial
    · exact hn1
    · cases g3 with
      | none => trivial
      | some n => exact hg3 n rfl
  obtain ⟨lines, counter', texts, e1, hs, -, -, e5⟩ := C78_card_partial counter "PLOAD4".toList _ rest pload4_name hfit
    (by simp only [List.length_cons, List.length_nil]; omega) hnew
  obtain _ | ⟨k0, hs⟩ := hs
  obtain _ | ⟨k1, hs⟩ := hs
  obtain _ | ⟨k2, hs⟩ := hs
  obtain _ | ⟨k3, hs⟩ := hs
  obtain _ | ⟨k4, hs⟩ := hs
  obtain _ | ⟨k5, hs⟩ := hs
  obtain _ | ⟨k6, hs⟩ := hs
  obtain _ | ⟨k7, hs⟩ := hs
  cases hs
  rename_i t0 t1 t2 t3 t4 t5 t6 t7
  obtain ⟨q, hq, hq'⟩ := says_real_read k2
  have b3 : t3 = [] := k3
  have b4 : t4 = [] := k4
  have b5 : t5 = [] := k5
  subst b3 b4 b5
  have hz : hasDirection 0 ⟨0, 0, 0⟩ = false := by decide +kernel
  refine ⟨_, lines, counter', _, -q, ?_, e1, e5, ?_, by rwa [neg_neg]⟩
  · simp only [faceNodesArgs, idAt, hi, Outcome.bind_ok, nodeOrBlank_named hj]
  · unfold readBulk
    rw [keyword_read (by decide) (by decide)]
    simp only [Outcome.bind_ok, parsePLOAD4, says_int_read k0 hset, says_int_read k1 hcell, hq', nextDouble_blank,
      pload4Face_read (g1 := some g1) k6 k7 hg1 hg3, nextInt_end, nextDouble_end, nextString_end, one_cell hcell,
      isEmpty_end, if_true]
    unfold pload4Load
    rw [available_optInt hg1, available_optInt hg3, hz]
    rfl

/-- **C86 (partial).** A pressure on shells is written on a card PLOAD4 (or PLOAD2) for each of its cells; each is read
back with the number of the set, the cell and the same intensity. -/
theorem C86_shell_partial (set : Ids) (cell : Int) (intensity : ℚ) (counter : Nat) (rest : List Nastran.Line)
    (hset : Number set.bestId) (hcell : Number cell) (hmax : |intensity| ≤ dblMax) (hc : counter + 1 < 10 ^ 7)
    (hnew : NewCard rest) :
    (∃ lines counter' texts p', writeCard counter "PLOAD4".toList (faceArgs set intensity cell) = some (lines, counter') ∧
      nextLine (lines ++ rest) = .ok (some (texts, afterComments rest)) ∧
      readBulk parsePLOAD4 texts = .ok ⟨set.bestId, [cell], .face p'⟩ ∧ Near intensity p') ∧
    (∃ lines counter' texts p', writeCard counter "PLOAD2".toList (pload2Args set intensity cell) = some (lines, counter') ∧
      nextLine (lines ++ rest) = .ok (some (texts, afterComments rest)) ∧
      readBulk parsePLOAD2 texts = .ok ⟨set.bestId, p', [cell]⟩ ∧ Near intensity p') := by
  constructor
  · have hfit : ∀ a ∈ faceArgs set intensity cell, Fits a := by
      intro a ha
      simp only [faceArgs, List.mem_cons, List.not_mem_nil, or_false] at ha
      rcases ha with rfl | rfl | rfl
      · exact hset
      · exact hcell
      · exact hmax
    obtain ⟨lines, counter', texts, e1, hs, -, -, e5⟩ := C78_card_partial counter "PLOAD4".toList _ rest pload4_name hfit
      (by simp only [faceArgs, List.length_cons, List.length_nil]; omega) hnew
    unfold faceArgs at hs
    obtain _ | ⟨k0, hs⟩ := hs
    obtain _ | ⟨k1, hs⟩ := hs
    obtain _ | ⟨k2, hs⟩ := hs
    cases hs
    obtain ⟨q, hq, hq'⟩ := says_real_read k2
    have hz : hasDirection 0 ⟨0, 0, 0⟩ = false := by decide +kernel
    refine ⟨lines, counter', _, q, e1, e5, ?_, hq⟩
    unfold readBulk
    rw [keyword_read (by decide) (by decide)]
    simp only [Outcome.bind_ok, parsePLOAD4, says_int_read k0 hset, says_int_read k1 hcell, hq', nextDouble_end,
      pload4Face_end, nextInt_end, nextString_end, one_cell hcell, isEmpty_end, if_true]
    unfold pload4Load
    rw [hz]
    rfl
  · have hfit : ∀ a ∈ pload2Args set intensity cell, Fits a := by
      intro a ha
      simp only [pload2Args, List.mem_cons, List.not_mem_nil, or_false] at ha
      rcases ha with rfl | rfl | rfl
      · exact hset
      · exact hmax
      · exact hcell
    obtain ⟨lines, counter', texts, e1, hs, -, -, e5⟩ := C78_card_partial counter "PLOAD2".toList _ rest pload2_name hfit
      (by simp only [pload2Args, List.length_cons, List.length_nil]; omega) hnew
    unfold pload2Args at hs
    obtain _ | ⟨k0, hs⟩ := hs
    obtain _ | ⟨k2, hs⟩ := hs
    rename_i t0 t1 ts
    have hts : ts = [cell].map decimal := says_ints (ns := [cell]) hs
    subst hts
    obtain ⟨q, hq, hq'⟩ := says_real_read k2
    refine ⟨lines, counter', _, q, e1, e5, ?_, hq⟩
    unfold readBulk
    rw [keyword_read (by decide) (by decide)]
    simp only [Outcome.bind_ok, parsePLOAD2, says_int_read k0 hset, hq',
      nextInts_decimals (ns := [cell]) (fun m hm => by simp_all), isEmpty_end, if_true]

/-- **C86 (partial).** A card PLOAD4 with THRU is read as the same pressure on all cells from the first to the last
number. -/
theorem C86_thru_partial (counter : Nat) (set first last : Int) (p : ℚ) (rest : List Nastran.Line)
    (h1 : Number set) (h2 : Number first) (h3 : Number last) (hle : first ≤ last) (hp : |p| ≤ dblMax)
    (hc : counter + 1 < 10 ^ 7) (hnew : NewCard rest) :
    ∃ lines counter' texts p' cells, writeCard counter "PLOAD4".toList [.int set, .int first, .real p, .blank, .blank,
        .blank, .text "THRU".toList, .int last] = some (lines, counter') ∧
      nextLine (lines ++ rest) = .ok (some (texts, afterComments rest)) ∧
      readBulk parsePLOAD4 texts = .ok ⟨set, cells, .face p'⟩ ∧ Near p p' ∧
      ∀ n, n ∈ cells ↔ first ≤ n ∧ n ≤ last := by
  have hfit : ∀ a ∈ [Arg.int set, .int first, .real p, .blank, .blank, .blank, .text "THRU".toList, .int last],
      Fits a := by
    intro a ha
    simp only [List.mem_cons, List.not_mem_nil, or_false] at ha
    rcases ha with rfl | rfl | rfl | rfl | rfl | rfl | rfl | rfl
    · exact h1
    · exact h2
    · exact hp
    · trivial
    · trivial
    · trivial
    · show FixedSpec.Value 8 _
      refine ⟨?_, ?_, ?_, ?_⟩ <;> decide
    · exact h3
  obtain ⟨lines, counter', texts, e1, hs, -, -, e5⟩ := C78_card_partial counter "PLOAD4".toList _ rest pload4_name hfit
    (by simp only [List.length_cons, List.length_nil]; omega) hnew
  obtain _ | ⟨k0, hs⟩ := hs
  obtain _ | ⟨k1, hs⟩ := hs
  obtain _ | ⟨k2, hs⟩ := hs
  obtain _ | ⟨k3, hs⟩ := hs
  obtain _ | ⟨k4, hs⟩ := hs
  obtain _ | ⟨k5, hs⟩ := hs
  obtain _ | ⟨k6, hs⟩ := hs
  obtain _ | ⟨k7, hs⟩ := hs
  cases hs
  rename_i t0 t1 t2 t3 t4 t5 t6 t7
  obtain ⟨q, hq, hq'⟩ := says_real_read k2
  have b3 : t3 = [] := k3
  have b4 : t4 = [] := k4
  have b5 : t5 = [] := k5
  have b6 : t6 = "THRU".toList := k6
  subst b3 b4 b5 b6
  have hz : hasDirection 0 ⟨0, 0, 0⟩ = false := by decide +kernel
  obtain ⟨h21, h22⟩ := h2
  obtain ⟨h31, h32⟩ := h3
  have hcells : pushRange (first - 1) last 1 = .ok (between first last) := by
    rw [pushRange_one (by omega) (by unfold intMax; omega) (by unfold intMin; omega), show first - 1 + 1 = first by omega]
  have hface : ∀ pre, pload4Face first (after pre ["THRU".toList, t7]) =
      .ok ((unavailableInt, unavailableInt, last), after (pre ++ ["THRU".toList] ++ [t7]) []) := by
    intro pre
    have hi : isNextInt (after pre ["THRU".toList, t7]) = .ok false := by rw [isNextInt_after]; rfl
    have he : isNextEmpty 1 (after pre ["THRU".toList, t7]) = .ok false := by rw [isNextEmpty_after]; rfl
    have hem : isEmptyUntilNextKeyword (after pre ["THRU".toList, t7]) = false :=
      isEmpty_after_false (t := "THRU".toList) (by simp) rfl
    have ht : isNextTHRU (after pre ["THRU".toList, t7]) = .ok true := by
      unfold isNextTHRU isNextWord
      rw [sym_after_cons, if_neg (by simp), fieldAt_after]
      rfl
    unfold pload4Face
    simp only [hi, he, hem, ht, Outcome.bind_ok, Bool.false_eq_true, if_false, Bool.or_false, if_true, skip_after,
      says_int_read k7 ⟨h31, h32⟩, List.take_succ_cons, List.take_zero, List.drop_succ_cons, List.drop_zero]
  refine ⟨lines, counter', _, q, between first last, e1, e5, ?_, hq, fun n => C25_between first last n⟩
  unfold readBulk
  rw [keyword_read (by decide) (by decide)]
  simp only [Outcome.bind_ok, parsePLOAD4, says_int_read k0 h1, says_int_read k1 ⟨h21, h22⟩, hq', nextDouble_blank,
    hface, nextInt_end, nextDouble_end, nextString_end, hcells, isEmpty_end, if_true]
  unfold pload4Load
  rw [hz]
  rfl

example : Number 10 ∧ Number 99 ∧ (10 : Int) ≤ 99 := ⟨by decide, by decide, by decide⟩

/-- **C86 is false for pressures that vary over the face.** Whatever pressures are given at the other corners, the
card is read as the pressure at the first corner on the whole face. -/
theorem C86_corners_false (counter : Nat) (set cell : Int) (p p2 p3 p4 : ℚ) (g1 g3 : Option Int) (rest : List Nastran.Line)
    (h1 : Number set) (h2 : Number cell) (hg1 : ∀ n ∈ g1, Number n) (hg3 : ∀ n ∈ g3, Number n)
    (hp : |p| ≤ dblMax) (hp2 : |p2| ≤ dblMax) (hp3 : |p3| ≤ dblMax) (hp4 : |p4| ≤ dblMax) (hc : counter + 2 < 10 ^ 7)
    (hnew : NewCard rest) :
    ∃ lines counter' texts p', writeCard counter "PLOAD4".toList
        (fields4 set cell p (some p2) (some p3) (some p4) g1 g3 0 ⟨0, 0, 0⟩) = some (lines, counter') ∧
      nextLine (lines ++ rest) = .ok (some (texts, afterComments rest)) ∧ Near p p' ∧
      readBulk parsePLOAD4 texts = .ok ⟨set, [cell], normal p' g1 g3⟩ := by
  have h0 : |(0 : ℚ)| ≤ dblMax := by decide +kernel
  obtain ⟨lines, counter', texts, e1, e2, -, -, e5⟩ := C78_card_partial counter "PLOAD4".toList _ rest pload4_name
    (fields4_fits (p2 := some p2) (p3 := some p3) (p4 := some p4) h1 h2 number_zero hg1 hg3 hp (by simpa using hp2)
      (by simpa using hp3) (by simpa using hp4) (n := ⟨0, 0, 0⟩) ⟨h0, h0, h0⟩)
    (by simp only [fields4, List.length_cons, List.length_nil]; omega) hnew
  obtain ⟨p', n', hp', hn', hr⟩ := pload4_read e2 h1 h2 number_zero hg1 hg3
  refine ⟨lines, counter', _, p', e1, e5, hp', ?_⟩
  rw [hr, hasDirection_none hn' (by simp [V3.iszero, isZero, tol_pos.le])]
  rfl

/-- **C86 is false for coordinate systems.** When the card names a coordinate system, its direction is taken in the
global system; and when it gives no direction, so that the pressure acts along the normal, it is read as a force of
length zero. -/
theorem C86_system_false (counter : Nat) (set cell cid : Int) (p : ℚ) (g1 g3 : Option Int) (n : V3)
    (rest : List Nastran.Line) (h1 : Number set) (h2 : Number cell) (h3 : Number cid) (hcid : cid ≠ 0)
    (hg1 : ∀ n ∈ g1, Number n) (hg3 : ∀ n ∈ g3, Number n)
    (hp : |p| ≤ dblMax) (hn : Finite n) (hc : counter + 2 < 10 ^ 7) (hnew : NewCard rest) :
    ∃ lines counter' texts p' n', writeCard counter "PLOAD4".toList (fields4 set cell p none none none g1 g3 cid n) =
        some (lines, counter') ∧
      nextLine (lines ++ rest) = .ok (some (texts, afterComments rest)) ∧ Near p p' ∧ NearVec n n' ∧
      readBulk parsePLOAD4 texts = .ok ⟨set, [cell], directed (times p' n') g1 g3⟩ ∧
      (n = ⟨0, 0, 0⟩ → times p' n' = ⟨0, 0, 0⟩) := by
  obtain ⟨lines, counter', texts, e1, e2, -, -, e5⟩ := C78_card_partial counter "PLOAD4".toList _ rest pload4_name
    (fields4_fits (p2 := none) (p3 := none) (p4 := none) h1 h2 h3 hg1 hg3 hp (by simp) (by simp) (by simp) hn)
    (by simp only [fields4, List.length_cons, List.length_nil]; omega) hnew
  obtain ⟨p', n', hp', hn', hr⟩ := pload4_read e2 h1 h2 h3 hg1 hg3
  refine ⟨lines, counter', _, p', n', e1, e5, hp', hn', ?_, ?_⟩
  · rw [hr, hasDirection_cid hcid, if_pos rfl]
  · rintro rfl
    obtain ⟨a, b, c⟩ := hn'
    unfold Near at a b c
    rw [if_pos (by simp [tol_pos.le])] at a b c
    simp [times, a, b, c]

example : Number 3 ∧ (3 : Int) ≠ 0 ∧ ∀ n ∈ some (17 : Int), Number n := by
  refine ⟨by decide, by decide, ?_⟩
  intro n hn; cases hn; decide

/-- **C86 (partial).** A pressure on three or four nodes is written on a card PLOAD that is read back with the number of the
set, the same nodes in this order and the same pressure. -/
theorem C86_nodes_partial (nodeIds : List Int) (set : Ids) (magnitude : ℚ) (i1 i2 i3 : Nat) (i4 : Option Nat)
    (g1 g2 g3 : Int) (g4 : Option Int) (counter : Nat) (rest : List Nastran.Line)
    (hset : Number set.bestId) (hids : AllNumbers nodeIds) (hi1 : nodeIds[i1]? = some g1) (hi2 : nodeIds[i2]? = some g2)
    (hi3 : nodeIds[i3]? = some g3) (hi4 : i4.map (fun k => nodeIds[k]?) = g4.map some)
    (hmax : |magnitude| ≤ dblMax) (hc : counter + 1 < 10 ^ 7) (hnew : NewCard rest) :
    ∃ args lines counter' texts p', ploadArgs nodeIds set magnitude i1 i2 i3 i4 = .ok args ∧
      writeCard counter "PLOAD".toList args = some (lines, counter') ∧
      nextLine (lines ++ rest) = .ok (some (texts, afterComments rest)) ∧
      readBulk parsePLOAD texts = .ok ⟨set.bestId, p', [g1, g2, g3], g4⟩ ∧ Near magnitude p' := by
  have n1 : Number g1 := hids _ (List.mem_of_getElem? hi1)
  have n2 : Number g2 := hids _ (List.mem_of_getElem? hi2)
  have n3 : Number g3 := hids _ (List.mem_of_getElem? hi3)
  cases i4 with
  | none =>
    cases g4 with
    | some g => simp at hi4
    | none =>
      have hfit : ∀ a ∈ [Arg.int set.bestId, .real magnitude, .int g1, .int g2, .int g3], Fits a := by
        intro a ha
        simp only [List.mem_cons, List.not_mem_nil, or_false] at ha
        rcases ha with rfl | rfl | rfl | rfl | rfl
        · exact hset
        · exact hmax
        · exact n1
        · exact n2
        · exact n3
      obtain ⟨lines, counter', texts, e1, hs, -, -, e5⟩ := C78_card_partial counter "PLOAD".toList _ rest pload_name hfit
        (by simp only [List.length_cons, List.length_nil]; omega) hnew
      obtain _ | ⟨k0, hs⟩ := hs
      obtain _ | ⟨k1, hs⟩ := hs
      obtain _ | ⟨k2, hs⟩ := hs
      obtain _ | ⟨k3, hs⟩ := hs
      obtain _ | ⟨k4, hs⟩ := hs
      cases hs
      obtain ⟨q, hq, hq'⟩ := says_real_read k1
      refine ⟨_, lines, counter', _, q, by simp only [ploadArgs, idAt, hi1, hi2, hi3, Outcome.bind_ok], e1, e5, ?_, hq⟩
      unfold readBulk
      rw [keyword_read (by decide) (by decide)]
      simp only [Outcome.bind_ok, parsePLOAD, says_int_read k0 hset, hq', says_int_read k2 n1, says_int_read k3 n2,
        says_int_read k4 n3, nextInt_end, isEmpty_end, if_true]
      rfl
  | some i =>
    cases g4 with
    | none => simp at hi4
    | some g =>
      have hi : nodeIds[i]? = some g := by simpa using hi4
      have n4 : Number g := hids _ (List.mem_of_getElem? hi)
      have hfit : ∀ a ∈ [Arg.int set.bestId, .real magnitude, .int g1, .int g2, .int g3, .int g], Fits a := by
        intro a ha
        simp only [List.mem_cons, List.not_mem_nil, or_false] at ha
        rcases ha with rfl | rfl | rfl | rfl | rfl | rfl
        · exact hset
        · exact hmax
        · exact n1
        · exact n2
        · exact n3
        · exact n4
      obtain ⟨lines, counter', texts, e1, hs, -, -, e5⟩ := C78_card_partial counter "PLOAD".toList _ rest pload_name hfit
        (by simp only [List.length_cons, List.length_nil]; omega) hnew
      obtain _ | ⟨k0, hs⟩ := hs
      obtain _ | ⟨k1, hs⟩ := hs
      obtain _ | ⟨k2, hs⟩ := hs
      obtain _ | ⟨k3, hs⟩ := hs
      obtain _ | ⟨k4, hs⟩ := hs
      obtain _ | ⟨k5, hs⟩ := hs
      cases hs
      obtain ⟨q, hq, hq'⟩ := says_real_read k1
      refine ⟨_, lines, counter', _, q, by simp only [ploadArgs, idAt, hi1, hi2, hi3, hi, Outcome.bind_ok], e1, e5, ?_, hq⟩
      unfold readBulk
      rw [keyword_read (by decide) (by decide)]
      simp only [Outcome.bind_ok, parsePLOAD, says_int_read k0 hset, hq', says_int_read k2 n1, says_int_read k3 n2,
        says_int_read k4 n3, says_int_read k5 n4, isEmpty_end, if_true, available, number_available n4, if_false]

end NastranWrite
end Vega
