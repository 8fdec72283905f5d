import Verif.NastranWrite.PressureProps
import Verif.NastranWrite.LineLoads

/-! # C87: loads along beams written to Nastran and read from Nastran -/
namespace Vega

/-! ## Specification -/
namespace LineLoadSpec
open NastranWrite WriteSpec

/-- The fields of a card PLOAD1: set, beam, component, scale, and a load that goes from `p1` at `x1` to `p2` at `x2`. -/
def fields1 (set cell : Int) (component scale : String) (x1 p1 x2 p2 : ℚ) : List Arg :=
  [.int set, .int cell, .text component.toList, .text scale.toList, .real x1, .real p1, .real x2, .real p2]

/-- Components and what they act on. -/
def Component : String → Dof → Prop
  | "FX", d => d = .DX
  | "FY", d => d = .DY
  | "FZ", d => d = .DZ
  | "MX", d => d = .RX
  | "MY", d => d = .RY
  | "MZ", d => d = .RZ
  | _, _ => False

/-- Scales: lengths, or fractions of the length of the beam. -/
def IsScale : String → Scale → Prop
  | "LE", s => s = .length
  | "FR", s => s = .fraction
  | _, _ => False

end LineLoadSpec

namespace NastranWrite
open Nastran FieldSpec FixedSpec WriteSpec RigidSpec SpcCardSpec LoadSpec PressureSpec LineLoadSpec
open CellSpec (Number)

/-! ## Helper lemmas -/

theorem pload1_name : Name false "PLOAD1".toList := ⟨by decide, by decide, by decide⟩

theorem nextString_after {t : Nastran.Line} (hne : t.isEmpty = false) (hup : toUpper (trim (trimRight t)) = t)
    (d : Option Nastran.Line) (pre rest : List Nastran.Line) :
    nextString d (after pre (t :: rest)) = .ok (t, after (pre ++ [t]) rest) := by
  unfold nextString
  rw [next_after]
  simp only [hup, hne, Bool.false_eq_true, if_false]

theorem component_cases {s : String} {d : Dof} (h : Component s d) : s.toList = loadType d := by
  unfold Component at h
  split at h <;> first | exact h.elim | (subst h; rfl)

theorem scale_cases {s : String} {k : Scale} (h : IsScale s k) : s = "LE" ∧ k = .length ∨ s = "FR" ∧ k = .fraction := by
  unfold IsScale at h
  split at h
  · exact .inl ⟨rfl, h⟩
  · exact .inr ⟨rfl, h⟩
  · exact h.elim

theorem loadType_read (d : Dof) (dflt : Option Nastran.Line) (pre rest : List Nastran.Line) :
    nextString dflt (after pre (loadType d :: rest)) = .ok (loadType d, after (pre ++ [loadType d]) rest) := by
  cases d <;> exact nextString_after (by decide) (by decide) dflt pre rest

theorem readType_loadType (d : Dof) : readType (loadType d) = .ok d := by cases d <;> rfl

theorem loadType_fits (d : Dof) : Fits (.text (loadType d)) := by
  cases d <;> exact ⟨by decide, by decide, by decide, by decide⟩

theorem scale_fits {s : String} {k : Scale} (h : IsScale s k) : Fits (.text s.toList) := by
  rcases scale_cases h with ⟨rfl, -⟩ | ⟨rfl, -⟩ <;> exact ⟨by decide, by decide, by decide, by decide⟩

theorem scale_read {s : String} {k : Scale} (h : IsScale s k) (dflt : Option Nastran.Line) (pre rest : List Nastran.Line) :
    nextString dflt (after pre (s.toList :: rest)) = .ok (s.toList, after (pre ++ [s.toList]) rest) ∧
      readScale s.toList = .ok k := by
  rcases scale_cases h with ⟨rfl, rfl⟩ | ⟨rfl, rfl⟩
  · exact ⟨nextString_after (by decide) (by decide) dflt pre rest, by decide +kernel⟩
  · exact ⟨nextString_after (by decide) (by decide) dflt pre rest, by decide +kernel⟩

/-- The whole card PLOAD1. -/
theorem pload1_read {set cell : Int} {comp scale : String} {d : Dof} {k : Scale} {x1 p1 x2 p2 : ℚ} {ts : List Text}
    (hs : List.Forall₂ Says (fields1 set cell comp scale x1 p1 x2 p2) ts) (h1 : Number set) (h2 : Number cell)
    (hd : Component comp d) (hk : IsScale scale k) :
    ∃ a b c e, Near x1 a ∧ Near p1 b ∧ Near x2 c ∧ Near p2 e ∧
      readBulk parsePLOAD1 ("PLOAD1".toList :: ts) =
        (lineTable a b c e >>= fun t => .ok ⟨set, cell, d, k, t⟩) := by
  unfold fields1 at hs
  rw [component_cases hd] at hs
  obtain _ | ⟨k0, hs⟩ := hs
  obtain _ | ⟨k1, hs⟩ := hs
  obtain _ | ⟨k2, hs⟩ := hs
  obtain _ | ⟨k3, hs⟩ := hs
  obtain _ | ⟨k4, hs⟩ := hs
  obtain _ | ⟨k5, hs⟩ := hs
  obtain _ | ⟨k6, hs⟩ := hs
  obtain _ | ⟨k7, hs⟩ := hs
  cases hs
  rename_i t0 t1 t2 t3 t4 t5 t6 t7
  have e2 : t2 = loadType d := k2
  have e3 : t3 = scale.toList := k3
  subst e2 e3
  obtain ⟨a, ha, ha'⟩ := says_real_read k4
  obtain ⟨b, hb, hb'⟩ := says_real_read k5
  obtain ⟨c, hc, hc'⟩ := says_real_read k6
  obtain ⟨e, he, he'⟩ := says_real_read k7
  refine ⟨a, b, c, e, ha, hb, hc, he, ?_⟩
  unfold readBulk
  rw [keyword_read (by decide) (by decide)]
  simp only [Outcome.bind_ok, parsePLOAD1, says_int_read k0 h1, says_int_read k1 h2, loadType_read,
    fun pre rest => (scale_read hk none pre rest).1, ha', hb', hc', he', readType_loadType,
    (scale_read hk none [] []).2]
  cases lineTable a b c e with
  | ok t => simp only [Outcome.bind_ok, isEmpty_end, if_true]
  | throw => simp only [Outcome.bind_throw]
  | ub => simp only [Outcome.bind_ub]
  | diverges => rfl

theorem fields1_fits {set cell : Int} {comp scale : String} {d : Dof} {k : Scale} {x1 p1 x2 p2 : ℚ}
    (h1 : Number set) (h2 : Number cell) (hd : Component comp d) (hk : IsScale scale k) (hx1 : |x1| ≤ dblMax)
    (hp1 : |p1| ≤ dblMax) (hx2 : |x2| ≤ dblMax) (hp2 : |p2| ≤ dblMax) :
    ∀ a ∈ fields1 set cell comp scale x1 p1 x2 p2, Fits a := by
  intro a ha
  simp only [fields1, List.mem_cons, List.not_mem_nil, or_false] at ha
  rcases ha with rfl | rfl | rfl | rfl | rfl | rfl | rfl | rfl
  · exact h1
  · exact h2
  · rw [component_cases hd]; exact loadType_fits d
  · exact scale_fits hk
  · exact hx1
  · exact hp1
  · exact hx2
  · exact hp2

theorem near_pos {x y : ℚ} (h : Near x y) (hx : 2 * tol ≤ x) : 0 < y := by
  have ht := tol_pos
  have hp : 0 < x := by linarith
  have hq := near_quarter h (by rw [abs_of_pos hp]; linarith)
  rw [abs_of_pos hp] at hq
  have := (abs_le.1 hq).1
  linarith

theorem lineTable_zero {c : ℚ} (hc : 0 < c) (hne : isEqual c 0 = false) (b e : ℚ) :
    lineTable 0 b c e = .ok [(0, b), (c, e), (c + c / 1000, 0)] := by
  unfold lineTable
  rw [hne, Bool.or_false, if_neg (by simpa using hc.le), if_neg (lt_irrefl _)]
  rfl

/-! ## C87: loads along beams -/

/-- **C87 (partial).** A load that starts at the beginning of a beam is read with the number of its set, its beam, its
component and its scale, and as a table whose first two points are the two points of the card; after them it drops to
zero. -/
theorem C87_read_partial (counter : Nat) (set cell : Int) (comp scale : String) (d : Dof) (k : Scale) (p1 x2 p2 : ℚ)
    (rest : List Nastran.Line) (h1 : Number set) (h2 : Number cell) (hd : Component comp d) (hk : IsScale scale k)
    (hp1 : |p1| ≤ dblMax) (hx2 : 2 * tol ≤ x2 ∧ x2 ≤ dblMax) (hp2 : |p2| ≤ dblMax) (hc : counter + 1 < 10 ^ 7)
    (hnew : NewCard rest) :
    ∃ lines counter' texts b c e, writeCard counter "PLOAD1".toList (fields1 set cell comp scale 0 p1 x2 p2) =
        some (lines, counter') ∧
      nextLine (lines ++ rest) = .ok (some (texts, afterComments rest)) ∧
      readBulk parsePLOAD1 texts = .ok ⟨set, cell, d, k, [(0, b), (c, e), (c + c / 1000, 0)]⟩ ∧
      Near p1 b ∧ Near x2 c ∧ Near p2 e := by
  have ht := tol_pos
  have hpos : 0 < x2 := by linarith [hx2.1]
  obtain ⟨lines, counter', texts, e1, e2, -, -, e5⟩ := C78_card_partial counter "PLOAD1".toList _ rest pload1_name
    (fields1_fits (x1 := 0) h1 h2 hd hk (by decide +kernel) hp1 (by rw [abs_of_pos hpos]; exact hx2.2) hp2)
    (by simp only [fields1, List.length_cons, List.length_nil]; omega) hnew
  obtain ⟨a, b, c, e, ha, hb, hcc, he, hr⟩ := pload1_read e2 h1 h2 hd hk
  have ha0 : a = 0 := by
    unfold Near at ha
    rwa [if_pos (by simp [ht.le])] at ha
  subst ha0
  refine ⟨lines, counter', _, b, c, e, e1, e5, ?_, hb, hcc, he⟩
  rw [hr, lineTable_zero (near_pos hcc hx2.1) (near_far hcc (by rw [abs_of_pos hpos]; exact hx2.1))]
  rfl

example : Component "FY" .DY ∧ IsScale "FR" .fraction ∧ 2 * tol ≤ (1 : ℚ) ∧ (1 : ℚ) ≤ dblMax :=
  ⟨rfl, rfl, by norm_num [tol], by decide +kernel⟩

/-- **C87 (partial).** A load given by fractions of the length that starts at the beginning of the beam comes back: the
card written for what was read has the same fields. -/
theorem C87_write_partial (set : Ids) (cell : Int) (d : Dof) (b c e : ℚ) (comp : String) (hd : Component comp d) :
    lineArgs set d [(0, b), (c, e), (c + c / 1000, 0)] cell = .ok (fields1 set.bestId cell comp "FR" 0 b c e) := by
  simp only [lineArgs, fields1, component_cases hd]

example : Component "MZ" .RZ := rfl

/-- **C87 is false for loads that start further on.** The table of a load from `x1 > 0` to `x2` is written as a load
that grows from zero, just before `x1`, to `p1` at `x1`: neither `x2` nor `p2` is written, and nothing acts between
`x1` and `x2`. -/
theorem C87_start_false (set : Ids) (cell : Int) (d : Dof) (comp : String) (hd : Component comp d) (x1 p1 x2 p2 : ℚ)
    (t : Table) (hpos : 0 < x1) (ht : lineTable x1 p1 x2 p2 = .ok t) :
    lineArgs set d t cell = .ok (fields1 set.bestId cell comp "FR" (x1 - x1 / 1000) 0 x1 p1) := by
  unfold lineTable at ht
  split_ifs at ht
  cases ht
  simp only [List.cons_append, List.nil_append, lineArgs, fields1, component_cases hd]

/-- A load of ten on the second half of a beam. -/
example : lineTable (1 / 2) 10 1 10 = .ok [(1 / 2 - 1 / 2 / 1000, 0), (1 / 2, 10), (1, 10), (1 + 1 / 1000, 0)] := by
  unfold lineTable
  have h : isEqual 1 (1 / 2) = false := by
    norm_num [isEqual, tol]
  rw [h]
  norm_num

/-- **C87 is false for lengths.** The scale is not written: a load given by lengths along the beam is written with the
same numbers as fractions of its length. -/
theorem C87_length_false (counter : Nat) (set : Ids) (cell : Int) (comp : String) (d : Dof) (p1 x2 p2 : ℚ)
    (rest : List Nastran.Line) (h1 : Number set.bestId) (h2 : Number cell) (hd : Component comp d)
    (hp1 : |p1| ≤ dblMax) (hx2 : 2 * tol ≤ x2 ∧ x2 ≤ dblMax) (hp2 : |p2| ≤ dblMax) (hc : counter + 1 < 10 ^ 7)
    (hnew : NewCard rest) :
    ∃ lines counter' texts r args, writeCard counter "PLOAD1".toList (fields1 set.bestId cell comp "LE" 0 p1 x2 p2) =
        some (lines, counter') ∧
      nextLine (lines ++ rest) = .ok (some (texts, afterComments rest)) ∧ readBulk parsePLOAD1 texts = .ok r ∧
      r.scale = .length ∧ lineArgs set r.dof r.table r.cell = .ok args ∧ args[3]? = some (.text "FR".toList) := by
  obtain ⟨lines, counter', texts, b, c, e, e1, e2, e3, -⟩ := C87_read_partial counter set.bestId cell comp "LE" d .length
    p1 x2 p2 rest h1 h2 hd rfl hp1 hx2 hp2 hc hnew
  exact ⟨lines, counter', texts, _, _, e1, e2, e3, rfl, rfl, rfl⟩

/-- **C87 (partial).** A card with one point only, a concentrated load, is refused; no load is made of it. -/
theorem C87_point_partial (counter : Nat) (set cell : Int) (comp scale : String) (d : Dof) (k : Scale) (x p : ℚ)
    (rest : List Nastran.Line) (h1 : Number set) (h2 : Number cell) (hd : Component comp d) (hk : IsScale scale k)
    (hx : |x| ≤ dblMax) (hp : |p| ≤ dblMax) (hc : counter + 1 < 10 ^ 7) (hnew : NewCard rest) :
    ∃ lines counter' texts, writeCard counter "PLOAD1".toList ((fields1 set cell comp scale x p 0 0).take 6) =
        some (lines, counter') ∧
      nextLine (lines ++ rest) = .ok (some (texts, afterComments rest)) ∧ readBulk parsePLOAD1 texts = .throw := by
  have h0 : |(0 : ℚ)| ≤ dblMax := by decide +kernel
  obtain ⟨lines, counter', texts, e1, hs, -, -, e5⟩ := C78_card_partial counter "PLOAD1".toList
    ((fields1 set cell comp scale x p 0 0).take 6) rest pload1_name
    (fun a ha => fields1_fits h1 h2 hd hk hx hp h0 h0 a (List.mem_of_mem_take ha))
    (by simp only [fields1, List.length_take, List.length_cons, List.length_nil]; omega) hnew
  refine ⟨lines, counter', _, e1, e5, ?_⟩
  unfold fields1 at hs
  rw [component_cases hd] at hs
  simp only [List.take_succ_cons, List.take_zero] at hs
  obtain _ | ⟨k0, hs⟩ := hs
  obtain _ | ⟨k1, hs⟩ := hs
  obtain _ | ⟨k2, hs⟩ := hs
  obtain _ | ⟨k3, hs⟩ := hs
  obtain _ | ⟨k4, hs⟩ := hs
  obtain _ | ⟨k5, hs⟩ := hs
  cases hs
  rename_i t0 t1 t2 t3 t4 t5
  have e2 : t2 = loadType d := k2
  have e3 : t3 = scale.toList := k3
  subst e2 e3
  obtain ⟨a, ha, ha'⟩ := says_real_read k4
  obtain ⟨b, hb, hb'⟩ := says_real_read k5
  have ht : lineTable a b (-1) 0 = .throw := by
    unfold lineTable
    rw [if_pos (by simp)]
  unfold readBulk
  rw [keyword_read (by decide) (by decide)]
  simp only [Outcome.bind_ok, parsePLOAD1, says_int_read k0 h1, says_int_read k1 h2, loadType_read,
    fun pre rest => (scale_read hk none pre rest).1, ha', hb', nextDouble_end, readType_loadType,
    (scale_read hk none [] []).2, ht, Outcome.bind_throw]

end NastranWrite
end Vega
