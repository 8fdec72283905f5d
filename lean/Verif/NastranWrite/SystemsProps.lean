import Verif.Geom.Cord2Props
import Verif.NastranWrite.GridProps
import Verif.NastranWrite.Systems

/-! # C138: coordinate systems read from Nastran and written to Nastran -/
namespace Vega

/-! ## Specification -/
namespace CordSpec
open NastranWrite WriteSpec PressureSpec

/-- The fields of three coordinates. -/
def point (v : V3) : List Arg := [.real v.x, .real v.y, .real v.z]

/-- The fields of a card CORD2C, CORD2R or CORD2S: its number, the number of the system of reference or a blank, three points. -/
def cord2Fields (cid : Int) (rid : Option Int) (a b c : V3) : List Arg :=
  [.int cid, optInt rid] ++ (point a ++ (point b ++ point c))

/-- The fields of a card CORD1R. -/
def cord1Fields (l : List Cord1) : List Arg :=
  l.flatMap fun s => [.int s.cid, .int s.a, .int s.b, .int s.c]

/-- The names of cards that give a system by three points. -/
def cardOf : CsKind → Option Text
  | .cartesian => some "CORD2R".toList
  | .cylindrical => some "CORD2C".toList
  | .spherical => some "CORD2S".toList
  | .orientation => none

end CordSpec

namespace NastranWrite
open Nastran FieldSpec FixedSpec WriteSpec RigidSpec SpcCardSpec LoadSpec PressureSpec CordSpec
open CellSpec (Number)

/-! ## Lemmas -/

theorem cardOf_name {k : CsKind} {name : Text} (h : cardOf k = some name) : Name false name ∧ name.isEmpty = false ∧
    toUpper (trim (toUpper (trimRight name))) = name := by
  cases k <;> simp only [cardOf, Option.some.injEq, reduceCtorEq] at h <;> subst h <;>
    exact ⟨⟨by decide, by decide, by decide⟩, by decide, by decide⟩

theorem says_point {v : V3} {t1 t2 t3 : Text} (h1 : Says (.real v.x) t1) (h2 : Says (.real v.y) t2) (h3 : Says (.real v.z) t3) :
    ∃ w, NearVec v w ∧ ∀ pre rest, nextPoint (after pre (t1 :: t2 :: t3 :: rest)) =
      .ok (w, after (pre ++ [t1] ++ [t2] ++ [t3]) rest) := by
  obtain ⟨x, hx, rx⟩ := says_real_read h1
  obtain ⟨y, hy, ry⟩ := says_real_read h2
  obtain ⟨z, hz, rz⟩ := says_real_read h3
  refine ⟨⟨x, y, z⟩, ⟨hx, hy, hz⟩, fun pre rest => ?_⟩
  simp only [nextPoint, rx, ry, rz, Outcome.bind_ok]

theorem digits_dot : ∀ (l : Nastran.Line) (acc : Nat), '.' ∈ l → digits? acc l = none := by
  intro l
  induction l with
  | nil => intro _ h; cases h
  | cons c r ih =>
    intro acc h
    simp only [digits?]
    rcases List.mem_cons.mp h with rfl | h
    · rfl
    · cases digit? c with
      | none => rfl
      | some d => exact ih _ h

theorem parseInt_dot {l : Nastran.Line} (h : '.' ∈ l) : parseInt l = none := by
  unfold parseInt
  cases l with
  | nil => cases h
  | cons c r =>
    by_cases h1 : c = '-'
    · subst h1
      have hr : '.' ∈ r := by simpa using h
      cases r with
      | nil => cases hr
      | cons d s => simp [digits_dot _ _ hr]
    · by_cases h2 : c = '+'
      · subst h2
        have hr : '.' ∈ r := by simpa using h
        cases r with
        | nil => cases hr
        | cons d s => simp [digits_dot _ _ hr]
      · simp [h1, h2, digits_dot _ _ h]

/-- A real is not an integer. -/
theorem says_real_refused {x : ℚ} {t : Text} (hs : Says (.real x) t) (d : Option Int) (pre rest : List Nastran.Line) :
    nextInt d (after pre (t :: rest)) = .throw := by
  have h := says_real_trim hs
  have hne := says_real_ne hs
  unfold nextInt
  rw [next_after]
  simp only [trim_trimRight]
  rw [h] at hne ⊢
  rw [hne, parseInt_dot hs.1]
  rfl

theorem says_int_seq {n : Int} {t : Text} (hs : Says (.int n) t) : t = decimal n := hs

theorem cord1_loop : ∀ (l : List Cord1), (∀ s ∈ l, Number s.cid ∧ Number s.a ∧ Number s.b ∧ Number s.c) → ∀ (texts pre : List Text) (n : Nat),
    List.Forall₂ Says (cord1Fields l) texts → l.length < n →
    ∃ pre', cord1Loop n (after pre texts) = .ok (l, after pre' []) := by
  intro l
  induction l with
  | nil =>
    intro _ texts pre n h hn
    obtain ⟨m, rfl⟩ : ∃ m, n = m + 1 := ⟨n - 1, by simp only [List.length_nil] at hn; omega⟩
    cases h
    exact ⟨pre, rfl⟩
  | cons s r ih =>
    intro hl texts pre n h hn
    obtain ⟨m, rfl⟩ : ∃ m, n = m + 1 := ⟨n - 1, by simp only [List.length_cons] at hn; omega⟩
    simp only [cord1Fields, List.flatMap_cons, List.cons_append, List.nil_append] at h
    obtain _ | ⟨k0, h⟩ := h
    obtain _ | ⟨k1, h⟩ := h
    obtain _ | ⟨k2, h⟩ := h
    obtain _ | ⟨k3, h⟩ := h
    rename_i t0 t1 t2 t3 ts
    obtain ⟨g0, g1, g2, g3⟩ := hl s (by simp)
    obtain ⟨pre', e⟩ := ih (fun s hs => hl s (by simp [hs])) _ (pre ++ [t0] ++ [t1] ++ [t2] ++ [t3]) m h
      (by simp only [List.length_cons] at hn; omega)
    refine ⟨pre', ?_⟩
    simp only [cord1Loop, says_int_isInt k0, Outcome.bind_ok, if_true, says_int_read k0 g0, says_int_read k1 g1, says_int_read k2 g2,
      says_int_read k3 g3, e]

theorem forall_length {l : List Cord1} {texts : List Text} (h : List.Forall₂ Says (cord1Fields l) texts) : texts.length = 4 * l.length := by
  rw [← h.length_eq]
  unfold cord1Fields
  simp only [List.length_flatMap, List.length_cons, List.length_nil]
  simp
  omega

/-! ## Properties -/

/-- **C138** (reading, three points): a card CORD2R, CORD2C or CORD2S gives its number and the system with the origin A, the z axis
towards B and C in the half-plane of x, in the given system of reference, with the coordinates to the precision of a field. -/
theorem C138_points_partial (counter : Nat) (kind : CsKind) (name : Text) (cid : Int) (rid : Option Int) (a b c : V3)
    (rest : List Nastran.Line) (hname : cardOf kind = some name) (h1 : Number cid) (h2 : ∀ n ∈ rid, Number n)
    (ha : Finite a) (hb : Finite b) (hc : Finite c) (hcount : counter + 1 < 10 ^ 7) (hnew : NewCard rest) :
    ∃ lines counter' texts r, writeCard counter name (cord2Fields cid rid a b c) = some (lines, counter') ∧
      nextLine (lines ++ rest) = .ok (some (texts, afterComments rest)) ∧
      readBulk parseCORD2 texts = .ok r ∧ r.cid = cid ∧ NearVec a r.a ∧ NearVec b r.b ∧ NearVec c r.c ∧
      (Vec.cross (Vec.sub r.b.toVec r.a.toVec) (Vec.sub r.c.toVec r.a.toVec) ≠ Vec.zero →
        (r.system kind).kind = kind ∧ (r.system kind).origin = some r.a.toVec ∧
        (r.system kind).rcs = (if rid.getD 0 = 0 then none else some (rid.getD 0).toNat) ∧
        ∃ x, (r.system kind).axes = some x ∧ CsSpec.Direct x ∧ CsSpec.SameDirection x.ez (Vec.sub r.b.toVec r.a.toVec) ∧
          CsSpec.InHalfPlane (Vec.sub r.b.toVec r.a.toVec) (Vec.sub r.c.toVec r.a.toVec) x.ex) := by
  obtain ⟨n1, n2, n3⟩ := cardOf_name hname
  have hfit : ∀ x ∈ cord2Fields cid rid a b c, Fits x := by
    intro x hx
    simp only [cord2Fields, point, List.cons_append, List.nil_append, List.mem_cons, List.not_mem_nil, or_false] at hx
    rcases hx with rfl | rfl | rfl | rfl | rfl | rfl | rfl | rfl | rfl | rfl | rfl
    · exact h1
    · exact fits_optInt h2
    · exact ha.1
    · exact ha.2.1
    · exact ha.2.2
    · exact hb.1
    · exact hb.2.1
    · exact hb.2.2
    · exact hc.1
    · exact hc.2.1
    · exact hc.2.2
  obtain ⟨lines, counter', texts, g1, g2, -, -, g5⟩ := C78_card_partial counter name _ rest n1 hfit
    (by simp only [cord2Fields, point, List.length_append, List.length_cons, List.length_nil]; omega) hnew
  simp only [cord2Fields, point, List.cons_append, List.nil_append] at g2
  obtain _ | ⟨k0, hs⟩ := g2
  obtain _ | ⟨k1, hs⟩ := hs
  obtain _ | ⟨k2, hs⟩ := hs
  obtain _ | ⟨k3, hs⟩ := hs
  obtain _ | ⟨k4, hs⟩ := hs
  obtain _ | ⟨k5, hs⟩ := hs
  obtain _ | ⟨k6, hs⟩ := hs
  obtain _ | ⟨k7, hs⟩ := hs
  obtain _ | ⟨k8, hs⟩ := hs
  obtain _ | ⟨k9, hs⟩ := hs
  obtain _ | ⟨k10, hs⟩ := hs
  cases hs
  obtain ⟨a', ha', ra⟩ := says_point k2 k3 k4
  obtain ⟨b', hb', rb⟩ := says_point k5 k6 k7
  obtain ⟨c', hc', rc⟩ := says_point k8 k9 k10
  refine ⟨lines, counter', _, ⟨cid, rid.getD 0, a', b', c'⟩, g1, g5, ?_, rfl, ha', hb', hc', fun hne => ?_⟩
  · unfold readBulk
    rw [keyword_read n2 n3]
    simp only [Outcome.bind_ok, parseCORD2, says_int_read k0 h1, says_optInt k1 h2, ra, rb, rc, isEmpty_end, if_true]
  · obtain ⟨e1, e2, e3, x, e4⟩ := Cord2Spec.C60_axes kind a'.toVec b'.toVec c'.toVec
      (if rid.getD 0 = 0 then none else some (rid.getD 0).toNat) hne
    exact ⟨e1, e3, e2, x, e4⟩

/-- **C138** (reading, three nodes): a card CORD1R gives all its systems, in their order, with their nodes. -/
theorem C138_nodes_partial (counter : Nat) (l : List Cord1) (rest : List Nastran.Line)
    (hl : ∀ s ∈ l, Number s.cid ∧ Number s.a ∧ Number s.b ∧ Number s.c) (hcount : counter + l.length < 10 ^ 7) (hnew : NewCard rest) :
    ∃ lines counter' texts, writeCard counter "CORD1R".toList (cord1Fields l) = some (lines, counter') ∧
      nextLine (lines ++ rest) = .ok (some (texts, afterComments rest)) ∧ readBulk parseCORD1R texts = .ok l := by
  have hfit : ∀ x ∈ cord1Fields l, Fits x := by
    intro x hx
    simp only [cord1Fields, List.mem_flatMap, List.mem_cons, List.not_mem_nil, or_false] at hx
    obtain ⟨s, hs, hx⟩ := hx
    obtain ⟨q0, q1, q2, q3⟩ := hl s hs
    rcases hx with rfl | rfl | rfl | rfl
    · exact q0
    · exact q1
    · exact q2
    · exact q3
  have hlen : (cord1Fields l).length = 4 * l.length := by
    unfold cord1Fields
    simp only [List.length_flatMap, List.length_cons, List.length_nil]
    simp
    omega
  obtain ⟨lines, counter', texts, g1, g2, -, -, g5⟩ := C78_card_partial counter "CORD1R".toList _ rest
    ⟨by decide, by decide, by decide⟩ hfit (by rw [hlen]; omega) hnew
  refine ⟨lines, counter', _, g1, g5, ?_⟩
  obtain ⟨pre', e⟩ := cord1_loop l hl texts ["CORD1R".toList] ((after ["CORD1R".toList] texts).fields.length + 1) g2 (by
    have := forall_length g2
    simp only [after, List.length_append, List.length_cons, List.length_nil]
    omega)
  unfold readBulk
  rw [keyword_read (by decide) (by decide)]
  simp only [Outcome.bind_ok, parseCORD1R, e, isEmpty_end, if_true]

/-- **C138 is false for the writing of any system**: the card written has the origin from the field of the system of reference on, and
neither of the two other points; the program's own reader refuses it, whatever the system is. -/
theorem C138_written_false (counter : Nat) (kind : CsKind) (id : Int) (origin : V3) (rest : List Nastran.Line) (hk : kind ≠ .orientation)
    (h1 : Number id) (hv : Finite origin) (hcount : counter + 1 < 10 ^ 7) (hnew : NewCard rest) :
    ∃ name lines counter' texts, cordName kind = some name ∧ writeCard counter name (cordArgs id origin) = some (lines, counter') ∧
      nextLine (lines ++ rest) = .ok (some (texts, afterComments rest)) ∧ readBulk parseCORD2 texts = .throw := by
  obtain ⟨name, hname, n1, n2, n3⟩ : ∃ name, cordName kind = some name ∧ Name false name ∧ name.isEmpty = false ∧
      toUpper (trim (toUpper (trimRight name))) = name := by
    cases kind with
    | cartesian => exact ⟨_, rfl, cardOf_name (k := .cartesian) rfl⟩
    | cylindrical => exact ⟨_, rfl, cardOf_name (k := .cylindrical) rfl⟩
    | spherical => exact ⟨_, rfl, cardOf_name (k := .cylindrical) rfl⟩
    | orientation => exact absurd rfl hk
  have hfit : ∀ x ∈ cordArgs id origin, Fits x := by
    intro x hx
    simp only [cordArgs, List.mem_cons, List.not_mem_nil, or_false] at hx
    rcases hx with rfl | rfl | rfl | rfl
    · exact h1
    · exact hv.1
    · exact hv.2.1
    · exact hv.2.2
  obtain ⟨lines, counter', texts, g1, g2, -, -, g5⟩ := C78_card_partial counter name _ rest n1 hfit
    (by simp only [cordArgs, List.length_cons, List.length_nil]; omega) hnew
  obtain _ | ⟨k0, hs⟩ := g2
  obtain _ | ⟨k1, hs⟩ := hs
  refine ⟨name, lines, counter', _, hname, g1, g5, ?_⟩
  unfold readBulk
  rw [keyword_read n2 n3]
  simp only [Outcome.bind_ok, parseCORD2, says_int_read k0 h1, says_real_refused k1]
  rfl

/-- A spherical system is written under the name of cylindrical ones. -/
theorem C138_spherical_false : cordName .spherical = cardOf .cylindrical ∧ cordName .spherical ≠ cardOf .spherical := by
  decide

/-- Hypotheses that are met: a system in system 3 at (1, 2, 3), with z towards (1, 2, 5) and (4, 2, 3) in the plane of x. -/
example : Number 7 ∧ Number 3 ∧ (⟨1, 2, 3⟩ : V3).toVec ≠ (⟨1, 2, 5⟩ : V3).toVec ∧
    Vec.cross (Vec.sub (⟨1, 2, 5⟩ : V3).toVec (⟨1, 2, 3⟩ : V3).toVec) (Vec.sub (⟨4, 2, 3⟩ : V3).toVec (⟨1, 2, 3⟩ : V3).toVec) ≠ Vec.zero := by
  refine ⟨by decide, by decide, fun h => ?_, fun h => ?_⟩
  · have := congrArg Vec.z h
    simp only [V3.toVec] at this
    norm_num at this
  · have := congrArg Vec.y h
    simp only [V3.toVec, Vec.cross, Vec.sub, Vec.zero] at this
    norm_num at this

/-- Two systems on one card CORD1R. -/
example : readBulk parseCORD1R ["CORD1R".toList, "3".toList, "16".toList, "32".toList, "19".toList, "4".toList, "1".toList, "2".toList, "5".toList] =
    .ok [⟨3, 16, 32, 19⟩, ⟨4, 1, 2, 5⟩] := by
  decide +kernel

end NastranWrite
end Vega
