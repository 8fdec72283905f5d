import Verif.NastranWrite.Bush
import Verif.NastranWrite.MassProps

/-! # C93: springs and dampers, read from Nastran and written to Nastran -/
namespace Vega

/-! ## Specification -/
namespace BushSpec
open NastranWrite WriteSpec PressureSpec PropertySpec

/-- A stiffness on the card: nothing, a number or the word RIGID. -/
inductive Stiffness where
  | blank
  | value (x : ℚ)
  | rigid

def Stiffness.arg : Stiffness → Arg
  | .blank => .blank
  | .value x => .real x
  | .rigid => .text "RIGID".toList

/-- The number is what the field says: zero, the number up to the precision of a field, or the largest double. -/
def Stiffness.Means (s : Stiffness) (y : ℚ) : Prop :=
  match s with
  | .blank => y = 0
  | .value x => Near x y
  | .rigid => y = dblMax

/-- A row of the card: stiffness K, damping B, structural damping GE or stress recovery RCV. -/
inductive Row where
  | k (v : Fin 6 → Stiffness)
  | b (v : Fin 6 → Option ℚ)
  | ge (v : Fin 6 → Option ℚ)
  | rcv (v : Fin 4 → Option ℚ)

def six {α : Type} (f : Fin 6 → α) : List α := [f 0, f 1, f 2, f 3, f 4, f 5]

/-- The seven fields of a row from its flag on. -/
def Row.fields : Row → List Arg
  | .k v => .text "K".toList :: (six v).map Stiffness.arg
  | .b v => .text "B".toList :: (six v).map optReal
  | .ge v => .text "GE".toList :: (six v).map optReal
  | .rcv v => [.text "RCV".toList, optReal (v 0), optReal (v 1), optReal (v 2), optReal (v 3), .blank, .blank]

/-- The fields of the card, line by line: the number of the property and the first row; a blank and the next row; and so
on. -/
def bushFields (id : Int) (first : Row) (others : List Row) : List Arg :=
  .int id :: first.fields ++ others.flatMap fun r => .blank :: r.fields

def Row.isK : Row → Bool
  | .k _ => true
  | _ => false

def Row.isB : Row → Bool
  | .b _ => true
  | _ => false

def Row.kValues : Row → Fin 6 → Stiffness
  | .k v => v
  | _ => fun _ => .blank

def Row.bValues : Row → Fin 6 → Option ℚ
  | .b v => v
  | _ => fun _ => none

/-- The stiffnesses of the last row K, none without such a row. -/
def stiffnesses : List Row → Fin 6 → Stiffness
  | [] => fun _ => .blank
  | r :: rs => if rs.any Row.isK then stiffnesses rs else r.kValues

/-- The dampings of the last row B, none without such a row. -/
def dampings : List Row → Fin 6 → Option ℚ
  | [] => fun _ => none
  | r :: rs => if rs.any Row.isB then dampings rs else r.bValues

/-- The numbers are doubles. -/
def Row.Doubles : Row → Prop
  | .k v => ∀ i, match v i with | .value x => |x| ≤ dblMax | _ => True
  | .b v => ∀ i, ∀ x ∈ v i, |x| ≤ dblMax
  | .ge v => ∀ i, ∀ x ∈ v i, |x| ≤ dblMax
  | .rcv v => ∀ i, ∀ x ∈ v i, |x| ≤ dblMax

/-- The stiffness, mass or damping of a segment in a direction. -/
def along (s : StructuralSegment) (q : Quantity) (i : Fin 6) : ℚ := (s.matrix q).findComponent (MassSpec.dofOf i) (MassSpec.dofOf i)

end BushSpec

namespace NastranWrite
open Nastran FieldSpec FixedSpec WriteSpec RigidSpec SpcCardSpec LoadSpec PressureSpec MaterialSpec PropertySpec MassSpec
open BushSpec
open CellSpec (Number)

/-! ## Helper lemmas -/

theorem pbush_name : Name false "PBUSH".toList := ⟨by decide, by decide, by decide⟩

theorem stiffness_read {s : Stiffness} {t : Text} (hs : Says s.arg t) :
    ∃ y, s.Means y ∧ ∀ pre rest, bushStiffness (after pre (t :: rest)) = .ok (y, after (pre ++ [t]) rest) := by
  cases s with
  | blank =>
    have : t = [] := hs
    subst this
    refine ⟨0, rfl, fun pre rest => ?_⟩
    unfold bushStiffness
    simp only [isNextDouble_blank, Outcome.bind_ok, Bool.false_eq_true, if_false, isNextEmpty_after, nextDouble_blank]
    rfl
  | value x =>
    obtain ⟨y, hy, hr⟩ := says_real_read hs
    refine ⟨y, hy, fun pre rest => ?_⟩
    unfold bushStiffness
    simp only [says_real_isDouble hs, Outcome.bind_ok, if_true, hr]
  | rigid =>
    have : t = "RIGID".toList := hs
    subst this
    refine ⟨dblMax, rfl, fun pre rest => ?_⟩
    unfold bushStiffness
    have h1 : isNextDouble (after pre ("RIGID".toList :: rest)) = .ok false := by
      rw [isNextDouble_after]; rfl
    have h2 : isNextEmpty 1 (after pre ("RIGID".toList :: rest)) = .ok false := by
      rw [isNextEmpty_after]; rfl
    rw [h1]
    simp only [Outcome.bind_ok, Bool.false_eq_true, if_false, h2]
    rw [nextString_after (by decide) (by decide)]
    simp only [Outcome.bind_ok, if_true]

theorem values_read {β : Type} {arg : β → Arg} {Means : β → ℚ → Prop} {read : Cursor → Outcome (ℚ × Cursor)}
    (h : ∀ {s : β} {t : Text}, Says (arg s) t →
      ∃ y, Means s y ∧ ∀ pre rest, read (after pre (t :: rest)) = .ok (y, after (pre ++ [t]) rest)) :
    ∀ {l : List β} {ts : List Text}, List.Forall₂ Says (l.map arg) ts →
      ∃ ys, List.Forall₂ Means l ys ∧ ∀ pre rest,
        bushValues read l.length (after pre (ts ++ rest)) = .ok (ys, after (pre ++ ts) rest)
  | [], ts, hs => by
    cases hs
    exact ⟨[], .nil, fun pre rest => by simp [bushValues]⟩
  | s :: l, ts, hs => by
    obtain _ | ⟨k, hs⟩ := hs
    obtain ⟨y, hy, hr⟩ := h k
    obtain ⟨ys, hys, hrs⟩ := values_read h hs
    refine ⟨y :: ys, .cons hy hys, fun pre rest => ?_⟩
    simp only [List.length_cons, bushValues, List.cons_append, hr, Outcome.bind_ok, hrs]
    simp

theorem skip_blanks (n : Nat) : ∀ (j : Nat) (pre : List Nastran.Line) (t : Nastran.Line) (rest : List Nastran.Line),
    j ≤ n → (trim t).isEmpty = false →
    skipToNotEmpty (n + 1) (after pre (List.replicate j [] ++ t :: rest)) =
      .ok (after (pre ++ List.replicate j []) (t :: rest)) := by
  induction n with
  | zero =>
    intro j pre t rest hj ht
    have : j = 0 := by omega
    subst this
    simp [skipToNotEmpty, isNextEmpty_after, ht]
  | succ n ih =>
    intro j pre t rest hj ht
    cases j with
    | zero => simp [skipToNotEmpty, isNextEmpty_after, ht]
    | succ j =>
      rw [List.replicate_succ, List.cons_append, skipToNotEmpty, isNextEmpty_after]
      simp only [Outcome.bind_ok]
      rw [if_pos (by rfl : List.isEmpty (trim []) = true)]
      simp only [skip_after, List.take_succ_cons, List.take_zero, List.drop_succ_cons, List.drop_zero, Outcome.bind_ok]
      rw [ih j _ t rest (by omega) ht]
      simp

theorem isEmpty_blanks (j : Nat) (pre : List Nastran.Line) :
    isEmptyUntilNextKeyword (after pre (List.replicate j [])) = true := by
  cases j with
  | zero => rfl
  | succ j =>
    unfold isEmptyUntilNextKeyword
    have hs : (after pre (List.replicate (j + 1) [])).sym = .field := by rw [List.replicate_succ]; rfl
    rw [hs, if_neg (by simp), if_neg (by simp)]
    have : (after pre (List.replicate (j + 1) [])).fields.drop (after pre (List.replicate (j + 1) [])).pos =
        List.replicate (j + 1) [] := by simp [after]
    rw [this, List.all_eq_true]
    intro f hf
    rw [List.eq_of_mem_replicate hf]
    rfl

/-- A turn of the loop up to the flag. -/
theorem bushLoop_flag (n j : Nat) (v : BushValues) (pre : List Nastran.Line) (flag : Nastran.Line)
    (rest : List Nastran.Line) (hne : flag.isEmpty = false) (hup : toUpper (trim (trimRight flag)) = flag)
    (ht : (trim flag).isEmpty = false) :
    bushLoop (n + 1) v (after pre (List.replicate j [] ++ flag :: rest)) =
      (bushFlag flag v (after (pre ++ List.replicate j [] ++ [flag]) rest) >>= fun r => bushLoop n r.1 r.2) := by
  rw [bushLoop, isEmpty_after_false (t := flag) (by simp) ht]
  simp only [Bool.false_eq_true, if_false]
  rw [skip_blanks _ j pre flag rest (by simp [after]; omega) ht]
  simp only [Outcome.bind_ok, nextString_after hne hup]

theorem fits_row {r : Row} (h : r.Doubles) : ∀ a ∈ r.fields, Fits a := by
  have e1 : Fits (.text "K".toList) := ⟨by decide, by decide, by decide, by decide⟩
  have e2 : Fits (.text "B".toList) := ⟨by decide, by decide, by decide, by decide⟩
  have e3 : Fits (.text "GE".toList) := ⟨by decide, by decide, by decide, by decide⟩
  have e4 : Fits (.text "RCV".toList) := ⟨by decide, by decide, by decide, by decide⟩
  have e5 : Fits (.text "RIGID".toList) := ⟨by decide, by decide, by decide, by decide⟩
  intro a ha
  cases r with
  | k v =>
    rw [Row.fields, List.mem_cons, List.mem_map] at ha
    rcases ha with rfl | ⟨s, hs, rfl⟩
    · exact e1
    · have : ∃ i, s = v i := by
        simp only [six, List.mem_cons, List.not_mem_nil, or_false] at hs
        rcases hs with h | h | h | h | h | h <;> exact ⟨_, h⟩
      obtain ⟨i, rfl⟩ := this
      have hi := h i
      cases hv : v i with
      | blank => trivial
      | value x => rw [hv] at hi; exact hi
      | rigid => exact e5
  | b v =>
    rw [Row.fields, List.mem_cons, List.mem_map] at ha
    rcases ha with rfl | ⟨s, hs, rfl⟩
    · exact e2
    · simp only [six, List.mem_cons, List.not_mem_nil, or_false] at hs
      rcases hs with rfl | rfl | rfl | rfl | rfl | rfl <;> exact fits_optReal (h _)
  | ge v =>
    rw [Row.fields, List.mem_cons, List.mem_map] at ha
    rcases ha with rfl | ⟨s, hs, rfl⟩
    · exact e3
    · simp only [six, List.mem_cons, List.not_mem_nil, or_false] at hs
      rcases hs with rfl | rfl | rfl | rfl | rfl | rfl <;> exact fits_optReal (h _)
  | rcv v =>
    simp only [Row.fields, List.mem_cons, List.not_mem_nil, or_false] at ha
    rcases ha with rfl | rfl | rfl | rfl | rfl | rfl | rfl
    · exact e4
    · exact fits_optReal (h _)
    · exact fits_optReal (h _)
    · exact fits_optReal (h _)
    · exact fits_optReal (h _)
    · trivial
    · trivial

/-- The values after a row. -/
def Updates (r : Row) (v v' : BushValues) : Prop :=
  match r with
  | .k f => List.Forall₂ Stiffness.Means (six f) v'.k ∧ v'.b = v.b
  | .b f => List.Forall₂ (NearOr 0) (six f) v'.b ∧ v'.k = v.k
  | _ => v' = v

/-- One row: it leaves blanks alone. -/
theorem row_read {r : Row} {ts : List Text} (hs : List.Forall₂ Says r.fields ts) :
    ∀ v, ∃ v', Updates r v v' ∧ ∃ j', ∀ j n pre rest, ∃ pre', pre' ++ List.replicate j' [] ++ rest = pre ++ List.replicate j [] ++ ts ++ rest ∧
      bushLoop (n + 1) v (after pre (List.replicate j [] ++ ts ++ rest)) =
        bushLoop n v' (after pre' (List.replicate j' [] ++ rest)) := by
  have nK : ("B".toList = "K".toList) = False := by simp only [eq_iff_iff, iff_false]; decide
  have n1 : ("GE".toList = "K".toList) = False := by simp only [eq_iff_iff, iff_false]; decide
  have n2 : ("GE".toList = "B".toList) = False := by simp only [eq_iff_iff, iff_false]; decide
  have n3 : ("RCV".toList = "K".toList) = False := by simp only [eq_iff_iff, iff_false]; decide
  have n4 : ("RCV".toList = "B".toList) = False := by simp only [eq_iff_iff, iff_false]; decide
  have n5 : ("RCV".toList = "GE".toList) = False := by simp only [eq_iff_iff, iff_false]; decide
  intro v
  cases r with
  | k f =>
    obtain _ | ⟨k0, hs⟩ := hs
    rename_i t0 ts
    have : t0 = "K".toList := k0
    subst this
    obtain ⟨ys, hys, hr⟩ := values_read (fun h => stiffness_read h) hs
    refine ⟨⟨ys, v.b⟩, ⟨hys, rfl⟩, 0, fun j n pre rest => ⟨pre ++ List.replicate j [] ++ "K".toList :: ts, by simp, ?_⟩⟩
    rw [List.append_assoc, List.cons_append, bushLoop_flag n j v pre _ _ (by decide) (by decide) (by decide), bushFlag]
    simp only [if_true]
    have h6 : (six f).length = 6 := rfl
    rw [h6] at hr
    rw [hr]
    simp
  | b f =>
    obtain _ | ⟨k0, hs⟩ := hs
    rename_i t0 ts
    have : t0 = "B".toList := k0
    subst this
    obtain ⟨ys, hys, hr⟩ := values_read (fun h => says_optReal_or 0 h) hs
    refine ⟨⟨v.k, ys⟩, ⟨hys, rfl⟩, 0, fun j n pre rest => ⟨pre ++ List.replicate j [] ++ "B".toList :: ts, by simp, ?_⟩⟩
    rw [List.append_assoc, List.cons_append, bushLoop_flag n j v pre _ _ (by decide) (by decide) (by decide), bushFlag]
    simp only [nK, if_true, if_false]
    have h6 : (six f).length = 6 := rfl
    rw [h6] at hr
    rw [hr]
    simp
  | ge f =>
    obtain _ | ⟨k0, hs⟩ := hs
    rename_i t0 ts
    have : t0 = "GE".toList := k0
    subst this
    obtain ⟨ys, hys, hr⟩ := values_read (fun h => says_optReal_or 0 h) hs
    refine ⟨v, rfl, 0, fun j n pre rest => ⟨pre ++ List.replicate j [] ++ "GE".toList :: ts, by simp, ?_⟩⟩
    rw [List.append_assoc, List.cons_append, bushLoop_flag n j v pre _ _ (by decide) (by decide) (by decide), bushFlag]
    simp only [n1, n2, if_true, if_false]
    have h6 : (six f).length = 6 := rfl
    rw [h6] at hr
    rw [hr]
    simp
  | rcv f =>
    obtain _ | ⟨k0, hs⟩ := hs
    rename_i t0 ts
    have : t0 = "RCV".toList := k0
    subst this
    obtain _ | ⟨k1, hs⟩ := hs
    obtain _ | ⟨k2, hs⟩ := hs
    obtain _ | ⟨k3, hs⟩ := hs
    obtain _ | ⟨k4, hs⟩ := hs
    obtain _ | ⟨k5, hs⟩ := hs
    obtain _ | ⟨k6, hs⟩ := hs
    cases hs
    rename_i t1 t2 t3 t4 t5 t6
    have e5 : t5 = [] := k5
    have e6 : t6 = [] := k6
    subst e5 e6
    obtain ⟨y1, -, r1⟩ := says_optReal_or 1 k1
    obtain ⟨y2, -, r2⟩ := says_optReal_or 1 k2
    obtain ⟨y3, -, r3⟩ := says_optReal_or 1 k3
    obtain ⟨y4, -, r4⟩ := says_optReal_or 1 k4
    refine ⟨v, rfl, 2, fun j n pre rest =>
      ⟨pre ++ List.replicate j [] ++ "RCV".toList :: [t1, t2, t3, t4], by simp [List.replicate], ?_⟩⟩
    rw [List.append_assoc, List.cons_append, bushLoop_flag n j v pre _ _ (by decide) (by decide) (by decide), bushFlag]
    simp only [n3, n4, n5, if_true, if_false, bushValues, List.cons_append, List.nil_append, r1, r2, r3, r4,
      Outcome.bind_ok]
    simp [List.replicate]

/-- The values after some rows. -/
inductive Kept : List Row → BushValues → BushValues → Prop
  | nil (v : BushValues) : Kept [] v v
  | cons {r : Row} {rs : List Row} {v v1 v2 : BushValues} : Updates r v v1 → Kept rs v1 v2 → Kept (r :: rs) v v2

/-- All the rows, each after a blank. -/
theorem rows_read : ∀ {rs : List Row} {ts : List Text}, List.Forall₂ Says (rs.flatMap fun r => .blank :: r.fields) ts →
    ∀ v, ∃ v', Kept rs v v' ∧ ∀ j n pre, ∃ pre' j', bushLoop (n + rs.length + 1) v (after pre (List.replicate j [] ++ ts)) =
      .ok (v', after pre' (List.replicate j' []))
  | [], ts, hs => by
    cases hs
    intro v
    refine ⟨v, .nil v, fun j n pre => ⟨pre, j, ?_⟩⟩
    simp only [List.append_nil, bushLoop, isEmpty_blanks, if_true]
  | r :: rs, ts, hs => by
    intro v
    rw [List.flatMap_cons] at hs
    obtain ⟨u1, u2, hs1, hs2, rfl⟩ : ∃ u1 u2, List.Forall₂ Says (Arg.blank :: r.fields) u1 ∧
        List.Forall₂ Says (rs.flatMap fun r => .blank :: r.fields) u2 ∧ ts = u1 ++ u2 := by
      refine ⟨ts.take (Arg.blank :: r.fields).length, ts.drop (Arg.blank :: r.fields).length, ?_, ?_,
        (List.take_append_drop _ _).symm⟩
      · have := List.forall₂_take (Arg.blank :: r.fields).length hs
        rwa [List.take_left] at this
      · have := List.forall₂_drop (Arg.blank :: r.fields).length hs
        rwa [List.drop_left] at this
    obtain _ | ⟨k0, hs1⟩ := hs1
    rename_i t0 ts1
    have : t0 = [] := k0
    subst this
    obtain ⟨v1, hv1, j1, hr1⟩ := row_read hs1 v
    obtain ⟨v2, hv2, hr2⟩ := rows_read hs2 v1
    refine ⟨v2, .cons hv1 hv2, fun j n pre => ?_⟩
    obtain ⟨pre1, -, e1⟩ := hr1 (j + 1) (n + rs.length + 1) pre u2
    obtain ⟨pre2, j2, e2⟩ := hr2 j1 n pre1
    refine ⟨pre2, j2, ?_⟩
    rw [← e2, ← e1]
    congr 2
    simp [List.replicate_succ']

theorem kept_stiffness : ∀ {rs : List Row} {v v' : BushValues}, Kept rs v v' →
    (v'.k = v.k ∧ rs.any Row.isK = false) ∨
    (List.Forall₂ Stiffness.Means (six (stiffnesses rs)) v'.k ∧
      rs.any Row.isK = true)
  | [], _, _, .nil _ => .inl ⟨rfl, rfl⟩
  | r :: rs, v, v', .cons (v1 := v1) hu hk => by
    rcases kept_stiffness hk with ⟨h1, h2⟩ | ⟨h1, h2⟩
    · cases r with
      | k f => exact .inr ⟨by simpa [stiffnesses, h2, h1, Row.kValues] using hu.1, by simp [Row.isK]⟩
      | b f => exact .inl ⟨by rw [h1]; exact hu.2, by simpa [Row.isK] using h2⟩
      | ge f => exact .inl ⟨by rw [h1, show v1 = v from hu], by simpa [Row.isK] using h2⟩
      | rcv f => exact .inl ⟨by rw [h1, show v1 = v from hu], by simpa [Row.isK] using h2⟩
    · refine .inr ⟨?_, ?_⟩
      · rw [stiffnesses, if_pos h2]; exact h1
      · rw [List.any_cons, h2, Bool.or_true]

theorem kept_damping : ∀ {rs : List Row} {v v' : BushValues}, Kept rs v v' →
    (v'.b = v.b ∧ rs.any Row.isB = false) ∨
    (List.Forall₂ (NearOr 0) (six (dampings rs)) v'.b ∧
      rs.any Row.isB = true)
  | [], _, _, .nil _ => .inl ⟨rfl, rfl⟩
  | r :: rs, v, v', .cons (v1 := v1) hu hk => by
    rcases kept_damping hk with ⟨h1, h2⟩ | ⟨h1, h2⟩
    · cases r with
      | b f => exact .inr ⟨by simpa [dampings, h2, h1, Row.bValues] using hu.1, by simp [Row.isB]⟩
      | k f => exact .inl ⟨by rw [h1]; exact hu.2, by simpa [Row.isB] using h2⟩
      | ge f => exact .inl ⟨by rw [h1, show v1 = v from hu], by simpa [Row.isB] using h2⟩
      | rcv f => exact .inl ⟨by rw [h1, show v1 = v from hu], by simpa [Row.isB] using h2⟩
    · refine .inr ⟨?_, ?_⟩
      · rw [dampings, if_pos h2]; exact h1
      · rw [List.any_cons, h2, Bool.or_true]

theorem none_stiffness : ∀ {rs : List Row}, rs.any Row.isK = false →
    stiffnesses rs = fun _ => .blank
  | [], _ => rfl
  | r :: rs, h => by
    rw [List.any_cons, Bool.or_eq_false_iff] at h
    cases r with
    | k f => exact absurd h.1 (by simp [Row.isK])
    | b f => simp [stiffnesses, h.2, Row.kValues]
    | ge f => simp [stiffnesses, h.2, Row.kValues]
    | rcv f => simp [stiffnesses, h.2, Row.kValues]

theorem none_damping : ∀ {rs : List Row}, rs.any Row.isB = false →
    dampings rs = fun _ => none
  | [], _ => rfl
  | r :: rs, h => by
    rw [List.any_cons, Bool.or_eq_false_iff] at h
    cases r with
    | b f => exact absurd h.1 (by simp [Row.isB])
    | k f => simp [dampings, h.2, Row.bValues]
    | ge f => simp [dampings, h.2, Row.bValues]
    | rcv f => simp [dampings, h.2, Row.bValues]

/-- The values read are those of the last rows. -/
theorem kept_values {rs : List Row} {v : BushValues} (h : Kept rs ⟨[0, 0, 0, 0, 0, 0], [0, 0, 0, 0, 0, 0]⟩ v) :
    List.Forall₂ Stiffness.Means (six (stiffnesses rs)) v.k ∧ List.Forall₂ (NearOr 0) (six (dampings rs)) v.b := by
  constructor
  · rcases kept_stiffness h with ⟨h1, h2⟩ | ⟨h1, -⟩
    · rw [h1, none_stiffness h2]
      exact .cons rfl (.cons rfl (.cons rfl (.cons rfl (.cons rfl (.cons rfl .nil)))))
    · exact h1
  · rcases kept_damping h with ⟨h1, h2⟩ | ⟨h1, -⟩
    · rw [h1, none_damping h2]
      exact .cons rfl (.cons rfl (.cons rfl (.cons rfl (.cons rfl (.cons rfl .nil)))))
    · exact h1

/-- The segment that is made of the values. -/
theorem segment_values {f : Fin 6 → Stiffness} {g : Fin 6 → Option ℚ} {v : BushValues}
    (h1 : List.Forall₂ Stiffness.Means (six f) v.k) (h2 : List.Forall₂ (NearOr 0) (six g) v.b) :
    ∃ s, (bushAdd .stiffness (bushDofs.zip v.k) (StructuralSegment.new .DIAGONAL) >>= fun s =>
        bushAdd .damping (bushDofs.zip v.b) s) = .ok s ∧ s.matrixType = .DIAGONAL ∧
      (∀ i, (f i).Means (along s .stiffness i)) ∧ (∀ i, NearOr 0 (g i) (along s .damping i)) ∧
      (∀ i, along s .mass i = 0) := by
  obtain ⟨k, b⟩ := v
  obtain _ | ⟨k0, h1⟩ := h1
  obtain _ | ⟨k1, h1⟩ := h1
  obtain _ | ⟨k2, h1⟩ := h1
  obtain _ | ⟨k3, h1⟩ := h1
  obtain _ | ⟨k4, h1⟩ := h1
  obtain _ | ⟨k5, h1⟩ := h1
  cases h1
  obtain _ | ⟨b0, h2⟩ := h2
  obtain _ | ⟨b1, h2⟩ := h2
  obtain _ | ⟨b2, h2⟩ := h2
  obtain _ | ⟨b3, h2⟩ := h2
  obtain _ | ⟨b4, h2⟩ := h2
  obtain _ | ⟨b5, h2⟩ := h2
  cases h2
  refine ⟨_, rfl, rfl, ?_, ?_, ?_⟩
  · intro i
    fin_cases i
    · exact k0
    · exact k1
    · exact k2
    · exact k3
    · exact k4
    · exact k5
  · intro i
    fin_cases i
    · exact b0
    · exact b1
    · exact b2
    · exact b3
    · exact b4
    · exact b5
  · intro i
    fin_cases i <;> rfl

/-! ## C93 -/

/-- **C93 (partial).** PBUSH with any number of rows in any order is read with the stiffnesses of the last row K and the
dampings of the last row B, blanks counting as zero and RIGID as the largest double; the segment has no mass. -/
theorem C93_read_partial (counter : Nat) (id : Int) (first : Row) (others : List Row) (rest : List Nastran.Line)
    (h1 : Number id) (hr : ∀ r ∈ first :: others, r.Doubles) (hc : counter + others.length + 1 < 10 ^ 7)
    (hnew : NewCard rest) :
    ∃ lines counter' texts q, writeCard counter "PBUSH".toList (bushFields id first others) = some (lines, counter') ∧
      nextLine (lines ++ rest) = .ok (some (texts, afterComments rest)) ∧
      readBulk parsePBUSH texts = .ok q ∧ q.id = id ∧ q.segment.matrixType = .DIAGONAL ∧
      (∀ i, (stiffnesses (first :: others) i).Means (along q.segment .stiffness i)) ∧
      (∀ i, NearOr 0 (dampings (first :: others) i) (along q.segment .damping i)) ∧
      (∀ i, along q.segment .mass i = 0) := by
  have hlen : ∀ r : Row, r.fields.length = 7 := fun r => by cases r <;> rfl
  have hlens : ∀ l : List Row, (l.flatMap fun r => Arg.blank :: r.fields).length = 8 * l.length := by
    intro l
    induction l with
    | nil => rfl
    | cons r l ih => rw [List.flatMap_cons, List.length_append, ih, List.length_cons, hlen, List.length_cons]; omega
  obtain ⟨lines, counter', texts, g1, g2, -, -, g5⟩ := C78_card_partial counter "PBUSH".toList
    (.int id :: first.fields ++ others.flatMap fun r => .blank :: r.fields) rest pbush_name (by
      intro a ha
      rw [List.mem_append, List.mem_cons, List.mem_flatMap] at ha
      rcases ha with (rfl | ha) | ⟨r, hr', ha⟩
      · exact h1
      · exact fits_row (hr _ (by simp)) a ha
      · rcases List.mem_cons.1 ha with rfl | ha
        · trivial
        · exact fits_row (hr _ (by simp [hr'])) a ha)
    (by
      rw [List.length_append, hlens, List.length_cons, hlen]; omega) hnew
  obtain _ | ⟨k0, hs⟩ := g2
  rename_i t0 ts
  obtain ⟨u1, u2, hs1, hs2, rfl⟩ : ∃ u1 u2, List.Forall₂ Says first.fields u1 ∧
      List.Forall₂ Says (others.flatMap fun r => .blank :: r.fields) u2 ∧ ts = u1 ++ u2 := by
    have hs' : List.Forall₂ Says (first.fields ++ others.flatMap fun r => .blank :: r.fields) ts := hs
    refine ⟨ts.take first.fields.length, ts.drop first.fields.length, ?_, ?_, (List.take_append_drop _ _).symm⟩
    · have := List.forall₂_take first.fields.length hs'
      rwa [List.take_left] at this
    · have := List.forall₂_drop first.fields.length hs'
      rwa [List.drop_left] at this
  obtain ⟨v1, hv1, j1, hr1⟩ := row_read hs1 ⟨[0, 0, 0, 0, 0, 0], [0, 0, 0, 0, 0, 0]⟩
  obtain ⟨v2, hv2, hr2⟩ := rows_read hs2 v1
  have hk := kept_values (.cons hv1 hv2)
  obtain ⟨s, hs3, hs4, hs5, hs6, hs7⟩ := segment_values hk.1 hk.2
  have hlen2 : others.length ≤ u2.length := by
    rw [← hs2.length_eq, hlens]; omega
  obtain ⟨n, hn⟩ : ∃ n, (after (["PBUSH".toList] ++ [t0]) (u1 ++ u2)).fields.length + 1 = n + others.length + 1 + 1 := by
    refine ⟨(after (["PBUSH".toList] ++ [t0]) (u1 ++ u2)).fields.length + 1 - (others.length + 1 + 1), ?_⟩
    have : u2.length + 2 ≤ (after (["PBUSH".toList] ++ [t0]) (u1 ++ u2)).fields.length := by
      simp [after]
    omega
  obtain ⟨pre1, -, e1⟩ := hr1 0 (n + others.length + 1) (["PBUSH".toList] ++ [t0]) u2
  obtain ⟨pre2, j2, e2⟩ := hr2 j1 n pre1
  rw [List.replicate_zero, List.nil_append] at e1
  refine ⟨lines, counter', _, ⟨id, s⟩, g1, g5, ?_, rfl, hs4, hs5, hs6, hs7⟩
  unfold readBulk
  rw [keyword_read (by decide) (by decide)]
  simp only [Outcome.bind_ok, parsePBUSH, says_int_read k0 h1, hn, e1, e2]
  have hs3' : ∀ {β : Type} (f : StructuralSegment → Outcome β),
      (bushAdd .stiffness (bushDofs.zip v2.k) (StructuralSegment.new .DIAGONAL) >>= fun s =>
        bushAdd .damping (bushDofs.zip v2.b) s >>= f) = f s := by
    intro β f
    have : (bushAdd .stiffness (bushDofs.zip v2.k) (StructuralSegment.new .DIAGONAL) >>= fun s =>
        bushAdd .damping (bushDofs.zip v2.b) s >>= f) =
      ((bushAdd .stiffness (bushDofs.zip v2.k) (StructuralSegment.new .DIAGONAL) >>= fun s =>
        bushAdd .damping (bushDofs.zip v2.b) s) >>= f) := by
      cases bushAdd .stiffness (bushDofs.zip v2.k) (StructuralSegment.new .DIAGONAL) <;> rfl
    rw [this, hs3]
    rfl
  rw [hs3']
  simp only [Outcome.bind_ok, isEmpty_blanks, if_true]

/-- Rows that meet the hypotheses: stiffnesses with a blank and RIGID, and damping. -/
example : (∀ r ∈ [Row.k (fun i => if i = 0 then .rigid else if i = 1 then .blank else .value 100), .b fun _ => some 3],
      r.Doubles) ∧
    stiffnesses [Row.k fun _ => .rigid, .b fun _ => some 3] 2 = .rigid ∧
    dampings [Row.k fun _ => .rigid, .b fun _ => some 3] 2 = some 3 := by
  refine ⟨?_, rfl, rfl⟩
  intro r hr
  simp only [List.mem_cons, List.not_mem_nil, or_false] at hr
  rcases hr with rfl | rfl
  · intro i
    fin_cases i
    · trivial
    · trivial
    all_goals exact (by decide +kernel : |(100 : ℚ)| ≤ dblMax)
  · intro i x hx
    cases hx
    decide +kernel

/-- The second field of a written card is not a flag, and is passed over. -/
theorem zero_flag (n : Nat) (v : BushValues) (pre rest : List Nastran.Line) :
    bushLoop (n + 1) v (after pre (decimal 0 :: rest)) = bushLoop n v (after (pre ++ [decimal 0]) rest) := by
  have h0 : decimal 0 = ['0'] := by decide +kernel
  have n1 : (['0'] = "K".toList) = False := by simp only [eq_iff_iff, iff_false]; decide
  have n2 : (['0'] = "B".toList) = False := by simp only [eq_iff_iff, iff_false]; decide
  have n3 : (['0'] = "GE".toList) = False := by simp only [eq_iff_iff, iff_false]; decide
  have n4 : (['0'] = "RCV".toList) = False := by simp only [eq_iff_iff, iff_false]; decide
  rw [h0]
  have := bushLoop_flag n 0 v pre ['0'] rest (by decide) (by decide) (by decide)
  rw [List.replicate_zero, List.nil_append, List.append_nil] at this
  rw [this, bushFlag]
  simp only [n1, n2, n3, n4, if_false, Outcome.bind_ok]

/-- **C93 (partial).** A written spring is read back by the program itself with the same stiffnesses and dampings in the six
directions, up to the precision of a field. -/
theorem C93_write_partial (counter : Nat) (strict : Bool) (id : Int) (s : StructuralSegment) (rest : List Nastran.Line)
    (h1 : Number id) (hm : segmentHasMass s = false) (hk : ∀ i, |along s .stiffness i| ≤ dblMax)
    (hb : ∀ i, |along s .damping i| ≤ dblMax) (hc : counter + 2 < 10 ^ 7) (hnew : NewCard rest) :
    ∃ args lines counter' texts q, pbushArgs strict id s = .ok args ∧
      writeCard counter "PBUSH".toList args = some (lines, counter') ∧
      nextLine (lines ++ rest) = .ok (some (texts, afterComments rest)) ∧
      readBulk parsePBUSH texts = .ok q ∧ q.id = id ∧
      (∀ i, Near (along s .stiffness i) (along q.segment .stiffness i)) ∧
      (∀ i, Near (along s .damping i) (along q.segment .damping i)) ∧ (∀ i, along q.segment .mass i = 0) := by
  have hall : Dofs.ALL_DOFS.toList = [.DX, .DY, .DZ, .RX, .RY, .RZ] := by decide +kernel
  let r1 : Row := .k fun i => .value (along s .stiffness i)
  let r2 : Row := .b fun i => some (along s .damping i)
  have hargs : pbushArgs strict id s = .ok (.int id :: .int 0 :: r1.fields ++ .blank :: r2.fields) := by
    unfold pbushArgs
    rw [hm, hall]
    rfl
  obtain ⟨lines, counter', texts, g1, g2, -, -, g5⟩ := C78_card_partial counter "PBUSH".toList
    (.int id :: .int 0 :: r1.fields ++ .blank :: r2.fields) rest pbush_name (by
      intro a ha
      rw [List.mem_append, List.mem_cons, List.mem_cons, List.mem_cons] at ha
      rcases ha with (rfl | rfl | ha) | rfl | ha
      · exact h1
      · exact number_zero
      · exact fits_row (r := r1) (fun i => hk i) a ha
      · trivial
      · exact fits_row (r := r2) (fun i x hx => by cases hx; exact hb i) a ha)
    (by
      have e1 : r1.fields.length = 7 := rfl
      have e2 : r2.fields.length = 7 := rfl
      rw [List.length_append, List.length_cons, List.length_cons, List.length_cons, e1, e2]; omega) hnew
  obtain _ | ⟨k0, hs⟩ := g2
  obtain _ | ⟨k1, hs⟩ := hs
  rename_i t0 t1 ts
  have : t1 = decimal 0 := k1
  subst this
  obtain ⟨u1, u2, hs1, hs2, rfl⟩ : ∃ u1 u2, List.Forall₂ Says r1.fields u1 ∧
      List.Forall₂ Says ([r2].flatMap fun r => .blank :: r.fields) u2 ∧ ts = u1 ++ u2 := by
    have hs' : List.Forall₂ Says (r1.fields ++ .blank :: r2.fields) ts := hs
    refine ⟨ts.take r1.fields.length, ts.drop r1.fields.length, ?_, ?_, (List.take_append_drop _ _).symm⟩
    · have := List.forall₂_take r1.fields.length hs'
      rwa [List.take_left] at this
    · have := List.forall₂_drop r1.fields.length hs'
      rwa [List.drop_left] at this
  obtain ⟨v1, hv1, j1, hr1⟩ := row_read hs1 ⟨[0, 0, 0, 0, 0, 0], [0, 0, 0, 0, 0, 0]⟩
  obtain ⟨v2, hv2, hr2⟩ := rows_read hs2 v1
  have hkept := kept_values (.cons hv1 hv2)
  obtain ⟨s', hs3, hs4, hs5, hs6, hs7⟩ := segment_values hkept.1 hkept.2
  have hlen2 : u2.length = 8 := by
    rw [← hs2.length_eq]; rfl
  obtain ⟨n, hn⟩ : ∃ n, (after (["PBUSH".toList] ++ [t0]) (decimal 0 :: (u1 ++ u2))).fields.length + 1 =
      n + [r2].length + 1 + 1 + 1 := by
    refine ⟨(after (["PBUSH".toList] ++ [t0]) (decimal 0 :: (u1 ++ u2))).fields.length + 1 - 4, ?_⟩
    have : u2.length + 3 ≤ (after (["PBUSH".toList] ++ [t0]) (decimal 0 :: (u1 ++ u2))).fields.length := by
      simp [after]
    simp only [List.length_singleton]
    omega
  obtain ⟨pre1, -, e1⟩ := hr1 0 (n + [r2].length + 1) (["PBUSH".toList] ++ [t0] ++ [decimal 0]) u2
  obtain ⟨pre2, j2, e2⟩ := hr2 j1 n pre1
  rw [List.replicate_zero, List.nil_append] at e1
  refine ⟨_, lines, counter', _, ⟨id, s'⟩, hargs, g1, g5, ?_, rfl, fun i => hs5 i, fun i => hs6 i, hs7⟩
  unfold readBulk
  rw [keyword_read (by decide) (by decide)]
  simp only [Outcome.bind_ok, parsePBUSH, says_int_read k0 h1]
  rw [hn, zero_flag, e1, e2]
  have hs3' : ∀ {β : Type} (f : StructuralSegment → Outcome β),
      (bushAdd .stiffness (bushDofs.zip v2.k) (StructuralSegment.new .DIAGONAL) >>= fun s =>
        bushAdd .damping (bushDofs.zip v2.b) s >>= f) = f s' := by
    intro β f
    have : (bushAdd .stiffness (bushDofs.zip v2.k) (StructuralSegment.new .DIAGONAL) >>= fun s =>
        bushAdd .damping (bushDofs.zip v2.b) s >>= f) =
      ((bushAdd .stiffness (bushDofs.zip v2.k) (StructuralSegment.new .DIAGONAL) >>= fun s =>
        bushAdd .damping (bushDofs.zip v2.b) s) >>= f) := by
      cases bushAdd .stiffness (bushDofs.zip v2.k) (StructuralSegment.new .DIAGONAL) <;> rfl
    rw [this, hs3]
    rfl
  simp only [Outcome.bind_ok]
  rw [hs3']
  simp only [Outcome.bind_ok, isEmpty_blanks, if_true]

/-- A spring that meets the hypotheses. -/
example : let s : StructuralSegment := ⟨.DIAGONAL, fun q => if q = .stiffness then ⟨.DIAGONAL, [((.DX, .DX), 5)]⟩
      else DofMatrix.new .DIAGONAL⟩
    segmentHasMass s = false ∧ along s .stiffness 0 = 5 ∧ along s .damping 0 = 0 := by
  refine ⟨by decide +kernel, by decide +kernel, by decide +kernel⟩

/-- **C93 is false for the layout of the card.** On the card of the manual the second field is a flag. On the written card it
is the number 0, whatever the spring is: only this program, which passes over unknown flags, can read it. -/
theorem C93_layout_false (id : Int) (s : StructuralSegment) (strict : Bool) (args : List Arg)
    (h : pbushArgs strict id s = .ok args) :
    ∃ more, args = .int id :: .int 0 :: more ∧
      ∀ (first : Row) (others : List Row), bushFields id first others ≠ args := by
  unfold pbushArgs at h
  split_ifs at h
  rw [Outcome.ok.injEq] at h
  subst h
  refine ⟨_, rfl, ?_⟩
  intro first others heq
  rw [bushFields] at heq
  simp only [List.cons_append, List.cons.injEq, true_and] at heq
  cases first <;> simp [Row.fields] at heq

/-- **C93 is false for cards that end early.** A row K with less than six fields is an error when nothing follows, although
the missing fields should count as zero. -/
theorem C93_short_false (counter : Nat) (id : Int) (x : ℚ) (rest : List Nastran.Line)
    (h1 : Number id) (hx : |x| ≤ dblMax) (hc : counter + 1 < 10 ^ 7) (hnew : NewCard rest) :
    ∃ lines counter' texts,
      writeCard counter "PBUSH".toList [.int id, .text "K".toList, .real x] = some (lines, counter') ∧
      nextLine (lines ++ rest) = .ok (some (texts, afterComments rest)) ∧ readBulk parsePBUSH texts = .throw := by
  obtain ⟨lines, counter', texts, g1, g2, -, -, g5⟩ := C78_card_partial counter "PBUSH".toList
    [.int id, .text "K".toList, .real x] rest pbush_name (by
      intro a ha
      simp only [List.mem_cons, List.not_mem_nil, or_false] at ha
      rcases ha with rfl | rfl | rfl
      · exact h1
      · exact ⟨by decide, by decide, by decide, by decide⟩
      · exact hx)
    (by simp only [List.length_cons, List.length_nil]; omega) hnew
  obtain _ | ⟨k0, hs⟩ := g2
  obtain _ | ⟨k1, hs⟩ := hs
  obtain _ | ⟨k2, hs⟩ := hs
  cases hs
  rename_i t0 t1 t2
  have : t1 = "K".toList := k1
  subst this
  obtain ⟨y, -, hr⟩ := stiffness_read (s := .value x) k2
  refine ⟨lines, counter', _, g1, g5, ?_⟩
  unfold readBulk
  rw [keyword_read (by decide) (by decide)]
  simp only [Outcome.bind_ok, parsePBUSH, says_int_read k0 h1]
  have hflag := bushLoop_flag (after (["PBUSH".toList] ++ [t0]) ["K".toList, t2]).fields.length 0
    ⟨[0, 0, 0, 0, 0, 0], [0, 0, 0, 0, 0, 0]⟩ (["PBUSH".toList] ++ [t0]) "K".toList [t2] (by decide) (by decide) (by decide)
  rw [List.replicate_zero, List.nil_append, List.append_nil] at hflag
  rw [hflag, bushFlag]
  simp only [if_true, bushValues, hr, Outcome.bind_ok]
  have hend : ∀ pre, bushStiffness (after pre []) = .throw := by
    intro pre
    unfold bushStiffness
    simp only [isNextDouble_end, isNextEmpty_end, Outcome.bind_ok, Bool.false_eq_true, if_false, nextString, next_end]
    rfl
  rw [hend]
  rfl

end NastranWrite
end Vega
