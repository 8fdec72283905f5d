import Verif.Value.Tables
import Mathlib.Tactic.Linarith
import Mathlib.Data.List.Chain
import Mathlib.Tactic.Ring
import Mathlib.Tactic.FieldSimp
import Mathlib.Tactic.NormNum

/-! # C107: tables keep their points, and Code_Aster finds the values that Nastran finds -/
namespace Vega

/-! ## Specification -/
namespace TableSpec
open Table

/-- An entry of a table: two numbers, or a pair that is skipped because one or both of its fields are `SKIP`. -/
inductive Entry where
  | pair (x y : Dbl)
  | skipX (y : Dbl)
  | skipY (x : Dbl)
  | skipBoth

/-- The fields of an entry. -/
def Entry.fields : Entry → List Field
  | .pair x y => [.num false x, .num false y]
  | .skipX y => [.word .skip, .num false y]
  | .skipY x => [.num false x, .word .skip]
  | .skipBoth => [.word .skip, .word .skip]

/-- The point of an entry. -/
def Entry.point : Entry → Option (Dbl × Dbl)
  | .pair x y => some (x, y)
  | _ => none

/-- The fields of a table up to `ENDT`, followed by anything. -/
def body (es : List Entry) (rest : List Field) : List Field := es.flatMap Entry.fields ++ .word .endt :: rest

def points (es : List Entry) : List (Dbl × Dbl) := es.filterMap Entry.point

/-- An axis: linear (also if the field is empty), or logarithmic. -/
inductive Axis where
  | default | linear | log
deriving DecidableEq

def Axis.field : Axis → Field
  | .default => .blank
  | .linear => .word .linear
  | .log => .word .log

def Axis.isLog : Axis → Bool
  | .log => true
  | _ => false

/-- The straight line through two points. -/
def line (p q : Dbl × Dbl) (x : Dbl) : Dbl := p.2 + (x - p.1) * ((q.2 - p.2) / (q.1 - p.1))

/-- The formula between two points. Those for logarithmic axes are the same for both programs and not described here. -/
def formula (logs : Bool → Bool → Dbl × Dbl → Dbl × Dbl → Dbl → Dbl) (lx ly : Bool) : Dbl × Dbl → Dbl × Dbl → Dbl → Dbl :=
  if lx || ly then logs lx ly else line

/-- The value at a jump: the mean of both values (Nastran, remarks of `TABLED1`). -/
def atPoint (f : Dbl × Dbl → Dbl × Dbl → Dbl → Dbl) (p q : Dbl × Dbl) : List (Dbl × Dbl) → Dbl
  | r :: _ => if r.1 = q.1 then (q.2 + r.2) / 2 else f p q q.1
  | [] => f p q q.1

/-- The value that Nastran finds in a table with ascending abscissae, at least two: by the formula of the segment, or of the
first or last one outside of the table. -/
def nastran (f : Dbl × Dbl → Dbl × Dbl → Dbl → Dbl) : List (Dbl × Dbl) → Dbl → Option Dbl
  | p :: q :: rest, x =>
    if x < q.1 then some (f p q x)
    else if x = q.1 then some (atPoint f p q rest)
    else if rest = [] then some (f p q x)
    else nastran f (q :: rest) x
  | _, _ => none

/-- Strictly ascending abscissae. -/
def Ascending (l : List (Dbl × Dbl)) : Prop := l.IsChain fun p q => p.1 < q.1

instance (l : List (Dbl × Dbl)) : Decidable (Ascending l) := by unfold Ascending; infer_instance

/-- The formula that `INTERPOL` names. -/
def interpolation (logs : Bool → Bool → Dbl × Dbl → Dbl × Dbl → Dbl → Dbl) : AsterInterp → AsterInterp →
    Option (Dbl × Dbl → Dbl × Dbl → Dbl → Dbl)
  | .lin, .lin => some (formula logs false false)
  | .lin, .log => some (formula logs false true)
  | .log, .lin => some (formula logs true false)
  | .log, .log => some (formula logs true true)
  | _, _ => none

/-- Outside of a function: refused, the value of the point at this end, or the line through the two points at this end. -/
def outside : Prol → (p q : Dbl × Dbl) → Dbl → Option Dbl
  | .exclu, _, _, _ => none
  | .constant, p, _, _ => some p.2
  | .lineaire, p, q, x => some (line p q x)
  | .empty, _, _, _ => none

/-- Between the points, and on the right of the last one. -/
def inside (f : Dbl × Dbl → Dbl × Dbl → Dbl → Dbl) (right : Prol) : List (Dbl × Dbl) → Dbl → Option Dbl
  | p :: q :: rest, x =>
    if x ≤ q.1 then some (f p q x)
    else if rest = [] then outside right q p x
    else inside f right (q :: rest) x
  | _, _ => none

/-- The value that Code_Aster finds in a function (`DEFI_FONCTION`, as generally known): `NOM_PARA` is required and the abscissae
must be strictly ascending. `none`: the command or the value is refused. -/
def aster (logs : Bool → Bool → Dbl × Dbl → Dbl × Dbl → Dbl → Dbl) (d : DefiFonction) (x : Dbl) : Option Dbl :=
  if d.nomPara = none ∨ ¬ Ascending d.vale then none
  else match interpolation logs d.interpolX d.interpolY with
    | none => none
    | some f => match d.vale with
      | p :: q :: rest => if x < p.1 then outside d.prolGauche p q x else inside f d.prolDroite (p :: q :: rest) x
      | _ => none

/-- The names that the loads give to the axis `x`, the last one first. -/
def uses : List Add → List Names
  | [] => []
  | .use n :: as => uses as ++ [n]
  | .table _ :: as => uses as

/-- The tables among what is added. -/
def tables : List Add → List FunctionTable
  | [] => []
  | .use _ :: as => tables as
  | .table t :: as => t :: tables as

/-- The first name that is given in a list. -/
def firstName (pick : Names → Option Para) : List Names → Option Para
  | [] => none
  | n :: ns => match pick n with
    | some p => some p
    | none => firstName pick ns

/-- The names of a table: those that a load gives, or else its own. -/
def finalNames (own : Names) (as : List Add) : Names :=
  ⟨firstName Names.x (uses as ++ [own]), firstName Names.y (uses as ++ [own])⟩

end TableSpec

namespace Table
open TableSpec

/-! ## Reading -/

/-- C107: every pair up to `ENDT` is read, once and in order, except those with `SKIP`. -/
theorem C107_pairs (es : List Entry) (rest : List Field) : readPairs (body es rest) = .ok (points es) := by
  induction es with
  | nil => simp [body, points, readPairs]
  | cons e es ih =>
    unfold body points at ih ⊢
    cases e <;> simp [Entry.fields, List.filterMap_cons, Entry.point, readPairs, ih, Outcome.bind]

/-- A table without `ENDT` is an error: nothing is read from it. -/
theorem C107_endt (es : List Entry) : readPairs (es.flatMap Entry.fields) = .throw := by
  induction es with
  | nil => simp [readPairs]
  | cons e es ih => cases e <;> simp [Entry.fields, readPairs, ih, Outcome.bind]

theorem axis_field (a : Axis) (r : List Field) : axis (a.field :: r) = (if a.isLog then .logarithmic else .linear, r) := by
  cases a <;> rfl

/-- The first field of a table is not empty and is not an integer. -/
theorem body_first (es : List Entry) (rest : List Field) : ∃ f r, body es rest = f :: r ∧ f ≠ .blank ∧ ∀ x, f ≠ .num true x := by
  cases es with
  | nil => exact ⟨_, _, rfl, by simp, by simp⟩
  | cons e es => cases e <;> exact ⟨_, _, rfl, by simp, by simp⟩

theorem skipBlanks_body (k : Nat) (es : List Entry) (rest : List Field) :
    skipBlanks (List.replicate k .blank ++ body es rest) = body es rest := by
  obtain ⟨f, r, he, hf, -⟩ := body_first es rest
  induction k with
  | zero =>
    rw [he]
    simp [skipBlanks, hf]
  | succ k ih =>
    rw [List.replicate_succ, List.cons_append]
    unfold skipBlanks at ih ⊢
    rw [List.dropWhile_cons_of_pos (by simp)]
    exact ih

theorem flat_blanks (k : Nat) (es : List Entry) (rest : List Field) :
    flat (List.replicate k .blank ++ body es rest) = (none, List.replicate k .blank ++ body es rest) := by
  cases k with
  | zero =>
    obtain ⟨f, r, he, -, hf⟩ := body_first es rest
    simp only [List.replicate_zero, List.nil_append, he]
    unfold flat
    split
    · next x r' heq => exact absurd (List.cons.inj heq).1 (hf x)
    · rfl
  | succ k => rfl

/-- C107 for `TABLED1`, with the fields of both axes (which may be empty) and any number of empty fields: the axes are those of
the card, the table is extended on both sides. -/
theorem C107_tabled1 (a b : Axis) (k : Nat) (es : List Entry) (rest : List Field) :
    parseTABLED1 (a.field :: b.field :: (List.replicate k .blank ++ body es rest)) =
      .ok ⟨if a.isLog then .logarithmic else .linear, if b.isLog then .logarithmic else .linear, .linear, .linear, ⟨none, none⟩,
        points es⟩ := by
  unfold parseTABLED1
  simp only [axis_field, flat_blanks, skipBlanks_body, C107_pairs, Outcome.bind, rightOf]

/-- C107 for `TABLES1`, with the seven fields that are not used. -/
theorem C107_tables1 (h : List Field) (hh : h.length = 7) (es : List Entry) (rest : List Field) :
    parseTABLES1 (h ++ body es rest) = .ok ⟨.linear, .linear, .linear, .linear, ⟨some .strain, some .stress⟩, points es⟩ := by
  unfold parseTABLES1
  rw [show (h ++ body es rest).drop 7 = body es rest by rw [← hh]; simp, C107_pairs]
  rfl

/-- The field of a type of damping; `G` is the default. -/
def Damping.field : Option Damping → Field
  | none => .blank
  | some .crit => .word .crit
  | some .g => .word .g
  | some .q => .word .q

/-- C107 for `TABDMP1`. -/
theorem C107_tabdmp1 (d : Option Damping) (k : Nat) (es : List Entry) (rest : List Field) :
    parseTABDMP1 (Damping.field d :: (List.replicate k .blank ++ body es rest)) =
      .ok (d.getD .g, ⟨.linear, .linear, .none, .constant, ⟨some .freq, some .amor⟩, points es⟩) := by
  have hb : dampingBlanks (List.replicate k .blank ++ body es rest) = body es rest := by
    cases k with
    | zero =>
      obtain ⟨f, r, he, hf, -⟩ := body_first es rest
      simp only [List.replicate_zero, List.nil_append, he]
      unfold dampingBlanks
      split
      · next r' heq => exact absurd (List.cons.inj heq).1 hf
      · rfl
    | succ k =>
      have hd : dropInt (List.replicate k .blank ++ body es rest) = List.replicate k .blank ++ body es rest := by
        cases k with
        | zero =>
          obtain ⟨f, r, he, -, hf⟩ := body_first es rest
          simp only [List.replicate_zero, List.nil_append, he]
          unfold dropInt
          split
          · next x r' heq => exact absurd (List.cons.inj heq).1 (hf x)
          · rfl
        | succ k => rfl
      rw [List.replicate_succ, List.cons_append]
      simp only [dampingBlanks, hd, skipBlanks_body]
  unfold parseTABDMP1
  have ht : dampingType (Damping.field d :: (List.replicate k .blank ++ body es rest)) =
      (some (d.getD .g), List.replicate k .blank ++ body es rest) := by
    rcases d with _ | _ | _ | _ <;> rfl
  simp only [ht, hb, C107_pairs, Outcome.bind]

/-- C107 is false in free format when the first line ends after the number of the table (empty fields at the end of a line need
not be written): the first pair is taken for the axes, which become logarithmic. -/
theorem C107_tabled1_free_false (x y : Dbl) (es : List Entry) (rest : List Field) :
    parseTABLED1 (body (.pair x y :: es) rest) = .ok ⟨.logarithmic, .logarithmic, .linear, .linear, ⟨none, none⟩, points es⟩ := by
  have h := flat_blanks 0 es rest
  have h' := skipBlanks_body 0 es rest
  simp only [List.replicate_zero, List.nil_append] at h h'
  have hb : body (.pair x y :: es) rest = .num false x :: .num false y :: body es rest := rfl
  unfold parseTABLED1
  rw [hb]
  simp only [axis, h, h', C107_pairs, Outcome.bind, rightOf]

/-- The same for `TABLES1`: a table of four points is read as empty. -/
theorem C107_tables1_free_false (p1 p2 p3 p4 : Dbl × Dbl) (rest : List Field) :
    parseTABLES1 (body [.pair p1.1 p1.2, .pair p2.1 p2.2, .pair p3.1 p3.2, .pair p4.1 p4.2] rest) =
      .ok ⟨.linear, .linear, .linear, .linear, ⟨some .strain, some .stress⟩, []⟩ := by
  have hb : (body [.pair p1.1 p1.2, .pair p2.1 p2.2, .pair p3.1 p3.2, .pair p4.1 p4.2] rest).drop 7 =
      [.num false p4.2] ++ body [] rest := rfl
  unfold parseTABLES1
  rw [hb]
  simp [body, readPairs, Outcome.bind]

/-- With more points the numbers change their places: ordinates are taken for abscissae. -/
theorem C107_tables1_shift_false (p1 p2 p3 p4 p5 : Dbl × Dbl) (es : List Entry) (rest : List Field) :
    ∀ t, parseTABLES1 (body (.pair p1.1 p1.2 :: .pair p2.1 p2.2 :: .pair p3.1 p3.2 :: .pair p4.1 p4.2 :: .pair p5.1 p5.2 :: es)
      rest) = .ok t → t.points.head? = some (p4.2, p5.1) := by
  intro t h
  have hb : (body (.pair p1.1 p1.2 :: .pair p2.1 p2.2 :: .pair p3.1 p3.2 :: .pair p4.1 p4.2 :: .pair p5.1 p5.2 :: es) rest).drop
      7 = .num false p4.2 :: .num false p5.1 :: .num false p5.2 :: body es rest := rfl
  unfold parseTABLES1 at h
  rw [hb, readPairs] at h
  cases hr : readPairs (.num false p5.2 :: body es rest) <;> rw [hr] at h <;> simp [Outcome.bind] at h
  rw [← h]
  rfl

/-- C107 is false for the field `FLAT` of Optistruct. With 0 (linear extension) the value is refused on the right of the table;
with 1 (constant on both sides) the table is extended by a line on the left. -/
theorem C107_flat_false (a b : Axis) (k : Nat) (n : Dbl) (hn : n ≠ -1) (es : List Entry) (rest : List Field) :
    ∃ t, parseTABLED1 (a.field :: b.field :: .num true n :: (List.replicate k .blank ++ body es rest)) = .ok t ∧
      t.points = points es ∧ t.left = .linear ∧ (n = 0 → t.right = .none) ∧ (n ≠ 0 → t.right = .constant) := by
  refine ⟨⟨if a.isLog then .logarithmic else .linear, if b.isLog then .logarithmic else .linear, .linear, rightOf (some n),
    ⟨none, none⟩, points es⟩, ?_, rfl, rfl, ?_, ?_⟩
  · unfold parseTABLED1
    simp only [axis_field, flat, if_neg hn, skipBlanks_body, C107_pairs, Outcome.bind]
  · intro h; simp [rightOf, h]
  · intro h; simp [rightOf, h]

/-! ## Names of the axes -/

theorem override_x (o n : Names) : (o.override n).x = n.x.or o.x := rfl
theorem override_y (o n : Names) : (o.override n).y = n.y.or o.y := rfl

theorem firstName_append (pick : Names → Option Para) (a b : List Names) :
    firstName pick (a ++ b) = (firstName pick a).or (firstName pick b) := by
  induction a with
  | nil => rfl
  | cons n a ih =>
    simp only [List.cons_append, firstName]
    cases pick n with
    | some p => rfl
    | none => exact ih

theorem firstName_single (pick : Names → Option Para) (n : Names) : firstName pick [n] = pick n := by
  simp only [firstName]; cases pick n <;> rfl

/-- A name that a load gives takes the place of what comes before it. -/
theorem finalNames_use (own n : Names) (as : List Add) : finalNames own (.use n :: as) = finalNames (own.override n) as := by
  simp only [finalNames, uses, firstName_append, firstName_single, override_x, override_y, Option.or_assoc]

theorem run_table (t : FunctionTable) (as : List Add) (h : tables as = []) :
    (Slot.table t).run as = .ok (.table { t with names := finalNames t.names as }) := by
  induction as generalizing t with
  | nil => simp [Slot.run, finalNames, uses, firstName_single]
  | cons a as ih =>
    cases a with
    | table u => simp [tables] at h
    | use n =>
      simp only [Slot.run, Slot.add, Outcome.bind]
      rw [ih _ (by simpa [tables] using h), finalNames_use]

theorem names_holder (own o : Names) (as : List Add) : finalNames (own.override o) as = finalNames own (.use o :: as) :=
  (finalNames_use own o as).symm

theorem run_holder (t : FunctionTable) (o : Names) (as : List Add) (h : tables as = [t]) :
    (Slot.holder o).run as = .ok (.table { t with names := finalNames (t.names.override o) as }) := by
  induction as generalizing o with
  | nil => simp [tables] at h
  | cons a as ih =>
    cases a with
    | table u =>
      simp only [tables, List.cons.injEq] at h
      obtain ⟨rfl, h⟩ := h
      simp only [Slot.run, Slot.add, Outcome.bind]
      rw [run_table _ _ h]
      simp [finalNames, uses]
    | use n =>
      simp only [Slot.run, Slot.add, Outcome.bind]
      rw [ih _ (by simpa [tables] using h), finalNames_use]
      simp [Names.override, Option.or_assoc]

/-- C107: a table that is given once has, whatever the order of the cards, the points, axes and extensions of its card, and the
names of the last load that refers to it. -/
theorem C107_names (t : FunctionTable) (as : List Add) (h : tables as = [t]) :
    Slot.empty.run as = .ok (.table { t with names := finalNames t.names as }) := by
  cases as with
  | nil => simp [tables] at h
  | cons a as =>
    cases a with
    | table u =>
      simp only [tables, List.cons.injEq] at h
      obtain ⟨rfl, h⟩ := h
      simp only [Slot.run, Slot.add, Outcome.bind]
      rw [run_table _ _ h]
      simp [finalNames, uses]
    | use n =>
      simp only [Slot.run, Slot.add, Outcome.bind]
      rw [run_holder t n as (by simpa [tables] using h), finalNames_use]

/-- The order of the cards has no influence when all loads give the same name. -/
theorem C107_order (t : FunctionTable) (n : Names) (hn : n.x.isSome ∧ n.y = none) (as : List Add) (h : tables as = [t])
    (hu : ∀ m ∈ uses as, m = n) (hne : uses as ≠ []) :
    Slot.empty.run as = .ok (.table { t with names := ⟨n.x, t.names.y⟩ }) := by
  rw [C107_names t as h]
  have key : ∀ (pick : Names → Option Para) (l : List Names), (∀ m ∈ l, m = n) → l ≠ [] → firstName pick l = pick n := by
    intro pick l hl hne
    induction l with
    | nil => exact absurd rfl hne
    | cons m l ih =>
      obtain rfl := hl m (by simp)
      simp only [firstName]
      cases hp : pick m with
      | some p => rfl
      | none =>
        cases l with
        | nil => rfl
        | cons k l => rw [ih (fun j hj => hl j (by simp [hj])) (by simp), hp]
  simp only [finalNames, firstName_append, firstName_single, key _ _ hu hne, hn.2]
  obtain ⟨p, hp⟩ := Option.isSome_iff_exists.mp hn.1
  rw [hp]
  rfl

/-- Two tables with the same number are an error. -/
theorem C107_twice (as : List Add) (h : 2 ≤ (tables as).length) : Slot.empty.run as = .throw := by
  have ht : ∀ (as : List Add) (t : FunctionTable), 1 ≤ (tables as).length → (Slot.table t).run as = .throw := by
    intro as
    induction as with
    | nil => intro t h; simp [tables] at h
    | cons a as ih =>
      intro t h
      cases a with
      | table u => rfl
      | use n =>
        simp only [Slot.run, Slot.add, Outcome.bind]
        exact ih _ (by simpa [tables] using h)
  have hh : ∀ (as : List Add) (o : Names), 2 ≤ (tables as).length → (Slot.holder o).run as = .throw := by
    intro as
    induction as with
    | nil => intro o h; simp [tables] at h
    | cons a as ih =>
      intro o h
      cases a with
      | table u =>
        simp only [Slot.run, Slot.add, Outcome.bind]
        exact ht _ _ (by simp [tables] at h; omega)
      | use n =>
        simp only [Slot.run, Slot.add, Outcome.bind]
        exact ih _ (by simpa [tables] using h)
  cases as with
  | nil => simp [tables] at h
  | cons a as =>
    cases a with
    | table u =>
      simp only [Slot.run, Slot.add, Outcome.bind]
      exact ht _ _ (by simp [tables] at h; omega)
    | use n =>
      simp only [Slot.run, Slot.add, Outcome.bind]
      exact hh _ _ (by simpa [tables] using h)

/-! ## Values -/

theorem line_swap (p q : Dbl × Dbl) (x : Dbl) (h : p.1 < q.1) : line q p x = line p q x := by
  unfold line
  have h1 : q.1 - p.1 ≠ 0 := by linarith [sub_pos.mpr h]
  have h2 : p.1 - q.1 ≠ 0 := by intro h0; apply h1; linarith
  field_simp
  ring

/-- On the right of the first point of an ascending table Nastran and Code_Aster find the same value, if it is not on the right of
the last one either, or if the axes are linear and the function is extended by a line. -/
theorem inside_nastran (f : Dbl × Dbl → Dbl × Dbl → Dbl → Dbl) (right : Prol) (x : Dbl) (rest : List (Dbl × Dbl)) :
    ∀ p q, Ascending (p :: q :: rest) → ((∃ r ∈ p :: q :: rest, x ≤ r.1) ∨ (right = .lineaire ∧ f = line)) →
      inside f right (p :: q :: rest) x = nastran f (p :: q :: rest) x ∧ (nastran f (p :: q :: rest) x).isSome := by
  induction rest with
  | nil =>
    intro p q ha hx
    have hpq : p.1 < q.1 := by simpa [Ascending] using ha
    unfold inside nastran
    rcases lt_trichotomy x q.1 with h | h | h
    · simp [h, h.le]
    · simp [h, atPoint]
    · have h1 : ¬ x ≤ q.1 := by linarith
      have h2 : ¬ x < q.1 := by linarith
      rw [if_neg h1, if_neg h2, if_neg h.ne']
      rcases hx with ⟨r, hr, hle⟩ | ⟨rfl, rfl⟩
      · simp only [List.mem_cons, List.not_mem_nil, or_false] at hr
        rcases hr with rfl | rfl <;> linarith
      · simp [outside, line_swap p q x hpq]
  | cons r rest ih =>
    intro p q ha hx
    have ha' : p.1 < q.1 ∧ Ascending (q :: r :: rest) := by simpa [Ascending] using ha
    have hqr : q.1 < r.1 := by
      have := ha'.2
      simp only [Ascending, List.isChain_cons_cons] at this
      exact this.1
    unfold inside nastran
    rcases lt_trichotomy x q.1 with h | h | h
    · simp [h, h.le]
    · simp [h, atPoint, hqr.ne']
    · have h1 : ¬ x ≤ q.1 := by linarith
      have h2 : ¬ x < q.1 := by linarith
      rw [if_neg h1, if_neg h2, if_neg h.ne', if_neg (List.cons_ne_nil r rest), if_neg (List.cons_ne_nil r rest)]
      refine ih q r ha'.2 ?_
      rcases hx with ⟨s, hs, hle⟩ | hx
      · rcases List.mem_cons.mp hs with rfl | hs
        · linarith [ha'.1]
        · exact .inl ⟨s, hs, hle⟩
      · exact .inr hx

/-- How an axis is kept in the model. -/
def axisInterp (log : Bool) : Interp := if log then .logarithmic else .linear

theorem interpolation_axes (logs : Bool → Bool → Dbl × Dbl → Dbl × Dbl → Dbl → Dbl) (lx ly : Bool) :
    interpolation logs (interpol (axisInterp lx)) (interpol (axisInterp ly)) = some (formula logs lx ly) := by
  cases lx <;> cases ly <;> rfl

/-- C107: for a table with a name for its axis, ascending abscissae and at least two points, Code_Aster finds the value that
Nastran finds: everywhere if the axes are linear, between the points otherwise. -/
theorem C107_values_partial (logs : Bool → Bool → Dbl × Dbl → Dbl × Dbl → Dbl → Dbl) (lx ly : Bool) (n : Names)
    (hn : n.x.isSome) (hi : n.x ≠ some .inst ∧ n.y ≠ some .inst) (p q : Dbl × Dbl) (l : List (Dbl × Dbl))
    (ha : Ascending (p :: q :: l)) (x : Dbl)
    (hx : (lx = false ∧ ly = false) ∨ (p.1 ≤ x ∧ ∃ r ∈ p :: q :: l, x ≤ r.1)) :
    ∃ d, write ⟨axisInterp lx, axisInterp ly, .linear, .linear, n, p :: q :: l⟩ = .ok d ∧
      aster logs d x = nastran (formula logs lx ly) (p :: q :: l) x ∧ (aster logs d x).isSome := by
  obtain ⟨nx, hnx⟩ := Option.isSome_iff_exists.mp hn
  obtain ⟨ax, hax⟩ : ∃ ax, nomPara nx = .ok ax := by
    have := hi.1
    rw [hnx] at this
    cases nx <;> first | exact ⟨_, rfl⟩ | exact absurd rfl this
  obtain ⟨ay, hay⟩ : ∃ ay, nomOpt n.y = .ok ay := by
    cases hy : n.y with
    | none => exact ⟨_, rfl⟩
    | some ny =>
      have := hi.2
      rw [hy] at this
      cases ny <;> first | exact ⟨_, rfl⟩ | exact absurd rfl this
  refine ⟨⟨some ax, ay, p :: q :: l, interpol (axisInterp lx), interpol (axisInterp ly), .lineaire, .lineaire⟩, ?_, ?_⟩
  · have hox : nomOpt n.x = .ok (some ax) := by rw [hnx]; simp [nomOpt, hax, Outcome.bind]
    simp only [write, hox, hay, Outcome.bind, prolongement]
  · have hval : aster logs ⟨some ax, ay, p :: q :: l, interpol (axisInterp lx), interpol (axisInterp ly), .lineaire, .lineaire⟩ x =
        if x < p.1 then some (line p q x) else inside (formula logs lx ly) .lineaire (p :: q :: l) x := by
      simp only [aster, reduceCtorEq, ha, not_true_eq_false, or_false, if_false, interpolation_axes, outside]
    rw [hval]
    by_cases hlt : x < p.1
    · rw [if_pos hlt]
      have hlin : lx = false ∧ ly = false := by
        rcases hx with h | h
        · exact h
        · linarith [h.1]
      obtain ⟨rfl, rfl⟩ := hlin
      have hpq : p.1 < q.1 := by
        simp only [Ascending, List.isChain_cons_cons] at ha
        exact ha.1
      unfold nastran
      rw [if_pos (by linarith)]
      exact ⟨rfl, rfl⟩
    · rw [if_neg hlt]
      have := inside_nastran (formula logs lx ly) .lineaire x l p q ha (by
        rcases hx with ⟨rfl, rfl⟩ | h
        · exact .inr ⟨rfl, rfl⟩
        · exact .inl h.2)
      exact ⟨this.1, by rw [this.1]; exact this.2⟩

/-- C107, from the card to Code_Aster: a table `TABLED1` that loads of a frequency response refer to, in any order of the
cards. -/
theorem C107_tabled1_values_partial (logs : Bool → Bool → Dbl × Dbl → Dbl × Dbl → Dbl → Dbl) (a b : Axis) (k : Nat)
    (es : List Entry) (rest : List Field) (as : List Add) (hu : uses as ≠ []) (hf : ∀ n ∈ uses as, n = ⟨some .freq, none⟩)
    (ht : ∃ t, parseTABLED1 (a.field :: b.field :: (List.replicate k .blank ++ body es rest)) = .ok t ∧ tables as = [t])
    (p q : Dbl × Dbl) (l : List (Dbl × Dbl)) (hp : points es = p :: q :: l) (ha : Ascending (points es)) (x : Dbl)
    (hx : (a.isLog = false ∧ b.isLog = false) ∨ (p.1 ≤ x ∧ ∃ r ∈ points es, x ≤ r.1)) :
    ∃ t d, Slot.empty.run as = .ok (.table t) ∧ write t = .ok d ∧
      aster logs d x = nastran (formula logs a.isLog b.isLog) (points es) x ∧ (aster logs d x).isSome := by
  obtain ⟨t, h1, h2⟩ := ht
  rw [C107_tabled1] at h1
  have ht := Outcome.ok.inj h1
  have hrun := C107_order t ⟨some .freq, none⟩ ⟨rfl, rfl⟩ as h2 hf hu
  rw [hp] at ha hx ⊢
  obtain ⟨d, hd1, hd2⟩ := C107_values_partial logs a.isLog b.isLog ⟨some .freq, none⟩ rfl (by simp) p q l ha x hx
  refine ⟨_, d, hrun, ?_, hd2⟩
  rw [← hd1, ← ht, hp]
  rfl

/-- C107 for the damping tables: between the points Code_Aster finds the value that Nastran finds. -/
theorem C107_tabdmp1_values_partial (logs : Bool → Bool → Dbl × Dbl → Dbl × Dbl → Dbl → Dbl) (p q : Dbl × Dbl)
    (l : List (Dbl × Dbl)) (ha : Ascending (p :: q :: l)) (x : Dbl) (hx : p.1 ≤ x) (hr : ∃ r ∈ p :: q :: l, x ≤ r.1) :
    ∃ d, write ⟨.linear, .linear, .none, .constant, ⟨some .freq, some .amor⟩, p :: q :: l⟩ = .ok d ∧
      aster logs d x = nastran line (p :: q :: l) x ∧ (aster logs d x).isSome := by
  refine ⟨_, rfl, ?_⟩
  have hval : aster logs ⟨some .freq, some .amor, p :: q :: l, .lin, .lin, .exclu, .constant⟩ x =
      inside line .constant (p :: q :: l) x := by
    simp only [aster, reduceCtorEq, ha, not_true_eq_false, or_false, if_false, interpolation, if_neg (not_lt.mpr hx)]
    rfl
  have h := inside_nastran line .constant x l p q ha (.inl hr)
  simp only [prolongement, interpol]
  rw [hval]
  exact ⟨h.1, by rw [h.1]; exact h.2⟩

/-- C107 is false for the damping tables on the left of the first point: Nastran extends the table, Code_Aster refuses. -/
theorem C107_tabdmp1_left_false (logs : Bool → Bool → Dbl × Dbl → Dbl × Dbl → Dbl → Dbl) (p q : Dbl × Dbl)
    (l : List (Dbl × Dbl)) (ha : Ascending (p :: q :: l)) (x : Dbl) (hx : x < p.1) :
    ∃ d, write ⟨.linear, .linear, .none, .constant, ⟨some .freq, some .amor⟩, p :: q :: l⟩ = .ok d ∧
      aster logs d x = none ∧ nastran line (p :: q :: l) x = some (line p q x) := by
  refine ⟨_, rfl, ?_, ?_⟩
  · simp only [aster, reduceCtorEq, ha, not_true_eq_false, or_false, if_false, interpolation, if_pos hx, outside, interpol,
      prolongement]
  · have hpq : p.1 < q.1 := by
      simp only [Ascending, List.isChain_cons_cons] at ha
      exact ha.1
    unfold nastran
    rw [if_pos (by linarith)]

/-- C107 is false for the damping tables on the right of the last point: Nastran goes on with the line, Code_Aster keeps the last
value. Here for tables of two points. -/
theorem C107_tabdmp1_right_false (logs : Bool → Bool → Dbl × Dbl → Dbl × Dbl → Dbl → Dbl) (p q : Dbl × Dbl) (ha : p.1 < q.1)
    (hy : p.2 ≠ q.2) (x : Dbl) (hx : q.1 < x) :
    ∃ d, write ⟨.linear, .linear, .none, .constant, ⟨some .freq, some .amor⟩, [p, q]⟩ = .ok d ∧
      aster logs d x = some q.2 ∧ nastran line [p, q] x ≠ some q.2 := by
  refine ⟨_, rfl, ?_, ?_⟩
  · have : Ascending [p, q] := by simpa [Ascending] using ha
    simp only [aster, reduceCtorEq, this, not_true_eq_false, or_false, if_false, interpolation, interpol, prolongement]
    rw [if_neg (by linarith)]
    simp only [inside, if_neg (not_le.mpr hx), if_true, outside]
  · unfold nastran
    rw [if_neg (by linarith), if_neg (by linarith), if_pos rfl]
    intro h
    have h := Option.some.inj h
    unfold line at h
    have h1 : q.1 - p.1 ≠ 0 := by intro h0; linarith
    have h2 : (q.2 - p.2) * (x - q.1) = 0 := by
      have : p.2 + (x - p.1) * ((q.2 - p.2) / (q.1 - p.1)) - q.2 = (q.2 - p.2) * (x - q.1) / (q.1 - p.1) := by
        field_simp
        ring
      rw [h, sub_self] at this
      rcases div_eq_zero_iff.mp this.symm with h' | h'
      · exact h'
      · exact absurd h' h1
    rcases mul_eq_zero.mp h2 with h' | h'
    · exact hy (by linarith)
    · linarith

/-- C107 is false for a `TABLED1` that nothing gives a name to: the command lacks `NOM_PARA` and every value is refused. -/
theorem C107_parameter_false (logs : Bool → Bool → Dbl × Dbl → Dbl × Dbl → Dbl → Dbl) (a b : Axis) (k : Nat) (es : List Entry)
    (rest : List Field) :
    ∃ t d, parseTABLED1 (a.field :: b.field :: (List.replicate k .blank ++ body es rest)) = .ok t ∧
      Slot.empty.run [.table t] = .ok (.table t) ∧ write t = .ok d ∧ ∀ x, aster logs d x = none := by
  refine ⟨_, _, C107_tabled1 a b k es rest, rfl, rfl, fun x => ?_⟩
  simp [aster]

/-- C107 is false for tables with a jump (two points with the same abscissa) or with descending abscissae: Nastran allows them,
Code_Aster refuses the function. -/
theorem C107_ascending_false (logs : Bool → Bool → Dbl × Dbl → Dbl × Dbl → Dbl → Dbl) (t : FunctionTable) (d : DefiFonction)
    (hw : write t = .ok d) (pre post : List (Dbl × Dbl)) (p q : Dbl × Dbl) (ht : t.points = pre ++ p :: q :: post)
    (hpq : q.1 ≤ p.1) : ∀ x, aster logs d x = none := by
  intro x
  have hv : d.vale = t.points := by
    unfold write at hw
    cases h1 : nomOpt t.names.x <;> rw [h1] at hw <;> simp [Outcome.bind] at hw
    cases h2 : nomOpt t.names.y <;> rw [h2] at hw <;> simp at hw
    rw [← hw]
  have hna : ¬ Ascending d.vale := by
    rw [hv, ht]
    intro h
    have := (List.isChain_append_cons_cons.mp h).2.1
    linarith
  simp [aster, hna]

/-! ## Examples -/

/-- The table (0, 1), (10, 3), (20, 2) with a skipped pair. -/
def sample : List Entry := [.pair 0 1, .skipY 5, .pair 10 3, .skipBoth, .pair 20 2]

example : points sample = [(0, 1), (10, 3), (20, 2)] ∧ Ascending (points sample) := by decide +kernel

/-- The hypotheses of C107_tabled1_values_partial are met, with a load before the table and one after it. -/
example : ∃ t, parseTABLED1 (Axis.default.field :: Axis.linear.field :: (List.replicate 5 .blank ++ body sample [])) = .ok t ∧
    tables [.use ⟨some .freq, none⟩, .table t, .use ⟨some .freq, none⟩] = [t] := ⟨_, C107_tabled1 _ _ _ _ _, rfl⟩

example : nastran line (points sample) 5 = some 2 ∧ nastran line (points sample) 30 = some 1 ∧
    nastran line (points sample) (-10) = some (-1) := by decide +kernel

end Table
end Vega
