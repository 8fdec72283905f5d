import Verif.NastranWrite.CardLemmas
import Verif.NastranWrite.Relation
import Mathlib.Algebra.BigOperators.Group.List.Basic

/-! # C82: linear relations written to Nastran and read from Nastran -/
namespace Vega

/-! ## Specification -/
namespace RelationSpec
open NastranWrite

/-- The coefficient of a degree of freedom of a node in a relation. -/
def coef (r : Relation) (n : Int) (d : Dof) : ℚ :=
  match r.find? (fun p => p.1 = n) with
  | some p => p.2 d
  | none => 0

/-- The fields of a term on the card: node, component from 1 to 6, coefficient. -/
def fieldsOfTerm (t : Term) : List Arg :=
  [.int t.node, .int (match t.dof with | .DX => 1 | .DY => 2 | .DZ => 3 | .RX => 4 | .RY => 5 | .RZ => 6), .real t.coef]

/-- The fields after the number of the set in the manual of Nastran: two terms on each line, the last field of the line
and the first of the next are blank. -/
def layout : List Term → List Arg
  | [] => []
  | [a] => fieldsOfTerm a
  | [a, b] => fieldsOfTerm a ++ fieldsOfTerm b
  | a :: b :: c :: ts => fieldsOfTerm a ++ fieldsOfTerm b ++ [.blank, .blank] ++ layout (c :: ts)

/-- The sum of the values given for a degree of freedom of a node. -/
def total (ts : List (Term × ℚ)) (n : Int) (d : Dof) : ℚ :=
  ((ts.filter fun p => p.1.node = n ∧ p.1.dof = d).map (·.2)).sum

/-- A relation whose numbers can be written: distinct nodes with numbers of eight digits, finite coefficients. -/
structure Proper (r : Relation) : Prop where
  nodes : (r.map (·.1)).Nodup
  nodesFit : ∀ p ∈ r, CellSpec.Number p.1
  finite : ∀ p ∈ r, ∀ d, |p.2 d| ≤ dblMax

/-- The number of coefficients that are not zero. -/
def size (r : Relation) : Nat :=
  (r.map fun p => ([Dof.DX, .DY, .DZ, .RX, .RY, .RZ].filter fun d => tol < |p.2 d|).length).sum

end RelationSpec

namespace NastranWrite
open Nastran FieldSpec FixedSpec WriteSpec RelationSpec
open CellSpec (Number)

/-! ## Helper lemmas -/

theorem termArgs_eq (t : Term) : termArgs t = fieldsOfTerm t := by
  rcases t with ⟨n, d, c⟩
  cases d <;> rfl

theorem coef_cons (p : Int × (Dof → ℚ)) (r : Relation) (n : Int) (d : Dof) :
    coef (p :: r) n d = if p.1 = n then p.2 d else coef r n d := by
  unfold coef
  rw [List.find?_cons]
  by_cases h : p.1 = n <;> simp [h]

theorem coef_nil (n : Int) (d : Dof) : coef [] n d = 0 := rfl

theorem coef_add (m : Int) (c : Dof → ℚ) (n : Int) (d : Dof) : ∀ r : Relation,
    coef (addParticipation m c r) n d = coef r n d + if m = n then c d else 0 := by
  intro r
  induction r with
  | nil => rw [addParticipation, coef_cons, coef_nil, zero_add]
  | cons p ps ih =>
    rw [addParticipation]
    by_cases h1 : p.1 = m
    · rw [if_pos h1, coef_cons, coef_cons, h1]
      by_cases h2 : m = n <;> simp [h2]
    · rw [if_neg h1, coef_cons, coef_cons, ih]
      by_cases h2 : p.1 = n
      · rw [if_pos h2, if_pos h2, if_neg (fun h => h1 (h2.trans h.symm)), add_zero]
      · rw [if_neg h2, if_neg h2]

theorem dof_code (d : Dof) : ∃ s, Dofs.nastranCodeToDOFS (d.position + 1) = .ok s ∧
    ∀ e, s.contains e = true ↔ e = d := by
  refine ⟨Dofs.ofDof d, ?_, ?_⟩
  · cases d <;> decide +kernel
  · intro e; cases d <;> cases e <;> decide

theorem pos_number (d : Dof) : Number ((d.position : Int) + 1) := by
  cases d <;> decide

/-- One turn of the loop of the reader. -/
theorem loop_term {t : Term} {tg td ta : Text} (hg : Says (.int t.node) tg)
    (hd : Says (.int (t.dof.position + 1)) td) (ha : Says (.real t.coef) ta) (hn : Number t.node) :
    ∃ y, Near t.coef y ∧ ∀ (fuel i : Nat) (r : Relation) (pre rest : List Nastran.Line),
      ∃ s : Dofs, (∀ e, s.contains e = true ↔ e = t.dof) ∧
      mpcLoop (fuel + 1) i r (after pre (tg :: td :: ta :: rest)) = (do
        let (i, c) ← mpcSkip (i + 3) (after (pre ++ [tg, td, ta]) rest)
        mpcLoop fuel i (addParticipation t.node (fun d => if s.contains d then y else 0) r) c) := by
  obtain ⟨y0, hy0, hr0⟩ := ha.2.2 [] [] none
  refine ⟨y0, hy0, fun fuel i r pre rest => ?_⟩
  obtain ⟨s, hs, hse⟩ := dof_code t.dof
  refine ⟨s, hse, ?_⟩
  have hy : nextDouble none (after (pre ++ [tg] ++ [td]) (ta :: rest)) =
      .ok (y0, after (pre ++ [tg] ++ [td] ++ [ta]) rest) := by
    unfold nextDouble at hr0 ⊢
    rw [next_after] at hr0 ⊢
    have he : (trim (trimRight ta)).isEmpty = false := by rw [trim_trimRight]; exact says_real_ne ha
    simp only [he, Bool.false_eq_true, if_false] at hr0 ⊢
    cases hl : lexicalDouble (normReal (trim (trimRight ta))) with
    | none => rw [hl] at hr0; simp at hr0
    | some v =>
      rw [hl] at hr0
      simp only [Outcome.ok.injEq, Prod.mk.injEq] at hr0 ⊢
      exact ⟨hr0.1, trivial⟩
  rw [mpcLoop, says_int_isInt hg]
  simp only [Outcome.bind_ok, if_true, says_int_read hg hn, says_int_read hd (pos_number _), hy, hs]
  simp

/-- Texts of the fields of a term. -/
theorem texts_term {t : Term} {more : List Arg} {texts : List Text}
    (h : List.Forall₂ Says (fieldsOfTerm t ++ more) texts) : ∃ tg td ta rest, texts = tg :: td :: ta :: rest ∧
      Says (.int t.node) tg ∧ Says (.int (t.dof.position + 1)) td ∧ Says (.real t.coef) ta ∧
      List.Forall₂ Says more rest := by
  rw [← termArgs_eq] at h
  unfold termArgs at h
  rcases h with _ | ⟨h1, _ | ⟨h2, _ | ⟨h3, h4⟩⟩⟩
  exact ⟨_, _, _, _, rfl, h1, h2, h3, h4⟩

theorem texts_blank {more : List Arg} {texts : List Text} (h : List.Forall₂ Says (.blank :: .blank :: more) texts) :
    ∃ rest, texts = [] :: [] :: rest ∧ List.Forall₂ Says more rest := by
  rcases h with _ | ⟨h1, _ | ⟨h2, h3⟩⟩
  have e1 : _ = [] := h1
  have e2 : _ = [] := h2
  subst e1 e2
  exact ⟨_, rfl, h3⟩

theorem mpcSkip_none {i : Nat} (h : i % 8 ≠ 0) (c : Cursor) : mpcSkip i c = .ok (i, c) := by
  rw [mpcSkip, if_neg (fun hh => h hh.1)]

theorem mpcSkip_end (i : Nat) (pre : List Nastran.Line) : mpcSkip i (after pre []) = .ok (i, after pre []) := by
  rw [mpcSkip, if_neg (fun hh => by simp [isEmpty_end] at hh)]

theorem mpcSkip_two {i : Nat} (h : i % 8 = 0) (pre rest : List Nastran.Line) {t : Nastran.Line}
    (ht : t ∈ rest) (hne : (trim t).isEmpty = false) :
    mpcSkip i (after pre rest) = .ok (i + 2, after (pre ++ rest.take 2) (rest.drop 2)) := by
  rw [mpcSkip, if_pos ⟨h, isEmpty_after_false ht hne⟩, skip_after]
  rfl

theorem loop_end (fuel i : Nat) (r : Relation) (pre : List Nastran.Line) :
    mpcLoop (fuel + 1) i r (after pre []) = .ok (r, after pre []) := by
  rw [mpcLoop, isNextInt_end]; rfl

/-- The relation after a term. -/
theorem coef_step {t : Term} {s : Dofs} (hs : ∀ e, s.contains e = true ↔ e = t.dof) (y : ℚ) (r : Relation) (n : Int)
    (d : Dof) : coef (addParticipation t.node (fun d => if s.contains d then y else 0) r) n d =
      coef r n d + if t.node = n ∧ t.dof = d then y else 0 := by
  rw [coef_add]
  congr 1
  have : s.contains d = true ↔ d = t.dof := hs d
  by_cases h1 : t.node = n
  · by_cases h2 : t.dof = d
    · rw [if_pos h1, if_pos (this.2 h2.symm), if_pos ⟨h1, h2⟩]
    · rw [if_pos h1, if_neg (fun h => h2 (this.1 h).symm), if_neg (fun h => h2 h.2)]
  · rw [if_neg h1, if_neg (fun h => h1 h.1)]

theorem total_cons (t : Term) (y : ℚ) (ps : List (Term × ℚ)) (n : Int) (d : Dof) :
    total ((t, y) :: ps) n d = (if t.node = n ∧ t.dof = d then y else 0) + total ps n d := by
  unfold total
  by_cases h : t.node = n ∧ t.dof = d
  · rw [List.filter_cons_of_pos (by simpa using h), if_pos h, List.map_cons, List.sum_cons]
  · rw [List.filter_cons_of_neg (by simpa using h), if_neg h, zero_add]

/-- The loop of the reader on fields laid out as in the manual. -/
theorem loop_layout : ∀ (k : Nat) (ts : List Term), ts.length ≤ k → (∀ t ∈ ts, Number t.node) →
    ∀ texts, List.Forall₂ Says (layout ts) texts → ∃ ys : List ℚ, List.Forall₂ (fun t y => Near t.coef y) ts ys ∧
      ∀ (fuel i : Nat) (r : Relation) (pre : List Nastran.Line), ts.length < fuel → i % 8 = 2 →
      ∃ r', mpcLoop fuel i r (after pre texts) = .ok (r', after (pre ++ texts) []) ∧
        ∀ n d, coef r' n d = coef r n d + total (ts.zip ys) n d := by
  intro k
  induction k with
  | zero =>
    intro ts hk _ texts ht
    obtain rfl : ts = [] := List.length_eq_zero_iff.1 (by omega)
    cases ht
    refine ⟨[], .nil, fun fuel i r pre hf hi => ⟨r, ?_, by simp [total]⟩⟩
    obtain ⟨f, rfl⟩ : ∃ f, fuel = f + 1 := ⟨fuel - 1, by simp at hf; omega⟩
    rw [loop_end, List.append_nil]
  | succ k ih =>
    intro ts hk hnum texts ht
    match ts, hk, hnum, ht with
    | [], _, _, ht =>
      cases ht
      refine ⟨[], .nil, fun fuel i r pre hf hi => ⟨r, ?_, by simp [total]⟩⟩
      obtain ⟨f, rfl⟩ : ∃ f, fuel = f + 1 := ⟨fuel - 1, by simp at hf; omega⟩
      rw [loop_end, List.append_nil]
    | [a], _, hnum, ht =>
      rw [layout, ← List.append_nil (fieldsOfTerm a)] at ht
      obtain ⟨tg, td, ta, rest, rfl, hg, hd, ha, hrest⟩ := texts_term ht
      cases hrest
      obtain ⟨y, hy, hloop⟩ := loop_term hg hd ha (hnum a (by simp))
      refine ⟨[y], .cons hy .nil, fun fuel i r pre hf hi => ?_⟩
      obtain ⟨f, rfl⟩ : ∃ f, fuel = f + 2 := ⟨fuel - 2, by simp at hf; omega⟩
      obtain ⟨s, hs, hl⟩ := hloop (f + 1) i r pre []
      refine ⟨_, by rw [hl, mpcSkip_end]; simp only [Outcome.bind_ok]; exact loop_end _ _ _ _, fun n d => ?_⟩
      rw [coef_step hs, List.zip_cons_cons, total_cons]
      simp [total]
    | [a, b], _, hnum, ht =>
      rw [layout, ← List.append_nil (fieldsOfTerm b)] at ht
      obtain ⟨tg, td, ta, rest, rfl, hg, hd, ha, hrest⟩ := texts_term ht
      obtain ⟨ug, ud, ua, rest, rfl, kg, kd, ka, hrest⟩ := texts_term hrest
      cases hrest
      obtain ⟨y, hy, hloop⟩ := loop_term hg hd ha (hnum a (by simp))
      obtain ⟨z, hz, hloop2⟩ := loop_term kg kd ka (hnum b (by simp))
      refine ⟨[y, z], .cons hy (.cons hz .nil), fun fuel i r pre hf hi => ?_⟩
      obtain ⟨f, rfl⟩ : ∃ f, fuel = f + 3 := ⟨fuel - 3, by simp at hf; omega⟩
      obtain ⟨s, hs, hl⟩ := hloop (f + 2) i r pre [ug, ud, ua]
      obtain ⟨s2, hs2, hl2⟩ := hloop2 (f + 1) (i + 3) (addParticipation a.node (fun d => if s.contains d then y else 0) r)
        (pre ++ [tg, td, ta]) []
      refine ⟨_, by
        rw [hl, mpcSkip_none (by omega)]
        simp only [Outcome.bind_ok]
        rw [hl2, mpcSkip_end]
        simp only [Outcome.bind_ok]
        rw [loop_end]
        simp only [List.append_assoc, List.cons_append, List.nil_append]
        rfl, fun n d => ?_⟩
      rw [coef_step hs2, coef_step hs, List.zip_cons_cons, List.zip_cons_cons, total_cons, total_cons]
      simp [total, add_assoc]
    | a :: b :: c :: ts, hk, hnum, ht =>
      rw [layout, List.append_assoc, List.append_assoc] at ht
      obtain ⟨tg, td, ta, rest, rfl, hg, hd, ha, hrest⟩ := texts_term ht
      obtain ⟨ug, ud, ua, rest, rfl, kg, kd, ka, hrest⟩ := texts_term hrest
      obtain ⟨rest, rfl, hlay⟩ := texts_blank hrest
      obtain ⟨y, hy, hloop⟩ := loop_term hg hd ha (hnum a (by simp))
      obtain ⟨z, hz, hloop2⟩ := loop_term kg kd ka (hnum b (by simp))
      obtain ⟨ys, hys, hmore⟩ := ih (c :: ts) (by simp at hk ⊢; omega)
        (fun t h => hnum t (by simp only [List.mem_cons] at h ⊢; tauto)) rest hlay
      have hne : ∃ t ∈ ([] : Nastran.Line) :: [] :: rest, (trim t).isEmpty = false := by
        have : ∃ more, layout (c :: ts) = fieldsOfTerm c ++ more := by
          match ts with
          | [] => exact ⟨[], by simp [layout]⟩
          | [e] => exact ⟨_, rfl⟩
          | e :: f :: ts => exact ⟨_, by rw [layout, List.append_assoc, List.append_assoc]⟩
        obtain ⟨more, hm⟩ := this
        rw [hm] at hlay
        obtain ⟨vg, _, _, _, rfl, h1, -⟩ := texts_term hlay
        exact ⟨vg, by simp, says_int_ne h1⟩
      obtain ⟨t0, ht0, hne0⟩ := hne
      refine ⟨y :: z :: ys, .cons hy (.cons hz hys), fun fuel i r pre hf hi => ?_⟩
      obtain ⟨f, rfl⟩ : ∃ f, fuel = f + 2 := ⟨fuel - 2, by simp at hf; omega⟩
      obtain ⟨s, hs, hl⟩ := hloop (f + 1) i r pre (ug :: ud :: ua :: [] :: [] :: rest)
      obtain ⟨s2, hs2, hl2⟩ := hloop2 f (i + 3) (addParticipation a.node (fun d => if s.contains d then y else 0) r)
        (pre ++ [tg, td, ta]) ([] :: [] :: rest)
      obtain ⟨r', hr', hc'⟩ := hmore f (i + 3 + 3 + 2)
        (addParticipation b.node (fun d => if s2.contains d then z else 0)
          (addParticipation a.node (fun d => if s.contains d then y else 0) r))
        (pre ++ [tg, td, ta] ++ [ug, ud, ua] ++ [[], []]) (by simp at hf ⊢; omega) (by omega)
      refine ⟨r', ?_, fun n d => ?_⟩
      · rw [hl, mpcSkip_none (by omega)]
        simp only [Outcome.bind_ok]
        rw [hl2, mpcSkip_two (by omega) _ _ ht0 hne0]
        simp only [Outcome.bind_ok, List.take_succ_cons, List.take_zero, List.drop_succ_cons, List.drop_zero]
        rw [hr']
        simp
      · rw [hc', coef_step hs2, coef_step hs, List.zip_cons_cons, List.zip_cons_cons, total_cons, total_cons]
        ring

/-- Four terms or less are written as in the manual. -/
theorem fields_layout {ts : List Term} (h : ts.length ≤ 4) : mpcFields 2 ts = layout ts := by
  match ts, h with
  | [], _ => rfl
  | [a], _ => simp [mpcFields, layout, termArgs_eq]
  | [a, b], _ => simp [mpcFields, layout, termArgs_eq]
  | [a, b, c], _ => simp [mpcFields, layout, termArgs_eq]
  | [a, b, c, d], _ => simp [mpcFields, layout, termArgs_eq]
  | _ :: _ :: _ :: _ :: _ :: _, h => simp at h

theorem isZero_not (x : ℚ) : (!isZero x) = decide (tol < |x|) := by
  rw [Bool.eq_iff_iff, decide_eq_true_eq, Bool.not_eq_true', ← not_le, ← isZero_iff]
  simp

theorem terms_length (r : Relation) : (terms r).length = size r := by
  unfold terms size allDofs
  rw [List.length_flatMap]
  simp only [List.length_map, isZero_not]

theorem terms_mem {r : Relation} {t : Term} (h : t ∈ terms r) :
    ∃ p ∈ r, t = ⟨p.1, t.dof, p.2 t.dof⟩ ∧ tol < |p.2 t.dof| := by
  unfold terms at h
  obtain ⟨p, hp, h⟩ := List.mem_flatMap.1 h
  obtain ⟨d, hd, rfl⟩ := List.mem_map.1 h
  rw [List.mem_filter, isZero_not, decide_eq_true_eq] at hd
  exact ⟨p, hp, rfl, hd.2⟩

theorem allDofs_mem (d : Dof) : d ∈ allDofs := by cases d <;> decide

theorem total_none {ps : List (Term × ℚ)} {n : Int} {d : Dof} (h : ∀ p ∈ ps, ¬ (p.1.node = n ∧ p.1.dof = d)) :
    total ps n d = 0 := by
  unfold total
  rw [List.filter_eq_nil_iff.2 (by simpa using h)]
  rfl

/-- Among the terms, those of one node and degree of freedom. -/
theorem total_unique {n : Int} {d : Dof} {c : ℚ} : ∀ {ts : List Term} {ys : List ℚ},
    List.Forall₂ (fun t y => Near t.coef y) ts ys → (ts.map fun t => (t.node, t.dof)).Nodup → ⟨n, d, c⟩ ∈ ts →
    Near c (total (ts.zip ys) n d) := by
  intro ts
  induction ts with
  | nil => intro ys _ _ h; simp at h
  | cons t ts ih =>
    intro ys hys hnd hmem
    cases hys with
    | cons hy hys =>
      rename_i y ys
      rw [List.map_cons, List.nodup_cons] at hnd
      rw [List.zip_cons_cons, total_cons]
      rcases List.mem_cons.1 hmem with rfl | hmem
      · rw [if_pos ⟨rfl, rfl⟩, total_none, add_zero]
        · exact hy
        · rintro p hp ⟨h1, h2⟩
          exact hnd.1 (List.mem_map.2 ⟨p.1, (List.of_mem_zip hp).1, by simp [h1, h2]⟩)
      · rw [if_neg, zero_add]
        · exact ih hys hnd.2 hmem
        · rintro ⟨h1, h2⟩
          exact hnd.1 (List.mem_map.2 ⟨_, hmem, by simp [h1, h2]⟩)

theorem terms_nodup {r : Relation} (h : (r.map (·.1)).Nodup) : ((terms r).map fun t => (t.node, t.dof)).Nodup := by
  induction r with
  | nil => simp [terms]
  | cons p r ih =>
    rw [List.map_cons, List.nodup_cons] at h
    have : terms (p :: r) = ((allDofs.filter fun d => !isZero (p.2 d)).map fun d => (⟨p.1, d, p.2 d⟩ : Term)) ++
        terms r := by simp [terms]
    rw [this, List.map_append, List.nodup_append]
    refine ⟨?_, ih h.2, ?_⟩
    · rw [List.map_map]
      refine List.Nodup.map ?_ ((by decide : allDofs.Nodup).filter _)
      intro a b hab
      simpa using hab
    · rintro a ha b hb rfl
      obtain ⟨t, ht, rfl⟩ := List.mem_map.1 ha
      obtain ⟨d, -, rfl⟩ := List.mem_map.1 ht
      obtain ⟨u, hu, hue⟩ := List.mem_map.1 hb
      obtain ⟨q, hq, hu', -⟩ := terms_mem hu
      rw [hu'] at hue
      simp only [Prod.mk.injEq] at hue
      exact h.1 (List.mem_map.2 ⟨q, hq, hue.1⟩)

theorem layout_fits : ∀ (k : Nat) (ts : List Term), ts.length ≤ k → (∀ t ∈ ts, Number t.node ∧ |t.coef| ≤ dblMax) →
    ∀ a ∈ layout ts, Fits a := by
  have one : ∀ t : Term, Number t.node ∧ |t.coef| ≤ dblMax → ∀ a ∈ fieldsOfTerm t, Fits a := by
    intro t ht a ha
    rw [← termArgs_eq] at ha
    simp only [termArgs, List.mem_cons, List.not_mem_nil, or_false] at ha
    rcases ha with rfl | rfl | rfl
    · exact ht.1
    · exact pos_number t.dof
    · exact ht.2
  intro k
  induction k with
  | zero =>
    intro ts hk _ a ha
    obtain rfl : ts = [] := List.length_eq_zero_iff.1 (by omega)
    simp [layout] at ha
  | succ k ih =>
    intro ts hk h a ha
    match ts, hk, h, ha with
    | [], _, _, ha => simp [layout] at ha
    | [t], _, h, ha => exact one t (h t (by simp)) a ha
    | [t, u], _, h, ha =>
      rcases List.mem_append.1 ha with ha | ha
      · exact one t (h t (by simp)) a ha
      · exact one u (h u (by simp)) a ha
    | t :: u :: v :: ts, hk, h, ha =>
      rw [layout] at ha
      simp only [List.mem_append] at ha
      rcases ha with ((ha | ha) | ha) | ha
      · exact one t (h t (by simp)) a ha
      · exact one u (h u (by simp)) a ha
      · simp only [List.mem_cons, List.not_mem_nil, or_false, or_self] at ha
        subst ha; exact True.intro
      · exact ih (v :: ts) (by simp at hk ⊢; omega)
          (fun t ht => h t (by simp only [List.mem_cons] at ht ⊢; tauto)) a ha

theorem layout_length : ∀ (k : Nat) (ts : List Term), ts.length ≤ k → (layout ts).length ≤ 4 * ts.length ∧
    ts.length ≤ (layout ts).length := by
  have one : ∀ t, (fieldsOfTerm t).length = 3 := fun _ => rfl
  intro k
  induction k with
  | zero =>
    intro ts hk
    obtain rfl : ts = [] := List.length_eq_zero_iff.1 (by omega)
    simp [layout]
  | succ k ih =>
    intro ts hk
    match ts, hk with
    | [], _ => simp [layout]
    | [t], _ => simp [layout, one]
    | [t, u], _ => simp [layout, one]
    | t :: u :: v :: ts, hk =>
      have := ih (v :: ts) (by simp at hk ⊢; omega)
      simp only [layout, List.length_append, one, List.length_cons, List.length_nil] at this ⊢
      omega

theorem fields_fit {ts : List Term} (h : ∀ t ∈ ts, Number t.node ∧ |t.coef| ≤ dblMax) :
    ∀ (k : Nat), ∀ a ∈ mpcFields k ts, Fits a := by
  induction ts with
  | nil => intro k a ha; simp [mpcFields] at ha
  | cons t ts ih =>
    intro k a ha
    rw [mpcFields] at ha
    simp only [List.mem_append] at ha
    rcases ha with (ha | ha) | ha
    · split at ha
      · simp only [List.mem_cons, List.not_mem_nil, or_false, or_self] at ha
        subst ha; exact True.intro
      · simp at ha
    · simp only [termArgs, List.mem_cons, List.not_mem_nil, or_false] at ha
      rcases ha with rfl | rfl | rfl
      · exact (h t (by simp)).1
      · exact pos_number t.dof
      · exact (h t (by simp)).2
    · exact ih (fun t ht => h t (by simp [ht])) _ a ha

theorem fields_length : ∀ (ts : List Term) (k : Nat), (mpcFields k ts).length ≤ 5 * ts.length := by
  intro ts
  induction ts with
  | nil => intro k; simp [mpcFields]
  | cons t ts ih =>
    intro k
    have := ih (k + 3)
    simp only [mpcFields, termArgs, List.length_append, List.length_cons, List.length_nil]
    split <;> simp <;> omega

theorem mpc_name : Name false "MPC".toList :=
  ⟨by decide, by decide, by decide⟩

/-- Reading the texts of a card laid out as in the manual. -/
theorem read_layout {set : Int} (hset : Number set) {ts : List Term} (hts : ∀ t ∈ ts, Number t.node)
    {texts : List Text} (h : List.Forall₂ Says (.int set :: layout ts) texts) :
    ∃ (ys : List ℚ) (r : Relation), List.Forall₂ (fun t y => Near t.coef y) ts ys ∧
      readMPC ("MPC".toList :: texts) = .ok (set, r) ∧ ∀ n d, coef r n d = total (ts.zip ys) n d := by
  cases h with
  | cons h1 h2 =>
    rename_i t0 texts
    obtain ⟨ys, hys, hloop⟩ := loop_layout _ ts le_rfl hts texts h2
    have hl := (layout_length _ ts le_rfl).2
    rw [h2.length_eq] at hl
    obtain ⟨r, hr, hc⟩ := hloop ((after (["MPC".toList] ++ [t0]) texts).fields.length + 1) 2 []
      (["MPC".toList] ++ [t0]) (by simp [after]; omega) (by decide)
    refine ⟨ys, r, hys, ?_, fun n d => by rw [hc]; simp [coef]⟩
    unfold readMPC parseMPC
    rw [keyword_read (by decide) (by decide)]
    simp only [Outcome.bind_ok, says_int_read h1 hset, hr, isEmpty_end, if_true]

/-! ## The theorems -/

/-- **C82 (partial).** A relation of any number of terms that stands in a file as the manual of Nastran says is read with
all its terms: the coefficient of each degree of freedom is the sum of those given for it. (Of the forms of a file, the
one of C78 with short fields is considered here.) -/
theorem C82_read_partial (counter : Nat) (set : Int) (ts : List Term) (rest : List Nastran.Line) (hset : Number set)
    (hts : ∀ t ∈ ts, Number t.node ∧ |t.coef| ≤ dblMax) (hc : counter + ts.length + 1 < 10 ^ 7) (hnew : NewCard rest) :
    ∃ lines counter' fields ys r, writeCard counter "MPC".toList (.int set :: layout ts) = some (lines, counter') ∧
      nextLine (lines ++ rest) = .ok (some (fields, afterComments rest)) ∧ readMPC fields = .ok (set, r) ∧
      List.Forall₂ (fun t y => Near t.coef y) ts ys ∧ ∀ n d, coef r n d = total (ts.zip ys) n d := by
  have hl := (layout_length _ ts le_rfl).1
  have hfit : ∀ a ∈ Arg.int set :: layout ts, Fits a := by
    intro a ha
    rcases List.mem_cons.1 ha with rfl | ha
    · exact hset
    · exact layout_fits _ ts le_rfl hts a ha
  obtain ⟨lines, counter', texts, h1, h2, -, -, h5⟩ := C78_card_partial counter "MPC".toList _ rest mpc_name hfit
    (by simp only [List.length_cons]; omega) hnew
  obtain ⟨ys, r, hys, hr, hcoef⟩ := read_layout hset (fun t ht => (hts t ht).1) h2
  exact ⟨lines, counter', _, ys, r, h1, h5, hr, hys, hcoef⟩

/-- **C82 (partial).** A relation with at most four coefficients that are not zero, written to Nastran and read back, has
the same coefficients up to the precision of C79. (Not for more, see `C82_more_false`; nor its right-hand side, nor
the number of its set.) -/
theorem C82_write_partial (counter : Nat) (set : Ids) (r : Relation) (rest : List Nastran.Line) (hset : Number set.id)
    (hr : Proper r) (hsize : size r ≤ 4) (hc : counter + 5 < 10 ^ 7) (hnew : NewCard rest) :
    ∃ lines counter' fields r', writeCard counter "MPC".toList (mpcArgs set r) = some (lines, counter') ∧
      nextLine (lines ++ rest) = .ok (some (fields, afterComments rest)) ∧ readMPC fields = .ok (set.id, r') ∧
      ∀ n d, Near (coef r n d) (coef r' n d) := by
  have hlen : (terms r).length ≤ 4 := by rw [terms_length]; exact hsize
  have hts : ∀ t ∈ terms r, Number t.node ∧ |t.coef| ≤ dblMax := by
    intro t ht
    obtain ⟨p, hp, he, -⟩ := terms_mem ht
    rw [he]
    exact ⟨hr.nodesFit p hp, hr.finite p hp _⟩
  obtain ⟨lines, counter', fields, ys, r', h1, h2, h3, h4, h5⟩ := C82_read_partial counter set.id (terms r) rest hset hts
    (by omega) hnew
  refine ⟨lines, counter', fields, r', by rw [mpcArgs, fields_layout hlen]; exact h1, h2, h3, fun n d => ?_⟩
  rw [h5]
  have hzero : (∀ t ∈ terms r, ¬ (t.node = n ∧ t.dof = d)) → total ((terms r).zip ys) n d = 0 := fun h =>
    total_none fun p hp => h p.1 (List.of_mem_zip hp).1
  unfold coef
  cases hf : r.find? (fun p => p.1 = n) with
  | none =>
    rw [hzero]
    · simp [Near, tol_pos.le]
    · rintro t ht ⟨h1, -⟩
      obtain ⟨p, hp, he, -⟩ := terms_mem ht
      rw [he] at h1
      exact List.find?_eq_none.1 hf p hp (decide_eq_true h1)
  | some p =>
    have hp := List.mem_of_find?_eq_some hf
    have hpn : p.1 = n := by simpa using List.find?_some hf
    by_cases hz : tol < |p.2 d|
    · refine total_unique h4 (terms_nodup hr.nodes) ?_
      unfold terms
      refine List.mem_flatMap.2 ⟨p, hp, List.mem_map.2 ⟨d, ?_, by rw [hpn]⟩⟩
      rw [List.mem_filter, isZero_not, decide_eq_true_eq]
      exact ⟨allDofs_mem d, hz⟩
    · rw [hzero]
      · simp [Near, not_lt.1 hz]
      · rintro t ht ⟨h1, h2⟩
        obtain ⟨q, hq, he, hlt⟩ := terms_mem ht
        rw [he] at h1
        have : q = p := List.inj_on_of_nodup_map hr.nodes hq hp (by rw [hpn]; exact h1)
        rw [this, h2] at hlt
        exact hz hlt

/-- A sample: a displacement that depends on two others. -/
def sampleRelation : Relation :=
  [(7, fun d => if d = .DX then -1 else if d = .RZ then 5 / 2 else 0), (12, fun d => if d = .DX then 1 else 0)]

example : Proper sampleRelation ∧ size sampleRelation ≤ 4 := by
  refine ⟨⟨by decide, by decide, ?_⟩, by decide +kernel⟩
  intro p hp d
  simp only [sampleRelation, List.mem_cons, List.not_mem_nil, or_false] at hp
  rcases hp with rfl | rfl <;> cases d <;> decide +kernel

/-- **C82, false in full.** No relation with more than four coefficients that are not zero comes back: the reader finds
the first four only and refuses the rest of the card. (When errors are tolerated, the relation of four terms is kept.) -/
theorem C82_more_false (counter : Nat) (set : Ids) (r : Relation) (rest : List Nastran.Line) (hset : Number set.id)
    (hr : Proper r) (hsize : 4 < size r) (hc : counter + 4 * size r + 2 < 10 ^ 7) (hnew : NewCard rest) :
    ∃ lines counter' fields, writeCard counter "MPC".toList (mpcArgs set r) = some (lines, counter') ∧
      nextLine (lines ++ rest) = .ok (some (fields, afterComments rest)) ∧ readMPC fields = .throw := by
  have hlen : 4 < (terms r).length := by rw [terms_length]; exact hsize
  have hts : ∀ t ∈ terms r, Number t.node ∧ |t.coef| ≤ dblMax := by
    intro t ht
    obtain ⟨p, hp, he, -⟩ := terms_mem ht
    rw [he]
    exact ⟨hr.nodesFit p hp, hr.finite p hp _⟩
  have hfit : ∀ a ∈ mpcArgs set r, Fits a := by
    intro a ha
    rcases List.mem_cons.1 ha with rfl | ha
    · exact hset
    · exact fields_fit hts 2 a ha
  have hl := fields_length (terms r) 2
  rw [terms_length] at hl
  obtain ⟨lines, counter', texts, h1, h2, -, -, h5⟩ := C78_card_partial counter "MPC".toList _ rest mpc_name hfit
    (by simp only [mpcArgs, List.length_cons]; omega) hnew
  refine ⟨lines, counter', _, h1, h5, ?_⟩
  unfold mpcArgs at h2
  cases h2 with
  | cons k0 k1 =>
    rename_i t0 texts
    obtain ⟨a, b, c, d, e, ts, hterms⟩ : ∃ a b c d e ts, terms r = a :: b :: c :: d :: e :: ts := by
      match terms r, hlen with
      | a :: b :: c :: d :: e :: ts, _ => exact ⟨a, b, c, d, e, ts, rfl⟩
    rw [hterms] at k1 hts
    obtain ⟨more, hmore⟩ : ∃ more, mpcFields 2 (a :: b :: c :: d :: e :: ts) = fieldsOfTerm a ++ (fieldsOfTerm b ++
        (.blank :: .blank :: (fieldsOfTerm c ++ (fieldsOfTerm d ++ (fieldsOfTerm e ++ more))))) :=
      ⟨mpcFields 17 ts, by simp [mpcFields, termArgs_eq]⟩
    rw [hmore] at k1
    obtain ⟨ag, ad, aa, rest, rfl, hag, had, haa, k1⟩ := texts_term k1
    obtain ⟨bg, bd, ba, rest, rfl, hbg, hbd, hba, k1⟩ := texts_term k1
    obtain ⟨rest, rfl, k2⟩ := texts_blank k1
    obtain ⟨cg, cd, ca, rest, rfl, hcg, hcd, hca, k2⟩ := texts_term k2
    obtain ⟨dg, dd, da, rest, rfl, hdg, hdd, hda, k2⟩ := texts_term k2
    obtain ⟨eg, ed, ea, rest, rfl, heg, hed, hea, k2⟩ := texts_term k2
    obtain ⟨ya, -, la⟩ := loop_term hag had haa (hts a (by simp)).1
    obtain ⟨yb, -, lb⟩ := loop_term hbg hbd hba (hts b (by simp)).1
    obtain ⟨yc, -, lc⟩ := loop_term hcg hcd hca (hts c (by simp)).1
    obtain ⟨yd, -, ld⟩ := loop_term hdg hdd hda (hts d (by simp)).1
    have key : ∀ (fuel : Nat) (pre : List Nastran.Line), ∃ r' pre', mpcLoop (fuel + 5) 2 [] (after pre (ag :: ad :: aa ::
        bg :: bd :: ba :: [] :: [] :: cg :: cd :: ca :: dg :: dd :: da :: eg :: ed :: ea :: rest)) =
        .ok (r', after pre' (ea :: rest)) := by
      intro fuel pre
      obtain ⟨s1, -, e1⟩ := la (fuel + 4) 2 [] pre
        (bg :: bd :: ba :: [] :: [] :: cg :: cd :: ca :: dg :: dd :: da :: eg :: ed :: ea :: rest)
      rw [e1, mpcSkip_none (by decide)]
      simp only [Outcome.bind_ok]
      obtain ⟨s2, -, e2⟩ := lb (fuel + 3) (2 + 3) _ _
        ([] :: [] :: cg :: cd :: ca :: dg :: dd :: da :: eg :: ed :: ea :: rest)
      rw [e2, mpcSkip_two (by decide) _ _ (t := cg) (by simp) (says_int_ne hcg)]
      simp only [Outcome.bind_ok, List.drop_succ_cons, List.drop_zero]
      obtain ⟨s3, -, e3⟩ := lc (fuel + 2) (2 + 3 + 3 + 2) _ _ (dg :: dd :: da :: eg :: ed :: ea :: rest)
      rw [e3, mpcSkip_none (by decide)]
      simp only [Outcome.bind_ok]
      obtain ⟨s4, -, e4⟩ := ld (fuel + 1) (2 + 3 + 3 + 2 + 3) _ _ (eg :: ed :: ea :: rest)
      rw [e4, mpcSkip_two (by decide) _ _ (t := eg) (by simp) (says_int_ne heg)]
      simp only [Outcome.bind_ok, List.drop_succ_cons, List.drop_zero]
      rw [mpcLoop, says_real_notInt hea]
      exact ⟨_, _, rfl⟩
    obtain ⟨r', pre', hk⟩ := key (rest.length + 15) (["MPC".toList] ++ [t0])
    unfold readMPC parseMPC
    rw [keyword_read (by decide) (by decide)]
    simp only [Outcome.bind_ok, says_int_read k0 hset]
    have hfuel : (after (["MPC".toList] ++ [t0]) (ag :: ad :: aa :: bg :: bd :: ba :: [] :: [] :: cg :: cd :: ca :: dg ::
        dd :: da :: eg :: ed :: ea :: rest)).fields.length + 1 = rest.length + 15 + 5 := by
      simp [after]
    rw [hfuel, hk]
    simp only [Outcome.bind_ok, isEmpty_after_false (List.mem_cons_self ..) (says_real_ne hea), Bool.false_eq_true,
      if_false]

/-- A sample with five terms. -/
def sampleLong : Relation :=
  [(7, fun d => if d = .RX then 0 else 2), (12, fun d => if d = .DX then 1 else 0)]

example : Proper sampleLong ∧ 4 < size sampleLong := by
  refine ⟨⟨by decide, by decide, ?_⟩, by decide +kernel⟩
  intro p hp d
  simp only [sampleLong, List.mem_cons, List.not_mem_nil, or_false] at hp
  rcases hp with rfl | rfl <;> cases d <;> decide +kernel

/-- **C82, false in full.** When the set of relations has the number of its file, which is in general not the one that the
program gives it, the card carries the one and the subcase asks for the other. -/
theorem C82_set_false (set : Ids) (r : Relation) (n : Int) (h : set.original = some n) (hne : n ≠ set.id) :
    (mpcArgs set r).head? = some (.int set.id) ∧ subcaseNumber set = n ∧ n ≠ set.id :=
  ⟨rfl, by simp [subcaseNumber, Ids.bestId, h], hne⟩

example : (⟨3, some 100⟩ : Ids).original = some 100 ∧ (100 : Int) ≠ (⟨3, some 100⟩ : Ids).id := by decide

end NastranWrite
end Vega
