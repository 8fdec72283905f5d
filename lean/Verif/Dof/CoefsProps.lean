import Verif.Dof.Coefs
import Mathlib.Algebra.Order.BigOperators.Group.List
import Mathlib.Algebra.BigOperators.Group.List.Basic
import Mathlib.Tactic.Ring

/-!
# Properties of per-dof coefficients (C05)
-/
namespace Vega.DofCoefsSpec
open DofCoefs

/-- Specification: a set of coefficients gives each degree of freedom a value or nothing. -/
def value (c : DofCoefs) (d : Dof) : Option Dbl :=
  if isEqual (c.getValue d) unavailable = true then none else some (c.getValue d)

/-- Specification: sum of two optional values, an absent value counting for nothing. -/
def optAdd : Option Dbl → Option Dbl → Option Dbl
  | some x, some y => some (x + y)
  | some x, none => some x
  | none, y => y

/-- Ordinary magnitudes: nothing beyond a quarter of the largest double. -/
def Ordinary (x : Dbl) : Prop := |x| ≤ dblMax / 4

theorem avail_of_ordinary {x : Dbl} (h : Ordinary x) : isEqual x unavailable = false := by
  apply isEqual_unavailable_of_le_half
  unfold Ordinary at h
  have := dblMax_pos
  linarith

theorem allDofs_toList : Dofs.ALL_DOFS.toList = Dof.all := by
  rw [Dofs.toList_eq]; decide

theorem contains_foldl_add (p : Dof → Prop) [DecidablePred p] (l : List Dof) (s : Dofs) (d : Dof) :
    (l.foldl (fun s d => if p d then s.addDof d else s) s).contains d = true ↔
      s.contains d = true ∨ (d ∈ l ∧ p d) := by
  induction l generalizing s with
  | nil => simp
  | cons x l ih =>
    simp only [List.foldl_cons]
    rw [ih]
    by_cases hx : p x
    · simp only [hx, if_true]
      rw [Dofs.addDof_eq, Dofs.contains_union, Dofs.contains_ofDof]
      simp only [Bool.or_eq_true, decide_eq_true_eq, List.mem_cons]
      constructor
      · rintro ((h | h) | h)
        · exact Or.inl h
        · subst h; exact Or.inr ⟨Or.inl rfl, hx⟩
        · exact Or.inr ⟨Or.inr h.1, h.2⟩
      · rintro (h | ⟨h | h, h2⟩)
        · exact Or.inl (Or.inl h)
        · exact Or.inl (Or.inr h.symm)
        · exact Or.inr ⟨h, h2⟩
    · simp only [hx, if_false, List.mem_cons]
      constructor
      · rintro (h | h)
        · exact Or.inl h
        · exact Or.inr ⟨Or.inr h.1, h.2⟩
      · rintro (h | ⟨h | h, h2⟩)
        · exact Or.inl h
        · subst h; exact absurd h2 hx
        · exact Or.inr ⟨h, h2⟩

/-- **C05** `getDOFS` is the set of degrees of freedom that have a value. -/
theorem C05_getDOFS (c : DofCoefs) (d : Dof) :
    c.getDOFS.contains d = true ↔ (value c d).isSome = true := by
  unfold getDOFS value getValue
  rw [allDofs_toList, contains_foldl_add (fun d => isEqual (c.coefs d) unavailable = false)]
  rw [Dofs.contains_noDofs]
  cases h : isEqual (c.coefs d) unavailable <;> simp [h, Dof.mem_all]

/-- **C05** `isEmpty` says that there is no value at all. -/
theorem C05_isEmpty (c : DofCoefs) : c.isEmpty = true ↔ ∀ d, value c d = none := by
  unfold isEmpty value getValue
  rw [allDofs_toList]
  simp only [List.all_eq_true]
  constructor
  · intro h d; simp [h d (Dof.mem_all d)]
  · intro h d _
    have := h d
    by_contra hc
    simp [hc] at this

/-- **C05** `DOFCoefs(dofs, value)` is defined exactly on `dofs`, with that value. -/
theorem C05_ofDofs (dofs : Dofs) (v : Dbl) (h : Ordinary v) (d : Dof) :
    value (ofDofs dofs v) d = if dofs.contains d then some v else none := by
  unfold value getValue ofDofs
  by_cases hd : dofs.contains d = true
  · simp [hd, avail_of_ordinary h]
  · simp [hd]

theorem C05_ofDof (dof : Dof) (v : Dbl) (h : Ordinary v) (d : Dof) :
    value (ofDof dof v) d = if d = dof then some v else none := by
  unfold value getValue ofDof
  by_cases hd : d = dof
  · simp [hd, avail_of_ordinary h]
  · simp [hd]

/-- **C05** a value that was set is read back, the others are untouched. -/
theorem C05_setValue (c : DofCoefs) (d e : Dof) (v : Dbl) :
    (c.setValue d v).getValue e = if e = d then v else c.getValue e := rfl

/-- **C05** the coefficients of a sum. Missing from the full property: a degree of freedom
that the left operand has and the right operand lacks (see `C05_sum_false`). -/
theorem C05_sum_partial (a b : DofCoefs) (d : Dof)
    (ha : ∀ x, value a d = some x → Ordinary x) (hb : ∀ x, value b d = some x → Ordinary x)
    (hab : (value a d).isSome = true → (value b d).isSome = true) :
    value (a.add b) d = optAdd (value a d) (value b d) := by
  unfold value getValue add at *
  simp only at *
  cases h1 : isEqual (a.coefs d) unavailable
  · have h2 : isEqual (b.coefs d) unavailable = false := by
      by_contra hc
      rw [Bool.not_eq_false] at hc
      simp [h1, hc] at hab
    have oa := ha (a.coefs d) (by simp [h1])
    have ob := hb (b.coefs d) (by simp [h2])
    have hs : isEqual (a.coefs d + b.coefs d) unavailable = false := by
      apply isEqual_unavailable_of_le_half
      unfold Ordinary at oa ob
      have := abs_add_le (a.coefs d) (b.coefs d)
      linarith
    simp [h2, hs, optAdd]
  · cases h2 : isEqual (b.coefs d) unavailable <;> simp [h2, optAdd]

-- hypotheses met with a genuine mix: DX in both, DY only in the right operand
example : ∃ a b : DofCoefs,
    (∀ d, (∀ x, value a d = some x → Ordinary x) ∧ (∀ x, value b d = some x → Ordinary x) ∧
      ((value a d).isSome = true → (value b d).isSome = true)) ∧
    value (a.add b) .DX = some 3 ∧ value (a.add b) .DY = some 2 ∧ value (a.add b) .RZ = none := by
  have o1 : Ordinary 1 := by unfold Ordinary; have := four_le_dblMax; simp; linarith
  have o2 : Ordinary (2 : Dbl) := by
    unfold Ordinary dblMax
    have h : (2 : ℚ) ^ 4 ≤ 2 ^ 1023 := pow_le_pow_right₀ (by norm_num) (by norm_num)
    generalize (2 : ℚ) ^ 1023 = a at h ⊢
    norm_num
    linarith
  let a := ofDof .DX 1
  let b := ofDofs ⟨3#8⟩ 2
  have hb : ∀ d, value b d = if (⟨3#8⟩ : Dofs).contains d then some 2 else none := C05_ofDofs _ _ o2
  have ha : ∀ d, value a d = if d = .DX then some 1 else none := C05_ofDof _ _ o1
  have hyp : ∀ d, (∀ x, value a d = some x → Ordinary x) ∧ (∀ x, value b d = some x → Ordinary x) ∧
      ((value a d).isSome = true → (value b d).isSome = true) := by
    intro d
    rw [ha, hb]
    refine ⟨?_, ?_, ?_⟩
    · intro x hx; split at hx <;> simp at hx; subst hx; exact o1
    · intro x hx; split at hx <;> simp at hx; subst hx; exact o2
    · intro h
      by_cases hd : d = .DX
      · subst hd; decide
      · simp [hd] at h
  refine ⟨a, b, hyp, ?_, ?_, ?_⟩
  · rw [C05_sum_partial a b _ (hyp _).1 (hyp _).2.1 (hyp _).2.2, ha, hb]
    have : (⟨3#8⟩ : Dofs).contains .DX = true := by decide
    simp [this, optAdd]; norm_num
  · rw [C05_sum_partial a b _ (hyp _).1 (hyp _).2.1 (hyp _).2.2, ha, hb]
    have : (⟨3#8⟩ : Dofs).contains .DY = true := by decide
    simp [this, optAdd]
  · rw [C05_sum_partial a b _ (hyp _).1 (hyp _).2.1 (hyp _).2.2, ha, hb]
    have : (⟨3#8⟩ : Dofs).contains .RZ = false := by decide
    simp [this, optAdd]

/-- Refutation of the full property: adding coefficients that say nothing about DX to
coefficients that have DX = 1 loses DX. -/
theorem C05_sum_false :
    ∃ a b : DofCoefs, ∃ d, value a d = some 1 ∧ value b d = none ∧
      value (a.add b) d = none := by
  have o1 : Ordinary 1 := by unfold Ordinary; have := four_le_dblMax; simp; linarith
  refine ⟨ofDof .DX 1, ofDof .DY 1, .DX, ?_, ?_, ?_⟩
  · rw [C05_ofDof _ _ o1]; simp
  · rw [C05_ofDof _ _ o1]; simp
  · have h : isEqual (1 + unavailable) unavailable = true := by
      unfold isEqual
      rw [decide_eq_true_eq]
      have h1 : (1 : Dbl) + unavailable - unavailable = 1 := by ring
      rw [h1, abs_one]
      have h2 : dblMax ≤ max 1 (max |1 + unavailable| |unavailable|) := by
        apply le_trans _ (le_max_right _ _)
        apply le_trans _ (le_max_right _ _)
        unfold unavailable
        rw [abs_neg]
        exact le_abs_self _
      have h3 : 1 ≤ tol * dblMax := by
        unfold tol dblMax
        have h : (2 : ℚ) ^ 53 ≤ 2 ^ 1023 := pow_le_pow_right₀ (by norm_num) (by norm_num)
        generalize (2 : ℚ) ^ 1023 = a at h ⊢
        norm_num at h ⊢
        linarith
      have := tol_pos
      nlinarith
    unfold value getValue add ofDof
    simp [avail_of_ordinary o1, h]

/-- **C05** a sequence of additions of coefficients available everywhere gives, on every
degree of freedom, the sum of the values: the order is irrelevant. -/
theorem C05_sum_sequence (l : List DofCoefs) (c : DofCoefs) (d : Dof)
    (h : |c.coefs d| + (l.map fun x => |x.coefs d|).sum ≤ dblMax / 2) :
    (l.foldl add c).getValue d = c.getValue d + (l.map fun x => x.getValue d).sum := by
  unfold getValue
  induction l generalizing c with
  | nil => simp
  | cons x l ih =>
    simp only [List.map_cons, List.sum_cons, List.foldl_cons] at h ⊢
    have hnn : 0 ≤ (l.map fun x => |x.coefs d|).sum :=
      List.sum_nonneg (by intro y hy; obtain ⟨z, _, rfl⟩ := List.mem_map.mp hy; exact abs_nonneg _)
    have hav : isEqual (c.coefs d) unavailable = false := by
      apply isEqual_unavailable_of_le_half
      have := abs_nonneg (x.coefs d)
      linarith
    have hc : (c.add x).coefs d = c.coefs d + x.coefs d := by
      unfold add; simp [hav]
    rw [ih (c.add x), hc]
    · ring
    · rw [hc]
      have := abs_add_le (c.coefs d) (x.coefs d)
      linarith

theorem C05_sum_order_independent (l l' : List DofCoefs) (c : DofCoefs) (d : Dof)
    (hp : l.Perm l')
    (h : |c.coefs d| + (l.map fun x => |x.coefs d|).sum ≤ dblMax / 2) :
    (l.foldl add c).getValue d = (l'.foldl add c).getValue d := by
  rw [C05_sum_sequence l c d h, C05_sum_sequence l' c d]
  · rw [(hp.map _).sum_eq]
  · rw [← (hp.map _).sum_eq]; exact h

/-- **C05** scaling multiplies the values and leaves the absent ones absent. -/
theorem C05_scale (c : DofCoefs) (f : Dbl) (d : Dof)
    (h : ∀ x, value c d = some x → Ordinary (x * f)) :
    value (c.scale f) d = (value c d).map (· * f) := by
  unfold value getValue scale at *
  simp only at *
  cases h1 : isEqual (c.coefs d) unavailable
  · have := avail_of_ordinary (h _ (by simp [h1]; rfl))
    simp [this]
  · simp [h1]

theorem ltLoop_trichotomy (a b : DofCoefs) (l : List Dof) :
    (ltLoop a b l = true ∧ ltLoop b a l = false ∧ (l.all fun d => isEqual (a.coefs d) (b.coefs d)) = false) ∨
    (ltLoop a b l = false ∧ ltLoop b a l = true ∧ (l.all fun d => isEqual (a.coefs d) (b.coefs d)) = false) ∨
    (ltLoop a b l = false ∧ ltLoop b a l = false ∧ (l.all fun d => isEqual (a.coefs d) (b.coefs d)) = true) := by
  induction l with
  | nil => simp [ltLoop]
  | cons d l ih =>
    simp only [ltLoop, List.all_cons]
    rw [isEqual_comm (b.coefs d) (a.coefs d)]
    cases he : isEqual (a.coefs d) (b.coefs d)
    · have hne : a.coefs d ≠ b.coefs d := by
        intro hc; rw [hc, isEqual_self] at he; cases he
      rcases lt_or_gt_of_ne hne with h | h
      · left; simp [h, h.le]
      · right; left; simp [h, h.le]
    · simpa using ih

/-- **C05** `<` and `==` agree: exactly one of a < b, b < a, a == b. -/
theorem C05_trichotomy (a b : DofCoefs) :
    (a.lt b = true ∧ b.lt a = false ∧ a.eq b = false) ∨
    (a.lt b = false ∧ b.lt a = true ∧ a.eq b = false) ∨
    (a.lt b = false ∧ b.lt a = false ∧ a.eq b = true) := ltLoop_trichotomy a b Dof.all

/-- `==` is tolerant and therefore not transitive: keys of a map ordered by `<` may collapse
differently depending on the insertion order. -/
theorem C05_eq_not_transitive :
    ∃ a b c : DofCoefs, a.eq b = true ∧ b.eq c = true ∧ a.eq c = false := by
  have ht : tol = 5 / 2 ^ 52 := rfl
  refine ⟨ofValues 0 0 0 0 0 0, ofValues tol 0 0 0 0 0, ofValues (2 * tol) 0 0 0 0 0, ?_, ?_, ?_⟩
  · simp only [eq, Dof.all, ofValues, List.all_cons, List.all_nil, isEqual_self, Bool.and_true]
    unfold isEqual
    rw [decide_eq_true_eq, ht]
    norm_num [abs_of_pos, abs_of_neg]
  · simp only [eq, Dof.all, ofValues, List.all_cons, List.all_nil, isEqual_self, Bool.and_true]
    unfold isEqual
    rw [decide_eq_true_eq, ht]
    norm_num [abs_of_pos, abs_of_neg]
  · simp only [eq, Dof.all, ofValues, List.all_cons, List.all_nil, isEqual_self, Bool.and_true]
    unfold isEqual
    rw [decide_eq_false_iff_not, ht]
    norm_num [abs_of_pos, abs_of_neg]

/-- Indexing with 6 reads past the end although the guard lets it through. -/
theorem C05_index_six_undefined (c : DofCoefs) : c.index 6 = .ub := rfl

theorem C05_index (c : DofCoefs) (d : Dof) : c.index d.position = .ok (c.getValue d) := by
  cases d <;> rfl

end Vega.DofCoefsSpec
