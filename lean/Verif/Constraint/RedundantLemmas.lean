import Verif.Constraint.Redundant
import Verif.Constraint.SpcProps
import Mathlib.Data.List.Nodup
import Mathlib.Tactic.Tauto

/-!
# Removal of single point constraints: one removal
-/
namespace Vega.RedundantSpec
open SpcModel

/-! ## Specification -/

/-- The SPC `t` is in one of the constraint sets of analysis `a`. -/
def uses (m : SpcModel) (a t : Nat) : Prop :=
  ∃ S ∈ m.constraintSets a, t ∈ m.members S ∨ ∃ T ∈ m.includes S, t ∈ m.members T

/-- In analysis `a` the SPC `t` holds the degree of freedom `d` of node `n` at the value `x`. -/
def acts (m : SpcModel) (a t n : Nat) (d : Dof) (x : Dbl) : Prop :=
  uses m a t ∧ (n ∈ m.nodes t ∨ n ∈ m.groupNodes t) ∧ (m.spc t).getDoubleForDOF d = .ok x

/-- In analysis `a` the degree of freedom `d` of node `n` is held at the value `x`. -/
def held (m : SpcModel) (a n : Nat) (d : Dof) (x : Dbl) : Prop := ∃ t, acts m a t n d x

/-- All values are numbers. -/
def Numeric (s : Spc) : Prop :=
  ∀ n d, (s.getDOFSForNode n).contains d = true → ∃ x, s.getDoubleForDOF d = .ok x

/-- The numbering of SPCs and sets is sound and SPCs have no node groups. -/
structure WF (m : SpcModel) : Prop where
  ids : ∀ S, ∀ t ∈ m.members S, t < m.next
  sets : ∀ S, m.nextSet ≤ S → m.members S = [] ∧ m.includes S = []
  incl : ∀ S, ∀ T ∈ m.includes S, T < m.nextSet
  refs : ∀ a, ∀ S ∈ m.constraintSets a, S < m.nextSet
  groups : ∀ t, m.groupNodes t = []

/-- Sets do not include others, or there is only one analysis. -/
def Plain (m : SpcModel) : Prop :=
  (∀ a ∈ m.analyses, ∀ b ∈ m.analyses, a = b) ∨ ∀ S, m.includes S = []

/-! ## Lemmas -/

theorem mem_constraints (e : Enum) (m : SpcModel) (S t : Nat) :
    t ∈ m.constraints e S ↔ t ∈ m.members S ∨ ∃ T ∈ m.includes S, t ∈ m.members T := by
  unfold constraints
  rw [e.mem, List.mem_append, List.mem_flatMap]

theorem uses_iff (e : Enum) (m : SpcModel) (a t : Nat) :
    uses m a t ↔ ∃ S ∈ m.constraintSets a, t ∈ m.constraints e S := by
  unfold uses
  simp only [mem_constraints]

theorem double_free (d : Dof) : Spc.free.getDoubleForDOF d = .throw := by
  have : (ValOrRef.beq ValOrRef.EMPTY ValOrRef.EMPTY) = true := by decide
  unfold Spc.getDoubleForDOF Spc.free
  rw [if_pos this]

theorem double_setDOF (s : Spc) (d e : Dof) (x : Dbl) :
    (s.setDOF d (.value x)).getDoubleForDOF e = if e = d then .ok x else s.getDoubleForDOF e := by
  unfold Spc.getDoubleForDOF Spc.setDOF
  by_cases h : e = d
  · simp [h, ValOrRef.beq, ValOrRef.EMPTY, ValOrRef.isReference, ValOrRef.getValue]
  · simp [h]

theorem numeric_setDOF {s : Spc} (hs : Numeric s) (d : Dof) (x : Dbl) :
    Numeric (s.setDOF d (.value x)) := by
  intro n e he
  rw [double_setDOF]
  by_cases h : e = d
  · exact ⟨x, by rw [if_pos h]⟩
  · rw [if_neg h]
    refine hs n e ?_
    rw [SpcSpec.dofs_contains] at he ⊢
    simpa [Spc.setDOF, h] using he

theorem numeric_free : Numeric Spc.free := by
  intro n d h
  rw [SpcSpec.dofs_contains] at h
  revert h
  have : (ValOrRef.beq ValOrRef.EMPTY ValOrRef.EMPTY) = true := by decide
  simp [Spc.free, this]

/-- A degree of freedom with a number is constrained. -/
theorem contains_of_double {s : Spc} {d : Dof} {x : Dbl} (h : s.getDoubleForDOF d = .ok x)
    (n : Nat) : (s.getDOFSForNode n).contains d = true := by
  rw [SpcSpec.dofs_contains]
  unfold Spc.getDoubleForDOF at h
  cases hb : (s.spcs d).beq ValOrRef.EMPTY
  · rfl
  · rw [hb] at h; simp at h

/-- The outcome of copying the values of some degrees of freedom. -/
theorem restrictTo_ok (s : Spc) (ds : List Dof) (h : ∀ d ∈ ds, ∃ x, s.getDoubleForDOF d = .ok x) :
    ∃ t, restrictTo s ds = .ok t ∧ Numeric t ∧
      ∀ d x, t.getDoubleForDOF d = .ok x ↔ d ∈ ds ∧ s.getDoubleForDOF d = .ok x := by
  induction ds with
  | nil =>
    refine ⟨Spc.free, rfl, numeric_free, ?_⟩
    intro d x
    rw [double_free]; simp
  | cons e ds ih =>
    obtain ⟨t, ht, hn, hd⟩ := ih fun d hd => h d (by simp [hd])
    obtain ⟨x, hx⟩ := h e (by simp)
    refine ⟨t.setDOF e (.value x), ?_, numeric_setDOF hn e x, ?_⟩
    · rw [restrictTo, ht, Outcome.bind_ok, hx, Outcome.bind_ok]
    · intro d y
      rw [double_setDOF]
      by_cases hde : d = e
      · subst hde
        rw [if_pos rfl, hx]
        simp
      · rw [if_neg hde, hd]
        simp [hde]

theorem mem_affected (m : SpcModel) (hw : WF m) (s S : Nat) :
    S ∈ m.affected s ↔ s ∈ m.members S := by
  unfold affected
  rw [List.mem_filter, List.mem_range]
  simp only [decide_eq_true_eq]
  constructor
  · exact fun h => h.2
  · intro h
    refine ⟨?_, h⟩
    by_contra hc
    rw [(hw.sets S (by omega)).1] at h
    simp at h

/-- The state after the removal, described. `r` is the SPC for the remaining degrees of freedom,
`o` the one for the other analyses. -/
structure Removed (m : SpcModel) (a s n : Nat) (D : Dofs) (m' : SpcModel) (r o : Option Nat) :
    Prop where
  next : m.next ≤ m'.next
  fresh : (∀ x ∈ r, m.next ≤ x ∧ x < m'.next) ∧ ∀ x ∈ o, m.next ≤ x ∧ x < m'.next
  distinct : ∀ x ∈ r, x ∉ o
  analyses : m'.analyses = m.analyses
  common : m'.common = m.common
  includes : m'.includes = m.includes
  nextSet : m.nextSet ≤ m'.nextSet
  /-- the old sets -/
  membersOld : ∀ S, S < m.nextSet → ∀ t, t ∈ m'.members S ↔
    t ∈ m.members S ∨ (t ∈ r ∧ s ∈ m.members S)
  membersNew : ∀ S, m.nextSet ≤ S → ∀ t, t ∈ m'.members S ↔ (S < m'.nextSet ∧ t ∈ o)
  /-- the analyses -/
  refsOwn : m'.refs a = m.refs a
  refsOther : ∀ b, m'.refs b = m.refs b ∨
    (b ∈ m.analyses ∧ b ≠ a ∧ (∃ S ∈ m.constraintSets b, s ∈ m.members S) ∧
      m'.refs b = m.refs b ++ [m.nextSet])
  refsJoin : ∀ b ∈ m.analyses, b ≠ a → (∃ S ∈ m.constraintSets b, s ∈ m.members S) →
      m'.refs b = m.refs b ++ [m.nextSet] ∧ o.isSome ∧ m.nextSet < m'.nextSet
  /-- the SPCs -/
  spcOld : ∀ t, t < m.next → m'.spc t = m.spc t
  nodesOld : ∀ t, t < m.next → t ≠ s → m'.nodes t = m.nodes t
  nodesSelf : ∀ x, x ∈ m'.nodes s ↔ x ∈ m.nodes s ∧ x ≠ n
  groups : ∀ t, m'.groupNodes t = []
  rem : ∀ x ∈ r, m'.nodes x = [n] ∧ Numeric (m'.spc x) ∧ ∀ d y, (m'.spc x).getDoubleForDOF d = .ok y ↔
    D.contains d = false ∧ (m.spc s).getDoubleForDOF d = .ok y
  remNone : r = none → ∀ d, ((m.spc s).getDOFSForNode n).contains d = true → D.contains d = true
  oth : ∀ x ∈ o, m'.nodes x = [n] ∧ Numeric (m'.spc x) ∧ ∀ d y, (m'.spc x).getDoubleForDOF d = .ok y ↔
    D.contains d = true ∧ (m.spc s).getDoubleForDOF d = .ok y

theorem two_le_of_ne {l : List Nat} {a b : Nat} (ha : a ∈ l) (hb : b ∈ l) (h : b ≠ a) :
    2 ≤ l.length := by
  match l, ha, hb with
  | [x], ha, hb => simp at ha hb; exact absurd (hb.trans ha.symm) h
  | x :: y :: l, _, _ => simp

theorem not_contains_of_empty {D : Dofs} (h : D.empty = true) (d : Dof) : D.contains d = false := by
  have : D = Dofs.NO_DOFS := by
    cases D
    simp only [Dofs.empty, beq_iff_eq] at h
    simp [Dofs.NO_DOFS, h]
  rw [this, Dofs.contains_noDofs]

theorem removeSPCNodeDofs_ok (m : SpcModel) (hw : WF m) (a s n : Nat) (D : Dofs) (ha : a ∈ m.analyses) (hs : s < m.next)
    (hn : n ∈ m.nodes s) (hnum : Numeric (m.spc s))
    (hD : ∀ d, D.contains d = true → ((m.spc s).getDOFSForNode n).contains d = true) :
    ∃ m' r o, m.removeSPCNodeDofs a s n D = .ok m' ∧ Removed m a s n D m' r o := by
  have hwr : ∀ b, ∀ S ∈ m.constraintSets b, S ≠ m.nextSet := fun b S hS h => by
    have := hw.refs b S hS; omega
  -- the remaining degrees of freedom
  have h1 : ∃ (m1 : SpcModel) (r : Option Nat), m.keepRemaining s n (((m.spc s).getDOFSForNode n).diff D) (m.affected s) = .ok m1 ∧
      m.next ≤ m1.next ∧ (∀ x ∈ r, x = m.next ∧ x < m1.next) ∧
      m1.analyses = m.analyses ∧ m1.common = m.common ∧ m1.includes = m.includes ∧
      m1.nextSet = m.nextSet ∧ m1.refs = m.refs ∧
      (∀ S t, t ∈ m1.members S ↔ t ∈ m.members S ∨ (t ∈ r ∧ s ∈ m.members S)) ∧
      (∀ t, t < m.next → m1.spc t = m.spc t ∧ m1.nodes t = m.nodes t) ∧
      (∀ t, m1.groupNodes t = []) ∧
      (∀ x ∈ r, m1.nodes x = [n] ∧ Numeric (m1.spc x) ∧
        ∀ d y, (m1.spc x).getDoubleForDOF d = .ok y ↔
          D.contains d = false ∧ (m.spc s).getDoubleForDOF d = .ok y) ∧
      (r = none → ∀ d, ((m.spc s).getDOFSForNode n).contains d = true → D.contains d = true) := by
    unfold keepRemaining
    by_cases he : (((m.spc s).getDOFSForNode n).diff D).empty = true
    · rw [if_pos he]
      refine ⟨m, none, rfl, le_refl _, by simp, rfl, rfl, rfl, rfl, rfl, by simp, fun _ _ => ⟨rfl, rfl⟩,
        hw.groups, by simp, ?_⟩
      intro _ d hd
      have := not_contains_of_empty he d
      rw [Dofs.contains_diff, hd] at this
      simpa using this
    · rw [if_neg he]
      obtain ⟨t, ht, htn, htd⟩ := restrictTo_ok (m.spc s) (((m.spc s).getDOFSForNode n).diff D).toList
        (by
          intro d hd
          rw [SpcSpec.mem_toList, Dofs.contains_diff] at hd
          simp only [Bool.and_eq_true] at hd
          exact hnum n d hd.1)
      rw [ht, Outcome.bind_ok]
      refine ⟨_, some m.next, rfl, ?_, ?_, rfl, rfl, rfl, rfl, rfl, ?_, ?_, ?_, ?_, by simp⟩
      · simp [register, addSpc]
      · simp [register, addSpc]
      · intro S x
        simp only [register, addSpc]
        by_cases hS : S ∈ m.affected s
        · rw [if_pos hS]
          rw [mem_affected m hw] at hS
          simp [hS, eq_comm]
        · rw [if_neg hS]
          rw [mem_affected m hw] at hS
          simp [hS]
      · intro x hx
        have : x ≠ m.next := by omega
        simp [register, addSpc, this]
      · intro x
        simp only [register, addSpc]
        split
        · rfl
        · exact hw.groups x
      · intro x hx
        simp only [Option.mem_def, Option.some.injEq] at hx
        subst hx
        simp only [register, addSpc, if_true]
        refine ⟨trivial, htn, ?_⟩
        intro d y
        rw [htd, SpcSpec.mem_toList, Dofs.contains_diff]
        constructor
        · rintro ⟨h, h'⟩
          simp only [Bool.and_eq_true, Bool.not_eq_true'] at h
          exact ⟨h.2, h'⟩
        · rintro ⟨h, h'⟩
          refine ⟨?_, h'⟩
          simp [h, contains_of_double h' n]
  obtain ⟨m1, r, e1, n1, fr1, a1, c1, i1, ns1, rf1, mem1, old1, gr1, rem1, rn1⟩ := h1
  have cs1 : m1.constraintSets = m.constraintSets := by
    funext b; simp [constraintSets, c1, rf1]
  -- the others
  have h2 : ∃ (m2 : SpcModel) (o : Option Nat), m1.keepForOthers a s n D (m.affected s) = .ok m2 ∧
      m1.next ≤ m2.next ∧ (∀ x ∈ o, x = m1.next ∧ x < m2.next) ∧
      m2.analyses = m.analyses ∧ m2.common = m.common ∧ m2.includes = m.includes ∧
      m.nextSet ≤ m2.nextSet ∧
      (∀ S, S < m.nextSet → m2.members S = m1.members S) ∧
      (∀ S, m.nextSet ≤ S → ∀ t, t ∈ m2.members S ↔ (S < m2.nextSet ∧ t ∈ o)) ∧
      m2.refs a = m.refs a ∧
      (∀ b, m2.refs b = m.refs b ∨
        (b ∈ m.analyses ∧ b ≠ a ∧ (∃ S ∈ m.constraintSets b, s ∈ m.members S) ∧
          m2.refs b = m.refs b ++ [m.nextSet])) ∧
      (∀ b ∈ m.analyses, b ≠ a → a ∈ m.analyses ∨ 2 ≤ m.analyses.length →
        (∃ S ∈ m.constraintSets b, s ∈ m.members S) →
        m2.refs b = m.refs b ++ [m.nextSet] ∧ o.isSome ∧ m.nextSet < m2.nextSet) ∧
      (∀ t, t < m1.next → m2.spc t = m1.spc t ∧ m2.nodes t = m1.nodes t) ∧
      (∀ t, m2.groupNodes t = []) ∧
      (∀ x ∈ o, m2.nodes x = [n] ∧ Numeric (m2.spc x) ∧
        ∀ d y, (m2.spc x).getDoubleForDOF d = .ok y ↔
          D.contains d = true ∧ (m.spc s).getDoubleForDOF d = .ok y) := by
    have hmem1 : ∀ S, m.nextSet ≤ S → m1.members S = [] := by
      intro S hS
      rw [List.eq_nil_iff_forall_not_mem]
      intro t ht
      rw [mem1] at ht
      rw [(hw.sets S hS).1] at ht
      simp at ht
    unfold keepForOthers
    by_cases hl : m1.analyses.length ≥ 2
    · rw [if_pos hl]
      obtain ⟨t, ht, htn, htd⟩ := restrictTo_ok (m.spc s) D.toList
        (by
          intro d hd
          rw [SpcSpec.mem_toList] at hd
          exact hnum n d (hD d hd))
      rw [(old1 s hs).1, ht, Outcome.bind_ok]
      refine ⟨_, some m1.next, rfl, ?_, ?_, a1, c1, i1, ?_, ?_, ?_, ?_, ?_, ?_, ?_, ?_, ?_⟩
      · simp [register, addSpc, joinOthers]
      · simp [register, addSpc, joinOthers]
      · simp [register, addSpc, joinOthers, ns1]
      · intro S hS
        have : S ≠ m1.nextSet := by omega
        simp [register, addSpc, joinOthers, this]
      · intro S hS x
        simp only [register, addSpc, joinOthers, List.mem_singleton]
        by_cases hSn : S = m1.nextSet
        · subst hSn
          rw [if_pos rfl, hmem1 _ hS]
          simp [eq_comm]
        · rw [if_neg hSn, hmem1 _ hS]
          have : ¬ S < m1.nextSet + 1 := by omega
          simp [this]
      · simp [register, addSpc, joinOthers, rf1]
      · intro b
        have hb : ∀ P : Prop, [Decidable P] → (if P then m1.refs b ++ [m1.nextSet] else m1.refs b) = m.refs b ∨
            (P ∧ (if P then m1.refs b ++ [m1.nextSet] else m1.refs b) = m.refs b ++ [m.nextSet]) := by
          intro P _
          by_cases hP : P
          · right; rw [if_pos hP, rf1, ns1]; exact ⟨hP, rfl⟩
          · left; rw [if_neg hP, rf1]
        rcases hb (b ∈ m1.analyses ∧ b ≠ a ∧
          (m1.constraintSets b).any (fun S => decide (S ∈ m.affected s)) = true) with h | ⟨⟨h1, h2, h3⟩, h⟩
        · left; exact h
        · right
          rw [a1] at h1
          rw [List.any_eq_true] at h3
          obtain ⟨S, hS, hSa⟩ := h3
          rw [decide_eq_true_eq, mem_affected m hw] at hSa
          rw [cs1] at hS
          exact ⟨h1, h2, ⟨S, hS, hSa⟩, h⟩
      · rintro b hb hba - ⟨S, hS, hSm⟩
        have : b ∈ m1.analyses ∧ b ≠ a ∧
            (m1.constraintSets b).any (fun S => decide (S ∈ m.affected s)) = true := by
          refine ⟨by rw [a1]; exact hb, hba, ?_⟩
          rw [List.any_eq_true]
          refine ⟨S, by rw [cs1]; exact hS, ?_⟩
          rw [decide_eq_true_eq, mem_affected m hw]
          exact hSm
        refine ⟨?_, rfl, ?_⟩
        · show (if b ∈ m1.analyses ∧ b ≠ a ∧
            (m1.constraintSets b).any (fun S => decide (S ∈ m.affected s)) = true
            then m1.refs b ++ [m1.nextSet] else m1.refs b) = _
          rw [if_pos this, rf1, ns1]
        · simp [register, addSpc, joinOthers, ns1]
      · intro x hx
        have : x ≠ m1.next := by omega
        simp [register, addSpc, joinOthers, this]
      · intro x
        simp only [register, addSpc, joinOthers]
        split
        · rfl
        · exact gr1 x
      · intro x hx
        simp only [Option.mem_def, Option.some.injEq] at hx
        subst hx
        simp only [register, addSpc, joinOthers, if_true]
        refine ⟨trivial, htn, ?_⟩
        intro d y
        rw [htd, SpcSpec.mem_toList]
    · rw [if_neg hl]
      refine ⟨m1, none, rfl, le_refl _, by simp, a1, c1, i1, ns1.symm.le, fun _ _ => rfl, ?_,
        by rw [rf1], fun b => Or.inl (by rw [rf1]), ?_, fun _ _ => ⟨rfl, rfl⟩, gr1, by simp⟩
      · intro S hS t
        rw [hmem1 S hS]; simp
      · intro b hb hba h _
        rw [a1] at hl
        rcases h with h | h
        · exact absurd (two_le_of_ne h hb hba) hl
        · exact absurd h hl
  obtain ⟨m2, o, e2, n2, fr2, a2, c2, i2, ns2, memo2, memn2, ra2, rb2, rj2, old2, gr2, oth2⟩ := h2
  have hns : m2.nodes s = m.nodes s := by rw [(old2 s (by omega)).2, (old1 s hs).2]
  refine ⟨{ m2 with nodes := fun x => if x = s then (m2.nodes s).filter (· ≠ n) else m2.nodes x },
    r, o, ?_, ?_⟩
  · unfold removeSPCNodeDofs
    simp only [e1, Outcome.bind_ok, e2]
    unfold dropNode
    rw [if_pos (by rw [hns]; exact hn)]
  · have hrs : ∀ x ∈ r, x ≠ s := fun x hx => by have := fr1 x hx; omega
    have hos : ∀ x ∈ o, x ≠ s := fun x hx => by have := fr2 x hx; omega
    constructor
    · exact n1.trans n2
    · exact ⟨fun x hx => ⟨(fr1 x hx).1.ge, lt_of_lt_of_le (fr1 x hx).2 n2⟩,
        fun x hx => ⟨n1.trans (fr2 x hx).1.ge, (fr2 x hx).2⟩⟩
    · intro x hx hx'
      have := fr1 x hx
      have := fr2 x hx'
      omega
    · exact a2
    · exact c2
    · exact i2
    · exact ns2
    · intro S hS t
      show t ∈ m2.members S ↔ _
      rw [memo2 S hS, mem1]
    · exact memn2
    · exact ra2
    · exact rb2
    · intro b hb hba h
      exact rj2 b hb hba (Or.inl ha) h
    · intro t ht
      show m2.spc t = _
      rw [(old2 t (by omega)).1, (old1 t ht).1]
    · intro t ht hts
      simp only [hts, if_false]
      rw [(old2 t (by omega)).2, (old1 t ht).2]
    · intro x
      simp only [if_true, hns]
      simp
    · exact gr2
    · intro x hx
      have hx2 := fr1 x hx
      obtain ⟨p1, p2, p3⟩ := rem1 x hx
      have := old2 x hx2.2
      simp only [hrs x hx, if_false]
      rw [this.1, this.2]
      exact ⟨p1, p2, p3⟩
    · exact rn1
    · intro x hx
      simp only [hos x hx, if_false]
      exact oth2 x hx

/-- The SPC is registered in a set the analysis uses (and not only in a set included in one). -/
def usesDirectly (m : SpcModel) (b s : Nat) : Prop := ∃ S ∈ m.constraintSets b, s ∈ m.members S

theorem uses_lt {m : SpcModel} (hw : WF m) {b t : Nat} (h : uses m b t) : t < m.next := by
  obtain ⟨S, _, h | ⟨T, _, h⟩⟩ := h
  · exact hw.ids S t h
  · exact hw.ids T t h

/-- Which sets contain an SPC, after a removal; for sets the model knew before. -/
theorem inSet_removed {m : SpcModel} (hw : WF m) {a s n : Nat} {D : Dofs} {m' : SpcModel}
    {r o : Option Nat} (h : Removed m a s n D m' r o) (S : Nat) (hS : S < m.nextSet) (t : Nat) :
    (t ∈ m'.members S ∨ ∃ T ∈ m'.includes S, t ∈ m'.members T) ↔
      (t ∈ m.members S ∨ ∃ T ∈ m.includes S, t ∈ m.members T) ∨
      (t ∈ r ∧ (s ∈ m.members S ∨ ∃ T ∈ m.includes S, s ∈ m.members T)) := by
  rw [h.includes, h.membersOld S hS]
  have : (∃ T ∈ m.includes S, t ∈ m'.members T) ↔
      (∃ T ∈ m.includes S, t ∈ m.members T) ∨ (t ∈ r ∧ ∃ T ∈ m.includes S, s ∈ m.members T) := by
    constructor
    · rintro ⟨T, hT, ht⟩
      rw [h.membersOld T (hw.incl S T hT)] at ht
      rcases ht with ht | ⟨h1, h2⟩
      · exact Or.inl ⟨T, hT, ht⟩
      · exact Or.inr ⟨h1, T, hT, h2⟩
    · rintro (⟨T, hT, ht⟩ | ⟨h1, T, hT, h2⟩)
      · exact ⟨T, hT, (h.membersOld T (hw.incl S T hT) t).mpr (Or.inl ht)⟩
      · exact ⟨T, hT, (h.membersOld T (hw.incl S T hT) t).mpr (Or.inr ⟨h1, h2⟩)⟩
  rw [this]
  clear this
  generalize (∃ T ∈ m.includes S, t ∈ m.members T) = P
  generalize (∃ T ∈ m.includes S, s ∈ m.members T) = Q
  generalize (t ∈ r) = R
  generalize (t ∈ m.members S) = A
  generalize (s ∈ m.members S) = B
  clear h hw
  tauto

theorem inNew_removed {m : SpcModel} (hw : WF m) {a s n : Nat} {D : Dofs} {m' : SpcModel}
    {r o : Option Nat} (h : Removed m a s n D m' r o) (t : Nat) :
    (t ∈ m'.members m.nextSet ∨ ∃ T ∈ m'.includes m.nextSet, t ∈ m'.members T) ↔
      (m.nextSet < m'.nextSet ∧ t ∈ o) := by
  rw [h.includes, (hw.sets m.nextSet (le_refl _)).2, h.membersNew _ (le_refl _)]
  simp

theorem constraintSets_removed {m : SpcModel} {a s n : Nat} {D : Dofs} {m' : SpcModel}
    {r o : Option Nat} (h : Removed m a s n D m' r o) (b : Nat) :
    m'.constraintSets b = m.constraintSets b ∨
      (b ∈ m.analyses ∧ b ≠ a ∧ usesDirectly m b s ∧
        m'.constraintSets b = m.constraintSets b ++ [m.nextSet]) := by
  unfold constraintSets
  rw [h.common]
  rcases h.refsOther b with hb | ⟨h1, h2, h3, hb⟩
  · left; rw [hb]
  · right
    refine ⟨h1, h2, h3, ?_⟩
    rw [hb, List.append_assoc]

theorem uses_removed {m : SpcModel} (hw : WF m) {a s n : Nat} {D : Dofs} {m' : SpcModel}
    {r o : Option Nat} (h : Removed m a s n D m' r o) {b : Nat} (hb : b ∈ m.analyses) (t : Nat) :
    uses m' b t ↔ uses m b t ∨ (t ∈ r ∧ uses m b s) ∨ (t ∈ o ∧ b ≠ a ∧ usesDirectly m b s) := by
  have hold : (∃ S ∈ m.constraintSets b, t ∈ m'.members S ∨ ∃ T ∈ m'.includes S, t ∈ m'.members T) ↔
      uses m b t ∨ (t ∈ r ∧ uses m b s) := by
    unfold uses
    constructor
    · rintro ⟨S, hS, ht⟩
      rw [inSet_removed hw h S (hw.refs b S hS)] at ht
      rcases ht with ht | ⟨h1, h2⟩
      · exact Or.inl ⟨S, hS, ht⟩
      · exact Or.inr ⟨h1, S, hS, h2⟩
    · rintro (⟨S, hS, ht⟩ | ⟨h1, S, hS, h2⟩)
      · exact ⟨S, hS, (inSet_removed hw h S (hw.refs b S hS) t).mpr (Or.inl ht)⟩
      · exact ⟨S, hS, (inSet_removed hw h S (hw.refs b S hS) t).mpr (Or.inr ⟨h1, h2⟩)⟩
  by_cases hd : b ≠ a ∧ usesDirectly m b s
  · have hj := h.refsJoin b hb hd.1 hd.2
    have hcs : m'.constraintSets b = m.constraintSets b ++ [m.nextSet] := by
      unfold constraintSets
      rw [h.common, hj.1, List.append_assoc]
    have hsplit : uses m' b t ↔
        (∃ S ∈ m.constraintSets b, t ∈ m'.members S ∨ ∃ T ∈ m'.includes S, t ∈ m'.members T) ∨
        (t ∈ m'.members m.nextSet ∨ ∃ T ∈ m'.includes m.nextSet, t ∈ m'.members T) := by
      unfold uses
      rw [hcs]
      constructor
      · rintro ⟨S, hS, ht⟩
        rcases List.mem_append.mp hS with hS | hS
        · exact Or.inl ⟨S, hS, ht⟩
        · simp at hS; subst hS; exact Or.inr ht
      · rintro (⟨S, hS, ht⟩ | ht)
        · exact ⟨S, List.mem_append.mpr (Or.inl hS), ht⟩
        · exact ⟨m.nextSet, by simp, ht⟩
    rw [hsplit, hold, inNew_removed hw h]
    have := hj.2.2
    tauto
  · have hcs : m'.constraintSets b = m.constraintSets b := by
      rcases constraintSets_removed h b with hc | ⟨_, h2, h3, _⟩
      · exact hc
      · exact absurd ⟨h2, h3⟩ hd
    have : uses m' b t ↔
        (∃ S ∈ m.constraintSets b, t ∈ m'.members S ∨ ∃ T ∈ m'.includes S, t ∈ m'.members T) := by
      unfold uses; rw [hcs]
    rw [this, hold]
    tauto

theorem acts_removed {m : SpcModel} (hw : WF m) {a s n : Nat} {D : Dofs} {m' : SpcModel}
    {r o : Option Nat} (h : Removed m a s n D m' r o) (hn : n ∈ m.nodes s) {b : Nat}
    (hb : b ∈ m.analyses) (hs : s < m.next) (t n' : Nat) (d : Dof) (x : Dbl) :
    acts m' b t n' d x ↔
      (acts m b t n' d x ∧ ¬ (t = s ∧ n' = n)) ∨
      (t ∈ r ∧ n' = n ∧ D.contains d = false ∧ acts m b s n d x) ∨
      (t ∈ o ∧ n' = n ∧ D.contains d = true ∧ b ≠ a ∧ usesDirectly m b s ∧ acts m b s n d x) := by
  have hdu : usesDirectly m b s → uses m b s := fun ⟨S, hS, hs⟩ => ⟨S, hS, Or.inl hs⟩
  unfold acts
  rw [uses_removed hw h hb, h.groups, hw.groups, hw.groups]
  simp only [List.not_mem_nil, or_false]
  by_cases hr : t ∈ r
  · have hfr := h.fresh.1 t hr
    have ho : t ∉ o := h.distinct t hr
    have hu : ¬ uses m b t := fun hu => by have := uses_lt hw hu; omega
    obtain ⟨p1, -, p3⟩ := h.rem t hr
    rw [p1, p3]
    have hts : t ≠ s := by omega
    simp only [List.mem_singleton, hu, hr, ho, true_and, false_and, false_or, or_false, hn]
    constructor
    · rintro ⟨h1, h2, h3, h4⟩; exact ⟨h2, h3, h1, h4⟩
    · rintro ⟨h2, h3, h1, h4⟩; exact ⟨h1, h2, h3, h4⟩
  · by_cases ho : t ∈ o
    · have hfr := h.fresh.2 t ho
      have hu : ¬ uses m b t := fun hu => by have := uses_lt hw hu; omega
      obtain ⟨p1, -, p3⟩ := h.oth t ho
      rw [p1, p3]
      simp only [List.mem_singleton, hu, hr, ho, true_and, false_and, false_or, hn]
      constructor
      · rintro ⟨⟨h1, h2⟩, h3, h4, h5⟩; exact ⟨h3, h4, h1, h2, hdu h2, h5⟩
      · rintro ⟨h3, h4, h1, h2, _, h5⟩; exact ⟨⟨h1, h2⟩, h3, h4, h5⟩
    · simp only [hr, ho, false_and, or_false]
      by_cases hu : uses m b t
      · have hlt := uses_lt hw hu
        rw [h.spcOld t hlt]
        by_cases hts : t = s
        · subst hts
          rw [h.nodesSelf]
          simp only [hu, true_and]
          constructor
          · rintro ⟨⟨h1, h2⟩, h3⟩; exact ⟨⟨h1, h3⟩, h2⟩
          · rintro ⟨⟨h1, h3⟩, h2⟩; exact ⟨⟨h1, h2⟩, h3⟩
        · rw [h.nodesOld t hlt hts]
          simp only [hts, false_and, not_false_eq_true, and_true]
      · simp only [hu, false_and]

theorem wf_removed {m : SpcModel} (hw : WF m) {a s n : Nat} {D : Dofs} {m' : SpcModel}
    {r o : Option Nat} (h : Removed m a s n D m' r o) : WF m' := by
  constructor
  · intro S t ht
    by_cases hS : S < m.nextSet
    · rw [h.membersOld S hS] at ht
      rcases ht with ht | ⟨ht, _⟩
      · exact lt_of_lt_of_le (hw.ids S t ht) h.next
      · exact (h.fresh.1 t ht).2
    · rw [h.membersNew S (by omega)] at ht
      exact (h.fresh.2 t ht.2).2
  · intro S hS
    have hS' : m.nextSet ≤ S := h.nextSet.trans hS
    refine ⟨?_, by rw [h.includes]; exact (hw.sets S hS').2⟩
    rw [List.eq_nil_iff_forall_not_mem]
    intro t ht
    rw [h.membersNew S hS'] at ht
    omega
  · intro S T hT
    rw [h.includes] at hT
    exact lt_of_lt_of_le (hw.incl S T hT) h.nextSet
  · intro b S hS
    rcases constraintSets_removed h b with hc | ⟨h1, h2, h3, hc⟩
    · rw [hc] at hS
      exact lt_of_lt_of_le (hw.refs b S hS) h.nextSet
    · rw [hc] at hS
      rcases List.mem_append.mp hS with hS | hS
      · exact lt_of_lt_of_le (hw.refs b S hS) h.nextSet
      · simp at hS; subst hS
        exact (h.refsJoin b h1 h2 h3).2.2
  · exact h.groups

end Vega.RedundantSpec
