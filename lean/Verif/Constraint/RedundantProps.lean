import Verif.Constraint.RedundantLemmas
import Mathlib.Data.List.Dedup

/-!
# Removal of single point constraints (C39, C32)
-/
namespace Vega.RedundantSpec
open SpcModel

/-! ## C39 -/

theorem rem_isSome {m : SpcModel} {a s n : Nat} {D : Dofs} {m' : SpcModel} {r o : Option Nat}
    (h : Removed m a s n D m' r o) {d : Dof} {x : Dbl} (hx : (m.spc s).getDoubleForDOF d = .ok x)
    (hd : D.contains d = false) : ∃ y, r = some y := by
  cases hr : r with
  | some y => exact ⟨y, rfl⟩
  | none =>
    have := h.remNone hr d (contains_of_double hx n)
    rw [hd] at this; simp at this

theorem held_removed_own {m : SpcModel} (hw : WF m) {a s n : Nat} {D : Dofs} {m' : SpcModel}
    {r o : Option Nat} (h : Removed m a s n D m' r o) (hn : n ∈ m.nodes s) (ha : a ∈ m.analyses)
    (hs : s < m.next) (n' : Nat) (d : Dof) (x : Dbl) :
    held m' a n' d x ↔ ∃ t, acts m a t n' d x ∧ ¬ (t = s ∧ n' = n ∧ D.contains d = true) := by
  unfold held
  constructor
  · rintro ⟨t, ht⟩
    rw [acts_removed hw h hn ha hs] at ht
    rcases ht with ⟨h1, h2⟩ | ⟨_, h2, h3, h4⟩ | ⟨_, _, _, h4, _⟩
    · exact ⟨t, h1, fun hc => h2 ⟨hc.1, hc.2.1⟩⟩
    · subst h2; exact ⟨s, h4, fun hc => by rw [h3] at hc; simp at hc⟩
    · exact absurd rfl h4
  · rintro ⟨t, h1, h2⟩
    by_cases hc : t = s ∧ n' = n
    · obtain ⟨rfl, rfl⟩ := hc
      have hd : D.contains d = false := by
        cases hd : D.contains d
        · rfl
        · exact absurd ⟨rfl, rfl, hd⟩ h2
      obtain ⟨y, hy⟩ := rem_isSome h h1.2.2 hd
      exact ⟨y, (acts_removed hw h hn ha hs y n' d x).mpr (Or.inr (Or.inl ⟨hy, rfl, hd, h1⟩))⟩
    · exact ⟨t, (acts_removed hw h hn ha hs t n' d x).mpr (Or.inl ⟨h1, hc⟩)⟩

theorem held_removed_other {m : SpcModel} (hw : WF m) (hp : Plain m) {a s n : Nat} {D : Dofs}
    {m' : SpcModel} {r o : Option Nat} (h : Removed m a s n D m' r o) (hn : n ∈ m.nodes s)
    (ha : a ∈ m.analyses) (hs : s < m.next) {b : Nat} (hb : b ∈ m.analyses) (hba : b ≠ a) (n' : Nat)
    (d : Dof) (x : Dbl) : held m' b n' d x ↔ held m b n' d x := by
  unfold held
  constructor
  · rintro ⟨t, ht⟩
    rw [acts_removed hw h hn hb hs] at ht
    rcases ht with ⟨h1, h2⟩ | ⟨_, h2, h3, h4⟩ | ⟨_, h2, _, _, _, h4⟩
    · exact ⟨t, h1⟩
    · subst h2; exact ⟨s, h4⟩
    · subst h2; exact ⟨s, h4⟩
  · rintro ⟨t, h1⟩
    by_cases hc : t = s ∧ n' = n
    · obtain ⟨rfl, rfl⟩ := hc
      by_cases hd : D.contains d = true
      · have hdir : usesDirectly m b t := by
          rcases hp with hp | hp
          · exact absurd (hp b hb a ha) hba
          · obtain ⟨S, hS, h' | ⟨T, hT, _⟩⟩ := h1.1
            · exact ⟨S, hS, h'⟩
            · rw [hp S] at hT; simp at hT
        obtain ⟨y, hy⟩ := Option.isSome_iff_exists.mp (h.refsJoin b hb hba hdir).2.1
        exact ⟨y, (acts_removed hw h hn hb hs y n' d x).mpr
          (Or.inr (Or.inr ⟨hy, rfl, hd, hba, hdir, h1⟩))⟩
      · have hd : D.contains d = false := by simpa using hd
        obtain ⟨y, hy⟩ := rem_isSome h h1.2.2 hd
        exact ⟨y, (acts_removed hw h hn hb hs y n' d x).mpr (Or.inr (Or.inl ⟨hy, rfl, hd, h1⟩))⟩
    · exact ⟨t, (acts_removed hw h hn hb hs t n' d x).mpr (Or.inl ⟨h1, hc⟩)⟩

/-- **C39** (partial) removing degrees of freedom of a node from an SPC on behalf of an analysis:
in that analysis exactly these are no longer held by that SPC, in every other analysis exactly the
same degrees of freedom are held, at the same values. Missing: SPCs that are also used by other
analyses through sets including others (SPCADD), nodes of an SPC given through a group (both
refuted below), and values given by reference (the call raises an exception). -/
theorem C39_remove_partial (m : SpcModel) (hw : WF m) (hp : Plain m) (a s n : Nat) (D : Dofs)
    (ha : a ∈ m.analyses) (hs : s < m.next) (hn : n ∈ m.nodes s) (hnum : Numeric (m.spc s))
    (hD : ∀ d, D.contains d = true → ((m.spc s).getDOFSForNode n).contains d = true) :
    ∃ m', m.removeSPCNodeDofs a s n D = .ok m' ∧
      (∀ n' d x, held m' a n' d x ↔
        ∃ t, acts m a t n' d x ∧ ¬ (t = s ∧ n' = n ∧ D.contains d = true)) ∧
      ∀ b ∈ m.analyses, b ≠ a → ∀ n' d x, held m' b n' d x ↔ held m b n' d x := by
  obtain ⟨m', r, o, e, h⟩ := removeSPCNodeDofs_ok m hw a s n D ha hs hn hnum hD
  exact ⟨m', e, held_removed_own hw h hn ha hs,
    fun b hb hba => held_removed_other hw hp h hn ha hs hb hba⟩

/-! ## The walk of `removeRedundantSpcs` -/

/-- The set contains the SPC, directly or through an included set. -/
def inSet (m : SpcModel) (S t : Nat) : Prop := t ∈ m.members S ∨ ∃ T ∈ m.includes S, t ∈ m.members T

/-- No SPC is in two of the sets an analysis uses. -/
def Once (m : SpcModel) (a : Nat) : Prop :=
  (m.constraintSets a).Pairwise fun S T => ∀ t, inSet m S t → ¬ inSet m T t

/-- The hypotheses of C32. -/
structure Good (m : SpcModel) : Prop where
  wf : WF m
  plain : Plain m
  once : ∀ a ∈ m.analyses, Once m a
  numeric : ∀ S, ∀ t ∈ m.members S, Numeric (m.spc t)

/-- In analysis `a` every degree of freedom is held by one SPC at most. -/
def Unique (m : SpcModel) (a : Nat) : Prop :=
  ∀ n d t x t' x', acts m a t n d x → acts m a t' n d x' → t = t'

theorem good_removed {m : SpcModel} (hg : Good m) {a s n : Nat} {D : Dofs} {m' : SpcModel}
    {r o : Option Nat} (h : Removed m a s n D m' r o) : Good m' := by
  refine ⟨wf_removed hg.wf h, ?_, ?_, ?_⟩
  · unfold Plain
    rw [h.analyses, h.includes]
    exact hg.plain
  · intro b hb
    rw [h.analyses] at hb
    have h1 := hg.once b hb
    unfold Once at h1 ⊢
    have hold : (m.constraintSets b).Pairwise fun S T => ∀ t, inSet m' S t → ¬ inSet m' T t := by
      refine List.Pairwise.imp_of_mem ?_ h1
      intro S T hS hT hST t htS htT
      have hSl := hg.wf.refs b S hS
      have hTl := hg.wf.refs b T hT
      unfold inSet at htS htT
      rw [inSet_removed hg.wf h S hSl] at htS
      rw [inSet_removed hg.wf h T hTl] at htT
      have lt_of : ∀ S t, inSet m S t → t < m.next := by
        intro S t hh
        rcases hh with hh | ⟨X, _, hh⟩
        · exact hg.wf.ids S t hh
        · exact hg.wf.ids X t hh
      rcases htS with htS | ⟨hr, htS⟩
      · rcases htT with htT | ⟨hr, _⟩
        · exact hST t htS htT
        · have := lt_of S t htS
          have := h.fresh.1 t hr
          omega
      · rcases htT with htT | ⟨_, htT⟩
        · have := lt_of T t htT
          have := h.fresh.1 t hr
          omega
        · exact hST s htS htT
    rcases constraintSets_removed h b with hc | ⟨_, _, _, hc⟩
    · rw [hc]; exact hold
    · rw [hc, List.pairwise_append]
      refine ⟨hold, by simp, ?_⟩
      intro S hS T hT t htS htT
      simp at hT
      subst hT
      have hSl := hg.wf.refs b S hS
      unfold inSet at htS htT
      rw [inSet_removed hg.wf h S hSl] at htS
      rw [inNew_removed hg.wf h] at htT
      have hfo := h.fresh.2 t htT.2
      rcases htS with (hh | ⟨X, _, hh⟩) | ⟨hr, _⟩
      · have := hg.wf.ids S t hh; omega
      · have := hg.wf.ids X t hh; omega
      · exact h.distinct t hr htT.2
  · intro S t ht
    by_cases hS : S < m.nextSet
    · rw [h.membersOld S hS] at ht
      rcases ht with ht | ⟨hr, _⟩
      · rw [h.spcOld t (hg.wf.ids S t ht)]
        exact hg.numeric S t ht
      · exact (h.rem t hr).2.1
    · rw [h.membersNew S (by omega)] at ht
      exact (h.oth t ht.2).2.1

/-- A removal does not make SPCs overlap. -/
theorem unique_removed {m : SpcModel} (hw : WF m) {a s n : Nat} {D : Dofs}
    {m' : SpcModel} {r o : Option Nat} (h : Removed m a s n D m' r o) (hn : n ∈ m.nodes s) {b : Nat}
    (hb : b ∈ m.analyses) (hs : s < m.next) (hu : Unique m b) : Unique m' b := by
  intro k d t x t' x' h1 h2
  rw [acts_removed hw h hn hb hs] at h1 h2
  have key : ∀ t x x', acts m b t k d x ∧ ¬ (t = s ∧ k = n) → k = n → acts m b s n d x' → False := by
    rintro t x x' ⟨g1, g2⟩ rfl g3
    exact g2 ⟨hu k d t x s x' g1 g3, rfl⟩
  have dis : D.contains d = false → D.contains d = true → False := fun g g' => by
    rw [g] at g'; simp at g'
  rcases h1 with h1 | ⟨h1, e1, f1, c1⟩ | ⟨h1, e1, f1, _, _, c1⟩
  · rcases h2 with h2 | ⟨h2, e2, f2, c2⟩ | ⟨h2, e2, f2, _, _, c2⟩
    · exact hu k d t x t' x' h1.1 h2.1
    · exact (key t x x' h1 e2 c2).elim
    · exact (key t x x' h1 e2 c2).elim
  · rcases h2 with h2 | ⟨h2, e2, f2, c2⟩ | ⟨h2, e2, f2, _, _, c2⟩
    · exact (key t' x' x h2 e1 c1).elim
    · rw [h1] at h2; exact Option.some.inj h2
    · exact (dis f1 f2).elim
  · rcases h2 with h2 | ⟨h2, e2, f2, c2⟩ | ⟨h2, e2, f2, _, _, c2⟩
    · exact (key t' x' x h2 e1 c1).elim
    · exact (dis f2 f1).elim
    · rw [h1] at h2; exact Option.some.inj h2

theorem numeric_of_uses {m : SpcModel} (hg : Good m) {a t : Nat} (h : uses m a t) :
    Numeric (m.spc t) := by
  obtain ⟨S, _, h | ⟨T, _, h⟩⟩ := h
  · exact hg.numeric S t h
  · exact hg.numeric T t h

/-- The loop over the degrees of freedom of one node of one SPC. -/
theorem dofLoop_spec (s : Spc) (n : Nat) (ds : List Dof) (hd : ds.Nodup)
    (hv : ∀ d ∈ ds, ∃ x, s.getDoubleForDOF d = .ok x) (K : Seen) (D : Dofs) :
    (∃ K' D', dofLoop s n ds (K, D) = .ok (K', D') ∧
      (∀ n' d x, K' n' d = some x ↔ K n' d = some x ∨
        (n' = n ∧ d ∈ ds ∧ K n d = none ∧ s.getDoubleForDOF d = .ok x)) ∧
      (∀ d, D'.contains d = true ↔ D.contains d = true ∨ (d ∈ ds ∧ K n d ≠ none)) ∧
      ∀ d ∈ ds, ∀ x y, s.getDoubleForDOF d = .ok x → K n d = some y → isEqual x y = true) ∨
    (dofLoop s n ds (K, D) = .throw ∧
      ∃ d ∈ ds, ∃ x y, s.getDoubleForDOF d = .ok x ∧ K n d = some y ∧ isEqual x y = false) := by
  induction ds generalizing K D with
  | nil => left; exact ⟨K, D, rfl, by simp, by simp, by simp⟩
  | cons e ds ih =>
    rw [List.nodup_cons] at hd
    obtain ⟨x, hx⟩ := hv e (by simp)
    have hv' : ∀ d ∈ ds, ∃ x, s.getDoubleForDOF d = .ok x := fun d h => hv d (by simp [h])
    rw [dofLoop, hx, Outcome.bind_ok]
    cases hK : K n e with
    | none =>
      simp only [hK]
      have hput : ∀ d, d ≠ e → (K.put n e x) n d = K n d := by
        intro d hde; simp [Seen.put, hde]
      have hne : ∀ d ∈ ds, d ≠ e := fun d h hc => hd.1 (hc ▸ h)
      rcases ih hd.2 hv' (K.put n e x) D with ⟨K', D', e1, e2, e3, e4⟩ | ⟨e1, d, h1, y, z, h2, h3, h4⟩
      · left
        refine ⟨K', D', e1, ?_, ?_, ?_⟩
        · intro n' d y
          rw [e2]
          simp only [Seen.put]
          by_cases hde : n' = n ∧ d = e
          · obtain ⟨rfl, rfl⟩ := hde
            simp [hK, hx, hd.1, eq_comm]
          · rw [if_neg hde]
            constructor
            · rintro (h | ⟨h1, h2, h3, h4⟩)
              · exact Or.inl h
              · refine Or.inr ⟨h1, by simp [h2], ?_, h4⟩
                rw [if_neg (fun hc => hne d h2 hc.2)] at h3
                exact h3
            · rintro (h | ⟨h1, h2, h3, h4⟩)
              · exact Or.inl h
              · right
                have h2' : d ∈ ds := by
                  rcases List.mem_cons.mp h2 with h2 | h2
                  · exact absurd ⟨h1, h2⟩ hde
                  · exact h2
                refine ⟨h1, h2', ?_, h4⟩
                rw [if_neg (fun hc => hne d h2' hc.2)]
                exact h3
        · intro d
          rw [e3]
          constructor
          · rintro (h | ⟨h1, h2⟩)
            · exact Or.inl h
            · refine Or.inr ⟨by simp [h1], ?_⟩
              rwa [hput d (hne d h1)] at h2
          · rintro (h | ⟨h1, h2⟩)
            · exact Or.inl h
            · rcases List.mem_cons.mp h1 with h1 | h1
              · subst h1; exact absurd hK h2
              · refine Or.inr ⟨h1, ?_⟩
                rwa [hput d (hne d h1)]
        · intro d h1 y z hy hz
          rcases List.mem_cons.mp h1 with h1 | h1
          · subst h1; rw [hK] at hz; simp at hz
          · refine e4 d h1 y z hy ?_
            rwa [hput d (hne d h1)]
      · right
        refine ⟨e1, d, by simp [h1], y, z, h2, ?_, h4⟩
        rwa [hput d (hne d h1)] at h3
    | some y =>
      by_cases hxy : isEqual x y = true
      · simp only [hK, hxy, Bool.not_true, Bool.false_eq_true, if_false]
        rcases ih hd.2 hv' K (D.addDof e) with ⟨K', D', e1, e2, e3, e4⟩ | ⟨e1, d, h1, u, z, h2, h3, h4⟩
        · left
          refine ⟨K', D', e1, ?_, ?_, ?_⟩
          · intro n' d z
            rw [e2]
            constructor
            · rintro (h | ⟨h1, h2, h3, h4⟩)
              · exact Or.inl h
              · exact Or.inr ⟨h1, by simp [h2], h3, h4⟩
            · rintro (h | ⟨h1, h2, h3, h4⟩)
              · exact Or.inl h
              · rcases List.mem_cons.mp h2 with h2 | h2
                · subst h2; rw [hK] at h3; simp at h3
                · exact Or.inr ⟨h1, h2, h3, h4⟩
          · intro d
            rw [e3, Dofs.addDof_eq, Dofs.contains_union, Dofs.contains_ofDof]
            simp only [Bool.or_eq_true, decide_eq_true_eq]
            constructor
            · rintro ((h | h) | ⟨h1, h2⟩)
              · exact Or.inl h
              · subst h; exact Or.inr ⟨by simp, by rw [hK]; simp⟩
              · exact Or.inr ⟨by simp [h1], h2⟩
            · rintro (h | ⟨h1, h2⟩)
              · exact Or.inl (Or.inl h)
              · rcases List.mem_cons.mp h1 with h1 | h1
                · exact Or.inl (Or.inr h1.symm)
                · exact Or.inr ⟨h1, h2⟩
          · intro d h1 u z hu hz
            rcases List.mem_cons.mp h1 with h1 | h1
            · subst h1
              rw [hx] at hu; rw [hK] at hz
              cases hu; cases hz; exact hxy
            · exact e4 d h1 u z hu hz
        · right
          exact ⟨e1, d, by simp [h1], u, z, h2, h3, h4⟩
      · have hxy : isEqual x y = false := by simpa using hxy
        right
        simp only [hK, hxy, Bool.not_false, if_true]
        exact ⟨trivial, e, by simp, x, y, hx, hK, hxy⟩

/-- The pairs of SPC and node the analysis has at the start. -/
def Start (m0 : SpcModel) (a s n : Nat) : Prop := uses m0 a s ∧ n ∈ m0.nodes s

/-- Two SPCs of the analysis prescribe values that are not equal. -/
def Conflict (m0 : SpcModel) (a : Nat) : Prop :=
  ∃ n d t x t' x', acts m0 a t n d x ∧ acts m0 a t' n d x' ∧ isEqual x x' = false

/-- The state of the walk for analysis `a`: the pairs `P` are still to be visited, `K` holds the
values seen, `O` (not in the code) says which SPC holds each degree of freedom seen. -/
structure Walk (m0 : SpcModel) (a : Nat) (P : Nat → Nat → Prop) (m : SpcModel) (K : Seen)
    (O : Nat → Dof → Option Nat) : Prop where
  good : Good m
  analyses : m.analyses = m0.analyses
  sets : m.constraintSets a = m0.constraintSets a
  next : m0.next ≤ m.next
  spc : ∀ t, t < m0.next → m.spc t = m0.spc t
  pending : ∀ s n, P s n → Start m0 a s n ∧ n ∈ m.nodes s
  nodes : ∀ s, s < m0.next → ∀ n, n ∈ m.nodes s → n ∈ m0.nodes s
  sub : ∀ S ∈ m0.constraintSets a, ∀ t, inSet m S t → inSet m0 S t ∨
    ∃ s n, inSet m0 S s ∧ Start m0 a s n ∧ ¬ P s n
  sup : ∀ S ∈ m0.constraintSets a, ∀ t, inSet m0 S t → inSet m S t
  acts : ∀ t n d x, acts m a t n d x ↔
    (P t n ∧ (m0.spc t).getDoubleForDOF d = .ok x) ∨ (O n d = some t ∧ K n d = some x)
  dom : ∀ n d, K n d ≠ none → O n d ≠ none
  apart : ∀ t n d, P t n → O n d ≠ some t
  seen : ∀ s n, Start m0 a s n → ¬ P s n → ∀ d x, (m0.spc s).getDoubleForDOF d = .ok x →
    ∃ y, K n d = some y ∧ isEqual x y = true
  orig : ∀ n d x, K n d = some x → ∃ t, Start m0 a t n ∧ (m0.spc t).getDoubleForDOF d = .ok x
  others : ∀ b ∈ m0.analyses, b ≠ a →
    (∀ n d x, held m b n d x ↔ held m0 b n d x) ∧ (Unique m0 b → Unique m b)

theorem start_acts {m0 : SpcModel} {a s n : Nat} {d : Dof} {x : Dbl} (h : Start m0 a s n)
    (hx : (m0.spc s).getDoubleForDOF d = .ok x) : acts m0 a s n d x :=
  ⟨h.1, Or.inl h.2, hx⟩

theorem nodup_toList (D : Dofs) : D.toList.Nodup := by
  rw [Dofs.toList_eq]
  exact List.Nodup.filter _ (by decide)

/-- One node of one SPC. -/
theorem nodeStep_spec {m0 : SpcModel} (hg0 : Good m0) {a : Nat} (ha : a ∈ m0.analyses)
    {P : Nat → Nat → Prop} {m : SpcModel} {K : Seen} {O : Nat → Dof → Option Nat}
    (w : Walk m0 a P m K O) (s n : Nat) (hP : P s n) :
    (∃ m' K' O', nodeStep a s n (m, K) = .ok (m', K') ∧
      Walk m0 a (fun t k => P t k ∧ ¬ (t = s ∧ k = n)) m' K' O') ∨
    (nodeStep a s n (m, K) = .throw ∧ Conflict m0 a) := by
  have hst := (w.pending s n hP).1
  have hnn := (w.pending s n hP).2
  have hs0 : s < m0.next := uses_lt hg0.wf hst.1
  have hs : s < m.next := lt_of_lt_of_le hs0 w.next
  have hspc : m.spc s = m0.spc s := w.spc s hs0
  have hnum : Numeric (m.spc s) := by rw [hspc]; exact numeric_of_uses hg0 hst.1
  have ha' : a ∈ m.analyses := by rw [w.analyses]; exact ha
  -- every degree of freedom of the SPC has a value
  have hval : ∀ d ∈ ((m.spc s).getDOFSForNode n).toList, ∃ x, (m.spc s).getDoubleForDOF d = .ok x := by
    intro d hd
    rw [SpcSpec.mem_toList] at hd
    exact hnum n d hd
  have hmem : ∀ d x, (m.spc s).getDoubleForDOF d = .ok x → d ∈ ((m.spc s).getDOFSForNode n).toList := by
    intro d x h
    rw [SpcSpec.mem_toList]
    exact contains_of_double h n
  unfold nodeStep
  rcases dofLoop_spec (m.spc s) n ((m.spc s).getDOFSForNode n).toList (nodup_toList _) hval K
    Dofs.NO_DOFS with ⟨K', D, e1, e2, e3, e4⟩ | ⟨e1, d, h1, x, y, h2, h3, h4⟩
  · left
    have hD : ∀ d, D.contains d = true ↔ d ∈ ((m.spc s).getDOFSForNode n).toList ∧ K n d ≠ none := by
      intro d
      rw [e3, Dofs.contains_noDofs]
      simp
    simp only [e1, Outcome.bind_ok]
    unfold removeIfAny
    -- facts common to both cases
    have hK' : ∀ n' d x, K' n' d = some x ↔ K n' d = some x ∨
        (n' = n ∧ K n d = none ∧ (m0.spc s).getDoubleForDOF d = .ok x) := by
      intro n' d x
      rw [e2, hspc]
      constructor
      · rintro (h | ⟨h1, _, h3, h4⟩)
        · exact Or.inl h
        · exact Or.inr ⟨h1, h3, h4⟩
      · rintro (h | ⟨h1, h3, h4⟩)
        · exact Or.inl h
        · exact Or.inr ⟨h1, by rw [← hspc]; exact hmem d x (by rw [hspc]; exact h4), h3, h4⟩
    have hseen : ∀ t k, Start m0 a t k → ¬ (P t k ∧ ¬ (t = s ∧ k = n)) → ∀ d x,
        (m0.spc t).getDoubleForDOF d = .ok x → ∃ y, K' k d = some y ∧ isEqual x y = true := by
      intro t k hst' hnp d x hx
      by_cases hpk : P t k
      · have htk : t = s ∧ k = n := by
          by_contra hc; exact hnp ⟨hpk, hc⟩
        obtain ⟨rfl, rfl⟩ := htk
        cases hKd : K k d with
        | none => exact ⟨x, (hK' k d x).mpr (Or.inr ⟨rfl, hKd, hx⟩), isEqual_self x⟩
        | some y =>
          have hx' : (m.spc t).getDoubleForDOF d = .ok x := by rw [hspc]; exact hx
          exact ⟨y, (hK' k d y).mpr (Or.inl hKd), e4 d (hmem d x hx') x y hx' hKd⟩
      · obtain ⟨y, hy, hxy⟩ := w.seen t k hst' hpk d x hx
        exact ⟨y, (hK' k d y).mpr (Or.inl hy), hxy⟩
    have horig : ∀ k d x, K' k d = some x → ∃ t, Start m0 a t k ∧
        (m0.spc t).getDoubleForDOF d = .ok x := by
      intro k d x hx
      rcases (hK' k d x).mp hx with h | ⟨rfl, _, h⟩
      · exact w.orig k d x h
      · exact ⟨s, hst, h⟩
    by_cases hDe : D.empty = true
    · -- nothing to remove: the SPC now holds what is new
      rw [if_pos hDe]
      have hnone : ∀ d x, (m0.spc s).getDoubleForDOF d = .ok x → K n d = none := by
        intro d x hx
        have h1 := not_contains_of_empty hDe d
        by_contra hc
        have h2 := (hD d).mpr ⟨hmem d x (by rw [hspc]; exact hx), hc⟩
        rw [h1] at h2; simp at h2
      refine ⟨m, K', fun k d => if k = n ∧ ((m0.spc s).getDOFSForNode n).contains d = true
        then some s else O k d, rfl, ?_⟩
      refine ⟨w.good, w.analyses, w.sets, w.next, w.spc, fun t k h => w.pending t k h.1, w.nodes, ?_,
        w.sup, ?_, ?_, ?_, hseen, horig, w.others⟩
      · intro S hS t ht
        rcases w.sub S hS t ht with h | ⟨u, k, h1, h2, h3⟩
        · exact Or.inl h
        · exact Or.inr ⟨u, k, h1, h2, fun hc => h3 hc.1⟩
      · intro t k d x
        rw [w.acts, hK']
        constructor
        · rintro (⟨h1, h2⟩ | ⟨h1, h2⟩)
          · by_cases hc : t = s ∧ k = n
            · obtain ⟨rfl, rfl⟩ := hc
              right
              refine ⟨by rw [if_pos ⟨rfl, contains_of_double h2 k⟩], Or.inr ⟨rfl, hnone d x h2, h2⟩⟩
            · exact Or.inl ⟨⟨h1, hc⟩, h2⟩
          · right
            refine ⟨?_, Or.inl h2⟩
            rw [if_neg]
            · exact h1
            · rintro ⟨rfl, hc⟩
              obtain ⟨y, hy⟩ := hnum k d (by rw [hspc]; exact hc)
              rw [hspc] at hy
              rw [hnone d y hy] at h2; simp at h2
        · rintro (⟨⟨h1, _⟩, h2⟩ | ⟨h1, h2⟩)
          · exact Or.inl ⟨h1, h2⟩
          · by_cases hc : k = n ∧ ((m0.spc s).getDOFSForNode n).contains d = true
            · rw [if_pos hc] at h1
              obtain ⟨rfl, hc⟩ := hc
              cases h1
              rcases h2 with h2 | ⟨_, _, h2⟩
              · obtain ⟨y, hy⟩ := hnum k d (by rw [hspc]; exact hc)
                rw [hspc] at hy
                rw [hnone d y hy] at h2; simp at h2
              · exact Or.inl ⟨hP, h2⟩
            · rw [if_neg hc] at h1
              rcases h2 with h2 | ⟨rfl, _, h2⟩
              · exact Or.inr ⟨h1, h2⟩
              · exact absurd ⟨rfl, contains_of_double h2 k⟩ hc
      · intro k d hk
        by_cases hc : k = n ∧ ((m0.spc s).getDOFSForNode n).contains d = true
        · rw [if_pos hc]; simp
        · rw [if_neg hc]
          apply w.dom
          obtain ⟨x, hx⟩ := Option.ne_none_iff_exists'.mp hk
          rcases (hK' k d x).mp hx with h | ⟨rfl, _, h⟩
          · rw [h]; simp
          · exact absurd ⟨rfl, contains_of_double h k⟩ hc
      · rintro t k d ⟨h1, h2⟩ hc
        split at hc
        · rename_i h3
          cases hc
          exact h2 ⟨rfl, h3.1⟩
        · exact w.apart t k d h1 hc
    · -- removal
      rw [if_neg hDe]
      obtain ⟨m', r, o, e, h⟩ := removeSPCNodeDofs_ok m w.good.wf a s n D ha' hs hnn hnum
        (fun d hd => by rw [← SpcSpec.mem_toList]; exact ((hD d).mp hd).1)
      have hDf : ∀ d x, (m0.spc s).getDoubleForDOF d = .ok x → (D.contains d = false ↔ K n d = none) := by
        intro d x hx
        have hm := hmem d x (by rw [hspc]; exact hx)
        constructor
        · intro hf
          by_contra hc
          rw [(hD d).mpr ⟨hm, hc⟩] at hf; simp at hf
        · intro hf
          cases hd : D.contains d
          · rfl
          · exact absurd hf ((hD d).mp hd).2
      have hacts0 : ∀ d x, (m0.spc s).getDoubleForDOF d = .ok x → acts m a s n d x := by
        intro d x hx
        exact (w.acts s n d x).mpr (Or.inl ⟨hP, hx⟩)
      refine ⟨m', K', fun k d => if k = n ∧ ((m0.spc s).getDOFSForNode n).contains d = true ∧
        K n d = none then r else O k d, by rw [e]; rfl, ?_⟩
      refine ⟨good_removed w.good h, h.analyses.trans w.analyses, ?_, w.next.trans h.next, ?_, ?_, ?_, ?_,
        ?_, ?_, ?_, ?_, hseen, horig, ?_⟩
      · rw [← w.sets]
        unfold constraintSets
        rw [h.common, h.refsOwn]
      · intro t ht
        rw [h.spcOld t (lt_of_lt_of_le ht w.next), w.spc t ht]
      · rintro t k ⟨h1, h2⟩
        refine ⟨(w.pending t k h1).1, ?_⟩
        have hk := (w.pending t k h1).2
        have ht0 : t < m.next := lt_of_lt_of_le (uses_lt hg0.wf (w.pending t k h1).1.1) w.next
        by_cases hts : t = s
        · subst hts
          rw [h.nodesSelf]
          exact ⟨hk, fun hc => h2 ⟨rfl, hc⟩⟩
        · rw [h.nodesOld t ht0 hts]; exact hk
      · intro t ht k hk
        apply w.nodes t ht
        by_cases hts : t = s
        · subst hts
          rw [h.nodesSelf] at hk
          exact hk.1
        · rwa [h.nodesOld t (lt_of_lt_of_le ht w.next) hts] at hk
      · intro S hS t ht
        have hSl : S < m.nextSet := w.good.wf.refs a S (by rw [w.sets]; exact hS)
        unfold inSet at ht
        rw [inSet_removed w.good.wf h S hSl] at ht
        have lift : ∀ t, inSet m S t → inSet m0 S t ∨
            ∃ u k, inSet m0 S u ∧ Start m0 a u k ∧ ¬ (P u k ∧ ¬ (u = s ∧ k = n)) := by
          intro t ht
          rcases w.sub S hS t ht with h | ⟨u, k, h1, h2, h3⟩
          · exact Or.inl h
          · exact Or.inr ⟨u, k, h1, h2, fun hc => h3 hc.1⟩
        rcases ht with ht | ⟨_, ht⟩
        · exact lift t ht
        · rcases lift s ht with hh | hh
          · exact Or.inr ⟨s, n, hh, hst, fun hc => hc.2 ⟨rfl, rfl⟩⟩
          · exact Or.inr hh
      · intro S hS t ht
        have hSl : S < m.nextSet := w.good.wf.refs a S (by rw [w.sets]; exact hS)
        unfold inSet
        rw [inSet_removed w.good.wf h S hSl]
        exact Or.inl (w.sup S hS t ht)
      · intro t k d x
        rw [acts_removed w.good.wf h hnn ha' hs, hK']
        constructor
        · rintro (⟨h1, h2⟩ | ⟨h1, rfl, h3, h4⟩ | ⟨_, _, _, h4, _⟩)
          · rcases (w.acts t k d x).mp h1 with ⟨h3, h4⟩ | ⟨h3, h4⟩
            · exact Or.inl ⟨⟨h3, h2⟩, h4⟩
            · right
              refine ⟨?_, Or.inl h4⟩
              rw [if_neg]
              · exact h3
              · rintro ⟨rfl, _, hc⟩
                rw [hc] at h4; simp at h4
          · right
            have hx : (m0.spc s).getDoubleForDOF d = .ok x := by rw [← hspc]; exact h4.2.2
            have hKn := (hDf d x hx).mp h3
            refine ⟨?_, Or.inr ⟨rfl, hKn, hx⟩⟩
            rw [if_pos ⟨rfl, contains_of_double hx k, hKn⟩]
            exact h1
          · exact absurd rfl h4
        · rintro (⟨⟨h1, h2⟩, h3⟩ | ⟨h1, h2⟩)
          · exact Or.inl ⟨(w.acts t k d x).mpr (Or.inl ⟨h1, h3⟩), h2⟩
          · by_cases hc : k = n ∧ ((m0.spc s).getDOFSForNode n).contains d = true ∧ K n d = none
            · rw [if_pos hc] at h1
              obtain ⟨rfl, _, hc⟩ := hc
              rcases h2 with h2 | ⟨_, _, h2⟩
              · rw [hc] at h2; simp at h2
              · exact Or.inr (Or.inl ⟨h1, rfl, (hDf d x h2).mpr hc, hacts0 d x h2⟩)
            · rw [if_neg hc] at h1
              rcases h2 with h2 | ⟨rfl, h2, h3⟩
              · left
                refine ⟨(w.acts t k d x).mpr (Or.inr ⟨h1, h2⟩), ?_⟩
                rintro ⟨rfl, rfl⟩
                exact w.apart t k d hP h1
              · exact absurd ⟨rfl, contains_of_double h3 k, h2⟩ hc
      · intro k d hk
        by_cases hc : k = n ∧ ((m0.spc s).getDOFSForNode n).contains d = true ∧ K n d = none
        · rw [if_pos hc]
          intro hr
          have := h.remNone hr d (by rw [hspc]; exact hc.2.1)
          exact ((hD d).mp this).2 hc.2.2
        · rw [if_neg hc]
          apply w.dom
          obtain ⟨x, hx⟩ := Option.ne_none_iff_exists'.mp hk
          rcases (hK' k d x).mp hx with h | ⟨rfl, h', h⟩
          · rw [h]; simp
          · exact absurd ⟨rfl, contains_of_double h k, h'⟩ hc
      · rintro t k d ⟨h1, h2⟩ hc
        split at hc
        · have h3 := h.fresh.1 t hc
          have h4 := uses_lt hg0.wf (w.pending t k h1).1.1
          have := w.next
          omega
        · exact w.apart t k d h1 hc
      · intro b hb hba
        have hb' : b ∈ m.analyses := by rw [w.analyses]; exact hb
        obtain ⟨g1, g2⟩ := w.others b hb hba
        refine ⟨fun k d x => (held_removed_other w.good.wf w.good.plain h hnn ha' hs hb' hba k d x).trans
          (g1 k d x), fun hu => ?_⟩
        exact unique_removed w.good.wf h hnn hb' hs (g2 hu)
  · right
    refine ⟨by simp [e1], ?_⟩
    obtain ⟨t, ht, hty⟩ := w.orig n d y h3
    rw [hspc] at h2
    exact ⟨n, d, s, x, t, y, start_acts hst h2, start_acts ht hty, h4⟩

theorem Walk.congr {m0 : SpcModel} {a : Nat} {P Q : Nat → Nat → Prop} {m : SpcModel} {K : Seen}
    {O : Nat → Dof → Option Nat} (w : Walk m0 a P m K O) (h : ∀ s n, P s n ↔ Q s n) :
    Walk m0 a Q m K O := by
  have : P = Q := by funext s n; exact propext (h s n)
  rw [← this]; exact w

/-- The nodes `ns` of the SPC `s`; `Q` is pending besides. -/
theorem nodeLoop_spec {m0 : SpcModel} (hg0 : Good m0) {a : Nat} (ha : a ∈ m0.analyses) (s : Nat)
    (Q : Nat → Nat → Prop) (hQ : ∀ n, ¬ Q s n) (ns : List Nat) (hns : ns.Nodup) (m : SpcModel)
    (K : Seen) (O : Nat → Dof → Option Nat)
    (w : Walk m0 a (fun t k => (t = s ∧ k ∈ ns) ∨ Q t k) m K O) :
    (∃ m' K' O', nodeLoop a s ns (m, K) = .ok (m', K') ∧ Walk m0 a Q m' K' O') ∨
    (nodeLoop a s ns (m, K) = .throw ∧ Conflict m0 a) := by
  induction ns generalizing m K O with
  | nil => left; exact ⟨m, K, O, rfl, w.congr (by simp)⟩
  | cons n ns ih =>
    rw [List.nodup_cons] at hns
    rw [nodeLoop]
    rcases nodeStep_spec hg0 ha w s n (by simp) with ⟨m', K', O', e, w'⟩ | ⟨e, hc⟩
    · rw [e, Outcome.bind_ok]
      refine ih hns.2 m' K' O' (w'.congr ?_)
      intro t k
      constructor
      · rintro ⟨⟨rfl, h1⟩ | h1, h2⟩
        · rcases List.mem_cons.mp h1 with h1 | h1
          · exact absurd ⟨rfl, h1⟩ h2
          · exact Or.inl ⟨rfl, h1⟩
        · exact Or.inr h1
      · rintro (⟨rfl, h1⟩ | h1)
        · exact ⟨Or.inl ⟨rfl, by simp [h1]⟩, fun hc => hns.1 (hc.2 ▸ h1)⟩
        · exact ⟨Or.inr h1, fun hc => hQ k (hc.1 ▸ h1)⟩
    · right
      rw [e]; exact ⟨rfl, hc⟩

/-- The SPCs `ss` of a set; `Q` is pending besides. -/
theorem spcLoop_spec (e : Enum) {m0 : SpcModel} (hg0 : Good m0) {a : Nat} (ha : a ∈ m0.analyses)
    (Q : Nat → Nat → Prop) (ss : List Nat) (hss : ss.Nodup) (hu : ∀ s ∈ ss, uses m0 a s)
    (hQ : ∀ s ∈ ss, ∀ n, ¬ Q s n) (m : SpcModel) (K : Seen) (O : Nat → Dof → Option Nat)
    (w : Walk m0 a (fun t k => (t ∈ ss ∧ Start m0 a t k) ∨ Q t k) m K O) :
    (∃ m' K' O', spcLoop e a ss (m, K) = .ok (m', K') ∧ Walk m0 a Q m' K' O') ∨
    (spcLoop e a ss (m, K) = .throw ∧ Conflict m0 a) := by
  induction ss generalizing m K O with
  | nil => left; exact ⟨m, K, O, rfl, w.congr (by simp)⟩
  | cons s ss ih =>
    rw [List.nodup_cons] at hss
    rw [spcLoop]
    have hs0 : s < m0.next := uses_lt hg0.wf (hu s (by simp))
    have hnodes : ∀ k, k ∈ m.nodePositions e s ↔ Start m0 a s k := by
      intro k
      unfold nodePositions
      rw [e.mem, w.good.wf.groups, List.append_nil]
      constructor
      · intro hk
        exact ⟨hu s (by simp), w.nodes s hs0 k hk⟩
      · intro hk
        exact (w.pending s k (Or.inl ⟨by simp, hk⟩)).2
    have hnl := nodeLoop_spec hg0 ha s (fun t k => (t ∈ ss ∧ Start m0 a t k) ∨ Q t k)
      (by
        rintro n (⟨h, _⟩ | h)
        · exact hss.1 h
        · exact hQ s (by simp) n h)
      (m.nodePositions e s) (e.nodup _) m K O
      (w.congr (by
        intro t k
        constructor
        · rintro (⟨h1, h2⟩ | h1)
          · rcases List.mem_cons.mp h1 with rfl | h1
            · exact Or.inl ⟨rfl, (hnodes k).mpr h2⟩
            · exact Or.inr (Or.inl ⟨h1, h2⟩)
          · exact Or.inr (Or.inr h1)
        · rintro (⟨rfl, h2⟩ | ⟨h1, h2⟩ | h1)
          · exact Or.inl ⟨by simp, (hnodes k).mp h2⟩
          · exact Or.inl ⟨by simp [h1], h2⟩
          · exact Or.inr h1))
    rcases hnl with ⟨m', K', O', e1, w'⟩ | ⟨e1, hc⟩
    · simp only [e1, Outcome.bind_ok]
      exact ih hss.2 (fun t ht => hu t (by simp [ht])) (fun t ht => hQ t (by simp [ht])) m' K' O' w'
    · right
      simp only [e1, Outcome.bind_throw]
      exact ⟨trivial, hc⟩

/-- The sets `Ss` of the analysis. -/
theorem setLoop_spec (e : Enum) {m0 : SpcModel} (hg0 : Good m0) {a : Nat} (ha : a ∈ m0.analyses)
    (Ss : List Nat) (hSs : ∀ S ∈ Ss, S ∈ m0.constraintSets a)
    (ho : Ss.Pairwise fun S T => ∀ t, inSet m0 S t → ¬ inSet m0 T t)
    (m : SpcModel) (K : Seen) (O : Nat → Dof → Option Nat)
    (w : Walk m0 a (fun t k => (∃ S ∈ Ss, inSet m0 S t) ∧ Start m0 a t k) m K O) :
    (∃ m' K' O', setLoop e a Ss (m, K) = .ok (m', K') ∧ Walk m0 a (fun _ _ => False) m' K' O') ∨
    (setLoop e a Ss (m, K) = .throw ∧ Conflict m0 a) := by
  induction Ss generalizing m K O with
  | nil => left; exact ⟨m, K, O, rfl, w.congr (by simp)⟩
  | cons S Ss ih =>
    rw [List.pairwise_cons] at ho
    rw [setLoop]
    have hS := hSs S (by simp)
    have hcons : ∀ t, t ∈ m.constraints e S ↔ inSet m0 S t := by
      intro t
      rw [mem_constraints]
      constructor
      · intro h
        rcases w.sub S hS t h with h | ⟨s, n, h1, h2, h3⟩
        · exact h
        · exact absurd ⟨⟨S, by simp, h1⟩, h2⟩ h3
      · exact w.sup S hS t
    have hsl := spcLoop_spec e hg0 ha (fun t k => (∃ S ∈ Ss, inSet m0 S t) ∧ Start m0 a t k)
      (m.constraints e S) (e.nodup _) (fun s hs => ⟨S, hS, (hcons s).mp hs⟩)
      (by
        rintro s hs n ⟨⟨T, hT, h1⟩, _⟩
        exact ho.1 T hT s ((hcons s).mp hs) h1) m K O
      (w.congr (by
        intro t k
        constructor
        · rintro ⟨⟨T, hT, h1⟩, h2⟩
          rcases List.mem_cons.mp hT with rfl | hT
          · exact Or.inl ⟨(hcons t).mpr h1, h2⟩
          · exact Or.inr ⟨⟨T, hT, h1⟩, h2⟩
        · rintro (⟨h1, h2⟩ | ⟨⟨T, hT, h1⟩, h2⟩)
          · exact ⟨⟨S, by simp, (hcons t).mp h1⟩, h2⟩
          · exact ⟨⟨T, by simp [hT], h1⟩, h2⟩))
    rcases hsl with ⟨m', K', O', e1, w'⟩ | ⟨e1, hc⟩
    · simp only [e1, Outcome.bind_ok]
      exact ih (fun T hT => hSs T (by simp [hT])) ho.2 m' K' O' w'
    · right
      simp only [e1, Outcome.bind_throw]
      exact ⟨trivial, hc⟩

/-- The state after the pass in which analysis `a` is done, compared with the state before. -/
structure Done (m0 : SpcModel) (a : Nat) (m : SpcModel) : Prop where
  unique : Unique m a
  keep : ∀ n d x, held m0 a n d x → ∃ y, held m a n d y ∧ isEqual x y = true
  only : ∀ n d x, held m a n d x → held m0 a n d x

theorem acts_start {m : SpcModel} (hw : WF m) {a t n : Nat} {d : Dof} {x : Dbl}
    (h : acts m a t n d x) : Start m a t n := by
  refine ⟨h.1, ?_⟩
  rcases h.2.1 with h | h
  · exact h
  · rw [hw.groups] at h; simp at h

/-- One analysis. -/
theorem analysis_spec (e : Enum) {m0 : SpcModel} (hg0 : Good m0) {a : Nat} (ha : a ∈ m0.analyses) :
    (∃ m' K', setLoop e a (m0.constraintSets a) (m0, fun _ _ => none) = .ok (m', K') ∧ Good m' ∧
      m'.analyses = m0.analyses ∧ Done m0 a m' ∧
      ∀ b ∈ m0.analyses, b ≠ a →
        (∀ n d x, held m' b n d x ↔ held m0 b n d x) ∧ (Unique m0 b → Unique m' b)) ∨
    (setLoop e a (m0.constraintSets a) (m0, fun _ _ => none) = .throw ∧ Conflict m0 a) := by
  have hP : ∀ t k, ((∃ S ∈ m0.constraintSets a, inSet m0 S t) ∧ Start m0 a t k) ↔ Start m0 a t k := by
    intro t k
    constructor
    · exact fun h => h.2
    · exact fun h => ⟨h.1, h⟩
  have w0 : Walk m0 a (fun t k => (∃ S ∈ m0.constraintSets a, inSet m0 S t) ∧ Start m0 a t k) m0
      (fun _ _ => none) (fun _ _ => none) := by
    refine ⟨hg0, rfl, rfl, le_refl _, fun _ _ => rfl, fun s n h => ⟨h.2, h.2.2⟩, fun _ _ _ h => h,
      fun _ _ _ h => Or.inl h, fun _ _ _ h => h, ?_, by simp, by simp, ?_, by simp,
      fun b _ _ => ⟨fun _ _ _ => Iff.rfl, id⟩⟩
    · intro t n d x
      rw [hP]
      constructor
      · intro h
        exact Or.inl ⟨acts_start hg0.wf h, h.2.2⟩
      · rintro (⟨h1, h2⟩ | ⟨h, _⟩)
        · exact start_acts h1 h2
        · simp at h
    · intro s n h1 h2
      exact absurd ((hP s n).mpr h1) h2
  rcases setLoop_spec e hg0 ha (m0.constraintSets a) (fun _ h => h) (hg0.once a ha) m0 _ _ w0 with
    ⟨m', K', O', e1, w⟩ | ⟨e1, hc⟩
  · left
    refine ⟨m', K', e1, w.good, w.analyses, ⟨?_, ?_, ?_⟩, w.others⟩
    · intro n d t x t' x' h1 h2
      rw [w.acts] at h1 h2
      rcases h1 with h1 | ⟨h1, _⟩
      · exact h1.1.elim
      · rcases h2 with h2 | ⟨h2, _⟩
        · exact h2.1.elim
        · rw [h1] at h2; exact Option.some.inj h2
    · rintro n d x ⟨t, ht⟩
      obtain ⟨y, hy, hxy⟩ := w.seen t n (acts_start hg0.wf ht) (fun h => h) d x ht.2.2
      obtain ⟨u, hu⟩ := Option.ne_none_iff_exists'.mp (w.dom n d (by rw [hy]; simp))
      exact ⟨y, ⟨u, (w.acts u n d y).mpr (Or.inr ⟨hu, hy⟩)⟩, hxy⟩
    · rintro n d x ⟨t, ht⟩
      rcases (w.acts t n d x).mp ht with h | ⟨_, h⟩
      · exact h.1.elim
      · obtain ⟨u, h1, h2⟩ := w.orig n d x h
        exact ⟨u, start_acts h1 h2⟩
  · exact Or.inr ⟨e1, hc⟩

/-- The analyses `as` are still to be done, the others are done. -/
theorem analysisLoop_spec (e : Enum) (m0 : SpcModel) (as : List Nat) (hnd : as.Nodup)
    (has : ∀ a ∈ as, a ∈ m0.analyses) (m : SpcModel) (hg : Good m) (han : m.analyses = m0.analyses)
    (hdone : ∀ b ∈ m0.analyses, b ∉ as → Done m0 b m)
    (htodo : ∀ b ∈ as, ∀ n d x, held m b n d x ↔ held m0 b n d x) :
    (∃ m', analysisLoop e as m = .ok m' ∧ Good m' ∧ ∀ b ∈ m0.analyses, Done m0 b m') ∨
    (analysisLoop e as m = .throw ∧ ∃ b ∈ m0.analyses, ∃ n d x x',
      held m0 b n d x ∧ held m0 b n d x' ∧ isEqual x x' = false) := by
  induction as generalizing m with
  | nil => left; exact ⟨m, rfl, hg, fun b hb => hdone b hb (by simp)⟩
  | cons a as ih =>
    rw [List.nodup_cons] at hnd
    rw [analysisLoop]
    have ha : a ∈ m.analyses := by rw [han]; exact has a (by simp)
    rcases analysis_spec e hg ha with ⟨m', K', e1, g', an', d', ot'⟩ | ⟨e1, n, d, t, x, t', x', h1, h2, h3⟩
    · simp only [e1, Outcome.bind_ok]
      refine ih hnd.2 (fun b hb => has b (by simp [hb])) m' g' (an'.trans han) ?_ ?_
      · intro b hb hbas
        by_cases hba : b = a
        · subst hba
          refine ⟨d'.unique, ?_, ?_⟩
          · intro n d x hx
            exact d'.keep n d x ((htodo b (by simp) n d x).mpr hx)
          · intro n d x hx
            exact (htodo b (by simp) n d x).mp (d'.only n d x hx)
        · obtain ⟨o1, o2⟩ := ot' b (by rw [han]; exact hb) hba
          have hdb := hdone b hb (by simp [hba, hbas])
          refine ⟨o2 hdb.unique, ?_, ?_⟩
          · intro n d x hx
            obtain ⟨y, hy, hxy⟩ := hdb.keep n d x hx
            exact ⟨y, (o1 n d y).mpr hy, hxy⟩
          · intro n d x hx
            exact hdb.only n d x ((o1 n d x).mp hx)
      · intro b hb n d x
        have hba : b ≠ a := fun hc => hnd.1 (hc ▸ hb)
        rw [(ot' b (by rw [han]; exact has b (by simp [hb])) hba).1]
        exact htodo b (by simp [hb]) n d x
    · right
      simp only [e1, Outcome.bind_throw]
      exact ⟨trivial, a, has a (by simp), n, d, x, x', (htodo a (by simp) n d x).mp ⟨t, h1⟩,
        (htodo a (by simp) n d x').mp ⟨t', h2⟩, h3⟩

/-! ## C32 -/

/-- **C32** (partial) the pass either raises an exception, in which case some analysis holds a
degree of freedom at two different values, or afterwards, in every analysis, the same degrees of
freedom are held as before, each at a value it was held at before and equal (up to the tolerance)
to all of them, and each by one SPC only. Missing: SPCs that are in two of the sets of an analysis
(refuted below), and the cases excluded in C39. -/
theorem C32_redundant_partial (e : Enum) (m : SpcModel) (hg : Good m) (hn : m.analyses.Nodup) :
    (∃ m', m.removeRedundantSpcs e = .ok m' ∧ ∀ a ∈ m.analyses,
      (∀ n d x, held m a n d x → ∃ y, held m' a n d y ∧ isEqual x y = true) ∧
      (∀ n d x, held m' a n d x → held m a n d x) ∧
      (∀ n d t x t' x', acts m' a t n d x → acts m' a t' n d x' → t = t')) ∨
    (m.removeRedundantSpcs e = .throw ∧ ∃ a ∈ m.analyses, ∃ n d x x',
      held m a n d x ∧ held m a n d x' ∧ isEqual x x' = false) := by
  rcases analysisLoop_spec e m m.analyses hn (fun _ h => h) m hg rfl
    (fun b hb hc => absurd hb hc) (fun _ _ _ _ _ => Iff.rfl) with ⟨m', e1, _, h⟩ | h
  · left
    exact ⟨m', e1, fun a ha => ⟨(h a ha).keep, (h a ha).only, (h a ha).unique⟩⟩
  · exact Or.inr h

/-- **C32** (partial) when all values agree, the pass succeeds. -/
theorem C32_succeeds_partial (e : Enum) (m : SpcModel) (hg : Good m) (hn : m.analyses.Nodup)
    (hagree : ∀ a ∈ m.analyses, ∀ n d x x', held m a n d x → held m a n d x' → isEqual x x' = true) :
    ∃ m', m.removeRedundantSpcs e = .ok m' := by
  rcases C32_redundant_partial e m hg hn with ⟨m', h, _⟩ | ⟨_, a, ha, n, d, x, x', h1, h2, h3⟩
  · exact ⟨m', h⟩
  · rw [hagree a ha n d x x' h1 h2] at h3; simp at h3

/-! ### Examples, and where the code is wrong -/

/-- The sets are walked in the order of their lists. -/
def exEnum : Enum := ⟨List.dedup, fun _ _ => List.mem_dedup, fun l => List.nodup_dedup l⟩

/-- The values a degree of freedom is held at. -/
def values (e : Enum) (m : SpcModel) (a n : Nat) (d : Dof) : List Dbl :=
  (m.constraintSets a).flatMap fun S => (m.constraints e S).filterMap fun t =>
    if n ∈ m.nodePositions e t then ((m.spc t).getDoubleForDOF d).toOption else none

theorem mem_values (e : Enum) (m : SpcModel) (a n : Nat) (d : Dof) (x : Dbl) :
    x ∈ values e m a n d ↔ held m a n d x := by
  unfold values held acts nodePositions
  simp only [List.mem_flatMap, List.mem_filterMap, uses_iff e, e.mem, List.mem_append]
  have ho : ∀ (y : Outcome Dbl), y.toOption = some x ↔ y = .ok x := by
    intro y; cases y <;> simp [Outcome.toOption]
  constructor
  · rintro ⟨S, hS, t, ht, h⟩
    split at h
    · rename_i hn
      exact ⟨t, ⟨S, hS, ht⟩, hn, (ho _).mp h⟩
    · simp at h
  · rintro ⟨t, ⟨S, hS, ht⟩, hn, h⟩
    exact ⟨S, hS, t, ht, by rw [if_pos hn]; exact (ho _).mpr h⟩

/-- The values after the pass. -/
def valuesAfter (e : Enum) (m : SpcModel) (a n : Nat) (d : Dof) : Outcome (List Dbl) := do
  let m' ← m.removeRedundantSpcs e
  .ok (values e m' a n d)

/-- A function given by its first values. -/
def table {α : Type} (l : List α) (dflt : α) : Nat → α := fun i => l.getD i dflt

theorem table_forall {α : Type} (l : List α) (dflt : α) (Q : Nat → α → Prop)
    (h : ∀ i, i < l.length → Q i (table l dflt i)) (hd : ∀ i, l.length ≤ i → Q i dflt) (i : Nat) :
    Q i (table l dflt i) := by
  by_cases hi : i < l.length
  · exact h i hi
  · have : table l dflt i = dflt := by
      unfold table
      rw [List.getD_eq_getElem?_getD, List.getElem?_eq_none (by omega)]; rfl
    rw [this]
    exact hd i (by omega)

def spcXY : Spc := (Spc.free.setDOF .DX (.value 0)).setDOF .DY (.value 0)
def spcXZ : Spc := (Spc.free.setDOF .DX (.value 0)).setDOF .DZ (.value 2)

theorem numeric_spcXY : Numeric spcXY := numeric_setDOF (numeric_setDOF numeric_free _ _) _ _
theorem numeric_spcXZ : Numeric spcXZ := numeric_setDOF (numeric_setDOF numeric_free _ _) _ _

/-- Two analyses, two sets; analysis 0 uses both, analysis 1 the second. The SPCs overlap on DX of
node 5. -/
def exModel : SpcModel where
  next := 2
  nextSet := 2
  spc := fun t => if t = 0 then spcXY else spcXZ
  nodes := table [[5], [5, 6]] []
  groupNodes := fun _ => []
  members := table [[0], [1]] []
  includes := fun _ => []
  analyses := [0, 1]
  refs := table [[0, 1], [1]] []
  common := none

theorem exModel_good : Good exModel := by
  refine ⟨⟨?_, ?_, ?_, ?_, fun _ => rfl⟩, Or.inr fun _ => rfl, ?_, ?_⟩
  · intro S
    exact table_forall [[0], [1]] [] (fun _ l => ∀ t ∈ l, t < 2) (by decide) (by simp) S
  · intro S hS
    refine ⟨?_, rfl⟩
    show table [[0], [1]] [] S = []
    unfold table
    rw [List.getD_eq_getElem?_getD, List.getElem?_eq_none hS]; rfl
  · intro S T hT; simp [exModel] at hT
  · intro a
    show ∀ S ∈ (none : Option Nat).toList ++ table [[0, 1], [1]] [] a, S < 2
    exact table_forall [[0, 1], [1]] [] (fun _ l => ∀ S ∈ (none : Option Nat).toList ++ l, S < 2)
      (by decide) (by simp) a
  · intro a ha
    simp only [exModel, List.mem_cons, List.not_mem_nil, or_false] at ha
    rcases ha with rfl | rfl
    · show List.Pairwise _ [0, 1]
      simp [inSet, exModel, table]
    · show List.Pairwise _ [1]
      simp
  · intro S t _
    simp only [exModel]
    split
    · exact numeric_spcXY
    · exact numeric_spcXZ

-- the hypotheses of C32 and C39; afterwards each analysis still holds what it held, once
example : Good exModel ∧ exModel.analyses.Nodup := ⟨exModel_good, by decide⟩
example : values exEnum exModel 0 5 .DX = [0, 0] ∧
    valuesAfter exEnum exModel 0 5 .DX = .ok [0] ∧ valuesAfter exEnum exModel 1 5 .DX = .ok [0] ∧
    valuesAfter exEnum exModel 0 5 .DZ = .ok [2] ∧ valuesAfter exEnum exModel 0 6 .DX = .ok [0] := by
  decide +kernel
example : (0 : Nat) ∈ exModel.analyses ∧ 1 < exModel.next ∧ 5 ∈ exModel.nodes 1 ∧
    Numeric (exModel.spc 1) ∧
    ((exModel.spc 1).getDOFSForNode 5).contains .DX = true :=
  ⟨by decide, by decide, by decide, numeric_spcXZ, by decide +kernel⟩

/-- Refutation: an SPC that is in two of the sets of an analysis is taken for redundant with itself
and the degree of freedom is no longer held at all. -/
theorem C32_in_two_sets_false :
    ∃ m : SpcModel, WF m ∧ held m 0 5 .DX 0 ∧ valuesAfter exEnum m 0 5 .DX = .ok [] := by
  refine ⟨{ exModel with members := table [[0], [0]] [] }, ⟨?_, ?_, ?_, ?_, fun _ => rfl⟩, ?_, ?_⟩
  · intro S
    exact table_forall [[0], [0]] [] (fun _ l => ∀ t ∈ l, t < 2) (by decide) (by simp) S
  · intro S hS
    refine ⟨?_, rfl⟩
    show table [[0], [0]] [] S = []
    unfold table
    rw [List.getD_eq_getElem?_getD, List.getElem?_eq_none hS]; rfl
  · intro S T hT; simp [exModel] at hT
  · exact exModel_good.wf.refs
  · rw [← mem_values exEnum]; decide +kernel
  · decide +kernel

/-- Refutation: an analysis that uses an SPC through a set including others (SPCADD) loses it when
another analysis finds it redundant. Analysis 0 uses sets 0 and 1, which overlap on DX of node 5;
analysis 1 uses set 2, which includes set 1. -/
theorem C39_spcadd_false :
    ∃ m : SpcModel, WF m ∧ (∀ a ∈ m.analyses, Once m a) ∧ held m 1 5 .DX 0 ∧
      valuesAfter exEnum m 1 5 .DX = .ok [] := by
  refine ⟨{ exModel with nextSet := 3, includes := table [[], [], [1]] [], refs := table [[0, 1], [2]] [] },
    ⟨?_, ?_, ?_, ?_, fun _ => rfl⟩, ?_, ?_, ?_⟩
  · exact exModel_good.wf.ids
  · intro S hS
    have hS' : 2 ≤ S := by simp only [] at hS; omega
    refine ⟨(exModel_good.wf.sets S hS').1, ?_⟩
    show table [[], [], [1]] [] S = []
    unfold table
    rw [List.getD_eq_getElem?_getD, List.getElem?_eq_none hS]; rfl
  · intro S
    exact table_forall [[], [], [1]] [] (fun _ l => ∀ t ∈ l, t < 3) (by decide) (by simp) S
  · intro a
    show ∀ S ∈ (none : Option Nat).toList ++ table [[0, 1], [2]] [] a, S < 3
    exact table_forall [[0, 1], [2]] [] (fun _ l => ∀ S ∈ (none : Option Nat).toList ++ l, S < 3)
      (by decide) (by simp) a
  · intro a ha
    simp only [exModel, List.mem_cons, List.not_mem_nil, or_false] at ha
    rcases ha with rfl | rfl
    · show List.Pairwise _ [0, 1]
      simp [inSet, exModel, table]
    · show List.Pairwise _ [2]
      simp
  · rw [← mem_values exEnum]; decide +kernel
  · decide +kernel

/-- Refutation: a redundant node that an SPC has through a node group is undefined behaviour. -/
theorem C39_group_false :
    ∃ m : SpcModel, held m 0 5 .DX 0 ∧ valuesAfter exEnum m 0 5 .DX = .ub := by
  refine ⟨{ exModel with nodes := table [[5], [6]] [], groupNodes := table [[], [5]] [] }, ?_, ?_⟩
  · rw [← mem_values exEnum]; decide +kernel
  · decide +kernel

end Vega.RedundantSpec
