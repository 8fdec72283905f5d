import Verif.Element.Virtual
import Verif.Dof.Lemmas

/-! # Virtual discrete elements: property C120 -/
namespace Vega

/-! ## Specification -/
namespace VirtualSpec
open Virtual

/-- A component is needed at a node in some analysis and the node does not have it. -/
def Needs (analyses : List Analysis) (dofs : Nat → Dofs) (p : Nat) (d : Dof) : Prop :=
  (dofs p).contains d = false ∧ ∃ a ∈ analyses, (a.required p).contains d = true

/-- A component is blocked in an analysis by one of the constraints. -/
def Blocked (spcs : List Spc) (a p : Nat) (d : Dof) : Prop := ∃ c ∈ spcs, c.analysis = a ∧ c.node = p ∧ c.dofs.contains d = true

/-- A component of a node is new. -/
def Added (before after : Nat → Dofs) (p : Nat) (d : Dof) : Prop := (before p).contains d = false ∧ (after p).contains d = true

/-- The codes of components are those of the six constants: no other bits. -/
def Proper (d : Dofs) : Prop := Dofs.ALL_DOFS.containsAll d = true

end VirtualSpec

namespace Virtual
open VirtualSpec

/-! ## Lemmas -/

theorem containsAll_false (s t : Dofs) (d : Dof) (h1 : t.contains d = true) (h2 : s.contains d = false) : s.containsAll t = false := by
  rw [Bool.eq_false_iff]
  intro h
  have h' : t.union s = s := by
    unfold Dofs.containsAll at h
    have := eq_of_beq h
    cases s; cases t
    simpa [Dofs.union] using this
  have := Dofs.contains_union t s d
  rw [h', h1, h2] at this
  cases this

theorem missing_contains (analyses : List Analysis) (p : Nat) (s : Dofs) (d : Dof) :
    (missing analyses p s).contains d = true ↔ s.contains d = false ∧ ∃ a ∈ analyses, (a.required p).contains d = true := by
  have gen : ∀ (l : List Analysis) (m : Dofs),
      (l.foldl (fun m a => if s.containsAll (a.required p) then m else m.union ((a.required p).diff s)) m).contains d = true ↔
        m.contains d = true ∨ (s.contains d = false ∧ ∃ a ∈ l, (a.required p).contains d = true) := by
    intro l
    induction l with
    | nil => intro m; simp
    | cons a r ih =>
      intro m
      rw [List.foldl_cons, ih]
      by_cases hc : s.containsAll (a.required p) = true
      · rw [if_pos hc]
        constructor
        · rintro (h | ⟨h1, b, hb, h2⟩)
          · exact .inl h
          · exact .inr ⟨h1, b, List.mem_cons_of_mem _ hb, h2⟩
        · rintro (h | ⟨h1, b, hb, h2⟩)
          · exact .inl h
          · rcases List.mem_cons.1 hb with rfl | hb
            · rw [containsAll_false _ _ d h2 h1] at hc
              cases hc
            · exact .inr ⟨h1, b, hb, h2⟩
      · rw [if_neg hc, Dofs.contains_union, Dofs.contains_diff]
        constructor
        · rintro (h | ⟨h1, b, hb, h2⟩)
          · rw [Bool.or_eq_true, Bool.and_eq_true, Bool.not_eq_true'] at h
            rcases h with h | h
            · exact .inl h
            · exact .inr ⟨h.2, a, List.mem_cons_self, h.1⟩
          · exact .inr ⟨h1, b, List.mem_cons_of_mem _ hb, h2⟩
        · rintro (h | ⟨h1, b, hb, h2⟩)
          · exact .inl (by rw [h]; rfl)
          · rcases List.mem_cons.1 hb with rfl | hb
            · exact .inl (by rw [h1, h2, Bool.not_false, Bool.and_self, Bool.or_true])
            · exact .inr ⟨h1, b, hb, h2⟩
  rw [missing, gen, Dofs.contains_noDofs]
  simp

/-- What a node is given. -/
def given (analyses : List Analysis) (p : Nat) (s : Dofs) : Dofs :=
  if (missing analyses p s).empty then Dofs.NO_DOFS
  else if (missing analyses p s).containsAnyOf Dofs.ROTATIONS then Dofs.ALL_DOFS else Dofs.TRANSLATIONS

theorem empty_iff (s : Dofs) : s.empty = true → ∀ d, s.contains d = false := by
  intro h d
  unfold Dofs.empty at h
  have : s = Dofs.NO_DOFS := by
    cases s
    simp only [Dofs.NO_DOFS, Dofs.mk.injEq]
    exact eq_of_beq h
  rw [this, Dofs.contains_noDofs]

theorem proper_empty (s : Dofs) (h1 : Proper s) (h2 : ∀ d, s.contains d = false) : s.dofsCode = 0 := by
  have key : ∀ c : BitVec 8, Dofs.ALL_DOFS.containsAll ⟨c⟩ = true → (∀ d, (⟨c⟩ : Dofs).contains d = false) → c = 0 := by decide +kernel
  exact key s.dofsCode h1 h2

theorem all_contains (d : Dof) : Dofs.ALL_DOFS.contains d = true := by revert d; decide
theorem trans_contains (d : Dof) : Dofs.TRANSLATIONS.contains d = d.isTranslation := by revert d; decide

theorem anyRot_iff (s : Dofs) : s.containsAnyOf Dofs.ROTATIONS = true ↔ ∃ d, d.isRotation = true ∧ s.contains d = true := by
  have key : ∀ c : BitVec 8, (⟨c⟩ : Dofs).containsAnyOf Dofs.ROTATIONS = true ↔ ∃ d, d.isRotation = true ∧ (⟨c⟩ : Dofs).contains d = true := by
    decide +kernel
  exact key s.dofsCode

theorem given_contains (analyses : List Analysis) (p : Nat) (s : Dofs) (d : Dof)
    (h : (missing analyses p s).contains d = true) : (given analyses p s).contains d = true := by
  unfold given
  split
  next he => rw [empty_iff _ he] at h; cases h
  · split
    · exact all_contains d
    next he =>
      rw [trans_contains]
      cases hd : d.isTranslation with
      | true => rfl
      | false =>
        refine absurd ((anyRot_iff _).2 ⟨d, ?_, h⟩) he
        revert hd
        cases d <;> decide

theorem spcsOf_mem (analyses : List Analysis) (p : Nat) (s added : Dofs) (c : Spc) :
    c ∈ spcsOf analyses p s added ↔ ∃ a ∈ analyses, s.containsAll (a.required p) = false ∧
      ((added.diff (a.required p)).diff s) ≠ Dofs.NO_DOFS ∧ c = ⟨a.id, p, (added.diff (a.required p)).diff s⟩ := by
  unfold spcsOf
  rw [List.mem_filterMap]
  constructor
  · rintro ⟨a, ha, h⟩
    refine ⟨a, ha, ?_⟩
    split at h
    · cases h
    next h1 =>
      simp only at h
      split at h
      · cases h
      next h2 =>
        cases h
        exact ⟨by simpa using h1, h2, rfl⟩
  · rintro ⟨a, ha, h1, h2, rfl⟩
    refine ⟨a, ha, ?_⟩
    rw [if_neg (by rw [h1]; decide)]
    simp only
    rw [if_neg h2]

/-- The constraints of a node, with what is added to it. -/
def spcsAt (analyses : List Analysis) (p : Nat) (s : Dofs) : List Spc :=
  spcsOf analyses p s (((given analyses p s).diff s).diff (missing analyses p s))

theorem noDofs_diff (s : Dofs) : Dofs.NO_DOFS.diff s = Dofs.NO_DOFS := by
  simp [Dofs.NO_DOFS, Dofs.diff]

theorem step_eq (analyses : List Analysis) (st : State) (p : Nat) :
    (step analyses st p).dofs = allow st.dofs p (given analyses p (st.dofs p)) ∧
    (step analyses st p).spcs = st.spcs ++ spcsAt analyses p (st.dofs p) := by
  unfold step spcsAt given
  by_cases h1 : (missing analyses p (st.dofs p)).empty = true
  · simp only [if_pos h1]
    refine ⟨?_, by rw [noDofs_diff, noDofs_diff]⟩
    funext q
    unfold allow
    split
    · simp [Dofs.union, Dofs.NO_DOFS]
    · rfl
  · simp only [if_neg h1]
    by_cases h2 : (missing analyses p (st.dofs p)).containsAnyOf Dofs.ROTATIONS = true
    · simp only [if_pos h2]; exact ⟨trivial, trivial⟩
    · simp only [if_neg h2]; exact ⟨trivial, trivial⟩

theorem run_gen (analyses : List Analysis) (f : Nat → Dofs) : ∀ (nodes done : List Nat) (st : State), (done ++ nodes).Nodup →
    (∀ q, st.dofs q = if q ∈ done then (f q).union (given analyses q (f q)) else f q) →
    (∀ q, (nodes.foldl (step analyses) st).dofs q = if q ∈ done ++ nodes then (f q).union (given analyses q (f q)) else f q) ∧
    (nodes.foldl (step analyses) st).spcs = st.spcs ++ nodes.flatMap fun p => spcsAt analyses p (f p) := by
  intro nodes
  induction nodes with
  | nil => intro done st _ h; simpa using h
  | cons p r ih =>
    intro done st hn h
    have hp : p ∉ done := by
      intro hp
      exact (List.nodup_append.1 hn).2.2 p hp p List.mem_cons_self rfl
    have hd : st.dofs p = f p := by rw [h, if_neg hp]
    have hs := step_eq analyses st p
    rw [hd] at hs
    have hn' : ((done ++ [p]) ++ r).Nodup := by rw [List.append_assoc]; exact hn
    obtain ⟨h1, h2⟩ := ih (done ++ [p]) (step analyses st p) hn' (by
      intro q
      rw [hs.1]
      unfold allow
      by_cases hq : q = p
      · subst hq
        rw [if_pos rfl, hd, if_pos (by simp)]
      · rw [if_neg hq, h]
        have : (q ∈ done ++ [p]) ↔ q ∈ done := by simp [hq]
        simp only [this])
    refine ⟨?_, ?_⟩
    · intro q
      rw [List.foldl_cons, h1 q, List.append_assoc]
      rfl
    · rw [List.foldl_cons, h2, hs.2, List.append_assoc]
      rfl

theorem run_dofs (analyses : List Analysis) (f : Nat → Dofs) (nodes : List Nat) (hn : nodes.Nodup) (p : Nat) (hp : p ∈ nodes) :
    (run analyses f nodes).dofs p = (f p).union (given analyses p (f p)) := by
  have := (run_gen analyses f nodes [] ⟨f, none, none, []⟩ (by simpa using hn) (by simp)).1 p
  unfold run
  simpa [hp] using this

theorem run_spcs (analyses : List Analysis) (f : Nat → Dofs) (nodes : List Nat) (hn : nodes.Nodup) :
    (run analyses f nodes).spcs = nodes.flatMap fun p => spcsAt analyses p (f p) := by
  have := (run_gen analyses f nodes [] ⟨f, none, none, []⟩ (by simpa using hn) (by simp)).2
  unfold run
  simpa using this

theorem spc_mem (analyses : List Analysis) (f : Nat → Dofs) (nodes : List Nat) (hn : nodes.Nodup) (c : Spc)
    (hc : c ∈ (run analyses f nodes).spcs) : c.node ∈ nodes ∧ ∃ a ∈ analyses, c.analysis = a.id ∧
      c.dofs = ((((given analyses c.node (f c.node)).diff (f c.node)).diff (missing analyses c.node (f c.node))).diff (a.required c.node)).diff (f c.node) := by
  rw [run_spcs _ _ _ hn, List.mem_flatMap] at hc
  obtain ⟨p, hp, hc⟩ := hc
  obtain ⟨a, ha, _, _, rfl⟩ := (spcsOf_mem ..).1 hc
  exact ⟨hp, a, ha, rfl, rfl⟩

/-! ## C120 -/

/-- **C120.** Every component that a load or constraint of some analysis needs at a node is there afterwards. -/
theorem C120_present (analyses : List Analysis) (f : Nat → Dofs) (nodes : List Nat) (hn : nodes.Nodup) (p : Nat) (hp : p ∈ nodes)
    (a : Analysis) (ha : a ∈ analyses) (d : Dof) (hd : (a.required p).contains d = true) :
    ((run analyses f nodes).dofs p).contains d = true := by
  rw [run_dofs _ _ _ hn p hp, Dofs.contains_union]
  cases hf : (f p).contains d with
  | true => rfl
  | false => rw [given_contains _ _ _ d ((missing_contains ..).2 ⟨hf, a, ha, hd⟩)]; rfl

/-- **C120.** A node keeps its components, and is given others only if some analysis needs one that is not there: the three translations if
translations are all that is needed, and all six otherwise. -/
theorem C120_minimal (analyses : List Analysis) (f : Nat → Dofs) (hf : ∀ p, ∀ a ∈ analyses, Proper (a.required p)) (nodes : List Nat)
    (hn : nodes.Nodup) (p : Nat) (hp : p ∈ nodes) (d : Dof) :
    ((f p).contains d = true → ((run analyses f nodes).dofs p).contains d = true) ∧
    (Added f (run analyses f nodes).dofs p d ↔ (f p).contains d = false ∧
      ((d.isTranslation = true ∧ ∃ e, Needs analyses f p e) ∨ ∃ e, e.isRotation = true ∧ Needs analyses f p e)) := by
  have hmp : Proper (missing analyses p (f p)) := by
    have gen : ∀ (l : List Analysis) (m : Dofs), Proper m → (∀ a ∈ l, Proper (a.required p)) →
        Proper (l.foldl (fun m a => if (f p).containsAll (a.required p) then m else m.union ((a.required p).diff (f p))) m) := by
      intro l
      induction l with
      | nil => intro m h _; exact h
      | cons a r ih =>
        intro m h hl
        rw [List.foldl_cons]
        refine ih _ ?_ fun b hb => hl b (List.mem_cons_of_mem _ hb)
        split
        · exact h
        · have ha := hl a List.mem_cons_self
          unfold Proper Dofs.containsAll at *
          rw [beq_iff_eq] at *
          simp only [Dofs.union, Dofs.diff] at *
          generalize (a.required p).dofsCode = x at *
          generalize m.dofsCode = y at *
          generalize (f p).dofsCode = z at *
          ext i hi
          have h1 := congrArg (fun v => v[i]) h
          have h2 := congrArg (fun v => v[i]) ha
          simp only [BitVec.getElem_or, BitVec.getElem_and, BitVec.getElem_not] at *
          cases hx : x[i] <;> cases hy : y[i] <;> cases hz : z[i] <;> simp_all
    exact gen analyses _ (by unfold Proper; decide) (hf p)
  rw [run_dofs _ _ _ hn p hp]
  refine ⟨fun h => by rw [Dofs.contains_union, h]; rfl, ?_⟩
  unfold Added
  rw [run_dofs _ _ _ hn p hp, Dofs.contains_union]
  constructor
  · rintro ⟨h1, h2⟩
    refine ⟨h1, ?_⟩
    rw [h1, Bool.false_or] at h2
    unfold given at h2
    split at h2
    · rw [Dofs.contains_noDofs] at h2; cases h2
    next hne =>
      split at h2
      next hr =>
        obtain ⟨e, he, hc⟩ := (anyRot_iff _).1 hr
        exact .inr ⟨e, he, (missing_contains ..).1 hc⟩
      next hr =>
        rw [trans_contains] at h2
        refine .inl ⟨h2, ?_⟩
        by_contra hno
        apply hne
        have := proper_empty _ hmp fun e => by
          rw [Bool.eq_false_iff]
          intro hc
          exact hno ⟨e, (missing_contains ..).1 hc⟩
        unfold Dofs.empty
        rw [this]
        rfl
  · rintro ⟨h1, h2⟩
    refine ⟨h1, ?_⟩
    rw [h1, Bool.false_or]
    unfold given
    have hne : ∀ e, Needs analyses f p e → (missing analyses p (f p)).empty = true → False := by
      intro e he h
      have := empty_iff _ h e
      rw [(missing_contains ..).2 he] at this
      cases this
    rcases h2 with ⟨ht, e, he⟩ | ⟨e, hr, he⟩
    · rw [if_neg (hne e he)]
      split
      · exact all_contains d
      · rw [trans_contains, ht]
    · rw [if_neg (hne e he), if_pos ((anyRot_iff _).2 ⟨e, hr, (missing_contains ..).2 he⟩)]
      exact all_contains d

/-- **C120.** No constraint is added on a component that the node had before, or that the analysis needs; every constraint is for a node of the mesh
and an analysis of the model. -/
theorem C120_harmless (analyses : List Analysis) (hid : ∀ a ∈ analyses, ∀ b ∈ analyses, a.id = b.id → a = b) (f : Nat → Dofs) (nodes : List Nat)
    (hn : nodes.Nodup) (c : Spc) (hc : c ∈ (run analyses f nodes).spcs) : c.node ∈ nodes ∧ (∃ a ∈ analyses, a.id = c.analysis) ∧
      ∀ d, c.dofs.contains d = true → Added f (run analyses f nodes).dofs c.node d ∧
        ∀ a ∈ analyses, a.id = c.analysis → (a.required c.node).contains d = false := by
  obtain ⟨h1, a, ha, h2, h3⟩ := spc_mem _ _ _ hn c hc
  refine ⟨h1, ⟨a, ha, h2.symm⟩, fun d hd => ?_⟩
  rw [h3] at hd
  simp only [Dofs.contains_diff, Bool.and_eq_true, Bool.not_eq_true'] at hd
  refine ⟨⟨hd.2, ?_⟩, fun b hb hba => ?_⟩
  · rw [run_dofs _ _ _ hn _ h1, Dofs.contains_union, hd.1.1.1.1, Bool.or_true]
  · rw [hid b hb a ha (by rw [hba, h2])]
    exact hd.1.2

/-- **C120, the components that are added are blocked or needed**, in an analysis that needs all that is needed in any, and something. -/
theorem C120_blocked_partial (analyses : List Analysis) (f : Nat → Dofs) (nodes : List Nat) (hn : nodes.Nodup) (p : Nat) (hp : p ∈ nodes)
    (a : Analysis) (ha : a ∈ analyses) (hall : ∀ e, Needs analyses f p e → (a.required p).contains e = true)
    (hsome : ∃ e, Needs analyses f p e) (d : Dof) (hd : Added f (run analyses f nodes).dofs p d) :
    (a.required p).contains d = true ∨ Blocked (run analyses f nodes).spcs a.id p d := by
  cases hr : (a.required p).contains d with
  | true => exact .inl rfl
  | false =>
    refine .inr ?_
    obtain ⟨e, he⟩ := hsome
    have hae := hall e he
    have hall' := containsAll_false _ _ e hae he.1
    obtain ⟨hd1, hd2⟩ := hd
    rw [run_dofs _ _ _ hn p hp, Dofs.contains_union, hd1, Bool.false_or] at hd2
    have hm : (missing analyses p (f p)).contains d = false := by
      rw [Bool.eq_false_iff]
      intro h
      rw [hall d ((missing_contains ..).1 h)] at hr
      cases hr
    have hc : (((((given analyses p (f p)).diff (f p)).diff (missing analyses p (f p))).diff (a.required p)).diff (f p)).contains d = true := by
      simp only [Dofs.contains_diff, hd1, hd2, hm, hr]
      rfl
    refine ⟨⟨a.id, p, ((((given analyses p (f p)).diff (f p)).diff (missing analyses p (f p))).diff (a.required p)).diff (f p)⟩, ?_, rfl, rfl, hc⟩
    rw [run_spcs _ _ _ hn, List.mem_flatMap]
    refine ⟨p, hp, (spcsOf_mem ..).2 ⟨a, ha, hall', ?_, rfl⟩⟩
    intro h0
    rw [h0, Dofs.contains_noDofs] at hc
    cases hc

/-- **C120 is false with several analyses:** a component that the node did not have, that one analysis needs and another does not, is added without
stiffness and is free in the other. -/
theorem C120_blocked_false (analyses : List Analysis) (f : Nat → Dofs) (nodes : List Nat) (hn : nodes.Nodup) (p : Nat) (hp : p ∈ nodes)
    (a : Analysis) (d : Dof) (hneed : Needs analyses f p d) (hnot : (a.required p).contains d = false) :
    Added f (run analyses f nodes).dofs p d ∧ (a.required p).contains d = false ∧ ¬ Blocked (run analyses f nodes).spcs a.id p d := by
  refine ⟨⟨hneed.1, ?_⟩, hnot, ?_⟩
  · obtain ⟨h1, b, hb, h2⟩ := hneed
    exact C120_present analyses f nodes hn p hp b hb d h2
  · rintro ⟨c, hc, _, rfl, h⟩
    obtain ⟨_, b, _, _, h3⟩ := spc_mem _ _ _ hn c hc
    rw [h3] at h
    simp only [Dofs.contains_diff, Bool.and_eq_true, Bool.not_eq_true'] at h
    rw [(missing_contains ..).2 hneed] at h
    cases h.1.1.2

/-- **C120 is false with several analyses, continued:** an analysis that needs nothing at a node which is missing has none of the components
blocked that are added there because of another analysis. -/
theorem C120_none_false (analyses : List Analysis) (hid : ∀ a ∈ analyses, ∀ b ∈ analyses, a.id = b.id → a = b) (f : Nat → Dofs)
    (nodes : List Nat) (hn : nodes.Nodup) (p : Nat) (a : Analysis) (ha : a ∈ analyses)
    (hnone : (f p).containsAll (a.required p) = true) (d : Dof) : ¬ Blocked (run analyses f nodes).spcs a.id p d := by
  rintro ⟨c, hc, h1, h2, h⟩
  rw [run_spcs _ _ _ hn, List.mem_flatMap] at hc
  obtain ⟨q, hq, hc⟩ := hc
  obtain ⟨b, hb, h3, _, rfl⟩ := (spcsOf_mem ..).1 hc
  simp only at h1 h2
  subst h2
  rw [hid b hb a ha h1, hnone] at h3
  cases h3

/-- The nodes that get a cell of an element set. -/
def nodesOf : Option Discrete → List Nat
  | none => []
  | some e => e.nodes

theorem run_sets (analyses : List Analysis) (f : Nat → Dofs) : ∀ (nodes done : List Nat) (st : State), (done ++ nodes).Nodup →
    (∀ q, q ∉ done → st.dofs q = f q) →
    nodesOf (nodes.foldl (step analyses) st).tr = nodesOf st.tr ++ nodes.filter (fun p => given analyses p (f p) = Dofs.ALL_DOFS) ∧
    nodesOf (nodes.foldl (step analyses) st).t = nodesOf st.t ++ nodes.filter (fun p => given analyses p (f p) = Dofs.TRANSLATIONS) ∧
    ((∀ e, st.tr = some e → e.stiffness = Dofs.ALL_DOFS.toList.map fun d => (d, 0)) →
      ∀ e, (nodes.foldl (step analyses) st).tr = some e → e.stiffness = Dofs.ALL_DOFS.toList.map fun d => (d, 0)) ∧
    ((∀ e, st.t = some e → e.stiffness = Dofs.TRANSLATIONS.toList.map fun d => (d, 0)) →
      ∀ e, (nodes.foldl (step analyses) st).t = some e → e.stiffness = Dofs.TRANSLATIONS.toList.map fun d => (d, 0)) := by
  intro nodes
  have hput : ∀ all p o, nodesOf (some (put all p o)) = nodesOf o ++ [p] := by
    intro all p o; cases o <;> rfl
  have hst : ∀ all p o, (∀ e, o = some e → e.stiffness = all.toList.map fun d => (d, (0 : Dbl))) →
      ∀ e, some (put all p o) = some e → e.stiffness = all.toList.map fun d => (d, (0 : Dbl)) := by
    intro all p o h e he
    cases he
    cases o with
    | none => rfl
    | some x => exact h x rfl
  induction nodes with
  | nil => intro done st _ _; exact ⟨by simp, by simp, fun h => h, fun h => h⟩
  | cons p r ih =>
    intro done st hn h
    have hp : p ∉ done := fun hp => (List.nodup_append.1 hn).2.2 p hp p List.mem_cons_self rfl
    have hn' : ((done ++ [p]) ++ r).Nodup := by rw [List.append_assoc]; exact hn
    have hih := ih (done ++ [p]) (step analyses st p) hn' (by
      intro q hq
      rw [(step_eq analyses st p).1]
      unfold allow
      rw [if_neg (by rintro rfl; simp at hq)]
      exact h q fun hq' => hq (List.mem_append_left _ hq'))
    rw [List.foldl_cons, List.filter_cons, List.filter_cons]
    obtain ⟨i1, i2, i3, i4⟩ := hih
    rw [i1, i2]
    have hd : st.dofs p = f p := h p hp
    unfold step at i3 i4 ⊢
    unfold given
    rw [hd] at i3 i4 ⊢
    have n1 : Dofs.NO_DOFS ≠ Dofs.ALL_DOFS := by decide
    have n2 : Dofs.NO_DOFS ≠ Dofs.TRANSLATIONS := by decide
    have n3 : Dofs.ALL_DOFS ≠ Dofs.TRANSLATIONS := by decide
    by_cases h1 : (missing analyses p (f p)).empty = true
    · simp only [if_pos h1] at i3 i4 ⊢
      refine ⟨?_, ?_, i3, i4⟩
      · rw [if_neg (by simpa using n1)]
      · rw [if_neg (by simpa using n2)]
    · simp only [if_neg h1] at i3 i4 ⊢
      by_cases h2 : (missing analyses p (f p)).containsAnyOf Dofs.ROTATIONS = true
      · simp only [if_pos h2] at i3 i4 ⊢
        refine ⟨?_, ?_, fun hh => i3 (hst _ _ _ hh), i4⟩
        · rw [hput, if_pos (by simp), List.append_assoc]; rfl
        · rw [if_neg (by simpa using n3)]
      · simp only [if_neg h2] at i3 i4 ⊢
        refine ⟨?_, ?_, i3, fun hh => i4 (hst _ _ _ hh)⟩
        · rw [if_neg (by simpa using n3.symm)]
        · rw [hput, if_pos (by simp), List.append_assoc]; rfl

/-- **C120.** At most one element set of each kind is made, of which the stiffness is zero. A node has a cell of the set for all components if and
only if it needs a rotation, and of the set for translations if and only if translations are all that it needs; never two of them. -/
theorem C120_elements (analyses : List Analysis) (f : Nat → Dofs) (hf : ∀ p, ∀ a ∈ analyses, Proper (a.required p)) (nodes : List Nat) (hn : nodes.Nodup) :
    (nodesOf (run analyses f nodes).tr).Nodup ∧ (nodesOf (run analyses f nodes).t).Nodup ∧
    (∀ p, p ∈ nodesOf (run analyses f nodes).tr ↔ p ∈ nodes ∧ ∃ e, e.isRotation = true ∧ Needs analyses f p e) ∧
    (∀ p, p ∈ nodesOf (run analyses f nodes).t ↔ p ∈ nodes ∧ (∃ e, Needs analyses f p e) ∧ ∀ e, Needs analyses f p e → e.isTranslation = true) ∧
    ∀ e, (run analyses f nodes).tr = some e ∨ (run analyses f nodes).t = some e → ∀ q ∈ e.stiffness, q.2 = 0 := by
  obtain ⟨h1, h2, h3, h4⟩ := run_sets analyses f nodes [] ⟨f, none, none, []⟩ (by simpa using hn) (fun _ _ => rfl)
  have n1 : Dofs.NO_DOFS ≠ Dofs.ALL_DOFS := by decide
  have n2 : Dofs.NO_DOFS ≠ Dofs.TRANSLATIONS := by decide
  have n3 : Dofs.TRANSLATIONS ≠ Dofs.ALL_DOFS := by decide
  have hrt : ∀ e : Dof, e.isRotation = true ↔ ¬ e.isTranslation = true := by decide
  have hrot : ∀ p, (∃ e, e.isRotation = true ∧ Needs analyses f p e) ↔ given analyses p (f p) = Dofs.ALL_DOFS := by
    intro p
    unfold given
    constructor
    · rintro ⟨e, hr, he⟩
      have hm := (missing_contains analyses p (f p) e).2 he
      rw [if_neg (fun h => by rw [empty_iff _ h e] at hm; cases hm), if_pos ((anyRot_iff _).2 ⟨e, hr, hm⟩)]
    · intro h
      split at h
      · exact absurd h n1
      · split at h
        next hr =>
          obtain ⟨e, he, hc⟩ := (anyRot_iff _).1 hr
          exact ⟨e, he, (missing_contains ..).1 hc⟩
        · exact absurd h n3
  have htr : ∀ p ∈ nodes, ((∃ e, Needs analyses f p e) ∧ ∀ e, Needs analyses f p e → e.isTranslation = true) ↔
      given analyses p (f p) = Dofs.TRANSLATIONS := by
    intro p hp
    constructor
    · rintro ⟨⟨e, he⟩, hall⟩
      have hm := (missing_contains analyses p (f p) e).2 he
      unfold given
      rw [if_neg (fun h => by rw [empty_iff _ h e] at hm; cases hm), if_neg]
      intro hr
      obtain ⟨e', he', hc⟩ := (anyRot_iff _).1 hr
      exact (hrt e').1 he' (hall e' ((missing_contains ..).1 hc))
    · intro h
      have hno : ∀ e, Needs analyses f p e → e.isTranslation = true := by
        intro e he
        by_contra hc
        have := (hrot p).1 ⟨e, (hrt e).2 hc, he⟩
        rw [h] at this
        exact n3 this
      refine ⟨?_, hno⟩
      -- a translation that the set adds, or one that was there and hides what is needed
      by_contra hne
      have hadd : ∀ d, (f p).contains d = false → d.isTranslation = false := by
        intro d hd
        rw [Bool.eq_false_iff]
        intro ht
        have hA : Added f (run analyses f nodes).dofs p d := by
          refine ⟨hd, ?_⟩
          rw [run_dofs _ _ _ hn p hp, h, Dofs.contains_union, trans_contains, ht, Bool.or_true]
        rcases ((C120_minimal analyses f hf nodes hn p hp d).2.1 hA).2 with ⟨_, h'⟩ | ⟨e, _, he⟩
        · exact hne h'
        · exact hne ⟨e, he⟩
      have hempty : (missing analyses p (f p)).empty = true := by
        cases hm : (missing analyses p (f p)).empty with
        | true => rfl
        | false =>
          exfalso
          have hmp : missing analyses p (f p) = Dofs.NO_DOFS := by
            unfold missing
            have : ∀ (l : List Analysis), (∀ a ∈ l, a ∈ analyses) →
                l.foldl (fun m a => if (f p).containsAll (a.required p) then m else m.union ((a.required p).diff (f p))) Dofs.NO_DOFS = Dofs.NO_DOFS := by
              intro l
              induction l with
              | nil => intro _; rfl
              | cons a r ih =>
                intro hl
                rw [List.foldl_cons]
                have hreq : (a.required p).diff (f p) = Dofs.NO_DOFS := by
                  have hpr := hf p a (hl a List.mem_cons_self)
                  have hz := proper_empty ((a.required p).diff (f p)) (by
                    unfold Proper Dofs.containsAll at *
                    rw [beq_iff_eq] at *
                    simp only [Dofs.diff] at *
                    generalize (a.required p).dofsCode = x at *
                    generalize (f p).dofsCode = z at *
                    ext i hi
                    have h2 := congrArg (fun v => v[i]) hpr
                    simp only [BitVec.getElem_or, BitVec.getElem_and, BitVec.getElem_not] at *
                    cases hx : x[i] <;> cases hz : z[i] <;> simp_all) (fun e => by
                    rw [Bool.eq_false_iff]
                    intro hc
                    have hc' : ((a.required p).diff (f p)).contains e = true := hc
                    rw [Dofs.contains_diff, Bool.and_eq_true, Bool.not_eq_true'] at hc'
                    exact hne ⟨e, hc'.2, a, hl a List.mem_cons_self, hc'.1⟩)
                  cases hx : (a.required p).diff (f p)
                  rw [hx] at hz
                  simp only at hz
                  rw [hz]
                  rfl
                rw [hreq]
                have : Dofs.NO_DOFS.union Dofs.NO_DOFS = Dofs.NO_DOFS := by decide
                rw [this, ite_self]
                exact ih fun b hb => hl b (List.mem_cons_of_mem _ hb)
            exact this analyses fun a ha => ha
          rw [hmp] at hm
          exact absurd hm (by decide)
      unfold given at h
      rw [if_pos hempty] at h
      exact n2 h
  have h1' : nodesOf (run analyses f nodes).tr = nodes.filter (fun p => given analyses p (f p) = Dofs.ALL_DOFS) := by
    unfold run
    rw [h1]
    rfl
  have h2' : nodesOf (run analyses f nodes).t = nodes.filter (fun p => given analyses p (f p) = Dofs.TRANSLATIONS) := by
    unfold run
    rw [h2]
    rfl
  refine ⟨by rw [h1']; exact hn.filter _, by rw [h2']; exact hn.filter _, fun p => ?_, fun p => ?_, fun e he q hq => ?_⟩
  · rw [h1', List.mem_filter, hrot, decide_eq_true_eq]
  · rw [h2', List.mem_filter, decide_eq_true_eq]
    constructor
    · rintro ⟨a, b⟩; exact ⟨a, (htr p a).2 b⟩
    · rintro ⟨a, b⟩; exact ⟨a, (htr p a).1 b⟩
  · have hs : e.stiffness = Dofs.ALL_DOFS.toList.map (fun d => (d, (0 : Dbl))) ∨ e.stiffness = Dofs.TRANSLATIONS.toList.map (fun d => (d, (0 : Dbl))) := by
      rcases he with he | he
      · exact .inl (h3 (fun e he => (by cases he)) e he)
      · exact .inr (h4 (fun e he => (by cases he)) e he)
    rcases hs with hs | hs <;> rw [hs] at hq <;> obtain ⟨d, _, rfl⟩ := List.mem_map.1 hq <;> rfl

/-! ## Examples -/

/-- A node of a solid, with a moment about x in the first analysis, and about y in the second. -/
def exA : Analysis := ⟨1, fun _ => Dofs.ofDof .RX⟩
def exB : Analysis := ⟨2, fun _ => Dofs.ofDof .RY⟩
def exF : Nat → Dofs := fun _ => Dofs.TRANSLATIONS

example : Proper (exA.required 0) ∧ Proper (exB.required 0) := by unfold Proper; decide
example : Needs [exA, exB] exF 7 .RY ∧ (exA.required 7).contains .RY = false := ⟨⟨by decide, exB, by simp, by decide⟩, by decide⟩
/-- With one analysis the two other rotations are blocked. -/
example : (run [exA] exF [7]).spcs = [⟨1, 7, ⟨48⟩⟩] := by decide +kernel
/-- With two, one of them is. -/
example : (run [exA, exB] exF [7]).spcs = [⟨1, 7, ⟨32⟩⟩, ⟨2, 7, ⟨32⟩⟩] := by decide +kernel

end Virtual
end Vega
