import Verif.Aster.Written
import Mathlib.Data.List.Nodup

/-!
# C130: a strict translation to Code_Aster that reports success has written what its analyses use
-/
namespace Vega

namespace WrittenSpec
open Written

/-- A loading is applied in an analysis: it stands in an order that the analysis calls as a load. -/
def Applied (file : List Entry) (a : Nat) (l : Load) : Prop :=
  ∃ n, Entry.load n l ∈ file ∧ Entry.charge a (some n) ∈ file

/-- A constraint is imposed in an analysis: it stands in an order that the analysis calls as a load. -/
def Imposed (file : List Entry) (a : Nat) (c : Constraint) : Prop :=
  ∃ n, Entry.constraint n c ∈ file ∧ Entry.charge a (some n) ∈ file

/-- A frequency response. -/
def Response (a : Analysis) : Prop := a.kind = .directFreq ∨ a.kind = .modalFreq

/-- The loads that Code_Aster is given in an order of loads. -/
def Static (k : LoadKind) : Prop :=
  k = .nodal ∨ k = .imposed ∨ k = .face ∨ k = .shell ∨ k = .surface ∨ k = .line true ∨ k = .gravity ∨ k = .rotation

/-- Nothing that depends on cells of element sets can be missing: each set has cells, its type is one that Code_Aster has
elements for, and skins come with solids. -/
def Describable (es : List Assign.Elems) : Prop :=
  ∀ e ∈ es, e.effective = true ∧
    (e.type = .discrete0d ∨ e.type = .discrete1d ∨ e.type = .scalarSpring ∨ e.type = .structuralSegment ∨ e.type = .nodalMass ∨
      e.type = .circular ∨ e.type = .tube ∨ e.type = .rectangular ∨ e.type = .iSection ∨ e.type = .generic ∨ e.type = .shell ∨
      e.type = .composite ∨ e.type = .continuum ∨ (e.type = .skin ∧ ∃ e' ∈ es, e'.type = .continuum))

/-- What the analyses of a model use is of kinds that Code_Aster is told of, and the analyses too. -/
def Supported (m : Model) : Prop :=
  Describable m.elements ∧
  ∀ a ∈ m.analyses, a.kind ≠ .unknown ∧
    (∀ s ∈ a.loadSets, s ∈ m.loadSets ∧ s.dload = false ∧ ∀ l ∈ s.loads, Static l.kind) ∧
    (∀ s ∈ a.constraintSets, s ∈ m.constraintSets ∧ ∀ c ∈ s.constraints, c.kind ≠ .quasiRigid false) ∧
    ∀ o ∈ a.objectives, o.kind = .displacementOutput ∨ o.kind = .displacementAssertion ∨ o.kind = .complexAssertion ∨
      o.kind = .vonMisesAssertion ∨ o.kind = .frequencyAssertion

end WrittenSpec

namespace Written
open WrittenSpec

/-! ## What is in the lists -/

theorem mem_kinds (k : LoadKind) : k ∈ loadKinds ↔ Static k := by
  unfold loadKinds Static
  simp only [List.mem_cons, List.not_mem_nil, or_false]
  tauto

theorem mem_written (s : LoadSet) (l : Load) : l ∈ s.written ↔ l ∈ s.loads ∧ Static l.kind := by
  unfold LoadSet.written
  simp only [List.mem_flatMap, List.mem_filter, decide_eq_true_eq]
  rw [← mem_kinds]
  constructor
  · rintro ⟨k, hk, hl, rfl⟩
    exact ⟨hl, hk⟩
  · rintro ⟨hl, hk⟩
    exact ⟨_, hk, hl, rfl⟩

theorem mem_pick (s : ConstraintSet) (ks : List ConstraintKind) (c : Constraint) :
    c ∈ s.pick ks ↔ c ∈ s.constraints ∧ c.kind ∈ ks := by
  unfold ConstraintSet.pick
  simp only [List.mem_flatMap, List.mem_filter, decide_eq_true_eq]
  constructor
  · rintro ⟨k, hk, hc, rfl⟩
    exact ⟨hc, hk⟩
  · rintro ⟨hc, hk⟩
    exact ⟨_, hk, hc, rfl⟩

theorem mem_then (x y : Log) (e : Entry) (k : Mark) :
    (e ∈ (x.then y).1 ↔ e ∈ x.1 ∨ e ∈ y.1) ∧ (k ∈ (x.then y).2 ↔ k ∈ x.2 ∨ k ∈ y.2) := by
  unfold Log.then
  simp

theorem mem_then1 (x y : Log) (e : Entry) : e ∈ (x.then y).1 ↔ e ∈ x.1 ∨ e ∈ y.1 := by
  unfold Log.then
  simp

theorem mem_then2 (x y : Log) (k : Mark) : k ∈ (x.then y).2 ↔ k ∈ x.2 ∨ k ∈ y.2 := by
  unfold Log.then
  simp

theorem mem_logs1 {α : Type} (f : α → Log) (xs : List α) (e : Entry) : e ∈ (logs f xs).1 ↔ ∃ x ∈ xs, e ∈ (f x).1 := by
  unfold logs
  simp

theorem mem_logs2 {α : Type} (f : α → Log) (xs : List α) (k : Mark) : k ∈ (logs f xs).2 ↔ ∃ x ∈ xs, k ∈ (f x).2 := by
  unfold logs
  simp

/-- What an analysis writes. -/
def partLog (m : Model) (a : Analysis) (x : Log) : Log :=
  ((x.then (writeStresses m a)).then (writeAssertions a)).then (writeOutputs a)

theorem analyses_mem {m : Model} {as : List Analysis} {rest : Log} (h : writeAnalyses m as = .ok rest) :
    (∀ e, e ∈ rest.1 ↔ ∃ a ∈ as, ∃ x, writeAnalysis m a = .ok x ∧ e ∈ (partLog m a x).1) ∧
    (∀ k, k ∈ rest.2 ↔ ∃ a ∈ as, ∃ x, writeAnalysis m a = .ok x ∧ k ∈ (partLog m a x).2) ∧
    ∀ a ∈ as, ∃ x, writeAnalysis m a = .ok x := by
  induction as generalizing rest with
  | nil =>
    cases h
    simp
  | cons a as ih =>
    unfold writeAnalyses at h
    cases hx : writeAnalysis m a with
    | ok x =>
      rw [hx] at h
      cases hr : writeAnalyses m as with
      | ok r =>
        rw [hr] at h
        simp only [Outcome.bind_ok, Outcome.ok.injEq] at h
        subst h
        obtain ⟨h1, h2, h3⟩ := ih hr
        refine ⟨fun e => ?_, fun k => ?_, fun b hb => ?_⟩
        · rw [mem_then1, h1 e]
          simp only [List.mem_cons, exists_eq_or_imp, hx, Outcome.ok.injEq, exists_eq_left']
          rfl
        · rw [mem_then2, h2 k]
          simp only [List.mem_cons, exists_eq_or_imp, hx, Outcome.ok.injEq, exists_eq_left']
          rfl
        · rcases List.mem_cons.1 hb with rfl | hb
          · exact ⟨x, hx⟩
          · exact h3 b hb
      | throw => rw [hr] at h; cases h
      | ub => rw [hr] at h; cases h
      | diverges => rw [hr] at h; cases h
    | throw => rw [hx] at h; cases h
    | ub => rw [hx] at h; cases h
    | diverges => rw [hx] at h; cases h

theorem write_parts {m : Model} {log : Log} (h : write m = .ok log) :
    ∃ ms rest, Assign.affeModele m.env m.elements = .ok ms ∧ writeAnalyses m m.analyses = .ok rest ∧
      log = ((((writeMaterials m).then (writeElements m)).then (logs writeRelations m.constraintSets)).then
        (logs writeLoadSet m.loadSets)).then ((logs writeContacts m.constraintSets).then rest) := by
  unfold write at h
  cases hm : Assign.affeModele m.env m.elements with
  | ok ms =>
    rw [hm] at h
    cases hr : writeAnalyses m m.analyses with
    | ok r =>
      rw [hr] at h
      simp only [Outcome.bind_ok, Outcome.ok.injEq] at h
      exact ⟨ms, r, rfl, rfl, h.symm⟩
    | throw => rw [hr] at h; cases h
    | ub => rw [hr] at h; cases h
    | diverges => rw [hr] at h; cases h
  | throw => rw [hm] at h; cases h
  | ub => rw [hm] at h; cases h
  | diverges => rw [hm] at h; cases h

theorem translate_parts {m : Model} {x : Exit} {file : List Entry} (h : translate m = .ok (x, file)) :
    ∃ log, write m = .ok log ∧ file = log.1 ∧ (x = .ok ↔ checkWritten m (m.prior ++ log.2) = true) := by
  unfold translate at h
  cases hw : write m with
  | ok log =>
    rw [hw] at h
    simp only [Outcome.bind_ok, Outcome.ok.injEq, Prod.mk.injEq] at h
    refine ⟨log, rfl, h.2.symm, ?_⟩
    rw [← h.1]
    by_cases hc : checkWritten m (m.prior ++ log.2) = true
    · simp [hc]
    · simp [hc]
  | throw => rw [hw] at h; cases h
  | ub => rw [hw] at h; cases h
  | diverges => rw [hw] at h; cases h

theorem check_iff (m : Model) (marks : List Mark) :
    checkWritten m marks = true ↔
      (∀ x ∈ m.materials, Mark.material x ∈ marks) ∧ (∀ e ∈ m.elements, Mark.element e.id ∈ marks) ∧
      ∀ a ∈ m.analyses, Mark.analysis a.id ∈ marks ∧
        (∀ s ∈ a.loadSets, Mark.loadSet s ∈ marks ∧ ∀ l ∈ s.loads, Mark.load l ∈ marks) ∧
        (∀ s ∈ a.constraintSets, Mark.constraintSet s ∈ marks ∧ ∀ c ∈ s.constraints, Mark.constraint c ∈ marks) ∧
        ∀ o ∈ a.objectives, Mark.objective o ∈ marks := by
  unfold checkWritten
  simp only [Bool.and_eq_true, List.all_eq_true, decide_eq_true_eq, List.mem_filter]
  constructor
  · rintro ⟨⟨⟨h1, h2⟩, h3⟩, h4⟩
    exact ⟨h1, h2, fun a ha => ⟨h3 a ha, (h4 a ⟨ha, h3 a ha⟩).1.1, (h4 a ⟨ha, h3 a ha⟩).1.2, (h4 a ⟨ha, h3 a ha⟩).2⟩⟩
  · rintro ⟨h1, h2, h3⟩
    exact ⟨⟨⟨h1, h2⟩, fun a ha => (h3 a ha).1⟩, fun a ha => ⟨⟨(h3 a ha.1).2.1, (h3 a ha.1).2.2.1⟩, (h3 a ha.1).2.2.2⟩⟩

/-! ## Which marks are made -/

theorem excitations_mem (a : Analysis) :
    (∀ e, e ∈ (excitations a).1 ↔ ∃ s ∈ a.loadSets, ∃ l ∈ s.loads, l.kind = .excitation ∧ e = .excitation a.id l) ∧
    ∀ k, k ∈ (excitations a).2 ↔ ∃ s ∈ a.loadSets, ∃ l ∈ s.loads, l.kind = .excitation ∧ (k = .load l ∨ k = .loadSet s) := by
  unfold excitations
  generalize a.loadSets = ss
  induction ss with
  | nil => simp
  | cons s ss ih =>
    refine ⟨fun e => ?_, fun k => ?_⟩
    · simp only [List.foldr_cons, List.mem_append, ih.1 e, List.mem_map, List.mem_filter, decide_eq_true_eq, List.mem_cons,
        exists_eq_or_imp]
      refine or_congr ⟨?_, ?_⟩ Iff.rfl
      · rintro ⟨l, ⟨hl, hk⟩, rfl⟩
        exact ⟨l, hl, hk, rfl⟩
      · rintro ⟨l, hl, hk, rfl⟩
        exact ⟨l, ⟨hl, hk⟩, rfl⟩
    · simp only [List.foldr_cons, List.mem_append, ih.2 k, List.mem_flatMap, List.mem_filter, decide_eq_true_eq, List.mem_cons,
        List.not_mem_nil, or_false, exists_eq_or_imp]
      refine or_congr ⟨?_, ?_⟩ Iff.rfl
      · rintro ⟨l, ⟨hl, hk⟩, h⟩
        exact ⟨l, hl, hk, h⟩
      · rintro ⟨l, hl, hk, h⟩
        exact ⟨l, ⟨hl, hk⟩, h⟩

/-- The marks of an analysis order. -/
theorem analysis_marks {m : Model} {a : Analysis} {x : Log} (h : writeAnalysis m a = .ok x) (k : Mark) :
    k ∈ x.2 ↔ k = .analysis a.id ∨ (Response a ∧ k ∈ (excitations a).2) := by
  unfold writeAnalysis at h
  unfold Response
  cases hk : a.kind <;> rw [hk] at h <;> simp only [Outcome.ok.injEq, reduceCtorEq] at h <;> subst h <;>
    simp [or_comm]

theorem skipped_false_iff (s : LoadSet) :
    s.skipped = false ↔ s.dload = false ∧ ∃ l ∈ s.loads, l.kind ≠ .temperature := by
  unfold LoadSet.skipped
  simp only [Bool.or_eq_false_iff, List.isEmpty_eq_false_iff, ne_eq]
  rw [← Bool.not_eq_true (s.loads.all _), List.all_eq_true]
  simp only [decide_eq_true_eq]
  constructor
  · rintro ⟨⟨h1, h2⟩, h3⟩
    refine ⟨h1, ?_⟩
    by_contra hn
    exact h3 fun l hl => by
      by_contra hc
      exact hn ⟨l, hl, hc⟩
  · rintro ⟨h1, l, hl, hc⟩
    refine ⟨⟨h1, ?_⟩, fun h => hc (h l hl)⟩
    intro hn
    rw [hn] at hl
    cases hl

theorem loadSet_log {s : LoadSet} (h : s.skipped = false) :
    ∃ n, s.name = some n ∧ writeLoadSet s = (s.written.map (.load n), s.written.map .load ++ [.loadSet s]) := by
  have h2 := (skipped_false_iff s).1 h
  obtain ⟨hd, l, hl, _⟩ := h2
  have he : s.loads.isEmpty = false := by
    cases hs : s.loads with
    | nil => rw [hs] at hl; cases hl
    | cons _ _ => rfl
  have hn : ∃ n, s.name = some n := by
    unfold LoadSet.name
    rw [h]
    by_cases hf : s.hasFunctions = true
    · exact ⟨.CHMEF s.id, by simp [hf]⟩
    · exact ⟨.CHMEC s.id, by simp [hf]⟩
  obtain ⟨n, hn⟩ := hn
  refine ⟨n, hn, ?_⟩
  unfold writeLoadSet
  rw [hd, he, hn]
  simp

theorem loadSet_marks (s : LoadSet) (k : Mark) :
    k ∈ (writeLoadSet s).2 ↔
      (s.dload = false ∧ s.loads = [] ∧ k = .loadSet s) ∨
      (s.skipped = false ∧ (k = .loadSet s ∨ ∃ l ∈ s.loads, Static l.kind ∧ k = .load l)) := by
  by_cases hs : s.skipped = false
  · obtain ⟨n, _, hw⟩ := loadSet_log hs
    have hne : s.loads ≠ [] := by
      obtain ⟨_, l, hl, _⟩ := (skipped_false_iff s).1 hs
      exact List.ne_nil_of_mem hl
    rw [hw]
    simp only [List.mem_append, List.mem_map, mem_written, List.mem_singleton, hs, true_and, hne, false_and, and_false,
      false_or]
    constructor
    · rintro (⟨l, ⟨h1, h2⟩, rfl⟩ | rfl)
      · exact .inr ⟨l, h1, h2, rfl⟩
      · exact .inl rfl
    · rintro (rfl | ⟨l, h1, h2, rfl⟩)
      · exact .inr rfl
      · exact .inl ⟨l, ⟨h1, h2⟩, rfl⟩
  · simp only [hs, false_and, or_false]
    rw [Bool.not_eq_false] at hs
    unfold writeLoadSet
    by_cases hd : s.dload = true
    · simp [hd]
    · rw [Bool.not_eq_true] at hd
      by_cases he : s.loads = []
      · simp [hd, he]
      · have hn : s.name = none := by
          unfold LoadSet.name
          simp [hs]
        simp [hd, he, hn]

theorem relations_marks (s : ConstraintSet) (k : Mark) :
    k ∈ (writeRelations s).2 ↔
      (s.constraints = [] ∧ k = .constraintSet s) ∨
      ((∃ c ∈ s.constraints, c.kind.isContact = false) ∧
        (k = .constraintSet s ∨ ∃ c ∈ s.constraints, c.kind ∈ relationKinds ∧ k = .constraint c)) := by
  unfold writeRelations
  by_cases he : s.constraints = []
  · simp [he]
  · have he' : s.constraints.isEmpty = false := by simp [he]
    by_cases ha : s.constraints.all (·.kind.isContact) = true
    · have hn : ¬ ∃ c ∈ s.constraints, c.kind.isContact = false := by
        rintro ⟨c, hc, hk⟩
        rw [List.all_eq_true] at ha
        rw [ha c hc] at hk
        cases hk
      simp [he, hn, ha]
    · have hn : ∃ c ∈ s.constraints, c.kind.isContact = false := by
        by_contra hcon
        refine ha (List.all_eq_true.2 fun c hc => ?_)
        cases hk : c.kind.isContact with
        | true => rfl
        | false => exact absurd ⟨c, hc, hk⟩ hcon
      rw [he', if_neg (by simp), if_neg ha]
      simp only [List.mem_append, List.mem_map, mem_pick, List.mem_singleton, he, false_and, false_or, hn, true_and]
      constructor
      · rintro (⟨c, ⟨h1, h2⟩, rfl⟩ | rfl)
        · exact .inr ⟨c, h1, h2, rfl⟩
        · exact .inl rfl
      · rintro (rfl | ⟨c, h1, h2, rfl⟩)
        · exact .inr rfl
        · exact .inl ⟨c, ⟨h1, h2⟩, rfl⟩

theorem contacts_marks (s : ConstraintSet) (k : Mark) :
    k ∈ (writeContacts s).2 ↔ s.hasContacts = true ∧
      (k = .constraintSet s ∨ ∃ c ∈ s.constraints, c.kind ∈ contactKinds ∧ k = .constraint c) := by
  unfold writeContacts
  by_cases he : s.constraints = []
  · simp [he, ConstraintSet.hasContacts]
  · have he' : s.constraints.isEmpty = false := by simp [he]
    rw [he', if_neg (by simp)]
    by_cases hc : s.hasContacts = true
    · rw [if_pos hc]
      simp only [List.mem_append, List.mem_map, mem_pick, List.mem_singleton, hc, true_and]
      constructor
      · rintro (⟨c, ⟨h1, h2⟩, rfl⟩ | rfl)
        · exact .inr ⟨c, h1, h2, rfl⟩
        · exact .inl rfl
      · rintro (rfl | ⟨c, h1, h2, rfl⟩)
        · exact .inr rfl
        · exact .inl ⟨c, ⟨h1, h2⟩, rfl⟩
    · simp [hc]

theorem stresses_marks (m : Model) (a : Analysis) (k : Mark) :
    k ∈ (writeStresses m a).2 ↔
      (∀ o ∈ a.objectives, o.kind ≠ .vonMisesOutput ∧ o.kind ≠ .vonMisesAssertion) ∧
        ∃ o ∈ m.objectives, o.kind = .vonMisesOutput ∧ k = .objective o := by
  unfold writeStresses
  by_cases h : a.objectives.any (fun o => o.kind = .vonMisesOutput || o.kind = .vonMisesAssertion) = true
  · rw [if_pos h]
    simp only [List.any_eq_true, Bool.or_eq_true, decide_eq_true_eq] at h
    obtain ⟨o, ho, hk⟩ := h
    simp only [List.not_mem_nil, false_iff]
    rintro ⟨hall, _⟩
    rcases hk with hk | hk
    · exact (hall o ho).1 hk
    · exact (hall o ho).2 hk
  · rw [if_neg h]
    simp only [List.any_eq_true, Bool.or_eq_true, decide_eq_true_eq, not_exists, not_and, not_or] at h
    simp only [List.mem_map, pickObjectives, List.mem_filter, decide_eq_true_eq]
    constructor
    · rintro ⟨o, ⟨h1, h2⟩, rfl⟩
      exact ⟨h, o, h1, h2, rfl⟩
    · rintro ⟨_, o, h1, h2, rfl⟩
      exact ⟨o, ⟨h1, h2⟩, rfl⟩

theorem assertions_marks (a : Analysis) (k : Mark) :
    k ∈ (writeAssertions a).2 ↔ ∃ o ∈ a.objectives, o.kind.isAssertion = true ∧ k = .objective o := by
  unfold writeAssertions
  simp only [List.mem_map, List.mem_filter]
  constructor
  · rintro ⟨o, ⟨h1, h2⟩, rfl⟩
    exact ⟨o, h1, h2, rfl⟩
  · rintro ⟨o, h1, h2, rfl⟩
    exact ⟨o, ⟨h1, h2⟩, rfl⟩

theorem outputs_marks (a : Analysis) (k : Mark) :
    k ∈ (writeOutputs a).2 ↔ ∃ o ∈ a.objectives, o.kind = .displacementOutput ∧ k = .objective o := by
  unfold writeOutputs
  have hm : ∀ k : Mark, k ∈ (pickObjectives a.objectives .displacementOutput).map Mark.objective ↔
      ∃ o ∈ a.objectives, o.kind = .displacementOutput ∧ k = .objective o := by
    intro k
    simp only [List.mem_map, pickObjectives, List.mem_filter, decide_eq_true_eq]
    constructor
    · rintro ⟨o, ⟨h1, h2⟩, rfl⟩
      exact ⟨o, h1, h2, rfl⟩
    · rintro ⟨o, h1, h2, rfl⟩
      exact ⟨o, ⟨h1, h2⟩, rfl⟩
  rw [← hm k]
  by_cases h : (pickObjectives a.objectives .displacementOutput).isEmpty = true
  · rw [if_pos h, List.isEmpty_iff.1 h]
    simp
  · rw [if_neg h]

theorem elements_marks (m : Model) (k : Mark) :
    k ∈ (writeElements m).2 ↔ (∃ e ∈ m.elements, e.type = .composite ∧ k = .element e.id) ∨
      ∃ b ∈ Assign.affeCara m.env m.elements, k = .element b.1 := by
  unfold writeElements Assign.filter
  simp only [List.mem_append, List.mem_map, List.mem_filter, decide_eq_true_eq]
  constructor
  · rintro (⟨e, ⟨h1, h2⟩, rfl⟩ | ⟨b, hb, rfl⟩)
    · exact .inl ⟨e, h1, h2, rfl⟩
    · exact .inr ⟨b, hb, rfl⟩
  · rintro (⟨e, h1, h2, rfl⟩ | ⟨b, hb, rfl⟩)
    · exact .inl ⟨e, ⟨h1, h2⟩, rfl⟩
    · exact .inr ⟨b, hb, rfl⟩

/-- The marks of the whole file. -/
theorem write_marks {m : Model} {log : Log} (h : write m = .ok log) (k : Mark) :
    k ∈ log.2 ↔ (∃ x ∈ m.materials, k = .material x) ∨
      ((∃ e ∈ m.elements, e.type = .composite ∧ k = .element e.id) ∨
        ∃ b ∈ Assign.affeCara m.env m.elements, k = .element b.1) ∨
      (∃ s ∈ m.constraintSets, k ∈ (writeRelations s).2) ∨ (∃ s ∈ m.loadSets, k ∈ (writeLoadSet s).2) ∨
      (∃ s ∈ m.constraintSets, k ∈ (writeContacts s).2) ∨
      ∃ a ∈ m.analyses, (k = .analysis a.id ∨ (Response a ∧ k ∈ (excitations a).2)) ∨ k ∈ (writeStresses m a).2 ∨
        k ∈ (writeAssertions a).2 ∨ k ∈ (writeOutputs a).2 := by
  obtain ⟨ms, rest, _, hr, rfl⟩ := write_parts h
  obtain ⟨_, h2, h3⟩ := analyses_mem hr
  have hmat : k ∈ (writeMaterials m).2 ↔ ∃ x ∈ m.materials, k = .material x := by
    unfold writeMaterials
    simp [eq_comm]
  have hana : k ∈ rest.2 ↔ ∃ a ∈ m.analyses, (k = .analysis a.id ∨ (Response a ∧ k ∈ (excitations a).2)) ∨
      k ∈ (writeStresses m a).2 ∨ k ∈ (writeAssertions a).2 ∨ k ∈ (writeOutputs a).2 := by
    rw [h2 k]
    constructor
    · rintro ⟨a, ha, x, hx, hk⟩
      unfold partLog at hk
      rw [mem_then2, mem_then2, mem_then2, analysis_marks hx k, or_assoc, or_assoc] at hk
      exact ⟨a, ha, hk⟩
    · rintro ⟨a, ha, hk⟩
      obtain ⟨x, hx⟩ := h3 a ha
      refine ⟨a, ha, x, hx, ?_⟩
      unfold partLog
      rw [mem_then2, mem_then2, mem_then2, analysis_marks hx k, or_assoc, or_assoc]
      exact hk
  rw [mem_then2, mem_then2, mem_then2, mem_then2, mem_then2, mem_logs2, mem_logs2, mem_logs2, hmat, elements_marks, hana]
  simp only [or_assoc]

/-- Which loadings are marked. -/
theorem marked_load {m : Model} {log : Log} (h : write m = .ok log) (l : Load) :
    Mark.load l ∈ log.2 ↔
      (∃ s ∈ m.loadSets, s.skipped = false ∧ l ∈ s.loads ∧ Static l.kind) ∨
      ∃ a ∈ m.analyses, Response a ∧ ∃ s ∈ a.loadSets, l ∈ s.loads ∧ l.kind = .excitation := by
  rw [write_marks h]
  simp only [relations_marks, loadSet_marks, contacts_marks, stresses_marks, assertions_marks, outputs_marks,
    excitations_mem, reduceCtorEq, and_false, exists_false, false_or, or_false, Mark.load.injEq]
  constructor
  · rintro (⟨s, hs, hsk, l', hl, hk, rfl⟩ | ⟨a, ha, hR, s, hs, l', hl, hk, rfl⟩)
    · exact .inl ⟨s, hs, hsk, hl, hk⟩
    · exact .inr ⟨a, ha, hR, s, hs, hl, hk⟩
  · rintro (⟨s, hs, hsk, hl, hk⟩ | ⟨a, ha, hR, s, hs, hl, hk⟩)
    · exact .inl ⟨s, hs, hsk, l, hl, hk, rfl⟩
    · exact .inr ⟨a, ha, hR, s, hs, l, hl, hk, rfl⟩

/-- Which load sets are marked. -/
theorem marked_loadSet {m : Model} {log : Log} (h : write m = .ok log) (s : LoadSet) :
    Mark.loadSet s ∈ log.2 ↔
      (s ∈ m.loadSets ∧ ((s.dload = false ∧ s.loads = []) ∨ s.skipped = false)) ∨
      ∃ a ∈ m.analyses, Response a ∧ s ∈ a.loadSets ∧ ∃ l ∈ s.loads, l.kind = .excitation := by
  rw [write_marks h]
  simp only [relations_marks, loadSet_marks, contacts_marks, stresses_marks, assertions_marks, outputs_marks,
    excitations_mem, reduceCtorEq, and_false, exists_false, false_or, or_false, Mark.loadSet.injEq]
  constructor
  · rintro (⟨t, ht, hh⟩ | ⟨a, ha, hR, t, ht, l, hl, hk, rfl⟩)
    · rcases hh with ⟨h1, h2, rfl⟩ | ⟨h1, rfl⟩
      · exact .inl ⟨ht, .inl ⟨h1, h2⟩⟩
      · exact .inl ⟨ht, .inr h1⟩
    · exact .inr ⟨a, ha, hR, ht, l, hl, hk⟩
  · rintro (⟨hs, hh⟩ | ⟨a, ha, hR, hs, l, hl, hk⟩)
    · refine .inl ⟨s, hs, ?_⟩
      rcases hh with ⟨h1, h2⟩ | h1
      · exact .inl ⟨h1, h2, rfl⟩
      · exact .inr ⟨h1, rfl⟩
    · exact .inr ⟨a, ha, hR, s, hs, l, hl, hk, rfl⟩

/-- Which constraints are marked. -/
theorem marked_constraint {m : Model} {log : Log} (h : write m = .ok log) (c : Constraint) :
    Mark.constraint c ∈ log.2 ↔ ∃ s ∈ m.constraintSets, c ∈ s.constraints ∧
      (((∃ d ∈ s.constraints, d.kind.isContact = false) ∧ c.kind ∈ relationKinds) ∨
        (s.hasContacts = true ∧ c.kind ∈ contactKinds)) := by
  rw [write_marks h]
  simp only [relations_marks, loadSet_marks, contacts_marks, stresses_marks, assertions_marks, outputs_marks,
    excitations_mem, reduceCtorEq, and_false, exists_false, false_or, or_false, Mark.constraint.injEq]
  constructor
  · rintro (⟨s, hs, hd, c', hc, hk, rfl⟩ | ⟨s, hs, hC, c', hc, hk, rfl⟩)
    · exact ⟨s, hs, hc, .inl ⟨hd, hk⟩⟩
    · exact ⟨s, hs, hc, .inr ⟨hC, hk⟩⟩
  · rintro ⟨s, hs, hc, ⟨hd, hk⟩ | ⟨hC, hk⟩⟩
    · exact .inl ⟨s, hs, hd, c, hc, hk, rfl⟩
    · exact .inr ⟨s, hs, hC, c, hc, hk, rfl⟩

/-- Which constraint sets are marked: those of the model. -/
theorem marked_constraintSet {m : Model} {log : Log} (h : write m = .ok log) (s : ConstraintSet) :
    Mark.constraintSet s ∈ log.2 ↔ s ∈ m.constraintSets := by
  rw [write_marks h]
  simp only [relations_marks, loadSet_marks, contacts_marks, stresses_marks, assertions_marks, outputs_marks,
    excitations_mem, reduceCtorEq, and_false, exists_false, false_or, or_false, Mark.constraintSet.injEq]
  constructor
  · rintro (⟨t, ht, hh⟩ | ⟨t, ht, _, rfl⟩)
    · rcases hh with ⟨_, rfl⟩ | ⟨_, rfl⟩ <;> exact ht
    · exact ht
  · intro hs
    by_cases he : s.constraints = []
    · exact .inl ⟨s, hs, .inl ⟨he, rfl⟩⟩
    · by_cases hd : ∃ d ∈ s.constraints, d.kind.isContact = false
      · exact .inl ⟨s, hs, .inr ⟨hd, rfl⟩⟩
      · refine .inr ⟨s, hs, ?_, rfl⟩
        obtain ⟨c, hc⟩ := List.exists_mem_of_ne_nil _ he
        unfold ConstraintSet.hasContacts
        rw [List.any_eq_true]
        refine ⟨c, hc, ?_⟩
        cases hk : c.kind.isContact with
        | true => rfl
        | false => exact absurd ⟨c, hc, hk⟩ hd

/-- Which objectives are marked. -/
theorem marked_objective {m : Model} {log : Log} (h : write m = .ok log) (o : Objective) :
    Mark.objective o ∈ log.2 ↔ ∃ a ∈ m.analyses,
      ((∀ p ∈ a.objectives, p.kind ≠ .vonMisesOutput ∧ p.kind ≠ .vonMisesAssertion) ∧ o ∈ m.objectives ∧
        o.kind = .vonMisesOutput) ∨
      (o ∈ a.objectives ∧ (o.kind.isAssertion = true ∨ o.kind = .displacementOutput)) := by
  rw [write_marks h]
  simp only [relations_marks, loadSet_marks, contacts_marks, stresses_marks, assertions_marks, outputs_marks,
    excitations_mem, reduceCtorEq, and_false, exists_false, false_or, or_false, Mark.objective.injEq]
  refine exists_congr fun a => and_congr_right fun _ => ?_
  constructor
  · rintro (⟨h1, p, hp, hk, rfl⟩ | ⟨p, hp, hk, rfl⟩ | ⟨p, hp, hk, rfl⟩)
    · exact .inl ⟨h1, hp, hk⟩
    · exact .inr ⟨hp, .inl hk⟩
    · exact .inr ⟨hp, .inr hk⟩
  · rintro (⟨h1, hp, hk⟩ | ⟨hp, hk | hk⟩)
    · exact .inl ⟨h1, o, hp, hk, rfl⟩
    · exact .inr (.inl ⟨o, hp, hk, rfl⟩)
    · exact .inr (.inr ⟨o, hp, hk, rfl⟩)

/-! ## Which entries are in the file -/

theorem entry_of_analysis {m : Model} {log : Log} (h : write m = .ok log) {a : Analysis} (ha : a ∈ m.analyses) {x : Log}
    (hx : writeAnalysis m a = .ok x) {e : Entry} (he : e ∈ (partLog m a x).1) : e ∈ log.1 := by
  obtain ⟨ms, rest, _, hr, rfl⟩ := write_parts h
  have := ((analyses_mem hr).1 e).2 ⟨a, ha, x, hx, he⟩
  rw [mem_then1]
  refine .inr ?_
  rw [mem_then1]
  exact .inr this

theorem entry_of_loadSet {m : Model} {log : Log} (h : write m = .ok log) {s : LoadSet} (hs : s ∈ m.loadSets) {e : Entry}
    (he : e ∈ (writeLoadSet s).1) : e ∈ log.1 := by
  obtain ⟨ms, rest, _, hr, rfl⟩ := write_parts h
  rw [mem_then1, mem_then1, mem_logs1 writeLoadSet]
  exact .inl (.inr ⟨s, hs, he⟩)

theorem entry_of_relations {m : Model} {log : Log} (h : write m = .ok log) {s : ConstraintSet} (hs : s ∈ m.constraintSets)
    {e : Entry} (he : e ∈ (writeRelations s).1) : e ∈ log.1 := by
  obtain ⟨ms, rest, _, hr, rfl⟩ := write_parts h
  rw [mem_then1, mem_then1, mem_then1, mem_logs1 writeRelations]
  exact .inl (.inl (.inr ⟨s, hs, he⟩))

theorem analysis_written {m : Model} {log : Log} (h : write m = .ok log) {a : Analysis} (ha : a ∈ m.analyses) :
    ∃ x, writeAnalysis m a = .ok x := by
  obtain ⟨ms, rest, _, hr, rfl⟩ := write_parts h
  exact (analyses_mem hr).2.2 a ha

/-! ## The property -/

/-- **C130**: when a strict translation reports success, each loading of each linear static analysis stands in an order of loads
that the analysis calls, in models without frequency responses. The loadings and sets marked before writing are excepted:
`C130_marked_before_false`. -/
theorem C130_loads_partial {m : Model} {file : List Entry} (h : translate m = .ok (.ok, file))
    (hresp : ∀ b ∈ m.analyses, ¬ Response b) {a : Analysis} (ha : a ∈ m.analyses) (hk : a.kind = .static) {s : LoadSet}
    (hs : s ∈ a.loadSets) (hps : Mark.loadSet s ∉ m.prior) {l : Load} (hl : l ∈ s.loads) (hpl : Mark.load l ∉ m.prior) :
    Applied file a.id l := by
  obtain ⟨log, hw, rfl, hc⟩ := translate_parts h
  have hc := (check_iff m _).1 (hc.1 rfl)
  obtain ⟨_, h2, _, _⟩ := hc.2.2 a ha
  obtain ⟨hsm, hlm⟩ := h2 s hs
  have hsm : Mark.loadSet s ∈ log.2 := by
    rcases List.mem_append.1 hsm with hh | hh
    · exact absurd hh hps
    · exact hh
  have hlm : Mark.load l ∈ log.2 := by
    rcases List.mem_append.1 (hlm l hl) with hh | hh
    · exact absurd hh hpl
    · exact hh
  have hstat : Static l.kind := by
    rcases (marked_load hw l).1 hlm with ⟨_, _, _, _, hk⟩ | ⟨b, hb, hR, _⟩
    · exact hk
    · exact absurd hR (hresp b hb)
  have hskip : s ∈ m.loadSets ∧ s.skipped = false := by
    rcases (marked_loadSet hw s).1 hsm with ⟨h1, ⟨_, he⟩ | h2⟩ | ⟨b, hb, hR, _⟩
    · rw [he] at hl
      cases hl
    · exact ⟨h1, h2⟩
    · exact absurd hR (hresp b hb)
  obtain ⟨n, hn, hlog⟩ := loadSet_log hskip.2
  refine ⟨n, ?_, ?_⟩
  · refine entry_of_loadSet hw hskip.1 ?_
    rw [hlog]
    exact List.mem_map_of_mem ((mem_written s l).2 ⟨hl, hstat⟩)
  · obtain ⟨x, hx⟩ := analysis_written hw ha
    refine entry_of_analysis hw ha hx ?_
    unfold partLog
    rw [mem_then1, mem_then1, mem_then1]
    refine .inl (.inl (.inl ?_))
    unfold writeAnalysis at hx
    rw [hk] at hx
    simp only [Outcome.ok.injEq] at hx
    rw [← hx]
    refine List.mem_cons_of_mem _ (List.mem_append_left _ ?_)
    rw [← hn]
    exact List.mem_map_of_mem (f := fun s : LoadSet => Entry.charge a.id s.name) hs

/-- **C130**: likewise each constraint of its constraint sets without contacts (sets with contacts: `C130_contacts_false`). -/
theorem C130_constraints_partial {m : Model} {file : List Entry} (h : translate m = .ok (.ok, file)) {a : Analysis}
    (ha : a ∈ m.analyses) (hk : a.kind = .static) {s : ConstraintSet} (hs : s ∈ a.constraintSets)
    (hcon : ∀ c ∈ s.constraints, c.kind.isContact = false) (hps : Mark.constraintSet s ∉ m.prior) {c : Constraint}
    (hcs : c ∈ s.constraints) (hpc : Mark.constraint c ∉ m.prior) (href : c.kind ≠ .spc true) : Imposed file a.id c := by
  obtain ⟨log, hw, rfl, hc⟩ := translate_parts h
  have hc := (check_iff m _).1 (hc.1 rfl)
  obtain ⟨_, _, h3, _⟩ := hc.2.2 a ha
  obtain ⟨hsm, hcm⟩ := h3 s hs
  have hsm : Mark.constraintSet s ∈ log.2 := by
    rcases List.mem_append.1 hsm with hh | hh
    · exact absurd hh hps
    · exact hh
  have hcm : Mark.constraint c ∈ log.2 := by
    rcases List.mem_append.1 (hcm c hcs) with hh | hh
    · exact absurd hh hpc
    · exact hh
  have hsM := (marked_constraintSet hw s).1 hsm
  have hrel : c.kind ∈ relationKinds := by
    obtain ⟨t, _, _, ⟨_, hk⟩ | ⟨_, hk⟩⟩ := (marked_constraint hw c).1 hcm
    · exact hk
    · exfalso
      have := hcon c hcs
      unfold contactKinds at hk
      simp only [List.mem_cons, List.not_mem_nil, or_false] at hk
      rcases hk with hk | hk | hk | hk <;> rw [hk] at this <;> cases this
  have hne : s.constraints.isEmpty = false := by
    cases hh : s.constraints with
    | nil => rw [hh] at hcs; cases hcs
    | cons _ _ => rfl
  have hnc : s.hasContacts = false := by
    unfold ConstraintSet.hasContacts
    rw [List.any_eq_false]
    intro d hd
    rw [hcon d hd]
    simp
  have hname : s.name = some s.relationName := by
    unfold ConstraintSet.name
    simp [hne, hnc]
  refine ⟨s.relationName, ?_, ?_⟩
  · refine entry_of_relations hw hsM ?_
    unfold writeRelations
    have hall : ¬ s.constraints.all (·.kind.isContact) = true := by
      rw [List.all_eq_true]
      intro hh
      have := hh c hcs
      rw [hcon c hcs] at this
      cases this
    rw [hne, if_neg (by simp), if_neg hall]
    refine List.mem_map.2 ⟨c, (mem_pick s _ c).2 ⟨hcs, hrel⟩, ?_⟩
    unfold entryOf
    rw [if_neg href]
  · obtain ⟨x, hx⟩ := analysis_written hw ha
    refine entry_of_analysis hw ha hx ?_
    unfold partLog
    rw [mem_then1, mem_then1, mem_then1]
    refine .inl (.inl (.inl ?_))
    unfold writeAnalysis at hx
    rw [hk] at hx
    simp only [Outcome.ok.injEq] at hx
    rw [← hx]
    refine List.mem_cons_of_mem _ (List.mem_append_right _ ?_)
    rw [← hname]
    refine List.mem_map_of_mem (f := fun s : ConstraintSet => Entry.charge a.id s.name) ?_
    rw [List.mem_filter]
    exact ⟨hs, by simp [hne]⟩

/-- **C130**: each analysis of a translated model is in the file, whatever the exit, and with success each of its objectives is
asked of it (objectives marked before writing excepted; none is, in the code). -/
theorem C130_objectives {m : Model} {x : Exit} {file : List Entry} (h : translate m = .ok (x, file)) {a : Analysis}
    (ha : a ∈ m.analyses) :
    Entry.analysis a.id ∈ file ∧
      (x = .ok → ∀ o ∈ a.objectives, Mark.objective o ∉ m.prior → Entry.objective a.id o ∈ file) := by
  obtain ⟨log, hw, rfl, hc⟩ := translate_parts h
  obtain ⟨y, hy⟩ := analysis_written hw ha
  constructor
  · refine entry_of_analysis hw ha hy ?_
    unfold partLog
    rw [mem_then1, mem_then1, mem_then1]
    refine .inl (.inl (.inl ?_))
    unfold writeAnalysis at hy
    cases hk : a.kind <;> rw [hk] at hy <;> simp only [Outcome.ok.injEq, reduceCtorEq] at hy <;> subst hy <;> simp
  · intro hok o ho hp
    obtain ⟨_, _, _, h4⟩ := ((check_iff m _).1 (hc.1 hok)).2.2 a ha
    have hm : Mark.objective o ∈ log.2 := by
      rcases List.mem_append.1 (h4 o ho) with hh | hh
      · exact absurd hh hp
      · exact hh
    refine entry_of_analysis hw ha hy ?_
    unfold partLog
    rw [mem_then1, mem_then1, mem_then1]
    obtain ⟨b, _, ⟨_, _, hv⟩ | ⟨_, hv | hv⟩⟩ := (marked_objective hw o).1 hm
    · refine .inl (.inl (.inr ?_))
      unfold writeStresses
      rw [if_pos (by
        rw [List.any_eq_true]
        exact ⟨o, ho, by simp [hv]⟩)]
      exact List.mem_map_of_mem (List.mem_filter.2 ⟨ho, by simp [hv]⟩)
    · refine .inl (.inr ?_)
      unfold writeAssertions
      exact List.mem_map_of_mem (List.mem_filter.2 ⟨ho, hv⟩)
    · refine .inr ?_
      unfold writeOutputs
      have hmem : o ∈ pickObjectives a.objectives .displacementOutput := List.mem_filter.2 ⟨ho, by simp [hv]⟩
      rw [if_neg (by
        rw [List.isEmpty_iff]
        exact List.ne_nil_of_mem hmem)]
      exact List.mem_append_left _ (List.mem_map_of_mem hmem)

/-- **C130**: with success, each material and each element set with cells is in the file (AFFE_CARA_ELEM has a block for the set). -/
theorem C130_elements {m : Model} {file : List Entry} (h : translate m = .ok (.ok, file))
    (hids : (m.elements.map (·.id)).Nodup) :
    (∀ x ∈ m.materials, Entry.material x ∈ file) ∧
      ∀ e ∈ m.elements, e.effective = true → Mark.element e.id ∉ m.prior → Entry.element e.id ∈ file := by
  obtain ⟨log, hw, rfl, hc⟩ := translate_parts h
  have hc := (check_iff m _).1 (hc.1 rfl)
  obtain ⟨ms, rest, _, _, hlog⟩ := write_parts hw
  have hin : ∀ b ∈ Assign.affeCara m.env m.elements, Entry.element b.1 ∈ log.1 := by
    intro b hb
    rw [hlog, mem_then1, mem_then1, mem_then1, mem_then1]
    exact .inl (.inl (.inl (.inr (List.mem_map_of_mem (f := fun b : Nat × Assign.Block => Entry.element b.1) hb))))
  constructor
  · intro x hx
    rw [hlog, mem_then1, mem_then1, mem_then1, mem_then1]
    exact .inl (.inl (.inl (.inl (List.mem_map_of_mem hx))))
  · intro e he heff hp
    have hm : Mark.element e.id ∈ log.2 := by
      rcases List.mem_append.1 (hc.2.1 e he) with hh | hh
      · exact absurd hh hp
      · exact hh
    rw [write_marks hw] at hm
    simp only [relations_marks, loadSet_marks, contacts_marks, stresses_marks, assertions_marks, outputs_marks,
      excitations_mem, reduceCtorEq, and_false, exists_false, false_or, or_false, Mark.element.injEq] at hm
    rcases hm with ⟨e', he', hk, hid⟩ | ⟨b, hb, hid⟩
    · have : e' = e := List.inj_on_of_nodup_map hids he' he hid.symm
      subst this
      have hb : ∃ b ∈ Assign.compositeBlocks e', b.1 = e'.id := by
        unfold Assign.compositeBlocks
        rw [heff]
        exact ⟨_, List.mem_cons_self, rfl⟩
      obtain ⟨b, hb, hbi⟩ := hb
      rw [← hbi]
      refine hin b ?_
      unfold Assign.affeCara
      simp only [List.mem_append, List.mem_flatMap]
      exact .inl (.inr ⟨e', List.mem_filter.2 ⟨he', by simp [hk]⟩, hb⟩)
    · rw [hid]
      exact hin b hb

/-- **C130**: each dynamic excitation of each frequency response is among the excitations of its order. -/
theorem C130_excitations {m : Model} {x : Exit} {file : List Entry} (h : translate m = .ok (x, file)) {a : Analysis}
    (ha : a ∈ m.analyses) (hr : Response a) {s : LoadSet} (hs : s ∈ a.loadSets) {l : Load} (hl : l ∈ s.loads)
    (hk : l.kind = .excitation) : Entry.excitation a.id l ∈ file := by
  obtain ⟨log, hw, rfl, _⟩ := translate_parts h
  obtain ⟨y, hy⟩ := analysis_written hw ha
  refine entry_of_analysis hw ha hy ?_
  unfold partLog
  rw [mem_then1, mem_then1, mem_then1]
  refine .inl (.inl (.inl ?_))
  have := ((excitations_mem a).1 (.excitation a.id l)).2 ⟨s, hs, l, hl, hk, rfl⟩
  unfold writeAnalysis at hy
  rcases hr with hr | hr <;> rw [hr] at hy <;> simp only [Outcome.ok.injEq] at hy <;> rw [← hy] <;>
    exact List.mem_cons_of_mem _ this

/-- **C130**: a strict translation is not reported as a success when an analysis uses a load of a kind that the file cannot hold
(temperatures, loads on lines of the geometry), a rigid body with some components only that has not been replaced, or asks for
anything else than displacements, stresses and checks. -/
theorem C130_refused {m : Model} {a : Analysis} (ha : a ∈ m.analyses)
    (hbad : (∃ s ∈ a.loadSets, ∃ l ∈ s.loads, Mark.load l ∉ m.prior ∧ ¬ Static l.kind ∧ l.kind ≠ .excitation) ∨
      (∃ s ∈ a.constraintSets, ∃ c ∈ s.constraints, Mark.constraint c ∉ m.prior ∧ c.kind = .quasiRigid false) ∨
      ∃ o ∈ a.objectives, Mark.objective o ∉ m.prior ∧ o.kind.isAssertion = false ∧ o.kind ≠ .displacementOutput ∧
        o.kind ≠ .vonMisesOutput) (file : List Entry) : translate m ≠ .ok (.ok, file) := by
  intro h
  obtain ⟨log, hw, rfl, hc⟩ := translate_parts h
  obtain ⟨_, h2, h3, h4⟩ := ((check_iff m _).1 (hc.1 rfl)).2.2 a ha
  rcases hbad with ⟨s, hs, l, hl, hp, hk, hx⟩ | ⟨s, hs, c, hcs, hp, hk⟩ | ⟨o, ho, hp, hk1, hk2, hk3⟩
  · rcases List.mem_append.1 ((h2 s hs).2 l hl) with hh | hh
    · exact hp hh
    · rcases (marked_load hw l).1 hh with ⟨_, _, _, _, hk'⟩ | ⟨_, _, _, _, _, _, hk'⟩
      · exact hk hk'
      · exact hx hk'
  · rcases List.mem_append.1 ((h3 s hs).2 c hcs) with hh | hh
    · exact hp hh
    · obtain ⟨_, _, _, ⟨_, hk'⟩ | ⟨_, hk'⟩⟩ := (marked_constraint hw c).1 hh
      · rw [hk] at hk'
        revert hk'
        decide
      · rw [hk] at hk'
        revert hk'
        decide
  · rcases List.mem_append.1 (h4 o ho) with hh | hh
    · exact hp hh
    · obtain ⟨_, _, ⟨_, _, hk'⟩ | ⟨_, hk' | hk'⟩⟩ := (marked_objective hw o).1 hh
      · exact hk3 hk'
      · rw [hk1] at hk'
        cases hk'
      · exact hk2 hk'

theorem modele_ok (env : Assign.Env) (es : List Assign.Elems) (h : Describable es) :
    ∃ ms, Assign.affeModele env es = .ok ms := by
  have hone : ∀ e ∈ es, ∃ x, Assign.modelisations env e = .ok x := by
    intro e he
    have := (h e he).2
    unfold Assign.modelisations
    rcases this with hk | hk | hk | hk | hk | hk | hk | hk | hk | hk | hk | hk | hk | ⟨hk, _⟩ <;> rw [hk] <;> dsimp only <;>
      repeat' split
    all_goals exact ⟨_, rfl⟩
  clear h
  induction es with
  | nil => exact ⟨[], rfl⟩
  | cons e es ih =>
    obtain ⟨ms, hms⟩ := ih fun e' he' => hone e' (List.mem_cons_of_mem _ he')
    obtain ⟨x, hx⟩ := hone e List.mem_cons_self
    unfold Assign.affeModele
    rw [hx, hms]
    split
    · exact ⟨_, rfl⟩
    · exact ⟨_, rfl⟩

theorem block_of (env : Assign.Env) (es : List Assign.Elems) (h : Describable es) {e : Assign.Elems} (he : e ∈ es) :
    ∃ b ∈ Assign.affeCara env es, b.1 = e.id := by
  obtain ⟨heff, hk⟩ := h e he
  have hf : ∀ t : Assign.SetType, e.type = t → e ∈ Assign.filter es t := fun t ht => List.mem_filter.2 ⟨he, by simp [ht]⟩
  have hd : ∀ l : Bool, ∃ b ∈ Assign.discretBlocks l e, b.1 = e.id := by
    intro l
    unfold Assign.discretBlocks
    rw [heff]
    exact ⟨_, List.mem_cons_self, rfl⟩
  have hbeam : e.type.section = true → ∃ b ∈ Assign.affeCara env es, b.1 = e.id := by
    intro hsec
    unfold Assign.affeCara
    by_cases ht : e.beamModel = .truss
    · have : e ∈ es.filter Assign.Elems.isTruss := List.mem_filter.2 ⟨he, by simp [Assign.Elems.isTruss, hsec, ht]⟩
      refine ⟨(e.id, if env.large then .poutre else .barre), ?_, rfl⟩
      have := List.mem_map_of_mem (f := fun e : Assign.Elems => (e.id, if env.large then Assign.Block.poutre else .barre)) this
      simp only [List.mem_append]
      exact .inl (.inl (.inl (.inr this)))
    · have : e ∈ es.filter Assign.Elems.isBeam := List.mem_filter.2 ⟨he, by simp [Assign.Elems.isBeam, hsec, ht]⟩
      refine ⟨(e.id, .poutre), ?_, rfl⟩
      have := List.mem_map_of_mem (f := fun e : Assign.Elems => (e.id, Assign.Block.poutre)) this
      simp only [List.mem_append]
      exact .inl (.inl (.inl (.inl (.inr this))))
  rcases hk with hk | hk | hk | hk | hk | hk | hk | hk | hk | hk | hk | hk | hk | ⟨hk, e', he', hc⟩
  · obtain ⟨b, hb, hbi⟩ := hd false
    refine ⟨b, ?_, hbi⟩
    unfold Assign.affeCara
    simp only [List.mem_append, List.mem_flatMap]
    exact .inl (.inl (.inl (.inl (.inl (.inl (.inl ⟨e, hf _ hk, hb⟩))))))
  · obtain ⟨b, hb, hbi⟩ := hd true
    refine ⟨b, ?_, hbi⟩
    unfold Assign.affeCara
    simp only [List.mem_append, List.mem_flatMap]
    exact .inl (.inl (.inl (.inl (.inl (.inl (.inr ⟨e, .inl (.inl (hf _ hk)), hb⟩))))))
  · obtain ⟨b, hb, hbi⟩ := hd true
    refine ⟨b, ?_, hbi⟩
    unfold Assign.affeCara
    simp only [List.mem_append, List.mem_flatMap]
    exact .inl (.inl (.inl (.inl (.inl (.inl (.inr ⟨e, .inl (.inr (hf _ hk)), hb⟩))))))
  · obtain ⟨b, hb, hbi⟩ := hd true
    refine ⟨b, ?_, hbi⟩
    unfold Assign.affeCara
    simp only [List.mem_append, List.mem_flatMap]
    exact .inl (.inl (.inl (.inl (.inl (.inl (.inr ⟨e, .inr (hf _ hk), hb⟩))))))
  · refine ⟨(e.id, .discret 'M' e.rotations true false false), ?_, rfl⟩
    unfold Assign.affeCara
    simp only [List.mem_append, List.mem_flatMap]
    refine .inl (.inl (.inl (.inl (.inl (.inr ⟨e, hf _ hk, ?_⟩)))))
    unfold Assign.massBlocks
    rw [heff]
    exact List.mem_cons_self
  · exact hbeam (by rw [hk]; rfl)
  · exact hbeam (by rw [hk]; rfl)
  · exact hbeam (by rw [hk]; rfl)
  · exact hbeam (by rw [hk]; rfl)
  · exact hbeam (by rw [hk]; rfl)
  · have hb : ∃ b ∈ Assign.shellBlocks e, b.1 = e.id := by
      unfold Assign.shellBlocks
      rw [heff]
      exact ⟨_, List.mem_cons_self, rfl⟩
    obtain ⟨b, hb, hbi⟩ := hb
    refine ⟨b, ?_, hbi⟩
    unfold Assign.affeCara
    simp only [List.mem_append, List.mem_flatMap]
    exact .inl (.inl (.inr ⟨e, hf _ hk, hb⟩))
  · have hb : ∃ b ∈ Assign.compositeBlocks e, b.1 = e.id := by
      unfold Assign.compositeBlocks
      rw [heff]
      exact ⟨_, List.mem_cons_self, rfl⟩
    obtain ⟨b, hb, hbi⟩ := hb
    refine ⟨b, ?_, hbi⟩
    unfold Assign.affeCara
    simp only [List.mem_append, List.mem_flatMap]
    exact .inl (.inr ⟨e, hf _ hk, hb⟩)
  · refine ⟨(e.id, .massif), ?_, rfl⟩
    unfold Assign.affeCara
    simp only [List.mem_append]
    refine .inr ?_
    rw [if_neg (by
      rw [List.isEmpty_iff]
      exact List.ne_nil_of_mem (hf _ hk))]
    refine List.mem_append_left _ (List.mem_flatMap.2 ⟨e, hf _ hk, ?_⟩)
    unfold Assign.solidBlocks
    rw [heff]
    exact List.mem_cons_self
  · refine ⟨(e.id, .massif), ?_, rfl⟩
    unfold Assign.affeCara
    simp only [List.mem_append]
    refine .inr ?_
    have hs : e' ∈ Assign.filter es .continuum := List.mem_filter.2 ⟨he', by simp [hc]⟩
    rw [if_neg (by
      rw [List.isEmpty_iff]
      exact List.ne_nil_of_mem hs)]
    refine List.mem_append_right _ (List.mem_flatMap.2 ⟨e, hf _ hk, ?_⟩)
    unfold Assign.solidBlocks
    rw [heff]
    exact List.mem_cons_self

theorem analyses_ok (m : Model) (as : List Analysis) (h : ∀ a ∈ as, a.kind ≠ .unknown) :
    ∃ r, writeAnalyses m as = .ok r := by
  induction as with
  | nil => exact ⟨_, rfl⟩
  | cons a as ih =>
    obtain ⟨r, hr⟩ := ih fun b hb => h b (List.mem_cons_of_mem _ hb)
    have ha := h a List.mem_cons_self
    have hx : ∃ x, writeAnalysis m a = .ok x := by
      unfold writeAnalysis
      cases hk : a.kind <;> first
        | exact absurd hk ha
        | exact ⟨_, rfl⟩
    obtain ⟨x, hx⟩ := hx
    unfold writeAnalyses
    rw [hx, hr]
    exact ⟨_, rfl⟩

/-- **C130**: there is no false alarm on models made of what Code_Aster is told of: the translation succeeds. -/
theorem C130_succeeds {m : Model} (h : Supported m) : ∃ file, translate m = .ok (.ok, file) := by
  obtain ⟨hel, han⟩ := h
  obtain ⟨ms, hms⟩ := modele_ok m.env m.elements hel
  obtain ⟨r, hr⟩ := analyses_ok m m.analyses fun a ha => (han a ha).1
  have hw : ∃ log, write m = .ok log := by
    unfold write
    rw [hms, hr]
    exact ⟨_, rfl⟩
  obtain ⟨log, hw⟩ := hw
  have hc : checkWritten m (m.prior ++ log.2) = true := by
    rw [check_iff]
    refine ⟨fun x hx => List.mem_append_right _ ?_, fun e he => List.mem_append_right _ ?_, fun a ha => ⟨?_, ?_, ?_, ?_⟩⟩
    · rw [write_marks hw]
      exact .inl ⟨x, hx, rfl⟩
    · rw [write_marks hw]
      obtain ⟨b, hb, hbi⟩ := block_of m.env m.elements hel he
      exact .inr (.inl (.inr ⟨b, hb, by rw [hbi]⟩))
    · refine List.mem_append_right _ ?_
      rw [write_marks hw]
      exact .inr (.inr (.inr (.inr (.inr ⟨a, ha, .inl (.inl rfl)⟩))))
    · intro s hs
      obtain ⟨h1, h2, h3⟩ := (han a ha).2.1 s hs
      have hskip : s.loads ≠ [] → s.skipped = false := by
        intro hne
        obtain ⟨l, hl⟩ := List.exists_mem_of_ne_nil _ hne
        refine (skipped_false_iff s).2 ⟨h2, l, hl, ?_⟩
        intro hk
        have := h3 l hl
        rw [hk] at this
        unfold Static at this
        simp at this
      refine ⟨List.mem_append_right _ ((marked_loadSet hw s).2 (.inl ⟨h1, ?_⟩)), fun l hl =>
        List.mem_append_right _ ((marked_load hw l).2 (.inl ⟨s, h1, hskip (List.ne_nil_of_mem hl), hl, h3 l hl⟩))⟩
      by_cases hne : s.loads = []
      · exact .inl ⟨h2, hne⟩
      · exact .inr (hskip hne)
    · intro s hs
      obtain ⟨h1, h2⟩ := (han a ha).2.2.1 s hs
      refine ⟨List.mem_append_right _ ((marked_constraintSet hw s).2 h1), fun c hcs =>
        List.mem_append_right _ ((marked_constraint hw c).2 ⟨s, h1, hcs, ?_⟩)⟩
      have hcont : c.kind.isContact = true → s.hasContacts = true := fun hh => List.any_eq_true.2 ⟨c, hcs, hh⟩
      have h2 := h2 c hcs
      cases hk : c.kind with
      | quasiRigid b =>
        cases b with
        | false => exact absurd hk h2
        | true => exact .inl ⟨⟨c, hcs, by rw [hk]; rfl⟩, by decide⟩
      | spc b =>
        refine .inl ⟨⟨c, hcs, by rw [hk]; rfl⟩, ?_⟩
        cases b <;> decide
      | rigid => exact .inl ⟨⟨c, hcs, by rw [hk]; rfl⟩, by decide⟩
      | rbe3 => exact .inl ⟨⟨c, hcs, by rw [hk]; rfl⟩, by decide⟩
      | lmpc => exact .inl ⟨⟨c, hcs, by rw [hk]; rfl⟩, by decide⟩
      | surfaceSlide => exact .inl ⟨⟨c, hcs, by rw [hk]; rfl⟩, by decide⟩
      | gap => exact .inr ⟨hcont (by rw [hk]; rfl), by decide⟩
      | slide => exact .inr ⟨hcont (by rw [hk]; rfl), by decide⟩
      | surfaceContact => exact .inr ⟨hcont (by rw [hk]; rfl), by decide⟩
      | zoneContact => exact .inr ⟨hcont (by rw [hk]; rfl), by decide⟩
    · intro o ho
      refine List.mem_append_right _ ((marked_objective hw o).2 ⟨a, ha, .inr ⟨ho, ?_⟩⟩)
      rcases (han a ha).2.2.2 o ho with hk | hk | hk | hk | hk <;> rw [hk]
      · exact .inr rfl
      all_goals exact .inl rfl
  refine ⟨log.1, ?_⟩
  unfold translate
  rw [hw, Outcome.bind_ok, if_pos hc]

/-! ## Where the report is wrong -/

/-- A plate, two load sets (a force; a pressure and a gravity), blocked nodes and a rigid body, one subcase with a request of
displacements. -/
def sample : Model where
  env := ⟨false, false⟩
  materials := [1]
  elements := [⟨1, .shell, true, .tridimensional, .euler, false, false, false, false, false, 1, 0, 0⟩]
  loadSets := [⟨1, false, [⟨1, .nodal, false⟩]⟩, ⟨2, false, [⟨2, .shell, false⟩, ⟨3, .gravity, false⟩]⟩]
  constraintSets := [⟨1, [⟨1, .spc false, false⟩, ⟨2, .rigid, false⟩]⟩]
  objectives := [⟨1, .displacementOutput⟩]
  analyses := [⟨1, .static, [⟨1, false, [⟨1, .nodal, false⟩]⟩, ⟨2, false, [⟨2, .shell, false⟩, ⟨3, .gravity, false⟩]⟩],
    [⟨1, [⟨1, .spc false, false⟩, ⟨2, .rigid, false⟩]⟩], [⟨1, .displacementOutput⟩], []⟩]
  prior := []

/-- The sample meets the hypotheses of `C130_succeeds`, and so of the theorems about successes. -/
example : Supported sample ∧ ∃ file, translate sample = .ok (.ok, file) := by
  have h : Supported sample := by
    refine ⟨?_, ?_⟩
    · intro e he
      simp only [sample, List.mem_singleton] at he
      subst he
      simp
    · intro a ha
      simp only [sample, List.mem_singleton] at ha
      subst ha
      simp [sample, Static]
  exact ⟨h, C130_succeeds h⟩

/-- What is written for the sample. -/
example : translate sample = .ok (.ok,
    [.material 1, .element 1, .constraint (.BL 1) ⟨1, .spc false, false⟩, .constraint (.BL 1) ⟨2, .rigid, false⟩,
      .load (.CHMEC 1) ⟨1, .nodal, false⟩, .load (.CHMEC 2) ⟨2, .shell, false⟩, .load (.CHMEC 2) ⟨3, .gravity, false⟩,
      .analysis 1, .charge 1 (some (.CHMEC 1)), .charge 1 (some (.CHMEC 2)), .charge 1 (some (.BL 1)),
      .objective 1 ⟨1, .displacementOutput⟩]) := by
  decide +kernel

/-- A response with one excitation, in a set of type DLOAD. -/
example : translate { sample with
    loadSets := [⟨4, true, [⟨9, .excitation, false⟩]⟩]
    analyses := [⟨1, .directFreq, [⟨4, true, [⟨9, .excitation, false⟩]⟩], [], [], []⟩] } = .ok (.ok,
    [.material 1, .element 1, .constraint (.BL 1) ⟨1, .spc false, false⟩, .constraint (.BL 1) ⟨2, .rigid, false⟩,
      .analysis 1, .excitation 1 ⟨9, .excitation, false⟩]) := by
  decide +kernel

/-- C130 is false of loads that have been marked before: with temperatures in a set that some card LOAD combines with a coefficient
(Model.cpp 1113-1124 marks the loadings and the set that it copies, whether or not the combination is used), a subcase that selects
the temperatures themselves is translated without them and reported as a success. -/
theorem C130_marked_before_false :
    ∃ m file, ∃ a ∈ m.analyses, ∃ s ∈ a.loadSets, ∃ l ∈ s.loads, a.kind = .static ∧ translate m = .ok (.ok, file) ∧
      ∀ n, Entry.load n l ∉ file := by
  refine ⟨{ sample with
    loadSets := [⟨1, false, [⟨1, .temperature, false⟩]⟩, ⟨10, false, [⟨2, .temperature, false⟩]⟩]
    analyses := [⟨1, .static, [⟨1, false, [⟨1, .temperature, false⟩]⟩], [], [], []⟩]
    prior := [.load ⟨1, .temperature, false⟩, .loadSet ⟨1, false, [⟨1, .temperature, false⟩]⟩] },
    [.material 1, .element 1, .constraint (.BL 1) ⟨1, .spc false, false⟩, .constraint (.BL 1) ⟨2, .rigid, false⟩,
      .analysis 1, .charge 1 none],
    ⟨1, .static, [⟨1, false, [⟨1, .temperature, false⟩]⟩], [], [], []⟩, List.mem_cons_self,
    ⟨1, false, [⟨1, .temperature, false⟩]⟩, List.mem_cons_self, ⟨1, .temperature, false⟩, List.mem_cons_self, rfl, ?_, ?_⟩
  · decide +kernel
  · intro n
    simp

/-- C130 is false of constraints that share their set with contacts (rigid bodies and gaps of a Nastran file are both in the common
set): a nonlinear analysis calls the contacts only, a linear one calls the contacts as if they were a load, and the order with
the other constraints is called by neither; both are reported as successes. -/
theorem C130_contacts_false :
    ∃ (m : Model) (file : List Entry), translate m = .ok (.ok, file) ∧
      (∃ a ∈ m.analyses, a.kind = .nonlinear) ∧ (∃ a ∈ m.analyses, a.kind = .static) ∧
      ∃ c, (∀ a ∈ m.analyses, ∃ s ∈ a.constraintSets, c ∈ s.constraints) ∧ c.kind = .rigid ∧
        ∀ a ∈ m.analyses, ¬ Imposed file a.id c := by
  refine ⟨{ sample with
    loadSets := []
    constraintSets := [⟨1, [⟨1, .rigid, false⟩, ⟨2, .gap, false⟩]⟩]
    analyses := [⟨1, .nonlinear, [], [⟨1, [⟨1, .rigid, false⟩, ⟨2, .gap, false⟩]⟩], [], []⟩,
      ⟨2, .static, [], [⟨1, [⟨1, .rigid, false⟩, ⟨2, .gap, false⟩]⟩], [], []⟩] },
    [.material 1, .element 1, .constraint (.BL 1) ⟨1, .rigid, false⟩, .constraint (.CN 1) ⟨2, .gap, false⟩,
      .analysis 1, .contact 1 (some (.CN 1)), .analysis 2, .charge 2 (some (.CN 1))], ?_, ?_, ?_, ⟨1, .rigid, false⟩, ?_, rfl,
    ?_⟩
  · decide +kernel
  · exact ⟨_, List.mem_cons_self, rfl⟩
  · exact ⟨_, List.mem_cons_of_mem _ List.mem_cons_self, rfl⟩
  · intro a ha
    simp only [List.mem_cons, List.not_mem_nil, or_false] at ha
    rcases ha with rfl | rfl <;> exact ⟨_, List.mem_cons_self, List.mem_cons_self⟩
  · intro a _
    rintro ⟨n, h1, h2⟩
    simp only [List.mem_cons, List.not_mem_nil, or_false, reduceCtorEq, false_or, Entry.constraint.injEq, Constraint.mk.injEq,
      and_false, and_true, Entry.charge.injEq, Option.some.injEq] at h1 h2
    rw [h1] at h2
    cases h2.2

/-- The report is also wrong the other way: whenever all analyses of a model ask for stresses, the translation is reported as
incomplete, although the stresses are asked of each analysis (AsterWriter.cpp 448-456 marks nothing). No reader makes such
requests: `C97_never_selected_false`. -/
theorem C130_stresses_false {m : Model} (hall : ∀ a ∈ m.analyses, ∃ o ∈ a.objectives, o.kind = .vonMisesOutput)
    (hp : ∀ o, Mark.objective o ∉ m.prior) (hne : m.analyses ≠ []) {x : Exit} {file : List Entry}
    (h : translate m = .ok (x, file)) :
    x = .writingIncomplete ∧ ∀ a ∈ m.analyses, ∀ o ∈ a.objectives, o.kind = .vonMisesOutput → Entry.objective a.id o ∈ file := by
  obtain ⟨log, hw, rfl, hc⟩ := translate_parts h
  constructor
  · obtain ⟨a, ha⟩ := List.exists_mem_of_ne_nil _ hne
    obtain ⟨o, ho, hk⟩ := hall a ha
    cases x with
    | writingIncomplete => rfl
    | ok =>
      exfalso
      obtain ⟨_, _, _, h4⟩ := ((check_iff m _).1 (hc.1 rfl)).2.2 a ha
      rcases List.mem_append.1 (h4 o ho) with hh | hh
      · exact hp o hh
      · obtain ⟨b, hb, ⟨hn, _, _⟩ | ⟨_, hk' | hk'⟩⟩ := (marked_objective hw o).1 hh
        · obtain ⟨p, hpb, hpk⟩ := hall b hb
          exact (hn p hpb).1 hpk
        · rw [hk] at hk'
          cases hk'
        · rw [hk] at hk'
          cases hk'
  · intro a ha o ho hk
    obtain ⟨y, hy⟩ := analysis_written hw ha
    refine entry_of_analysis hw ha hy ?_
    unfold partLog
    rw [mem_then1, mem_then1, mem_then1]
    refine .inl (.inl (.inr ?_))
    unfold writeStresses
    rw [if_pos (by
      rw [List.any_eq_true]
      exact ⟨o, ho, by simp [hk]⟩)]
    exact List.mem_map_of_mem (List.mem_filter.2 ⟨ho, by simp [hk]⟩)

end Written
end Vega
