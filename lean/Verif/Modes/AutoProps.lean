import Verif.Modes.Auto
import Mathlib.Tactic.Common

/-!
# Analyses that are found without a statement (C143)
-/
namespace Vega

namespace AutoSpec
open Auto

/-- The type that the objectives call for: nonlinear if there is a strategy, else modal if there is a search of frequencies, else
static. -/
inductive Calls (s : State) : Analysis → Prop
  | nonlinear (x : SetName) : (x, Kind.strategy) ∈ s.objectives → Calls s (.nonlinear .common)
  | modal (x : SetName) : (∀ y, (y, Kind.strategy) ∉ s.objectives) → (x, Kind.search) ∈ s.objectives → Calls s (.modal .common)
  | static : (∀ y, (y, Kind.strategy) ∉ s.objectives) → (∀ y, (y, Kind.search) ∉ s.objectives) → Calls s .static

/-- What a Nastran file gives: strategies and searches are in sets with numbers; only assertions of a result file are in the common
set (F06Parser.cpp 75-80). -/
def FromFile (s : State) : Prop := ∀ k, (SetName.common, k) ∈ s.objectives → k = .other

end AutoSpec

namespace Auto
open AutoSpec

/-! ## Lemmas -/

theorem any_kind (s : State) (k : Kind) : (s.objectives.any fun o => o.2 = k) = true ↔ ∃ x, (x, k) ∈ s.objectives := by
  simp

theorem find_common {s : State} {k : Kind} (h : (SetName.common, k) ∈ s.objectives) :
    ∃ ks, find s .common = some ks ∧ k ∈ ks := by
  refine ⟨_, if_pos ?_, ?_⟩
  · simp only [List.any_eq_true, decide_eq_true_eq]
    exact ⟨_, h, rfl⟩
  · simp [h]

theorem find_kinds {s : State} {ks : List Kind} (h : find s .common = some ks) : ∀ k ∈ ks, (SetName.common, k) ∈ s.objectives := by
  unfold find at h
  split at h
  · cases h
    intro k hk
    simpa using hk
  · cases h

theorem filter_first {ks : List Kind} {k : Kind} (h : k ∈ ks) : ∃ rest, ks.filter (· = k) = k :: rest := by
  have hm : k ∈ ks.filter (· = k) := by simp [h]
  cases e : ks.filter (· = k) with
  | nil => rw [e] at hm; simp at hm
  | cons a rest =>
    have : a ∈ ks.filter (· = k) := by rw [e]; simp
    simp only [List.mem_filter, decide_eq_true_eq] at this
    exact ⟨rest, by rw [this.2]⟩

theorem filter_none {ks : List Kind} {k : Kind} (h : k ∉ ks) : ks.filter (· = k) = [] := by
  rw [List.filter_eq_nil_iff]
  intro a ha
  simp only [decide_eq_true_eq]
  rintro rfl
  exact h ha

theorem auto_type (s : State) : ∃ a, Calls s a ∧ addAuto s = { s with analyses := s.analyses ++ [(a, [], [])] } := by
  unfold addAuto
  by_cases h1 : (s.objectives.any fun o => o.2 = Kind.strategy) = true
  · obtain ⟨x, hx⟩ := (any_kind s _).mp h1
    exact ⟨_, .nonlinear x hx, by simp only [h1, if_true]⟩
  · have n1 : ∀ y, (y, Kind.strategy) ∉ s.objectives := fun y hy => h1 ((any_kind s _).mpr ⟨y, hy⟩)
    by_cases h2 : (s.objectives.any fun o => o.2 = Kind.search) = true
    · obtain ⟨x, hx⟩ := (any_kind s _).mp h2
      exact ⟨_, .modal x n1 hx, by rw [if_neg h1, if_pos h2]⟩
    · exact ⟨_, .static n1 fun y hy => h2 ((any_kind s _).mpr ⟨y, hy⟩), by rw [if_neg h1, if_neg h2]⟩

theorem calls_unique {s : State} {a b : Analysis} (ha : Calls s a) (hb : Calls s b) : a = b := by
  cases ha <;> cases hb <;> first | rfl | (exfalso; simp_all)

theorem finish_empty {s : State} {a : Analysis} (h : s.analyses = []) (ha : Calls s a) :
    finish true s = { s with analyses := [(a, [], [])] } := by
  obtain ⟨b, hb, e⟩ := auto_type s
  unfold finish
  rw [if_pos ⟨rfl, h⟩, e, h, calls_unique ha hb]
  rfl

/-! ## C143 -/

/-- **C143.** A model with analyses keeps them, and so does one for which nothing is to be found; otherwise there is exactly one, of
the type that the objectives call for. Nothing else changes. -/
theorem C143_type (auto : Bool) (s : State) :
    (finish auto s).objectives = s.objectives ∧ (finish auto s).loadSets = s.loadSets ∧
    (finish auto s).constraintSets = s.constraintSets ∧
    ((auto = false ∨ s.analyses ≠ []) → finish auto s = s) ∧
    (auto = true → s.analyses = [] → ∃ a, Calls s a ∧ (∀ b, Calls s b → b = a) ∧ (finish auto s).analyses = [(a, [], [])]) := by
  obtain ⟨a, ha, e⟩ := auto_type s
  by_cases h : auto = true ∧ s.analyses = []
  · have hf : finish auto s = { s with analyses := s.analyses ++ [(a, [], [])] } := by
      unfold finish; rw [if_pos h, e]
    refine ⟨by rw [hf], by rw [hf], by rw [hf], ?_, fun _ _ => ⟨a, ha, fun b hb => calls_unique hb ha, by rw [hf, h.2]; rfl⟩⟩
    rintro (h' | h')
    · rw [h.1] at h'; cases h'
    · exact absurd h.2 h'
  · have hf : finish auto s = s := by unfold finish; rw [if_neg h]
    rw [hf]
    exact ⟨rfl, rfl, rfl, fun _ => rfl, fun h1 h2 => absurd ⟨h1, h2⟩ h⟩

/-- A file with an `EIGRL` card and a load, without `SOL`. -/
def sample : State := ⟨[(.numbered 2 10, .search), (.common, .other)], [some 3], [none, some 4], []⟩

example : (finish true sample).analyses = [(.modal .common, [], [])] := by decide +kernel

/-- **C143, partial.** When the strategy or the search that decides about the type is in the common set, as in the tests, it is found there and
the translation goes on. Missing: the sets with numbers, which are those of files. -/
theorem C143_common_partial (strict : Bool) (s : State) (a : Analysis) (h : s.analyses = []) (ha : Calls s a)
    (hs : ∀ x, a = .nonlinear x → (SetName.common, Kind.strategy) ∈ s.objectives)
    (hm : ∀ x, a = .modal x → (SetName.common, Kind.search) ∈ s.objectives) :
    translate strict s = .ok { s with analyses := [(a, [], [])] } := by
  unfold translate
  simp only [finish_empty h ha]
  cases ha with
  | nonlinear x hx =>
    obtain ⟨ks, hk, hmem⟩ := find_common (s := { s with analyses := [(Analysis.nonlinear .common, [], [])] }) (hs _ rfl)
    obtain ⟨rest, hr⟩ := filter_first hmem
    simp only [validate, writeAster, getStrategy, hk, hr, Outcome.bind_ok]
  | modal x n hx =>
    obtain ⟨ks, hk, hmem⟩ := find_common (s := { s with analyses := [(Analysis.modal .common, [], [])] }) (hm _ rfl)
    obtain ⟨rest, hr⟩ := filter_first hmem
    simp only [validate, writeAster, getSearch, hk, hr, Outcome.bind_ok]
  | static n1 n2 => rfl

example : Calls ⟨[(.common, .strategy)], [], [], []⟩ (.nonlinear .common) := .nonlinear .common (by simp)

/-- **C143, false in full.** A file without a `SOL` statement that has a card for the search of frequencies, and none for a nonlinear strategy, is
undefined behaviour: the search is looked up in a set that it is not in. -/
theorem C143_modal_false (strict : Bool) (s : State) (h : s.analyses = []) (hf : FromFile s)
    (x : SetName) (hx : (x, Kind.search) ∈ s.objectives) (hn : ∀ y, (y, Kind.strategy) ∉ s.objectives) :
    translate strict s = .ub := by
  unfold translate
  simp only [finish_empty h (.modal x hn hx)]
  have hg : getSearch { s with analyses := [(Analysis.modal .common, [], [])] } .common = .ub := by
    unfold getSearch
    cases hk : find { s with analyses := [(Analysis.modal .common, [], [])] } .common with
    | none => rfl
    | some ks =>
      have : Kind.search ∉ ks := fun hm => by
        have := hf _ (find_kinds hk _ hm)
        cases this
      simp only [filter_none this]
  simp only [validate, hg]
  rfl

example : FromFile sample ∧ sample.analyses = [] ∧ (SetName.numbered 2 10, Kind.search) ∈ sample.objectives ∧
    ∀ y, (y, Kind.strategy) ∉ sample.objectives := by
  refine ⟨?_, rfl, by simp [sample], by intro y; simp [sample]⟩
  intro k hk
  simpa [sample] using hk

/-- **C143, false in full.** A file without a `SOL` statement that has a card for a nonlinear strategy is never translated: it is an error in strict
mode if there are no assertions, and undefined behaviour otherwise. -/
theorem C143_nonlinear_false (strict : Bool) (s : State) (h : s.analyses = []) (hf : FromFile s)
    (x : SetName) (hx : (x, Kind.strategy) ∈ s.objectives) :
    ((strict = true ∧ ∀ k, (SetName.common, k) ∉ s.objectives) → translate strict s = .throw) ∧
    (¬ (strict = true ∧ ∀ k, (SetName.common, k) ∉ s.objectives) → translate strict s = .ub) := by
  unfold translate
  simp only [finish_empty h (.nonlinear x hx), validate, writeAster, Outcome.bind_ok]
  unfold getStrategy
  cases hk : find { s with analyses := [(Analysis.nonlinear .common, [], [])] } .common with
  | none =>
    have hno : ∀ k, (SetName.common, k) ∉ s.objectives := by
      intro k hm
      obtain ⟨ks, e, -⟩ := find_common (s := { s with analyses := [(Analysis.nonlinear .common, [], [])] }) hm
      rw [hk] at e
      cases e
    cases strict
    · exact ⟨fun e => absurd e.1 (by decide), fun _ => rfl⟩
    · exact ⟨fun _ => rfl, fun e => absurd ⟨rfl, hno⟩ e⟩
  | some ks =>
    have hns : Kind.strategy ∉ ks := fun hm => by
      have := hf _ (find_kinds hk _ hm)
      cases this
    have hex : ¬ ∀ k, (SetName.common, k) ∉ s.objectives := by
      intro hno
      unfold find at hk
      split at hk
      · next hany =>
        simp only [List.any_eq_true, decide_eq_true_eq] at hany
        obtain ⟨o, ho, e⟩ := hany
        exact hno o.2 (by rw [← e]; exact ho)
      · cases hk
    simp only [filter_none hns]
    exact ⟨fun e => absurd e.2 hex, fun _ => rfl⟩

example : FromFile ⟨[(.numbered 1 5, .strategy)], [], [], []⟩ := by intro k hk; simp at hk

/-- **C143, false in full.** A file without a `SOL` statement whose analysis is static is translated without its loads and supports: of all sets, the
analysis applies only the common ones. -/
theorem C143_static_false (strict : Bool) (s : State) (h : s.analyses = [])
    (h1 : ∀ y, (y, Kind.strategy) ∉ s.objectives) (h2 : ∀ y, (y, Kind.search) ∉ s.objectives) :
    ∃ t, translate strict s = .ok t ∧ t.analyses = [(.static, [], [])] ∧
      ∀ a ∈ t.analyses, ∀ n : Int, some n ∉ loadsOf t a ∧ some n ∉ constraintsOf t a := by
  refine ⟨_, C143_common_partial strict s .static h (.static h1 h2) (by intro x e; cases e) (by intro x e; cases e), rfl, ?_⟩
  intro a ha n
  simp only [List.mem_singleton] at ha
  subst ha
  refine ⟨?_, ?_⟩
  · unfold loadsOf
    split <;> simp
  · unfold constraintsOf
    split <;> simp

example : translate true ⟨[], [some 3], [none, some 4], []⟩ = .ok ⟨[], [some 3], [none, some 4], [(.static, [], [])]⟩ ∧
    loadsOf ⟨[], [some 3], [none, some 4], []⟩ (.static, [], []) = [] ∧
    constraintsOf ⟨[], [some 3], [none, some 4], []⟩ (.static, [], []) = [none] := by decide +kernel

/-- C143: an analysis applies the common sets and, of the numbered ones, those it refers to: the numbers of its loads are looked up among
the sets of loads, and those of its constraints among the sets of constraints. -/
theorem C143_applied (s : State) (a : Analysis) (loads constraints : List Int) :
    (∀ n : Int, some n ∈ loadsOf s (a, loads, constraints) ↔ n ∈ loads ∧ some n ∈ s.loadSets) ∧
    (none ∈ loadsOf s (a, loads, constraints) ↔ none ∈ s.loadSets) ∧
    (∀ n : Int, some n ∈ constraintsOf s (a, loads, constraints) ↔ n ∈ constraints ∧ some n ∈ s.constraintSets) ∧
    (none ∈ constraintsOf s (a, loads, constraints) ↔ none ∈ s.constraintSets) := by
  unfold loadsOf constraintsOf
  refine ⟨?_, ?_, ?_, ?_⟩
  · intro n
    split <;> simp
  · split <;> simp [*]
  · intro n
    split <;> simp
  · split <;> simp [*]

end Auto
end Vega
