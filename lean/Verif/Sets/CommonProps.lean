import Verif.Sets.Common
import Verif.Sets.Props
import Mathlib.Algebra.BigOperators.Group.List.Basic
import Mathlib.Algebra.Order.BigOperators.Group.List

/-!
# Common and uncommon sets (C30)
-/
namespace Vega.CommonSpec
open Registry ContainerSpec SetSpec

/-! ## Specification -/

/-- The set is used by every analysis (and there are analyses). -/
def usedByAll (lists : List (List (Option Obj))) (s : Obj) : Prop :=
  lists ≠ [] ∧ ∀ l ∈ lists, some s ∈ l

/-- The set is used by some analysis. -/
def used (lists : List (List (Option Obj))) (s : Obj) : Prop := ∃ l ∈ lists, some s ∈ l

/-- No analysis uses a set twice. -/
def AtMostOnce (lists : List (List (Option Obj))) : Prop :=
  ∀ l ∈ lists, ∀ s : Obj, l.count (some s) ≤ 1

/-! ## Lemmas -/

theorem timesUsed_pos (lists : List (List (Option Obj))) (s : Obj) :
    0 < timesUsed lists s ↔ used lists s := by
  unfold timesUsed used
  induction lists with
  | nil => simp
  | cons l ls ih =>
    simp only [List.map_cons, List.sum_cons, List.exists_mem_cons_iff]
    rw [← ih, ← List.count_pos_iff]
    omega

theorem timesUsed_le (lists : List (List (Option Obj))) (h : AtMostOnce lists) (s : Obj) :
    timesUsed lists s ≤ lists.length ∧
    (timesUsed lists s = lists.length ↔ ∀ l ∈ lists, some s ∈ l) := by
  unfold timesUsed
  induction lists with
  | nil => simp
  | cons l ls ih =>
    obtain ⟨h1, h2⟩ := ih (fun x hx => h x (by simp [hx]))
    have h3 := h l (by simp) s
    simp only [List.map_cons, List.sum_cons, List.length_cons, List.forall_mem_cons]
    refine ⟨by omega, ?_⟩
    rw [← h2, ← List.count_pos_iff]
    omega

/-- The sets of an analysis whose references are references of different sets, none being the
implicit common one, are listed at most once. -/
theorem C30_at_most_once {U : Obj → Prop} (hU : Universe U) {sets : Container} {live : List Obj}
    (hrep : Rep sets live) (hl : ∀ x ∈ live, U x) (common : Obj) (ce : Bool) (refs : List Obj)
    (hr : ∀ r ∈ refs, U r) (hd : refs.Pairwise fun a b => ¬ same a b)
    (hc : ∀ r ∈ refs, ¬ same r common) :
    ∃ l, constraintSetsOf sets common ce (refs.map (·.ref)) = .ok l ∧
      ∀ s, l.count (some s) ≤ 1 ∧
        (some s ∈ l ↔ (ce = false ∧ s = common) ∨ (s ∈ live ∧ ∃ r ∈ refs, same r s)) := by
  have hfind : ∃ f, findAll sets (refs.map (·.ref)) = .ok f ∧ ∀ s, f.count (some s) ≤ 1 ∧
      (some s ∈ f ↔ s ∈ live ∧ ∃ r ∈ refs, same r s) := by
    clear hc
    induction refs with
    | nil => exact ⟨[], rfl, by simp⟩
    | cons r rs ih =>
      rw [List.pairwise_cons] at hd
      obtain ⟨f, e1, e2⟩ := ih (fun x hx => hr x (by simp [hx])) hd.2
      obtain ⟨h1, h2⟩ := find_mem hrep hU hl (hr r (by simp))
      by_cases hex : ∃ y ∈ live, same r y
      · obtain ⟨y, hy, hs⟩ := hex
        refine ⟨some y :: f, ?_, ?_⟩
        · simp only [List.map_cons, findAll, (h1 y).mpr ⟨hy, hs⟩, e1, Outcome.bind_ok]
        · intro s
          obtain ⟨h3, h4⟩ := e2 s
          constructor
          · rw [List.count_cons]
            by_cases hys : some y = some s
            · simp only [Option.some.injEq] at hys
              subst hys
              have : some y ∉ f := by
                rw [h4]
                rintro ⟨_, r', hr', hs'⟩
                exact hd.1 r' hr' (same_trans hs (same_symm hs'))
              rw [List.count_eq_zero_of_not_mem this]
              simp
            · simp only [beq_iff_eq, hys, if_false]
              omega
          · simp only [List.mem_cons, Option.some.injEq, h4]
            constructor
            · rintro (rfl | ⟨h5, r', hr', hs'⟩)
              · exact ⟨hy, r, Or.inl rfl, hs⟩
              · exact ⟨h5, r', Or.inr hr', hs'⟩
            · rintro ⟨h5, r', rfl | hr', hs'⟩
              · exact Or.inl (rep_same hrep h5 hy (same_trans (same_symm hs') hs))
              · exact Or.inr ⟨h5, r', hr', hs'⟩
      · refine ⟨none :: f, ?_, ?_⟩
        · simp only [List.map_cons, findAll, h2 (fun x hx hs => hex ⟨x, hx, hs⟩), e1, Outcome.bind_ok]
        · intro s
          obtain ⟨h3, h4⟩ := e2 s
          constructor
          · rw [List.count_cons]
            simpa using h3
          · simp only [List.mem_cons, reduceCtorEq, false_or, h4]
            constructor
            · rintro ⟨h5, r', hr', hs'⟩; exact ⟨h5, r', Or.inr hr', hs'⟩
            · rintro ⟨h5, r', rfl | hr', hs'⟩
              · exact absurd ⟨s, h5, hs'⟩ hex
              · exact ⟨h5, r', hr', hs'⟩
  obtain ⟨f, e1, e2⟩ := hfind
  refine ⟨implicitSet common ce ++ f, by unfold constraintSetsOf; rw [e1]; rfl, fun s => ?_⟩
  obtain ⟨h1, h2⟩ := e2 s
  unfold implicitSet
  cases ce with
  | true => simpa using ⟨h1, h2⟩
  | false =>
    simp only [Bool.false_eq_true, if_false, List.singleton_append, List.mem_cons, true_and,
      Option.some.injEq, h2, List.count_cons]
    refine ⟨?_, trivial⟩
    by_cases hcs : common = s
    · subst hcs
      have : some common ∉ f := by
        rw [h2]; rintro ⟨_, r, hr', hs⟩; exact hc r hr' hs
      rw [List.count_eq_zero_of_not_mem this]
      simp
    · simp [hcs, h1]

/-! ## C30 -/

/-- **C30** the common constraint sets are exactly the sets every analysis uses. -/
theorem C30_common (sets : List Obj) (lists : List (List (Option Obj))) (h : AtMostOnce lists)
    (s : Obj) : s ∈ commonConstraintSets sets lists ↔ s ∈ sets ∧ usedByAll lists s := by
  unfold commonConstraintSets usedByAll
  simp only [List.mem_filter, decide_eq_true_eq]
  refine and_congr_right fun _ => ?_
  rw [(timesUsed_le lists h s).2]
  constructor
  · rintro ⟨h1, h2⟩
    refine ⟨?_, h2⟩
    rintro rfl
    simp [timesUsed] at h1
  · rintro ⟨h1, h2⟩
    refine ⟨?_, h2⟩
    rw [timesUsed_pos]
    obtain ⟨l, ls, rfl⟩ := List.exists_cons_of_ne_nil h1
    exact ⟨l, by simp, h2 l (by simp)⟩

/-- **C30** the uncommon constraint sets are exactly the sets some analysis uses and some does
not, when every set asked for exists. -/
theorem C30_uncommon (sets : List Obj) (lists : List (List (Option Obj))) (h : AtMostOnce lists)
    (hn : none ∉ lists.flatten) :
    ∃ L, uncommonConstraintSets sets lists = .ok L ∧
      ∀ s, s ∈ L ↔ s ∈ sets ∧ used lists s ∧ ¬ usedByAll lists s := by
  unfold uncommonConstraintSets
  have : nullCompared sets lists = false := by simp [nullCompared, hn]
  rw [if_neg (by simp [this])]
  refine ⟨_, rfl, fun s => ?_⟩
  simp only [List.mem_filter, decide_eq_true_eq, timesUsed_pos]
  refine and_congr_right fun _ => and_congr_right fun hu => ?_
  obtain ⟨h1, h2⟩ := timesUsed_le lists h s
  unfold usedByAll
  rw [← h2]
  obtain ⟨l, hl, _⟩ := hu
  have : lists ≠ [] := by rintro rfl; simp at hl
  simp only [ne_eq, this, not_false_eq_true, true_and]
  omega

/-- **C30** common and uncommon constraint sets partition the sets in use. -/
theorem C30_partition (sets : List Obj) (lists : List (List (Option Obj))) (h : AtMostOnce lists)
    (hn : none ∉ lists.flatten) (s : Obj) (hs : s ∈ sets) {L : List Obj}
    (hL : uncommonConstraintSets sets lists = .ok L) :
    (used lists s ↔ s ∈ commonConstraintSets sets lists ∨ s ∈ L) ∧
    ¬ (s ∈ commonConstraintSets sets lists ∧ s ∈ L) := by
  obtain ⟨L', e1, e2⟩ := C30_uncommon sets lists h hn
  rw [hL] at e1
  simp only [Outcome.ok.injEq] at e1
  subst e1
  rw [C30_common sets lists h, e2]
  have : usedByAll lists s → used lists s := by
    rintro ⟨h1, h2⟩
    obtain ⟨l, ls, rfl⟩ := List.exists_cons_of_ne_nil h1
    exact ⟨l, by simp, h2 l (by simp)⟩
  tauto

theorem activeLoop_ok (ps : List (Option Obj)) (seen : List (Option Obj)) (hn : none ∉ ps)
    (hs : none ∉ seen) (hnd : seen.Nodup) :
    ∃ L, activeLoop seen ps = .ok L ∧ L.Nodup ∧ ∀ p, p ∈ L ↔ p ∈ seen ∨ p ∈ ps := by
  induction ps generalizing seen with
  | nil => exact ⟨seen, rfl, hnd, by simp⟩
  | cons p ps ih =>
    have hp : p ≠ none := by rintro rfl; simp at hn
    have hn' : none ∉ ps := fun hc => hn (by simp [hc])
    have h1 : ¬ (seen ≠ [] ∧ (p = none ∨ none ∈ seen)) := by tauto
    unfold activeLoop
    rw [if_neg h1]
    split
    · rename_i hin
      obtain ⟨L, e1, e2, e3⟩ := ih seen hn' hs hnd
      refine ⟨L, e1, e2, fun q => ?_⟩
      rw [e3]
      simp only [List.mem_cons]
      constructor
      · tauto
      · rintro (h | rfl | h)
        · exact Or.inl h
        · exact Or.inl hin
        · exact Or.inr h
    · rename_i hin
      obtain ⟨L, e1, e2, e3⟩ := ih (seen ++ [p]) hn'
        (by simp only [List.mem_append, List.mem_singleton, not_or]; exact ⟨hs, fun h => hp h.symm⟩)
        (by rw [List.nodup_append]; refine ⟨hnd, by simp, ?_⟩
            intro a ha b hb hab; simp at hb; subst hb; subst hab; exact hin ha)
      refine ⟨L, e1, e2, fun q => ?_⟩
      rw [e3]
      simp [or_assoc]

/-- **C30** the active sets are the sets in use, each once. -/
theorem C30_active (lists : List (List (Option Obj))) (hn : none ∉ lists.flatten) :
    ∃ L, activeSets lists = .ok L ∧ L.Nodup ∧ ∀ s : Obj, some s ∈ L ↔ used lists s := by
  obtain ⟨L, e1, e2, e3⟩ := activeLoop_ok lists.flatten [] hn (by simp) (by simp)
  refine ⟨L, e1, e2, fun s => ?_⟩
  rw [e3]
  simp [used]

/-- **C30** load sets: the uncommon ones are as for constraints, dynamic (DLOAD) sets left out; the
common ones returned are only dynamic sets. Missing: the common static sets (refuted below). -/
theorem C30_load_sets_partial (sets : List Obj) (lists : List (List (Option Obj)))
    (h : AtMostOnce lists) (hn : none ∉ lists.flatten) :
    (∀ s, s ∈ commonLoadSets sets lists ↔ s ∈ sets ∧ usedByAll lists s ∧ s.type = DLOAD) ∧
    ∃ L, uncommonLoadSets sets lists = .ok L ∧
      ∀ s, s ∈ L ↔ s ∈ sets ∧ used lists s ∧ ¬ usedByAll lists s ∧ s.type ≠ DLOAD := by
  constructor
  · intro s
    have := C30_common sets lists h s
    unfold commonConstraintSets at this
    simp only [List.mem_filter, decide_eq_true_eq] at this
    unfold commonLoadSets
    simp only [List.mem_filter, decide_eq_true_eq]
    tauto
  · obtain ⟨L, e1, e2⟩ := C30_uncommon sets lists h hn
    unfold uncommonConstraintSets at e1
    have hnc : nullCompared sets lists = false := by simp [nullCompared, hn]
    rw [if_neg (by simp [hnc])] at e1
    simp only [Outcome.ok.injEq] at e1
    unfold uncommonLoadSets
    rw [if_neg (by simp [hnc])]
    refine ⟨_, rfl, fun s => ?_⟩
    have := e2 s
    rw [← e1] at this
    simp only [List.mem_filter, decide_eq_true_eq] at this ⊢
    tauto

/-- Refutation of "a load set used by every analysis is common, unless dynamic": whatever the
analyses, a static load set used by all of them is in neither list, the dynamic ones are the only
common sets. -/
theorem C30_static_load_set_false (sets : List Obj) (lists : List (List (Option Obj)))
    (h : AtMostOnce lists) (hn : none ∉ lists.flatten) (s : Obj) (hu : usedByAll lists s)
    (ht : s.type ≠ DLOAD) :
    s ∉ commonLoadSets sets lists ∧ ∃ L, uncommonLoadSets sets lists = .ok L ∧ s ∉ L := by
  obtain ⟨h1, L, h2, h3⟩ := C30_load_sets_partial sets lists h hn
  refine ⟨fun hc => ht ((h1 s).mp hc).2.2, L, h2, fun hc => ((h3 s).mp hc).2.2.1 hu⟩

/-- **C30** the load sets of an analysis: those of the constraint query, without the null pointers
of missing sets. -/
theorem C30_load_sets_of {U : Obj → Prop} (hU : Universe U) {sets : Container} {live : List Obj}
    (hrep : Rep sets live) (hl : ∀ x ∈ live, U x) (common : Obj) (ce : Bool) (refs : List Obj)
    (hr : ∀ r ∈ refs, U r) (hd : refs.Pairwise fun a b => ¬ same a b)
    (hc : ∀ r ∈ refs, ¬ same r common) :
    ∃ l, loadSetsOf sets common ce (refs.map (·.ref)) = .ok l ∧ none ∉ l ∧
      ∀ s, l.count (some s) ≤ 1 ∧
        (some s ∈ l ↔ (ce = false ∧ s = common) ∨ (s ∈ live ∧ ∃ r ∈ refs, same r s)) := by
  obtain ⟨l, e, h⟩ := C30_at_most_once hU hrep hl common ce refs hr hd hc
  unfold constraintSetsOf at e
  unfold loadSetsOf
  cases hf : findAll sets (refs.map (·.ref)) with
  | ok f =>
    rw [hf] at e
    simp only [Outcome.bind_ok, Outcome.ok.injEq] at e ⊢
    refine ⟨_, rfl, ?_, fun s => ?_⟩
    · unfold implicitSet; cases ce <;> simp
    · have := h s
      rw [← e] at this
      simp only [List.count_append, List.mem_append, List.mem_filter] at this ⊢
      rw [List.count_filter (by rfl)]
      simpa using this
  | _ => rw [hf] at e; cases e

/-- Refutation when an analysis uses a set twice (through the common set and a reference to it, or
through two references): a set another analysis does not use is then reported as common. -/
theorem C30_used_twice_false :
    ∃ (sets : List Obj) (lists : List (List (Option Obj))) (s : Obj), s ∈ sets ∧
      ¬ usedByAll lists s ∧ s ∈ commonConstraintSets sets lists := by
  refine ⟨[exS], [[some exS, some exS], []], exS, by simp, ?_, by decide⟩
  rintro ⟨_, h⟩
  simpa using h [] (by simp)

/-- Refutation when an analysis refers to a constraint set that does not exist: asking for the
active sets is undefined behaviour as soon as another set is in use. -/
theorem C30_missing_set_false :
    ∃ (sets : Container) (common : Obj) (refs : RefSet) (l : List (Option Obj)),
      constraintSetsOf sets common true refs = .ok l ∧ activeSets [l] = .ub ∧
      uncommonConstraintSets sets.objects [l] = .ub := by
  refine ⟨ofOk (Container.empty.add exS), exCommon, [exS.ref, ⟨0, 8, Ref.NO_ID⟩], [some exS, none],
    ?_⟩
  decide +kernel

-- the hypotheses on two analyses sharing one set and differing by another
example : AtMostOnce [[some exS, some exT], [some exS]] ∧
    none ∉ [[some exS, some exT], [some exS]].flatten ∧
    commonConstraintSets [exS, exT] [[some exS, some exT], [some exS]] = [exS] ∧
    uncommonConstraintSets [exS, exT] [[some exS, some exT], [some exS]] = .ok [exT] := by
  refine ⟨?_, by decide, by decide, by decide⟩
  intro l hl s
  simp only [List.mem_cons, List.not_mem_nil, or_false] at hl
  rcases hl with rfl | rfl <;>
    simp only [List.count_cons, List.count_nil, beq_iff_eq, Option.some.injEq]
  · by_cases h1 : exS = s
    · subst h1; decide
    · by_cases h2 : exT = s
      · subst h2; decide
      · simp [h1, h2]
  · split <;> omega
example : usedByAll [[some exS, some exT], [some exS]] exS ∧ exS.type ≠ DLOAD :=
  ⟨⟨by simp, by simp⟩, by decide⟩

end Vega.CommonSpec
