import Verif.Case.WriteProps

/-! # What is lost between writing and reading the case control section (C100) -/
namespace Vega
namespace Case
open Nastran (Line)
open CaseSpec

/-- C100 refuted for models without analyses: what is after the end of the list of analyses is used. -/
theorem C100_no_analysis_false (m : WCase) (h : m.analyses = []) : writeSection m = .ub := by
  unfold writeSection writeSOL
  rw [h]
  rfl

theorem writeConstraints_null : ∀ (l : List (Option (WConstraint × Int))), none ∈ l → writeConstraints l = .ub := by
  intro l
  induction l with
  | nil => intro h; exact nomatch h
  | cons e l ih =>
    intro h
    cases e with
    | none => rfl
    | some e =>
      obtain ⟨t, n⟩ := e
      rw [writeConstraints, ih (by simpa using h)]
      rfl

theorem writeConstraints_or : ∀ (l : List (Option (WConstraint × Int))), writeConstraints l = .ub ∨ ∃ x, writeConstraints l = .ok x := by
  intro l
  induction l with
  | nil => exact Or.inr ⟨[], rfl⟩
  | cons e l ih =>
    cases e with
    | none => exact Or.inl rfl
    | some e =>
      rcases ih with h | ⟨x, h⟩
      · exact Or.inl (by rw [writeConstraints, h]; rfl)
      · exact Or.inr ⟨_, by rw [writeConstraints, h]; rfl⟩

theorem writeSubcases_null : ∀ (l : List WAnalysis), (∃ a ∈ l, none ∈ a.constraints) → writeSubcases l = .ub := by
  intro l
  induction l with
  | nil => rintro ⟨a, h, _⟩; exact nomatch h
  | cons a l ih =>
    rintro ⟨b, hb, hn⟩
    rcases List.mem_cons.mp hb with rfl | hb
    · rw [writeSubcases, writeSubcase, writeConstraints_null _ hn]
      rfl
    · have := ih ⟨b, hb, hn⟩
      rcases writeConstraints_or a.constraints with h | ⟨x, h⟩
      · rw [writeSubcases, writeSubcase, h]; rfl
      · rw [writeSubcases, writeSubcase, h, this]; rfl

/-- C100 refuted for analyses that refer to a set of constraints that is not in the model: a null pointer is followed. -/
theorem C100_missing_set_false (m : WCase) (a : WAnalysis) (ha : a ∈ m.analyses) (hn : none ∈ a.constraints) : writeSection m = .ub := by
  have h := writeSubcases_null m.analyses ⟨a, ha, hn⟩
  cases hm : m.analyses with
  | nil => rw [hm] at ha; exact nomatch ha
  | cons b l =>
    have : ∃ s, writeSOL m = .ok s := by
      unfold writeSOL
      rw [hm]
      simp only
      split
      · exact ⟨_, rfl⟩
      · exact ⟨_, rfl⟩
    obtain ⟨s, hs⟩ := this
    unfold writeSection
    rw [hs, h]
    rfl

/-! ## A model, and changes to it -/

def sampleAnalysis : WAnalysis := ⟨.linearStatic, [], 3, [(.load, 10)], [some (.spc, 5)], [[7]]⟩

def sampleCase (l : List WAnalysis) : WCase := ⟨false, "model".toList, l, [⟨7, [1, 2, 3, 4, 5, 6, 7, 8, 9], "G".toList⟩], []⟩

/-- What is read of what is written. -/
def back (m : WCase) : Option Deck := (writeSection m).toOption.bind fun l => (readSection gnu l).toOption

/-- C100 refuted: of two sets of loads of the same type only the last one is read, and likewise for constraints. -/
theorem C100_two_sets_false :
    (back (sampleCase [{ sampleAnalysis with loads := [(.load, 10), (.load, 11)] }])).map (fun d => d.analyses.map (·.loads)) =
      some [[(.load, 11)]] ∧
    (back (sampleCase [{ sampleAnalysis with constraints := [some (.spc, 5), some (.spc, 6)] }])).map (fun d => d.analyses.map (·.constraints)) =
      some [[(.spc, 6)]] := by decide +kernel

/-- C100 refuted: the sets that belong to all analyses are written as `ALL=`, which is not read; nor are contacts. -/
theorem C100_common_set_false :
    (back (sampleCase [{ sampleAnalysis with loads := [(.load, 10), (.all, 11)] }])).map (fun d => d.analyses.map (·.loads)) =
      some [[(.load, 10)]] ∧
    (back (sampleCase [{ sampleAnalysis with constraints := [some (.all, 5), some (.contact, 6)] }])).map
      (fun d => d.analyses.map (·.constraints)) = some [[]] := by decide +kernel

/-- C100 refuted: modal and nonlinear analyses are not read back at all: neither `METHOD` nor `NLPARM` is written. -/
theorem C100_kinds_false :
    (back (sampleCase [{ sampleAnalysis with kind := .linearModal }])).map (fun d => d.analyses.length) = some 0 ∧
    (back (sampleCase [{ sampleAnalysis with kind := .nonLinear }])).map (fun d => d.analyses.length) = some 0 ∧
    (back (sampleCase [{ sampleAnalysis with kind := .other }])).map (fun d => d.analyses.length) = some 0 := by decide +kernel

/-- C100 refuted: with analyses of two kinds all are read back with the kind of the first one. -/
theorem C100_mixed_false :
    (back (sampleCase [sampleAnalysis, { sampleAnalysis with kind := .linearModal, id := 4 }])).map (fun d => d.analyses.map (·.kind)) =
      some [.linearStatic, .linearStatic] := by decide +kernel

/-- C100 refuted: an output on two groups is not read, and of two outputs only the last one is. -/
theorem C100_outputs_false :
    (back (sampleCase [{ sampleAnalysis with outputs := [[7, 8]] }])).map (fun d => d.analyses.map (·.outputs)) = some [[]] ∧
    (back (sampleCase [{ sampleAnalysis with outputs := [[7], [8]] }])).map (fun d => d.analyses.map (·.outputs)) = some [[(.disp, 8)]] := by
  decide +kernel

/-- C100 refuted: a group without members is not read back. -/
theorem C100_empty_group_false :
    (back { sampleCase [sampleAnalysis] with groups := [⟨7, [], "G".toList⟩, ⟨8, [5], "H".toList⟩] }).map (·.sets) = some [(8, .list [5])] := by
  decide +kernel

/-! ## A model that meets the hypotheses -/

theorem sample_plain : PlainCase (sampleCase [sampleAnalysis, { sampleAnalysis with id := 4, loads := [(.load, 11), (.dload, 12)] }]) := by
  refine ⟨by decide, by simp [sampleCase], ?_, by decide, by decide, ?_, rfl⟩
  · intro a ha
    simp only [sampleCase, List.mem_cons, List.not_mem_nil, or_false] at ha
    have hi : ∀ n : Int, n ∈ [3, 4, 5, 7, 10, 11, 12] → Ident n := by
      intro n hn
      simp only [List.mem_cons, List.not_mem_nil, or_false] at hn
      rcases hn with rfl | rfl | rfl | rfl | rfl | rfl | rfl <;> exact ⟨by decide, by decide⟩
    have hc : ∀ e ∈ sampleAnalysis.constraints, ∃ t n, e = some (t, n) ∧ (t = .spc ∨ t = .mpc) ∧ Ident n := by
      intro e he
      simp only [sampleAnalysis, List.mem_singleton] at he
      exact ⟨_, _, he, Or.inl rfl, hi _ (by decide)⟩
    have ho : sampleAnalysis.outputs = [] ∨ ∃ g, sampleAnalysis.outputs = [[g]] ∧ 0 < g ∧ Ident g :=
      Or.inr ⟨7, rfl, by decide, hi _ (by decide)⟩
    rcases ha with rfl | rfl
    · refine ⟨rfl, hi _ (by decide), ?_, by decide, hc, by decide, ho⟩
      intro e he
      simp only [sampleAnalysis, List.mem_singleton] at he
      subst he
      exact ⟨Or.inl rfl, hi _ (by decide)⟩
    · refine ⟨rfl, hi _ (by decide), ?_, by decide, hc, by decide, ho⟩
      intro e he
      simp only [List.mem_cons, List.not_mem_nil, or_false] at he
      rcases he with rfl | rfl
      · exact ⟨Or.inl rfl, hi _ (by decide)⟩
      · exact ⟨Or.inr (Or.inl rfl), hi _ (by decide)⟩
  · intro g hg
    simp only [sampleCase, List.mem_singleton] at hg
    subst hg
    refine ⟨⟨by decide, by decide⟩, by simp, ?_⟩
    intro n hn
    simp only [List.mem_cons, List.not_mem_nil, or_false] at hn
    rcases hn with rfl | rfl | rfl | rfl | rfl | rfl | rfl | rfl | rfl <;> exact ⟨by decide, by decide⟩

/-- The theorem holds for it; a group of nine is broken over two lines. -/
example : ∃ lines, writeSection (sampleCase [sampleAnalysis, { sampleAnalysis with id := 4, loads := [(.load, 11), (.dload, 12)] }]) = .ok lines ∧
    ∀ rest, ∃ d, readSection gnu (lines ++ rest) = .ok d ∧ d.sets = [(7, .list [1, 2, 3, 4, 5, 6, 7, 8, 9])] ∧ d.analyses.length = 2 := by
  obtain ⟨lines, h, h'⟩ := C100_read_back_partial gnu rfl (fun _ => rfl) _ sample_plain
  refine ⟨lines, h, fun rest => ?_⟩
  obtain ⟨d, h1, h2, h3, _⟩ := h' rest
  exact ⟨d, h1, h2, h3⟩

end Case
end Vega
