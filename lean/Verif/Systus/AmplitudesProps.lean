import Verif.Systus.Amplitudes
import Mathlib.Tactic.Ring

/-! # C157: a modal response for Systus has the amplitude that the table of its excitation gives -/
namespace Vega.AmplitudesSpec
open Amplitudes

/-! ## Specification -/

/-- The table of a loading that is an excitation by a set of the right type. -/
def tableOf : Load → Option (List (Dbl × Dbl))
  | .excitation true t => t
  | _ => none

/-- No excitation by a set of the right type lacks its table. -/
def Complete (l : LoadSet) : Prop := ∀ x ∈ l, x ≠ .excitation true none

/-- The tables of the loads of a set. -/
def tablesOf (l : LoadSet) : List (List (Dbl × Dbl)) := l.filterMap tableOf

/-- The points of a table with this number, read two values at a time. -/
def Reads (tables : List (Nat × List Dbl)) (n : Nat) (pts : List (Dbl × Dbl)) : Prop :=
  ∃ v, tables.filter (fun t => t.1 = n) = [(n, v)] ∧ v.length = 2 * pts.length ∧
    ∀ i p, pts[i]? = some p → v[2 * i]? = some p.1 ∧ v[2 * i + 1]? = some p.2

/-- The tables there were before are numbered from 1 on, in order. -/
def Numbered (tables : List (Nat × List Dbl)) : Prop := tables.map (·.1) = List.range' 1 tables.length

/-! ## Lemmas -/

theorem values_spec (pts : List (Dbl × Dbl)) : (values pts).length = 2 * pts.length ∧
    ∀ i p, pts[i]? = some p → (values pts)[2 * i]? = some p.1 ∧ (values pts)[2 * i + 1]? = some p.2 := by
  induction pts with
  | nil => simp [values]
  | cons q pts ih =>
    have e : values (q :: pts) = q.1 :: q.2 :: values pts := by simp [values]
    rw [e]
    refine ⟨by simp only [List.length_cons, ih.1]; omega, ?_⟩
    intro i p hp
    cases i with
    | zero =>
      simp only [List.getElem?_cons_zero, Option.some.injEq] at hp
      subst hp
      simp
    | succ i =>
      rw [List.getElem?_cons_succ] at hp
      have := ih.2 i p hp
      rw [show 2 * (i + 1) = 2 * i + 1 + 1 by ring, show 2 * i + 1 + 1 + 1 = (2 * i + 1) + 1 + 1 by ring]
      simpa using this

/-- The tables added for some tables of amplitudes. -/
def added (n : Nat) : List (List (Dbl × Dbl)) → List (Nat × List Dbl)
  | [] => []
  | p :: ps => (n + 1, values p) :: added (n + 1) ps

theorem added_length (n : Nat) (ps : List (List (Dbl × Dbl))) : (added n ps).length = ps.length := by
  induction ps generalizing n with
  | nil => rfl
  | cons p ps ih => simp [added, ih]

theorem added_append (n : Nat) (a b : List (List (Dbl × Dbl))) : added n (a ++ b) = added n a ++ added (n + a.length) b := by
  induction a generalizing n with
  | nil => simp [added]
  | cons p a ih => simp [added, ih, Nat.add_assoc, Nat.add_comm 1]

theorem added_numbers (n : Nat) (ps : List (List (Dbl × Dbl))) : (added n ps).map (·.1) = List.range' (n + 1) ps.length := by
  induction ps generalizing n with
  | nil => rfl
  | cons p ps ih => simp [added, ih, List.range'_succ]

theorem added_get (n : Nat) (ps : List (List (Dbl × Dbl))) (i : Nat) (p : List (Dbl × Dbl)) (h : ps[i]? = some p) :
    (added n ps)[i]? = some (n + i + 1, values p) := by
  induction ps generalizing n i with
  | nil => simp at h
  | cons q ps ih =>
    cases i with
    | zero =>
      simp only [List.getElem?_cons_zero, Option.some.injEq] at h
      subst h
      simp [added]
    | succ i =>
      rw [List.getElem?_cons_succ] at h
      simp only [added, List.getElem?_cons_succ, ih _ _ h, Option.some.injEq, Prod.mk.injEq, and_true]
      omega

theorem fillSet_spec (k : Nat) (l : LoadSet) (s : State) (h : Complete l) :
    ∃ s', fillSet k s l = .ok s' ∧ s'.tables = s.tables ++ added s.tables.length (tablesOf l) ∧
      s'.byCase = (if tablesOf l = [] then s.byCase else s'.byCase) ∧
      (tablesOf l ≠ [] → s'.byCase.find k = some (s.tables.length + (tablesOf l).length) ∧ s'.byCase ≠ []) ∧
      (∀ j, j ≠ k → s'.byCase.find j = s.byCase.find j) ∧ (s.byCase ≠ [] → s'.byCase ≠ []) := by
  induction l generalizing s with
  | nil => exact ⟨s, rfl, by simp [tablesOf, added], by simp [tablesOf], by simp [tablesOf], by simp, by simp⟩
  | cons x l ih =>
    have hl : Complete l := fun y hy => h y (by simp [hy])
    have skip : tableOf x = none → fillLoad k s x = .ok s → ∃ s', fillSet k s (x :: l) = .ok s' ∧
        s'.tables = s.tables ++ added s.tables.length (tablesOf (x :: l)) ∧
        s'.byCase = (if tablesOf (x :: l) = [] then s.byCase else s'.byCase) ∧
        (tablesOf (x :: l) ≠ [] → s'.byCase.find k = some (s.tables.length + (tablesOf (x :: l)).length) ∧ s'.byCase ≠ []) ∧
        (∀ j, j ≠ k → s'.byCase.find j = s.byCase.find j) ∧ (s.byCase ≠ [] → s'.byCase ≠ []) := by
      intro ht hf
      have e : tablesOf (x :: l) = tablesOf l := by simp [tablesOf, ht]
      rw [e]
      obtain ⟨s', h1, h2⟩ := ih s hl
      exact ⟨s', by simp only [fillSet, hf, Outcome.bind_ok, h1], h2⟩
    cases x with
    | other => exact skip rfl rfl
    | excitation b t =>
      cases b with
      | false => exact skip rfl rfl
      | true =>
        cases t with
        | none => exact absurd rfl (h _ (by simp))
        | some pts =>
          have e : tablesOf (.excitation true (some pts) :: l) = pts :: tablesOf l := by simp [tablesOf, tableOf]
          rw [e]
          obtain ⟨s', h1, h2, h3, h4, h5, h6⟩ :=
            ih ⟨s.tables ++ [(s.tables.length + 1, values pts)], s.byCase.set k (s.tables.length + 1)⟩ hl
          have hne : (s.byCase.set k (s.tables.length + 1)) ≠ [] := by
            intro he
            have := Map.find_set_self s.byCase k (s.tables.length + 1)
            rw [he] at this
            cases this
          refine ⟨s', by simp only [fillSet, fillLoad, Outcome.bind_ok, h1], ?_, by simp, ?_, ?_, fun _ => h6 hne⟩
          · rw [h2]; simp [added]
          · intro _
            refine ⟨?_, h6 hne⟩
            by_cases hl0 : tablesOf l = []
            · rw [if_pos hl0] at h3
              rw [h3, hl0]
              simp only [List.length_cons, List.length_nil, Nat.zero_add]
              exact Map.find_set_self _ _ _
            · rw [(h4 hl0).1]
              simp only [List.length_append, List.length_cons, List.length_nil, Option.some.injEq]
              omega
          · intro j hj
            rw [h5 j hj]
            exact Map.find_set_ne _ _ (fun e => hj e.symm)

theorem fillSets_spec (xs : List (Nat × LoadSet)) (s : State) (h : ∀ x ∈ xs, Complete x.2) :
    ∃ s', fillSets s xs = .ok s' ∧ s'.tables = s.tables ++ added s.tables.length (xs.flatMap fun x => tablesOf x.2) ∧
      (∀ j, (∀ x ∈ xs, x.1 = j → tablesOf x.2 = []) → (∀ x ∈ xs, x.1 ≠ j) → s'.byCase.find j = s.byCase.find j) ∧
      (s.byCase ≠ [] → s'.byCase ≠ []) := by
  induction xs generalizing s with
  | nil => exact ⟨s, rfl, by simp [added], fun _ _ _ => rfl, id⟩
  | cons x xs ih =>
    obtain ⟨s1, a1, a2, _, _, a5, a6⟩ := fillSet_spec x.1 x.2 s (h x (by simp))
    obtain ⟨s', h1, h2, h3, h4⟩ := ih s1 (fun y hy => h y (by simp [hy]))
    refine ⟨s', by simp only [fillSets, a1, Outcome.bind_ok, h1], ?_, ?_, fun hs => h4 (a6 hs)⟩
    · rw [h2, a2, List.flatMap_cons, added_append, List.length_append, added_length, List.append_assoc]
    · intro j hj hne
      rw [h3 j (fun y hy => hj y (by simp [hy])) (fun y hy => hne y (by simp [hy])), a5 j (fun e => hne x (by simp) e.symm)]

theorem casesOf_ge (n : Nat) (ls : List LoadSet) : ∀ x ∈ casesOf n ls, n ≤ x.1 := by
  induction ls generalizing n with
  | nil => simp [casesOf]
  | cons l ls ih =>
    intro x hx
    rcases List.mem_cons.mp hx with rfl | hx
    · exact le_refl _
    · exact (Nat.le_succ n).trans (ih _ x hx)

theorem cases_ge (n : Nat) (as : Analyses) : ∀ x ∈ cases n as, n ≤ x.1 := by
  induction as generalizing n with
  | nil => simp [cases]
  | cons a as ih =>
    match a with
    | none => simp [cases]
    | some [] => exact fun x hx => (Nat.le_succ n).trans (ih _ x hx)
    | some (l :: ls) =>
      intro x hx
      rcases List.mem_append.mp hx with hx | hx
      · exact casesOf_ge n _ x hx
      · exact (Nat.le_add_right _ _).trans (ih _ x hx)

/-- The load sets that have a load case. -/
def setsOf : Analyses → List LoadSet
  | [] => []
  | none :: _ => []
  | some ls :: as => ls ++ setsOf as

theorem casesOf_sets (n : Nat) (ls : List LoadSet) : (casesOf n ls).map (·.2) = ls := by
  induction ls generalizing n with
  | nil => rfl
  | cons l ls ih => simp [casesOf, ih]

theorem cases_sets (n : Nat) (as : Analyses) : (cases n as).map (·.2) = setsOf as := by
  induction as generalizing n with
  | nil => rfl
  | cons a as ih =>
    match a with
    | none => rfl
    | some [] => simp [cases, setsOf, ih]
    | some (l :: ls) => simp [cases, setsOf, casesOf_sets, ih]

theorem cases_complete {n : Nat} {as : Analyses} (h : ∀ l ∈ setsOf as, Complete l) : ∀ x ∈ cases n as, Complete x.2 :=
  fun x hx => h _ (by rw [← cases_sets n as]; exact List.mem_map_of_mem hx)

theorem flatMap_sets (n : Nat) (as : Analyses) : ((cases n as).flatMap fun x => tablesOf x.2) = (setsOf as).flatMap tablesOf := by
  rw [← cases_sets n as, List.flatMap_map]

theorem filter_number (l : List (Nat × List Dbl)) (a i : Nat) (v : List Dbl) (hn : l.map (·.1) = List.range' a l.length)
    (h : l[i]? = some (a + i, v)) : l.filter (fun t => t.1 = a + i) = [(a + i, v)] := by
  induction l generalizing a i with
  | nil => simp at h
  | cons t l ih =>
    simp only [List.map_cons, List.length_cons, List.range'_succ, List.cons.injEq] at hn
    have hge : ∀ x ∈ l, a + 1 ≤ x.1 := by
      intro x hx
      have : x.1 ∈ l.map (·.1) := List.mem_map_of_mem hx
      rw [hn.2, List.mem_range'_1] at this
      exact this.1
    cases i with
    | zero =>
      simp only [List.getElem?_cons_zero, Option.some.injEq] at h
      subst h
      rw [List.filter_cons_of_pos (by simp)]
      congr 1
      rw [List.filter_eq_nil_iff]
      intro x hx
      have := hge x hx
      simp only [decide_eq_true_eq]
      omega
    | succ i =>
      rw [List.getElem?_cons_succ, show a + (i + 1) = a + 1 + i by ring] at h
      rw [List.filter_cons_of_neg (by simp only [decide_eq_true_eq]; omega), show a + (i + 1) = a + 1 + i by ring]
      exact ih _ _ hn.2 h

/-! ## Properties -/

/-- **C157.** With the modal method each excitation by a set of the right type gets a table of its own, in order, after those there
were: all tables have different numbers, from 1 on, and the new ones hold the points of the amplitudes. -/
theorem C157_tables (tables : List (Nat × List Dbl)) (hn : Numbered tables) (as : Analyses) (h : ∀ l ∈ setsOf as, Complete l) :
    ∃ s, fillTables .modal tables as = .ok s ∧ (∃ new, s.tables = tables ++ new) ∧ Numbered s.tables ∧
      s.tables.length = tables.length + ((setsOf as).flatMap tablesOf).length ∧
      ∀ i pts, ((setsOf as).flatMap tablesOf)[i]? = some pts → Reads s.tables (tables.length + i + 1) pts := by
  obtain ⟨s, h1, h2, _, _⟩ := fillSets_spec (cases 1 as) ⟨tables, []⟩ (cases_complete h)
  rw [flatMap_sets] at h2
  have hnum : Numbered s.tables := by
    unfold Numbered at hn ⊢
    rw [h2]
    simp only [List.map_append, List.length_append, hn, added_numbers, added_length]
    rw [← List.range'_append_1]
    congr 2
    omega
  refine ⟨s, by simp only [fillTables, if_true, h1], ⟨_, h2⟩, hnum, by rw [h2]; simp [added_length], ?_⟩
  intro i pts hi
  have hget : s.tables[tables.length + i]? = some (1 + (tables.length + i), values pts) := by
    rw [h2, List.getElem?_append_right (by simp)]
    simp only [Nat.add_sub_cancel_left]
    rw [added_get _ _ i pts hi]
    simp only [Option.some.injEq, Prod.mk.injEq, and_true]
    omega
  have := filter_number s.tables 1 (tables.length + i) (values pts) hnum hget
  rw [show 1 + (tables.length + i) = tables.length + i + 1 by ring] at this
  exact ⟨_, this, values_spec pts⟩

/-- **C157.** With the modal method, a response whose first set of loads has one excitation by a set of the right type, among any other
loads, has the table of that excitation, whatever other sets and analyses there are. -/
theorem C157_modal_partial (tables : List (Nat × List Dbl)) (hn : Numbered tables) (l : LoadSet) (ls : List LoadSet) (as : Analyses)
    (h : ∀ l' ∈ setsOf (some (l :: ls) :: as), Complete l') (pts : List (Dbl × Dbl)) (hl : tablesOf l = [pts]) :
    ∃ s n, fillTables .modal tables (some (l :: ls) :: as) = .ok s ∧ writeResponse .modal s = .modal (some n) ∧ Reads s.tables n pts := by
  obtain ⟨s, h1, _, _, _, h5⟩ := C157_tables tables hn _ h
  refine ⟨s, tables.length + 1, h1, ?_, h5 0 pts (by simp [setsOf, hl])⟩
  have h1' := h1
  simp only [fillTables, if_true, cases, casesOf, List.cons_append, fillSets] at h1'
  obtain ⟨s1, a1, _, _, a4, _, _⟩ := fillSet_spec 1 l ⟨tables, []⟩ (h l (by simp [setsOf]))
  rw [a1] at h1'
  simp only [Outcome.bind_ok] at h1'
  have hne : tablesOf l ≠ [] := by simp [hl]
  obtain ⟨b1, b2⟩ := a4 hne
  have hrest : ∀ x ∈ casesOf (1 + 1) ls ++ cases (1 + (l :: ls).length) as, 1 ≠ x.1 ∧ Complete x.2 := by
    intro x hx
    have hc := cases_complete (n := 1) h x (by simp only [cases, casesOf, List.cons_append]; exact List.mem_cons_of_mem _ hx)
    rcases List.mem_append.mp hx with hx | hx
    · have := casesOf_ge _ _ x hx
      exact ⟨by omega, hc⟩
    · have := cases_ge _ _ x hx
      simp only [List.length_cons] at this
      exact ⟨by omega, hc⟩
  obtain ⟨s', c1, _, c3, c4⟩ := fillSets_spec _ s1 (fun x hx => (hrest x hx).2)
  rw [c1] at h1'
  cases h1'
  have hf := c3 1 (fun x hx e => absurd e.symm (hrest x hx).1) (fun x hx e => (hrest x hx).1 e.symm)
  rw [b1, hl] at hf
  simp only [writeResponse, functionLine, if_neg (c4 b2), hf, List.length_cons, List.length_nil, Nat.zero_add]

/-- The hypotheses of `C157_modal_partial`: a set with a force and an excitation with a table of two points, a table there was before, and
a second analysis without loads. -/
example : Numbered [(1, [5])] ∧ tablesOf [.other, .excitation true (some [(0, 1), (100, 2)])] = [[(0, 1), (100, 2)]] ∧
    ∃ s, fillTables .modal [(1, [5])] [some [[.other, .excitation true (some [(0, 1), (100, 2)])]], some []] = .ok s ∧
      writeResponse .modal s = .modal (some 2) ∧ s.tables = [(1, [5]), (2, [0, 1, 100, 2])] :=
  ⟨rfl, rfl, _, rfl, rfl, by simp [values]⟩

/-- **C157.** Without an option for the method a modal response is written as well, but without any table: whatever the excitations, no
table is added and no amplitude is written. -/
theorem C157_default_false (tables : List (Nat × List Dbl)) (as : Analyses) :
    ∃ s, fillTables defaultMethod tables as = .ok s ∧ s.tables = tables ∧ writeResponse defaultMethod s = .modal none :=
  ⟨_, rfl, rfl, rfl⟩

/-- **C157.** Of several excitations in the first set only the table of the last one is used. -/
theorem C157_several_false (p q : List (Dbl × Dbl)) :
    ∃ s, fillTables .modal [] [some [[.excitation true (some p), .excitation true (some q)]]] = .ok s ∧
      writeResponse .modal s = .modal (some 2) ∧ Reads s.tables 2 q :=
  ⟨_, rfl, rfl, values q, by simp [List.filter], values_spec q⟩

/-- **C157.** When the first set has no excitation and a later one has, the response refers to a table 0, which does not exist. -/
theorem C157_later_false (p : List (Dbl × Dbl)) :
    ∃ s, fillTables .modal [] [some [[.other], [.excitation true (some p)]]] = .ok s ∧
      writeResponse .modal s = .modal (some 0) ∧ ∀ t ∈ s.tables, t.1 ≠ 0 :=
  ⟨_, rfl, rfl, by simp⟩

/-- **C157.** An excitation whose table is missing is undefined behaviour with the modal method. -/
theorem C157_missing_false (tables : List (Nat × List Dbl)) (l : LoadSet) (ls : List LoadSet) (as : Analyses) :
    fillTables .modal tables (some ((.excitation true none :: l) :: ls) :: as) = .ub := rfl

end Vega.AmplitudesSpec
