import Verif.Element.Numbers
import Verif.Mesh.SetGroupsProps

/-! # C162: a property applies to the elements that refer to it -/
namespace Vega.NumbersSpec
open Numbers

/-! ## Specification -/

/-- The number of a set, if the card is one. -/
def setNumber : Card → Option Int
  | .elements n _ => some n
  | .nodes n => some n
  | .list n => some n
  | _ => none

/-- The number of a set of elements or of nodes, if the card is one. -/
def groupNumber : Card → Option Int
  | .elements n _ => some n
  | .nodes n => some n
  | _ => none

/-- No two sets have the same number. -/
def SetsDiffer (cs : List Card) : Prop := (cs.filterMap setNumber).Nodup

/-- No set of elements or of nodes has the number of a property. In Nastran they are numbered independently. -/
def Separate (cs : List Card) : Prop :=
  ∀ n ∈ cs.filterMap groupNumber, Card.property n ∉ cs ∧ ∀ i, Card.element i n ∉ cs

/-- The properties are those of the file, and each applies to exactly the elements that refer to it. -/
structure Assigned (s : State) (cs : List Card) : Prop where
  all : ∀ p, Card.property p ∈ cs → ∃ n, (p, n) ∈ s.properties
  cells : ∀ p n, (p, n) ∈ s.properties → Card.property p ∈ cs ∧
    ∃ l, s.cells n = some l ∧ ∀ i, i ∈ l ↔ Card.element i p ∈ cs

/-! ## Lemmas -/

theorem name_cons (m : Made) (i : Int) : ∃ c t, name m i = c :: t ∧
    (m = .prop ↔ c = 'P') ∧ (m = .vega ↔ c = 'C') ∧ (m = .set3 ↔ c = 'S') := by
  cases m
  · exact ⟨'P', "ROP_".toList ++ SetGroups.intText i, rfl, by decide, by decide, by decide⟩
  · exact ⟨'C', "GVEGA_".toList ++ SetGroups.intText i, rfl, by decide, by decide, by decide⟩
  · exact ⟨'S', "ET3_".toList ++ SetGroups.intText i, rfl, by decide, by decide, by decide⟩

theorem name_inj {m m' : Made} {i i' : Int} (h : name m i = name m' i') : i = i' := by
  have e : m = m' := by
    obtain ⟨c, t, e1, p1, p2, p3⟩ := name_cons m i
    obtain ⟨c', t', e1', p1', p2', p3'⟩ := name_cons m' i'
    rw [e1, e1', List.cons.injEq] at h
    cases m
    · exact (p1'.mpr (h.1 ▸ p1.mp rfl)).symm
    · exact (p2'.mpr (h.1 ▸ p2.mp rfl)).symm
    · exact (p3'.mpr (h.1 ▸ p3.mp rfl)).symm
  subst e
  unfold name at h
  split at h
  · exact SetGroupsSpec.intText_inj (List.append_cancel_left h)
  · exact SetGroupsSpec.intText_inj (List.append_cancel_left h)
  · exact SetGroupsSpec.intText_inj (List.append_cancel_left h)

/-- What holds after the cards `done`. -/
structure Inv (s : State) (done : List Card) : Prop where
  named : ∀ n i, s.byName.find n = some i → ∃ m, n = name m i ∧ ∃ g, s.byId.find i = some g
  back : ∀ i g, s.byId.find i = some g → s.byName.find g.name = some i
  kind : ∀ i g, s.byId.find i = some g → i ∈ done.filterMap groupNumber ∨
    (g.isCell = true ∧ (Card.property i ∈ done ∨ ∃ x, Card.element x i ∈ done) ∧ ∀ x, x ∈ g.cells ↔ Card.element x i ∈ done)
  there : ∀ i, (Card.property i ∈ done ∨ ∃ x, Card.element x i ∈ done) → ∃ g, s.byId.find i = some g
  props : ∀ p n, (p, n) ∈ s.properties → Card.property p ∈ done ∧ s.byName.find n = some p
  all : ∀ p, Card.property p ∈ done → ∃ n, (p, n) ∈ s.properties
  values : ∀ n, n ∈ s.values ↔ n ∈ done.filterMap setNumber

theorem inv_empty : Inv .empty [] := by
  constructor <;> simp [State.empty]

/-- A group that is created. -/
theorem create_ok {s : State} {done : List Card} (h : Inv s done) (m : Made) (i : Int) (b : Bool) (hi : s.byId.find i = none) :
    create s (name m i) i b =
      .ok { s with byName := s.byName.set (name m i) i, byId := s.byId.set i ⟨name m i, b, []⟩ } := by
  have hn : s.byName.find (name m i) = none := by
    cases e : s.byName.find (name m i) with
    | none => rfl
    | some j =>
      obtain ⟨m', e1, g, e2⟩ := h.named _ _ e
      rw [name_inj e1, e2] at hi
      cases hi
  unfold create
  rw [hn, hi]

/-- The numbers and names after the creation. -/
theorem create_named {s : State} {done : List Card} (h : Inv s done) (m : Made) (i : Int) (b : Bool) :
    (∀ n j, (s.byName.set (name m i) i).find n = some j →
      ∃ m', n = name m' j ∧ ∃ g, (s.byId.set i ⟨name m i, b, []⟩).find j = some g) ∧
    (∀ j g, (s.byId.set i ⟨name m i, b, []⟩).find j = some g → (s.byName.set (name m i) i).find g.name = some j) := by
  constructor
  · intro n j e
    rw [Map.find_set] at e
    split at e
    · rename_i hn
      cases e
      exact ⟨m, hn.symm, _, Map.find_set_self _ _ _⟩
    · obtain ⟨m', e1, g, e2⟩ := h.named n j e
      refine ⟨m', e1, ?_⟩
      by_cases hj : i = j
      · subst hj
        exact ⟨_, Map.find_set_self _ _ _⟩
      · exact ⟨g, by rw [Map.find_set_ne _ _ hj, e2]⟩
  · intro j g e
    rw [Map.find_set] at e
    split at e
    · rename_i hj
      cases e
      subst hj
      exact Map.find_set_self _ _ _
    · have e1 := h.back j g e
      rw [Map.find_set]
      split
      · rename_i hn
        obtain ⟨m', e2, _⟩ := h.named g.name j e1
        rw [← hn] at e2
        rw [name_inj e2]
      · exact e1

/-- A group for a property: it is there afterwards, a group of cells with the elements there were. -/
theorem groupFor_spec {s : State} {done : List Card} (h : Inv s done) (m : Made) (i : Int)
    (hi : i ∉ done.filterMap groupNumber) :
    ∃ s' g, groupFor s m i = .ok s' ∧ s'.byId.find i = some g ∧ g.isCell = true ∧ (∀ x, x ∈ g.cells ↔ Card.element x i ∈ done) ∧
      s'.mesh = s.mesh ∧ s'.properties = s.properties ∧ s'.values = s.values ∧ (∀ j, j ≠ i → s'.byId.find j = s.byId.find j) ∧
      (∀ n j, s.byName.find n = some j → s'.byName.find n = some j) ∧
      (∀ n j, s'.byName.find n = some j → ∃ m', n = name m' j ∧ ∃ g, s'.byId.find j = some g) ∧
      (∀ j g, s'.byId.find j = some g → s'.byName.find g.name = some j) := by
  unfold groupFor
  cases e : s.byId.find i with
  | some g =>
    rcases h.kind i g e with k | ⟨k1, k2, k3⟩
    · exact absurd k hi
    · simp only [k1, if_true]
      exact ⟨s, g, rfl, e, k1, k3, rfl, rfl, rfl, fun _ _ => rfl, fun _ _ x => x, h.named, h.back⟩
  | none =>
    simp only
    rw [create_ok h m i true e]
    obtain ⟨k1, k2⟩ := create_named h m i true
    refine ⟨_, _, rfl, Map.find_set_self _ _ _, rfl, ?_, rfl, rfl, rfl, fun j hj => Map.find_set_ne _ _ (Ne.symm hj), ?_, k1, k2⟩
    · intro x
      constructor
      · intro hx
        cases hx
      · intro hx
        obtain ⟨g, hg⟩ := h.there i (.inr ⟨x, hx⟩)
        rw [e] at hg
        cases hg
    · intro n j hn
      rw [Map.find_set]
      split
      · rename_i hn'
        obtain ⟨m', e2, g, e3⟩ := h.named n j hn
        rw [← hn'] at e2
        rw [name_inj e2]
      · exact hn

/-- Cells added to a group change this group only, and not its name or kind. -/
theorem addCells_spec (i : Int) : ∀ (cs : List Int) (s : State) (g : Group), s.byId.find i = some g →
    ∃ s' g', addCells s i cs = .ok s' ∧ s'.byId.find i = some g' ∧ g'.name = g.name ∧ g'.isCell = g.isCell ∧
      s'.mesh = s.mesh ∧ s'.properties = s.properties ∧ s'.byName = s.byName ∧ s'.values = s.values ∧ (∀ j, j ≠ i → s'.byId.find j = s.byId.find j) ∧
      ∀ x, x ∈ g'.cells ↔ x ∈ g.cells ∨ (x ∈ cs ∧ x ∈ s.mesh)
  | [], s, g, h => ⟨s, g, rfl, h, rfl, rfl, rfl, rfl, rfl, rfl, fun _ _ => rfl, by simp⟩
  | c :: cs, s, g, h => by
    have e1 : addCell s i c = .ok { s with byId := s.byId.set i { g with cells := if c ∈ s.mesh ∧ c ∉ g.cells then c :: g.cells else g.cells } } := by
      unfold addCell
      rw [h]
    obtain ⟨s', g', a1, a2, a3, a4, a5, a6, a7, av, a8, a9⟩ := addCells_spec i cs
      { s with byId := s.byId.set i { g with cells := if c ∈ s.mesh ∧ c ∉ g.cells then c :: g.cells else g.cells } } _
      (Map.find_set_self _ _ _)
    refine ⟨s', g', by simp only [addCells, e1, Outcome.bind_ok]; exact a1, a2, a3, a4, a5, a6, a7, av, ?_, ?_⟩
    · intro j hj
      rw [a8 j hj]
      exact Map.find_set_ne _ _ (Ne.symm hj)
    · intro x
      rw [a9]
      simp only [List.mem_cons]
      split
      · rename_i hc
        simp only [List.mem_cons]
        constructor
        · rintro ((rfl | hx) | hx)
          · exact .inr ⟨.inl rfl, hc.1⟩
          · exact .inl hx
          · exact .inr ⟨.inr hx.1, hx.2⟩
        · rintro (hx | ⟨rfl | hx, hm⟩)
          · exact .inl (.inr hx)
          · exact .inl (.inl rfl)
          · exact .inr ⟨hx, hm⟩
      · rename_i hc
        constructor
        · rintro (hx | hx)
          · exact .inl hx
          · exact .inr ⟨.inr hx.1, hx.2⟩
        · rintro (hx | ⟨rfl | hx, hm⟩)
          · exact .inl hx
          · by_cases hg : x ∈ g.cells
            · exact .inl hg
            · exact absurd ⟨hm, hg⟩ hc
          · exact .inr ⟨hx, hm⟩

theorem group_is_set {cs : List Card} {n : Int} (h : n ∈ cs.filterMap groupNumber) : n ∈ cs.filterMap setNumber := by
  obtain ⟨c, hc, e⟩ := List.mem_filterMap.mp h
  refine List.mem_filterMap.mpr ⟨c, hc, ?_⟩
  cases c <;> first | exact e | cases e

/-- A set with a number that nothing has. -/
theorem set_spec {s : State} {done : List Card} (h : Inv s done) (n : Int) (b : Bool) (ids : List Int) (c : Card)
    (hc : setNumber c = some n) (hc' : groupNumber c = some n) (hnew : n ∉ done.filterMap setNumber)
    (hno : Card.property n ∉ done ∧ ∀ i, Card.element i n ∉ done)
    (hstep : s.byId.find n = none →
      step s c = (create s (name .set3 n) n b).bind fun s => (addCells s n ids).bind fun s => addValue s n) :
    ∃ s', step s c = .ok s' ∧ Inv s' (done ++ [c]) := by
  have hnone : s.byId.find n = none := by
    cases e : s.byId.find n with
    | none => rfl
    | some g =>
      rcases h.kind n g e with k | ⟨_, k | ⟨x, k⟩, _⟩
      · exact absurd (group_is_set k) hnew
      · exact absurd k hno.1
      · exact absurd k (hno.2 x)
  obtain ⟨k1, k2⟩ := create_named h .set3 n b
  obtain ⟨s', g', a1, a2, a3, a4, a5, a6, a7, av, a8, a9⟩ := addCells_spec n ids
    { s with byName := s.byName.set (name .set3 n) n, byId := s.byId.set n ⟨name .set3 n, b, []⟩ } _ (Map.find_set_self _ _ _)
  have hmem : ∀ d : Card, setNumber d = none → (d ∈ done ++ [c] ↔ d ∈ done) := by
    intro d hd
    simp only [List.mem_append, List.mem_singleton, or_iff_left_iff_imp]
    rintro rfl
    rw [hd] at hc
    cases hc
  have hfm : (done ++ [c]).filterMap groupNumber = done.filterMap groupNumber ++ [n] := by simp [hc']
  have hval : n ∉ s'.values := by
    rw [av]
    exact fun k => hnew ((h.values n).mp k)
  refine ⟨{ s' with values := n :: s'.values }, ?_, ?_, ?_, ?_, ?_, ?_, ?_, ?_⟩
  · rw [hstep hnone, create_ok h .set3 n b hnone]
    simp only [Outcome.bind]
    rw [a1]
    simp only [addValue, if_neg hval]
  · intro m j e
    rw [a7] at e
    obtain ⟨m', e1, g, e2⟩ := k1 m j e
    refine ⟨m', e1, ?_⟩
    by_cases hj : j = n
    · subst hj
      exact ⟨g', a2⟩
    · exact ⟨g, by rw [a8 j hj]; exact e2⟩
  · intro j g e
    rw [a7]
    by_cases hj : j = n
    · subst hj
      rw [a2] at e
      cases e
      rw [a3]
      exact Map.find_set_self _ _ _
    · rw [a8 j hj] at e
      exact k2 j g e
  · intro j g e
    rw [hfm]
    by_cases hj : j = n
    · subst hj
      exact .inl (by simp)
    · rw [a8 j hj] at e
      simp only at e
      rw [Map.find_set_ne _ _ (Ne.symm hj)] at e
      rcases h.kind j g e with k | ⟨b1, b2, b3⟩
      · exact .inl (List.mem_append_left _ k)
      · refine .inr ⟨b1, ?_, fun x => (b3 x).trans (hmem _ rfl).symm⟩
        rcases b2 with b2 | ⟨x, b2⟩
        · exact .inl ((hmem _ rfl).mpr b2)
        · exact .inr ⟨x, (hmem _ rfl).mpr b2⟩
  · intro i hi
    have hi' : Card.property i ∈ done ∨ ∃ x, Card.element x i ∈ done := by
      rcases hi with hi | ⟨x, hi⟩
      · exact .inl ((hmem _ rfl).mp hi)
      · exact .inr ⟨x, (hmem _ rfl).mp hi⟩
    obtain ⟨g, hg⟩ := h.there i hi'
    by_cases hj : i = n
    · subst hj
      exact ⟨g', a2⟩
    · refine ⟨g, ?_⟩
      rw [a8 i hj]
      simp only
      rw [Map.find_set_ne _ _ (Ne.symm hj)]
      exact hg
  · intro p m hp
    rw [a6] at hp
    obtain ⟨b1, b2⟩ := h.props p m hp
    refine ⟨(hmem _ rfl).mpr b1, ?_⟩
    rw [a7]
    simp only
    rw [Map.find_set]
    split
    · rename_i hn
      obtain ⟨m', e1, _⟩ := h.named m p b2
      rw [← hn] at e1
      rw [name_inj e1]
    · exact b2
  · intro p hp
    obtain ⟨m, hm⟩ := h.all p ((hmem _ rfl).mp hp)
    exact ⟨m, by simp only; rw [a6]; exact hm⟩
  · intro m
    have e1 := h.values m
    have e2 : (done ++ [c]).filterMap setNumber = done.filterMap setNumber ++ [n] := by simp [hc]
    rw [e2, List.mem_append, ← e1, List.mem_cons, av, List.mem_singleton]
    exact Or.comm

/-- An element. -/
theorem element_spec {s : State} {done : List Card} (h : Inv s done) (x p : Int) (hp : p ∉ done.filterMap groupNumber) :
    ∃ s', step s (.element x p) = .ok s' ∧ Inv s' (done ++ [.element x p]) := by
  have h0 : Inv { s with mesh := x :: s.mesh } done := ⟨h.named, h.back, h.kind, h.there, h.props, h.all, h.values⟩
  obtain ⟨s1, g, b1, b2, b3, b4, b5, b6, bv, b7, b8, b9, b10⟩ := groupFor_spec h0 .prop p hp
  obtain ⟨s', g', a1, a2, a3, a4, a5, a6, a7, av, a8, a9⟩ := addCells_spec p [x] s1 g b2
  have hfm : (done ++ [Card.element x p]).filterMap groupNumber = done.filterMap groupNumber := by simp [groupNumber]
  have hm : x ∈ s1.mesh := by rw [b5]; simp
  refine ⟨s', ?_, ?_, ?_, ?_, ?_, ?_, ?_, ?_⟩
  · simp only [step, b1, Outcome.bind_ok]
    rw [← a1]
    simp only [addCells]
    cases addCell s1 p x <;> rfl
  · intro n j e
    rw [a7] at e
    obtain ⟨m', e1, g2, e2⟩ := b9 n j e
    refine ⟨m', e1, ?_⟩
    by_cases hj : j = p
    · subst hj
      exact ⟨g', a2⟩
    · exact ⟨g2, by rw [a8 j hj]; exact e2⟩
  · intro j g2 e
    rw [a7]
    by_cases hj : j = p
    · subst hj
      rw [a2] at e
      cases e
      rw [a3]
      exact b10 _ _ b2
    · rw [a8 j hj] at e
      exact b10 j g2 e
  · intro j g2 e
    rw [hfm]
    by_cases hj : j = p
    · subst hj
      rw [a2] at e
      cases e
      refine .inr ⟨a4.trans b3, .inr ⟨x, by simp⟩, fun y => ?_⟩
      rw [a9, b4]
      simp only [List.mem_singleton, List.mem_append, Card.element.injEq, and_true]
      constructor
      · rintro (k | ⟨k, _⟩)
        · exact .inl k
        · exact .inr k
      · rintro (k | k)
        · exact .inl k
        · exact .inr ⟨k, k ▸ hm⟩
    · rw [a8 j hj, b7 j hj] at e
      rcases h.kind j g2 e with k | ⟨c1, c2, c3⟩
      · exact .inl k
      · refine .inr ⟨c1, ?_, fun y => ?_⟩
        · rcases c2 with c2 | ⟨y, c2⟩
          · exact .inl (List.mem_append_left _ c2)
          · exact .inr ⟨y, List.mem_append_left _ c2⟩
        · rw [c3]
          simp [hj]
  · intro i hi
    by_cases hj : i = p
    · subst hj
      exact ⟨g', a2⟩
    · have hi' : Card.property i ∈ done ∨ ∃ y, Card.element y i ∈ done := by
        simpa [hj] using hi
      obtain ⟨g2, hg⟩ := h.there i hi'
      exact ⟨g2, by rw [a8 i hj, b7 i hj]; exact hg⟩
  · intro q n hq
    rw [a6, b6] at hq
    obtain ⟨c1, c2⟩ := h.props q n hq
    exact ⟨List.mem_append_left _ c1, by rw [a7]; exact b8 n q c2⟩
  · intro q hq
    obtain ⟨n, hn⟩ := h.all q (by simpa using hq)
    exact ⟨n, by rw [a6, b6]; exact hn⟩
  · intro n
    rw [av, bv, h.values n]
    simp [setNumber]

/-- A property. -/
theorem property_spec {s : State} {done : List Card} (h : Inv s done) (p : Int) (hp : p ∉ done.filterMap groupNumber) :
    ∃ s', step s (.property p) = .ok s' ∧ Inv s' (done ++ [.property p]) := by
  obtain ⟨s1, g, b1, b2, b3, b4, b5, b6, bv, b7, b8, b9, b10⟩ := groupFor_spec h .vega p hp
  have hfm : (done ++ [Card.property p]).filterMap groupNumber = done.filterMap groupNumber := by simp [groupNumber]
  refine ⟨{ s1 with properties := s1.properties ++ [(p, g.name)] }, ?_, b9, b10, ?_, ?_, ?_, ?_, ?_⟩
  · simp only [step, b1, Outcome.bind_ok, b2]
  · intro j g2 e
    rw [hfm]
    by_cases hj : j = p
    · subst hj
      simp only at e
      rw [b2] at e
      cases e
      refine .inr ⟨b3, .inl (by simp), fun y => ?_⟩
      rw [b4]
      simp
    · simp only at e
      rw [b7 j hj] at e
      rcases h.kind j g2 e with k | ⟨c1, c2, c3⟩
      · exact .inl k
      · refine .inr ⟨c1, ?_, fun y => ?_⟩
        · rcases c2 with c2 | ⟨y, c2⟩
          · exact .inl (List.mem_append_left _ c2)
          · exact .inr ⟨y, List.mem_append_left _ c2⟩
        · rw [c3]
          simp
  · intro i hi
    by_cases hj : i = p
    · subst hj
      exact ⟨g, b2⟩
    · have hi' : Card.property i ∈ done ∨ ∃ y, Card.element y i ∈ done := by
        simpa [hj] using hi
      obtain ⟨g2, hg⟩ := h.there i hi'
      exact ⟨g2, by simp only; rw [b7 i hj]; exact hg⟩
  · intro q n hq
    rcases List.mem_append.mp hq with hq | hq
    · rw [b6] at hq
      obtain ⟨c1, c2⟩ := h.props q n hq
      exact ⟨List.mem_append_left _ c1, b8 n q c2⟩
    · rw [List.mem_singleton, Prod.mk.injEq] at hq
      obtain ⟨rfl, rfl⟩ := hq
      exact ⟨by simp, b10 _ _ b2⟩
  · intro q hq
    rcases List.mem_append.mp hq with hq | hq
    · obtain ⟨n, hn⟩ := h.all q hq
      exact ⟨n, by simp only; rw [b6]; exact List.mem_append_left _ hn⟩
    · rw [List.mem_singleton, Card.property.injEq] at hq
      subst hq
      exact ⟨g.name, by simp⟩
  · intro n
    simp only
    rw [bv, h.values n]
    simp [setNumber]

/-- A set without a group. -/
theorem list_spec {s : State} {done : List Card} (h : Inv s done) (n : Int) (hnew : n ∉ done.filterMap setNumber) :
    ∃ s', step s (.list n) = .ok s' ∧ Inv s' (done ++ [.list n]) := by
  have hval : n ∉ s.values := fun k => hnew ((h.values n).mp k)
  have hfm : (done ++ [Card.list n]).filterMap groupNumber = done.filterMap groupNumber := by simp [groupNumber]
  refine ⟨{ s with values := n :: s.values }, by simp only [step, addValue, if_neg hval], h.named, h.back, ?_, ?_, ?_, ?_, ?_⟩
  · intro i g e
    rw [hfm]
    simpa using h.kind i g e
  · intro i hi
    exact h.there i (by simpa using hi)
  · intro p m hp
    obtain ⟨c1, c2⟩ := h.props p m hp
    exact ⟨List.mem_append_left _ c1, c2⟩
  · intro p hp
    exact h.all p (by simpa using hp)
  · intro m
    have e1 := h.values m
    have e2 : (done ++ [Card.list n]).filterMap setNumber = done.filterMap setNumber ++ [n] := by simp [setNumber]
    rw [e2, List.mem_append, ← e1, List.mem_cons, List.mem_singleton]
    exact Or.comm

/-- The rest of the cards. -/
theorem run_spec : ∀ (cs done : List Card) (s : State), Inv s done → SetsDiffer (done ++ cs) → Separate (done ++ cs) →
    ∃ s', run s cs = .ok s' ∧ Inv s' (done ++ cs)
  | [], done, s, h, _, _ => ⟨s, rfl, by simpa using h⟩
  | c :: cs, done, s, h, hd, hs => by
    have hin : ∀ d ∈ done, d ∈ done ++ c :: cs := fun d k => List.mem_append_left _ k
    have hc : c ∈ done ++ c :: cs := by simp
    have hsets : ∀ n ∈ done.filterMap groupNumber, n ∈ (done ++ c :: cs).filterMap groupNumber := by
      intro n hn
      rw [List.filterMap_append]
      exact List.mem_append_left _ hn
    have key : ∃ s', step s c = .ok s' ∧ Inv s' (done ++ [c]) := by
      have hset : ∀ n, setNumber c = some n → n ∉ done.filterMap setNumber := by
        intro n hn k
        unfold SetsDiffer at hd
        rw [List.filterMap_append, List.filterMap_cons_some hn] at hd
        exact (List.disjoint_of_nodup_append hd) k (by simp)
      have hgroup : ∀ n, groupNumber c = some n → Card.property n ∉ done ∧ ∀ i, Card.element i n ∉ done := by
        intro n hn
        have hmem : n ∈ (done ++ c :: cs).filterMap groupNumber := List.mem_filterMap.mpr ⟨c, hc, hn⟩
        exact ⟨fun k => (hs n hmem).1 (hin _ k), fun i k => (hs n hmem).2 i (hin _ k)⟩
      cases c with
      | element x p =>
        exact element_spec h x p fun k => (hs p (hsets p k)).2 x hc
      | property p => exact property_spec h p fun k => (hs p (hsets p k)).1 hc
      | elements n ids => exact set_spec h n true ids _ rfl rfl (hset n rfl) (hgroup n rfl) fun _ => rfl
      | nodes n =>
        refine set_spec h n false [] _ rfl rfl (hset n rfl) (hgroup n rfl) fun hnone => ?_
        have hn : s.byName.find (name .set3 n) = none := by
          cases e : s.byName.find (name .set3 n) with
          | none => rfl
          | some j =>
            obtain ⟨m', e1, g, e2⟩ := h.named _ _ e
            rw [name_inj e1, e2] at hnone
            cases hnone
        simp only [step, nodeGroup, hn, addCells]
        cases create s (name .set3 n) n false <;> rfl
      | list n => exact list_spec h n (hset n rfl)
    obtain ⟨s1, a, b⟩ := key
    have e : done ++ c :: cs = (done ++ [c]) ++ cs := by simp
    rw [e] at hd hs ⊢
    obtain ⟨s', a', b'⟩ := run_spec cs (done ++ [c]) s1 b hd hs
    exact ⟨s', by simp only [run, a, Outcome.bind_ok]; exact a', b'⟩

/-! ## Properties -/

/-- **C162.** In whatever order the cards come, when no set has the number of a property and no two sets the same number, the file is
read and each property applies to exactly the elements that refer to it. Missing: sets with the number of a property, for which this
is false. -/
theorem C162_partial (cs : List Card) (hd : SetsDiffer cs) (hs : Separate cs) :
    ∃ s, run .empty cs = .ok s ∧ Assigned s cs := by
  obtain ⟨s, h1, h2⟩ := run_spec cs [] .empty inv_empty hd hs
  refine ⟨s, h1, h2.all, fun p n hp => ?_⟩
  obtain ⟨a, b⟩ := h2.props p n hp
  obtain ⟨g, hg⟩ := h2.there p (.inl a)
  refine ⟨a, g.cells, by simp [State.cells, b, hg], ?_⟩
  rcases h2.kind p g hg with k | ⟨_, _, k⟩
  · exact absurd a (hs p k).1
  · exact k

/-- Elements before and after their properties, and sets. -/
def mixed : List Card :=
  [.property 4, .element 1 7, .nodes 2, .list 7, .element 2 4, .elements 5 [1, 2], .property 7, .element 3 7]

example : SetsDiffer mixed ∧ Separate mixed ∧ ∃ s, run .empty mixed = .ok s ∧
    s.properties.map (fun p => (p.1, s.cells p.2)) = [(4, some [2]), (7, some [3, 1])] := by
  unfold SetsDiffer Separate
  refine ⟨by decide, ?_, _, rfl, by decide +kernel⟩
  intro n hn
  have : 2 = n ∨ 5 = n := by simpa [mixed, groupNumber] using hn
  rcases this with rfl | rfl <;> exact ⟨by decide, fun i => by simp [mixed]⟩

/-- C162 is false when a set of elements has the number of a property: the property that comes after it applies to the elements of
the set, in whatever state the file was read up to there. -/
theorem C162_set_false (s : State) (n : Int) (ids : List Int) (s1 : State) (h : step s (.elements n ids) = .ok s1) :
    ∃ s2 g, step s1 (.property n) = .ok s2 ∧ (n, g) ∈ s2.properties ∧
      ∀ i ∈ ids, i ∈ s.mesh → ∃ l, s2.cells g = some l ∧ i ∈ l := by
  simp only [step] at h
  unfold create at h
  split at h
  · rename_i e1 e2
    simp only [Outcome.bind_ok] at h
    obtain ⟨s', g', a1, a2, a3, a4, a5, a6, a7, av, a8, a9⟩ := addCells_spec n ids
      { s with byName := s.byName.set (name .set3 n) n, byId := s.byId.set n ⟨name .set3 n, true, []⟩ } _ (Map.find_set_self _ _ _)
    rw [a1] at h
    simp only [Outcome.bind_ok, addValue] at h
    split at h
    · cases h
    cases h
    simp only [step, groupFor, a2, a4, if_true, Outcome.bind_ok]
    refine ⟨_, g'.name, rfl, by simp, fun i hi hm => ⟨g'.cells, ?_, (a9 i).mpr (.inr ⟨hi, hm⟩)⟩⟩
    simp only [State.cells, a7, a3]
    rw [Map.find_set_self]
    simp [a2]
  · cases h

/-- An element with the property 7 in the set 5: the property 5 applies to it. -/
def confused : List Card := [.element 1 7, .elements 5 [1], .element 2 5, .property 5, .property 7]

theorem C162_confused_false : ∃ s, run .empty confused = .ok s ∧ ¬ Assigned s confused ∧
    s.properties.map (fun p => (p.1, s.cells p.2)) = [(5, some [2, 1]), (7, some [1])] := by
  refine ⟨_, rfl, fun h => ?_, by decide +kernel⟩
  obtain ⟨_, l, h1, h2⟩ := h.cells 5 (name .set3 5) (by decide +kernel)
  have : l = [2, 1] := Option.some.inj (h1.symm.trans (by decide +kernel))
  subst this
  exact absurd ((h2 1).mp (by decide)) (by decide)

/-- C162: a file in which a set, of elements or of nodes, comes after an element whose property has its number is refused. For
a set of nodes, no other set had that number before. -/
theorem C162_refused_false (s : State) (x n : Int) (s1 : State) (h : step s (.element x n) = .ok s1) (c : Card)
    (hc : groupNumber c = some n) (hn : c = .nodes n → s1.byName.find (name .set3 n) = none) : step s1 c = .throw := by
  have key : ∃ g, s1.byId.find n = some g := by
    simp only [step] at h
    cases e : groupFor { s with mesh := x :: s.mesh } .prop n with
    | throw => rw [e] at h; cases h
    | ub => rw [e] at h; cases h
    | diverges => rw [e] at h; cases h
    | ok s2 =>
    rw [e] at h
    simp only [Outcome.bind_ok] at h
    have h2 := h
    unfold addCell at h2
    split at h2
    · cases h2
    · cases h2
      exact ⟨_, Map.find_set_self _ _ _⟩
  obtain ⟨g, hg⟩ := key
  have hcr : ∀ m b, create s1 m n b = .throw := by
    intro m b
    unfold create
    rw [hg]
    cases s1.byName.find m <;> rfl
  cases c with
  | element a b => cases hc
  | property a => cases hc
  | elements a ids =>
    cases hc
    simp only [step, hcr]
    rfl
  | nodes a =>
    cases hc
    simp only [step, nodeGroup, hn rfl, hcr]
    rfl
  | list a => cases hc

/-- C162: an element, or a property, whose number a set of nodes has is refused. -/
theorem C162_nodes_false (s : State) (n : Int) (s1 : State) (hn : s.byName.find (name .set3 n) = none)
    (h : step s (.nodes n) = .ok s1) :
    step s1 (.property n) = .throw ∧ ∀ x, step s1 (.element x n) = .throw := by
  have key : s1.byId.find n = some ⟨name .set3 n, false, []⟩ := by
    simp only [step, nodeGroup, hn] at h
    unfold create at h
    split at h
    · simp only [Outcome.bind_ok, addValue] at h
      split at h
      · cases h
      · cases h
        exact Map.find_set_self _ _ _
    · cases h
  have hcr : ∀ s' : State, s'.byId = s1.byId → ∀ m b, create s' m n b = .throw := by
    intro s' e m b
    unfold create
    rw [e, key]
    cases s'.byName.find m <;> rfl
  refine ⟨?_, fun x => ?_⟩
  · simp only [step, groupFor, key, Bool.false_eq_true, if_false, hcr s1 rfl]
    rfl
  · simp only [step, groupFor, key, Bool.false_eq_true, if_false]
    rw [hcr { s1 with mesh := x :: s1.mesh } rfl]
    rfl

/-- C162: a set that is only a list of numbers, as the sets of the case control, prevents any `SET3` with its number, of elements or of
nodes, although the two are numbered apart. -/
theorem C162_list_false (s : State) (n : Int) (s1 : State) (h : step s (.list n) = .ok s1) (c : Card) (hc : groupNumber c = some n)
    (s2 : State) : step s1 c ≠ .ok s2 := by
  have hv : n ∈ s1.values := by
    simp only [step, addValue] at h
    split at h
    · cases h
    · cases h
      simp
  have hcr : ∀ m b s', create s1 m n b = .ok s' → s'.values = s1.values ∧ ∃ g, s'.byId.find n = some g := by
    intro m b s' e
    unfold create at e
    split at e
    · cases e
      exact ⟨rfl, _, Map.find_set_self _ _ _⟩
    · cases e
  intro e
  cases c with
  | element a b => cases hc
  | property a => cases hc
  | list a => cases hc
  | elements a ids =>
    cases hc
    simp only [step] at e
    cases e1 : create s1 (name .set3 n) n true with
    | throw => rw [e1] at e; cases e
    | ub => rw [e1] at e; cases e
    | diverges => rw [e1] at e; cases e
    | ok s' =>
    obtain ⟨v, g, hg⟩ := hcr _ _ _ e1
    obtain ⟨s'', g', a1, a2, a3, a4, a5, a6, a7, av, a8, a9⟩ := addCells_spec n ids s' g hg
    rw [e1, Outcome.bind_ok, a1, Outcome.bind_ok, addValue, if_pos (by rw [av, v]; exact hv)] at e
    cases e
  | nodes a =>
    cases hc
    simp only [step] at e
    have hng : ∀ s', nodeGroup s1 n = .ok s' → s'.values = s1.values := by
      intro s' e1
      unfold nodeGroup at e1
      split at e1
      · exact (hcr _ _ _ e1).1
      · split at e1
        · cases e1
        · split at e1
          · exact (hcr _ _ _ e1).1
          · cases e1
            rfl
    cases e1 : nodeGroup s1 n with
    | throw => rw [e1] at e; cases e
    | ub => rw [e1] at e; cases e
    | diverges => rw [e1] at e; cases e
    | ok s' =>
    rw [e1, Outcome.bind_ok, addValue, if_pos (by rw [hng _ e1]; exact hv)] at e
    cases e

example : run .empty [.list 5, .element 1 7, .elements 5 [1]] = .throw := rfl

/-- Such states are reached. -/
example : (∃ s1, step .empty (.elements 5 [1]) = .ok s1) ∧ (∃ s1, step .empty (.element 1 5) = .ok s1 ∧
    s1.byName.find (name .set3 5) = none) ∧ (∃ s1, step .empty (.nodes 5) = .ok s1) ∧ ∃ s1, step .empty (.list 5) = .ok s1 :=
  ⟨⟨_, rfl⟩, ⟨_, rfl, by decide +kernel⟩, ⟨_, rfl⟩, ⟨_, rfl⟩⟩

end Vega.NumbersSpec
