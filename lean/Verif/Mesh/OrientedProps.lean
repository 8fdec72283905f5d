import Verif.Mesh.Oriented
import Verif.Aster.CommandNeeds
import Verif.Aster.AssignProps
import Mathlib.Data.List.Dedup
import Mathlib.Data.List.Perm.Subperm

/-! # C159: in the Code_Aster file every cell has the orientation it was given -/
namespace Vega.OrientedSpec
open OrientedCells

/-! ## Specification -/

/-- The cells have the groups of their coordinate systems: every coordinate system that is used, and no other, has a name, that of a
group with exactly its cells. Different coordinate systems have different names. -/
structure Grouped (s : State) (cells : List (Nat × Nat)) : Prop where
  used : ∀ cs, (∃ n, s.names.find cs = some n) ↔ cs ≠ 0 ∧ ∃ p, (p, cs) ∈ cells
  members : ∀ cs n, s.names.find cs = some n → ∃ ps, s.groups.find n = some ps ∧ ∀ p, p ∈ ps ↔ (p, cs) ∈ cells
  distinct : ∀ cs cs' n, s.names.find cs = some n → s.names.find cs' = some n → cs = cs'

/-- The number of different coordinate systems of the cells. -/
def systems (cells : List (Nat × Nat)) : Nat := (cells.map (·.2)).dedup.length

/-! ## Lemmas -/

theorem csName_small {k : Nat} (h : k ≤ 9999999) : csName k = String.ofList ('C' :: Med.decimal k) := by
  unfold csName
  have : (Med.decimal k).length ≤ 6 + 1 := Aster.decimal_length (k := 6) (by omega)
  rw [if_neg (by omega)]

theorem csName_inj {a b : Nat} (ha : a ≤ 9999999) (hb : b ≤ 9999999) (h : csName a = csName b) : a = b := by
  rw [csName_small ha, csName_small hb] at h
  have := String.ofList_injective h
  simp only [List.cons.injEq, true_and] at this
  exact Med.decimal_inj this

/-- What holds after the cells `done`. -/
structure Inv (base : Map String (List Nat)) (s : State) (done : List (Nat × Nat)) : Prop where
  wf : Map.WF s.names
  named : ∀ cs n, s.names.find cs = some n → ∃ k, k ≤ s.names.length ∧ n = csName k
  grouped : Grouped s done
  other : ∀ n, (∀ cs, s.names.find cs ≠ some n) → s.groups.find n = base.find n
  fresh : ∀ cs n, s.names.find cs = some n → base.find n = none

theorem names_le {base : Map String (List Nat)} {s : State} {done : List (Nat × Nat)} (h : Inv base s done) :
    s.names.length ≤ systems done := by
  have hsub : Map.keys s.names ⊆ (done.map (·.2)).dedup := by
    intro cs hcs
    obtain ⟨n, hn⟩ := (Map.mem_keys_iff _ _).mp hcs
    obtain ⟨_, p, hp⟩ := (h.grouped.used cs).mp ⟨n, hn⟩
    rw [List.mem_dedup]
    exact List.mem_map.mpr ⟨_, hp, rfl⟩
  have := (List.Nodup.subperm h.wf hsub).length_le
  simpa [Map.keys, systems] using this

theorem names_lt {base : Map String (List Nat)} {s : State} {done : List (Nat × Nat)} (h : Inv base s done) {p cs : Nat}
    (hn : s.names.find cs = none) : s.names.length + 1 ≤ systems (done ++ [(p, cs)]) := by
  have hsub : cs :: Map.keys s.names ⊆ ((done ++ [(p, cs)]).map (·.2)).dedup := by
    intro x hx
    rw [List.mem_dedup]
    rcases List.mem_cons.mp hx with rfl | hx
    · exact List.mem_map.mpr ⟨(p, x), by simp, rfl⟩
    · obtain ⟨n, hn⟩ := (Map.mem_keys_iff _ _).mp hx
      obtain ⟨_, q, hq⟩ := (h.grouped.used x).mp ⟨n, hn⟩
      exact List.mem_map.mpr ⟨(q, x), by simp [hq], rfl⟩
  have hnd : (cs :: Map.keys s.names).Nodup := List.nodup_cons.mpr ⟨(Map.find_eq_none_iff _ _).mp hn, h.wf⟩
  have := (List.Nodup.subperm hnd hsub).length_le
  simpa [Map.keys, systems] using this

theorem mem_insert {ps : List Nat} {p q : Nat} : q ∈ (if p ∈ ps then ps else p :: ps) ↔ q = p ∨ q ∈ ps := by
  split
  · constructor
    · exact .inr
    · rintro (rfl | h)
      · assumption
      · exact h
  · simp

/-- No name can be taken: the groups of the model have other names and there are few systems. -/
def Room (base : Map String (List Nat)) (cells : List (Nat × Nat)) : Prop :=
  (∀ k, base.find (csName k) = none) ∧ systems cells ≤ 9999999

theorem addCell_spec {base : Map String (List Nat)} {s : State} {done : List (Nat × Nat)} (h : Inv base s done) (c : Nat × Nat) :
    (addCell s c = .throw ∧ ¬ Room base (done ++ [c])) ∨ ∃ s', addCell s c = .ok s' ∧ Inv base s' (done ++ [c]) := by
  obtain ⟨p, cs⟩ := c
  by_cases h0 : cs = 0
  · subst h0
    refine .inr ⟨s, by simp [addCell], h.wf, h.named, ⟨?_, ?_, h.grouped.distinct⟩, h.other, h.fresh⟩
    · intro cs'
      rw [h.grouped.used]
      constructor
      · rintro ⟨hne, q, hq⟩; exact ⟨hne, q, by simp [hq]⟩
      · rintro ⟨hne, q, hq⟩
        refine ⟨hne, q, ?_⟩
        rcases List.mem_append.mp hq with hq | hq
        · exact hq
        · simp only [List.mem_singleton, Prod.mk.injEq] at hq
          exact absurd hq.2 hne
    · intro cs' n hn
      obtain ⟨ps, h1, h2⟩ := h.grouped.members cs' n hn
      have hne := ((h.grouped.used cs').mp ⟨n, hn⟩).1
      refine ⟨ps, h1, fun q => ?_⟩
      rw [h2]
      simp [hne]
  · cases hn : s.names.find cs with
    | some n =>
      obtain ⟨ps, g1, g2⟩ := h.grouped.members cs n hn
      refine .inr ⟨{ s with groups := s.groups.set n (if p ∈ ps then ps else p :: ps) }, ?_, h.wf, h.named,
        ⟨?_, ?_, h.grouped.distinct⟩, ?_, h.fresh⟩
      · simp only [addCell, if_neg h0, groupForCS, hn, Outcome.bind_ok, g1]
      · intro cs'
        simp only
        rw [h.grouped.used]
        constructor
        · rintro ⟨hne, q, hq⟩; exact ⟨hne, q, by simp [hq]⟩
        · rintro ⟨hne, q, hq⟩
          rcases List.mem_append.mp hq with hq | hq
          · exact ⟨hne, q, hq⟩
          · simp only [List.mem_singleton, Prod.mk.injEq] at hq
            rw [hq.2]
            exact (h.grouped.used cs).mp ⟨n, hn⟩
      · intro cs' n' hn'
        simp only at hn' ⊢
        by_cases e : n' = n
        · subst e
          have := h.grouped.distinct cs cs' n' hn hn'
          subst this
          refine ⟨_, Map.find_set_self _ _ _, fun q => ?_⟩
          rw [mem_insert, g2]
          simp [or_comm]
        · obtain ⟨ps', k1, k2⟩ := h.grouped.members cs' n' hn'
          refine ⟨ps', by rw [Map.find_set_ne _ _ (fun x => e x.symm)]; exact k1, fun q => ?_⟩
          rw [k2]
          have : cs' ≠ cs := by
            rintro rfl
            rw [hn] at hn'
            exact e (Option.some.inj hn').symm
          simp [this]
      · intro n' hn'
        simp only at hn' ⊢
        have : n ≠ n' := by rintro rfl; exact hn' cs hn
        rw [Map.find_set_ne _ _ this]
        exact h.other n' hn'
    | none =>
      have hlt := names_lt h (p := p) hn
      cases hg : s.groups.find (csName (s.names.length + 1)) with
      | some old =>
        refine .inl ⟨?_, ?_⟩
        · simp only [addCell, if_neg h0, groupForCS, hn, hg]
          rfl
        · rintro ⟨hb, hcard⟩
          have hfresh : ∀ cs', s.names.find cs' ≠ some (csName (s.names.length + 1)) := by
            intro cs' e
            obtain ⟨k, hk, e'⟩ := h.named cs' _ e
            have := csName_inj (by omega) (by omega) e'
            omega
          rw [h.other _ hfresh, hb] at hg
          cases hg
      | none =>
      have hfresh : ∀ cs', s.names.find cs' ≠ some (csName (s.names.length + 1)) := by
        intro cs' e
        obtain ⟨ps, k, _⟩ := h.grouped.members cs' _ e
        rw [hg] at k
        cases k
      have hnot : ∀ q, (q, cs) ∉ done := by
        intro q hq
        obtain ⟨n, e⟩ := (h.grouped.used cs).mpr ⟨h0, q, hq⟩
        rw [hn] at e
        cases e
      refine .inr ⟨⟨s.names.set cs (csName (s.names.length + 1)),
        (s.groups.set (csName (s.names.length + 1)) []).set (csName (s.names.length + 1)) [p]⟩, ?_, Map.wf_set _ _ _ h.wf, ?_,
        ⟨?_, ?_, ?_⟩, ?_, ?_⟩
      · simp only [addCell, if_neg h0, groupForCS, hn, hg, Outcome.bind_ok, Map.find_set_self, List.not_mem_nil, if_false]
      · intro cs' n' hn'
        simp only at hn' ⊢
        rw [Map.length_set_new _ _ _ ((Map.find_eq_none_iff _ _).mp hn)]
        rw [Map.find_set] at hn'
        split at hn'
        · exact ⟨_, le_refl _, (Option.some.inj hn').symm⟩
        · obtain ⟨k, hk, e⟩ := h.named cs' n' hn'
          exact ⟨k, by omega, e⟩
      · intro cs'
        simp only
        rw [Map.find_set]
        split
        · rename_i e
          subst e
          exact ⟨fun _ => ⟨h0, p, by simp⟩, fun _ => ⟨_, rfl⟩⟩
        · rename_i e
          rw [h.grouped.used]
          simp [fun x : cs' = cs => e x.symm, show ¬ cs' = cs from fun x => e x.symm]
      · intro cs' n' hn'
        simp only at hn' ⊢
        rw [Map.find_set] at hn'
        split at hn'
        · rename_i e
          subst e
          rw [← Option.some.inj hn']
          refine ⟨[p], Map.find_set_self _ _ _, fun q => ?_⟩
          simp [hnot q]
        · rename_i e
          obtain ⟨ps, k1, k2⟩ := h.grouped.members cs' n' hn'
          have hne : csName (s.names.length + 1) ≠ n' := by rintro rfl; exact hfresh cs' hn'
          refine ⟨ps, by rw [Map.find_set_ne _ _ hne, Map.find_set_ne _ _ hne]; exact k1, fun q => ?_⟩
          rw [k2]
          simp [show ¬ cs' = cs from fun x => e x.symm]
      · intro a b n' ha hb'
        simp only at ha hb'
        rw [Map.find_set] at ha hb'
        split at ha <;> split at hb'
        · rename_i e1 e2; rw [← e1, ← e2]
        · rw [← Option.some.inj ha] at hb'
          exact absurd hb' (hfresh b)
        · rw [← Option.some.inj hb'] at ha
          exact absurd ha (hfresh a)
        · exact h.grouped.distinct a b n' ha hb'
      · intro n' hn'
        simp only at hn' ⊢
        have hne : csName (s.names.length + 1) ≠ n' := by
          rintro rfl
          exact hn' cs (Map.find_set_self _ _ _)
        rw [Map.find_set_ne _ _ hne, Map.find_set_ne _ _ hne]
        apply h.other
        intro cs' e
        by_cases ec : cs = cs'
        · subst ec; rw [hn] at e; cases e
        · exact hn' cs' (by rw [Map.find_set_ne _ _ ec]; exact e)
      · intro cs' n' hn'
        simp only at hn'
        rw [Map.find_set] at hn'
        split at hn'
        · rw [← Option.some.inj hn', ← h.other _ hfresh]
          exact hg
        · exact h.fresh cs' n' hn'

theorem systems_mono (a b : List (Nat × Nat)) : systems a ≤ systems (a ++ b) := by
  have hsub : (a.map (·.2)).dedup ⊆ ((a ++ b).map (·.2)).dedup := by
    intro x hx
    rw [List.mem_dedup] at hx ⊢
    rw [List.map_append]
    exact List.mem_append_left _ hx
  exact (List.Nodup.subperm (List.nodup_dedup _) hsub).length_le

theorem addCells_spec {base : Map String (List Nat)} :
    ∀ (cells done : List (Nat × Nat)) (s : State), Inv base s done →
      (addCells s cells = .throw ∧ ¬ Room base (done ++ cells)) ∨
        ∃ s', addCells s cells = .ok s' ∧ Inv base s' (done ++ cells)
  | [], done, s, h => .inr ⟨s, rfl, by simpa using h⟩
  | c :: cells, done, s, h => by
    have e : done ++ c :: cells = (done ++ [c]) ++ cells := by simp
    rw [e]
    rcases addCell_spec h c with ⟨a1, a2⟩ | ⟨s1, a1, a2⟩
    · refine .inl ⟨by simp only [addCells, a1]; rfl, fun hr => a2 ⟨hr.1, le_trans (systems_mono _ cells) hr.2⟩⟩
    · simp only [addCells, a1, Outcome.bind_ok]
      exact addCells_spec cells _ s1 a2

theorem inv_start (base : Map String (List Nat)) : Inv base ⟨[], base⟩ [] :=
  ⟨List.nodup_nil, by simp, ⟨by simp, by simp, by simp⟩, fun _ _ => rfl, by simp⟩

theorem run_spec (base : Map String (List Nat)) (cells : List (Nat × Nat)) :
    (addCells ⟨[], base⟩ cells = .throw ∧ ¬ Room base cells) ∨ ∃ s', addCells ⟨[], base⟩ cells = .ok s' ∧ Inv base s' cells := by
  have := addCells_spec cells [] ⟨[], base⟩ (inv_start base)
  rwa [List.nil_append] at this

/-- The digits of a number, and the `C` before them, have no underscore. -/
theorem csName_plain (k : Nat) : '_' ∉ (csName k).toList := by
  have hd : '_' ∉ Med.decimal k := by
    intro h
    have := Aster.decimal_digits k _ h
    revert this
    decide
  unfold csName
  split
  · simp only [String.toList_ofList, List.mem_cons, not_or]
    exact ⟨by decide, fun h => hd (List.mem_of_mem_drop h)⟩
  · simp only [String.toList_ofList, List.mem_cons, not_or]
    exact ⟨by decide, hd⟩

/-! ## Properties -/

/-- **C159.** For every list of cells, each with a coordinate system or without, and every groups there were: when the translation
goes on, the cells have the groups of their systems, and the groups there were are unchanged. It stops with an exception otherwise. -/
theorem C159_groups (base : Map String (List Nat)) (cells : List (Nat × Nat)) :
    addCells ⟨[], base⟩ cells = .throw ∨
      ∃ s, addCells ⟨[], base⟩ cells = .ok s ∧ Grouped s cells ∧ ∀ n ps, base.find n = some ps → s.groups.find n = some ps := by
  rcases run_spec base cells with ⟨h, _⟩ | ⟨s, h1, h2⟩
  · exact .inl h
  · refine .inr ⟨s, h1, h2.grouped, ?_⟩
    intro n ps hn
    rw [h2.other n, hn]
    intro cs e
    rw [h2.fresh cs n e] at hn
    cases hn

/-- **C159.** It goes on for at most 9999999 different systems, when the groups there were have names with an underscore, as all those
that the reader makes. -/
theorem C159_accepted (base : Map String (List Nat)) (hb : ∀ n ps, base.find n = some ps → '_' ∈ n.toList) (cells : List (Nat × Nat))
    (hcard : systems cells ≤ 9999999) : ∃ s, addCells ⟨[], base⟩ cells = .ok s := by
  rcases run_spec base cells with ⟨_, h⟩ | ⟨s, h, _⟩
  · refine absurd ⟨fun k => ?_, hcard⟩ h
    cases e : base.find (csName k) with
    | none => rfl
    | some ps => exact absurd (hb _ _ e) (csName_plain k)
  · exact ⟨s, h⟩

/-- The coordinate systems as the Code_Aster writer has them, with their kinds and vectors. -/
def oriented (relative : Nat → Bool) (v : Nat → Dbl × Dbl × Dbl) (s : State) : List Assign.Oriented :=
  s.names.map fun e => ⟨e.1, relative e.1, v e.1, e.2⟩

/-- **C159.** In a model that is not made of solids alone each cell with a relative coordinate system is in a group with an
orientation, and in no group with another one: that of its own system. A cell with a coordinate system of another kind, or without,
is in no group with an orientation. -/
theorem C159_orientation (base : Map String (List Nat)) (cells : List (Nat × Nat)) (s : State)
    (h1 : addCells ⟨[], base⟩ cells = .ok s) (hone : ∀ p a b, (p, a) ∈ cells → (p, b) ∈ cells → a = b) (relative : Nat → Bool)
    (v : Nat → Dbl × Dbl × Dbl) (es : List Assign.Elems) (hes : ∃ e ∈ es, e.type ≠ .continuum) :
    ∀ p cs, (p, cs) ∈ cells →
      ((cs ≠ 0 ∧ relative cs = true → ∃ line ∈ Assign.orientations es (oriented relative v s), line.1 = v cs ∧
        ∃ ps, s.groups.find line.2 = some ps ∧ p ∈ ps) ∧
      ∀ line ∈ Assign.orientations es (oriented relative v s), (∃ ps, s.groups.find line.2 = some ps ∧ p ∈ ps) →
        cs ≠ 0 ∧ relative cs = true ∧ line.1 = v cs) := by
  have h2 : Inv base s cells := by
    rcases run_spec base cells with ⟨h, _⟩ | ⟨s', h, h2⟩
    · rw [h1] at h
      cases h
    · rw [h1] at h
      cases h
      exact h2
  intro p cs hp
  rw [(Assign.C128_orientations es _).1 hes]
  constructor
  · rintro ⟨h0, hr⟩
    obtain ⟨n, hn⟩ := (h2.grouped.used cs).mpr ⟨h0, p, hp⟩
    obtain ⟨ps, g1, g2⟩ := h2.grouped.members cs n hn
    refine ⟨(v cs, n), List.mem_map.mpr ⟨⟨cs, relative cs, v cs, n⟩, List.mem_filter.mpr ⟨?_, hr⟩, rfl⟩, rfl, ps, g1, (g2 p).mpr hp⟩
    exact List.mem_map.mpr ⟨(cs, n), (Map.mem_iff_find _ h2.wf _ _).mpr hn, rfl⟩
  · rintro line hl ⟨ps, g1, g2⟩
    obtain ⟨o, ho, rfl⟩ := List.mem_map.mp hl
    obtain ⟨ho, hr⟩ := List.mem_filter.mp ho
    obtain ⟨⟨cs', n⟩, he, rfl⟩ := List.mem_map.mp ho
    have hn := (Map.mem_iff_find _ h2.wf _ _).mp he
    obtain ⟨ps', k1, k2⟩ := h2.grouped.members cs' n hn
    simp only at g1 hr ⊢
    rw [k1] at g1
    cases g1
    have := hone p cs' cs ((k2 p).mp g2) hp
    subst this
    exact ⟨((h2.grouped.used cs').mp ⟨n, hn⟩).1, hr, rfl⟩

/-- Five cells with two systems. -/
example : systems [(0, 3), (1, 0), (2, 5), (3, 3), (4, 3)] ≤ 9999999 ∧
    (∀ p a b, (p, a) ∈ [(0, 3), (1, 0), (2, 5), (3, 3), (4, 3)] → (p, b) ∈ [(0, 3), (1, 0), (2, 5), (3, 3), (4, 3)] → a = b) ∧
    ∃ s, addCells ⟨[], [("PROP_1", [0, 1])]⟩ [(0, 3), (1, 0), (2, 5), (3, 3), (4, 3)] = .ok s ∧
      s.groups.find "C1" = some [4, 3, 0] ∧ s.groups.find "C2" = some [2] := by
  refine ⟨by decide, ?_, _, rfl, by decide +kernel, by decide +kernel⟩
  intro p a b h1 h2
  simp only [List.mem_cons, Prod.mk.injEq, List.not_mem_nil, or_false] at h1 h2
  omega

/-- **C159.** A group called `C1`, which only a user of the library can make, stops the translation at the first cell with a coordinate system of its own. -/
theorem C159_taken (base : Map String (List Nat)) (ps : List Nat) (hb : base.find "C1" = some ps) (p cs : Nat) (h : cs ≠ 0)
    (cells : List (Nat × Nat)) : addCells ⟨[], base⟩ ((p, cs) :: cells) = .throw := by
  have hn : csName 1 = "C1" := by decide +kernel
  simp only [addCells, addCell, if_neg h, groupForCS, Map.find_nil, List.length_nil, Nat.zero_add, hn, hb]
  rfl

/-- **C159.** For more systems the names are not different, the number 11000000 gives the name that 1000000 has: then it stops. -/
theorem C159_many : csName 11000000 = csName 1000000 := by decide +kernel

end Vega.OrientedSpec
