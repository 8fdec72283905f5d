import Verif.Aster.LocalTable
import Verif.Mesh.OrientedProps

/-! # C161: the displacements of beams in their own axes -/
namespace Vega.LocalTableSpec
open OrientedCells LocalTable

/-! ## Specification -/

/-- The cell at the position `p` has the coordinate system `cs` of its own, which no other cell has. -/
def Alone (cells : List (Nat × Nat)) (p cs : Nat) : Prop := (p, cs) ∈ cells ∧ cs ≠ 0 ∧ ∀ q, (q, cs) ∈ cells → q = p

/-- The lines ask for the displacements at the first and at the last node of the cell, in axes whose y is given by the vector of its
orientation. -/
structure Reports (m : View) (p cs : Nat) (x : Extraction) : Prop where
  nodes : ∃ ns a b, m.nodes p = some ns ∧ ns.head? = some a ∧ ns.getLast? = some b ∧
    x.first = 'N' :: Med.decimal (a + 1) ∧ x.last = 'N' :: Med.decimal (b + 1)
  vectY : m.system cs = some (some x.vectY)

/-- The mesh has the nodes of all cells and the coordinate systems they refer to. -/
structure Complete (m : View) (cells : List (Nat × Nat)) : Prop where
  nodes : ∀ p cs, (p, cs) ∈ cells → ∃ ns, m.nodes p = some ns ∧ ns ≠ []
  systems : ∀ p cs, (p, cs) ∈ cells → cs ≠ 0 → ∃ o, m.system cs = some o

/-- The table is written: there are beams, or trusses whose displacements may be large. -/
def Wanted (es : List Assign.Elems) (large : Bool) : Prop :=
  (∃ e ∈ es, e.isBeam = true) ∨ (large = true ∧ ∃ e ∈ es, e.isTruss = true)

/-! ## Lemmas -/

theorem dedup_single {ps : List Nat} {p : Nat} : ps.dedup = [p] ↔ p ∈ ps ∧ ∀ q ∈ ps, q = p := by
  constructor
  · intro h
    have hm : ∀ q, q ∈ ps ↔ q = p := fun q => by rw [← List.mem_dedup, h, List.mem_singleton]
    exact ⟨(hm p).mpr rfl, fun q hq => (hm q).mp hq⟩
  · rintro ⟨h1, h2⟩
    have hn := List.nodup_dedup ps
    have hm : ∀ q ∈ ps.dedup, q = p := fun q hq => h2 q (List.mem_dedup.mp hq)
    have hp := List.mem_dedup.mpr h1
    match h : ps.dedup, hn, hm, hp with
    | [], _, _, hp => cases hp
    | [a], _, hm, _ => rw [hm a (by simp)]
    | a :: b :: l, hn, hm, _ =>
      have e1 := hm a (by simp)
      have e2 := hm b (by simp)
      subst e1
      subst e2
      simp at hn

theorem not_solids {es : List Assign.Elems} {large : Bool} (h : Wanted es large) :
    (Assign.filter es .continuum).length ≠ es.length := by
  intro e
  have hall := List.length_filter_eq_length_iff.mp e
  have key : ∃ e ∈ es, e.type.section = true := by
    rcases h with ⟨x, hx, hb⟩ | ⟨_, x, hx, hb⟩
    · exact ⟨x, hx, (Bool.and_eq_true_iff.mp hb).1⟩
    · exact ⟨x, hx, (Bool.and_eq_true_iff.mp hb).1⟩
  obtain ⟨x, hx, hs⟩ := key
  have hc := of_decide_eq_true (hall x hx)
  rw [hc] at hs
  exact absurd hs (by decide)

theorem wanted_iff {es : List Assign.Elems} {large : Bool} :
    ((es.filter Assign.Elems.isBeam).isEmpty = false ∨ (large = true ∧ (es.filter Assign.Elems.isTruss).isEmpty = false)) ↔
      Wanted es large := by
  have key : ∀ f : Assign.Elems → Bool, (es.filter f).isEmpty = false ↔ ∃ e ∈ es, f e = true := by
    intro f
    rw [Bool.eq_false_iff, ne_eq, List.isEmpty_iff, List.filter_eq_nil_iff]
    push Not
    rfl
  rw [key, key]
  rfl

/-- One turn of the loop. -/
theorem turn_spec {m : View} {es : List Assign.Elems} (hes : (Assign.filter es .continuum).length ≠ es.length)
    {groups : Map String (List Nat)} {e : Nat × String} {ps : List Nat} (hg : groups.find e.2 = some ps)
    (hs : ∃ o, m.system e.1 = some o) (hn : ∀ p ∈ ps, ∃ ns, m.nodes p = some ns ∧ ns ≠ []) :
    ∃ r, turn m es groups e = .ok r ∧ (r.map (·.title)).Sublist [e.2] ∧
      (∀ x ∈ r, ∃ p, p ∈ ps ∧ (∀ q ∈ ps, q = p) ∧ Reports m p e.1 x) ∧
      (∀ p v, p ∈ ps → (∀ q ∈ ps, q = p) → m.system e.1 = some (some v) → ∃ x ∈ r, x.title = e.2 ∧ Reports m p e.1 x) := by
  obtain ⟨o, ho⟩ := hs
  unfold turn
  rw [if_neg hes, ho]
  cases o with
  | none => exact ⟨[], rfl, by simp, by simp, by simp⟩
  | some v =>
    simp only [hg]
    by_cases h1 : ∃ p, ps.dedup = [p]
    · obtain ⟨p, h1⟩ := h1
      obtain ⟨hp, hq⟩ := dedup_single.mp h1
      obtain ⟨ns, hns, hne⟩ := hn p hp
      have ha : ∃ a, ns.head? = some a := ⟨ns.head hne, List.head?_eq_some_head hne⟩
      have hb : ∃ b, ns.getLast? = some b := ⟨ns.getLast hne, List.getLast?_eq_some_getLast hne⟩
      obtain ⟨a, ha⟩ := ha
      obtain ⟨b, hb⟩ := hb
      have hr : Reports m p e.1 ⟨e.2, Med.medName 'N' a, Med.medName 'N' b, v⟩ := ⟨⟨ns, a, b, hns, ha, hb, rfl, rfl⟩, ho⟩
      simp only [h1, hns, ha, hb]
      refine ⟨_, rfl, by simp, ?_, ?_⟩
      · intro x hx
        rw [List.mem_singleton] at hx
        subst hx
        exact ⟨p, hp, hq, hr⟩
      · intro p' v' hp' _ _
        have := hq p' hp'
        subst this
        exact ⟨_, List.mem_singleton.mpr rfl, rfl, hr⟩
    · refine ⟨[], ?_, by simp, by simp, ?_⟩
      · split
        · rename_i p h
          exact absurd ⟨p, h⟩ h1
        · rfl
      · intro p v' hp hq _
        exact absurd ⟨p, dedup_single.mpr ⟨hp, hq⟩⟩ h1

/-- The loop. -/
theorem actions_spec {m : View} {es : List Assign.Elems} (hes : (Assign.filter es .continuum).length ≠ es.length)
    {groups : Map String (List Nat)} : ∀ (l : List (Nat × String)),
    (∀ e ∈ l, (∃ o, m.system e.1 = some o) ∧
      ∃ ps, groups.find e.2 = some ps ∧ ∀ p ∈ ps, ∃ ns, m.nodes p = some ns ∧ ns ≠ []) →
    ∃ r, actions m es groups l = .ok r ∧ (r.map (·.title)).Sublist (l.map (·.2)) ∧
      (∀ x ∈ r, ∃ e ∈ l, x.title = e.2 ∧ ∃ ps p, groups.find e.2 = some ps ∧ p ∈ ps ∧ (∀ q ∈ ps, q = p) ∧ Reports m p e.1 x) ∧
      (∀ e ∈ l, ∀ ps p v, groups.find e.2 = some ps → p ∈ ps → (∀ q ∈ ps, q = p) → m.system e.1 = some (some v) →
        ∃ x ∈ r, x.title = e.2 ∧ Reports m p e.1 x)
  | [], _ => ⟨[], rfl, by simp, by simp, by simp⟩
  | e :: l, h => by
    obtain ⟨hs, ps, hg, hn⟩ := h e (by simp)
    obtain ⟨r1, t1, u1, v1, w1⟩ := turn_spec hes hg hs hn
    obtain ⟨r2, t2, u2, v2, w2⟩ := actions_spec hes l fun e' he' => h e' (List.mem_cons_of_mem _ he')
    refine ⟨r1 ++ r2, by simp [actions, t1, t2], ?_, ?_, ?_⟩
    · rw [List.map_append, List.map_cons]
      exact u1.append u2
    · intro x hx
      rcases List.mem_append.mp hx with hx | hx
      · obtain ⟨p, a, b, c⟩ := v1 x hx
        have ht : x.title ∈ [e.2] := u1.subset (List.mem_map.mpr ⟨x, hx, rfl⟩)
        exact ⟨e, by simp, List.mem_singleton.mp ht, ps, p, hg, a, b, c⟩
      · obtain ⟨e', he', k⟩ := v2 x hx
        exact ⟨e', List.mem_cons_of_mem _ he', k⟩
    · intro e' he' ps' p v hg' hp hq hv
      rcases List.mem_cons.mp he' with rfl | he'
      · rw [hg] at hg'
        cases hg'
        obtain ⟨x, hx, k⟩ := w1 p v hp hq hv
        exact ⟨x, List.mem_append_left _ hx, k⟩
      · obtain ⟨x, hx, k⟩ := w2 e' he' ps' p v hg' hp hq hv
        exact ⟨x, List.mem_append_right _ hx, k⟩

theorem inv_of {base : Map String (List Nat)} {cells : List (Nat × Nat)} {s : State} (h1 : addCells ⟨[], base⟩ cells = .ok s) :
    OrientedSpec.Inv base s cells := by
  rcases OrientedSpec.run_spec base cells with ⟨h, _⟩ | ⟨s', h, h2⟩
  · rw [h1] at h
    cases h
  · rw [h1] at h
    cases h
    exact h2

/-! ## Properties -/

/-- **C161.** When there are beams, or trusses with large displacements, the table asks once, by the name of its group, for each cell
that has an orientation no other cell has: the displacements at its two ends, in axes given by its own vector. It asks for nothing
else. Missing: the cells that share an orientation (`C161_shared_false`). -/
theorem C161_partial (base : Map String (List Nat)) (cells : List (Nat × Nat)) (s : State)
    (h1 : addCells ⟨[], base⟩ cells = .ok s) (m : View) (hm : Complete m cells) (es : List Assign.Elems) (large : Bool)
    (hw : Wanted es large) :
    ∃ l, table m es large s = .ok (some l) ∧ (l.map (·.title)).Nodup ∧
      (∀ x ∈ l, ∃ p cs, Alone cells p cs ∧ Reports m p cs x ∧ s.names.find cs = some x.title) ∧
      (∀ p cs v, Alone cells p cs → m.system cs = some (some v) →
        ∃ x ∈ l, Reports m p cs x ∧ s.names.find cs = some x.title ∧ ∃ ps, s.groups.find x.title = some ps ∧ ∀ q, q ∈ ps ↔ q = p) := by
  have h2 := inv_of h1
  have hf : ∀ e ∈ s.names, s.names.find e.1 = some e.2 := fun e he => (Map.mem_iff_find _ h2.wf _ _).mp he
  have hmem : ∀ e ∈ s.names, ∃ ps, s.groups.find e.2 = some ps ∧ ∀ p, p ∈ ps ↔ (p, e.1) ∈ cells :=
    fun e he => h2.grouped.members e.1 e.2 (hf e he)
  obtain ⟨l, a, b, c, d⟩ := actions_spec (not_solids hw) (m := m) (groups := s.groups) s.names (by
    intro e he
    obtain ⟨ps, g1, g2⟩ := hmem e he
    obtain ⟨h0, p, hp⟩ := (h2.grouped.used e.1).mp ⟨e.2, hf e he⟩
    exact ⟨hm.systems p e.1 hp h0, ps, g1, fun q hq => hm.nodes q e.1 ((g2 q).mp hq)⟩)
  refine ⟨l, ?_, ?_, ?_, ?_⟩
  · unfold table
    rw [if_pos (wanted_iff.mpr hw), a]
    rfl
  · refine b.nodup (List.Nodup.map_on ?_ (List.Nodup.of_map _ h2.wf))
    intro x hx y hy e
    have hy' := hf y hy
    rw [← e] at hy'
    exact Prod.ext (h2.grouped.distinct _ _ _ (hf x hx) hy') e
  · intro x hx
    obtain ⟨e, he, ht, ps, p, g, hp, hq, hr⟩ := c x hx
    obtain ⟨ps', g1, g2⟩ := hmem e he
    rw [g] at g1
    cases g1
    exact ⟨p, e.1, ⟨(g2 p).mp hp, ((h2.grouped.used e.1).mp ⟨e.2, hf e he⟩).1, fun q k => hq q ((g2 q).mpr k)⟩, hr, ht ▸ hf e he⟩
  · intro p cs v ha hv
    obtain ⟨n, hn⟩ := (h2.grouped.used cs).mpr ⟨ha.2.1, p, ha.1⟩
    obtain ⟨ps, g1, g2⟩ := h2.grouped.members cs n hn
    obtain ⟨x, hx, ht, hr⟩ := d (cs, n) ((Map.mem_iff_find _ h2.wf _ _).mpr hn) ps p v g1 ((g2 p).mpr ha.1)
      (fun q hq => ha.2.2 q ((g2 q).mp hq)) hv
    refine ⟨x, hx, hr, ht ▸ hn, ps, ht ▸ g1, fun q => ?_⟩
    rw [g2]
    exact ⟨ha.2.2 q, fun e => e ▸ ha.1⟩

/-- **C161.** Without beams, and without trusses whose displacements may be large, there is no table. -/
theorem C161_none (m : View) (es : List Assign.Elems) (large : Bool) (s : State) (h : ¬ Wanted es large) :
    table m es large s = .ok none := by
  unfold table
  rw [if_neg (fun k => h (wanted_iff.mp k))]

/-- A set of beams. -/
def beams : Assign.Elems := ⟨1, .generic, true, .tridimensional, .timoshenko, false, false, false, false, false, 0, 0, 0⟩

/-- A set of trusses. -/
def trusses : Assign.Elems := ⟨2, .generic, true, .tridimensional, .truss, false, false, false, false, false, 0, 0, 0⟩

/-- Two beams at the positions 0 and 1, with the orientations 3 and 5, and a cell with a cartesian system. -/
def twoBeams : View :=
  ⟨fun cs => if cs = 3 then some (some (0, 1, 0)) else if cs = 5 then some (some (0, 0, 1)) else if cs = 7 then some none else none,
    fun p => if p = 0 then some [0, 1] else if p = 1 then some [1, 2] else if p = 2 then some [2, 3] else none⟩

example : Wanted [beams, trusses] false ∧ Complete twoBeams [(0, 3), (1, 5), (2, 7)] ∧
    ∃ s, addCells ⟨[], []⟩ [(0, 3), (1, 5), (2, 7)] = .ok s ∧ table twoBeams [beams, trusses] false s =
      .ok (some [⟨"C1", "N1".toList, "N2".toList, (0, 1, 0)⟩, ⟨"C2", "N2".toList, "N3".toList, (0, 0, 1)⟩]) := by
  refine ⟨.inl ⟨beams, by simp, by decide⟩, ⟨?_, ?_⟩, _, rfl, by decide +kernel⟩
  · intro p cs h
    simp only [List.mem_cons, Prod.mk.injEq, List.not_mem_nil, or_false] at h
    rcases h with ⟨rfl, rfl⟩ | ⟨rfl, rfl⟩ | ⟨rfl, rfl⟩ <;> exact ⟨_, rfl, by simp⟩
  · intro p cs h _
    simp only [List.mem_cons, Prod.mk.injEq, List.not_mem_nil, or_false] at h
    rcases h with ⟨rfl, rfl⟩ | ⟨rfl, rfl⟩ | ⟨rfl, rfl⟩ <;> exact ⟨_, rfl⟩

/-- C161 is false of cells that share an orientation, as two beams between the same nodes with the same vector do: nothing is asked
for any of them, whatever else the model has. -/
theorem C161_shared_false (base : Map String (List Nat)) (cells : List (Nat × Nat)) (s : State)
    (h1 : addCells ⟨[], base⟩ cells = .ok s) (m : View) (hm : Complete m cells) (es : List Assign.Elems) (large : Bool)
    (hw : Wanted es large) (p q cs : Nat) (hp : (p, cs) ∈ cells) (hq : (q, cs) ∈ cells) (hpq : p ≠ q) :
    ∃ l, table m es large s = .ok (some l) ∧ ∀ x ∈ l, s.names.find cs ≠ some x.title := by
  obtain ⟨l, a, _, b, _⟩ := C161_partial base cells s h1 m hm es large hw
  refine ⟨l, a, fun x hx e => ?_⟩
  obtain ⟨p', cs', ha, _, hn⟩ := b x hx
  have := (inv_of h1).grouped.distinct _ _ _ e hn
  subst this
  exact hpq ((ha.2.2 p hp).trans (ha.2.2 q hq).symm)

/-- Two beams with the same orientation. -/
example : ∃ s, addCells ⟨[], []⟩ [(0, 3), (1, 3)] = .ok s ∧ table twoBeams [beams] false s = .ok (some []) :=
  ⟨_, rfl, by decide +kernel⟩

/-- C161 is false of trusses: they have no orientation, so that a model with trusses alone gets, when displacements may be large, a
command without any action. -/
theorem C161_trusses_false (base : Map String (List Nat)) (cells : List (Nat × Nat)) (hc : ∀ c ∈ cells, c.2 = 0) (m : View)
    (es : List Assign.Elems) (ht : ∃ e ∈ es, e.isTruss = true) :
    ∃ s, addCells ⟨[], base⟩ cells = .ok s ∧ table m es true s = .ok (some []) := by
  have key : ∀ l : List (Nat × Nat), (∀ c ∈ l, c.2 = 0) → addCells ⟨[], base⟩ l = .ok ⟨[], base⟩ := by
    intro l
    induction l with
    | nil => exact fun _ => rfl
    | cons c l ih =>
      intro h
      simp only [addCells, addCell, if_pos (h c (by simp)), Outcome.bind_ok]
      exact ih fun c' hc' => h c' (List.mem_cons_of_mem _ hc')
  refine ⟨_, key cells hc, ?_⟩
  unfold table
  rw [if_pos (wanted_iff.mpr (.inr ⟨rfl, ht⟩))]
  rfl

/-- Three trusses. -/
example : (∀ c ∈ [(0, 0), (1, 0), (2, 0)], c.2 = 0) ∧ ∃ e ∈ [trusses], e.isTruss = true :=
  ⟨by decide, trusses, by simp, by decide⟩

/-- **C161.** The exception made for models of solids alone is never met: such a model has no table. -/
theorem C161_solids (m : View) (es : List Assign.Elems) (large : Bool) (s : State) (h : ∀ e ∈ es, e.type = .continuum) :
    table m es large s = .ok none := by
  refine C161_none m es large s fun hw => not_solids hw ?_
  exact List.length_filter_eq_length_iff.mpr fun e he => decide_eq_true (h e he)

end Vega.LocalTableSpec
