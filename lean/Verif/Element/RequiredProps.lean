import Verif.Element.Required
import Verif.Element.VirtualProps

/-! # Expected results and loads on components that do not exist (C131) -/
namespace Vega

/-! ## Specification -/
namespace RequiredSpec
open Required

/-- A constraint or a loading acts on a component of a node. -/
def Acts (b : Bc) (p : Nat) (d : Dof) : Prop :=
  (∃ v, (p, d, v) ∈ b.forces ∧ isZero v = false) ∨ ∃ ds : Dofs, (p, ds) ∈ b.named ∧ ds.contains d = true

/-- An element set has a component at a node. -/
def HasElement (m : Model) (p : Nat) (d : Dof) : Prop :=
  ∃ e ∈ m.elements, ∃ ds : Dofs, (p, ds) ∈ e ∧ ds.contains d = true

/-- A component of a node exists in an analysis: an element has it, or a constraint of the analysis acts on it, or a load of one of its load sets. -/
def Present (m : Model) (a : Analysis) (p : Nat) (d : Dof) : Prop :=
  HasElement m p d ∨ (∃ b ∈ a.constraints, Acts b p d) ∨ ∃ s ∈ m.loadSets, s.id ∈ a.loadSets ∧ ∃ b ∈ s.loads, Acts b p d

/-- An analysis tests an expected result. -/
def Tests (m : Model) (a : Analysis) (x : Expected) : Prop :=
  ∃ s ∈ m.objectiveSets, s.id ∈ a.objectiveSets ∧ x ∈ s.members

end RequiredSpec

namespace Required
open RequiredSpec

/-! ## Lemmas -/

theorem foldl_union {α : Type} (f : α → Dofs) (d : Dof) : ∀ (l : List α) (z : Dofs),
    (l.foldl (fun s x => s.union (f x)) z).contains d = true ↔ z.contains d = true ∨ ∃ x ∈ l, (f x).contains d = true := by
  intro l
  induction l with
  | nil => intro z; simp
  | cons x l ih =>
    intro z
    rw [List.foldl_cons, ih, Dofs.contains_union, Bool.or_eq_true]
    simp only [List.mem_cons, exists_eq_or_imp, or_assoc]

theorem dofsAt_iff (b : Bc) (p : Nat) (d : Dof) : (b.dofsAt p).contains d = true ↔ Acts b p d := by
  unfold Bc.dofsAt
  rw [foldl_union (fun e : Nat × Dofs => e.2)]
  have h1 : ∀ l : List (Nat × Dof × Dbl), (l.foldl (fun d f => d.addDof f.2.1) Dofs.NO_DOFS) =
      l.foldl (fun s f => s.union (Dofs.ofDof f.2.1)) Dofs.NO_DOFS := fun _ => rfl
  rw [h1, foldl_union (fun f : Nat × Dof × Dbl => Dofs.ofDof f.2.1)]
  unfold Acts
  constructor
  · rintro ((h | ⟨⟨q, e, v⟩, hx, he⟩) | ⟨⟨q, ds⟩, hx, he⟩)
    · rw [Dofs.contains_noDofs] at h; cases h
    · rw [List.mem_filter, decide_eq_true_eq] at hx
      obtain ⟨h2, h3, h4⟩ := hx
      simp only at h3 h4
      rw [Dofs.contains_ofDof, decide_eq_true_eq] at he
      simp only at he
      subst h3 he
      exact .inl ⟨v, h2, h4⟩
    · rw [List.mem_filter, decide_eq_true_eq] at hx
      obtain ⟨h2, h3⟩ := hx
      simp only at h3
      subst h3
      exact .inr ⟨ds, h2, he⟩
  · rintro (⟨v, h2, h3⟩ | ⟨ds, h2, h3⟩)
    · refine .inl (.inr ⟨(p, d, v), ?_, ?_⟩)
      · rw [List.mem_filter, decide_eq_true_eq]; exact ⟨h2, rfl, h3⟩
      · rw [Dofs.contains_ofDof]; simp
    · refine .inr ⟨(p, ds), ?_, h3⟩
      rw [List.mem_filter, decide_eq_true_eq]; exact ⟨h2, rfl⟩

theorem nodeDofs_iff (m : Model) (p : Nat) (d : Dof) : (nodeDofs m p).contains d = true ↔ HasElement m p d := by
  unfold nodeDofs HasElement
  rw [foldl_union (fun e : Nat × Dofs => e.2), Dofs.contains_noDofs]
  constructor
  · rintro (h | ⟨⟨q, ds⟩, hx, he⟩)
    · cases h
    · rw [List.mem_filter, decide_eq_true_eq, List.mem_flatten] at hx
      obtain ⟨⟨e, h1, h2⟩, h3⟩ := hx
      simp only at h3
      subst h3
      exact ⟨e, h1, ds, h2, he⟩
  · rintro ⟨e, h1, ds, h2, h3⟩
    refine .inr ⟨(p, ds), ?_, h3⟩
    rw [List.mem_filter, decide_eq_true_eq, List.mem_flatten]
    exact ⟨⟨e, h1, h2⟩, rfl⟩

theorem boundary_iff (m : Model) (a : Analysis) (p : Nat) (d : Dof) : (boundary m a p).contains d = true ↔
    (∃ b ∈ a.constraints, Acts b p d) ∨ ∃ s ∈ m.loadSets, s.id ∈ a.loadSets ∧ ∃ b ∈ s.loads, Acts b p d := by
  unfold boundary boundaryConditions ownLoads
  rw [foldl_union (fun b : Bc => b.dofsAt p), Dofs.contains_noDofs]
  simp only [dofsAt_iff, Bool.false_eq_true, false_or, List.mem_append, List.mem_flatMap, List.mem_filter, decide_eq_true_eq]
  constructor
  · rintro ⟨b, h | ⟨s, ⟨h1, h2⟩, h3⟩, hb⟩
    · exact .inl ⟨b, h, hb⟩
    · exact .inr ⟨s, h1, h2, b, h3, hb⟩
  · rintro (⟨b, h, hb⟩ | ⟨s, h1, h2, b, h3, hb⟩)
    · exact ⟨b, .inl h, hb⟩
    · exact ⟨b, .inr ⟨s, ⟨h1, h2⟩, h3⟩, hb⟩

theorem proper_union {s t : Dofs} (hs : VirtualSpec.Proper s) (ht : VirtualSpec.Proper t) : VirtualSpec.Proper (s.union t) := by
  have key : ∀ c e : BitVec 8, Dofs.ALL_DOFS.dofsCode = 63 → (c ||| 63 == 63#8) = true → (e ||| 63 == 63#8) = true → ((c ||| e) ||| 63 == 63#8) = true := by
    intro c e _ h1 h2
    have h1 := eq_of_beq h1
    have h2 := eq_of_beq h2
    rw [beq_iff_eq, BitVec.or_assoc, h2]
    exact h1
  exact key s.dofsCode t.dofsCode (by decide) hs ht

theorem foldl_proper {α : Type} (f : α → Dofs) : ∀ (l : List α) (z : Dofs), VirtualSpec.Proper z → (∀ x ∈ l, VirtualSpec.Proper (f x)) →
    VirtualSpec.Proper (l.foldl (fun s x => s.union (f x)) z) := by
  intro l
  induction l with
  | nil => intro z hz _; exact hz
  | cons x l ih =>
    intro z hz h
    exact ih _ (proper_union hz (h x (by simp))) fun y hy => h y (List.mem_cons_of_mem _ hy)

theorem ofDof_proper (d : Dof) : VirtualSpec.Proper (Dofs.ofDof d) := by unfold VirtualSpec.Proper; revert d; decide

theorem boundary_proper (m : Model) (a : Analysis) (p : Nat)
    (h : ∀ b ∈ boundaryConditions m a, ∀ e ∈ b.named, VirtualSpec.Proper e.2) : VirtualSpec.Proper (boundary m a p) := by
  have h0 : VirtualSpec.Proper Dofs.NO_DOFS := by unfold VirtualSpec.Proper; decide
  refine foldl_proper (fun b : Bc => b.dofsAt p) _ _ h0 fun b hb => ?_
  unfold Bc.dofsAt
  refine foldl_proper (fun e : Nat × Dofs => e.2) _ _ ?_ fun e he => h b hb e (List.mem_filter.1 he).1
  exact foldl_proper (fun f : Nat × Dof × Dbl => Dofs.ofDof f.2.1) _ _ h0 fun f _ => ofDof_proper _

theorem available_iff (m : Model) (a : Analysis) (p : Nat) (d : Dof) :
    ((nodeDofs m p).union (boundary m a p)).contains d = true ↔ Present m a p d := by
  rw [Dofs.contains_union, Bool.or_eq_true, nodeDofs_iff, boundary_iff]
  rfl

theorem ofDof_not_empty (d : Dof) : (Dofs.ofDof d).empty = false := by revert d; decide

theorem containsAll_ofDof (s : Dofs) (d : Dof) : s.containsAll (Dofs.ofDof d) = s.contains d := by
  have key : ∀ (c : BitVec 8) (d : Dof), (⟨c⟩ : Dofs).containsAll (Dofs.ofDof d) = (⟨c⟩ : Dofs).contains d := by decide +kernel
  exact key s.dofsCode d

theorem lacks_displacement (m : Model) (a : Analysis) (i p : Nat) (d : Dof) :
    lacks m a (.displacement i p d) = true ↔ ¬ Present m a p d := by
  rw [← available_iff]
  simp only [lacks, Expected.places, List.any_cons, List.any_nil, Bool.or_false, ofDof_not_empty, Bool.not_false, Bool.true_and,
    containsAll_ofDof, Bool.not_eq_true', Bool.not_eq_true]

theorem lacks_other (m : Model) (a : Analysis) (x : Expected) (h : ∀ i p d, x ≠ .displacement i p d) : lacks m a x = false := by
  cases x with
  | displacement i p d => exact absurd rfl (h i p d)
  | vonMises i p => simp [lacks, Expected.places, Dofs.empty, Dofs.NO_DOFS]
  | frequency i => rfl
  | other i => rfl

theorem mem_toRemove (m : Model) (x : Expected) :
    x ∈ toRemove m ↔ ∃ i p d, x = .displacement i p d ∧ ∃ a ∈ m.analyses, Tests m a x ∧ ¬ Present m a p d := by
  unfold toRemove assertions Tests
  simp only [List.mem_flatMap, List.mem_filter, decide_eq_true_eq]
  constructor
  · rintro ⟨a, ha, ⟨⟨s, ⟨h1, h2⟩, h3⟩, _⟩, h5⟩
    cases x with
    | displacement i p d => exact ⟨i, p, d, rfl, a, ha, ⟨s, h1, h2, h3⟩, (lacks_displacement m a i p d).1 h5⟩
    | vonMises i p => rw [lacks_other m a _ (by intros; simp)] at h5; cases h5
    | frequency i => rw [lacks_other m a _ (by intros; simp)] at h5; cases h5
    | other i => rw [lacks_other m a _ (by intros; simp)] at h5; cases h5
  · rintro ⟨i, p, d, rfl, a, ha, ⟨s, h1, h2, h3⟩, h4⟩
    exact ⟨a, ha, ⟨⟨s, ⟨h1, h2⟩, h3⟩, rfl⟩, (lacks_displacement m a i p d).2 h4⟩

/-! ## C131 -/

/-- **C131** an expected displacement stays in its sets exactly when its component exists in every analysis that tests it; every other objective
stays, and the sets have the members that they had, without those and in their order. -/
theorem C131_kept (m : Model) :
    (removeAssertions m).objectiveSets.length = m.objectiveSets.length ∧
    ∀ (n : Nat) (s : ObjectiveSet), m.objectiveSets[n]? = some s → ∃ t, (removeAssertions m).objectiveSets[n]? = some t ∧ t.id = s.id ∧
      t.members.Sublist s.members ∧
      ∀ x ∈ s.members, x ∈ t.members ↔ ∀ i p d, x = .displacement i p d → ∀ a ∈ m.analyses, Tests m a x → Present m a p d := by
  refine ⟨by simp [removeAssertions], ?_⟩
  intro n s hs
  refine ⟨s.without (toRemove m), by simp [removeAssertions, hs], rfl, List.filter_sublist, ?_⟩
  intro x hx
  simp only [ObjectiveSet.without, List.mem_filter, decide_eq_true_eq, mem_toRemove]
  constructor
  · rintro ⟨_, h⟩ i p d rfl a ha ht
    by_contra hne
    exact h ⟨i, p, d, rfl, a, ha, ht, hne⟩
  · intro h
    refine ⟨hx, ?_⟩
    rintro ⟨i, p, d, rfl, a, ha, ht, hne⟩
    exact hne (h i p d rfl a ha ht)

/-- A model: a bar on nodes 1 and 2 that has translations only; set 1 combines set 2, which has a moment about x at node 2; set 3 has a moment about y
there, and the analysis uses set 3. -/
def sample : Model where
  elements := [[(1, Dofs.TRANSLATIONS), (2, Dofs.TRANSLATIONS)]]
  loadSets := [⟨1, [], [(2, 1)]⟩, ⟨2, [⟨[(2, .RX, 5)], []⟩], []⟩, ⟨3, [⟨[(2, .RY, 5)], []⟩], []⟩]
  objectiveSets := [⟨7, [.displacement 1 2 .DX, .displacement 2 2 .RX, .displacement 3 2 .RY, .frequency 4]⟩]
  analyses := [⟨1, [⟨[], [(1, Dofs.ALL_DOFS)]⟩], [3], [7]⟩]

example : ((removeAssertions sample).objectiveSets.map ObjectiveSet.members) =
    [[.displacement 1 2 .DX, .displacement 3 2 .RY, .frequency 4]] := by decide +kernel

/-- **C131** what stays can be tested: in the model with its virtual elements every displacement that an analysis tests has its component. -/
theorem C131_testable (m : Model) (nodes : List Nat) (hn : nodes.Nodup) (a : Analysis) (ha : a ∈ m.analyses) (i p : Nat) (d : Dof)
    (hp : p ∈ nodes) (h : Tests (removeAssertions m) a (.displacement i p d)) : ((discrets m nodes).dofs p).contains d = true := by
  obtain ⟨t, ht, hid, hx⟩ := h
  rw [removeAssertions, List.mem_map] at ht
  obtain ⟨s, hs, rfl⟩ := ht
  simp only [ObjectiveSet.without, List.mem_filter, decide_eq_true_eq] at hx hid
  have he : Present m a p d := by
    by_contra hne
    exact hx.2 ((mem_toRemove ..).2 ⟨i, p, d, rfl, a, ha, ⟨s, hs, hid, hx.1⟩, hne⟩)
  rcases he with he | he
  · unfold discrets
    rw [Virtual.run_dofs _ _ _ hn p hp, Dofs.contains_union, (nodeDofs_iff ..).2 he]
    rfl
  · exact Virtual.C120_present _ _ _ hn p hp (needed m a) (List.mem_map_of_mem (f := needed m) ha) d ((boundary_iff ..).2 he)

example : Tests (removeAssertions sample) ⟨1, [⟨[], [(1, Dofs.ALL_DOFS)]⟩], [3], [7]⟩ (.displacement 3 2 .RY) :=
  ⟨⟨7, [.displacement 1 2 .DX, .displacement 3 2 .RY, .frequency 4]⟩, by unfold removeAssertions; rw [List.mem_map]; exact ⟨_, List.mem_singleton.2 rfl, by decide +kernel⟩, by decide, by decide⟩

/-- **C131** (partial) a load or a constraint acts on a component that exists in the model with its virtual elements, when the load is in a set of the
analysis itself. Missing: the loads of the sets that these sets combine, see `C131_combined_false`. -/
theorem C131_loads_partial (m : Model) (nodes : List Nat) (hn : nodes.Nodup) (a : Analysis) (ha : a ∈ m.analyses) (b : Bc)
    (hb : b ∈ a.constraints ∨ ∃ s ∈ m.loadSets, s.id ∈ a.loadSets ∧ b ∈ s.loads) (p : Nat) (hp : p ∈ nodes) (d : Dof) (hd : Acts b p d) :
    ((discrets m nodes).dofs p).contains d = true := by
  refine Virtual.C120_present _ _ _ hn p hp (needed m a) (List.mem_map_of_mem (f := needed m) ha) d ((boundary_iff ..).2 ?_)
  rcases hb with hb | ⟨s, h1, h2, h3⟩
  · exact .inl ⟨b, hb, hd⟩
  · exact .inr ⟨s, h1, h2, b, h3, hd⟩

example : ((discrets sample [1, 2]).dofs 2).contains .RY = true := by decide +kernel

/-- **C131** the loads of the analysis that is written are those of its sets and those of the sets that they combine. -/
theorem C131_final (m : Model) (a : Analysis) (b : Bc) : b ∈ finalLoads m a ↔ ∃ s ∈ m.loadSets, s.id ∈ a.loadSets ∧
    (b ∈ s.loads ∨ ∃ e ∈ s.embedded, ∃ t ∈ m.loadSets, t.id = e.1 ∧
      ((isEqual e.2 1 = true ∧ b ∈ t.loads) ∨ (isEqual e.2 1 = false ∧ ∃ c ∈ t.loads, b = c.scale e.2))) := by
  unfold finalLoads LoadSet.replaced
  simp only [List.mem_flatMap, List.mem_filter, decide_eq_true_eq, List.mem_append]
  constructor
  · rintro ⟨s, ⟨h1, h2⟩, h | ⟨e, he, t, ⟨h3, h4⟩, h5⟩⟩
    · exact ⟨s, h1, h2, .inl h⟩
    · refine ⟨s, h1, h2, .inr ⟨e, he, t, h3, h4, ?_⟩⟩
      cases hk : isEqual e.2 1 with
      | true => rw [hk] at h5; exact .inl ⟨rfl, h5⟩
      | false =>
        rw [hk] at h5
        simp only [Bool.false_eq_true, if_false, List.mem_map] at h5
        obtain ⟨c, hc, rfl⟩ := h5
        exact .inr ⟨rfl, c, hc, rfl⟩
  · rintro ⟨s, h1, h2, h | ⟨e, he, t, h3, h4, h5⟩⟩
    · exact ⟨s, ⟨h1, h2⟩, .inl h⟩
    · refine ⟨s, ⟨h1, h2⟩, .inr ⟨e, he, t, ⟨h3, h4⟩, ?_⟩⟩
      rcases h5 with ⟨hk, h5⟩ | ⟨hk, c, hc, rfl⟩
      · rw [hk]; exact h5
      · rw [hk]
        simp only [Bool.false_eq_true, if_false]
        exact List.mem_map_of_mem hc

/-- **C131** false in general: the components are found before combined load sets are replaced (Model.cpp 2241-2248 and 2275-2277). At a node where
the sets of the analyses themselves need no component that the elements do not have, nothing is added: a load that comes from a combined set acts on
a component that does not exist, and an expected displacement on that component is dropped although the load acts on it. -/
theorem C131_combined_false (m : Model) (nodes : List Nat) (hn : nodes.Nodup) (a : Analysis) (ha : a ∈ m.analyses) (p : Nat) (hp : p ∈ nodes) (d : Dof)
    
    (hprop : ∀ a' ∈ m.analyses, ∀ b ∈ boundaryConditions m a', ∀ e ∈ b.named, VirtualSpec.Proper e.2)
    (hown : ∀ a' ∈ m.analyses, ∀ e, Present m a' p e → HasElement m p e) (hd : ¬ HasElement m p d) :
    ((discrets m nodes).dofs p).contains d = false ∧ ∀ i, ¬ Tests (removeAssertions m) a (.displacement i p d) := by
  have hf : (nodeDofs m p).contains d = false := by
    rw [Bool.eq_false_iff]; exact fun h => hd ((nodeDofs_iff ..).1 h)
  have hfin : ((discrets m nodes).dofs p).contains d = false := by
    rw [Bool.eq_false_iff]
    intro h
    have hreq : ∀ q, ∀ a' ∈ m.analyses.map (needed m), VirtualSpec.Proper (a'.required q) := by
      intro q a' ha'
      obtain ⟨b, hb, rfl⟩ := List.mem_map.1 ha'
      exact boundary_proper m b q (hprop b hb)
    obtain ⟨_, hor⟩ := ((Virtual.C120_minimal (m.analyses.map (needed m)) (nodeDofs m) hreq nodes hn p hp d).2).1 ⟨hf, h⟩
    have hno : ∀ e, ¬ VirtualSpec.Needs (m.analyses.map (needed m)) (nodeDofs m) p e := by
      rintro e ⟨h1, b, hb, h2⟩
      obtain ⟨c, hc, rfl⟩ := List.mem_map.1 hb
      have := hown c hc e (.inr ((boundary_iff m c p e).1 h2))
      rw [(nodeDofs_iff ..).2 this] at h1
      cases h1
    rcases hor with ⟨_, e, he⟩ | ⟨e, _, he⟩
    · exact hno e he
    · exact hno e he
  refine ⟨hfin, fun i h => ?_⟩
  have := C131_testable m nodes hn a ha i p d hp h
  rw [hfin] at this
  cases this

/-- The same model with the moment about x asked for through the combined set 1. -/
def combinedSample : Model := { sample with analyses := [⟨1, [⟨[], [(1, Dofs.ALL_DOFS)]⟩], [1], [7]⟩] }

/-- **C131** the case is met: in `combinedSample` the moment about x at node 2 is among the loads that are written, node 2 has no such component, and
the rotation expected there is not tested; when the analysis names the set of the moment itself, all three are there. -/
theorem C131_combined_case :
    (∃ b ∈ finalLoads combinedSample ⟨1, [⟨[], [(1, Dofs.ALL_DOFS)]⟩], [1], [7]⟩, Acts b 2 .RX) ∧
    ((discrets combinedSample [1, 2]).dofs 2).contains .RX = false ∧
    ((removeAssertions combinedSample).objectiveSets.map ObjectiveSet.members) = [[.displacement 1 2 .DX, .frequency 4]] ∧
    ((discrets { sample with analyses := [⟨1, [⟨[], [(1, Dofs.ALL_DOFS)]⟩], [2], [7]⟩] } [1, 2]).dofs 2).contains .RX = true := by
  refine ⟨⟨⟨[(2, .RX, 5)], []⟩, ?_, .inl ⟨5, by simp, by decide +kernel⟩⟩, by decide +kernel, by decide +kernel, by decide +kernel⟩
  rw [C131_final]
  exact ⟨⟨1, [], [(2, 1)]⟩, by simp [combinedSample, sample], by decide, .inr ⟨(2, 1), by simp, ⟨2, [⟨[(2, .RX, 5)], []⟩], []⟩,
    by simp [combinedSample, sample], rfl, .inl ⟨by decide +kernel, by simp⟩⟩⟩

/-- **C131** false in general for sets that several analyses use: an expected displacement is lost for an analysis in which its component exists, when
another analysis that tests it does not have it. -/
theorem C131_shared_false (m : Model) (a a' : Analysis) (ha' : a' ∈ m.analyses) (i p : Nat) (d : Dof)
    (h' : Tests m a' (.displacement i p d)) (hno : ¬ Present m a' p d) : ¬ Tests (removeAssertions m) a (.displacement i p d) := by
  rintro ⟨t, ht, _, hx⟩
  rw [removeAssertions, List.mem_map] at ht
  obtain ⟨s, _, rfl⟩ := ht
  simp only [ObjectiveSet.without, List.mem_filter, decide_eq_true_eq] at hx
  exact hx.2 ((mem_toRemove ..).2 ⟨i, p, d, rfl, a', ha', h', hno⟩)

/-- Two analyses use the set 7; a moment about y acts in the first one. -/
example : ((removeAssertions { sample with analyses := [⟨1, [], [3], [7]⟩, ⟨2, [], [], [7]⟩] }).objectiveSets.map ObjectiveSet.members) =
    [[.displacement 1 2 .DX, .frequency 4]] := by decide +kernel

end Required
end Vega
