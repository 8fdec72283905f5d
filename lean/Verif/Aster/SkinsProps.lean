import Verif.Aster.Skins
import Mathlib.Data.List.Forall2

/-! # C164: the skins in contact are turned outward -/
namespace Vega.SkinsSpec
open Skins

/-! ## Specification -/

/-- The surfaces in contact of a set of constraints, in order: the master and the slave of each zone. -/
def surfaces (c : Constraints) : List (List Int) := c.zones.flatMap fun z => [z.master.cells, z.slave.cells]

/-- A command turns the skins of solids and names exactly these surfaces. -/
def Turns (k : Command) (l : List (List Int)) : Prop := k.keyword = .skin3D ∧ k.occurrences = l.map Named.cells

/-- Each zone of contact has nodes, none of which has rotations: the surfaces are skins of solids. -/
def Solids (dofs : Nat → Dofs) (c : Constraints) : Prop :=
  ∀ z ∈ c.zones, z.master.nodes ++ z.slave.nodes ≠ [] ∧ ∀ p ∈ z.master.nodes ++ z.slave.nodes, dofs p ≠ Dofs.ALL_DOFS

/-! ## Lemmas -/

theorem zone_occurrences : ∀ zs : List Zone, zoneOccurrences zs = (zs.flatMap fun z => [z.master.cells, z.slave.cells]).map Named.cells
  | [] => rfl
  | z :: zs => by simp [zoneOccurrences, zone_occurrences zs]

theorem slide_occurrences : ∀ ss : List Slide, slideOccurrences ss = ss.map fun s => Named.groups s.master s.slave
  | [] => rfl
  | s :: ss => by simp [slideOccurrences, slide_occurrences ss]

theorem firstNode_mem {z : Zone} {p : Nat} (h : firstNode z = some p) :
    p ∈ z.master.nodes ++ z.slave.nodes ∧ ∀ q ∈ z.master.nodes ++ z.slave.nodes, p ≤ q := by
  unfold firstNode at h
  exact List.min?_eq_some_iff.mp h

theorem keyword_solids {dofs : Nat → Dofs} {c : Constraints} (h : Solids dofs c) (hz : c.zones ≠ []) :
    keyword dofs c.zones = .ok .skin3D := by
  cases e : c.zones with
  | nil => exact absurd e hz
  | cons z zs =>
    obtain ⟨h1, h2⟩ := h z (by simp [e])
    unfold keyword
    cases f : firstNode z with
    | none =>
      unfold firstNode at f
      exact absurd (List.min?_eq_none_iff.mp f) h1
    | some p =>
      simp only [f]
      rw [if_neg (h2 p (firstNode_mem f).1)]

theorem zoneCommands_solids (dofs : Nat → Dofs) : ∀ cs : List Constraints, (∀ c ∈ cs, Solids dofs c) →
    ∃ ks, zoneCommands dofs cs = .ok ks ∧ List.Forall₂ Turns ks ((cs.filter fun c => !c.zones.isEmpty).map surfaces)
  | [], _ => ⟨[], rfl, .nil⟩
  | c :: cs, h => by
    obtain ⟨ks, a, b⟩ := zoneCommands_solids dofs cs fun d hd => h d (by simp [hd])
    unfold zoneCommands
    cases e : c.zones.isEmpty with
    | true =>
      refine ⟨ks, by simpa using a, ?_⟩
      simpa [e] using b
    | false =>
      have hz : c.zones ≠ [] := by
        intro k
        rw [k] at e
        cases e
      refine ⟨⟨.skin3D, zoneOccurrences c.zones⟩ :: ks, ?_, ?_⟩
      · simp [keyword_solids (h c (by simp)) hz, a, Outcome.bind_ok]
      · rw [List.filter_cons, if_pos (by simp [e]), List.map_cons]
        exact .cons ⟨rfl, zone_occurrences c.zones⟩ b

theorem slideCommands_eq : ∀ cs : List Constraints, slideCommands cs =
    (cs.filter fun c => !c.slides.isEmpty).map fun c => ⟨.skin3D, c.slides.map fun s => Named.groups s.master s.slave⟩
  | [] => rfl
  | c :: cs => by
    unfold slideCommands
    cases e : c.slides.isEmpty with
    | true => simp [slideCommands_eq cs, e]
    | false => simp [slideCommands_eq cs, e, slide_occurrences]

/-! ## Properties -/

/-- **C164.** When the surfaces in contact are skins of solids, each set of constraints with zones has one command, which turns exactly
the surfaces of its zones, and each set with sliding surfaces has one, which turns exactly these. Missing: surfaces whose nodes have
rotations, for which this is false. -/
theorem C164_partial (dofs : Nat → Dofs) (cs : List Constraints) (h : ∀ c ∈ cs, Solids dofs c) :
    ∃ ks ss, commands dofs cs = .ok (ks ++ ss) ∧
      List.Forall₂ Turns ks ((cs.filter fun c => !c.zones.isEmpty).map surfaces) ∧
      ss = (cs.filter fun c => !c.slides.isEmpty).map
        fun c => ⟨.skin3D, c.slides.map fun s => Named.groups s.master s.slave⟩ := by
  obtain ⟨ks, a, b⟩ := zoneCommands_solids dofs cs h
  exact ⟨ks, slideCommands cs, by simp [commands, a, Outcome.bind_ok], b, slideCommands_eq cs⟩

/-- **C164.** The sliding surfaces do not depend on the nodes: their commands are there whatever the zones are, if there are any
commands. -/
theorem C164_slides (dofs : Nat → Dofs) (cs : List Constraints) (l : List Command) (h : commands dofs cs = .ok l)
    (c : Constraints) (hc : c ∈ cs) (s : Slide) (hs : s ∈ c.slides) :
    ∃ k ∈ l, k.keyword = .skin3D ∧ Named.groups s.master s.slave ∈ k.occurrences := by
  unfold commands at h
  cases e : zoneCommands dofs cs with
  | throw => rw [e] at h; cases h
  | ub => rw [e] at h; cases h
  | diverges => rw [e] at h; cases h
  | ok a =>
    rw [e] at h
    simp only [Outcome.bind_ok] at h
    cases h
    refine ⟨⟨.skin3D, c.slides.map fun s => Named.groups s.master s.slave⟩, ?_, rfl, List.mem_map_of_mem hs⟩
    rw [slideCommands_eq]
    refine List.mem_append_right _ (List.mem_map.mpr ⟨c, List.mem_filter.mpr ⟨hc, ?_⟩, rfl⟩)
    cases hn : c.slides with
    | nil => rw [hn] at hs; cases hs
    | cons _ _ => rfl

/-- Two zones between solids in a set, sliding surfaces in another. -/
def solids : List Constraints :=
  [⟨[⟨⟨[1], [4, 5]⟩, ⟨[2], [7, 6]⟩⟩, ⟨⟨[3], [9]⟩, ⟨[2], [7, 6]⟩⟩], []⟩, ⟨[], [⟨['A'], ['B']⟩]⟩]

example : (∀ c ∈ solids, Solids (fun p => if p = 1 then Dofs.ALL_DOFS else Dofs.TRANSLATIONS) c) ∧
    commands (fun p => if p = 1 then Dofs.ALL_DOFS else Dofs.TRANSLATIONS) solids =
      .ok [⟨.skin3D, [.cells [1], .cells [2], .cells [3], .cells [2]]⟩, ⟨.skin3D, [.groups ['A'] ['B']]⟩] := by
  unfold Solids
  exact ⟨by decide, rfl⟩

/-- C164 is false as soon as one node has rotations, the first of the first zone: the command for all the zones of the set is that
for plane domains, whatever the other nodes and zones are. -/
theorem C164_rotations_false (dofs : Nat → Dofs) (z : Zone) (zs : List Zone) (ss : List Slide) (p : Nat)
    (hp : p ∈ z.master.nodes ++ z.slave.nodes) (hmin : ∀ q ∈ z.master.nodes ++ z.slave.nodes, p ≤ q)
    (hrot : dofs p = Dofs.ALL_DOFS) :
    ∃ k ss', commands dofs [⟨z :: zs, ss⟩] = .ok (k :: ss') ∧ k.keyword = .skin2D ∧
      k.occurrences = (surfaces ⟨z :: zs, ss⟩).map Named.cells := by
  have hf : firstNode z = some p := by
    unfold firstNode
    exact List.min?_eq_some_iff.mpr ⟨hp, hmin⟩
  refine ⟨⟨.skin2D, zoneOccurrences (z :: zs)⟩, slideCommands [⟨z :: zs, ss⟩], ?_, rfl, zone_occurrences _⟩
  simp [commands, zoneCommands, keyword, hf, hrot, Outcome.bind_ok]

/-- The other way round: when the first node of the first zone has no rotations, the surfaces of all the zones of the set, those of shells
too, are turned as skins of solids. -/
theorem C164_shells_false (dofs : Nat → Dofs) (z : Zone) (zs : List Zone) (ss : List Slide) (p : Nat)
    (hp : p ∈ z.master.nodes ++ z.slave.nodes) (hmin : ∀ q ∈ z.master.nodes ++ z.slave.nodes, p ≤ q)
    (hrot : dofs p ≠ Dofs.ALL_DOFS) (y : Zone) (hy : y ∈ zs) :
    ∃ k ss', commands dofs [⟨z :: zs, ss⟩] = .ok (k :: ss') ∧ k.keyword = .skin3D ∧
      Named.cells y.master.cells ∈ k.occurrences ∧ Named.cells y.slave.cells ∈ k.occurrences := by
  have hf : firstNode z = some p := by
    unfold firstNode
    exact List.min?_eq_some_iff.mpr ⟨hp, hmin⟩
  refine ⟨⟨.skin3D, zoneOccurrences (z :: zs)⟩, slideCommands [⟨z :: zs, ss⟩], ?_, rfl, ?_, ?_⟩
  · simp [commands, zoneCommands, keyword, hf, hrot, Outcome.bind_ok]
  · rw [zone_occurrences]
    exact List.mem_map_of_mem (List.mem_flatMap.mpr ⟨y, by simp [hy], by simp⟩)
  · rw [zone_occurrences]
    exact List.mem_map_of_mem (List.mem_flatMap.mpr ⟨y, by simp [hy], by simp⟩)

/-- A solid with a beam at one node, in contact with another solid. -/
example : ∃ z : Zone, firstNode z = some 3 ∧ (∀ p ∈ z.master.nodes ++ z.slave.nodes, p ≠ 3 →
      (fun p : Nat => if p = 3 then Dofs.ALL_DOFS else Dofs.TRANSLATIONS) p ≠ Dofs.ALL_DOFS) ∧
    keyword (fun p => if p = 3 then Dofs.ALL_DOFS else Dofs.TRANSLATIONS) [z] = .ok .skin2D :=
  ⟨⟨⟨[1], [5, 3, 4]⟩, ⟨[2], [8, 9]⟩⟩, by decide, by decide, rfl⟩

end Vega.SkinsSpec
