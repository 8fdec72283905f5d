import Verif.Mesh.Boxes
import Mathlib.Tactic.Common
import Mathlib.Data.List.Induction

/-! # C17 -/
namespace Vega.BoxSpec

/-- Additions to and removals from a container of nodes and cells (merging two containers is the
subject of `C17_add_cells` and `C17_add_nodes_partial`). -/
inductive Op where
  | cell (p : Nat)
  | cells (ps : List Nat)
  | cellGroup (g : String)
  | removeCell (p : Nat)
  | removeAllCells
  | node (p : Nat)
  | nodes (ps : List Nat)
  | nodeGroup (g : String)
  | removeNode (p : Nat)

def perform (e : MeshEnv) (c : NodeBox) : Op → Outcome NodeBox
  | .cell p => .ok { c with base := c.base.addCellPosition p }
  | .cells ps => .ok { c with base := c.base.addCellPositions ps }
  | .cellGroup g => c.base.addCellGroup e g >>= fun b => .ok { c with base := b }
  | .removeCell p => .ok { c with base := c.base.removeCellPosition p }
  | .removeAllCells => .ok { c with base := c.base.removeAllCells }
  | .node p => .ok (c.addNodePosition p)
  | .nodes ps => .ok (c.addNodePositions ps)
  | .nodeGroup g => c.addNodeGroup e g
  | .removeNode p => c.removeNodePosition p

def run (e : MeshEnv) (c : NodeBox) : List Op → Outcome NodeBox
  | [] => .ok c
  | o :: os => perform e c o >>= fun c => run e c os

/-! The specification: what has been put in by a history, most recent operation first. -/

/-- The cell `p` is a direct member. -/
def DirectCell (p : Nat) : List Op → Prop
  | [] => False
  | .cell q :: h => p = q ∨ DirectCell p h
  | .cells qs :: h => p ∈ qs ∨ DirectCell p h
  | .removeCell q :: h => p ≠ q ∧ DirectCell p h
  | .removeAllCells :: _ => False
  | _ :: h => DirectCell p h

/-- The node `p` is a direct member. -/
def DirectNode (p : Nat) : List Op → Prop
  | [] => False
  | .node q :: h => p = q ∨ DirectNode p h
  | .nodes qs :: h => p ∈ qs ∨ DirectNode p h
  | .removeNode q :: h => p ≠ q ∧ DirectNode p h
  | _ :: h => DirectNode p h

/-- The cell `p` belongs to an added group. -/
def GroupCell (e : MeshEnv) (p : Nat) (h : List Op) : Prop :=
  ∃ g ps, Op.cellGroup g ∈ h ∧ e.group g = some (.cell ps) ∧ p ∈ ps

/-- The node `p` belongs to an added node group. -/
def GroupNode (e : MeshEnv) (p : Nat) (h : List Op) : Prop :=
  ∃ g ps, Op.nodeGroup g ∈ h ∧ e.group g = some (.node ps) ∧ p ∈ ps

theorem run_append (e : MeshEnv) (h1 h2 : List Op) : ∀ c, run e c (h1 ++ h2) = run e c h1 >>= fun c => run e c h2 := by
  induction h1 with
  | nil => intro c; rfl
  | cons o h1 ih =>
    intro c
    simp only [List.cons_append, run]
    cases perform e c o <;> simp [ih]

structure Inv (e : MeshEnv) (c : NodeBox) (h : List Op) : Prop where
  cells : ∀ p, p ∈ c.base.cells ↔ DirectCell p h
  groups : ∀ g, g ∈ c.base.groups ↔ Op.cellGroup g ∈ h
  nodes : ∀ p, p ∈ c.nodes ↔ DirectNode p h
  nodeGroups : ∀ g, g ∈ c.nodeGroups ↔ Op.nodeGroup g ∈ h

theorem inv_step {e : MeshEnv} {c c' : NodeBox} {h : List Op} {o : Op} (hi : Inv e c h)
    (hp : perform e c o = .ok c') : Inv e c' (o :: h) := by
  obtain ⟨h1, h2, h3, h4⟩ := hi
  cases o with
  | cell p =>
    cases hp
    exact ⟨by simp [DirectCell, CellBox.addCellPosition, h1], by simp [CellBox.addCellPosition, h2],
      by simp [DirectNode, h3], by simp [h4]⟩
  | cells p =>
    cases hp
    exact ⟨by simp [DirectCell, CellBox.addCellPositions, h1], by simp [CellBox.addCellPositions, h2],
      by simp [DirectNode, h3], by simp [h4]⟩
  | cellGroup g =>
    simp only [perform, CellBox.addCellGroup] at hp
    cases hg : e.group g with
    | none => simp [hg] at hp
    | some v =>
      simp only [hg, Outcome.bind_ok, Outcome.ok.injEq] at hp
      subst hp
      exact ⟨by simp [DirectCell, h1], by simp [h2], by simp [DirectNode, h3], by simp [h4]⟩
  | removeCell p =>
    cases hp
    exact ⟨by intro q; simp [DirectCell, CellBox.removeCellPosition, h1, and_comm], by simp [CellBox.removeCellPosition, h2],
      by simp [DirectNode, h3], by simp [h4]⟩
  | removeAllCells =>
    cases hp
    exact ⟨by simp [DirectCell, CellBox.removeAllCells], by simp [CellBox.removeAllCells, h2],
      by simp [DirectNode, h3], by simp [h4]⟩
  | node p =>
    cases hp
    exact ⟨by simp [DirectCell, NodeBox.addNodePosition, h1], by simp [NodeBox.addNodePosition, h2],
      by simp [DirectNode, NodeBox.addNodePosition, h3], by simp [NodeBox.addNodePosition, h4]⟩
  | nodes p =>
    cases hp
    exact ⟨by simp [DirectCell, NodeBox.addNodePositions, h1], by simp [NodeBox.addNodePositions, h2],
      by simp [DirectNode, NodeBox.addNodePositions, h3], by simp [NodeBox.addNodePositions, h4]⟩
  | nodeGroup g =>
    simp only [perform, NodeBox.addNodeGroup] at hp
    cases hg : e.group g with
    | none => simp [hg] at hp
    | some v =>
      simp only [hg, Outcome.ok.injEq] at hp
      subst hp
      exact ⟨by simp [DirectCell, h1], by simp [h2], by simp [DirectNode, h3], by simp [h4]⟩
  | removeNode p =>
    simp only [perform, NodeBox.removeNodePosition] at hp
    split at hp
    · simp only [Outcome.ok.injEq] at hp
      subst hp
      exact ⟨by simp [DirectCell, h1], by simp [h2], by intro q; simp [DirectNode, h3, and_comm], by simp [h4]⟩
    · cases hp

theorem inv_run {e : MeshEnv} {h : List Op} : ∀ {c : NodeBox}, run e .init h = .ok c → Inv e c h.reverse := by
  induction h using List.reverseRecOn with
  | nil =>
    intro c hc
    cases hc
    exact ⟨by simp [NodeBox.init, CellBox.init, DirectCell], by simp [NodeBox.init, CellBox.init],
      by simp [NodeBox.init, DirectNode], by simp [NodeBox.init]⟩
  | append_singleton h o ih =>
    intro c hc
    rw [run_append] at hc
    cases hr : run e .init h with
    | ok c1 =>
      rw [hr] at hc
      simp only [Outcome.bind_ok, run] at hc
      cases hp : perform e c1 o with
      | ok c2 =>
        rw [hp] at hc
        simp only [Outcome.bind_ok, Outcome.ok.injEq] at hc
        subst hc
        rw [List.reverse_append]
        exact inv_step (ih hr) hp
      | _ => rw [hp] at hc; cases hc
    | _ => rw [hr] at hc; cases hc

theorem mem_groupCells {e : MeshEnv} {g : String} {p : Nat} :
    p ∈ CellBox.groupCells e g ↔ ∃ ps, e.group g = some (.cell ps) ∧ p ∈ ps := by
  unfold CellBox.groupCells
  cases h : e.group g with
  | none => simp
  | some v => cases v <;> simp

/-- **C17**, cells: after every history the direct cells are those added and not removed since, the
cells "including groups" those and the cells of the added groups; `containsCellPosition` is about the
direct ones. -/
theorem C17_cells (e : MeshEnv) (h : List Op) (c : NodeBox) (hr : run e .init h = .ok c) (p : Nat) :
    (p ∈ c.base.positionsExcluding ↔ DirectCell p h.reverse) ∧
    (p ∈ c.base.positionsIncluding e ↔ DirectCell p h.reverse ∨ GroupCell e p h) ∧
    (c.base.containsCellPosition p = true ↔ DirectCell p h.reverse) := by
  have hi := inv_run hr
  refine ⟨hi.cells p, ?_, by simp [CellBox.containsCellPosition, hi.cells]⟩
  simp only [CellBox.positionsIncluding, List.mem_append, hi.cells, List.mem_flatMap, mem_groupCells, hi.groups,
    List.mem_reverse, GroupCell]
  constructor
  · rintro (h | ⟨g, h1, ps, h2, h3⟩)
    · exact Or.inl h
    · exact Or.inr ⟨g, ps, h1, h2, h3⟩
  · rintro (h | ⟨g, ps, h1, h2, h3⟩)
    · exact Or.inl h
    · exact Or.inr ⟨g, h1, ps, h2, h3⟩

theorem nodesOf_spec (e : MeshEnv) (ps : List Nat) (hv : ∀ p ∈ ps, e.cellNodes p ≠ none) :
    ∃ r, CellBox.nodesOf e ps = .ok r ∧ ∀ n, n ∈ r ↔ ∃ p ∈ ps, ∃ ns, e.cellNodes p = some ns ∧ n ∈ ns := by
  induction ps with
  | nil => exact ⟨[], rfl, by simp⟩
  | cons p ps ih =>
    obtain ⟨r, h1, h2⟩ := ih (fun q hq => hv q (List.mem_cons_of_mem _ hq))
    cases hc : e.cellNodes p with
    | none => exact absurd hc (hv p (by simp))
    | some ns =>
      refine ⟨ns ++ r, by simp [CellBox.nodesOf, hc, h1], ?_⟩
      intro n
      simp [h2, hc]

theorem groupNodes_spec (e : MeshEnv) (gs : List String) (hv : ∀ g ∈ gs, ∃ ps, e.group g = some (.node ps)) :
    ∃ r, NodeBox.groupNodes e gs = .ok r ∧ ∀ n, n ∈ r ↔ ∃ g ∈ gs, ∃ ps, e.group g = some (.node ps) ∧ n ∈ ps := by
  induction gs with
  | nil => exact ⟨[], rfl, by simp⟩
  | cons g gs ih =>
    obtain ⟨r, h1, h2⟩ := ih (fun q hq => hv q (List.mem_cons_of_mem _ hq))
    obtain ⟨ps, hps⟩ := hv g (by simp)
    refine ⟨ps ++ r, by simp [NodeBox.groupNodes, hps, h1], ?_⟩
    intro n
    simp [h2, hps]

theorem anyGroup_spec (e : MeshEnv) (gs : List String) (hv : ∀ g ∈ gs, ∃ ps, e.group g = some (.cell ps)) :
    ∃ b, CellBox.anyGroupNonEmpty e gs = .ok b := by
  induction gs with
  | nil => exact ⟨false, rfl⟩
  | cons g gs ih =>
    obtain ⟨ps, hps⟩ := hv g (by simp)
    obtain ⟨b, hb⟩ := ih (fun q hq => hv q (List.mem_cons_of_mem _ hq))
    simp only [CellBox.anyGroupNonEmpty, hps]
    split
    · exact ⟨b, hb⟩
    · exact ⟨true, rfl⟩

/-- The node `n` belongs to the cell `p`. -/
def OfCell (e : MeshEnv) (n p : Nat) : Prop := ∃ ns, e.cellNodes p = some ns ∧ n ∈ ns

/-- The mesh still has what the history mentions: the added cells exist, the groups added as cell
groups (node groups) are cell groups (node groups). -/
structure Live (e : MeshEnv) (h : List Op) : Prop where
  cells : ∀ p, DirectCell p h.reverse ∨ GroupCell e p h → e.cellNodes p ≠ none
  cellGroups : ∀ g, Op.cellGroup g ∈ h → ∃ ps, e.group g = some (.cell ps)
  nodeGroups : ∀ g, Op.nodeGroup g ∈ h → ∃ ps, e.group g = some (.node ps)

/-- **C17**, nodes: the node positions "including groups" are the direct nodes, the nodes of the
added node groups and the nodes of the cells of the container, groups included; those "excluding
groups" the direct nodes and the nodes of the direct cells. -/
theorem C17_nodes (e : MeshEnv) (h : List Op) (c : NodeBox) (hr : run e .init h = .ok c) (hl : Live e h) :
    (∃ r, c.nodesIncluding e = .ok r ∧ ∀ n, n ∈ r ↔ DirectNode n h.reverse ∨ GroupNode e n h ∨
      ∃ p, (DirectCell p h.reverse ∨ GroupCell e p h) ∧ OfCell e n p) ∧
    (∃ r, c.nodesExcluding e = .ok r ∧ ∀ n, n ∈ r ↔ DirectNode n h.reverse ∨
      ∃ p, DirectCell p h.reverse ∧ OfCell e n p) ∧
    (∀ n, c.containsNodePosition n = true ↔ DirectNode n h.reverse) := by
  have hi := inv_run hr
  have hc := fun p => (C17_cells e h c hr p).2.1
  refine ⟨?_, ?_, by simp [NodeBox.containsNodePosition, hi.nodes]⟩
  · obtain ⟨gs, h1, h2⟩ := groupNodes_spec e c.nodeGroups
      (fun g hg => hl.nodeGroups g (by simpa using (hi.nodeGroups g).1 hg))
    obtain ⟨cs, h3, h4⟩ := nodesOf_spec e (c.base.positionsIncluding e) (fun p hp => hl.cells p ((hc p).1 hp))
    refine ⟨c.nodes ++ (gs ++ cs), by simp [NodeBox.nodesIncluding, CellBox.nodesIncluding, h1, h3], ?_⟩
    intro n
    simp only [List.mem_append, hi.nodes, h2, h4, hi.nodeGroups, hc, GroupNode, OfCell, List.mem_reverse]
    constructor
    · rintro (h | ⟨g, a, ps, b⟩ | h)
      · exact Or.inl h
      · exact Or.inr (Or.inl ⟨g, ps, a, b⟩)
      · exact Or.inr (Or.inr h)
    · rintro (h | ⟨g, ps, a, b⟩ | h)
      · exact Or.inl h
      · exact Or.inr (Or.inl ⟨g, a, ps, b⟩)
      · exact Or.inr (Or.inr h)
  · obtain ⟨cs, h3, h4⟩ := nodesOf_spec e c.base.cells (fun p hp => hl.cells p (Or.inl ((hi.cells p).1 hp)))
    by_cases hce : c.base.cells.isEmpty = true
    · obtain ⟨b, hb⟩ := anyGroup_spec e c.base.groups
        (fun g hg => hl.cellGroups g (by simpa using (hi.groups g).1 hg))
      have hnil : c.base.cells = [] := by simpa using hce
      have hno : ∀ p, ¬ DirectCell p h.reverse := by
        intro p hp
        have := (hi.cells p).2 hp
        rw [hnil] at this
        cases this
      have hcs : cs = [] := by
        rw [hnil] at h3
        simpa [CellBox.nodesOf] using h3.symm
      subst hcs
      refine ⟨c.nodes, ?_, ?_⟩
      · cases b <;> simp [NodeBox.nodesExcluding, CellBox.empty, CellBox.hasCellsIncludingGroups, hce, hb,
          CellBox.nodesExcluding, h3]
      · intro n
        simp [hi.nodes, hno]
    · refine ⟨c.nodes ++ cs, by simp [NodeBox.nodesExcluding, CellBox.empty, CellBox.hasCellsIncludingGroups, hce,
        CellBox.nodesExcluding, h3], ?_⟩
      intro n
      simp [hi.nodes, h4, hi.cells, OfCell]

/-- What a history needs in order to be carried out: added groups exist, removed nodes are direct
members. -/
def Allowed (e : MeshEnv) : List Op → Prop
  | [] => True
  | .cellGroup g :: h => e.group g ≠ none ∧ Allowed e h
  | .nodeGroup g :: h => e.group g ≠ none ∧ Allowed e h
  | .removeNode p :: h => DirectNode p h ∧ Allowed e h
  | _ :: h => Allowed e h

theorem perform_ok {e : MeshEnv} {c : NodeBox} {h : List Op} (hi : Inv e c h) (ha : Allowed e h) (o : Op) :
    (∃ c', perform e c o = .ok c') ↔ Allowed e (o :: h) := by
  cases o with
  | cellGroup g =>
    cases hg : e.group g <;> simp [perform, CellBox.addCellGroup, hg, Allowed, ha]
  | nodeGroup g =>
    cases hg : e.group g <;> simp [perform, NodeBox.addNodeGroup, hg, Allowed, ha]
  | removeNode p =>
    by_cases hp : p ∈ c.nodes
    · simp [perform, NodeBox.removeNodePosition, hp, Allowed, ha, (hi.nodes p).1 hp]
    · have hn : ¬ DirectNode p h := fun hd => hp ((hi.nodes p).2 hd)
      simp [perform, NodeBox.removeNodePosition, hp, Allowed, ha, hn]
  | _ => simp [perform, Allowed, ha]

theorem allowed_tail {e : MeshEnv} {o : Op} {h : List Op} (ha : Allowed e (o :: h)) : Allowed e h := by
  cases o <;> first | exact ha | exact ha.2

/-- **C17**, which histories are accepted: exactly those in which every added group exists and every
removed node is a direct member when it is removed. -/
theorem C17_accepted (e : MeshEnv) (h : List Op) :
    (∃ c, run e .init h = .ok c) ↔ Allowed e h.reverse := by
  induction h using List.reverseRecOn with
  | nil => simp [run, Allowed]
  | append_singleton h o ih =>
    rw [run_append, List.reverse_append]
    constructor
    · rintro ⟨c, hc⟩
      cases hr : run e .init h with
      | ok c1 =>
        rw [hr] at hc
        refine (perform_ok (inv_run hr) (ih.1 ⟨c1, hr⟩) o).1 ?_
        cases hp : perform e c1 o with
        | ok c2 => exact ⟨c2, rfl⟩
        | _ => simp [run, hp] at hc
      | _ => rw [hr] at hc; cases hc
    · intro ha
      have ha : Allowed e (o :: h.reverse) := ha
      obtain ⟨c1, hr⟩ := ih.2 (allowed_tail ha)
      obtain ⟨c2, hp⟩ := (perform_ok (inv_run hr) (allowed_tail ha) o).2 ha
      exact ⟨c2, by simp [hr, run, hp]⟩

theorem anyGroup_iff (e : MeshEnv) (gs : List String) (hv : ∀ g ∈ gs, ∃ ps, e.group g = some (.cell ps)) :
    ∃ b, CellBox.anyGroupNonEmpty e gs = .ok b ∧
      (b = true ↔ ∃ g ∈ gs, ∃ ps, e.group g = some (.cell ps) ∧ ∃ p, p ∈ ps) := by
  induction gs with
  | nil => exact ⟨false, rfl, by simp⟩
  | cons g gs ih =>
    obtain ⟨ps, hps⟩ := hv g (by simp)
    obtain ⟨b, hb, hb'⟩ := ih (fun q hq => hv q (List.mem_cons_of_mem _ hq))
    cases ps with
    | nil => exact ⟨b, by simp [CellBox.anyGroupNonEmpty, hps, hb], by simp [hb', hps]⟩
    | cons p ps =>
      refine ⟨true, by simp [CellBox.anyGroupNonEmpty, hps], ?_⟩
      simp only [true_iff]
      exact ⟨g, by simp, _, hps, p, by simp⟩

/-- **C17**, emptiness: a container is told empty of cells exactly when it has no cell, neither
directly nor through its groups. -/
theorem C17_empty (e : MeshEnv) (h : List Op) (c : NodeBox) (hr : run e .init h = .ok c) (hl : Live e h) :
    ∃ b, c.base.empty e = .ok b ∧ (b = true ↔ ∀ p, ¬ (DirectCell p h.reverse ∨ GroupCell e p h)) := by
  have hi := inv_run hr
  obtain ⟨b, hb, hb'⟩ := anyGroup_iff e c.base.groups
    (fun g hg => hl.cellGroups g (by simpa using (hi.groups g).1 hg))
  unfold CellBox.empty CellBox.hasCellsIncludingGroups
  cases hcs : c.base.cells with
  | nil =>
    refine ⟨!b, by simp [hb], ?_⟩
    have hno : ∀ p, ¬ DirectCell p h.reverse := fun p hp => by
      have := (hi.cells p).2 hp
      rw [hcs] at this
      cases this
    have hg : b = true ↔ ∃ p, GroupCell e p h := by
      rw [hb']
      constructor
      · rintro ⟨g, hg, ps, h1, p, h2⟩
        exact ⟨p, g, ps, by simpa using (hi.groups g).1 hg, h1, h2⟩
      · rintro ⟨p, g, ps, hg, h1, h2⟩
        exact ⟨g, (hi.groups g).2 (by simpa using hg), ps, h1, p, h2⟩
    cases b
    · simp only [Bool.false_eq_true, false_iff, not_exists] at hg
      simp [hno, hg]
    · obtain ⟨p, hp⟩ := hg.1 rfl
      simp only [Bool.not_true, Bool.false_eq_true, false_iff]
      exact fun hall => hall p (Or.inr hp)
  | cons p ps =>
    refine ⟨false, by simp, ?_⟩
    simp only [Bool.false_eq_true, false_iff]
    exact fun hall => hall p (Or.inl ((hi.cells p).1 (by simp [hcs])))

/-- Adding a container of cells gives the union. -/
theorem C17_add_cells (e : MeshEnv) (c d : CellBox) (p : Nat) :
    (p ∈ (c.add d).positionsExcluding ↔ p ∈ c.positionsExcluding ∨ p ∈ d.positionsExcluding) ∧
    (p ∈ (c.add d).positionsIncluding e ↔ p ∈ c.positionsIncluding e ∨ p ∈ d.positionsIncluding e) := by
  constructor
  · simp [CellBox.add, CellBox.positionsExcluding, or_comm]
  · simp only [CellBox.add, CellBox.positionsIncluding, List.mem_append, List.mem_flatMap]
    grind

/-- Adding a container of nodes gives the union of the nodes, provided the added container has no
cell group. -/
theorem C17_add_nodes_partial (e : MeshEnv) (c d c' : NodeBox) (rc rd : List Nat) (hg : d.base.groups = [])
    (hc : c.nodesIncluding e = .ok rc) (hd : d.nodesIncluding e = .ok rd) (ha : c.add d e = .ok c') :
    ∃ r, c'.nodesIncluding e = .ok r ∧ ∀ n, n ∈ r ↔ n ∈ rc ∨ n ∈ rd := by
  have happ : ∀ l1 l2 r1 r2, NodeBox.groupNodes e l1 = .ok r1 → NodeBox.groupNodes e l2 = .ok r2 →
      NodeBox.groupNodes e (l1 ++ l2) = .ok (r1 ++ r2) := by
    intro l1
    induction l1 with
    | nil => intro l2 r1 r2 h1 h2; cases h1; simpa using h2
    | cons g l1 ih =>
      intro l2 r1 r2 h1 h2
      simp only [NodeBox.groupNodes, List.cons_append] at h1 ⊢
      split at h1
      · rename_i ps hps
        cases h3 : NodeBox.groupNodes e l1 with
        | ok x =>
          rw [h3] at h1
          simp only [Outcome.bind_ok, Outcome.ok.injEq] at h1
          subst h1
          rw [ih l2 x r2 h3 h2]
          simp
        | _ => rw [h3] at h1; cases h1
      · cases h1
  unfold NodeBox.nodesIncluding at hc hd ⊢
  cases h1 : NodeBox.groupNodes e c.nodeGroups with
  | ok gc =>
    cases h2 : c.base.nodesIncluding e with
    | ok cc =>
      cases h3 : NodeBox.groupNodes e d.nodeGroups with
      | ok gd =>
        cases h4 : d.base.nodesIncluding e with
        | ok cd =>
          simp only [h1, h2, h3, h4, Outcome.bind_ok, Outcome.ok.injEq] at hc hd
          subst hc; subst hd
          have h5 : d.base.nodesExcluding e = .ok cd := by
            rw [← h4]
            simp [CellBox.nodesExcluding, CellBox.nodesIncluding, CellBox.positionsIncluding, hg]
          unfold NodeBox.add NodeBox.nodesExcluding at ha
          have h6 : ∃ ps, c' = { c with nodes := ps ++ c.nodes, nodeGroups := d.nodeGroups ++ c.nodeGroups } ∧
              ∀ n, n ∈ ps ↔ n ∈ d.nodes ∨ n ∈ cd := by
            unfold CellBox.empty CellBox.hasCellsIncludingGroups at ha
            by_cases hce : d.base.cells.isEmpty = true
            · have hnil : d.base.cells = [] := by simpa using hce
              have hcd : cd = [] := by
                simpa [CellBox.nodesExcluding, hnil, CellBox.nodesOf] using h5.symm
              simp [hce, hg, CellBox.anyGroupNonEmpty] at ha
              exact ⟨_, ha.symm, by simp [hcd]⟩
            · simp [hce, h5] at ha
              refine ⟨d.nodes ++ cd, by rw [← ha]; simp, by simp⟩
          obtain ⟨ps, h7, h8⟩ := h6
          subst h7
          simp only [happ _ _ _ _ h3 h1, h2, Outcome.bind_ok, Outcome.ok.injEq, exists_eq_left']
          intro n
          simp only [List.mem_append, h8]
          grind
        | _ => simp [h3, h4] at hd
      | _ => simp [h3] at hd
    | _ => simp [h1, h2] at hc
  | _ => simp [h1] at hc

/-- A mesh with two cells and one group of each kind. -/
def sample : MeshEnv where
  group := fun g => if g = "G" then some (.cell [1]) else if g = "N" then some (.node [7, 8]) else none
  cellNodes := fun p => if p = 0 then some [1, 2] else if p = 1 then some [3, 4] else none

/-- "containsCellPosition agrees with the positions including groups" is false: a cell of an added
group is not contained. -/
theorem C17_contains_false :
    ∃ c, run sample .init [.cell 0, .cellGroup "G"] = .ok c ∧ 1 ∈ c.base.positionsIncluding sample ∧
      c.base.containsCellPosition 1 = false := ⟨_, rfl, by decide, rfl⟩

/-- Adding a container of nodes loses the nodes of its cell groups. -/
theorem C17_add_nodes_false :
    ∃ d c r, run sample .init [.cellGroup "G"] = .ok d ∧ d.nodesIncluding sample = .ok [3, 4] ∧
      NodeBox.init.add d sample = .ok c ∧ c.nodesIncluding sample = .ok r ∧ r = [] :=
  ⟨_, _, _, rfl, rfl, rfl, rfl, rfl⟩

/-- Removing a node that is not a direct member is undefined behaviour. -/
theorem C17_remove_absent_node_false (e : MeshEnv) (c : NodeBox) (p : Nat) (h : p ∉ c.nodes) :
    c.removeNodePosition p = .ub := by simp [NodeBox.removeNodePosition, h]

/-- Asking for emptiness after the removal of an added group is undefined behaviour. -/
theorem C17_removed_group_false :
    ∃ c, run sample .init [.cellGroup "G"] = .ok c ∧
      c.base.empty { sample with group := fun _ => none } = .ub := ⟨_, rfl, rfl⟩

/-- A history that is refused, and an empty container with a group. -/
example : ¬ (∃ c, run sample .init [.cellGroup "X"] = .ok c) ∧
    (∃ c, run sample .init [.cell 0, .cellGroup "G", .removeAllCells] = .ok c ∧ c.base.empty sample = .ok false) ∧
    (∃ c, run sample .init [.node 3, .cell 0, .removeCell 0] = .ok c ∧ c.base.empty sample = .ok true) :=
  ⟨by rw [C17_accepted]; simp [Allowed, sample], ⟨_, rfl, rfl⟩, ⟨_, rfl, rfl⟩⟩

/-- The hypotheses of the theorems are met by this history. -/
example : ∃ c, run sample .init [.cell 0, .cell 1, .removeCell 1, .cellGroup "G", .node 9, .nodeGroup "N"] = .ok c ∧
    Live sample [.cell 0, .cell 1, .removeCell 1, .cellGroup "G", .node 9, .nodeGroup "N"] ∧
    c.nodesIncluding sample = .ok [9, 7, 8, 1, 2, 3, 4] := by
  refine ⟨_, rfl, ⟨?_, ?_, ?_⟩, rfl⟩
  · rintro p (h | ⟨g, ps, h1, h2, h3⟩)
    · simp [DirectCell] at h
      rcases h with ⟨h1, rfl | rfl⟩ <;> simp_all [sample]
    · simp at h1
      subst h1
      simp [sample] at h2
      subst h2
      simp at h3
      subst h3
      simp [sample]
  · intro g hg
    simp at hg
    subst hg
    exact ⟨_, rfl⟩
  · intro g hg
    simp at hg
    subst hg
    exact ⟨_, rfl⟩

end Vega.BoxSpec
