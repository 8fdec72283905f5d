import Verif.Mesh.Cells
import Verif.Mesh.NodeProps

/-! # C12 (cells), C13, C14, C15, C20 -/
namespace Vega.CellSpec
open Vega.Mesh

/-- What the caller gave for a cell. -/
structure Given where
  id : Int
  type : CellType
  nodeIds : List Int
  elementId : Option Int
  offset : Dbl

/-- A connectivity the caller may give: right length, no reserved id. -/
def Given.Valid (c : Given) : Prop :=
  c.nodeIds.length = c.type.numNodes ∧ ∀ i ∈ c.nodeIds, i ≠ AUTO_ID

/-- Histories of a mesh: `Reach m g` when `m` is obtained by node operations, cell creations
with unused or automatic ids, cell updates and group operations, the cells given being
`g`, one for each cell position. The updates are to volume types. -/
inductive Reach : Mesh → List Given → Prop
  | empty (auto part autoCell : Int) : Reach (Mesh.init (NodeSpec.empty auto part) autoCell) []
  | node {m g n p} (r : Reach m g) (o : NodeSpec.Op) (hv : o.act.Valid)
      (h : o.act.perform (NodeSpec.shift m.nodes o.dn o.dp) = .ok (n, p)) : Reach { m with nodes := n } g
  | elsewhere {m g} (r : Reach m g) (d : Nat) : Reach { m with autoCellId := m.autoCellId - d } g
  | add {m g m' p} (r : Reach m g) (c : Given) (hv : c.Valid) (hid : c.id ≠ AUTO_ID)
      (hnew : m.hasCell c.id = false)
      (h : m.addCell c.id c.type c.nodeIds c.elementId c.offset = .ok (m', p)) : Reach m' (g ++ [c])
  | create {m g m' p} (r : Reach m g) (c : Given) (hv : c.Valid)
      (h : m.addCell AUTO_ID c.type c.nodeIds c.elementId c.offset = .ok (m', p))
      (hid : m'.findCellId p = .ok c.id) : Reach m' (g ++ [c])
  | update {m g m' p} (r : Reach m g) (c : Given) (hv : c.Valid) (hd : c.type.dim = 3)
      (h : m.updateCell c.id c.type c.nodeIds c.elementId = .ok (m', p)) : Reach m' (g ++ [c])
  | newGroup {m g m'} (r : Reach m g) (name : String) (h : m.createCellGroup name = .ok m') : Reach m' g
  | group {m g m' p} (r : Reach m g) (name : String) (id : Int) (hp : m.findCellPosition id = some p)
      (h : m.addToGroup name p = .ok m') : Reach m' g

/-- Histories without update. -/
inductive ReachAdd : Mesh → List Given → Prop
  | empty (auto part autoCell : Int) : ReachAdd (Mesh.init (NodeSpec.empty auto part) autoCell) []
  | node {m g n p} (r : ReachAdd m g) (o : NodeSpec.Op) (hv : o.act.Valid)
      (h : o.act.perform (NodeSpec.shift m.nodes o.dn o.dp) = .ok (n, p)) : ReachAdd { m with nodes := n } g
  | elsewhere {m g} (r : ReachAdd m g) (d : Nat) : ReachAdd { m with autoCellId := m.autoCellId - d } g
  | add {m g m' p} (r : ReachAdd m g) (c : Given) (hv : c.Valid) (hid : c.id ≠ AUTO_ID)
      (hnew : m.hasCell c.id = false)
      (h : m.addCell c.id c.type c.nodeIds c.elementId c.offset = .ok (m', p)) : ReachAdd m' (g ++ [c])
  | create {m g m' p} (r : ReachAdd m g) (c : Given) (hv : c.Valid)
      (h : m.addCell AUTO_ID c.type c.nodeIds c.elementId c.offset = .ok (m', p))
      (hid : m'.findCellId p = .ok c.id) : ReachAdd m' (g ++ [c])

theorem ReachAdd.reach {m : Mesh} {g : List Given} (r : ReachAdd m g) : Reach m g := by
  induction r with
  | empty a b c => exact .empty a b c
  | node _ o hv h ih => exact .node ih o hv h
  | elsewhere _ d ih => exact .elsewhere ih d
  | add _ c hv hid hnew h ih => exact .add ih c hv hid hnew h
  | create _ c hv h hid ih => exact .create ih c hv h hid

/-! ## Invariant -/

def ofType (g : List Given) (t : CellType) : List Given := g.filter fun c => c.type = t

theorem ofType_append (g : List Given) (c : Given) (t : CellType) :
    ofType (g ++ [c]) t = if c.type = t then ofType g t ++ [c] else ofType g t := by
  unfold ofType
  by_cases h : c.type = t <;> simp [h]

theorem ofType_get (g : List Given) (i : Nat) (c : Given) (h : g[i]? = some c) :
    (ofType g c.type)[(ofType (g.take i) c.type).length]? = some c := by
  have hlt : i < g.length := by
    by_contra hc
    rw [List.getElem?_eq_none (by omega)] at h
    cases h
  have hsplit : g = g.take i ++ c :: g.drop (i + 1) := by
    conv_lhs => rw [← List.take_append_drop i g]
    rw [List.drop_eq_getElem_cons hlt]
    have : g[i] = c := by
      rw [List.getElem?_eq_getElem hlt] at h
      exact Option.some.inj h
    rw [this]
  have e : ofType g c.type = ofType (g.take i) c.type ++ c :: ofType (g.drop (i + 1)) c.type := by
    conv_lhs => rw [hsplit]
    simp [ofType]
  rw [e]
  simp

/-- A slice of a concatenation of lists of the same length. -/
theorem slice_flatMap {α β : Type} (f : α → List β) (n : Nat) (l : List α) (hl : ∀ a ∈ l, (f a).length = n)
    (k : Nat) (a : α) (hk : l[k]? = some a) :
    k * n + n ≤ (l.flatMap f).length ∧ ((l.flatMap f).drop (k * n)).take n = f a := by
  induction l generalizing k with
  | nil => simp at hk
  | cons x l ih =>
    have hx : (f x).length = n := hl x (by simp)
    cases k with
    | zero =>
      simp at hk
      subst hk
      simp [List.flatMap_cons, hx]
    | succ k =>
      simp at hk
      obtain ⟨h1, h2⟩ := ih (fun a ha => hl a (by simp [ha])) k hk
      have e : (k + 1) * n = (f x).length + k * n := by rw [hx, Nat.add_mul]; omega
      constructor
      · rw [List.flatMap_cons, List.length_append, e]; omega
      · rw [List.flatMap_cons, e, List.drop_append]
        simp only [Nat.add_sub_cancel_left]
        rw [List.drop_eq_nil_of_le (by omega)]
        simpa using h2

structure CInv (m : Mesh) (g : List Given) : Prop where
  nodes : NodeStore.Inv m.nodes
  size : m.cellDatas.length = g.length
  datas : ∀ (i : Nat) (c : Given), g[i]? = some c →
    m.cellDatas[i]? = some ⟨c.id, c.type, c.elementId, (ofType (g.take i) c.type).length⟩
  lens : ∀ c ∈ g, c.nodeIds.length = c.type.numNodes
  pos : ∀ t, m.positionsByType t = (g.zipIdx.filter fun e => e.1.type = t).map (·.2)
  conn : ∀ t, ((m.nodePosByType t).getD []).map (fun p => m.nodes.ids[p]?)
      = ((ofType g t).flatMap (·.nodeIds)).map some ∧
    (m.nodePosByType t = none → ofType g t = [])
  add : ∀ t, t.dim ≠ 3 → (m.additional t).getD [] = (ofType g t).map (fun c => if t.dim = 2 then c.offset else 0) ∧
    (m.additional t = none → ofType g t = [])
  wf : Map.WF m.cellPosById
  index : ∀ id p, m.cellPosById.find id = some p ↔
    (∃ c, g[p]? = some c ∧ c.id = id) ∧ ∀ (q : Nat) (c : Given), p < q → g[q]? = some c → c.id ≠ id

theorem CInv.countType {m : Mesh} {g : List Given} (h : CInv m g) (t : CellType) :
    (m.positionsByType t).length = (ofType g t).length := by
  rw [h.pos t, List.length_map, ofType]
  have : ∀ (l : List Given) (n : Nat), ((l.zipIdx n).filter fun e => e.1.type = t).length =
      (l.filter fun c => c.type = t).length := by
    intro l
    induction l with
    | nil => intro n; simp
    | cons x l ih =>
      intro n
      simp only [List.zipIdx_cons, List.filter_cons]
      split <;> simp [ih]
  exact this g 0

theorem reserveAll_spec (is : List Int) (hv : ∀ i ∈ is, i ≠ AUTO_ID) (e : Option Int) {n : NodeStore}
    (h : NodeStore.Inv n) :
    ∃ n' ps, reserveAll n e is = .ok (n', ps) ∧ NodeStore.Inv n' ∧ n.ids <+: n'.ids ∧
      ps.map (fun p => n'.ids[p]?) = is.map some := by
  induction is generalizing n with
  | nil => exact ⟨n, [], rfl, h, List.prefix_rfl, rfl⟩
  | cons i is ih =>
    obtain ⟨n1, p, h1, h2, h3, h4, _⟩ := NodeStore.reserve_spec h i (hv i (by simp)) e
    obtain ⟨n2, ps, g1, g2, g3, g4⟩ := ih (fun i hi => hv i (by simp [hi])) h2
    have hpre : n.ids <+: n1.ids := by
      rw [h4]; split
      · exact List.prefix_rfl
      · exact List.prefix_append _ _
    refine ⟨n2, p :: ps, ?_, g2, hpre.trans g3, ?_⟩
    · simp only [reserveAll, h1, Outcome.bind_ok, g1]
    · simp only [List.map_cons, g4, NodeSpec.prefix_get g3 h3]

theorem reserveAllTwice_spec (is : List Int) (hv : ∀ i ∈ is, i ≠ AUTO_ID) {n : NodeStore}
    (h : NodeStore.Inv n) :
    ∃ n' ps, reserveAllTwice n is = .ok (n', ps) ∧ NodeStore.Inv n' ∧ n.ids <+: n'.ids ∧
      ps.map (fun p => n'.ids[p]?) = is.map some := by
  induction is generalizing n with
  | nil => exact ⟨n, [], rfl, h, List.prefix_rfl, rfl⟩
  | cons i is ih =>
    obtain ⟨n0, p0, k1, k2, k3, k4, _⟩ := NodeStore.reserve_spec h i (hv i (by simp)) none
    obtain ⟨n1, p, h1, h2, h3, h4, _⟩ := NodeStore.reserve_spec k2 i (hv i (by simp)) none
    obtain ⟨n2, ps, g1, g2, g3, g4⟩ := ih (fun i hi => hv i (by simp [hi])) h2
    have hpre0 : n.ids <+: n0.ids := by
      rw [k4]; split
      · exact List.prefix_rfl
      · exact List.prefix_append _ _
    have hpre : n0.ids <+: n1.ids := by
      rw [h4]; split
      · exact List.prefix_rfl
      · exact List.prefix_append _ _
    refine ⟨n2, p :: ps, ?_, g2, (hpre0.trans hpre).trans g3, ?_⟩
    · simp only [reserveAllTwice, k1, h1, Outcome.bind_ok, g1]
    · simp only [List.map_cons, g4, NodeSpec.prefix_get g3 h3]

theorem map_prefix {ids ids' : List Int} (h : ids <+: ids') {ps : List Nat} {l : List Int}
    (hp : ps.map (fun p => ids[p]?) = l.map some) : ps.map (fun p => ids'[p]?) = l.map some := by
  rw [← hp]
  apply List.map_congr_left
  intro q hq
  have : ids[q]? ∈ l.map some := by rw [← hp]; exact List.mem_map.mpr ⟨q, hq, rfl⟩
  obtain ⟨j, _, hj⟩ := List.mem_map.mp this
  rw [← hj]
  exact NodeSpec.prefix_get h hj.symm

theorem CInv.withNodes {m : Mesh} {g : List Given} (h : CInv m g) {n : NodeStore} (hn : NodeStore.Inv n)
    (hp : m.nodes.ids <+: n.ids) : CInv { m with nodes := n } g :=
  ⟨hn, h.size, h.datas, h.lens, h.pos, fun t => ⟨map_prefix hp (h.conn t).1, (h.conn t).2⟩, h.add, h.wf, h.index⟩

/-- Storing one more cell. -/
theorem CInv.push {m m' : Mesh} {g : List Given} (h : CInv m g) (c : Given)
    (hlen : c.nodeIds.length = c.type.numNodes) (n : NodeStore) (ps : List Nat)
    (hn : NodeStore.Inv n) (hp : m.nodes.ids <+: n.ids) (hps : ps.map (fun p => n.ids[p]?) = c.nodeIds.map some)
    (e1 : m'.nodes = n) (e2 : m'.cellPosById = m.cellPosById.set c.id m.cellDatas.length)
    (e3 : m'.positionsByType = upd m.positionsByType c.type (m.positionsByType c.type ++ [m.cellDatas.length]))
    (e4 : m'.nodePosByType = upd m.nodePosByType c.type (some ((m.nodePosByType c.type).getD [] ++ ps)))
    (e5 : ∀ t, t.dim ≠ 3 → m'.additional t = upd m.additional c.type
      (some ((m.additional c.type).getD [] ++ [if c.type.dim = 2 then c.offset else 0])) t)
    (e6 : m'.cellDatas = m.cellDatas ++ [⟨c.id, c.type, c.elementId, (m.positionsByType c.type).length⟩]) :
    CInv m' (g ++ [c]) := by
  refine ⟨e1 ▸ hn, ?_, ?_, ?_, ?_, ?_, ?_, ?_, ?_⟩
  · rw [e6]; simp [h.size]
  · intro i c' hi
    rcases Nat.lt_trichotomy i g.length with hl | hl | hl
    · rw [List.getElem?_append_left hl] at hi
      rw [e6, List.getElem?_append_left (by rw [h.size]; exact hl), h.datas i c' hi,
        List.take_append_of_le_length (by omega)]
    · subst hl
      have : c' = c := by simpa using hi.symm
      subst this
      rw [e6, List.getElem?_append_right (by rw [h.size]), h.size, h.countType]
      simp
    · rw [List.getElem?_eq_none (by simp; omega)] at hi; cases hi
  · intro c' hc'
    simp only [List.mem_append, List.mem_singleton] at hc'
    rcases hc' with hc' | rfl
    · exact h.lens c' hc'
    · exact hlen
  · intro t
    rw [e3]
    unfold upd
    rw [List.zipIdx_append, List.filter_append, List.map_append]
    by_cases ht : t = c.type
    · subst ht
      rw [if_pos rfl, h.pos]
      simp [h.size]
    · rw [if_neg ht, h.pos]
      simp [Ne.symm ht]
  · intro t
    rw [e4, e1, ofType_append]
    unfold upd
    by_cases ht : t = c.type
    · subst ht
      simp only [if_true, Option.getD_some, List.map_append, List.flatMap_append]
      refine ⟨?_, by simp⟩
      rw [map_prefix hp (h.conn c.type).1, hps]
      simp
    · rw [if_neg ht, if_neg (Ne.symm ht)]
      exact ⟨map_prefix hp (h.conn t).1, (h.conn t).2⟩
  · intro t hd
    rw [e5 t hd, ofType_append]
    unfold upd
    by_cases ht : t = c.type
    · subst ht
      simp only [if_true, Option.getD_some, List.map_append, (h.add _ hd).1]
      exact ⟨rfl, by simp⟩
    · rw [if_neg ht, if_neg (Ne.symm ht)]
      exact h.add t hd
  · rw [e2]; exact Map.wf_set _ _ _ h.wf
  · intro id p
    rw [e2, Map.find_set]
    by_cases hid : c.id = id
    · rw [if_pos hid]
      simp only [Option.some.injEq]
      constructor
      · rintro rfl
        refine ⟨⟨c, by rw [h.size]; simp, hid⟩, ?_⟩
        intro q c' hq hc'
        rw [h.size] at hq
        rw [List.getElem?_eq_none (by simp; omega)] at hc'
        cases hc'
      · rintro ⟨⟨c', h1, _⟩, h2⟩
        rw [h.size]
        rcases Nat.lt_trichotomy p g.length with hl | hl | hl
        · exact absurd hid (h2 g.length c hl (by simp))
        · exact hl.symm
        · rw [List.getElem?_eq_none (by simp; omega)] at h1; cases h1
    · rw [if_neg hid, h.index]
      constructor
      · rintro ⟨⟨c', h1, h2⟩, h3⟩
        refine ⟨⟨c', NodeSpec.prefix_get (List.prefix_append _ _) h1, h2⟩, ?_⟩
        intro q c'' hq hc''
        rcases Nat.lt_trichotomy q g.length with hl | hl | hl
        · rw [List.getElem?_append_left hl] at hc''
          exact h3 q c'' hq hc''
        · subst hl
          have : c'' = c := by simpa using hc''.symm
          subst this
          exact hid
        · rw [List.getElem?_eq_none (by simp; omega)] at hc''; cases hc''
      · rintro ⟨⟨c', h1, h2⟩, h3⟩
        rcases Nat.lt_trichotomy p g.length with hl | hl | hl
        · rw [List.getElem?_append_left hl] at h1
          refine ⟨⟨c', h1, h2⟩, ?_⟩
          intro q c'' hq hc''
          exact h3 q c'' hq (NodeSpec.prefix_get (List.prefix_append _ _) hc'')
        · subst hl
          have : c' = c := by simpa using h1.symm
          subst this
          exact absurd h2 hid
        · rw [List.getElem?_eq_none (by simp; omega)] at h1; cases h1

theorem addCell_eq {m : Mesh} {g : List Given} (h : CInv m g) (id0 : Int) (c : Given) (hv : c.Valid) (cid auto : Int)
    (hpick : m.pickCellId id0 = .ok (cid, auto)) :
    ∃ m' , m.addCell id0 c.type c.nodeIds c.elementId c.offset = .ok (m', g.length) ∧
      m'.cellGroups = m.cellGroups ∧
      CInv m' (g ++ [{ c with id := cid }]) := by
  obtain ⟨n, ps, h1, h2, h3, h4⟩ := reserveAll_spec c.nodeIds hv.2 c.elementId h.nodes
  unfold addCell
  rw [hpick]
  simp only [Outcome.bind_ok, h1]
  rw [h.size.symm]
  refine ⟨_, rfl, rfl, ?_⟩
  refine h.push { c with id := cid } hv.1 n ps h2 h3 h4 rfl rfl rfl rfl ?_ rfl
  intro t ht
  simp only
  by_cases hd : c.type.dim = 3
  · rw [if_pos hd]
    unfold upd
    rw [if_neg (by rintro rfl; exact ht hd)]
  · rw [if_neg hd]

theorem updateCell_eq {m : Mesh} {g : List Given} (h : CInv m g) (c : Given) (hv : c.Valid) (hd : c.type.dim = 3)
    (hid : c.id ≠ AUTO_ID) (old : Nat) (hold : m.findCellPosition c.id = some old) :
    ∃ m', m.updateCell c.id c.type c.nodeIds c.elementId = .ok (m', g.length) ∧
      m'.cellGroups = m.cellGroups.map (fun e => (e.1, moveInGroup old g.length e.2)) ∧
      CInv m' (g ++ [c]) := by
  obtain ⟨n, ps, h1, h2, h3, h4⟩ := reserveAllTwice_spec c.nodeIds hv.2 h.nodes
  unfold updateCell
  rw [if_neg hid, hold]
  simp only [Outcome.bind_ok, h1]
  rw [h.size.symm]
  refine ⟨_, rfl, rfl, ?_⟩
  refine h.push c hv.1 n ps h2 h3 h4 rfl rfl rfl rfl ?_ rfl
  intro t ht
  unfold upd
  rw [if_neg (by rintro rfl; exact ht hd)]

theorem pickCellId_spec (m : Mesh) (id : Int) :
    ∃ cid auto, m.pickCellId id = .ok (cid, auto) ∧ (id ≠ AUTO_ID → cid = id) ∧
      (id = AUTO_ID → m.cellPosById.find cid = none) := by
  unfold pickCellId
  by_cases h : id = AUTO_ID
  · rw [if_pos h]
    obtain ⟨i, h1, h2, _⟩ := searchAuto_spec m.cellPosById m.autoCellId
    exact ⟨i, i - 1, h1, fun hc => absurd h hc, fun _ => h2⟩
  · rw [if_neg h]
    exact ⟨id, _, rfl, fun _ => rfl, fun hc => absurd hc h⟩

theorem CInv.findCellId {m : Mesh} {g : List Given} (h : CInv m g) (p : Nat) (c : Given) (hc : g[p]? = some c) :
    m.findCellId p = .ok c.id := by
  simp [Mesh.findCellId, h.datas p c hc]

theorem add_step {m m' : Mesh} {g : List Given} {p : Nat} (ih : CInv m g) (c : Given) (hv : c.Valid) (hid : c.id ≠ AUTO_ID)
    (h : m.addCell c.id c.type c.nodeIds c.elementId c.offset = .ok (m', p)) :
    CInv m' (g ++ [c]) ∧ p = g.length ∧ m'.cellGroups = m.cellGroups := by
  obtain ⟨cid, auto, h1, h2, _⟩ := pickCellId_spec m c.id
  obtain ⟨m2, h4, h5, h6⟩ := addCell_eq ih c.id c hv cid auto h1
  rw [h4] at h
  simp only [Outcome.ok.injEq, Prod.mk.injEq] at h
  obtain ⟨rfl, rfl⟩ := h
  rw [h2 hid] at h6
  exact ⟨h6, rfl, h5⟩

theorem create_step {m m' : Mesh} {g : List Given} {p : Nat} (ih : CInv m g) (c : Given) (hv : c.Valid)
    (h : m.addCell AUTO_ID c.type c.nodeIds c.elementId c.offset = .ok (m', p))
    (hid : m'.findCellId p = .ok c.id) :
    CInv m' (g ++ [c]) ∧ p = g.length ∧ m.cellPosById.find c.id = none ∧ m'.cellGroups = m.cellGroups := by
  obtain ⟨cid, auto, h1, _, h3⟩ := pickCellId_spec m AUTO_ID
  obtain ⟨m2, h4, h5, h6⟩ := addCell_eq ih AUTO_ID c hv cid auto h1
  rw [h4] at h
  simp only [Outcome.ok.injEq, Prod.mk.injEq] at h
  obtain ⟨rfl, rfl⟩ := h
  have := h6.findCellId g.length { c with id := cid } (by simp)
  rw [hid] at this
  simp only [Outcome.ok.injEq] at this
  subst this
  exact ⟨h6, rfl, h3 rfl, h5⟩

theorem update_step {m m' : Mesh} {g : List Given} {p : Nat} (ih : CInv m g) (c : Given) (hv : c.Valid) (hd : c.type.dim = 3)
    (h : m.updateCell c.id c.type c.nodeIds c.elementId = .ok (m', p)) :
    ∃ old, m.findCellPosition c.id = some old ∧ p = g.length ∧
      m'.cellGroups = m.cellGroups.map (fun e => (e.1, moveInGroup old g.length e.2)) ∧
      CInv m' (g ++ [c]) := by
  by_cases hid : c.id = AUTO_ID
  · simp [updateCell, hid] at h
  · cases hf : m.findCellPosition c.id with
    | none => simp [updateCell, hid, hf] at h
    | some old =>
      obtain ⟨m2, h1, h2, h3⟩ := updateCell_eq ih c hv hd hid old hf
      rw [h1] at h
      simp only [Outcome.ok.injEq, Prod.mk.injEq] at h
      obtain ⟨rfl, rfl⟩ := h
      exact ⟨old, rfl, rfl, h2, h3⟩

theorem createCellGroup_frame {m m' : Mesh} {name : String} (h : m.createCellGroup name = .ok m') :
    ∃ gs, m' = { m with cellGroups := gs } := by
  unfold createCellGroup at h
  split at h
  · cases h
  · split at h
    · cases h
    · simp only [Outcome.ok.injEq] at h
      exact ⟨_, h.symm⟩

theorem addToGroup_frame {m m' : Mesh} {name : String} {p : Nat} (h : m.addToGroup name p = .ok m') :
    ∃ gs, m' = { m with cellGroups := gs } := by
  unfold addToGroup at h
  split at h
  · cases h
  · simp only [Outcome.ok.injEq] at h
    exact ⟨_, h.symm⟩

theorem cinv_groups {m : Mesh} {g : List Given} (h : CInv m g) (gs : Map String (List Nat)) :
    CInv { m with cellGroups := gs } g :=
  ⟨h.nodes, h.size, h.datas, h.lens, h.pos, h.conn, h.add, h.wf, h.index⟩

theorem Reach.cinv {m : Mesh} {g : List Given} (r : Reach m g) : CInv m g := by
  induction r with
  | empty auto part autoCell =>
    refine ⟨NodeSpec.inv_empty auto part, rfl, ?_, ?_, ?_, ?_, ?_, ?_, ?_⟩
    · intro i c h; simp at h
    · intro c h; simp at h
    · intro t; rfl
    · intro t; exact ⟨rfl, fun _ => rfl⟩
    · intro t _; exact ⟨rfl, fun _ => rfl⟩
    · simp [Map.WF, Map.keys, Mesh.init]
    · intro id p; simp [Mesh.init]
  | node r o hv h ih =>
    obtain ⟨s', p', id, h1, h2, h3, h4, _⟩ := NodeSpec.perform_spec ih.nodes o hv
    rw [h1] at h
    simp only [Outcome.ok.injEq, Prod.mk.injEq] at h
    obtain ⟨rfl, rfl⟩ := h
    refine ih.withNodes h2 ?_
    rw [h4]; split
    · exact List.prefix_rfl
    · exact List.prefix_append _ _
  | elsewhere r d ih => exact ⟨ih.nodes, ih.size, ih.datas, ih.lens, ih.pos, ih.conn, ih.add, ih.wf, ih.index⟩
  | add r c hv hid hnew h ih => exact (add_step ih c hv hid h).1
  | create r c hv h hid ih => exact (create_step ih c hv h hid).1
  | update r c hv hd h ih =>
    obtain ⟨_, _, _, _, h5⟩ := update_step ih c hv hd h
    exact h5
  | newGroup r name h ih =>
    obtain ⟨gs, rfl⟩ := createCellGroup_frame h
    exact cinv_groups ih gs
  | group r name id hp h ih =>
    obtain ⟨gs, rfl⟩ := addToGroup_frame h
    exact cinv_groups ih gs

theorem readIds_spec (n : NodeStore) (ps : List Nat) (is : List Int)
    (h : ps.map (fun p => n.ids[p]?) = is.map some) : readIds n ps = .ok is := by
  induction ps generalizing is with
  | nil =>
    cases is with
    | nil => rfl
    | cons i is => simp at h
  | cons p ps ih =>
    cases is with
    | nil => simp at h
    | cons i is =>
      simp only [List.map_cons, List.cons.injEq] at h
      simp only [readIds, (NodeSpec.findNodeId_iff n p i).mpr h.1, Outcome.bind_ok, ih is h.2]

/-- What `findCell` gives back. -/
theorem findCell_spec {m : Mesh} {g : List Given} (h : CInv m g) (p : Nat) (c : Given) (hc : g[p]? = some c) :
    ∃ v, m.findCell p = .ok v ∧ v.id = c.id ∧ v.type = c.type ∧ v.nodeIds = c.nodeIds ∧ v.position = p ∧
      v.elementId = c.elementId ∧ v.offset = (if c.type.dim = 2 then some c.offset else none) ∧
      v.nodePositions.map (fun q => m.nodes.ids[q]?) = c.nodeIds.map some := by
  have hk := ofType_get g p c hc
  obtain ⟨hconn, hnone⟩ := h.conn c.type
  have hne : ofType g c.type ≠ [] := by intro e; rw [e] at hk; simp at hk
  have hlens : ∀ a ∈ ofType g c.type, a.nodeIds.length = c.type.numNodes := by
    intro a ha
    have := List.mem_filter.mp ha
    rw [h.lens a this.1]
    simp at this
    rw [this.2]
  obtain ⟨s1, s2⟩ := slice_flatMap (fun c : Given => c.nodeIds) c.type.numNodes _ hlens _ c hk
  unfold findCell
  rw [h.datas p c hc]
  simp only
  cases hl : m.nodePosByType c.type with
  | none => exact absurd (hnone hl) hne
  | some l =>
    rw [hl] at hconn
    simp only [Option.getD_some] at hconn
    have hlen : l.length = ((ofType g c.type).flatMap (·.nodeIds)).length := by
      have := congrArg List.length hconn
      simpa using this
    simp only
    rw [if_neg (by omega)]
    have hps : ((l.drop ((ofType (g.take p) c.type).length * c.type.numNodes)).take c.type.numNodes).map
        (fun q => m.nodes.ids[q]?) = c.nodeIds.map some := by
      rw [List.map_take, List.map_drop, hconn, ← List.map_drop, ← List.map_take, s2]
    rw [readIds_spec m.nodes _ c.nodeIds hps]
    simp only [Outcome.bind_ok]
    unfold readOffset
    by_cases hd : c.type.dim = 3
    · rw [if_pos hd]
      simp only [Outcome.bind_ok]
      exact ⟨_, rfl, rfl, rfl, rfl, rfl, rfl, by rw [if_neg (by omega)], hps⟩
    · rw [if_neg hd]
      obtain ⟨ha, han⟩ := h.add c.type hd
      cases hal : m.additional c.type with
      | none => exact absurd (han hal) hne
      | some al =>
        rw [hal] at ha
        simp only [Option.getD_some] at ha
        simp only [ha, List.getElem?_map, hk, Option.map_some, Outcome.bind_ok]
        refine ⟨_, rfl, rfl, rfl, rfl, rfl, rfl, ?_, hps⟩
        simp only
        split <;> rfl

/-! ## Properties -/

/-- **C13.** In every reachable mesh `findCell` gives back, for every cell position, the id, the
type and the node ids given, in order, and the offset of surface cells. -/
theorem C13_connectivity {m : Mesh} {g : List Given} (r : Reach m g) :
    m.cellDatas.length = g.length ∧
    ∀ p c, g[p]? = some c → ∃ v, m.findCell p = .ok v ∧ v.id = c.id ∧ v.type = c.type ∧
      v.nodeIds = c.nodeIds ∧ v.elementId = c.elementId ∧
      v.offset = (if c.type.dim = 2 then some c.offset else none) ∧
      v.nodePositions.map m.nodes.findNodeId = c.nodeIds.map .ok := by
  refine ⟨r.cinv.size, ?_⟩
  intro p c hc
  obtain ⟨v, h1, h2, h3, h4, _, h6, h7, h8⟩ := findCell_spec r.cinv p c hc
  refine ⟨v, h1, h2, h3, h4, h6, h7, ?_⟩
  have : ∀ (ps : List Nat) (is : List Int), ps.map (fun q => m.nodes.ids[q]?) = is.map some →
      ps.map m.nodes.findNodeId = is.map .ok := by
    intro ps
    induction ps with
    | nil => intro is h; cases is <;> simp_all
    | cons p ps ih =>
      intro is h
      cases is with
      | nil => simp at h
      | cons j is =>
        simp only [List.map_cons, List.cons.injEq] at h ⊢
        exact ⟨(NodeSpec.findNodeId_iff _ p j).mpr h.1, ih is h.2⟩
  exact this _ _ h8

/-- No operation of a history fails: `addCell` returns the next position. -/
theorem C13_add_succeeds {m : Mesh} {g : List Given} (r : Reach m g) (id : Int) (c : Given) (hv : c.Valid) :
    ∃ m', m.addCell id c.type c.nodeIds c.elementId c.offset = .ok (m', g.length) := by
  obtain ⟨cid, auto, h1, _⟩ := pickCellId_spec m id
  obtain ⟨m', h2, _⟩ := addCell_eq r.cinv id c hv cid auto h1
  exact ⟨m', h2⟩

/-- A cell with a wrong number of nodes corrupts the cells of its type added after it: with a
`SEG2` of one node (as in Model.cpp 1245) the next `SEG2` is read with wrong nodes, and the last
read is out of bounds. The length check is only made at the TRACE log level. -/
theorem C13_wrong_length_false :
    ∃ m1 p1 m2 p2, (Mesh.init NodeStore.init 9999999).addCell 1 .seg2 [10] none 0 = .ok (m1, p1) ∧
      m1.addCell 2 .seg2 [20, 30] none 0 = .ok (m2, p2) ∧
      (∃ v, m2.findCell 0 = .ok v ∧ v.nodeIds = [10, 20]) ∧ m2.findCell 1 = .ub :=
  ⟨_, _, _, _, rfl, rfl, ⟨_, rfl, rfl⟩, rfl⟩

/-- **C14.** After cell creations with unused or automatic ids. -/
theorem C14_ids_positions {m : Mesh} {g : List Given} (r : ReachAdd m g) :
    m.countCells = g.length ∧
    (∀ p, p < m.countCells → ∃ id, m.findCellId p = .ok id ∧ m.findCellPosition id = some p) ∧
    (∀ id p, m.findCellPosition id = some p → p < m.countCells ∧ m.findCellId p = .ok id) ∧
    (∀ id, m.hasCell id = true ↔ ∃ c ∈ g, c.id = id) ∧
    (∀ t, m.countCellsOfType t = (g.filter fun c => c.type = t).length) ∧
    (∀ t (i : Nat) p, (m.positionsByType t)[i]? = some p → ∃ v, m.findCell p = .ok v ∧ v.type = t) := by
  have key : m.cellPosById = (g.map (·.id)).zipIdx ∧ (g.map (·.id)).Nodup := by
    have hgen : ∀ {m : Mesh} {g : List Given} (c : Given), CInv m g →
        m.cellPosById = (g.map (·.id)).zipIdx → (g.map (·.id)).Nodup → m.cellPosById.find c.id = none →
        m.cellPosById.set c.id m.cellDatas.length = ((g ++ [c]).map (·.id)).zipIdx ∧ ((g ++ [c]).map (·.id)).Nodup := by
      intro m g c hc hi hn hnew
      have hnot : c.id ∉ g.map (·.id) := by
        rw [Map.find_eq_none_iff, hi, Map.keys_zipIdx] at hnew
        exact hnew
      constructor
      · have := Map.set_zipIdx (g.map (·.id)) 0 c.id hnot
        rw [← hi] at this
        rw [List.map_append, hc.size]
        simpa using this
      · rw [List.map_append, List.nodup_append]
        refine ⟨hn, by simp, ?_⟩
        intro a ha b hb hab
        simp at hb
        subst hb; subst hab
        exact hnot ha
    have hset : ∀ {m m' : Mesh} {id : Int} {t ns e o p cid auto}, m.pickCellId id = .ok (cid, auto) →
        m.addCell id t ns e o = .ok (m', p) → m'.cellPosById = m.cellPosById.set cid m.cellDatas.length := by
      intro m m' id t ns e o p cid auto hp h
      unfold addCell at h
      rw [hp] at h
      simp only [Outcome.bind_ok] at h
      cases hr : reserveAll m.nodes e ns with
      | ok r =>
        rw [hr] at h
        simp only [Outcome.bind_ok, Outcome.ok.injEq, Prod.mk.injEq] at h
        rw [← h.1]
      | _ => rw [hr] at h; simp at h
    induction r with
    | empty => exact ⟨rfl, by simp⟩
    | node r o hv h ih => exact ih
    | elsewhere r d ih => exact ih
    | add r c hv hid hnew h ih =>
      obtain ⟨cid, auto, h1, h2, _⟩ := pickCellId_spec _ c.id
      have e := hset h1 h
      rw [h2 hid] at e
      rw [e]
      refine hgen c r.reach.cinv ih.1 ih.2 ?_
      simpa [hasCell] using hnew
    | create r c hv h hid ih =>
      obtain ⟨cid, auto, h1, _, h3⟩ := pickCellId_spec _ AUTO_ID
      have e := hset h1 h
      obtain ⟨g1, g2, g3, _⟩ := create_step r.reach.cinv c hv h hid
      have hcid : c.id = cid := by
        obtain ⟨m2, k4, k5, k6⟩ := addCell_eq r.reach.cinv AUTO_ID c hv cid auto h1
        rw [k4] at h
        simp only [Outcome.ok.injEq, Prod.mk.injEq] at h
        obtain ⟨rfl, rfl⟩ := h
        have := k6.findCellId _ { c with id := cid } List.getElem?_concat_length
        rw [hid] at this
        simpa using this
      rw [e, ← hcid]
      exact hgen c r.reach.cinv ih.1 ih.2 g3
  have hc := r.reach.cinv
  obtain ⟨hi, hn⟩ := key
  have hcount : m.countCells = g.length := by
    unfold countCells; rw [hi]; simp
  have hfind : ∀ id p, m.findCellPosition id = some p ↔ (g.map (·.id))[p]? = some id := by
    intro id p
    unfold findCellPosition
    rw [hi, Map.find_zipIdx _ _ hn]
    simp
  have hget : ∀ p id, (g.map (·.id))[p]? = some id → p < g.length ∧ m.findCellId p = .ok id := by
    intro p id h
    rw [List.getElem?_map] at h
    cases hx : g[p]? with
    | none => simp [hx] at h
    | some c =>
      have : c.id = id := by simpa [hx] using h
      refine ⟨?_, by rw [← this]; exact hc.findCellId p c hx⟩
      by_contra hcc
      rw [List.getElem?_eq_none (by omega)] at hx
      cases hx
  refine ⟨hcount, ?_, ?_, ?_, ?_, ?_⟩
  · intro p hp
    rw [hcount] at hp
    refine ⟨g[p].id, hc.findCellId p g[p] (List.getElem?_eq_getElem hp), ?_⟩
    rw [hfind, List.getElem?_map, List.getElem?_eq_getElem hp]
    rfl
  · intro id p h
    have := hget p id ((hfind id p).mp h)
    rw [hcount]; exact this
  · intro id
    unfold hasCell
    rw [hi, Option.isSome_iff_exists, ← Map.mem_keys_iff, Map.keys_zipIdx, List.mem_map]
  · intro t; exact hc.countType t
  · intro t i p h
    have hmem : p ∈ m.positionsByType t := List.mem_of_getElem? h
    rw [hc.pos t, List.mem_map] at hmem
    obtain ⟨⟨c, q⟩, h1, rfl⟩ := hmem
    rw [List.mem_filter] at h1
    obtain ⟨h1, h2⟩ := h1
    have hq : g[q]? = some c := by
      have := List.mem_zipIdx_iff_getElem?.mp h1
      simpa using this
    obtain ⟨v, k1, k2, k3, _⟩ := findCell_spec hc q c hq
    refine ⟨v, k1, ?_⟩
    rw [k3]; simpa using h2

/-- The counts by type sum up to the number of cells. -/
theorem C14_counts_sum {m : Mesh} {g : List Given} (r : ReachAdd m g) (types : List CellType)
    (hn : types.Nodup) (hall : ∀ t, t ∈ types) :
    (types.map m.countCellsOfType).sum = m.countCells := by
  have h1 := (C14_ids_positions r).1
  have h5 := (C14_ids_positions r).2.2.2.2.1
  rw [h1]
  have : types.map m.countCellsOfType = types.map fun t => (g.filter fun c => c.type = t).length := by
    apply List.map_congr_left; intro t _; exact h5 t
  rw [this]
  clear this h5 h1 r
  induction g with
  | nil => simp
  | cons c g ih =>
    have e : (types.map fun t => ((c :: g).filter fun c => c.type = t).length) =
        types.map fun t => (g.filter fun c => c.type = t).length + if c.type = t then 1 else 0 := by
      apply List.map_congr_left
      intro t _
      simp only [List.filter_cons]
      by_cases h : c.type = t <;> simp [h]
    have hadd : ∀ (l : List CellType) (f f' : CellType → Nat), (l.map fun t => f t + f' t).sum = (l.map f).sum + (l.map f').sum := by
      intro l f f'
      induction l with
      | nil => rfl
      | cons x l ih => simp only [List.map_cons, List.sum_cons, ih]; omega
    rw [e, hadd, ih, List.length_cons]
    congr 1
    have hmem := hall c.type
    clear e ih hall
    induction types with
    | nil => simp at hmem
    | cons t ts ih =>
      simp only [List.map_cons, List.sum_cons]
      rw [List.nodup_cons] at hn
      by_cases ht : c.type = t
      · have : (ts.map fun t => if c.type = t then 1 else 0).sum = 0 := by
          have : ts.map (fun t => if c.type = t then 1 else 0) = ts.map (fun _ => 0) := by
            apply List.map_congr_left
            intro t' ht'
            rw [if_neg]
            rintro rfl
            exact hn.1 (ht ▸ ht')
          rw [this]; simp
        rw [if_pos ht, this]
      · rw [if_neg ht, ih hn.2 (by simpa [ht] using hmem)]

/-- The list of all cell types, to which `C14_counts_sum` applies. -/
def allTypes : List CellType :=
  [.point1, .seg2, .seg3, .seg4, .seg5, .tri3, .quad4, .tri6, .tri7, .quad8, .quad9, .tetra4, .pyra5,
   .penta6, .hexa8, .tetra10, .hexgp12, .pyra13, .penta15, .hexa20, .hexa27] ++ (List.finRange 18).map .poly

example : allTypes.Nodup := by decide +kernel

example : ∀ t, t ∈ allTypes := by
  intro t
  cases t <;> simp [allTypes]

/-- **C12** for cells: an automatic cell id is one that no cell of the mesh has. -/
theorem C12_automatic_cell_id {m : Mesh} {g : List Given} (r : Reach m g) (c : Given) (hv : c.Valid) :
    ∃ m' p id, m.addCell AUTO_ID c.type c.nodeIds c.elementId c.offset = .ok (m', p) ∧
      m'.findCellId p = .ok id ∧ m.hasCell id = false ∧ m'.findCellPosition id = some p := by
  obtain ⟨cid, auto, h1, _, h3⟩ := pickCellId_spec m AUTO_ID
  obtain ⟨m', h4, h5, h6⟩ := addCell_eq r.cinv AUTO_ID c hv cid auto h1
  have hf := h6.findCellId g.length { c with id := cid } (by simp)
  refine ⟨m', g.length, cid, h4, hf, by simp [hasCell, h3 rfl], ?_⟩
  rw [findCellPosition, h6.index]
  refine ⟨⟨{ c with id := cid }, by simp, rfl⟩, ?_⟩
  intro q c' hq hc'
  rw [List.getElem?_eq_none (by simp; omega)] at hc'
  cases hc'

/-! ## C15 -/

/-- Membership of a cell id in a named group. -/
def InGroup (m : Mesh) (name : String) (id : Int) : Prop :=
  ∃ ps p, m.cellGroups.find name = some ps ∧ m.findCellPosition id = some p ∧ p ∈ ps

theorem find_map_groups (gs : Map String (List Nat)) (f : List Nat → List Nat) (name : String) :
    Map.find (gs.map fun e => (e.1, f e.2)) name = (gs.find name).map f := by
  induction gs with
  | nil => rfl
  | cons e gs ih =>
    obtain ⟨k, l⟩ := e
    simp only [List.map_cons, Map.find]
    split
    · rfl
    · exact ih

/-- Groups only contain positions of cells. -/
theorem Reach.groups {m : Mesh} {g : List Given} (r : Reach m g) :
    ∀ name ps, m.cellGroups.find name = some ps → ∀ p ∈ ps, p < g.length := by
  induction r with
  | empty => intro name ps h; simp [Mesh.init] at h
  | node r o hv h ih => exact ih
  | elsewhere r d ih => exact ih
  | add r c hv hid hnew h ih =>
    intro name ps hps p hp
    rw [(add_step r.cinv c hv hid h).2.2] at hps
    have := ih name ps hps p hp
    simp; omega
  | create r c hv h hid ih =>
    intro name ps hps p hp
    rw [(create_step r.cinv c hv h hid).2.2.2] at hps
    have := ih name ps hps p hp
    simp; omega
  | update r c hv hd h ih =>
    rename_i m g m' q
    intro name ps hps p hp
    obtain ⟨old, h1, h2, h3, h4⟩ := update_step r.cinv c hv hd h
    rw [h3, find_map_groups] at hps
    cases hf : m.cellGroups.find name with
    | none => simp [hf] at hps
    | some l =>
      rw [hf] at hps
      simp only [Option.map_some, Option.some.injEq] at hps
      subst hps
      unfold moveInGroup at hp
      split at hp
      · simp only [List.mem_cons, List.mem_filter] at hp
        rcases hp with rfl | hp
        · simp
        · have := ih name l hf p hp.1
          simp; omega
      · have := ih name l hf p hp
        simp; omega
  | newGroup r name h ih =>
    rename_i m g m'
    intro n ps hps p hp
    unfold createCellGroup at h
    split at h
    · cases h
    · split at h
      · cases h
      · simp only [Outcome.ok.injEq] at h
        subst h
        simp only [Map.find_set] at hps
        split at hps
        · simp only [Option.some.injEq] at hps
          subst hps
          simp at hp
        · exact ih n ps hps p hp
  | group r name id hpos h ih =>
    rename_i m g m' q
    intro n ps hps p hp
    unfold addToGroup at h
    split at h
    · cases h
    · rename_i l hl
      simp only [Outcome.ok.injEq] at h
      subst h
      simp only [Map.find_set] at hps
      split at hps
      · simp only [Option.some.injEq] at hps
        subst hps
        split at hp
        · exact ih name l hl p hp
        · simp only [List.mem_cons] at hp
          rcases hp with rfl | hp
          · have := (r.cinv.index id p).mp hpos
            obtain ⟨⟨c, hc, _⟩, _⟩ := this
            by_contra hcc
            rw [List.getElem?_eq_none (by omega)] at hc
            cases hc
          · exact ih name l hl p hp
      · exact ih n ps hps p hp

/-- **C15** for updates to volume types: the update succeeds, the id gives the new cell, every
other id gives the cell it gave, and the groups have the same members (as ids).
Missing for the whole property: surface, line and point types, see `C15_update_surface_false`. -/
theorem C15_update_partial {m : Mesh} {g : List Given} (r : Reach m g) (c : Given) (hv : c.Valid)
    (hd : c.type.dim = 3) (hid : c.id ≠ AUTO_ID) (hex : m.hasCell c.id = true) :
    ∃ m' p, m.updateCell c.id c.type c.nodeIds c.elementId = .ok (m', p) ∧
      m'.findCellPosition c.id = some p ∧
      (∃ v, m'.findCell p = .ok v ∧ v.id = c.id ∧ v.type = c.type ∧ v.nodeIds = c.nodeIds) ∧
      (∀ id, id ≠ c.id → m'.findCellPosition id = m.findCellPosition id) ∧
      (∀ q, q < g.length → ∃ v v', m.findCell q = .ok v ∧ m'.findCell q = .ok v' ∧ v.id = v'.id ∧
        v.type = v'.type ∧ v.nodeIds = v'.nodeIds ∧ v.offset = v'.offset ∧ v.elementId = v'.elementId) ∧
      (∀ name id, InGroup m' name id ↔ InGroup m name id) := by
  obtain ⟨old, hold⟩ := Option.isSome_iff_exists.mp hex
  obtain ⟨m', h1, h2, h3⟩ := updateCell_eq r.cinv c hv hd hid old hold
  have hpos : m'.findCellPosition c.id = some g.length := by
    rw [findCellPosition, h3.index]
    refine ⟨⟨c, by simp, rfl⟩, ?_⟩
    intro q c' hq hc'
    rw [List.getElem?_eq_none (by simp; omega)] at hc'
    cases hc'
  have hother : ∀ id, id ≠ c.id → m'.findCellPosition id = m.findCellPosition id := by
    intro id hne
    unfold updateCell at h1
    rw [if_neg hid] at h1
    have hold' : m.findCellPosition c.id = some old := hold
    rw [hold'] at h1
    simp only at h1
    cases hr : reserveAllTwice m.nodes c.nodeIds with
    | ok rr =>
      rw [hr] at h1
      simp only [Outcome.bind_ok, Outcome.ok.injEq, Prod.mk.injEq] at h1
      rw [← h1.1]
      simp only [findCellPosition]
      rw [Map.find_set_ne _ _ (Ne.symm hne)]
    | _ => rw [hr] at h1; simp at h1
  obtain ⟨v, k1, k2, k3, k4, _⟩ := findCell_spec h3 g.length c (by simp)
  refine ⟨m', g.length, h1, hpos, ⟨v, k1, k2, k3, k4⟩, hother, ?_, ?_⟩
  · intro q hq
    obtain ⟨w, a1, a2, a3, a4, _, a6, a7, _⟩ := findCell_spec r.cinv q g[q] (List.getElem?_eq_getElem hq)
    obtain ⟨w', b1, b2, b3, b4, _, b6, b7, _⟩ := findCell_spec h3 q g[q]
      (by rw [List.getElem?_append_left hq]; exact List.getElem?_eq_getElem hq)
    exact ⟨w, w', a1, b1, by rw [a2, b2], by rw [a3, b3], by rw [a4, b4], by rw [a7, b7], by rw [a6, b6]⟩
  · intro name id
    unfold InGroup
    have hposlt : ∀ id p, m.findCellPosition id = some p → p < g.length := by
      intro id p h
      obtain ⟨⟨c, hc, _⟩, _⟩ := (r.cinv.index id p).mp h
      by_contra hcc
      rw [List.getElem?_eq_none (by omega)] at hc
      cases hc
    have hinj : ∀ id p, m.findCellPosition id = some p → p = old → id = c.id := by
      rintro id p h rfl
      obtain ⟨⟨c1, e1, f1⟩, _⟩ := (r.cinv.index id p).mp h
      obtain ⟨⟨c2, e2, f2⟩, _⟩ := (r.cinv.index c.id p).mp hold
      rw [e1] at e2
      have := Option.some.inj e2
      subst this
      rw [← f1, f2]
    rw [h2, find_map_groups]
    cases hf : m.cellGroups.find name with
    | none => simp
    | some l =>
      have hl := r.groups name l hf
      simp only [Option.map_some, Option.some.injEq, exists_and_left, exists_eq_left']
      by_cases he : id = c.id
      · subst he
        rw [hpos]
        have hold' : m.findCellPosition c.id = some old := hold
        rw [hold']
        simp only [Option.some.injEq, exists_eq_left']
        unfold moveInGroup
        split
        · rename_i hm; simp [hm]
        · rename_i hm
          constructor
          · intro hc; exact absurd (hl _ hc) (by omega)
          · intro hc; exact absurd hc hm
      · rw [hother id he]
        constructor
        · rintro ⟨p, hp, hm⟩
          refine ⟨p, hp, ?_⟩
          unfold moveInGroup at hm
          split at hm
          · simp only [List.mem_cons, List.mem_filter] at hm
            rcases hm with rfl | hm
            · exact absurd (hposlt id _ hp) (by omega)
            · exact hm.1
          · exact hm
        · rintro ⟨p, hp, hm⟩
          refine ⟨p, hp, ?_⟩
          unfold moveInGroup
          split
          · have : p ≠ old := fun e => he (hinj id p hp e)
            simp [hm, this]
          · exact hm

/-- Updating a cell to a surface type: the additional data is not stored, and reading the updated
cell is undefined behaviour (or throws when no other cell has the type). -/
theorem C15_update_surface_false :
    ∃ m1 p1 m2 p2 m3 p3 m4 p4, (Mesh.init NodeStore.init 9999999).addCell 1 .tri3 [1, 2, 3] none 0 = .ok (m1, p1) ∧
      m1.addCell 2 .quad4 [1, 2, 3, 4] none 0 = .ok (m2, p2) ∧
      m2.updateCell 1 .quad4 [1, 2, 3, 5] none = .ok (m3, p3) ∧ m3.findCell p3 = .ub ∧
      m2.updateCell 1 .tri6 [1, 2, 3, 5, 6, 7] none = .ok (m4, p4) ∧ m4.findCell p4 = .throw :=
  ⟨_, _, _, _, _, _, _, _, rfl, rfl, rfl, rfl, rfl, rfl⟩

/-- And later cells of the type shift the offsets: cell 3 gets the offset of cell 4, added after. -/
theorem C15_update_offsets_false :
    ∃ m1 p1 m2 p2 m3 p3, (Mesh.init NodeStore.init 9999999).addCell 3 .tri3 [1, 2, 3] none 7 = .ok (m1, p1) ∧
      m1.updateCell 3 .quad4 [1, 2, 3, 5] none = .ok (m2, p2) ∧
      m2.addCell 4 .quad4 [1, 2, 3, 4] none 5 = .ok (m3, p3) ∧
      (∃ v, m3.findCell p2 = .ok v ∧ v.offset = some 5) ∧ m3.findCell p3 = .ub :=
  ⟨_, _, _, _, _, _, rfl, rfl, rfl, ⟨_, rfl, rfl⟩, rfl⟩

/-- The replaced cell stays in the list of its type, so that iterating over the types meets two
cells with the same id, and the counts by type exceed the number of cells. -/
theorem C15_stale_cell_false :
    ∃ m1 p1 m2 p2, (Mesh.init NodeStore.init 9999999).addCell 1 .tetra4 [1, 2, 3, 4] none 0 = .ok (m1, p1) ∧
      m1.updateCell 1 .pyra5 [1, 2, 3, 4, 5] none = .ok (m2, p2) ∧ m2.countCells = 1 ∧
      m2.countCellsOfType .tetra4 = 1 ∧ m2.countCellsOfType .pyra5 = 1 :=
  ⟨_, _, _, _, rfl, rfl, rfl, rfl, rfl⟩

/-- A mesh in the hypotheses: mixed types, an automatic id, an update. -/
example : ∃ m g, Reach m g ∧ g.length = 4 ∧ m.hasCell 9 = true := by
  have r0 := Reach.empty 9999999 0 9999999
  have r1 := r0.add ⟨9, .hexa8, [1, 2, 3, 4, 5, 6, 7, 8], some 1, 0⟩ ⟨rfl, by simp [AUTO_ID]⟩ (by simp [AUTO_ID]) rfl rfl
  have r2 := r1.add ⟨2, .quad4, [1, 2, 3, 4], some 2, 5⟩ ⟨rfl, by simp [AUTO_ID]⟩ (by simp [AUTO_ID]) rfl rfl
  have r3 := r2.create ⟨9999999, .quad4, [5, 6, 7, 8], none, 3⟩ ⟨rfl, by simp [AUTO_ID]⟩ rfl rfl
  have r4 := r3.update ⟨9, .tetra4, [1, 2, 3, 5], some 1, 0⟩ ⟨rfl, by simp [AUTO_ID]⟩ rfl rfl
  exact ⟨_, _, r4, rfl, rfl⟩

/-! ## C20 -/

/-- **C20.** A polygonal type exists exactly for 1 to 20 nodes and has the number asked for. -/
theorem C20_polyType (n : Nat) :
    (1 ≤ n ∧ n ≤ 20 → ∃ t, CellType.polyType n = .ok t ∧ t.numNodes = n) ∧
    (¬ (1 ≤ n ∧ n ≤ 20) → CellType.polyType n = .throw) := by
  match n with
  | 0 => simp [CellType.polyType]
  | 1 => simp [CellType.polyType, CellType.numNodes]
  | 2 => simp [CellType.polyType, CellType.numNodes]
  | n + 3 =>
    unfold CellType.polyType
    by_cases h : n < 18
    · simp only [h, dite_true]
      refine ⟨fun _ => ⟨_, rfl, rfl⟩, fun hc => absurd ⟨by omega, by omega⟩ hc⟩
    · simp only [h, dite_false]
      refine ⟨fun hc => absurd hc (by omega), fun _ => trivial⟩

end Vega.CellSpec
