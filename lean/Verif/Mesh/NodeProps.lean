import Verif.Mesh.NodeLemmas
import Mathlib.Data.List.Induction

/-! # C10, C11, C12 (nodes)

The histories: definitions of nodes, creations with an automatic id and references, in any
order; the process wide counters may be moved by other meshes between any two operations. -/
namespace Vega.NodeSpec
open NodeStore

/-- Coordinates and coordinate systems of a definition. -/
structure Def where
  x : Dbl
  y : Dbl
  z : Dbl
  cp : Nat
  cd : Nat
  deriving DecidableEq

/-- What a caller may ask. -/
inductive Act where
  /-- `addNode(id, x, y, z, cp, cd)` -/
  | define (id : Int) (d : Def)
  /-- `addNode(AUTO_ID, ...)` -/
  | create (d : Def)
  /-- `findOrReserveNode(id)`, with the part of the cell in which the node is mentioned -/
  | refer (id : Int) (cellPart : Option Int)

/-- An action, preceded by `dn` automatic nodes and `dp` node parts created by other meshes. -/
structure Op where
  dn : Nat
  dp : Nat
  act : Act

/-- The caller does not use the reserved id as an ordinary id. -/
def Act.Valid : Act → Prop
  | define id _ => id ≠ AUTO_ID
  | create _ => True
  | refer id _ => id ≠ AUTO_ID

def Act.perform (s : NodeStore) : Act → Outcome (NodeStore × Nat)
  | define id d => s.addNode id d.x d.y d.z d.cp d.cd 0
  | create d => s.addNode AUTO_ID d.x d.y d.z d.cp d.cd 0
  | refer id cellPart => s.findOrReserveNode id cellPart

/-- Effect of the other meshes on the static counters. -/
def shift (s : NodeStore) (dn dp : Nat) : NodeStore :=
  { s with autoNodeId := s.autoNodeId - dn, lastNodePart := s.lastNodePart + dp }

/-- Run a history, collecting the returned positions. -/
def run (s : NodeStore) : List Op → Outcome (NodeStore × List Nat)
  | [] => .ok (s, [])
  | o :: os => do
    let (s, p) ← o.act.perform (shift s o.dn o.dp)
    let (s, ps) ← run s os
    .ok (s, p :: ps)

def ValidAll (ops : List Op) : Prop := ∀ o ∈ ops, o.act.Valid

/-- `actsOn s s' a p id`: in going from `s` to `s'`, action `a` returned position `p` of the
node `id`. -/
theorem perform_spec {s : NodeStore} (h : Inv s) (o : Op) (hv : o.act.Valid) :
    ∃ s' p id, o.act.perform (shift s o.dn o.dp) = .ok (s', p) ∧ Inv s' ∧ s'.ids[p]? = some id ∧
      s'.ids = (if id ∈ s.ids then s.ids else s.ids ++ [id]) ∧
      (∀ q, q ≠ p → s'.nodeDatas[q]? = s.nodeDatas[q]?) ∧
      (match o.act with
        | .define i d => i = id ∧ ∃ np, s'.nodeDatas[p]? = some ⟨id, d.x, d.y, d.z, d.cp, d.cd, np⟩
        | .create d => id ∉ s.ids ∧ ∃ np, s'.nodeDatas[p]? = some ⟨id, d.x, d.y, d.z, d.cp, d.cd, np⟩
        | .refer i _ => i = id ∧
          (id ∉ s.ids → ∃ np, s'.nodeDatas[p]? = some ⟨id, RESERVED, RESERVED, RESERVED, 0, 0, np⟩) ∧
          (id ∈ s.ids → ∃ d np, s.nodeDatas[p]? = some d ∧
            s'.nodeDatas[p]? = some { d with nodePart := np })) := by
  have hs : Inv (shift s o.dn o.dp) := ⟨h.index, h.nodup⟩
  obtain ⟨dn, dp, act⟩ := o
  cases act with
  | define i d =>
    obtain ⟨s', p, h1, h2, h3, h4, h5, h6⟩ := addNode_spec hs i hv d.x d.y d.z d.cp d.cd 0
    exact ⟨s', p, i, h1, h2, h3, h4, h6, rfl, h5⟩
  | create d =>
    obtain ⟨s', id, h1, h2, h3, h4, h5⟩ := addNode_auto hs d.x d.y d.z d.cp d.cd 0
    refine ⟨s', s.nodeDatas.length, id, h1, h2, ?_, ?_, ?_, h3, 0, ?_⟩
    · rw [h4]; simp [ids, shift]
    · have h3' : id ∉ s.ids := h3
      rw [h4, if_neg h3']; rfl
    · intro q hq
      rw [h5]
      simp only [shift, List.getElem?_append]
      split
      · rfl
      · rw [List.getElem?_eq_none (by simp; omega), List.getElem?_eq_none (by omega)]
    · rw [h5]; simp [shift]
  | refer i c =>
    obtain ⟨s', p, h1, h2, h3, h4, h5, h6, h7⟩ := reserve_spec hs i hv c
    exact ⟨s', p, i, h1, h2, h3, h4, h7, rfl, h5, h6⟩

theorem prefix_get {α : Type} {l l' : List α} (h : l <+: l') {i : Nat} {a : α} (ha : l[i]? = some a) :
    l'[i]? = some a := by
  obtain ⟨t, rfl⟩ := h
  have hlt : i < l.length := by
    by_contra hc
    rw [List.getElem?_eq_none (by omega)] at ha
    cases ha
  rw [List.getElem?_append_left hlt, ha]

theorem run_append (s : NodeStore) (a b : List Op) :
    run s (a ++ b) = (run s a >>= fun r => run r.1 b >>= fun r' => .ok (r'.1, r.2 ++ r'.2)) := by
  induction a generalizing s with
  | nil =>
    simp only [List.nil_append, run, Outcome.bind_ok]
    cases run s b <;> rfl
  | cons o os ih =>
    simp only [List.cons_append, run]
    cases o.act.perform (shift s o.dn o.dp) with
    | ok r =>
      simp only [Outcome.bind_ok, ih]
      cases run r.1 os with
      | ok r2 =>
        simp only [Outcome.bind_ok]
        cases run r2.1 b <;> simp
      | _ => rfl
    | _ => rfl

theorem run_inv {s : NodeStore} (h : Inv s) (ops : List Op) (hv : ValidAll ops) :
    ∃ s' ps, run s ops = .ok (s', ps) ∧ Inv s' ∧ s.ids <+: s'.ids := by
  induction ops generalizing s with
  | nil => exact ⟨s, [], rfl, h, List.prefix_rfl⟩
  | cons o os ih =>
    obtain ⟨s1, p, id, h1, h2, h3, h4, _⟩ := perform_spec h o (hv o (by simp))
    obtain ⟨s', ps, h5, h6, h7⟩ := ih h2 (fun o ho => hv o (by simp [ho]))
    refine ⟨s', p :: ps, ?_, h6, ?_⟩
    · simp only [run, h1, Outcome.bind_ok, h5]
    · refine List.IsPrefix.trans ?_ h7
      rw [h4]
      split
      · exact List.prefix_rfl
      · exact List.prefix_append _ _

/-- A new mesh: no node, arbitrary values of the static counters. -/
def empty (auto part : Int) : NodeStore := { NodeStore.init with autoNodeId := auto, lastNodePart := part }

theorem inv_empty (auto part : Int) : Inv (empty auto part) := ⟨rfl, by simp [ids, empty, init]⟩

theorem findNodeId_iff (s : NodeStore) (p : Nat) (id : Int) :
    s.findNodeId p = .ok id ↔ s.ids[p]? = some id := by
  simp only [findNodeId, ids, List.getElem?_map]
  cases s.nodeDatas[p]? <;> simp

/-- Every history runs to its end, and in the mesh it leaves node ids and positions are in
bijection. -/
theorem C10_bijection (auto part : Int) (ops : List Op) (hv : ValidAll ops) :
    ∃ s ps, run (empty auto part) ops = .ok (s, ps) ∧
      (∀ id p, s.findNodePosition id = some p → p < s.countNodes ∧ s.findNodeId p = .ok id) ∧
      (∀ p, p < s.countNodes → ∃ id, s.findNodeId p = .ok id ∧ s.findNodePosition id = some p) ∧
      (∀ id id' p, s.findNodePosition id = some p → s.findNodePosition id' = some p → id = id') := by
  obtain ⟨s, ps, h1, h2, _⟩ := run_inv (inv_empty auto part) ops hv
  refine ⟨s, ps, h1, ?_, ?_, ?_⟩
  · intro id p h
    have := (h2.find id p).mp h
    refine ⟨?_, (findNodeId_iff s p id).mpr this⟩
    by_contra hc
    rw [List.getElem?_eq_none (by simpa [ids, countNodes] using hc)] at this
    cases this
  · intro p hp
    have hlt : p < s.ids.length := by simpa [ids, countNodes] using hp
    exact ⟨s.ids[p], (findNodeId_iff _ _ _).mpr (List.getElem?_eq_getElem hlt),
      (h2.find _ _).mpr (List.getElem?_eq_getElem hlt)⟩
  · intro id id' p h h'
    have e := (h2.find id p).mp h
    have e' := (h2.find id' p).mp h'
    rw [e] at e'
    exact Option.some.inj e'

/-- The position returned by an operation is the one at which the node is found, at once and
after any further operations. -/
theorem C10_position_returned (auto part : Int) (ops more : List Op) (o : Op)
    (hv : ValidAll (ops ++ o :: more)) (id : Int)
    (ho : (∃ d, o.act = .define id d) ∨ (∃ c, o.act = .refer id c)) :
    ∃ s ps, run (empty auto part) (ops ++ o :: more) = .ok (s, ps) ∧
      ∃ p, ps[ops.length]? = some p ∧ s.findNodePosition id = some p ∧ s.findNodeId p = .ok id := by
  obtain ⟨s1, ps1, h1, h2, _⟩ := run_inv (inv_empty auto part) ops (fun o ho => hv o (by simp [ho]))
  obtain ⟨s2, p, id', h3, h4, h5, h6, _, h7⟩ := perform_spec h2 o (hv o (by simp))
  obtain ⟨s3, ps3, h8, h9, h10⟩ := run_inv h4 more (fun o ho => hv o (by simp [ho]))
  have hlen : ps1.length = ops.length := by
    have gen : ∀ (os : List Op) (s s' : NodeStore) (ps : List Nat), run s os = .ok (s', ps) → ps.length = os.length := by
      intro os
      induction os with
      | nil => intro s s' ps h; simp [run] at h; simp [h.2.symm]
      | cons x xs ih =>
        intro s s' ps h
        simp only [run] at h
        cases hx : x.act.perform (shift s x.dn x.dp) with
        | ok r =>
          rw [hx] at h
          simp only [Outcome.bind_ok] at h
          cases hr : run r.1 xs with
          | ok r2 =>
            rw [hr] at h
            simp only [Outcome.bind_ok, Outcome.ok.injEq, Prod.mk.injEq] at h
            rw [← h.2, List.length_cons, List.length_cons, ih _ _ _ hr]
          | _ => rw [hr] at h; cases h
        | _ => rw [hx] at h; cases h
    exact gen ops _ _ _ h1
  have hid : id' = id := by
    rcases ho with ⟨d, hd⟩ | ⟨c, hc⟩
    · rw [hd] at h7; exact h7.1.symm
    · rw [hc] at h7; exact h7.1.symm
  subst hid
  refine ⟨s3, ps1 ++ p :: ps3, ?_, p, ?_, ?_, ?_⟩
  · rw [run_append, h1]
    simp only [Outcome.bind_ok, run, h3, h8]
  · rw [← hlen]; simp
  · rw [findNodePosition, h9.find]
    exact prefix_get h10 h5
  · rw [findNodeId_iff]
    exact prefix_get h10 h5

/-- Positions never change. -/
theorem C10_positions_stable (auto part : Int) (ops more : List Op) (hv : ValidAll (ops ++ more)) :
    ∃ s ps s' ps', run (empty auto part) ops = .ok (s, ps) ∧
      run (empty auto part) (ops ++ more) = .ok (s', ps') ∧
      s.countNodes ≤ s'.countNodes ∧
      ∀ id p, s.findNodePosition id = some p → s'.findNodePosition id = some p := by
  obtain ⟨s1, ps1, h1, h2, _⟩ := run_inv (inv_empty auto part) ops (fun o ho => hv o (by simp [ho]))
  obtain ⟨s3, ps3, h8, h9, h10⟩ := run_inv h2 more (fun o ho => hv o (by simp [ho]))
  refine ⟨s1, ps1, s3, ps1 ++ ps3, h1, ?_, ?_, ?_⟩
  · rw [run_append, h1]; simp only [Outcome.bind_ok, h8]
  · have := h10.length_le
    simpa [ids, countNodes] using this
  · intro id p h
    rw [findNodePosition, h9.find]
    exact prefix_get h10 ((h2.find id p).mp h)


/-- A reference to the reserved id `AUTO_ID` breaks the bijection: two ids then share one
position. (No caller in the code does it; this is why `ValidAll` is needed.) -/
theorem C10_reserve_auto_id_false :
    ∃ s ps, run (empty 9999999 0) [⟨0, 0, .refer AUTO_ID none⟩] = .ok (s, ps) ∧
      s.findNodePosition AUTO_ID = some 0 ∧ s.findNodePosition 9999999 = some 0 := by
  refine ⟨_, _, rfl, rfl, rfl⟩

/-- A history in the hypotheses of the theorems: a forward reference, an explicit definition
of the next automatic id, an automatic node, the late definition. -/
def sample : List Op :=
  [⟨0, 0, .refer 7 (some 1)⟩, ⟨0, 0, .define 9999999 ⟨1, 2, 3, 0, 0⟩⟩, ⟨0, 0, .create ⟨4, 5, 6, 0, 0⟩⟩,
   ⟨3, 2, .define 7 ⟨7, 8, 9, 2, 0⟩⟩, ⟨0, 0, .refer 7 (some 2)⟩]

example : ValidAll sample := by
  intro o ho
  simp [sample] at ho
  rcases ho with rfl | rfl | rfl | rfl | rfl <;> simp [Act.Valid, AUTO_ID]

example : ∃ s, run (empty 9999999 0) sample = .ok (s, [0, 1, 2, 0, 0]) ∧
    s.ids = [7, 9999999, 9999998] := ⟨_, rfl, rfl⟩

/-! ## C11 -/

/-- The definition carried by an action, if it is one. -/
def Act.definition : Act → Option Def
  | define _ d => some d
  | create d => some d
  | refer _ _ => none

/-- Among the events "action on node `id`", the last definition of a node. -/
def lastDefinition (events : List (Act × Int)) (id : Int) : Option Def :=
  ((events.filter fun e => e.2 = id).filterMap fun e => e.1.definition).getLast?

/-- What a reader sees of a node. -/
def described (s : NodeStore) (id : Int) : Outcome Def :=
  match s.findNode (s.findNodePosition id) with
  | .ok d => .ok ⟨d.x, d.y, d.z, d.cpPos, d.cdPos⟩
  | .throw => .throw
  | .ub => .ub
  | .diverges => .diverges

/-- The description of a node never defined. -/
def undefinedNode : Def := ⟨-dblMax, -dblMax, -dblMax, 0, 0⟩

theorem lastDefinition_append (es : List (Act × Int)) (a : Act) (i id : Int) :
    lastDefinition (es ++ [(a, i)]) id =
      if i = id then (a.definition).or (lastDefinition es id) else lastDefinition es id := by
  unfold lastDefinition
  by_cases h : i = id
  · simp only [List.filter_append, h, decide_true, List.filter_cons_of_pos, List.filter_nil,
      List.filterMap_append, if_true]
    cases hd : a.definition with
    | none => simp [hd]
    | some d => simp [hd]
  · simp [h]

theorem described_eq {s : NodeStore} (h : Inv s) (id : Int) :
    described s id = (if id ∈ s.ids then described s id else .throw) := by
  by_cases hm : id ∈ s.ids
  · rw [if_pos hm]
  · rw [if_neg hm]
    have := (h.find_none id).mpr hm
    simp [described, findNodePosition, this, findNode]

theorem described_of {s : NodeStore} (h : Inv s) {p : Nat} {d : NodeData} (hp : s.nodeDatas[p]? = some d) :
    described s d.id = .ok ⟨d.x, d.y, d.z, d.cpPos, d.cdPos⟩ := by
  have : s.ids[p]? = some d.id := by simp [ids, hp]
  have := (h.find d.id p).mpr this
  simp [described, findNodePosition, this, findNode, hp]

/-- What is reported of each node depends on its last definition only: not on the references,
nor on the other nodes, nor on the order. `ids` are the nodes concerned by the operations. -/
theorem C11_last_definition (auto part : Int) (ops : List Op) (hv : ValidAll ops) :
    ∃ s ps, ∃ ids : List Int, run (empty auto part) ops = .ok (s, ps) ∧
      ps.map s.findNodeId = ids.map .ok ∧
      (∀ (i : Nat) (id : Int) (d : Def), (ops.map (·.act))[i]? = some (.define id d) → ids[i]? = some id) ∧
      (∀ (i : Nat) (id : Int) (c : Option Int), (ops.map (·.act))[i]? = some (.refer id c) → ids[i]? = some id) ∧
      ∀ id, described s id =
        if id ∈ ids then
          match lastDefinition ((ops.map (·.act)).zip ids) id with
          | some d => .ok d
          | none => .ok undefinedNode
        else .throw := by
  suffices H : ∃ s ps, ∃ ids : List Int, run (empty auto part) ops = .ok (s, ps) ∧ Inv s ∧
      ids.length = ops.length ∧ (∀ id, id ∈ ids ↔ id ∈ s.ids) ∧
      ps.map (fun p => s.ids[p]?) = ids.map some ∧
      (∀ (i : Nat) (id : Int) (d : Def), (ops.map (·.act))[i]? = some (.define id d) → ids[i]? = some id) ∧
      (∀ (i : Nat) (id : Int) (c : Option Int), (ops.map (·.act))[i]? = some (.refer id c) → ids[i]? = some id) ∧
      ∀ id, id ∈ s.ids → described s id =
          match lastDefinition ((ops.map (·.act)).zip ids) id with
          | some d => .ok d
          | none => .ok undefinedNode by
    obtain ⟨s, ps, ids, h1, h2, h3, h4, h5, h6, h7, h8⟩ := H
    refine ⟨s, ps, ids, h1, ?_, h6, h7, ?_⟩
    · have e : ∀ (ps : List Nat) (is : List Int), ps.map (fun p => s.ids[p]?) = is.map some →
          ps.map s.findNodeId = is.map .ok := by
        intro ps
        induction ps with
        | nil => intro is h; cases is <;> simp_all
        | cons p ps ih =>
          intro is h
          cases is with
          | nil => simp at h
          | cons j is =>
            simp only [List.map_cons, List.cons.injEq] at h ⊢
            exact ⟨(findNodeId_iff s p j).mpr h.1, ih is h.2⟩
      exact e ps ids h5
    · intro id
      by_cases hm : id ∈ ids
      · rw [if_pos hm]; exact h8 id ((h4 id).mp hm)
      · rw [if_neg hm, described_eq h2, if_neg (fun hc => hm ((h4 id).mpr hc))]
  induction ops using List.reverseRecOn with
  | nil =>
    refine ⟨_, [], [], rfl, inv_empty auto part, rfl, ?_, rfl, ?_, ?_, ?_⟩
    · intro id; simp [NodeStore.ids, empty, init]
    · intro i id d h; simp at h
    · intro i id d h; simp at h
    · intro id h; simp [NodeStore.ids, empty, init] at h
  | append_singleton ops o ih =>
    obtain ⟨s, ps, ids, h1, h2, h3, h4, h5, h6, h7, h8⟩ := ih (fun o ho => hv o (by simp [ho]))
    obtain ⟨s', p, id', g1, g2, g3, g4, g5, g6⟩ := perform_spec h2 o (hv o (by simp))
    have hzip : ((ops ++ [o]).map (·.act)).zip (ids ++ [id']) = (ops.map (·.act)).zip ids ++ [(o.act, id')] := by
      rw [List.map_append, List.zip_append (by simp [h3])]
      rfl
    have hpre : s.ids <+: s'.ids := by
      rw [g4]; split
      · exact List.prefix_rfl
      · exact List.prefix_append _ _
    have hgen : ∀ (a : Act) (i : Nat), ((ops ++ [o]).map (·.act))[i]? = some a →
        (i < ops.length ∧ (ops.map (·.act))[i]? = some a) ∨ (i = ops.length ∧ o.act = a) := by
      intro a i hi
      rcases Nat.lt_trichotomy i ops.length with hl | hl | hl
      · left
        refine ⟨hl, ?_⟩
        rw [List.map_append, List.getElem?_append_left (by simpa using hl)] at hi
        exact hi
      · right
        refine ⟨hl, ?_⟩
        subst hl
        rw [List.map_append, List.getElem?_append_right (by simp)] at hi
        simpa using hi
      · rw [List.getElem?_eq_none (by simp; omega)] at hi; cases hi
    refine ⟨s', ps ++ [p], ids ++ [id'], ?_, g2, by simp [h3], ?_, ?_, ?_, ?_, ?_⟩
    · rw [run_append, h1]
      simp only [Outcome.bind_ok, run, g1]
    · intro id
      rw [g4, List.mem_append, h4]
      split
      · rename_i hm
        constructor
        · rintro (h | h)
          · exact h
          · simp at h; subst h; exact hm
        · exact Or.inl
      · simp
    · rw [List.map_append, List.map_append, List.map_cons, List.map_cons, g3, ← h5]
      simp only [List.map_nil]
      congr 1
      apply List.map_congr_left
      intro q hq
      have : s.ids[q]? ∈ ids.map some := by
        rw [← h5]; exact List.mem_map.mpr ⟨q, hq, rfl⟩
      obtain ⟨j, _, hj⟩ := List.mem_map.mp this
      rw [← hj]
      exact prefix_get hpre hj.symm
    · intro i id d hi
      rcases hgen _ i hi with ⟨hl, hi⟩ | ⟨hl, ha⟩
      · rw [List.getElem?_append_left (by omega)]; exact h6 i id d hi
      · rw [ha] at g6
        rw [List.getElem?_append_right (by omega), hl, h3, g6.1]; simp
    · intro i id d hi
      rcases hgen _ i hi with ⟨hl, hi⟩ | ⟨hl, ha⟩
      · rw [List.getElem?_append_left (by omega)]; exact h7 i id d hi
      · rw [ha] at g6
        rw [List.getElem?_append_right (by omega), hl, h3, g6.1]; simp
    · intro id hm
      rw [hzip, lastDefinition_append]
      by_cases he : id' = id
      · subst he
        rw [if_pos rfl]
        cases hact : o.act with
        | define i d =>
          rw [hact] at g6
          obtain ⟨_, np, hd⟩ := g6
          have := described_of g2 hd
          simpa [Act.definition] using this
        | create d =>
          rw [hact] at g6
          obtain ⟨_, np, hd⟩ := g6
          have := described_of g2 hd
          simpa [Act.definition] using this
        | refer i c =>
          rw [hact] at g6
          obtain ⟨_, hnew, hold⟩ := g6
          simp only [Act.definition, Option.none_or]
          by_cases hk : id' ∈ s.ids
          · obtain ⟨d, np, hd, hd'⟩ := hold hk
            have hidd : d.id = id' := by
              have := g3
              simp only [NodeStore.ids, List.getElem?_map, hd'] at this
              simpa using this
            have e1 := described_of g2 hd'
            have e2 := described_of h2 hd
            simp only [hidd] at e1 e2
            rw [e1, ← e2]
            exact h8 id' hk
          · obtain ⟨np, hd⟩ := hnew hk
            have e1 := described_of g2 hd
            simp only at e1
            rw [e1]
            have hno : lastDefinition ((ops.map (·.act)).zip ids) id' = none := by
              unfold lastDefinition
              have : (((ops.map (·.act)).zip ids).filter fun e => e.2 = id') = [] := by
                rw [List.filter_eq_nil_iff]
                intro e he
                have := (List.of_mem_zip he).2
                simp only [decide_eq_true_eq]
                intro hc
                subst hc
                exact hk ((h4 _).mp this)
              rw [this]; rfl
            rw [hno]
            rfl
      · rw [if_neg he]
        have hk : id ∈ s.ids := by
          rw [g4] at hm
          split at hm
          · exact hm
          · simp only [List.mem_append, List.mem_singleton] at hm
            rcases hm with hm | hm
            · exact hm
            · exact absurd hm.symm he
        obtain ⟨q, hq⟩ := List.mem_iff_getElem?.mp hk
        have hqp : q ≠ p := by
          intro hc
          subst hc
          have := prefix_get hpre hq
          rw [g3] at this
          exact he (Option.some.inj this)
        have hdq : ∃ d, s.nodeDatas[q]? = some d ∧ d.id = id := by
          simp only [NodeStore.ids, List.getElem?_map] at hq
          cases hx : s.nodeDatas[q]? with
          | none => simp [hx] at hq
          | some d => exact ⟨d, rfl, by simpa [hx] using hq⟩
        obtain ⟨d, hd, hdid⟩ := hdq
        have e1 := described_of h2 hd
        have e2 := described_of g2 ((g5 q hqp).trans hd)
        rw [hdid] at e1 e2
        rw [e2, ← e1]
        exact h8 id hk

/-- The check that "all the reserved nodes have been defined" does not see a node that was
only mentioned: `validate` tests the id, which a reserved node has. -/
theorem C11_undefined_node_reported_false :
    ∃ ops s ps, ValidAll ops ∧ run (empty 9999999 0) ops = .ok (s, ps) ∧
      described s 5 = .ok undefinedNode ∧ s.validate = true := by
  refine ⟨[⟨0, 0, .refer 5 (some 1)⟩], _, _, ?_, rfl, rfl, rfl⟩
  intro o ho
  simp at ho
  subst ho
  simp [Act.Valid, AUTO_ID]

example : ∃ s ps, run (empty 9999999 0) sample = .ok (s, ps) ∧
    described s 7 = .ok ⟨7, 8, 9, 2, 0⟩ := ⟨_, _, rfl, rfl⟩

/-! ## C12, nodes -/

/-- In every reachable mesh the creation of a node without id succeeds and gives it an id that
no node of the mesh has. -/
theorem C12_automatic_node_id (auto part : Int) (ops : List Op) (hv : ValidAll ops) (dn dp : Nat) (d : Def) :
    ∃ s ps s' p id, run (empty auto part) ops = .ok (s, ps) ∧
      run s [⟨dn, dp, .create d⟩] = .ok (s', [p]) ∧ s'.findNodeId p = .ok id ∧
      s.findNodePosition id = none ∧ s'.countNodes = s.countNodes + 1 := by
  obtain ⟨s, ps, h1, h2, _⟩ := run_inv (inv_empty auto part) ops hv
  obtain ⟨s', p, id, g1, g2, g3, g4, g5, g6⟩ := perform_spec h2 ⟨dn, dp, .create d⟩ trivial
  refine ⟨s, ps, s', p, id, h1, ?_, (findNodeId_iff _ _ _).mpr g3, (h2.find_none id).mpr g6.1, ?_⟩
  · simp only [run]; rw [g1]; rfl
  · have := congrArg List.length g4
    rw [if_neg g6.1] at this
    simpa [ids, countNodes] using this

end Vega.NodeSpec
