import Verif.Constraint.Lmpc
import Verif.Dof.CoefsProps
import Verif.Mesh.NodeProps

/-!
# Linear relations (C37)
-/
namespace Vega.LmpcSpec
open Lmpc

/-- What can happen to a relation and to the mesh it refers to. -/
inductive Event where
  /-- the mesh is changed: nodes defined, created, referred to -/
  | mesh (o : NodeSpec.Op)
  /-- `addParticipation(id, ...)` -/
  | add (id : Int) (c : Dof → Dbl)
  /-- `removeNodePosition` of the position of node `id` -/
  | remove (id : Int)

def Event.Valid : Event → Prop
  | mesh o => o.act.Valid
  | add id _ => id ≠ AUTO_ID
  | remove _ => True

def step (s : NodeStore) (l : Lmpc) : Event → Outcome (NodeStore × Lmpc)
  | .mesh o => do
    let (s, _) ← o.act.perform (NodeSpec.shift s o.dn o.dp)
    .ok (s, l)
  | .add id c => l.addParticipation s id (c .DX) (c .DY) (c .DZ) (c .RX) (c .RY) (c .RZ)
  | .remove id =>
    match s.findNodePosition id with
    | some p => .ok (s, l.removeNodePosition p)
    | none => .ok (s, l)

def run (s : NodeStore) (l : Lmpc) : List Event → Outcome (NodeStore × Lmpc)
  | [] => .ok (s, l)
  | e :: es => do
    let (s, l) ← step s l e
    run s l es

/-- Specification: the participations of a node since it was last removed, latest first. -/
def given (id : Int) : List Event → List (Dof → Dbl)
  | [] => []
  | .mesh _ :: es => given id es
  | .add i c :: es => if i = id then c :: given id es else given id es
  | .remove i :: es => if i = id then [] else given id es

/-- The stored coefficients of a node with the given participations. -/
def stored : List (Dof → Dbl) → Option DofCoefs
  | [] => none
  | c :: cs => match stored cs with
    | none => some ⟨c⟩
    | some old => some (old.add ⟨c⟩)

theorem ofValues_eq (c : Dof → Dbl) :
    DofCoefs.ofValues (c .DX) (c .DY) (c .DZ) (c .RX) (c .RY) (c .RZ) = ⟨c⟩ := by
  unfold DofCoefs.ofValues
  congr 1
  funext d
  cases d <;> rfl

/-- The invariant: `hist` is the history so far, latest event first. -/
structure Inv (hist : List Event) (s : NodeStore) (l : Lmpc) : Prop where
  mesh : NodeStore.Inv s
  wf : l.coefs.WF
  known : ∀ (p : Nat) (id : Int), s.ids[p]? = some id → l.coefs.find p = stored (given id hist)
  unknown : ∀ p : Nat, s.ids[p]? = none → l.coefs.find p = none
  absent : ∀ id : Int, id ∉ s.ids → given id hist = []

theorem ids_get_inj {s : NodeStore} (h : NodeStore.Inv s) {p q : Nat} {id : Int}
    (hp : s.ids[p]? = some id) (hq : s.ids[q]? = some id) : p = q := by
  have a := (h.find id p).mpr hp
  have b := (h.find id q).mpr hq
  rw [a] at b
  exact Option.some.inj b

/-- The mesh grows by one node at most: what the relation knows stays true. -/
theorem Inv.grow {hist : List Event} {s s' : NodeStore} {l : Lmpc} (h : Inv hist s l) (id : Int)
    (hm : NodeStore.Inv s') (hids : s'.ids = if id ∈ s.ids then s.ids else s.ids ++ [id]) :
    Inv hist s' l := by
  refine ⟨hm, h.wf, ?_, ?_, ?_⟩
  · intro p i hp
    rw [hids] at hp
    split at hp
    · exact h.known p i hp
    · rename_i hid
      by_cases hlt : p < s.ids.length
      · rw [List.getElem?_append_left hlt] at hp
        exact h.known p i hp
      · have hn : s.ids[p]? = none := List.getElem?_eq_none (by omega)
        rw [h.unknown p hn]
        have hi : i = id := by
          rw [List.getElem?_append_right (by omega)] at hp
          have := List.mem_of_getElem? hp
          simpa using this
        rw [hi, h.absent id hid]
        rfl
  · intro p hp
    apply h.unknown
    rw [hids] at hp
    split at hp
    · exact hp
    · rw [List.getElem?_eq_none_iff] at hp ⊢
      simp at hp
      omega
  · intro i hi
    apply h.absent
    intro hc
    apply hi
    rw [hids]
    split
    · exact hc
    · exact List.mem_append_left _ hc

theorem step_inv {hist : List Event} {s : NodeStore} {l : Lmpc} (h : Inv hist s l) (e : Event)
    (hv : e.Valid) : ∃ s' l', step s l e = .ok (s', l') ∧ Inv (e :: hist) s' l' ∧
      l'.coefImpo = l.coefImpo := by
  cases e with
  | mesh o =>
    obtain ⟨s', p, id, h1, h2, h3, h4, _⟩ := NodeSpec.perform_spec h.mesh o hv
    refine ⟨s', l, ?_, ?_, rfl⟩
    · simp only [step, h1, Outcome.bind_ok]
    · have := h.grow id h2 h4
      exact ⟨this.mesh, this.wf, this.known, this.unknown, this.absent⟩
  | add id c =>
    obtain ⟨s', p, h1, h2, h3, h4, _⟩ := NodeStore.reserve_spec h.mesh id hv none
    have g := h.grow id h2 h4
    refine ⟨s', l.participate p ⟨c⟩, ?_, ?_, ?_⟩
    · simp only [step, addParticipation, h1, Outcome.bind_ok, ofValues_eq]
    · have hp := g.known p id h3
      have hfind : ∀ q, (l.participate p ⟨c⟩).coefs.find q =
          if q = p then stored (c :: given id hist) else l.coefs.find q := by
        intro q
        unfold participate
        rw [stored]
        cases hs : stored (given id hist) with
        | none =>
          rw [hs] at hp
          simp only [hp]
          rw [Map.find_set]
          simp only [eq_comm]
        | some old =>
          rw [hs] at hp
          simp only [hp]
          rw [Map.find_set]
          simp only [eq_comm]
      refine ⟨h2, ?_, ?_, ?_, ?_⟩
      · unfold participate
        cases l.coefs.find p with
        | none => exact Map.wf_set _ _ _ h.wf
        | some old => exact Map.wf_set _ _ _ h.wf
      · intro q i hq
        rw [hfind, given]
        by_cases hqp : q = p
        · subst hqp
          rw [h3] at hq
          obtain rfl := Option.some.inj hq
          rw [if_pos rfl, if_pos rfl]
        · rw [if_neg hqp, if_neg (fun hc : id = i => hqp (ids_get_inj h2 hq (hc ▸ h3)))]
          exact g.known q i hq
      · intro q hq
        rw [hfind, if_neg (fun hc => by rw [hc, h3] at hq; cases hq)]
        exact g.unknown q hq
      · intro i hi
        rw [given, if_neg (fun hc : id = i => hi (hc ▸ List.mem_of_getElem? h3))]
        exact g.absent i hi
    · unfold participate
      cases l.coefs.find p <;> rfl
  | remove id =>
    cases hf : s.positionById.find id with
    | none =>
      refine ⟨s, l, by simp only [step, NodeStore.findNodePosition, hf], ?_, rfl⟩
      have hid := (h.mesh.find_none id).mp hf
      refine ⟨h.mesh, h.wf, ?_, h.unknown, ?_⟩
      · intro p i hp
        rw [given, if_neg (fun hc : id = i => hid (hc ▸ List.mem_of_getElem? hp))]
        exact h.known p i hp
      · intro i hi
        rw [given]
        split
        · rfl
        · exact h.absent i hi
    | some p =>
      have hp := (h.mesh.find id p).mp hf
      refine ⟨s, l.removeNodePosition p, by simp only [step, NodeStore.findNodePosition, hf], ?_, rfl⟩
      refine ⟨h.mesh, Map.wf_erase _ _ h.wf, ?_, ?_, ?_⟩
      · intro q i hq
        show (l.coefs.erase p).find q = _
        rw [Map.find_erase _ h.wf, given]
        by_cases hqp : p = q
        · subst hqp
          rw [hp] at hq
          obtain rfl := Option.some.inj hq
          rw [if_pos rfl, if_pos rfl]
          rfl
        · rw [if_neg hqp, if_neg (fun hc : id = i => hqp (ids_get_inj h.mesh (hc ▸ hp) hq))]
          exact h.known q i hq
      · intro q hq
        show (l.coefs.erase p).find q = _
        rw [Map.find_erase _ h.wf]
        split
        · rfl
        · exact h.unknown q hq
      · intro i hi
        rw [given]
        split
        · rfl
        · exact h.absent i hi

theorem run_inv (es hist : List Event) (hv : ∀ e ∈ es, e.Valid) (s : NodeStore) (l : Lmpc)
    (h : Inv hist s l) : ∃ s' l', run s l es = .ok (s', l') ∧ Inv (es.reverse ++ hist) s' l' ∧
      l'.coefImpo = l.coefImpo := by
  induction es generalizing hist s l with
  | nil => exact ⟨s, l, rfl, h, rfl⟩
  | cons e es ih =>
    obtain ⟨s1, l1, e1, i1, c1⟩ := step_inv h e (hv e (by simp))
    obtain ⟨s2, l2, e2, i2, c2⟩ := ih (e :: hist) (fun x hx => hv x (by simp [hx])) s1 l1 i1
    refine ⟨s2, l2, ?_, ?_, c2.trans c1⟩
    · simp only [run, e1, Outcome.bind_ok, e2]
    · simpa using i2

/-- The stored coefficient is the sum of the participations, as long as their magnitudes do not
add up to half of `DBL_MAX`. -/
theorem stored_sum (cs : List (Dof → Dbl)) (d : Dof)
    (hb : (cs.map fun c => |c d|).sum ≤ dblMax / 2) (c : DofCoefs) (h : stored cs = some c) :
    c.getValue d = (cs.map fun c => c d).sum := by
  induction cs generalizing c with
  | nil => cases h
  | cons x cs ih =>
    rw [stored] at h
    cases hs : stored cs with
    | none =>
      rw [hs] at h
      simp only [Option.some.injEq] at h
      subst h
      have : cs = [] := by
        cases cs with
        | nil => rfl
        | cons y ys =>
          rw [stored] at hs
          cases hy : stored ys <;> simp [hy] at hs
      subst this
      simp [DofCoefs.getValue]
    | some old =>
      rw [hs] at h
      simp only [Option.some.injEq] at h
      subst h
      simp only [List.map_cons, List.sum_cons] at hb ⊢
      have hx := abs_nonneg (x d)
      have hold := ih (by linarith) old hs
      have habs : |old.getValue d| ≤ (cs.map fun c => |c d|).sum := by
        rw [hold]
        clear hb ih hs hold
        induction cs with
        | nil => simp
        | cons y ys ih =>
          simp only [List.map_cons, List.sum_cons]
          have := abs_add_le (y d) ((ys.map fun c => c d).sum)
          linarith
      have hav : isEqual (old.coefs d) unavailable = false := by
        apply isEqual_unavailable_of_le_half
        unfold DofCoefs.getValue at habs
        linarith
      unfold DofCoefs.getValue DofCoefs.add at *
      simp only [hav, if_true]
      rw [hold]
      ring

theorem stored_none (cs : List (Dof → Dbl)) : stored cs = none ↔ cs = [] := by
  cases cs with
  | nil => simp [stored]
  | cons y ys =>
    rw [stored]
    cases hy : stored ys <;> simp

theorem inv_new (auto part : Int) (c : Dbl) : Inv [] (NodeSpec.empty auto part) (Lmpc.new c) := by
  refine ⟨NodeSpec.inv_empty auto part, ?_, ?_, ?_, ?_⟩
  · exact Map.wf_nil
  · intro p id h
    simp [NodeStore.ids, NodeSpec.empty, NodeStore.init] at h
  · intro p _; rfl
  · intro id _; rfl

/-! ## C37 -/

/-- The participations of node `id` in a history (since it was last removed), in order. -/
def participations (es : List Event) (id : Int) : List (Dof → Dbl) := (given id es.reverse).reverse

/-- **C37** after any history of a mesh and of a relation, the coefficient of each degree of
freedom of each node is the sum of its participations, and the nodes of the relation are those
with a participation. -/
theorem C37_sum (auto part : Int) (impo : Dbl) (es : List Event) (hv : ∀ e ∈ es, e.Valid) :
    ∃ s l, run (NodeSpec.empty auto part) (Lmpc.new impo) es = .ok (s, l) ∧
      l.coefImpo = impo ∧
      (∀ id p, s.findNodePosition id = some p →
        (p ∈ l.nodePositions ↔ participations es id ≠ []) ∧
        ∀ d, ((participations es id).map fun c => |c d|).sum ≤ dblMax / 2 →
          (l.getDoFCoefsForNode p).getValue d = ((participations es id).map fun c => c d).sum) ∧
      (∀ id, s.findNodePosition id = none → participations es id = []) ∧
      (l.ineffective = true ↔ ∀ id, participations es id = []) := by
  obtain ⟨s, l, h1, h2, h3⟩ := run_inv es [] hv _ _ (inv_new auto part impo)
  rw [List.append_nil] at h2
  have hne : ∀ id, participations es id = [] ↔ given id es.reverse = [] := by
    intro id; unfold participations; simp
  have hmem : ∀ id p, s.ids[p]? = some id → (p ∈ l.nodePositions ↔ participations es id ≠ []) := by
    intro id p hp
    unfold nodePositions
    rw [Map.mem_keys_iff, h2.known p id hp, ← Option.ne_none_iff_exists', Ne, stored_none, Ne, hne]
  refine ⟨s, l, h1, h3, ?_, ?_, ?_⟩
  · intro id p hp
    have hp' := (h2.mesh.find id p).mp hp
    refine ⟨hmem id p hp', ?_⟩
    intro d hb
    have hk := h2.known p id hp'
    have hb' : ((given id es.reverse).map fun c => |c d|).sum ≤ dblMax / 2 := by
      unfold participations at hb
      rwa [List.map_reverse, List.sum_reverse] at hb
    have hs : ((participations es id).map fun c => c d).sum =
        ((given id es.reverse).map fun c => c d).sum := by
      unfold participations
      rw [List.map_reverse, List.sum_reverse]
    rw [hs]
    unfold getDoFCoefsForNode
    cases hf : l.coefs.find p with
    | none =>
      rw [hf] at hk
      have := (stored_none _).mp hk.symm
      rw [this]
      cases d <;> rfl
    | some c =>
      rw [hf] at hk
      exact stored_sum _ d hb' c hk.symm
  · intro id hid
    rw [hne]
    exact h2.absent id ((h2.mesh.find_none id).mp hid)
  · unfold ineffective
    rw [List.isEmpty_iff]
    constructor
    · intro hl id
      rw [hne]
      by_cases hid : id ∈ s.ids
      · obtain ⟨p, hp⟩ := List.mem_iff_getElem?.mp hid
        have := h2.known p id hp
        rw [hl] at this
        exact (stored_none _).mp this.symm
      · exact h2.absent id hid
    · intro h
      cases hc : l.coefs with
      | nil => rfl
      | cons kv rest =>
        exfalso
        have hk : (l.coefs.find kv.1).isSome = true := by
          rw [Option.isSome_iff_exists, ← Map.mem_keys_iff, hc]; simp [Map.keys]
        cases hp : s.ids[kv.1]? with
        | none => rw [h2.unknown _ hp] at hk; cases hk
        | some id =>
          rw [h2.known _ id hp, (stored_none _).mpr ((hne id).mp (h id))] at hk
          cases hk

/-- **C37** the order of the participations does not matter: histories with the same
participations give every node the same coefficients. -/
theorem C37_order (auto part : Int) (impo : Dbl) (es fs : List Event) (hv : ∀ e ∈ es, e.Valid)
    (hw : ∀ e ∈ fs, e.Valid) (s t : NodeStore) (l k : Lmpc)
    (hs : run (NodeSpec.empty auto part) (Lmpc.new impo) es = .ok (s, l))
    (ht : run (NodeSpec.empty auto part) (Lmpc.new impo) fs = .ok (t, k))
    (id : Int) (hp : (participations es id).Perm (participations fs id)) (p q : Nat)
    (hsp : s.findNodePosition id = some p) (htq : t.findNodePosition id = some q) (d : Dof)
    (hb : ((participations es id).map fun c => |c d|).sum ≤ dblMax / 2) :
    (l.getDoFCoefsForNode p).getValue d = (k.getDoFCoefsForNode q).getValue d := by
  obtain ⟨s', l', h1, -, h2, -⟩ := C37_sum auto part impo es hv
  obtain ⟨t', k', h3, -, h4, -⟩ := C37_sum auto part impo fs hw
  rw [hs] at h1
  rw [ht] at h3
  simp only [Outcome.ok.injEq, Prod.mk.injEq] at h1 h3
  obtain ⟨rfl, rfl⟩ := h1
  obtain ⟨rfl, rfl⟩ := h3
  rw [(h2 id p hsp).2 d hb, (h4 id q htq).2 d (by rw [← (hp.map _).sum_eq]; exact hb)]
  exact (hp.map _).sum_eq

/-- **C37** the degrees of freedom of a node in a relation are those whose coefficient is not
zero (up to the tolerance). -/
theorem C37_dofs (l : Lmpc) (p : Nat) (d : Dof) :
    (l.getDOFSForNode p).contains d = true ↔
      isZero ((l.getDoFCoefsForNode p).getValue d) = false := by
  unfold getDOFSForNode getDoFCoefsForNode
  cases l.coefs.find p with
  | none =>
    have : (DofCoefs.ofValues 0 0 0 0 0 0).getValue d = 0 := by cases d <;> rfl
    simp [this, Dofs.contains_noDofs]
  | some c =>
    simp only
    have gen : ∀ (ds : List Dof) (D : Dofs), ((ds.foldl (addIfNonZero c) D).contains d = true ↔
        D.contains d = true ∨ (d ∈ ds ∧ isZero (c.getValue d) = false)) := by
      intro ds
      induction ds with
      | nil => intro D; simp
      | cons x xs ih =>
        intro D
        rw [List.foldl_cons, ih]
        unfold addIfNonZero
        by_cases hz : isZero (c.getValue x) = true
        · simp only [hz, Bool.not_true]
          constructor
          · rintro (h | ⟨h, h'⟩)
            · exact Or.inl h
            · exact Or.inr ⟨by simp [h], h'⟩
          · rintro (h | ⟨h, h'⟩)
            · exact Or.inl h
            · rcases List.mem_cons.mp h with rfl | h
              · rw [hz] at h'; cases h'
              · exact Or.inr ⟨h, h'⟩
        · rw [Bool.not_eq_true] at hz
          simp only [hz, Bool.not_false, if_true, Dofs.addDof_eq, Dofs.contains_union,
            Dofs.contains_ofDof, Bool.or_eq_true, decide_eq_true_eq, List.mem_cons]
          constructor
          · rintro ((h | rfl) | ⟨h, h'⟩)
            · exact Or.inl h
            · exact Or.inr ⟨Or.inl rfl, hz⟩
            · exact Or.inr ⟨Or.inr h, h'⟩
          · rintro (h | ⟨rfl | h, h'⟩)
            · exact Or.inl (Or.inl h)
            · exact Or.inl (Or.inr rfl)
            · exact Or.inr ⟨h, h'⟩
    rw [gen, Dofs.contains_noDofs]
    have : d ∈ [Dof.DX, .DY, .DZ, .RX, .RY, .RZ] := Dof.mem_all d
    simp [this]

-- a history with a repeated node, a removed one and a change of the mesh
def exEvents : List Event :=
  [.add 7 (fun d => if d = .DX then 1 else 0), .mesh ⟨3, 0, .create ⟨1, 2, 3, 0, 0⟩⟩,
   .add 9 (fun _ => 4), .add 7 (fun d => if d = .DX then 2 else 5), .remove 9]
example : (∀ e ∈ exEvents, e.Valid) ∧ (participations exEvents 7).map (fun c => c .DX) = [1, 2] ∧
    (participations exEvents 9).length = 0 := by
  refine ⟨?_, by decide +kernel, by decide +kernel⟩
  intro e he
  simp only [exEvents, List.mem_cons, List.not_mem_nil, or_false] at he
  rcases he with rfl | rfl | rfl | rfl | rfl <;> first | trivial | (simp [Event.Valid, AUTO_ID])

end Vega.LmpcSpec
