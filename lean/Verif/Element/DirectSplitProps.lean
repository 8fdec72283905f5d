import Verif.Element.DirectProps

/-! # Splitting of direct matrices: property C33 -/
namespace Vega
namespace DirectSpec
open DirectMatrix MatrixSplit

/-! ## Specification -/

/-- The matrices `pieces` carry together the coefficients of `m`, each in exactly one of them. -/
structure Carries (pieces : List DirectMatrix) (m : DirectMatrix) : Prop where
  all : ∀ x y v, Reads m x y v ↔ ∃ (i : Nat) (p : DirectMatrix), pieces[i]? = some p ∧ Reads p x y v
  once : ∀ (i j : Nat) p q x y v w, pieces[i]? = some p → pieces[j]? = some q → Reads p x y v →
    Reads q x y w → i = j

/-- The nodes of the matrix exist. -/
def NodesKnown (ns : NodeStore) (m : DirectMatrix) : Prop :=
  ∀ p ∈ m.nodePositions, p < ns.ids.length

/-! ## Lemmas -/

theorem reserve_known (ns : NodeStore) (h : ns.Inv) (p : Nat) (id : Int) (hp : ns.ids[p]? = some id) :
    ns.findOrReserveNode id none = .ok (ns, p) := by
  unfold NodeStore.findOrReserveNode NodeStore.mainPart NodeStore.findNodePosition
  simp only [(h.find id p).mpr hp]

theorem findNodeId_eq (ns : NodeStore) (p : Nat) (h : p < ns.ids.length) :
    ∃ id, ns.findNodeId p = .ok id ∧ ns.ids[p]? = some id := by
  unfold NodeStore.ids at h ⊢
  rw [List.length_map] at h
  refine ⟨(ns.nodeDatas[p]).id, ?_, ?_⟩
  · unfold NodeStore.findNodeId
    rw [List.getElem?_eq_getElem h]
  · rw [List.getElem?_map, List.getElem?_eq_getElem h]; rfl

/-- Copying the entries of a pair of nodes. -/
theorem copy_eq (ns : NodeStore) (h : ns.Inv) (a b : Nat) (ia ib : Int) (ha : ns.ids[a]? = some ia)
    (hb : ns.ids[b]? = some ib) (l : Map (Dof × Dof) Dbl) (hw : l.WF)
    (hc : ∀ d v, (d, v) ∈ l → Canonical ((a, b), d)) (m : DirectMatrix) (hm : Inv m) :
    ∃ m', copy ns ia ib l m = .ok (ns, m') ∧ Inv m' ∧
      (∀ k, raw m' k = if k.1 = (a, b) ∧ k.2 ∈ l.keys then l.find k.2 else raw m k) ∧
      (∀ p, p ∈ m'.sub.keys → p = (a, b) ∨ p ∈ m.sub.keys) := by
  induction l generalizing m with
  | nil => exact ⟨m, rfl, hm, by simp, fun _ h => .inr h⟩
  | cons e l ih =>
    obtain ⟨⟨c, d⟩, v⟩ := e
    have hcan := canon_of_canonical _ (hc (c, d) v (List.mem_cons_self ..))
    simp only at hcan
    obtain ⟨m1, h1, h2, h3, h4⟩ := addAt_eq m hm (a, c) (b, d) v
    have hw' : Map.WF l := (List.nodup_cons.mp hw).2
    have hn : (c, d) ∉ Map.keys l := (List.nodup_cons.mp hw).1
    obtain ⟨m2, g1, g2, g3, g4⟩ := ih hw' (fun d v h => hc d v (List.mem_cons_of_mem _ h)) m1 h2
    refine ⟨m2, ?_, g2, ?_, ?_⟩
    · simp only [copy, DirectMatrix.addComponent, reserve_known ns h a ia ha, reserve_known ns h b ib hb,
        Outcome.bind_ok, h1, g1]
    · rintro ⟨kp, kd⟩
      rw [g3, h3, hcan]
      simp only [Map.keys_cons, List.mem_cons]
      have hfind : ∀ k, Map.find (((c, d), v) :: l) k = if (c, d) = k then some v else Map.find l k := by
        intro k
        rfl
      by_cases e1 : kp = (a, b)
      · subst e1
        simp only [true_and]
        rw [hfind]
        by_cases e2 : kd = (c, d)
        · subst e2; simp [hn]
        · simp [e2, Ne.symm e2]
      · simp [e1]
    · intro p hp
      rcases g4 p hp with hp | hp
      · exact .inl hp
      · rw [h4, hcan] at hp; exact hp

/-- Stacks are given in the order in which the nodes are seen, `ss` nodes by stack. -/
def Stacked (ss : Nat) (stack : Map Nat Nat) (order : List Nat) : Prop :=
  order.Nodup ∧ stack = order.zipIdx.map fun e => (e.1, e.2 / ss)

theorem stacked_find (ss : Nat) (stack : Map Nat Nat) (order : List Nat) (h : Stacked ss stack order)
    (p : Nat) : (∀ s, stack.find p = some s ↔ ∃ i, order[i]? = some p ∧ s = i / ss) := by
  intro s
  have hk : stack.WF := by
    rw [h.2]
    unfold Map.WF Map.keys
    rw [List.map_map]
    have : ((fun x : Nat × Nat => x.1) ∘ fun e : Nat × Nat => (e.1, e.2 / ss)) = Prod.fst := rfl
    rw [this, List.zipIdx_map_fst]
    exact h.1
  rw [← Map.mem_iff_find _ hk, h.2, List.mem_map]
  constructor
  · rintro ⟨⟨q, i⟩, hm, he⟩
    rw [List.mem_zipIdx_iff_getElem?] at hm
    simp only [Prod.mk.injEq] at he
    exact ⟨i, by rw [← he.1]; exact hm, he.2.symm⟩
  · rintro ⟨i, hi, rfl⟩
    exact ⟨(p, i), List.mem_zipIdx_iff_getElem?.mpr hi, rfl⟩

theorem set_absent {κ α : Type} [DecidableEq κ] (m : Map κ α) (k : κ) (a : α) (h : m.find k = none) :
    m.set k a = m ++ [(k, a)] := by
  induction m with
  | nil => rfl
  | cons e l ih =>
    obtain ⟨k', b⟩ := e
    unfold Map.find at h
    split at h
    · cases h
    · rename_i hne
      unfold Map.set
      rw [if_neg hne, ih h]
      rfl

theorem stackOf_eq (ss : Nat) (stack : Map Nat Nat) (order : List Nat) (h : Stacked ss stack order)
    (p : Nat) :
    ∃ order', order <+: order' ∧ Stacked ss (stackOf ss stack p).1 order' ∧
      (stackOf ss stack p).1.find p = some (stackOf ss stack p).2 ∧
      (∀ q s, stack.find q = some s → (stackOf ss stack p).1.find q = some s) := by
  unfold stackOf
  cases hf : stack.find p with
  | some s => exact ⟨order, List.prefix_rfl, h, hf, fun _ _ h => h⟩
  | none =>
    have hlen : stack.length = order.length := by rw [h.2]; simp
    have hnp : p ∉ order := by
      intro hm
      obtain ⟨i, hi, rfl⟩ := List.getElem_of_mem hm
      have := (stacked_find ss stack order h order[i] (i / ss)).mpr ⟨i, List.getElem?_eq_getElem hi, rfl⟩
      rw [hf] at this; cases this
    refine ⟨order ++ [p], List.prefix_append _ _, ⟨?_, ?_⟩, ?_, ?_⟩
    · rw [List.nodup_append]
      refine ⟨h.1, by simp, ?_⟩
      intro a ha b hb
      rw [List.mem_singleton] at hb
      subst hb
      rintro rfl
      exact hnp ha
    · simp only
      rw [set_absent _ _ _ hf, List.zipIdx_append, List.map_append, ← h.2, hlen]
      simp
    · simp
    · intro q s hq
      simp only
      rw [Map.find_set_ne]
      · exact hq
      · rintro rfl
        rw [hf] at hq; cases hq

/-- The nodes of a stack. -/
def stackNodes (ss : Nat) (order : List Nat) (s : Nat) : List Nat := (order.drop (s * ss)).take ss

theorem mem_stackNodes (ss : Nat) (hss : 0 < ss) (order : List Nat) (p i : Nat) (h : order[i]? = some p) :
    p ∈ stackNodes ss order (i / ss) := by
  unfold stackNodes
  have h1 : i / ss * ss ≤ i := Nat.div_mul_le_self i ss
  have h2 : i < i / ss * ss + ss := by
    have := Nat.lt_div_mul_add hss (a := i)
    omega
  rw [List.mem_iff_getElem?]
  refine ⟨i - i / ss * ss, ?_⟩
  rw [List.getElem?_take_of_lt (by omega), List.getElem?_drop]
  rw [Nat.add_sub_cancel' h1]
  exact h

/-- Invariant of the loop: `done` are the pairs of nodes already treated. -/
structure LoopInv (ss : Nat) (m : DirectMatrix) (s : State) (done : List (Nat × Nat)) : Prop where
  stacked : ∃ order, Stacked ss s.stack order
  inv : ∀ p ∈ s.pieces, Inv p
  es : ∀ ps i, s.es.find ps = some i → i < s.pieces.length
  owner : ∀ i p, s.pieces[i]? = some p → ∃ a b : Nat,
    (∀ ps, s.es.find ps = some i → (ps.1 = a ∨ ps.1 = b) ∧ (ps.2 = a ∨ ps.2 = b)) ∧
    ∀ q ∈ p.nodePositions, s.stack.find q = some a ∨ s.stack.find q = some b
  all : ∀ k v, (k.1 ∈ done ∧ raw m k = some v) ↔ ∃ (i : Nat) (p : DirectMatrix), s.pieces[i]? = some p ∧ raw p k = some v
  once : ∀ (i j : Nat) p q k v w, s.pieces[i]? = some p → s.pieces[j]? = some q → raw p k = some v →
    raw q k = some w → i = j

theorem loopInv_init (ss : Nat) (m : DirectMatrix) : LoopInv ss m ⟨[], [], []⟩ [] where
  stacked := ⟨[], List.nodup_nil, rfl⟩
  inv := by simp
  es := by simp
  owner := by simp
  all := by simp
  once := by simp

/-- The new matrix for a pair of stacks. -/
theorem pieceOf_eq (t : MatrixType) (ss : Nat) (m : DirectMatrix) (ht : t = .SYMMETRIC) (s : State)
    (done : List (Nat × Nat)) (h : LoopInv ss m s done) (ps : Nat × Nat) :
    LoopInv ss m (pieceOf t s ps).1 done ∧ (pieceOf t s ps).1.stack = s.stack ∧
      (pieceOf t s ps).1.es.find ps = some (pieceOf t s ps).2 := by
  unfold pieceOf
  cases hf : s.es.find ps with
  | some i => exact ⟨h, rfl, hf⟩
  | none =>
    simp only
    -- the entries after the creation
    generalize hes : (if ps.1 - ps.1 % 2 = ps.2 - ps.2 % 2 then
        (((s.es.set ps s.pieces.length).set (ps.1 - ps.1 % 2, ps.1 - ps.1 % 2) s.pieces.length).set
          (ps.1 - ps.1 % 2, ps.1 - ps.1 % 2 + 1) s.pieces.length).set
          (ps.1 - ps.1 % 2 + 1, ps.1 - ps.1 % 2 + 1) s.pieces.length
      else s.es.set ps s.pieces.length) = es'
    have key : es'.find ps = some s.pieces.length ∧ ∃ a b : Nat, ∀ qs j, es'.find qs = some j →
        s.es.find qs = some j ∨ (j = s.pieces.length ∧ (qs.1 = a ∨ qs.1 = b) ∧ (qs.2 = a ∨ qs.2 = b)) := by
      subst hes
      split
      · refine ⟨?_, ps.1 - ps.1 % 2, ps.1 - ps.1 % 2 + 1, ?_⟩
        · simp only [Map.find_set]
          split
          · rfl
          · split
            · rfl
            · split
              · rfl
              · simp
        · intro qs j hj
          simp only [Map.find_set] at hj
          split at hj
          · rename_i e; subst e; right; injection hj with hj; exact ⟨hj.symm, by simp, by simp⟩
          · split at hj
            · rename_i e; subst e; right; injection hj with hj; exact ⟨hj.symm, by simp, by simp⟩
            · split at hj
              · rename_i e; subst e; right; injection hj with hj; exact ⟨hj.symm, by simp, by simp⟩
              · split at hj
                · rename_i h0 _ _ _ e; subst e; right; injection hj with hj
                  exact ⟨hj.symm, by omega, by omega⟩
                · exact .inl hj
      · refine ⟨by simp, ps.1, ps.2, ?_⟩
        intro qs j hj
        simp only [Map.find_set] at hj
        split at hj
        · rename_i e; subst e; right; injection hj with hj; exact ⟨hj.symm, by simp, by simp⟩
        · exact .inl hj
    obtain ⟨k1, a, b, k2⟩ := key
    have hget : ∀ (i : Nat) p, (s.pieces ++ [DirectMatrix.new t])[i]? = some p →
        s.pieces[i]? = some p ∨ (i = s.pieces.length ∧ p = DirectMatrix.new t) := by
      intro i p hi
      rcases Nat.lt_trichotomy i s.pieces.length with hl | hl | hl
      · rw [List.getElem?_append_left hl] at hi; exact .inl hi
      · subst hl; rw [List.getElem?_concat_length] at hi; injection hi with hi; exact .inr ⟨rfl, hi.symm⟩
      · rw [List.getElem?_eq_none (by simp; omega)] at hi; cases hi
    have hnew : ∀ k, raw (DirectMatrix.new t) k = none := by
      intro k; unfold raw DirectMatrix.new; simp
    refine ⟨⟨h.stacked, ?_, ?_, ?_, ?_, ?_⟩, trivial, k1⟩
    · intro p hp
      rcases List.mem_append.mp hp with hp | hp
      · exact h.inv p hp
      · rw [List.mem_singleton] at hp; subst hp; subst ht; exact inv_new
    · intro qs j hj
      simp only [List.length_append, List.length_singleton]
      rcases k2 qs j hj with hj | ⟨hj, _⟩
      · have := h.es qs j hj; omega
      · omega
    · intro i p hi
      rcases hget i p hi with hi | ⟨hi, hp⟩
      · obtain ⟨a', b', o1, o2⟩ := h.owner i p hi
        refine ⟨a', b', ?_, o2⟩
        intro qs hqs
        rcases k2 qs i hqs with hj | ⟨hj, _⟩
        · exact o1 qs hj
        · have := (List.getElem?_eq_some_iff.mp hi).1
          omega
      · subst hi; subst hp
        refine ⟨a, b, ?_, ?_⟩
        · intro qs hqs
          rcases k2 qs _ hqs with hj | ⟨_, hj⟩
          · have := h.es qs _ hj; omega
          · exact hj
        · intro q hq; simp [nodePositions, DirectMatrix.new] at hq
    · intro k v
      rw [h.all]
      constructor
      · rintro ⟨i, p, hi, hr⟩
        refine ⟨i, p, ?_, hr⟩
        simp only
        rw [List.getElem?_append_left (List.getElem?_eq_some_iff.mp hi).1]
        exact hi
      · rintro ⟨i, p, hi, hr⟩
        rcases hget i p hi with hi | ⟨_, hp⟩
        · exact ⟨i, p, hi, hr⟩
        · subst hp; rw [hnew] at hr; cases hr
    · intro i j p q k v w hi hj hp hq
      rcases hget i p hi with hi | ⟨_, hp'⟩
      · rcases hget j q hj with hj | ⟨_, hq'⟩
        · exact h.once i j p q k v w hi hj hp hq
        · subst hq'; rw [hnew] at hq; cases hq
      · subst hp'; rw [hnew] at hp; cases hp

theorem sub_key (m : DirectMatrix) (k : (Nat × Nat) × (Dof × Dof)) (v : Dbl) (h : raw m k = some v) :
    k.1 ∈ m.sub.keys := by
  unfold raw at h
  rw [Map.mem_keys_iff]
  cases hf : m.sub.find k.1 with
  | none => rw [hf] at h; cases h
  | some s => exact ⟨s, rfl⟩

/-- The treatment of one pair of nodes. -/
theorem pair_eq (ss : Nat) (m : DirectMatrix) (hm : Inv m) (ns : NodeStore) (hns : ns.Inv)
    (hk : NodesKnown ns m) (s : State) (done : List (Nat × Nat)) (h : LoopInv ss m s done)
    (np : Nat × Nat) (hnp : np ∈ m.nodePairs) (hd : np ∉ done) :
    ∃ s', MatrixSplit.pair ss m ns s np = .ok (ns, s') ∧ LoopInv ss m s' (np :: done) := by
  obtain ⟨sub, hsub⟩ := (Map.mem_keys_iff _ _).mp hnp
  obtain ⟨_, w1, _, _, w2⟩ := hm.subs np sub hsub
  have hl1 := hk np.1 ((mem_nodePositions m _).mpr ⟨np, hnp, .inl rfl⟩)
  have hl2 := hk np.2 ((mem_nodePositions m _).mpr ⟨np, hnp, .inr rfl⟩)
  obtain ⟨i1, e1, f1⟩ := findNodeId_eq ns np.1 hl1
  obtain ⟨i2, e2, f2⟩ := findNodeId_eq ns np.2 hl2
  obtain ⟨order, ho⟩ := h.stacked
  obtain ⟨o1, p1, st1, fd1, mono1⟩ := stackOf_eq ss s.stack order ho np.1
  obtain ⟨o2, p2, st2, fd2, mono2⟩ := stackOf_eq ss _ o1 st1 np.2
  generalize hr1 : stackOf ss s.stack np.1 = r1 at *
  obtain ⟨stack1, sI⟩ := r1
  simp only at p1 st1 fd1 mono1 p2 st2 fd2 mono2
  generalize hr2 : stackOf ss stack1 np.2 = r2 at *
  obtain ⟨stack2, sJ⟩ := r2
  simp only at p2 st2 fd2 mono2
  -- the state with the stacks
  have h2 : LoopInv ss m { s with stack := stack2 } done := by
    refine ⟨⟨o2, st2⟩, h.inv, h.es, ?_, h.all, h.once⟩
    intro i p hi
    obtain ⟨a, b, q1, q2⟩ := h.owner i p hi
    refine ⟨a, b, q1, ?_⟩
    intro q hq
    rcases q2 q hq with hh | hh
    · exact .inl (mono2 _ _ (mono1 _ _ hh))
    · exact .inr (mono2 _ _ (mono1 _ _ hh))
  obtain ⟨h3, hstk, hfind⟩ := pieceOf_eq m.matrixType ss m hm.type _ done h2 (sortPair sI sJ)
  generalize hr3 : pieceOf m.matrixType { s with stack := stack2 } (sortPair sI sJ) = r3 at *
  obtain ⟨s3, i⟩ := r3
  simp only at h3 hstk hfind
  have hi := h3.es _ _ hfind
  have hpi : s3.pieces[i]? = some s3.pieces[i] := List.getElem?_eq_getElem hi
  obtain ⟨m', c1, c2, c3, c4⟩ := copy_eq ns hns np.1 np.2 i1 i2 f1 f2 sub.componentByDofs w1
    (fun d v hdv => w2 d v (Map.find_of_mem _ w1 hdv)) s3.pieces[i]
    (h3.inv _ (List.getElem_mem hi))
  have hsubm : (m.findSubmatrix np.1 np.2).componentByDofs = sub.componentByDofs := by
    unfold findSubmatrix
    have : m.sub.find (np.1, np.2) = some sub := hsub
    rw [this]
  have hrawm : ∀ d, raw m (np, d) = sub.componentByDofs.find d := by
    intro d; unfold raw; simp only [hsub]; rfl
  -- raw of the receiving piece at this pair of nodes is empty before
  have hempty : ∀ d, raw s3.pieces[i] (np, d) = none := by
    intro d
    cases hr : raw s3.pieces[i] (np, d) with
    | none => rfl
    | some v => exact absurd ((h3.all (np, d) v).mpr ⟨i, _, hpi, hr⟩).1 hd
  have hraw' : ∀ k, raw m' k = if k.1 = np then raw m k else raw s3.pieces[i] k := by
    rintro ⟨kp, kd⟩
    rw [c3]
    simp only
    by_cases e : kp = np
    · subst e
      rw [if_pos rfl, hrawm]
      by_cases hmem : kd ∈ sub.componentByDofs.keys
      · rw [if_pos ⟨rfl, hmem⟩]
      · rw [if_neg (fun hh => hmem hh.2), hempty, (Map.find_eq_none_iff _ _).mpr hmem]
    · rw [if_neg (fun hh => e hh.1), if_neg e]
  have hget : ∀ (j : Nat) p, (s3.pieces.set i m')[j]? = some p →
      (j = i ∧ p = m') ∨ (j ≠ i ∧ s3.pieces[j]? = some p) := by
    intro j p hj
    rw [List.getElem?_set] at hj
    by_cases e : i = j
    · subst e
      rw [if_pos rfl, if_pos hi] at hj
      injection hj with hj
      exact .inl ⟨rfl, hj.symm⟩
    · rw [if_neg e] at hj
      exact .inr ⟨Ne.symm e, hj⟩
  refine ⟨{ s3 with pieces := s3.pieces.set i m' }, ?_, ⟨h3.stacked, ?_, ?_, ?_, ?_, ?_⟩⟩
  · unfold MatrixSplit.pair
    simp only [e1, e2, Outcome.bind_ok, hr1, hr2, hr3, hpi, hsubm, c1]
  · intro p hp
    rcases List.mem_or_eq_of_mem_set hp with hp | hp
    · exact h3.inv p hp
    · subst hp; exact c2
  · intro qs j hj
    simp only [List.length_set]
    exact h3.es qs j hj
  · intro j p hj
    rcases hget j p hj with ⟨rfl, rfl⟩ | ⟨_, hj⟩
    · obtain ⟨a, b, q1, q2⟩ := h3.owner j _ hpi
      refine ⟨a, b, q1, ?_⟩
      intro q hq
      obtain ⟨k, hkk, hqk⟩ := (mem_nodePositions _ _).mp hq
      rcases c4 k hkk with hkk | hkk
      · have hps := q1 _ hfind
        have hI : sI = a ∨ sI = b := by
          unfold sortPair at hps; split at hps
          · exact hps.1
          · exact hps.2
        have hJ : sJ = a ∨ sJ = b := by
          unfold sortPair at hps; split at hps
          · exact hps.2
          · exact hps.1
        simp only
        rw [hstk]
        subst hkk
        rcases hqk with hqk | hqk
        · simp only at hqk
          subst hqk
          have hh := mono2 _ _ fd1
          rcases hI with rfl | rfl
          · exact .inl hh
          · exact .inr hh
        · simp only at hqk
          subst hqk
          rcases hJ with rfl | rfl
          · exact .inl fd2
          · exact .inr fd2
      · exact q2 q ((mem_nodePositions _ _).mpr ⟨k, hkk, hqk⟩)
    · exact h3.owner j p hj
  · intro k v
    constructor
    · rintro ⟨hkd, hr⟩
      by_cases e : k.1 = np
      · refine ⟨i, m', ?_, ?_⟩
        · simp only
          rw [List.getElem?_set_self hi]
        · rw [hraw', if_pos e]; exact hr
      · have hkd : k.1 ∈ done := by
          rcases List.mem_cons.mp hkd with hkd | hkd
          · exact absurd hkd e
          · exact hkd
        obtain ⟨j, p, hj, hp⟩ := (h3.all k v).mp ⟨hkd, hr⟩
        by_cases ej : j = i
        · subst ej
          rw [hpi] at hj; injection hj with hj; subst hj
          refine ⟨j, m', ?_, ?_⟩
          · simp only
            rw [List.getElem?_set_self hi]
          · rw [hraw', if_neg e]; exact hp
        · refine ⟨j, p, ?_, hp⟩
          simp only
          rw [List.getElem?_set_ne (Ne.symm ej)]; exact hj
    · rintro ⟨j, p, hj, hp⟩
      rcases hget j p hj with ⟨rfl, rfl⟩ | ⟨_, hj⟩
      · rw [hraw'] at hp
        by_cases e : k.1 = np
        · rw [if_pos e] at hp
          exact ⟨by rw [e]; exact List.mem_cons_self .., hp⟩
        · rw [if_neg e] at hp
          obtain ⟨g1, g2⟩ := (h3.all k v).mpr ⟨_, _, hpi, hp⟩
          exact ⟨List.mem_cons_of_mem _ g1, g2⟩
      · obtain ⟨g1, g2⟩ := (h3.all k v).mpr ⟨_, _, hj, hp⟩
        exact ⟨List.mem_cons_of_mem _ g1, g2⟩
  · intro j1 j2 p q k v w hj1 hj2 hp hq
    have other : ∀ (j : Nat) p w, j ≠ i → s3.pieces[j]? = some p → raw p k = some w → ∀ v, raw m' k = some v → False := by
      intro j p w hji hj hp v hv
      rw [hraw'] at hv
      by_cases e : k.1 = np
      · have := ((h3.all k w).mpr ⟨_, _, hj, hp⟩).1
        rw [e] at this
        exact hd this
      · rw [if_neg e] at hv
        exact hji (h3.once j i _ _ k w v hj hpi hp hv)
    rcases hget j1 p hj1 with ⟨rfl, rfl⟩ | ⟨n1, g1⟩
    · rcases hget j2 q hj2 with ⟨rfl, rfl⟩ | ⟨n2, g2⟩
      · rfl
      · exact (other j2 q w n2 g2 hq v hp).elim
    · rcases hget j2 q hj2 with ⟨rfl, rfl⟩ | ⟨n2, g2⟩
      · exact (other j1 p v n1 g1 hp w hq).elim
      · exact h3.once j1 j2 p q k v w g1 g2 hp hq

theorem loop_eq (ss : Nat) (m : DirectMatrix) (hm : Inv m) (ns : NodeStore) (hns : ns.Inv)
    (hk : NodesKnown ns m) (l : List (Nat × Nat)) (s : State) (done : List (Nat × Nat))
    (h : LoopInv ss m s done) (hl : ∀ np ∈ l, np ∈ m.nodePairs ∧ np ∉ done) (hn : l.Nodup) :
    ∃ s', MatrixSplit.loop ss m l ns s = .ok (ns, s') ∧ LoopInv ss m s' (l.reverse ++ done) := by
  induction l generalizing s done with
  | nil => exact ⟨s, rfl, h⟩
  | cons np l ih =>
    obtain ⟨hn1, hn2⟩ := List.nodup_cons.mp hn
    obtain ⟨a1, a2⟩ := hl np (List.mem_cons_self ..)
    obtain ⟨s1, b1, b2⟩ := pair_eq ss m hm ns hns hk s done h np a1 a2
    obtain ⟨s2, c1, c2⟩ := ih s1 (np :: done) b2 (fun q hq => by
      refine ⟨(hl q (List.mem_cons_of_mem _ hq)).1, ?_⟩
      intro hmem
      rcases List.mem_cons.mp hmem with e | e
      · subst e; exact hn1 hq
      · exact (hl q (List.mem_cons_of_mem _ hq)).2 e) hn2
    refine ⟨s2, ?_, ?_⟩
    · simp only [MatrixSplit.loop, b1, Outcome.bind_ok, c1]
    · simpa using c2

/-- The matrices that replace one matrix. -/
theorem splitOne_eq (sizeMax : Nat) (hs : 2 ≤ sizeMax) (m : DirectMatrix) (hm : Inv m) (ns : NodeStore)
    (hns : ns.Inv) (hk : NodesKnown ns m) :
    ∃ pieces, splitOne sizeMax ns m = .ok (ns, pieces) ∧ Carries pieces m ∧
      ∀ p ∈ pieces, Inv p ∧ p.nodePositions.length ≤ sizeMax := by
  obtain ⟨s, h1, h2⟩ := loop_eq (sizeMax / 2) m hm ns hns hk m.nodePairs ⟨[], [], []⟩ []
    (loopInv_init _ _) (fun np h => ⟨h, by simp⟩) hm.wf
  rw [List.append_nil] at h2
  refine ⟨s.pieces, ?_, ⟨?_, ?_⟩, ?_⟩
  · unfold splitOne
    simp only [h1, Outcome.bind_ok]
  · intro x y v
    rw [reads_iff m hm]
    constructor
    · intro hr
      have hkey : (canon x y).1 ∈ m.nodePairs := sub_key m _ v hr
      obtain ⟨i, p, hi, hp⟩ := (h2.all _ v).mp ⟨List.mem_reverse.mpr hkey, hr⟩
      exact ⟨i, p, hi, (reads_iff p (h2.inv p (List.mem_of_getElem? hi)) x y v).mpr hp⟩
    · rintro ⟨i, p, hi, hp⟩
      rw [reads_iff p (h2.inv p (List.mem_of_getElem? hi))] at hp
      exact ((h2.all _ v).mpr ⟨i, p, hi, hp⟩).2
  · intro i j p q x y v w hi hj hp hq
    rw [reads_iff p (h2.inv p (List.mem_of_getElem? hi))] at hp
    rw [reads_iff q (h2.inv q (List.mem_of_getElem? hj))] at hq
    exact h2.once i j p q _ v w hi hj hp hq
  · intro p hp
    refine ⟨h2.inv p hp, ?_⟩
    obtain ⟨i, hi⟩ := List.mem_iff_getElem?.mp hp
    obtain ⟨a, b, _, hn⟩ := h2.owner i p hi
    obtain ⟨order, ho⟩ := h2.stacked
    have hss : 0 < sizeMax / 2 := by omega
    have hsub : p.nodePositions ⊆ stackNodes (sizeMax / 2) order a ++ stackNodes (sizeMax / 2) order b := by
      intro q hq
      rw [List.mem_append]
      rcases hn q hq with hh | hh
      · obtain ⟨j, hj, rfl⟩ := (stacked_find _ _ _ ho q _).mp hh
        exact .inl (mem_stackNodes _ hss _ _ _ hj)
      · obtain ⟨j, hj, rfl⟩ := (stacked_find _ _ _ ho q _).mp hh
        exact .inr (mem_stackNodes _ hss _ _ _ hj)
    have hlen := ((nodePositions_nodup p).subperm hsub).length_le
    have h1 : (stackNodes (sizeMax / 2) order a).length ≤ sizeMax / 2 := by
      unfold stackNodes; exact List.length_take_le ..
    have h2 : (stackNodes (sizeMax / 2) order b).length ≤ sizeMax / 2 := by
      unfold stackNodes; exact List.length_take_le ..
    rw [List.length_append] at hlen
    omega

/-! ## C33 -/

/-- **C33.** A matrix over too many nodes is replaced by matrices over at most `sizeMax` nodes that
carry together its coefficients, each exactly once; the nodes of the model do not change. -/
theorem C33_one (sizeMax : Nat) (hs : 2 ≤ sizeMax) (hist : List Entry) (ns : NodeStore) (hns : ns.Inv)
    (m : DirectMatrix) (hm : DirectSpec.run (DirectMatrix.new .SYMMETRIC) hist = .ok m)
    (hk : NodesKnown ns m) :
    ∃ pieces, splitOne sizeMax ns m = .ok (ns, pieces) ∧ Carries pieces m ∧
      ∀ p ∈ pieces, p.nodePositions.length ≤ sizeMax := by
  obtain ⟨m', h1, h2, _⟩ := run_eq hist _ inv_new
  rw [hm] at h1
  injection h1 with h1
  subst h1
  obtain ⟨pieces, a, b, c⟩ := splitOne_eq sizeMax hs m h2 ns hns hk
  exact ⟨pieces, a, b, fun p hp => (c p hp).2⟩

/-- The matrices of the model after the splitting: those small enough, then the pieces of the others
in order. -/
inductive SplitResult (sizeMax : Nat) : List DirectMatrix → List DirectMatrix → List DirectMatrix → Prop
  | nil : SplitResult sizeMax [] [] []
  | keep (m l kept added) : m.nodePositions.length ≤ sizeMax → SplitResult sizeMax l kept added →
      SplitResult sizeMax (m :: l) (m :: kept) added
  | split (m l pieces kept added) : sizeMax < m.nodePositions.length → Carries pieces m →
      (∀ p ∈ pieces, p.nodePositions.length ≤ sizeMax) → SplitResult sizeMax l kept added →
      SplitResult sizeMax (m :: l) kept (pieces ++ added)

theorem splitAll_eq (sizeMax : Nat) (hs : 2 ≤ sizeMax) (l : List DirectMatrix) (ns : NodeStore)
    (hns : ns.Inv) (hl : ∀ m ∈ l, Inv m ∧ NodesKnown ns m) (k a : List DirectMatrix) :
    ∃ kept added, splitAll sizeMax l ns (k, a) = .ok (ns, k ++ kept, a ++ added) ∧
      SplitResult sizeMax l kept added := by
  induction l generalizing k a with
  | nil => exact ⟨[], [], by simp [splitAll], .nil⟩
  | cons m l ih =>
    obtain ⟨h1, h2⟩ := hl m (List.mem_cons_self ..)
    have hl' : ∀ m ∈ l, Inv m ∧ NodesKnown ns m := fun q hq => hl q (List.mem_cons_of_mem _ hq)
    by_cases hle : m.nodePositions.length ≤ sizeMax
    · obtain ⟨kept, added, e, r⟩ := ih hl' (k ++ [m]) a
      refine ⟨m :: kept, added, ?_, .keep m l kept added hle r⟩
      simp only [splitAll, if_pos hle, e]
      simp
    · obtain ⟨pieces, p1, p2, p3⟩ := splitOne_eq sizeMax hs m h1 ns hns h2
      obtain ⟨kept, added, e, r⟩ := ih hl' k (a ++ pieces)
      refine ⟨kept, pieces ++ added, ?_, .split m l pieces kept added (by omega) p2
        (fun p hp => (p3 p hp).2) r⟩
      simp only [splitAll, if_neg hle, p1, Outcome.bind_ok, e]
      simp

/-- **C33, the model.** Every direct matrix of the model over at most `sizeMax` nodes stays, every
other is replaced by pieces over at most `sizeMax` nodes that carry its coefficients, each once. -/
theorem C33_all (sizeMax : Nat) (hs : 2 ≤ sizeMax) (l : List DirectMatrix) (ns : NodeStore)
    (hns : ns.Inv) (hl : ∀ m ∈ l, (∃ hist, DirectSpec.run (DirectMatrix.new .SYMMETRIC) hist = .ok m) ∧
      NodesKnown ns m) :
    ∃ kept added, MatrixSplit.run sizeMax l ns = .ok (ns, kept ++ added) ∧
      SplitResult sizeMax l kept added := by
  have hl' : ∀ m ∈ l, Inv m ∧ NodesKnown ns m := by
    intro m hm
    obtain ⟨⟨hist, hh⟩, hk⟩ := hl m hm
    obtain ⟨m', h1, h2, _⟩ := run_eq hist _ inv_new
    rw [hh] at h1
    injection h1 with h1
    subst h1
    exact ⟨h2, hk⟩
  obtain ⟨kept, added, e, r⟩ := splitAll_eq sizeMax hs l ns hns hl' [] []
  refine ⟨kept, added, ?_, r⟩
  unfold MatrixSplit.run
  rw [if_neg (by omega), e]
  rfl

/-- **C33, refusal.** A maximal size under 2 is refused. -/
theorem C33_small (sizeMax : Nat) (hs : sizeMax < 2) (l : List DirectMatrix) (ns : NodeStore) :
    MatrixSplit.run sizeMax l ns = .throw := by
  unfold MatrixSplit.run
  rw [if_pos hs]

/-- A matrix over three nodes, split with at most two nodes. -/
example : ∃ ns m q, runIds NodeStore.init (DirectMatrix.new .SYMMETRIC)
      [(1, .DX, 2, .DX, 5), (2, .DX, 3, .DY, 7), (3, .DX, 3, .DX, 1)] = .ok (ns, m) ∧ ns.Inv ∧
    DirectSpec.run (DirectMatrix.new .SYMMETRIC) q = .ok m ∧ NodesKnown ns m ∧
    m.nodePositions.length = 3 := by
  obtain ⟨ns, m, q, h1, h2, _, h4, h5⟩ := C51_ids
    [(1, .DX, 2, .DX, 5), (2, .DX, 3, .DY, 7), (3, .DX, 3, .DX, 1)] NodeStore.init NodeStore.inv_init
    (by decide) (DirectMatrix.new .SYMMETRIC) inv_new
  refine ⟨ns, m, q, h1, h2, h5, ?_, ?_⟩
  · have e : (runIds NodeStore.init (DirectMatrix.new .SYMMETRIC)
      [(1, .DX, 2, .DX, 5), (2, .DX, 3, .DY, 7), (3, .DX, 3, .DX, 1)]).toOption.map
        (fun r => decide (∀ p ∈ r.2.nodePositions, p < r.1.ids.length)) = some true := by decide +kernel
    rw [h1] at e
    unfold NodesKnown
    simpa [Outcome.toOption] using e
  · have e : (runIds NodeStore.init (DirectMatrix.new .SYMMETRIC)
      [(1, .DX, 2, .DX, 5), (2, .DX, 3, .DY, 7), (3, .DX, 3, .DX, 1)]).toOption.map
        (fun r => r.2.nodePositions.length) = some 3 := by decide +kernel
    rw [h1] at e
    simpa [Outcome.toOption] using e

end DirectSpec
end Vega
