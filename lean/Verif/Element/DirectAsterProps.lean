import Verif.Element.DirectAster
import Verif.Element.DirectProps
import Verif.Element.DiscreteProps
import Mathlib.Algebra.BigOperators.Group.List.Basic
import Mathlib.Algebra.Order.Field.Rat

/-! # Replacement of direct matrices by discrete elements: properties C73, C74 -/
namespace Vega
namespace DirectAsterSpec
open DirectSpec DirectMatrix DirectAster

/-! ## Specification -/

/-- The rank of a node in a segment. -/
def localNode (a b p : Nat) : Option (Fin 2) := if p = a then some 0 else if p = b then some 1 else none

/-- The matrix of a segment, as Code_Aster takes it from its upper triangle. -/
def segmentMatrix (s : DiscreteSegment) (k : Quantity) (x y : Fin 2 × Dof) : Dbl :=
  if x.1 ≤ y.1 then s.find k x.1 y.1 x.2 y.2 else s.find k y.1 x.1 y.2 x.2

/-- What an element adds to the coefficient of two unknowns of the model. -/
def contribution (k : Quantity) (x y : Unknown) : Piece → Dbl
  | .point p d => if x.1 = p ∧ y.1 = p then (d.matrix k).findComponent x.2 y.2 else 0
  | .segment a b s =>
    match localNode a b x.1, localNode a b y.1 with
    | some i, some j => segmentMatrix s k (i, x.2) (j, y.2)
    | _, _ => 0

/-- The coefficient of the model with these elements. -/
def assembled (k : Quantity) (l : List Piece) (x y : Unknown) : Dbl :=
  (l.map (contribution k x y)).sum

/-- The coefficient of a matrix given by a history. -/
def coefficient (hist : List Entry) (x y : Unknown) : Dbl := (lastGiven hist x y).getD 0

/-- Coefficients are null or above the tolerance of comparisons. -/
def Significant (hist : List Entry) : Prop := ∀ e ∈ hist, isZero e.v = true → e.v = 0

/-- Each node is coupled by the matrix to at most one other. -/
def Paired (hist : List Entry) : Prop := ∀ e ∈ hist, ∀ f ∈ hist, e.x.1 ≠ e.y.1 → f.x.1 ≠ f.y.1 →
  (e.x.1 = f.x.1 ∨ e.x.1 = f.y.1 ∨ e.y.1 = f.x.1 ∨ e.y.1 = f.y.1) →
  (e.x.1 = f.x.1 ∧ e.y.1 = f.y.1) ∨ (e.x.1 = f.y.1 ∧ e.y.1 = f.x.1)

/-! ## Lemmas -/

/-- A value after the test for zero. -/
def trunc (v : Dbl) : Dbl := if isZero v then 0 else v

theorem sub_add' (s : DofMatrix) (t : MatrixType) (ht : s.matrixType = t) (hd : t ≠ .DIAGONAL) (c d : Dof)
    (v : Dbl) (hc : t = .SYMMETRIC → d.lt c = false) :
    s.addComponent c d v = .ok { s with componentByDofs := s.componentByDofs.set (c, d) v } := by
  unfold DofMatrix.addComponent
  rw [ht]
  cases t with
  | DIAGONAL => exact absurd rfl hd
  | FULL => simp
  | SYMMETRIC => simp [hc rfl]

theorem find_cons {κ α : Type} [DecidableEq κ] (k k' : κ) (v : α) (l : Map κ α) :
    Map.find ((k', v) :: l) k = if k' = k then some v else Map.find l k := rfl

/-- Filling a point. -/
theorem fillPoint_eq (k : Quantity) (l : Map (Dof × Dof) Dbl) (hw : l.WF)
    (hc : ∀ d v, (d, v) ∈ l → d.2.lt d.1 = false) (d : DiscretePoint)
    (ht : (d.matrix k).matrixType = .SYMMETRIC) (hn : ∀ e ∈ l.keys, (d.matrix k).componentByDofs.find e = none) :
    ∃ d', fillPoint k l d = .ok d' ∧ (d'.matrix k).matrixType = .SYMMETRIC ∧
      ∀ e, ((d'.matrix k).componentByDofs.find e).getD 0 =
        if e ∈ l.keys then trunc ((l.find e).getD 0) else ((d.matrix k).componentByDofs.find e).getD 0 := by
  induction l generalizing d with
  | nil => exact ⟨d, rfl, ht, by simp⟩
  | cons e l ih =>
    obtain ⟨⟨r, c⟩, v⟩ := e
    have hw' : Map.WF l := (List.nodup_cons.mp hw).2
    have hnk : (r, c) ∉ Map.keys l := (List.nodup_cons.mp hw).1
    have hcan := hc (r, c) v (List.mem_cons_self ..)
    unfold fillPoint
    rw [isEqual_zero_right]
    cases hz : isZero v with
    | false =>
      simp only [if_true]
      have hadd := sub_add' (d.matrix k) _ ht (by decide) r c v (fun _ => hcan)
      unfold DiscretePoint.add
      simp only [hadd, Outcome.bind_ok]
      generalize hd1 : ({ d with matrix := fun q' => if q' = k then
        { d.matrix k with componentByDofs := (d.matrix k).componentByDofs.set (r, c) v } else d.matrix q' } :
          DiscretePoint) = d1
      have hm1 : d1.matrix k = { d.matrix k with componentByDofs := (d.matrix k).componentByDofs.set (r, c) v } := by
        rw [← hd1]; simp
      obtain ⟨d2, g1, g2, g3⟩ := ih hw' (fun d v h => hc d v (List.mem_cons_of_mem _ h)) d1
        (by rw [hm1]; exact ht) (by
          intro e he
          rw [hm1]
          simp only
          rw [Map.find_set_ne _ _ (by rintro rfl; exact hnk he)]
          exact hn e (List.mem_cons_of_mem _ he))
      refine ⟨d2, g1, g2, ?_⟩
      intro e
      rw [g3, hm1]
      simp only [Map.keys_cons, List.mem_cons, find_cons, Map.find_set]
      by_cases e1 : e = (r, c)
      · subst e1; simp [hnk, trunc, hz]
      · simp [e1, Ne.symm e1]
    | true =>
      simp only [Bool.true_eq_false, if_false]
      obtain ⟨d2, g1, g2, g3⟩ := ih hw' (fun d v h => hc d v (List.mem_cons_of_mem _ h)) d ht
        (fun e he => hn e (List.mem_cons_of_mem _ he))
      refine ⟨d2, g1, g2, ?_⟩
      intro e
      rw [g3]
      simp only [Map.keys_cons, List.mem_cons, find_cons]
      by_cases e1 : e = (r, c)
      · subst e1
        have := hn (r, c) (List.mem_cons_self ..)
        simp [hnk, trunc, hz, this]
      · simp [e1, Ne.symm e1]

/-- Filling a block of a segment. -/
theorem fillBlock_eq (k : Quantity) (n : Nat) (i j : Fin 2) (l : Map (Dof × Dof) Dbl) (hw : l.WF)
    (t : MatrixType) (htd : t ≠ .DIAGONAL)
    (hc : ∀ d v, (d, v) ∈ l → t = .SYMMETRIC → d.2.lt d.1 = false) (s : DiscreteSegment)
    (ht : (s.blocks k i j).matrixType = t)
    (hn : ∀ e ∈ l.keys, (s.blocks k i j).componentByDofs.find e = none) :
    ∃ s', fillBlock k n i j l s = .ok s' ∧ (s'.blocks k i j).matrixType = t ∧
      (∀ e, ((s'.blocks k i j).componentByDofs.find e).getD 0 =
        if e ∈ l.keys then trunc ((l.find e).getD 0 / n) else ((s.blocks k i j).componentByDofs.find e).getD 0) ∧
      (∀ i' j', (i', j') ≠ (i, j) → s'.blocks k i' j' = s.blocks k i' j') := by
  induction l generalizing s with
  | nil => exact ⟨s, rfl, ht, by simp, fun _ _ _ => rfl⟩
  | cons e l ih =>
    obtain ⟨⟨r, c⟩, v⟩ := e
    have hw' : Map.WF l := (List.nodup_cons.mp hw).2
    have hnk : (r, c) ∉ Map.keys l := (List.nodup_cons.mp hw).1
    have hcan := hc (r, c) v (List.mem_cons_self ..)
    unfold fillBlock
    rw [isEqual_zero_right]
    cases hz : isZero (v / n) with
    | false =>
      simp only [if_true]
      have hadd := sub_add' (s.blocks k i j) _ ht htd r c (v / n) hcan
      unfold DiscreteSegment.add
      simp only [hadd, Outcome.bind_ok]
      generalize hb : DofMatrix.mk (s.blocks k i j).matrixType
        ((s.blocks k i j).componentByDofs.set (r, c) (v / n)) = b1
      generalize hd1 : DiscreteSegment.mk s.matrixType (fun q' i' j' =>
        if q' = k ∧ i' = i ∧ j' = j then b1 else s.blocks q' i' j') = s1
      have hm1 : s1.blocks k i j = DofMatrix.mk (s.blocks k i j).matrixType
          ((s.blocks k i j).componentByDofs.set (r, c) (v / n)) := by
        rw [← hd1, hb]; simp
      have hm2 : ∀ i' j', (i', j') ≠ (i, j) → s1.blocks k i' j' = s.blocks k i' j' := by
        intro i' j' h
        rw [← hd1]
        simp only [true_and]
        rw [if_neg]
        rintro ⟨rfl, rfl⟩; exact h rfl
      obtain ⟨s2, g1, g2, g3, g4⟩ := ih hw' (fun d v h => hc d v (List.mem_cons_of_mem _ h)) s1
        (by rw [hm1]; exact ht) (by
          intro e he
          rw [hm1]
          simp only
          rw [Map.find_set_ne _ _ (by rintro rfl; exact hnk he)]
          exact hn e (List.mem_cons_of_mem _ he))
      refine ⟨s2, g1, g2, ?_, fun i' j' h => (g4 i' j' h).trans (hm2 i' j' h)⟩
      intro e
      rw [g3, hm1]
      simp only [Map.keys_cons, List.mem_cons, find_cons, Map.find_set]
      by_cases e1 : e = (r, c)
      · subst e1; simp [hnk, trunc, hz]
      · simp [e1, Ne.symm e1]
    | true =>
      simp only [Bool.true_eq_false, if_false]
      obtain ⟨s2, g1, g2, g3, g4⟩ := ih hw' (fun d v h => hc d v (List.mem_cons_of_mem _ h)) s ht
        (fun e he => hn e (List.mem_cons_of_mem _ he))
      refine ⟨s2, g1, g2, ?_, g4⟩
      intro e
      rw [g3]
      simp only [Map.keys_cons, List.mem_cons, find_cons]
      by_cases e1 : e = (r, c)
      · subst e1
        have := hn (r, c) (List.mem_cons_self ..)
        simp [hnk, trunc, hz, this]
      · simp [e1, Ne.symm e1]

theorem sub_wf (m : DirectMatrix) (hm : Inv m) (a b : Nat) : (m.findSubmatrix a b).componentByDofs.WF := by
  unfold findSubmatrix
  cases hf : m.sub.find (a, b) with
  | none => exact Map.wf_nil
  | some s => exact (hm.subs _ _ hf).2.1

theorem mem_sub (m : DirectMatrix) (hm : Inv m) (a b : Nat) (d : Dof × Dof) (v : Dbl) :
    (d, v) ∈ (m.findSubmatrix a b).componentByDofs ↔ raw m ((a, b), d) = some v := by
  rw [← find_sub]
  exact Map.mem_iff_find _ (sub_wf m hm a b) _ _

theorem sub_canonical (m : DirectMatrix) (hm : Inv m) (a b : Nat) (d : Dof × Dof) (v : Dbl)
    (h : (d, v) ∈ (m.findSubmatrix a b).componentByDofs) : Canonical ((a, b), d) :=
  canonical_of_raw m hm _ v ((mem_sub m hm a b d v).mp h)

theorem sub_empty (m : DirectMatrix) (hm : Inv m) (a b : Nat) (h : b < a) :
    (m.findSubmatrix a b).componentByDofs = [] := by
  unfold findSubmatrix
  cases hf : m.sub.find (a, b) with
  | none => rfl
  | some s =>
    have := (hm.subs _ _ hf).2.2.1
    simp only at this
    omega

theorem keyed (m : DirectMatrix) (a b n : Nat) (d : Dof × Dof) :
    (if d ∈ (m.findSubmatrix a b).componentByDofs.keys then
        trunc (((m.findSubmatrix a b).componentByDofs.find d).getD 0 / n) else 0)
      = trunc ((raw m ((a, b), d)).getD 0 / n) := by
  rw [find_sub]
  by_cases h : d ∈ (m.findSubmatrix a b).componentByDofs.keys
  · rw [if_pos h]
  · rw [if_neg h]
    rw [← Map.find_eq_none_iff, find_sub] at h
    rw [h]
    simp [trunc]

/-- The entry of a symmetric submatrix. -/
theorem findComponent_sym (s : DofMatrix) (ht : s.matrixType = .SYMMETRIC) (c d : Dof) :
    s.findComponent c d = (s.componentByDofs.find (if d.lt c = true then (d, c) else (c, d))).getD 0 := by
  unfold DofMatrix.findComponent
  rw [ht]
  simp only [reduceCtorEq, false_and, if_false, true_and]
  split
  · cases s.componentByDofs.find (d, c) <;> rfl
  · cases s.componentByDofs.find (c, d) <;> rfl

theorem findComponent_full (s : DofMatrix) (ht : s.matrixType = .FULL) (c d : Dof) :
    s.findComponent c d = (s.componentByDofs.find (c, d)).getD 0 := by
  unfold DofMatrix.findComponent
  rw [ht]
  simp only [reduceCtorEq, false_and, if_false]
  cases s.componentByDofs.find (c, d) <;> rfl

theorem canon_same (p : Nat) (c d : Dof) :
    canon (p, c) (p, d) = ((p, p), if d.lt c = true then (d, c) else (c, d)) := by
  unfold canon
  simp only [gt_iff_lt, Nat.lt_irrefl, if_false, true_and]
  split <;> rfl

theorem canon_lt (p q : Nat) (h : p < q) (c d : Dof) : canon (p, c) (q, d) = ((p, q), (c, d)) := by
  unfold canon
  simp only
  rw [if_neg (by omega), if_neg (by omega)]

/-- The point of a node. -/
theorem point_eq (m : DirectMatrix) (hm : Inv m) (k : Quantity) (p : Nat) :
    ∃ d, fillPoint k (m.findSubmatrix p p).componentByDofs (DiscretePoint.new (m.findSubmatrix p p).matrixType)
        = .ok d ∧ ∀ c e, (d.matrix k).findComponent c e = trunc ((raw m (canon (p, c) (p, e))).getD 0) := by
  have ht : (m.findSubmatrix p p).matrixType = .SYMMETRIC := by
    unfold findSubmatrix; split <;> exact hm.type
  rw [ht]
  obtain ⟨d, h1, h2, h3⟩ := fillPoint_eq k _ (sub_wf m hm p p)
    (fun d v h => (sub_canonical m hm p p d v h).2 rfl) (DiscretePoint.new .SYMMETRIC) rfl
    (fun _ _ => rfl)
  refine ⟨d, h1, ?_⟩
  intro c e
  rw [findComponent_sym _ h2, h3, canon_same]
  have := keyed m p p 1 (if e.lt c = true then (e, c) else (c, e))
  simp only [Nat.cast_one, div_one] at this
  exact this

/-- The segment of two nodes. -/
theorem segment_eq (m : DirectMatrix) (hm : Inv m) (k : Quantity) (p q : Nat) (hpq : p < q) :
    ∃ s, fillSegment m k p q (DiscreteSegment.new m.matrixType) = .ok s ∧
      ∀ i j : Fin 2, ∀ c e : Dof, segmentMatrix s k (i, c) (j, e) =
        trunc ((raw m (canon (if i = 0 then p else q, c) (if j = 0 then p else q, e))).getD 0
          / ((m.findInPairs p).length : Nat)) := by
  rw [hm.type]
  unfold fillSegment
  generalize (m.findInPairs p).length = n
  obtain ⟨s1, a1, a2, a3, a4⟩ := fillBlock_eq k n 0 0 _ (sub_wf m hm p p) .SYMMETRIC (by decide)
    (fun d v h _ => (sub_canonical m hm p p d v h).2 rfl) (DiscreteSegment.new .SYMMETRIC) rfl
    (fun _ _ => rfl)
  obtain ⟨s2, b1, b2, b3, b4⟩ := fillBlock_eq k n 0 1 _ (sub_wf m hm p q) .FULL (by decide)
    (fun d v h e => absurd e (by decide)) s1 (by rw [a4 0 1 (by decide)]; rfl)
    (by intro e _; rw [a4 0 1 (by decide)]; rfl)
  have e10 : (m.findSubmatrix q p).componentByDofs = [] := sub_empty m hm q p hpq
  obtain ⟨s3, c1, c2, c3, c4⟩ := fillBlock_eq k n 1 1 _ (sub_wf m hm q q) .SYMMETRIC (by decide)
    (fun d v h _ => (sub_canonical m hm q q d v h).2 rfl) s2
    (by rw [b4 1 1 (by decide), a4 1 1 (by decide)]; rfl)
    (by intro e _; rw [b4 1 1 (by decide), a4 1 1 (by decide)]; rfl)
  refine ⟨s3, ?_, ?_⟩
  · simp only [a1, b1, Outcome.bind_ok, e10, fillBlock, c1]
  · have h00 : ∀ c e, s3.find k 0 0 c e = trunc ((raw m (canon (p, c) (p, e))).getD 0 / n) := by
      intro c e
      unfold DiscreteSegment.find
      rw [c4 0 0 (by decide), b4 0 0 (by decide), findComponent_sym _ a2, a3, canon_same]
      exact keyed m p p n _
    have h11 : ∀ c e, s3.find k 1 1 c e = trunc ((raw m (canon (q, c) (q, e))).getD 0 / n) := by
      intro c e
      unfold DiscreteSegment.find
      rw [findComponent_sym _ c2, c3, canon_same, b4 1 1 (by decide), a4 1 1 (by decide)]
      exact keyed m q q n _
    have h01 : ∀ c e, s3.find k 0 1 c e = trunc ((raw m (canon (p, c) (q, e))).getD 0 / n) := by
      intro c e
      unfold DiscreteSegment.find
      rw [c4 0 1 (by decide), findComponent_full _ b2, b3, canon_lt p q hpq, a4 0 1 (by decide)]
      exact keyed m p q n _
    intro i j c e
    unfold segmentMatrix
    fin_cases i <;> fin_cases j
    · exact h00 c e
    · exact h01 c e
    · simp only [Fin.mk_one, Fin.zero_eta, Fin.le_zero_iff, one_ne_zero, if_false, if_true]
      rw [canon_comm]
      exact h01 e c
    · exact h11 c e

/-- The number of segments of a node. -/
def degree (m : DirectMatrix) (p : Nat) : Nat := (m.findInPairs p).length

/-- What each pair of nodes contributes. -/
def share (m : DirectMatrix) (x y : Unknown) (np : Nat × Nat) : Dbl :=
  if np.1 = np.2 then
    if degree m np.1 = 0 ∧ x.1 = np.1 ∧ y.1 = np.1 then trunc ((raw m (canon x y)).getD 0) else 0
  else if (x.1 = np.1 ∨ x.1 = np.2) ∧ (y.1 = np.1 ∨ y.1 = np.2) then
    trunc ((raw m (canon x y)).getD 0 / (degree m np.1 : Nat)) else 0

theorem pieces_eq (m : DirectMatrix) (hm : Inv m) (k : Quantity) (l : List (Nat × Nat))
    (hl : ∀ np ∈ l, np ∈ m.nodePairs) :
    ∃ ps, pieces m k l = .ok ps ∧ ∀ x y, assembled k ps x y = (l.map (share m x y)).sum := by
  induction l with
  | nil => exact ⟨[], rfl, by simp [assembled]⟩
  | cons np l ih =>
    obtain ⟨ps, h1, h2⟩ := ih (fun q h => hl q (List.mem_cons_of_mem _ h))
    have hnp := hl np (List.mem_cons_self ..)
    obtain ⟨sub, hsub⟩ := (Map.mem_keys_iff _ _).mp hnp
    have hle := (hm.subs _ _ hsub).2.2.1
    have key : ∃ o, piece m k np = .ok o ∧ ∀ x y, (o.toList.map (contribution k x y)).sum = share m x y np := by
      unfold piece
      by_cases he : np.1 = np.2
      · rw [if_pos he]
        by_cases hd : (m.findInPairs np.1).isEmpty
        · rw [if_pos hd]
          have hd0 : degree m np.1 = 0 := by
            unfold degree; rw [List.isEmpty_iff.mp hd]; rfl
          obtain ⟨d, g1, g2⟩ := point_eq m hm k np.1
          refine ⟨some (.point np.1 d), by simp only [g1, Outcome.bind_ok], ?_⟩
          intro x y
          simp only [Option.toList_some, List.map_cons, List.map_nil, List.sum_cons, List.sum_nil, add_zero,
            contribution, share, if_pos he, hd0, true_and]
          by_cases hx : x.1 = np.1 ∧ y.1 = np.1
          · rw [if_pos hx, if_pos hx, g2]
            have ex : (np.1, x.2) = x := Prod.ext hx.1.symm rfl
            have ey : (np.1, y.2) = y := Prod.ext hx.2.symm rfl
            rw [ex, ey]
          · rw [if_neg hx, if_neg hx]
        · rw [if_neg hd]
          have hd0 : degree m np.1 ≠ 0 := by
            unfold degree
            intro h0
            exact hd (List.isEmpty_iff.mpr (List.length_eq_zero_iff.mp h0))
          refine ⟨none, rfl, ?_⟩
          intro x y
          simp [share, he] at hd0 ⊢
          intro h0; exact absurd h0 hd0
      · rw [if_neg he]
        obtain ⟨s, g1, g2⟩ := segment_eq m hm k np.1 np.2 (by omega)
        refine ⟨some (.segment np.1 np.2 s), by simp only [g1, Outcome.bind_ok], ?_⟩
        intro x y
        simp only [Option.toList_some, List.map_cons, List.map_nil, List.sum_cons, List.sum_nil, add_zero,
          contribution, share, if_neg he]
        have loc : ∀ z : Unknown, (localNode np.1 np.2 z.1 = none ∧ ¬ (z.1 = np.1 ∨ z.1 = np.2)) ∨
            ∃ i : Fin 2, localNode np.1 np.2 z.1 = some i ∧ (z.1 = np.1 ∨ z.1 = np.2) ∧
              (if i = 0 then np.1 else np.2) = z.1 := by
          intro z
          unfold localNode
          by_cases e1 : z.1 = np.1
          · right; exact ⟨0, by simp [e1], .inl e1, by simp [e1]⟩
          · by_cases e2 : z.1 = np.2
            · right; exact ⟨1, by simp [e2, Ne.symm he], .inr e2, by simp [e2]⟩
            · left; simp [e1, e2]
        rcases loc x with ⟨lx, nx⟩ | ⟨i, lx, ox, ex⟩
        · rw [lx, if_neg (fun h => nx h.1)]
        · rcases loc y with ⟨ly, ny⟩ | ⟨j, ly, oy, ey⟩
          · rw [lx, ly, if_neg (fun h => ny h.2)]
          · rw [lx, ly, if_pos ⟨ox, oy⟩]
            simp only
            rw [g2, ex, ey]
            rfl
    obtain ⟨o, k1, k2⟩ := key
    refine ⟨o.toList ++ ps, ?_, ?_⟩
    · simp only [pieces, k1, h1, Outcome.bind_ok]
    · intro x y
      unfold assembled at h2 ⊢
      rw [List.map_append, List.sum_append, k2, h2, List.map_cons, List.sum_cons]

theorem sum_single (l : List (Nat × Nat)) (hn : l.Nodup) (f : Nat × Nat → Dbl) (a : Nat × Nat) (ha : a ∈ l)
    (h : ∀ b ∈ l, b ≠ a → f b = 0) : (l.map f).sum = f a := by
  induction l with
  | nil => simp at ha
  | cons b l ih =>
    obtain ⟨h1, h2⟩ := List.nodup_cons.mp hn
    rw [List.map_cons, List.sum_cons]
    rcases List.mem_cons.mp ha with ha | ha
    · subst ha
      have : (l.map f).sum = 0 := by
        apply List.sum_eq_zero
        intro z hz
        obtain ⟨c, hc, rfl⟩ := List.mem_map.mp hz
        exact h c (List.mem_cons_of_mem _ hc) (by rintro rfl; exact h1 hc)
      rw [this, add_zero]
    · rw [h b (List.mem_cons_self ..) (by rintro rfl; exact h1 ha), zero_add]
      exact ih h2 ha (fun c hc hne => h c (List.mem_cons_of_mem _ hc) hne)

theorem sum_none (l : List (Nat × Nat)) (f : Nat × Nat → Dbl) (h : ∀ b ∈ l, f b = 0) : (l.map f).sum = 0 := by
  apply List.sum_eq_zero
  intro z hz
  obtain ⟨c, hc, rfl⟩ := List.mem_map.mp hz
  exact h c hc

theorem mem_findInPairs (m : DirectMatrix) (p : Nat) (np : Nat × Nat) :
    np ∈ m.findInPairs p ↔ np ∈ m.nodePairs ∧ (np.1 = p ∨ np.2 = p) ∧ np.1 ≠ np.2 := by
  unfold findInPairs nodePairs
  rw [List.mem_filter]
  simp only [Bool.and_eq_true, Bool.not_eq_true', decide_eq_false_iff_not]
  constructor
  · rintro ⟨h1, h2, h3⟩
    refine ⟨h1, ?_, h3⟩
    by_contra hc
    push Not at hc
    exact h2 hc
  · rintro ⟨h1, h2, h3⟩
    refine ⟨h1, ?_, h3⟩
    rintro ⟨h4, h5⟩
    rcases h2 with h2 | h2
    · exact h4 h2
    · exact h5 h2

theorem sub_key' (m : DirectMatrix) (k : (Nat × Nat) × (Dof × Dof)) (v : Dbl) (h : raw m k = some v) :
    k.1 ∈ m.nodePairs := by
  unfold raw at h
  unfold nodePairs
  rw [Map.mem_keys_iff]
  cases hf : m.sub.find k.1 with
  | none => rw [hf] at h; cases h
  | some s => exact ⟨s, rfl⟩

/-- Sum of the shares when the segments have no common node. -/
theorem share_sum (m : DirectMatrix) (hm : Inv m) (hd : ∀ p, degree m p ≤ 1)
    (hs : ∀ k v, raw m k = some v → isZero v = true → v = 0) (x y : Unknown) :
    (m.nodePairs.map (share m x y)).sum = (raw m (canon x y)).getD 0 := by
  have hnd : m.nodePairs.Nodup := hm.wf
  have htr : trunc ((raw m (canon x y)).getD 0) = (raw m (canon x y)).getD 0 := by
    unfold trunc
    split
    · rename_i hz
      cases hr : raw m (canon x y) with
      | none => rfl
      | some v => rw [hr] at hz; exact (hs _ v hr hz).symm
    · rfl
  have hle : ∀ np ∈ m.nodePairs, np.1 ≤ np.2 := by
    intro np hnp
    obtain ⟨sub, hsub⟩ := (Map.mem_keys_iff _ _).mp hnp
    exact (hm.subs _ _ hsub).2.2.1
  have deg1 : ∀ np ∈ m.nodePairs, np.1 ≠ np.2 → ∀ p, p = np.1 ∨ p = np.2 → degree m p = 1 := by
    intro np hnp hne p hp
    have hmem : np ∈ m.findInPairs p := (mem_findInPairs m p np).mpr
      ⟨hnp, by rcases hp with h | h <;> simp [h], hne⟩
    have := List.length_pos_of_mem hmem
    have := hd p
    unfold degree at *
    omega
  have uniq : ∀ p, ∀ a ∈ m.findInPairs p, ∀ b ∈ m.findInPairs p, a = b := by
    intro p a ha b hb
    have h1 := hd p
    unfold degree at h1
    match hl : m.findInPairs p, ha, hb with
    | [], ha, _ => simp at ha
    | [c], ha, hb =>
      rw [List.mem_singleton] at ha hb
      rw [ha, hb]
    | c :: d :: t, _, _ => rw [hl] at h1; simp at h1
  have full : ∀ np ∈ m.nodePairs, np.1 ≠ np.2 →
      ((x.1 = np.1 ∨ x.1 = np.2) ∧ (y.1 = np.1 ∨ y.1 = np.2)) →
      share m x y np = (raw m (canon x y)).getD 0 := by
    intro np hnp hne hc
    unfold share
    rw [if_neg hne, if_pos hc, deg1 np hnp hne np.1 (.inl rfl)]
    rw [Nat.cast_one, div_one, htr]
  by_cases hxy : x.1 = y.1
  · -- the same node
    by_cases hdeg : degree m x.1 = 0
    · by_cases hmem : (x.1, x.1) ∈ m.nodePairs
      · rw [sum_single _ hnd _ _ hmem]
        · unfold share
          simp only [if_true]
          rw [if_pos ⟨hdeg, trivial, hxy.symm⟩, htr]
        · intro b hb hne
          unfold share
          by_cases he : b.1 = b.2
          · rw [if_pos he, if_neg]
            rintro ⟨_, h2, _⟩
            exact hne (Prod.ext h2.symm (he.symm.trans h2.symm))
          · rw [if_neg he, if_neg]
            rintro ⟨h1, _⟩
            have := deg1 b hb he x.1 h1
            omega
      · rw [sum_none]
        · cases hr : raw m (canon x y) with
          | none => rfl
          | some v =>
            have := sub_key' m _ v hr
            have e : (canon x y).1 = (x.1, x.1) := by
              have hh := canon_same x.1 x.2 y.2
              have : (x.1, y.2) = y := Prod.ext hxy rfl
              rw [this] at hh
              rw [show canon x y = _ from hh]
            rw [e] at this
            exact absurd this hmem
        · intro b hb
          unfold share
          by_cases he : b.1 = b.2
          · rw [if_pos he, if_neg]
            rintro ⟨_, h2, _⟩
            apply hmem
            have : b = (x.1, x.1) := Prod.ext h2.symm (he.symm.trans h2.symm)
            rw [← this]; exact hb
          · rw [if_neg he, if_neg]
            rintro ⟨h1, _⟩
            have := deg1 b hb he x.1 h1
            omega
    · -- in a segment
      have hpos : 0 < (m.findInPairs x.1).length := by unfold degree at hdeg; omega
      obtain ⟨a, ha⟩ := List.exists_mem_of_length_pos hpos
      obtain ⟨h1, h2, h3⟩ := (mem_findInPairs m x.1 a).mp ha
      rw [sum_single _ hnd _ a h1]
      · exact full a h1 h3 ⟨by rcases h2 with h | h <;> simp [h], by rw [← hxy]; rcases h2 with h | h <;> simp [h]⟩
      · intro b hb hne
        unfold share
        by_cases he : b.1 = b.2
        · rw [if_pos he, if_neg]
          rintro ⟨g1, g2, _⟩
          rw [g2] at hdeg
          exact hdeg g1
        · rw [if_neg he, if_neg]
          rintro ⟨g1, _⟩
          apply hne
          exact uniq x.1 b ((mem_findInPairs m x.1 b).mpr ⟨hb, by rcases g1 with h | h <;> simp [h], he⟩) a ha
  · -- two nodes
    have hcl : (canon x y).1 = (x.1, y.1) ∧ x.1 < y.1 ∨ (canon x y).1 = (y.1, x.1) ∧ y.1 < x.1 := by
      rcases Nat.lt_or_gt_of_ne hxy with h | h
      · left; exact ⟨by have := canon_lt x.1 y.1 h x.2 y.2; rw [show canon x y = _ from this], h⟩
      · right
        refine ⟨?_, h⟩
        have := canon_lt y.1 x.1 h y.2 x.2
        rw [canon_comm, show canon y x = _ from this]
    have hzero : ∀ b ∈ m.nodePairs, b ≠ (canon x y).1 → share m x y b = 0 := by
      intro b hb hne
      unfold share
      by_cases he : b.1 = b.2
      · rw [if_pos he, if_neg]
        rintro ⟨_, g1, g2⟩
        exact hxy (g1.trans g2.symm)
      · rw [if_neg he, if_neg]
        rintro ⟨g1, g2⟩
        have := hle b hb
        apply hne
        rcases hcl with ⟨e, hlt⟩ | ⟨e, hlt⟩
        · rw [e]
          apply Prod.ext
          · simp only; omega
          · simp only; omega
        · rw [e]
          apply Prod.ext
          · simp only; omega
          · simp only; omega
    by_cases hmem : (canon x y).1 ∈ m.nodePairs
    · rw [sum_single _ hnd _ _ hmem hzero]
      apply full _ hmem
      · rcases hcl with ⟨e, hlt⟩ | ⟨e, hlt⟩ <;> rw [e] <;> simp only <;> omega
      · rcases hcl with ⟨e, hlt⟩ | ⟨e, hlt⟩ <;> rw [e] <;> simp
    · rw [sum_none]
      · cases hr : raw m (canon x y) with
        | none => rfl
        | some v => exact absurd (sub_key' m _ v hr) hmem
      · intro b hb
        exact hzero b hb (by rintro rfl; exact hmem hb)

/-! ## C73 -/

/-- **C73, partial.** When each node is coupled to at most one other, the discrete elements that
replace a direct matrix give back its coefficients. Partial: the coefficients are above the tolerance
or null, and no node is coupled to two others, see `C73_chain_false`. -/
theorem C73_partial (k : Quantity) (hist : List Entry) (hs : Significant hist) (hp : Paired hist)
    (m : DirectMatrix) (hm : DirectSpec.run (DirectMatrix.new .SYMMETRIC) hist = .ok m) :
    ∃ ps, replace m k = .ok ps ∧ ∀ x y, assembled k ps x y = coefficient hist x y := by
  obtain ⟨m', h1, h2, h3, h4⟩ := run_eq hist _ inv_new
  rw [hm] at h1
  injection h1 with h1
  subst h1
  have hraw : ∀ x y, raw m (canon x y) = lastGiven hist x y := h3
  obtain ⟨ps, g1, g2⟩ := pieces_eq m h2 k m.nodePairs (fun _ h => h)
  refine ⟨ps, g1, ?_⟩
  intro x y
  rw [g2, share_sum m h2 _ _ x y, hraw]
  · rfl
  · -- each node is in one segment at most
    intro p
    unfold degree
    have hnd : (m.findInPairs p).Nodup := by unfold findInPairs; exact h2.wf.filter _
    have huniq : ∀ a ∈ m.findInPairs p, ∀ b ∈ m.findInPairs p, a = b := by
      intro a ha b hb
      obtain ⟨a1, a2, a3⟩ := (mem_findInPairs m p a).mp ha
      obtain ⟨b1, b2, b3⟩ := (mem_findInPairs m p b).mp hb
      have ea : ∃ e ∈ hist, a = (canon e.x e.y).1 := by
        rcases (h4 a).mp a1 with h | h
        · exact h
        · simp [DirectMatrix.new] at h
      have eb : ∃ e ∈ hist, b = (canon e.x e.y).1 := by
        rcases (h4 b).mp b1 with h | h
        · exact h
        · simp [DirectMatrix.new] at h
      obtain ⟨e, he, rfl⟩ := ea
      obtain ⟨f, hf, rfl⟩ := eb
      have hc : ∀ e : Entry, (canon e.x e.y).1 = if e.x.1 > e.y.1 then (e.y.1, e.x.1) else (e.x.1, e.y.1) := by
        intro e; unfold canon
        split
        · rfl
        · split <;> rfl
      rw [hc] at a2 a3 ⊢
      rw [hc] at b2 b3 ⊢
      have := hp e he f hf
      have key : ∀ (α β γ δ : Nat), e.x.1 = α → e.y.1 = β → f.x.1 = γ → f.y.1 = δ →
          (if e.x.1 > e.y.1 then (e.y.1, e.x.1) else (e.x.1, e.y.1))
            = (if f.x.1 > f.y.1 then (f.y.1, f.x.1) else (f.x.1, f.y.1)) := by
        intro α β γ δ h1 h2 h3 h4
        rw [h1, h2] at a2 a3 ⊢
        rw [h3, h4] at b2 b3 ⊢
        rw [h1, h2, h3, h4] at this
        split_ifs at a2 a3 b2 b3 ⊢ <;> simp only [Prod.mk.injEq] at a2 a3 b2 b3 ⊢ <;> omega
      exact key _ _ _ _ rfl rfl rfl rfl
    match hl : m.findInPairs p, hnd, huniq with
    | [], _, _ => simp
    | [_], _, _ => simp
    | a :: b :: t, hnd, hu =>
      have := hu a (by simp) b (by simp)
      subst this
      simp at hnd
  · intro kk v hr hz
    rw [← canon_of_canonical kk (canonical_of_raw m h2 kk v hr), hraw] at hr
    have : ∀ (l : List Entry) (r : Option Dbl),
        l.foldl (fun r e => if e.about (kk.1.1, kk.2.1) (kk.1.2, kk.2.2) then some e.v else r) r = some v →
          r = some v ∨ ∃ e ∈ l, e.v = v := by
      intro l
      induction l with
      | nil => intro r h; exact .inl h
      | cons e l ih =>
        intro r h
        rw [List.foldl_cons] at h
        rcases ih _ h with h | ⟨e', h1, h2⟩
        · by_cases ha : e.about (kk.1.1, kk.2.1) (kk.1.2, kk.2.2)
          · rw [if_pos ha] at h
            injection h with h
            exact .inr ⟨e, List.mem_cons_self .., h⟩
          · rw [if_neg ha] at h; exact .inl h
        · exact .inr ⟨e', List.mem_cons_of_mem _ h1, h2⟩
    rcases this hist none hr with h | ⟨e, he, rfl⟩
    · cases h
    · exact hs e he hz

example : Significant [⟨(1, .DX), (2, .RY), 5⟩, ⟨(2, .DX), (2, .DX), 3⟩, ⟨(7, .DX), (7, .DZ), 1⟩] ∧
    Paired [⟨(1, .DX), (2, .RY), 5⟩, ⟨(2, .DX), (2, .DX), 3⟩, ⟨(7, .DX), (7, .DZ), 1⟩] := by
  constructor
  · intro e he hz
    simp only [List.mem_cons, List.not_mem_nil, or_false] at he
    rcases he with rfl | rfl | rfl <;> simp [isZero, tol] at hz <;> norm_num at hz
  · unfold Paired; decide

/-- **C73 is false of a chain of three nodes**: the middle node is in two pairs, and the coefficient
between it and the last node is halved. -/
theorem C73_chain_false : ∃ m ps, run (DirectMatrix.new .SYMMETRIC)
      [⟨(1, .DX), (2, .DX), 6⟩, ⟨(2, .DX), (3, .DX), 8⟩] = .ok m ∧
    replace m .stiffness = .ok ps ∧
    coefficient [⟨(1, .DX), (2, .DX), 6⟩, ⟨(2, .DX), (3, .DX), 8⟩] (2, .DX) (3, .DX) = 8 ∧
    assembled .stiffness ps (2, .DX) (3, .DX) = 4 := by
  obtain ⟨m, h1, h2, _, _⟩ := run_eq [⟨(1, .DX), (2, .DX), 6⟩, ⟨(2, .DX), (3, .DX), 8⟩] _ inv_new
  obtain ⟨ps, g1, g2⟩ := pieces_eq m h2 .stiffness m.nodePairs (fun _ h => h)
  refine ⟨m, ps, h1, g1, by decide +kernel, ?_⟩
  rw [g2]
  have hm : run (DirectMatrix.new .SYMMETRIC) [⟨(1, .DX), (2, .DX), 6⟩, ⟨(2, .DX), (3, .DX), 8⟩]
    = .ok ⟨.SYMMETRIC, [((1, 2), ⟨.FULL, [((.DX, .DX), 6)]⟩), ((2, 3), ⟨.FULL, [((.DX, .DX), 8)]⟩)]⟩ := rfl
  rw [hm] at h1
  injection h1 with h1
  rw [← h1]
  decide +kernel

/-! ## C74 -/

/-- **C74, partial.** A degree of freedom that an element of the model has on the node, or that a
constraint on the node names, is not blocked. -/
theorem C74_partial (r : Rest) (a : Map Nat Dofs) (p : Nat) (d : Dof)
    (h : (r.owned p).contains d = true ∨ (r.constraints p).contains d = true) :
    (blocked r a p).contains d = false := by
  unfold blocked
  cases a.find p with
  | none => exact Dofs.contains_noDofs d
  | some s =>
    simp only [Dofs.contains_diff, Dofs.contains_union]
    rcases h with h | h <;> simp [h]

example : ∃ r : Rest, (r.owned 3).contains .DY = true ∧ (r.constraints 3).contains .DZ = true ∧
    (blocked r [(3, Dofs.TRANSLATIONS)] 3).contains .DX = true ∧
    (blocked r [(3, Dofs.TRANSLATIONS)] 3).contains .DY = false :=
  ⟨⟨fun _ => Dofs.ofDof .DY, Dofs.NO_DOFS, fun _ => Dofs.ofDof .DZ⟩, by decide, by decide, by decide, by decide⟩

/-- Every pair of nodes adds translations at least. -/
theorem addedBy_eq (m : DirectMatrix) (hm : Inv m) (k : Quantity) (np : Nat × Nat) :
    ∃ s, addedBy m k np = .ok s ∧ (s = Dofs.ALL_DOFS ∨ s = Dofs.TRANSLATIONS) ∧
      (np.1 ≠ np.2 → s = Dofs.TRANSLATIONS) := by
  unfold addedBy
  by_cases he : np.1 = np.2
  · rw [if_pos he]
    obtain ⟨d, h1, _⟩ := point_eq m hm k np.1
    simp only [h1, Outcome.bind_ok]
    refine ⟨_, rfl, ?_, fun h => absurd he h⟩
    split
    · exact .inl rfl
    · exact .inr rfl
  · rw [if_neg he, hm.type]
    exact ⟨_, rfl, .inr (by decide), fun _ => by decide⟩

theorem added_eq (m : DirectMatrix) (hm : Inv m) (k : Quantity) (l : List (Nat × Nat)) (a : Map Nat Dofs)
    (ha : ∀ p s, a.find p = some s → s = Dofs.ALL_DOFS ∨ s = Dofs.TRANSLATIONS) :
    ∃ a', added m k l a = .ok a' ∧
      (∀ p s, a'.find p = some s → s = Dofs.ALL_DOFS ∨ s = Dofs.TRANSLATIONS) ∧
      (∀ p, (∃ s, a.find p = some s) → ∃ s, a'.find p = some s) ∧
      ∀ np ∈ l, ¬ (np.1 = np.2 ∧ (m.findInPairs np.1).isEmpty = false) →
        ∀ p, p = np.1 ∨ p = np.2 → ∃ s, a'.find p = some s := by
  induction l generalizing a with
  | nil => exact ⟨a, rfl, ha, fun _ h => h, by simp⟩
  | cons np l ih =>
    unfold added
    by_cases hs : np.1 = np.2 ∧ (m.findInPairs np.1).isEmpty = false
    · rw [if_pos hs]
      obtain ⟨a', h1, h2, h3, h4⟩ := ih a ha
      refine ⟨a', h1, h2, h3, ?_⟩
      intro q hq hn
      rcases List.mem_cons.mp hq with rfl | hq
      · exact absurd hs hn
      · exact h4 q hq hn
    · rw [if_neg hs]
      obtain ⟨d, e1, e2, _⟩ := addedBy_eq m hm k np
      simp only [e1, Outcome.bind_ok]
      have fs : ∀ p, ((a.set np.1 d).set np.2 d).find p
          = if np.2 = p then some d else if np.1 = p then some d else a.find p := by
        intro p; rw [Map.find_set, Map.find_set]
      obtain ⟨a', h1, h2, h3, h4⟩ := ih ((a.set np.1 d).set np.2 d) (by
        intro p s h
        rw [fs] at h
        split at h
        · injection h with h; rw [← h]; exact e2
        · split at h
          · injection h with h; rw [← h]; exact e2
          · exact ha p s h)
      have own : ∀ p, p = np.1 ∨ p = np.2 → ∃ s, a'.find p = some s := by
        intro p hp
        apply h3
        rw [fs]
        rcases hp with rfl | rfl
        · by_cases h : np.2 = np.1 <;> simp [h]
        · simp
      refine ⟨a', h1, h2, ?_, ?_⟩
      · rintro p ⟨s, hp⟩
        apply h3
        rw [fs]
        split
        · exact ⟨_, rfl⟩
        · split
          · exact ⟨_, rfl⟩
          · exact ⟨s, hp⟩
      · intro q hq hn
        rcases List.mem_cons.mp hq with rfl | hq
        · exact own
        · exact h4 q hq hn

/-- **C74 is false in general**: on every node of a direct matrix, each translation that no other
element has and that no load or constraint names is blocked, whatever coefficients the matrix gives
it. -/
theorem C74_translations_false (k : Quantity) (hist : List Entry) (m : DirectMatrix)
    (hm : DirectSpec.run (DirectMatrix.new .SYMMETRIC) hist = .ok m) :
    ∃ a, added m k m.nodePairs [] = .ok a ∧
      ∀ e ∈ hist, ∀ r : Rest, ∀ p d, p = e.x.1 ∨ p = e.y.1 → Dofs.TRANSLATIONS.contains d = true →
        (r.owned p).contains d = false → r.loads.contains d = false →
        (r.constraints p).contains d = false → (blocked r a p).contains d = true := by
  obtain ⟨m', h1, h2, _, h4⟩ := run_eq hist _ inv_new
  rw [hm] at h1
  injection h1 with h1
  subst h1
  obtain ⟨a, g1, g2, _, g4⟩ := added_eq m h2 k m.nodePairs [] (by intro p s h; simp at h)
  refine ⟨a, g1, ?_⟩
  intro e he r p d hp hd ho hl hc
  have hkey : (canon e.x e.y).1 ∈ m.nodePairs := (h4 _).mpr (.inl ⟨e, he, rfl⟩)
  have hp' := (canon_nodes e.x e.y p).mpr hp
  have hfound : ∃ s, a.find p = some s := by
    by_cases hs : (canon e.x e.y).1.1 = (canon e.x e.y).1.2 ∧
        (m.findInPairs (canon e.x e.y).1.1).isEmpty = false
    · have hne : m.findInPairs (canon e.x e.y).1.1 ≠ [] := by
        intro h0; rw [h0] at hs; simp at hs
      obtain ⟨b, hb⟩ := List.exists_mem_of_ne_nil _ hne
      obtain ⟨b1, b2, b3⟩ := (mem_findInPairs m _ b).mp hb
      refine g4 b b1 (fun h => b3 h.1) p ?_
      have : p = (canon e.x e.y).1.1 := by
        rcases hp' with h | h
        · exact h
        · rw [h, ← hs.1]
      rw [this]
      rcases b2 with h | h <;> simp [h]
    · exact g4 _ hkey hs p hp'
  obtain ⟨s, hs⟩ := hfound
  have hsd : s.contains d = true := by
    rcases g2 p s hs with rfl | rfl
    · revert hd; cases d <;> decide
    · exact hd
  unfold blocked
  rw [hs]
  simp only [Dofs.contains_diff, Dofs.contains_union, Dofs.contains_noDofs, hsd, ho, hl, hc]
  decide

example : ∃ m, run (DirectMatrix.new .SYMMETRIC) [⟨(4, .DX), (4, .DX), 5⟩] = .ok m := ⟨_, rfl⟩

/-- **C74 is false of rotations**: between two nodes coupled by their first rotation only, the other
rotations have no coefficient and are not blocked. -/
theorem C74_rotations_false (r : Rest) : ∃ m a, run (DirectMatrix.new .SYMMETRIC)
      [⟨(1, .RX), (2, .RX), 5⟩] = .ok m ∧ added m .stiffness m.nodePairs [] = .ok a ∧
    lastGiven [⟨(1, .RX), (2, .RX), 5⟩] (1, .RX) (2, .RX) = some 5 ∧
    (blocked r a 1).contains .RZ = false ∧ (blocked r a 2).contains .RZ = false := by
  refine ⟨_, [(1, Dofs.TRANSLATIONS), (2, Dofs.TRANSLATIONS)], rfl, rfl, by decide +kernel, ?_, ?_⟩ <;>
  · unfold blocked
    simp only [Map.find, if_true, if_false, OfNat.one_ne_ofNat,
      Dofs.contains_diff, show Dofs.TRANSLATIONS.contains .RZ = false from by decide, Bool.false_and]

end DirectAsterSpec
end Vega
