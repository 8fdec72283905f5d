import Verif.Element.Direct
import Verif.Dof.MatrixProps
import Verif.Mesh.NodeLemmas

/-! # Direct matrices: property C51 -/
namespace Vega
namespace DirectSpec
open DirectMatrix

/-! ## Specification -/

/-- An unknown of the model: a degree of freedom of a node. -/
abbrev Unknown := Nat × Dof

/-- A coefficient given for two unknowns. -/
structure Entry where
  x : Unknown
  y : Unknown
  v : Dbl

/-- The entry is about this unordered pair of unknowns. -/
def Entry.about (e : Entry) (x y : Unknown) : Prop := (e.x = x ∧ e.y = y) ∨ (e.x = y ∧ e.y = x)

instance (e : Entry) (x y : Unknown) : Decidable (e.about x y) := by
  unfold Entry.about; infer_instance

/-- The last coefficient given for an unordered pair. -/
def lastGiven (hist : List Entry) (x y : Unknown) : Option Dbl :=
  hist.foldl (fun r e => if e.about x y then some e.v else r) none

/-- What the readers of a direct matrix see (SystusWriter.cpp 2335-2395, Model.cpp 1593-1597): the
submatrices of the pairs of nodes, entry by entry; each entry stands for the two symmetric ones. -/
def Reads (m : DirectMatrix) (x y : Unknown) (v : Dbl) : Prop :=
  (m.findSubmatrix x.1 y.1).componentByDofs.find (x.2, y.2) = some v ∨
  (m.findSubmatrix y.1 x.1).componentByDofs.find (y.2, x.2) = some v

/-- A history of calls of `addComponent`. -/
def run (m : DirectMatrix) : List Entry → Outcome DirectMatrix
  | [] => .ok m
  | e :: rest => do
    let m ← m.addAt e.x e.y e.v
    run m rest

/-! ## Lemmas -/

/-- Where the coefficient of two unknowns is stored. -/
def canon (x y : Unknown) : (Nat × Nat) × (Dof × Dof) :=
  if x.1 > y.1 then ((y.1, x.1), (y.2, x.2))
  else if x.1 = y.1 ∧ y.2.lt x.2 = true then ((x.1, y.1), (y.2, x.2))
  else ((x.1, y.1), (x.2, y.2))

/-- The stored coefficient. -/
def raw (m : DirectMatrix) (k : (Nat × Nat) × (Dof × Dof)) : Option Dbl :=
  (m.sub.find k.1).bind fun s => s.componentByDofs.find k.2

/-- The type of a submatrix. -/
def subType (k : Nat × Nat) : MatrixType := if k.1 = k.2 then .SYMMETRIC else .FULL

/-- Keys that `addAt` uses. -/
def Canonical (k : (Nat × Nat) × (Dof × Dof)) : Prop :=
  k.1.1 ≤ k.1.2 ∧ (k.1.1 = k.1.2 → k.2.2.lt k.2.1 = false)

/-- Invariant of a symmetric direct matrix. -/
structure Inv (m : DirectMatrix) : Prop where
  type : m.matrixType = .SYMMETRIC
  wf : m.sub.WF
  subs : ∀ k s, m.sub.find k = some s → s.matrixType = subType k ∧ s.componentByDofs.WF ∧
    k.1 ≤ k.2 ∧ s.componentByDofs ≠ [] ∧ ∀ d v, s.componentByDofs.find d = some v → Canonical (k, d)

theorem inv_new : Inv (DirectMatrix.new .SYMMETRIC) :=
  ⟨rfl, Map.wf_nil, by intro k s h; simp [DirectMatrix.new] at h⟩

theorem lt_asymm (a b : Dof) (h : a.lt b = true) : b.lt a = false := by
  revert h; cases a <;> cases b <;> decide

theorem lt_total (a b : Dof) (h : a.lt b = false) (h' : b.lt a = false) : a = b := by
  revert h h'; cases a <;> cases b <;> decide

theorem canon_canonical (x y : Unknown) : Canonical (canon x y) := by
  unfold canon Canonical
  split
  · exact ⟨by simp; omega, fun h => by simp at h; omega⟩
  · split
    · rename_i h1 h2
      exact ⟨by simp; omega, fun _ => lt_asymm _ _ h2.2⟩
    · rename_i h1 h2
      refine ⟨by simp; omega, fun h => ?_⟩
      cases hl : y.2.lt x.2
      · rfl
      · exact absurd ⟨h, hl⟩ h2

theorem canon_of_canonical (k : (Nat × Nat) × (Dof × Dof)) (h : Canonical k) :
    canon (k.1.1, k.2.1) (k.1.2, k.2.2) = k := by
  obtain ⟨⟨a, b⟩, ⟨c, d⟩⟩ := k
  unfold Canonical at h
  simp only at h
  unfold canon
  simp only
  rw [if_neg (by omega), if_neg]
  rintro ⟨h1, h2⟩
  rw [h.2 h1] at h2; cases h2

theorem canon_comm (x y : Unknown) : canon x y = canon y x := by
  obtain ⟨a, c⟩ := x
  obtain ⟨b, d⟩ := y
  unfold canon
  simp only
  rcases Nat.lt_trichotomy a b with h | h | h
  · rw [if_neg (by omega), if_neg (by omega), if_pos h]
  · subst h
    simp only [gt_iff_lt, Nat.lt_irrefl, if_false, true_and]
    cases h1 : d.lt c <;> cases h2 : c.lt d <;> simp
    · exact ⟨(lt_total _ _ h1 h2).symm, lt_total _ _ h1 h2⟩
    · rw [lt_asymm _ _ h1] at h2; cases h2
  · rw [if_pos h, if_neg (by omega), if_neg (by omega)]

/-- The storage key determines the unordered pair. -/
theorem canon_inj (x y x' y' : Unknown) :
    canon x y = canon x' y' ↔ (x = x' ∧ y = y') ∨ (x = y' ∧ y = x') := by
  constructor
  · have key : ∀ x y : Unknown, ∃ a b : Unknown, canon x y = ((a.1, b.1), (a.2, b.2)) ∧
        ((a = x ∧ b = y) ∨ (a = y ∧ b = x)) := by
      intro x y
      unfold canon
      split
      · exact ⟨y, x, rfl, .inr ⟨rfl, rfl⟩⟩
      · split
        · rename_i h1 h2
          refine ⟨y, x, ?_, .inr ⟨rfl, rfl⟩⟩
          simp [h2.1]
        · exact ⟨x, y, rfl, .inl ⟨rfl, rfl⟩⟩
    intro h
    obtain ⟨a, b, e, c⟩ := key x y
    obtain ⟨a', b', e', c'⟩ := key x' y'
    rw [e, e'] at h
    have ha : a = a' := by
      have h1 := congrArg (·.1.1) h; have h2 := congrArg (·.2.1) h
      exact Prod.ext h1 h2
    have hb : b = b' := by
      have h1 := congrArg (·.1.2) h; have h2 := congrArg (·.2.2) h
      exact Prod.ext h1 h2
    subst ha; subst hb
    rcases c with ⟨rfl, rfl⟩ | ⟨rfl, rfl⟩ <;> rcases c' with ⟨rfl, rfl⟩ | ⟨rfl, rfl⟩ <;> simp
  · rintro (⟨rfl, rfl⟩ | ⟨rfl, rfl⟩)
    · rfl
    · exact canon_comm _ _

theorem set_ne_nil {κ α : Type} [DecidableEq κ] (m : Map κ α) (k : κ) (a : α) : m.set k a ≠ [] := by
  intro h
  have := Map.find_set_self m k a
  rw [h] at this
  cases this

/-- The submatrix that receives a component. -/
theorem target_eq (m : DirectMatrix) (h : Inv m) (k : Nat × Nat) (hk : k.1 ≤ k.2) :
    ∃ s, m.target k.1 k.2 = .ok s ∧ s.matrixType = subType k ∧ s.componentByDofs.WF ∧
      (∀ d, s.componentByDofs.find d = raw m (k, d)) ∧
      (∀ d v, s.componentByDofs.find d = some v → Canonical (k, d)) := by
  unfold target
  cases hf : m.sub.find k with
  | some s =>
    obtain ⟨h1, h2, _, _, h4⟩ := h.subs k s hf
    exact ⟨s, by simp, h1, h2, fun d => by unfold raw; simp only [hf]; rfl, h4⟩
  | none =>
    by_cases he : k.1 = k.2
    · refine ⟨DofMatrix.new .SYMMETRIC, ?_, by simp [subType, he, DofMatrix.new],
        Map.wf_nil, fun d => by unfold raw; simp only [hf]; rfl,
        fun d v h => by simp [DofMatrix.new] at h⟩
      simp [h.type, he]
    · refine ⟨DofMatrix.new .FULL, ?_, by simp [subType, he, DofMatrix.new],
        Map.wf_nil, fun d => by unfold raw; simp only [hf]; rfl,
        fun d v h => by simp [DofMatrix.new] at h⟩
      simp [h.type, he]

/-- Storing in a submatrix. -/
theorem sub_add (s : DofMatrix) (k : Nat × Nat) (hs : s.matrixType = subType k) (c d : Dof) (v : Dbl) :
    s.addComponent c d v = .ok { s with
      componentByDofs := s.componentByDofs.set (if k.1 = k.2 ∧ d.lt c = true then (d, c) else (c, d)) v } := by
  unfold DofMatrix.addComponent
  rw [hs]
  by_cases he : k.1 = k.2
  · simp only [subType, he, if_true, reduceCtorEq, false_and, if_false, true_and]
    split <;> rfl
  · simp [subType, he]

/-- Effect of `addComponent`. -/
theorem addAt_eq (m : DirectMatrix) (h : Inv m) (x y : Unknown) (v : Dbl) :
    ∃ m', m.addAt x y v = .ok m' ∧ Inv m' ∧
      (∀ k, raw m' k = if k = canon x y then some v else raw m k) ∧
      (∀ p, p ∈ m'.sub.keys ↔ p = (canon x y).1 ∨ p ∈ m.sub.keys) := by
  obtain ⟨a, b, hab, hle, hc⟩ : ∃ a b : Unknown, ordered x y = (a, b) ∧ a.1 ≤ b.1 ∧
      canon x y = ((a.1, b.1), (if a.1 = b.1 ∧ b.2.lt a.2 = true then (b.2, a.2) else (a.2, b.2))) := by
    unfold ordered canon
    split
    · refine ⟨y, x, rfl, by omega, ?_⟩
      rw [if_neg]; omega
    · refine ⟨x, y, rfl, by omega, ?_⟩
      split <;> rfl
  obtain ⟨s, hs, ht, hw, hr, hcan⟩ := target_eq m h (a.1, b.1) hle
  generalize hd : (if a.1 = b.1 ∧ b.2.lt a.2 = true then (b.2, a.2) else (a.2, b.2)) = dd at hc
  have hadd : s.addComponent a.2 b.2 v
      = .ok { s with componentByDofs := s.componentByDofs.set dd v } := by
    rw [sub_add s (a.1, b.1) ht]; simp only [hd]
  have hcd : Canonical ((a.1, b.1), dd) := hc ▸ canon_canonical x y
  refine ⟨{ m with sub := m.sub.set (a.1, b.1) { s with componentByDofs := s.componentByDofs.set dd v } },
    ?_, ⟨h.type, Map.wf_set _ _ _ h.wf, ?_⟩, ?_, ?_⟩
  · unfold addAt
    rw [hab]
    simp only at hs
    simp only [hs, Outcome.bind_ok, hadd]
  · intro k s' hk
    simp only at hk
    rw [Map.find_set] at hk
    split at hk
    · rename_i e
      subst e
      injection hk with hk
      subst hk
      refine ⟨ht, Map.wf_set _ _ _ hw, hle, set_ne_nil _ _ _, ?_⟩
      intro d w hdw
      simp only at hdw
      rw [Map.find_set] at hdw
      split at hdw
      · rename_i e; subst e; exact hcd
      · exact hcan d w hdw
    · exact h.subs k s' hk
  · intro k
    rw [hc]
    obtain ⟨kp, kd⟩ := k
    unfold raw
    simp only
    rw [Map.find_set]
    by_cases e : (a.1, b.1) = kp
    · subst e
      simp only [if_true, Option.bind_some, Map.find_set]
      by_cases e2 : dd = kd
      · subst e2; simp
      · rw [if_neg e2, if_neg (by rintro h; injection h with _ h; exact e2 h.symm)]
        exact hr kd
    · rw [if_neg e, if_neg (by rintro h; injection h with h _; exact e h.symm)]
  · intro p
    rw [hc]
    simp only [Map.keys_set]
    split
    · rename_i hm
      constructor
      · exact .inr
      · rintro (rfl | h)
        · exact hm
        · exact h
    · simp [or_comm]

theorem find_sub (m : DirectMatrix) (a b : Nat) (d : Dof × Dof) :
    (m.findSubmatrix a b).componentByDofs.find d = raw m ((a, b), d) := by
  unfold findSubmatrix raw
  simp only
  cases m.sub.find (a, b) <;> rfl

theorem canonical_of_raw (m : DirectMatrix) (h : Inv m) (k : (Nat × Nat) × (Dof × Dof)) (v : Dbl)
    (hr : raw m k = some v) : Canonical k := by
  unfold raw at hr
  cases hf : m.sub.find k.1 with
  | none => rw [hf] at hr; cases hr
  | some s => rw [hf] at hr; exact (h.subs _ _ hf).2.2.2.2 _ _ hr

/-- Reading is looking up the storage key. -/
theorem reads_iff (m : DirectMatrix) (h : Inv m) (x y : Unknown) (v : Dbl) :
    Reads m x y v ↔ raw m (canon x y) = some v := by
  unfold Reads
  rw [find_sub, find_sub]
  constructor
  · rintro (hr | hr)
    · rw [← canon_of_canonical _ (canonical_of_raw m h _ _ hr)] at hr
      exact hr
    · rw [← canon_of_canonical _ (canonical_of_raw m h _ _ hr)] at hr
      rw [canon_comm]; exact hr
  · unfold canon
    split
    · exact fun h => .inr h
    · split
      · rename_i h1 h2
        intro hr; right; rw [h2.1] at hr ⊢; exact hr
      · exact fun h => .inl h

theorem about_iff (e : Entry) (x y : Unknown) : e.about x y ↔ canon x y = canon e.x e.y := by
  rw [canon_inj]
  unfold Entry.about
  constructor
  · rintro (⟨rfl, rfl⟩ | ⟨rfl, rfl⟩) <;> simp
  · rintro (⟨rfl, rfl⟩ | ⟨rfl, rfl⟩) <;> simp

theorem run_eq (hist : List Entry) (m : DirectMatrix) (h : Inv m) :
    ∃ m', run m hist = .ok m' ∧ Inv m' ∧
      (∀ x y, raw m' (canon x y)
        = hist.foldl (fun r e => if e.about x y then some e.v else r) (raw m (canon x y))) ∧
      (∀ p, p ∈ m'.sub.keys ↔ (∃ e ∈ hist, p = (canon e.x e.y).1) ∨ p ∈ m.sub.keys) := by
  induction hist generalizing m with
  | nil => exact ⟨m, rfl, h, fun _ _ => rfl, by simp⟩
  | cons e rest ih =>
    obtain ⟨m1, h1, h2, h3, h4⟩ := addAt_eq m h e.x e.y e.v
    obtain ⟨m2, g1, g2, g3, g4⟩ := ih m1 h2
    refine ⟨m2, ?_, g2, ?_, ?_⟩
    · simp only [run, h1, Outcome.bind_ok, g1]
    · intro x y
      rw [g3, List.foldl_cons, h3]
      congr 1
      by_cases ha : e.about x y
      · rw [if_pos ha, if_pos ((about_iff e x y).mp ha)]
      · rw [if_neg ha, if_neg (fun hc => ha ((about_iff e x y).mpr hc))]
    · intro p
      rw [g4, h4]
      simp only [List.mem_cons, exists_eq_or_imp]
      constructor
      · rintro (h | h | h)
        · exact .inl (.inr h)
        · exact .inl (.inl h)
        · exact .inr h
      · rintro ((h | h) | h)
        · exact .inr (.inl h)
        · exact .inl h
        · exact .inr (.inr h)

theorem mem_insertPos (a p : Nat) (l : List Nat) : p ∈ insertPos a l ↔ p = a ∨ p ∈ l := by
  induction l with
  | nil => simp [insertPos]
  | cons b l ih =>
    unfold insertPos
    split
    · simp
    · split
      · rename_i h1 h2
        subst h2
        simp
      · simp only [List.mem_cons, ih]; tauto

theorem mem_nodePositions (m : DirectMatrix) (p : Nat) :
    p ∈ m.nodePositions ↔ ∃ k ∈ m.sub.keys, p = k.1 ∨ p = k.2 := by
  unfold nodePositions
  have : ∀ (l : Map (Nat × Nat) DofMatrix) (acc : List Nat),
      p ∈ l.foldl (fun acc kv => insertPos kv.1.2 (insertPos kv.1.1 acc)) acc ↔
        p ∈ acc ∨ ∃ k ∈ l.keys, p = k.1 ∨ p = k.2 := by
    intro l
    induction l with
    | nil => intro acc; simp
    | cons kv l ih =>
      intro acc
      rw [List.foldl_cons, ih, mem_insertPos, mem_insertPos, Map.keys_cons]
      simp only [List.mem_cons, exists_eq_or_imp]
      constructor
      · rintro ((h | h | h) | h)
        · exact .inr (.inl (.inr h))
        · exact .inr (.inl (.inl h))
        · exact .inl h
        · exact .inr (.inr h)
      · rintro (h | (h | h) | h)
        · exact .inl (.inr (.inr h))
        · exact .inl (.inr (.inl h))
        · exact .inl (.inl h)
        · exact .inr h
  rw [this]; simp

theorem insertPos_sorted (a : Nat) (l : List Nat) (h : l.Pairwise (· < ·)) :
    (insertPos a l).Pairwise (· < ·) := by
  induction l with
  | nil => simp [insertPos]
  | cons b l ih =>
    unfold insertPos
    rw [List.pairwise_cons] at h
    split
    · rename_i hab
      rw [List.pairwise_cons, List.pairwise_cons]
      refine ⟨?_, h⟩
      intro c hc
      rcases List.mem_cons.mp hc with rfl | hc
      · exact hab
      · exact Nat.lt_trans hab (h.1 c hc)
    · split
      · rw [List.pairwise_cons]; exact h
      · rw [List.pairwise_cons]
        refine ⟨?_, ih h.2⟩
        intro c hc
        rcases (mem_insertPos a c l).mp hc with rfl | hc
        · omega
        · exact h.1 c hc

theorem nodePositions_sorted (m : DirectMatrix) : m.nodePositions.Pairwise (· < ·) := by
  unfold nodePositions
  have : ∀ (l : Map (Nat × Nat) DofMatrix) (acc : List Nat), acc.Pairwise (· < ·) →
      (l.foldl (fun acc kv => insertPos kv.1.2 (insertPos kv.1.1 acc)) acc).Pairwise (· < ·) := by
    intro l
    induction l with
    | nil => intro acc h; exact h
    | cons kv l ih =>
      intro acc h
      exact ih _ (insertPos_sorted _ _ (insertPos_sorted _ _ h))
  exact this _ _ List.Pairwise.nil

theorem nodePositions_nodup (m : DirectMatrix) : m.nodePositions.Nodup :=
  (nodePositions_sorted m).imp (fun h => Nat.ne_of_lt h)

theorem canon_nodes (x y : Unknown) (p : Nat) :
    (p = (canon x y).1.1 ∨ p = (canon x y).1.2) ↔ (p = x.1 ∨ p = y.1) := by
  unfold canon
  split
  · exact or_comm
  · split <;> rfl

/-! ## C51 -/

/-- **C51.** A symmetric direct matrix accepts every history of coefficients, and what is read for
two unknowns is the last coefficient given for them, in whichever order. -/
theorem C51_last_given (hist : List Entry) :
    ∃ m, run (DirectMatrix.new .SYMMETRIC) hist = .ok m ∧
      ∀ x y v, Reads m x y v ↔ lastGiven hist x y = some v := by
  obtain ⟨m, h1, h2, h3, _⟩ := run_eq hist _ inv_new
  refine ⟨m, h1, fun x y v => ?_⟩
  rw [reads_iff m h2, h3]
  rfl

/-- **C51, nodes.** The nodes of the matrix are those named by some coefficient, in increasing
order, each once. -/
theorem C51_nodes (hist : List Entry) (m : DirectMatrix)
    (h : run (DirectMatrix.new .SYMMETRIC) hist = .ok m) :
    m.nodePositions.Pairwise (· < ·) ∧
      ∀ p, p ∈ m.nodePositions ↔ ∃ e ∈ hist, p = e.x.1 ∨ p = e.y.1 := by
  obtain ⟨m', h1, _, _, h4⟩ := run_eq hist _ inv_new
  rw [h] at h1
  injection h1 with h1
  subst h1
  refine ⟨nodePositions_sorted _, fun p => ?_⟩
  rw [mem_nodePositions]
  constructor
  · rintro ⟨k, hk, hp⟩
    rcases (h4 k).mp hk with ⟨e, he, rfl⟩ | h
    · exact ⟨e, he, (canon_nodes _ _ _).mp hp⟩
    · simp [DirectMatrix.new] at h
  · rintro ⟨e, he, hp⟩
    exact ⟨(canon e.x e.y).1, (h4 _).mpr (.inl ⟨e, he, rfl⟩), (canon_nodes _ _ _).mpr hp⟩

/-- A case with three nodes, a coefficient given twice in the two orders. -/
example : ∃ m, run (DirectMatrix.new .SYMMETRIC)
      [⟨(3, .RX), (1, .DY), 5⟩, ⟨(2, .DX), (2, .DZ), 7⟩, ⟨(1, .DY), (3, .RX), 4⟩] = .ok m ∧
    Reads m (3, .RX) (1, .DY) 4 ∧ ¬ Reads m (3, .DY) (1, .RX) 4 ∧ m.nodePositions = [1, 2, 3] := by
  refine ⟨_, rfl, ?_, ?_, ?_⟩
  · unfold Reads; right; decide +kernel
  · unfold Reads; decide +kernel
  · decide +kernel

/-- The history by the ids of the nodes. -/
def runIds (ns : NodeStore) (m : DirectMatrix) :
    List (Int × Dof × Int × Dof × Dbl) → Outcome (NodeStore × DirectMatrix)
  | [] => .ok (ns, m)
  | (i, c, j, d, v) :: rest => do
    let (ns, m) ← m.addComponent ns i c j d v
    runIds ns m rest

/-- `q` is the list of entries `h` with the positions that the ids have in `ids`. -/
def Located (ids : List Int) (h : List (Int × Dof × Int × Dof × Dbl)) (q : List Entry) : Prop :=
  List.Forall₂ (fun e f => ids[f.x.1]? = some e.1 ∧ f.x.2 = e.2.1 ∧ ids[f.y.1]? = some e.2.2.1 ∧
    f.y.2 = e.2.2.2.1 ∧ f.v = e.2.2.2.2) h q

theorem prefix_get {l l' : List Int} (h : l <+: l') (p : Nat) (i : Int) (hp : l[p]? = some i) :
    l'[p]? = some i := by
  obtain ⟨t, rfl⟩ := h
  rw [List.getElem?_append_left]
  · exact hp
  · exact (List.getElem?_eq_some_iff.mp hp).1

/-- **C51, ids.** Coefficients given by node ids: the ids get positions, known ids keep theirs, and
the matrix is the one of the history with these positions. -/
theorem C51_ids (hist : List (Int × Dof × Int × Dof × Dbl)) (ns : NodeStore) (hns : ns.Inv)
    (hid : ∀ e ∈ hist, e.1 ≠ AUTO_ID ∧ e.2.2.1 ≠ AUTO_ID) (m : DirectMatrix) (hm : Inv m) :
    ∃ ns' m' q, runIds ns m hist = .ok (ns', m') ∧ ns'.Inv ∧ ns.ids <+: ns'.ids ∧
      Located ns'.ids hist q ∧ run m q = .ok m' := by
  induction hist generalizing ns m with
  | nil => exact ⟨ns, m, [], rfl, hns, List.prefix_rfl, List.Forall₂.nil, rfl⟩
  | cons e rest ih =>
    obtain ⟨i, c, j, d, v⟩ := e
    obtain ⟨hi, hj⟩ := hid _ (List.mem_cons_self ..)
    simp only at hi hj
    obtain ⟨n1, p1, a1, a2, a3, a4, _⟩ := NodeStore.reserve_spec hns i hi none
    obtain ⟨n2, p2, b1, b2, b3, b4, _⟩ := NodeStore.reserve_spec a2 j hj none
    obtain ⟨m1, c1, c2, _⟩ := addAt_eq m hm (p1, c) (p2, d) v
    obtain ⟨n3, m3, q, d1, d2, d3, d4, d5⟩ :=
      ih n2 b2 (fun e he => hid e (List.mem_cons_of_mem _ he)) m1 c2
    have pa : ns.ids <+: n1.ids := by rw [a4]; split <;> simp
    have pb : n1.ids <+: n2.ids := by rw [b4]; split <;> simp
    refine ⟨n3, m3, ⟨(p1, c), (p2, d), v⟩ :: q, ?_, d2, (pa.trans pb).trans d3, ?_, ?_⟩
    · simp only [runIds, DirectMatrix.addComponent, a1, b1, c1, Outcome.bind_ok, d1]
    · refine List.Forall₂.cons ⟨?_, rfl, ?_, rfl, rfl⟩ d4
      · exact prefix_get (pb.trans d3) _ _ a3
      · exact prefix_get d3 _ _ b3
    · simp only [run, c1, Outcome.bind_ok, d5]

example : NodeStore.init.Inv ∧ Inv (DirectMatrix.new .SYMMETRIC) ∧
    (∀ e ∈ [((7 : Int), Dof.DX, (4 : Int), Dof.DY, (3 : Dbl))], e.1 ≠ AUTO_ID ∧ e.2.2.1 ≠ AUTO_ID) :=
  ⟨NodeStore.inv_init, inv_new, by decide⟩

/-- **C51 is false of the copies that `findSubmatrix` returns**, when they are read by their own
`findComponent`: the off diagonal copy is taken for symmetric, so the coefficient between
`(0, RX)` and `(1, DX)` is not found. -/
theorem C51_find_false : ∃ m, run (DirectMatrix.new .SYMMETRIC) [⟨(0, .RX), (1, .DX), 5⟩] = .ok m ∧
    Reads m (0, .RX) (1, .DX) 5 ∧ (m.findSubmatrix 0 1).findComponent .RX .DX = 0 := by
  refine ⟨_, rfl, ?_, ?_⟩
  · unfold Reads; left; decide +kernel
  · decide +kernel

/-- **C51, springs.** A spring between two different unknowns sets the coefficients of the energy
`k (u - v)²`: `k` on the two unknowns and `-k` between them, and no other. Partial: the coefficients
are replaced, so that the matrix gains this energy only if nothing was given for these pairs. -/
theorem C51_spring_partial (m : DirectMatrix) (hm : Inv m) (x y : Unknown) (hxy : x ≠ y) (k : Dbl) :
    ∃ m', m.addSpring x y k = .ok m' ∧ Inv m' ∧ Reads m' x x k ∧ Reads m' y y k ∧ Reads m' x y (-k) ∧
      ∀ a b v, ¬ (a = x ∧ b = x) → ¬ (a = y ∧ b = y) → ¬ (a = x ∧ b = y) → ¬ (a = y ∧ b = x) →
        (Reads m' a b v ↔ Reads m a b v) := by
  obtain ⟨m', h1, h2, h3, _⟩ := run_eq [⟨x, x, k⟩, ⟨y, y, k⟩, ⟨x, y, -k⟩] m hm
  refine ⟨m', ?_, h2, ?_, ?_, ?_, ?_⟩
  · rw [← h1]
    unfold addSpring
    simp only [run]
    cases m.addAt x x k with
    | ok a => 
      simp only [Outcome.bind_ok]
      cases a.addAt y y k with
      | ok b => 
        simp only [Outcome.bind_ok]
        cases b.addAt x y (-k) <;> rfl
      | _ => rfl
    | _ => rfl
  · rw [reads_iff m' h2, h3]
    simp [Entry.about, hxy, Ne.symm hxy]
  · rw [reads_iff m' h2, h3]
    simp [Entry.about, hxy, Ne.symm hxy]
  · rw [reads_iff m' h2, h3]
    simp [Entry.about]
  · intro a b v g1 g2 g3 g4
    rw [reads_iff m' h2, reads_iff m hm, h3]
    have e1 : ¬ (⟨x, x, k⟩ : Entry).about a b := by
      rintro (⟨rfl, rfl⟩ | ⟨rfl, rfl⟩) <;> exact g1 ⟨rfl, rfl⟩
    have e2 : ¬ (⟨y, y, k⟩ : Entry).about a b := by
      rintro (⟨rfl, rfl⟩ | ⟨rfl, rfl⟩) <;> exact g2 ⟨rfl, rfl⟩
    have e3 : ¬ (⟨x, y, -k⟩ : Entry).about a b := by
      rintro (⟨rfl, rfl⟩ | ⟨rfl, rfl⟩)
      · exact g3 ⟨rfl, rfl⟩
      · exact g4 ⟨rfl, rfl⟩
    simp [e1, e2, e3]

example : ((0, Dof.DX) : Unknown) ≠ (1, .DX) := by decide

/-- **C51 is false of two springs that share an unknown**: the second one replaces the coefficient
of the shared unknown instead of adding to it. -/
theorem C51_springs_false : ∃ m m', (DirectMatrix.new .SYMMETRIC).addSpring (0, .DX) (1, .DX) 10 = .ok m ∧
    m.addSpring (1, .DX) (2, .DX) 5 = .ok m' ∧ Reads m' (1, .DX) (1, .DX) 5 ∧
    ¬ Reads m' (1, .DX) (1, .DX) 15 := by
  refine ⟨_, _, rfl, rfl, ?_, ?_⟩
  · unfold Reads; left; decide +kernel
  · unfold Reads; decide +kernel

/-- **The degrees of freedom of a node**: when every pair of nodes has its second node at a position
other than zero, every node gets the degrees of freedom of the whole matrix. Here node 1 has only
translations, and rotations are returned for it. -/
theorem C51_dofs_false : ∃ m, run (DirectMatrix.new .SYMMETRIC)
      [⟨(1, .DX), (1, .DX), 5⟩, ⟨(2, .RX), (2, .RX), 5⟩] = .ok m ∧
    (m.getDOFSForNode 1).toList = [.DX, .DY, .DZ, .RX, .RY, .RZ] ∧
    ∀ d x v, Reads m (1, d) x v → d = .DX := by
  obtain ⟨m, h1, h2⟩ := C51_last_given [⟨(1, .DX), (1, .DX), 5⟩, ⟨(2, .RX), (2, .RX), 5⟩]
  refine ⟨m, h1, ?_, ?_⟩
  · injection h1 with h1
    subst h1
    decide +kernel
  · intro d x v h
    rw [h2] at h
    simp only [lastGiven, List.foldl_cons, List.foldl_nil] at h
    split at h
    · rename_i hh
      rcases hh with hh | hh <;> simp at hh
    · split at h
      · rename_i hh
        rcases hh with hh | hh
        · exact (congrArg (·.2) hh.1).symm
        · exact (congrArg (·.2) hh.2).symm
      · cases h

end DirectSpec
end Vega
