import Verif.Systus.Matrix
import Verif.Element.DirectSplitProps
import Mathlib.Tactic.Ring
import Mathlib.Tactic.Linarith

/-! # Direct matrices in Systus: properties C71, C72 -/
namespace Vega
namespace SystusMatrixSpec
open DirectSpec DirectMatrix Systus

/-! ## Specification -/

/-- The number of a degree of freedom, from 0 to 5. -/
def rank : Dof → Nat
  | .DX => 0
  | .DY => 1
  | .DZ => 2
  | .RX => 3
  | .RY => 4
  | .RZ => 5

/-- The coefficient of a matrix given by a history. -/
def coefficient (hist : List Entry) (x y : Unknown) : Dbl := (lastGiven hist x y).getD 0

/-- The value that the file has for the nodes of ranks `i`, `j` and the degrees of freedom `c`, `d`:
blocks of `n * n` values by line, one line by pair of nodes. -/
def written (lines : List (List Dbl)) (n N i j : Nat) (c d : Dof) : Option Dbl :=
  (lines[j * N + i]?).bind fun line => line[rank d * n + rank c]?

/-- All the degrees of freedom of the history are among the `n` first. -/
def Within (n : Nat) (hist : List Entry) : Prop := ∀ e ∈ hist, rank e.x.2 < n ∧ rank e.y.2 < n

/-! ## Lemmas -/

theorem dofToInt_eq (d : Dof) : dofToInt d = rank d + 1 := by cases d <;> rfl

theorem rank_inj (a b : Dof) (h : rank a = rank b) : a = b := by
  revert h; cases a <;> cases b <;> decide

/-- Place of a value, from zero. -/
def idx (n N i j c d : Nat) : Nat := ((j * N + i) * n + d) * n + c

theorem euclid (n a b c d : Nat) (hb : b < n) (hd : d < n) (h : a * n + b = c * n + d) : a = c ∧ b = d := by
  have hn : 0 < n := by omega
  have h1 := congrArg (· / n) h
  have h2 := congrArg (· % n) h
  simp only [Nat.mul_comm _ n, Nat.mul_add_div hn, Nat.div_eq_of_lt hb, Nat.div_eq_of_lt hd,
    Nat.mul_add_mod, Nat.mod_eq_of_lt hb, Nat.mod_eq_of_lt hd] at h1 h2
  exact ⟨by omega, h2⟩

theorem idx_inj (n N i j c d i' j' c' d' : Nat) (hi : i < N) (hi' : i' < N) (hc : c < n) (hc' : c' < n)
    (hd : d < n) (hd' : d' < n) (h : idx n N i j c d = idx n N i' j' c' d') :
    i = i' ∧ j = j' ∧ c = c' ∧ d = d' := by
  unfold idx at h
  obtain ⟨h1, h2⟩ := euclid n _ _ _ _ hc hc' h
  obtain ⟨h3, h4⟩ := euclid n _ _ _ _ hd hd' h1
  obtain ⟨h5, h6⟩ := euclid N _ _ _ _ hi hi' h3
  exact ⟨h6, h5, h2, h4⟩

theorem step_lt (n a b A : Nat) (ha : a < A) (hb : b < n) : a * n + b < A * n := by
  have : (a + 1) * n ≤ A * n := Nat.mul_le_mul_right n ha
  rw [Nat.add_mul] at this
  omega

theorem idx_lt (n N i j c d : Nat) (hi : i < N) (hj : j < N) (hc : c < n) (hd : d < n) :
    idx n N i j c d < N * N * n * n :=
  step_lt n _ _ _ (step_lt n _ _ _ (step_lt N _ _ _ hj hi) hd) hc

theorem place_eq (n N i j c d : Nat) :
    Matrix.place n N (i + 1) (j + 1) (c + 1) (d + 1) = (idx n N i j c d : Nat) := by
  unfold Matrix.place idx
  push_cast
  ring

/-- The shape of the matrix. -/
structure Shape (n N : Nat) (s : Matrix) : Prop where
  dofs : s.nbDOFS = n
  nodes : s.nbNodes = N
  size : s.size = N * N * n * n
  length : s.values.length = N * N * n * n

theorem setValue_eq (n N : Nat) (s : Matrix) (h : Shape n N s) (i j : Nat) (c d : Dof) (v : Dbl)
    (hi : i < N) (hj : j < N) (hc : rank c < n) (hd : rank d < n) :
    s.setValue (i + 1) (j + 1) (dofToInt c) (dofToInt d) v
      = .ok { s with values := s.values.set (idx n N i j (rank c) (rank d)) v } ∧
    Shape n N { s with values := s.values.set (idx n N i j (rank c) (rank d)) v } := by
  have hlt := idx_lt n N i j _ _ hi hj hc hd
  refine ⟨?_, ⟨h.dofs, h.nodes, h.size, by simp [h.length]⟩⟩
  unfold Matrix.setValue
  simp only [dofToInt_eq, h.dofs, h.nodes, h.size, h.length, place_eq]
  rw [if_neg (by omega), if_neg (by omega), if_neg (by omega), if_neg (by omega)]
  simp

theorem number_find (l : List Nat) (k : Nat) (acc : Map Nat Nat) (hn : l.Nodup) :
    (∀ p, p ∉ l → (number l k acc).find p = acc.find p) ∧
    ∀ (i : Nat) (p : Nat), l[i]? = some p → (number l k acc).find p = some (k + i) := by
  induction l generalizing k acc with
  | nil => exact ⟨fun _ _ => rfl, fun i p h => by simp at h⟩
  | cons q l ih =>
    obtain ⟨h1, h2⟩ := List.nodup_cons.mp hn
    obtain ⟨a, b⟩ := ih (k + 1) (acc.set q k) h2
    constructor
    · intro p hp
      rw [List.mem_cons, not_or] at hp
      show (number l (k + 1) (acc.set q k)).find p = _
      rw [a p hp.2, Map.find_set_ne _ _ (Ne.symm hp.1)]
    · intro i p hp
      show (number l (k + 1) (acc.set q k)).find p = _
      cases i with
      | zero =>
        simp only [List.getElem?_cons_zero, Option.some.injEq] at hp
        subst hp
        rw [a q h1]; simp
      | succ i =>
        rw [List.getElem?_cons_succ] at hp
        rw [b i p hp]
        congr 1; omega

theorem numberOf_eq (P : List Nat) (hn : P.Nodup) (i p : Nat) (h : P[i]? = some p) :
    numberOf (number P 1 []) p = i + 1 := by
  unfold numberOf
  rw [(number_find P 1 [] hn).2 i p h]
  simp only
  omega

/-- What has been written so far. -/
structure Good (n : Nat) (P : List Nat) (s : Matrix) (f : (Nat × Nat) × (Dof × Dof) → Option Dbl) : Prop where
  shape : Shape n P.length s
  vals : ∀ (i j p q : Nat) (c d : Dof), P[i]? = some p → P[j]? = some q → rank c < n → rank d < n →
    s.values[idx n P.length i j (rank c) (rank d)]? = some ((f (canon (p, c) (q, d))).getD 0)

theorem get_inj (P : List Nat) (hn : P.Nodup) (i j p : Nat) (hi : P[i]? = some p) (hj : P[j]? = some p) :
    i = j := by
  obtain ⟨h1, h2⟩ := List.getElem?_eq_some_iff.mp hi
  obtain ⟨h3, h4⟩ := List.getElem?_eq_some_iff.mp hj
  exact (List.Nodup.getElem_inj_iff hn).mp (h2.trans h4.symm)

/-- One entry. -/
theorem entry_eq (n : Nat) (P : List Nat) (hn : P.Nodup) (s : Matrix)
    (f : (Nat × Nat) × (Dof × Dof) → Option Dbl) (h : Good n P s f) (i j p q : Nat)
    (hi : P[i]? = some p) (hj : P[j]? = some q) (c d : Dof) (hc : rank c < n) (hd : rank d < n) (v : Dbl) :
    ∃ s1 s2, s.setValue (i + 1) (j + 1) (dofToInt c) (dofToInt d) v = .ok s1 ∧
      s1.setValue (j + 1) (i + 1) (dofToInt d) (dofToInt c) v = .ok s2 ∧
      Good n P s2 (fun k => if k = canon (p, c) (q, d) then some v else f k) := by
  have hil := (List.getElem?_eq_some_iff.mp hi).1
  have hjl := (List.getElem?_eq_some_iff.mp hj).1
  obtain ⟨a1, a2⟩ := setValue_eq n _ s h.shape i j c d v hil hjl hc hd
  obtain ⟨b1, b2⟩ := setValue_eq n _ _ a2 j i d c v hjl hil hd hc
  refine ⟨_, _, a1, b1, ⟨b2, ?_⟩⟩
  intro i' j' p' q' c' d' hi' hj' hc' hd'
  have hil' := (List.getElem?_eq_some_iff.mp hi').1
  have hjl' := (List.getElem?_eq_some_iff.mp hj').1
  have hlt := idx_lt n P.length i' j' _ _ hil' hjl' hc' hd'
  simp only [List.getElem?_set, List.length_set, h.shape.length]
  by_cases e2 : idx n P.length j i (rank d) (rank c) = idx n P.length i' j' (rank c') (rank d')
  · obtain ⟨f1, f2, f3, f4⟩ := idx_inj _ _ _ _ _ _ _ _ _ _ hjl hil' hd hc' hc hd' e2
    subst f1; subst f2
    have := rank_inj _ _ f3; subst this
    have := rank_inj _ _ f4; subst this
    rw [hi] at hj'; rw [hj] at hi'
    injection hi' with hi'; injection hj' with hj'
    subst hi'; subst hj'
    rw [if_pos e2, if_pos (by rw [e2]; exact hlt), if_pos (canon_comm _ _)]
    rfl
  · rw [if_neg e2]
    by_cases e1 : idx n P.length i j (rank c) (rank d) = idx n P.length i' j' (rank c') (rank d')
    · obtain ⟨f1, f2, f3, f4⟩ := idx_inj _ _ _ _ _ _ _ _ _ _ hil hil' hc hc' hd hd' e1
      subst f1; subst f2
      have := rank_inj _ _ f3; subst this
      have := rank_inj _ _ f4; subst this
      rw [hi] at hi'; rw [hj] at hj'
      injection hi' with hi'; injection hj' with hj'
      subst hi'; subst hj'
      rw [if_pos e1, if_pos (by rw [e1]; exact hlt), if_pos rfl]
      rfl
    · rw [if_neg e1, h.vals i' j' p' q' c' d' hi' hj' hc' hd', if_neg]
      intro hcan
      rcases (canon_inj _ _ _ _).mp hcan with ⟨g1, g2⟩ | ⟨g1, g2⟩
      · injection g1 with g1 g3; injection g2 with g2 g4
        subst g1; subst g2; subst g3; subst g4
        have := get_inj P hn _ _ _ hi hi'; subst this
        have := get_inj P hn _ _ _ hj hj'; subst this
        exact e1 rfl
      · injection g1 with g1 g3; injection g2 with g2 g4
        subst g1; subst g2; subst g3; subst g4
        have := get_inj P hn _ _ _ hj hi'; subst this
        have := get_inj P hn _ _ _ hi hj'; subst this
        exact e2 rfl

theorem find_cons {κ α : Type} [DecidableEq κ] (k k' : κ) (v : α) (l : Map κ α) :
    Map.find ((k', v) :: l) k = if k' = k then some v else Map.find l k := rfl

theorem good_congr (n : Nat) (P : List Nat) (s : Matrix) (f g : (Nat × Nat) × (Dof × Dof) → Option Dbl)
    (h : Good n P s f) (e : ∀ k, f k = g k) : Good n P s g := by
  have : f = g := funext e
  subst this; exact h

theorem setEntries_eq (n : Nat) (P : List Nat) (hn : P.Nodup) (i j p q : Nat) (hi : P[i]? = some p)
    (hj : P[j]? = some q) (l : Map (Dof × Dof) Dbl) (hw : l.WF)
    (hc : ∀ d v, (d, v) ∈ l → Canonical ((p, q), d)) (hd : ∀ d v, (d, v) ∈ l → rank d.1 < n ∧ rank d.2 < n)
    (s : Matrix) (f : (Nat × Nat) × (Dof × Dof) → Option Dbl) (h : Good n P s f) :
    ∃ s', Matrix.setEntries (i + 1) (j + 1) l s = .ok s' ∧
      Good n P s' (fun k => if k.1 = (p, q) ∧ k.2 ∈ l.keys then l.find k.2 else f k) := by
  induction l generalizing s f with
  | nil => exact ⟨s, rfl, good_congr n P s f _ h (by simp)⟩
  | cons e l ih =>
    obtain ⟨⟨c, d⟩, v⟩ := e
    have hcan := canon_of_canonical _ (hc (c, d) v (List.mem_cons_self ..))
    simp only at hcan
    obtain ⟨hc', hd'⟩ := hd (c, d) v (List.mem_cons_self ..)
    obtain ⟨s1, s2, h1, h2, h3⟩ := entry_eq n P hn s f h i j p q hi hj c d hc' hd' v
    have hw' : Map.WF l := (List.nodup_cons.mp hw).2
    have hnk : (c, d) ∉ Map.keys l := (List.nodup_cons.mp hw).1
    obtain ⟨s3, g1, g2⟩ := ih hw' (fun d v h => hc d v (List.mem_cons_of_mem _ h))
      (fun d v h => hd d v (List.mem_cons_of_mem _ h)) s2 _ h3
    refine ⟨s3, ?_, good_congr n P s3 _ _ g2 ?_⟩
    · simp only [Matrix.setEntries, h1, h2, Outcome.bind_ok, g1]
    · rintro ⟨kp, kd⟩
      rw [hcan]
      simp only [Map.keys_cons, List.mem_cons, find_cons]
      by_cases e1 : kp = (p, q)
      · subst e1
        simp only [true_and]
        by_cases e2 : kd = (c, d)
        · subst e2; simp [hnk]
        · simp [e2, Ne.symm e2]
      · simp [e1]

theorem setPairs_eq (n : Nat) (m : DirectMatrix) (hm : Inv m)
    (hd : ∀ k v, raw m k = some v → rank k.2.1 < n ∧ rank k.2.2 < n)
    (l : List (Nat × Nat)) (hl : ∀ np ∈ l, np ∈ m.nodePairs) (hn : l.Nodup) (s : Matrix)
    (f : (Nat × Nat) × (Dof × Dof) → Option Dbl) (h : Good n m.nodePositions s f)
    (hf : ∀ k, k.1 ∈ l → f k = none) :
    ∃ s', Matrix.setPairs m (number m.nodePositions 1 []) l s = .ok s' ∧
      Good n m.nodePositions s' (fun k => if k.1 ∈ l then raw m k else f k) := by
  induction l generalizing s f with
  | nil => exact ⟨s, rfl, good_congr n _ s f _ h (by simp)⟩
  | cons np l ih =>
    obtain ⟨p, q⟩ := np
    obtain ⟨hn1, hn2⟩ := List.nodup_cons.mp hn
    have hnp := hl (p, q) (List.mem_cons_self ..)
    obtain ⟨sub, hsub⟩ := (Map.mem_keys_iff _ _).mp hnp
    obtain ⟨_, w1, _, _, w2⟩ := hm.subs _ sub hsub
    have hP := nodePositions_nodup m
    obtain ⟨i, hi⟩ := List.mem_iff_getElem?.mp ((mem_nodePositions m p).mpr ⟨(p, q), hnp, .inl rfl⟩)
    obtain ⟨j, hj⟩ := List.mem_iff_getElem?.mp ((mem_nodePositions m q).mpr ⟨(p, q), hnp, .inr rfl⟩)
    have hsubm : (m.findSubmatrix p q).componentByDofs = sub.componentByDofs := by
      unfold findSubmatrix; rw [hsub]
    have hraw : ∀ d, raw m ((p, q), d) = sub.componentByDofs.find d := by
      intro d; unfold raw; simp only [hsub]; rfl
    obtain ⟨s1, h1, h2⟩ := setEntries_eq n m.nodePositions hP i j p q hi hj sub.componentByDofs w1
      (fun d v hdv => w2 d v (Map.find_of_mem _ w1 hdv))
      (fun d v hdv => hd ((p, q), d) v (by rw [hraw]; exact Map.find_of_mem _ w1 hdv)) s f h
    have e1 : ∀ k : (Nat × Nat) × (Dof × Dof),
        (if k.1 = (p, q) ∧ k.2 ∈ sub.componentByDofs.keys then sub.componentByDofs.find k.2 else f k)
          = if k.1 = (p, q) then raw m k else f k := by
      rintro ⟨kp, kd⟩
      simp only
      by_cases e : kp = (p, q)
      · subst e
        by_cases hmem : kd ∈ sub.componentByDofs.keys
        · rw [if_pos ⟨rfl, hmem⟩, if_pos rfl, hraw]
        · rw [if_neg (fun hh => hmem hh.2), if_pos rfl, hraw, (Map.find_eq_none_iff _ _).mpr hmem]
          exact hf _ (List.mem_cons_self ..)
      · rw [if_neg (fun hh => e hh.1), if_neg e]
    obtain ⟨s2, g1, g2⟩ := ih (fun np h => hl np (List.mem_cons_of_mem _ h)) hn2 s1 _
      (good_congr n _ s1 _ _ h2 e1) (by
        intro k hk
        rw [if_neg (by intro e; rw [e] at hk; exact hn1 hk)]
        exact hf k (List.mem_cons_of_mem _ hk))
    refine ⟨s2, ?_, good_congr n _ s2 _ _ g2 ?_⟩
    · simp only [Matrix.setPairs, numberOf_eq _ hP i p hi, numberOf_eq _ hP j q hj, hsubm, h1,
        Outcome.bind_ok, g1]
    · intro k
      by_cases e : k.1 = (p, q)
      · simp [e]
      · simp [e]

theorem linesFrom_get (values : List Dbl) (z l ioff k : Nat) (hk : k < l) :
    (Matrix.linesFrom values z l ioff)[k]? = some ((values.drop (ioff + k * z)).take z) := by
  induction l generalizing ioff k with
  | zero => omega
  | succ l ih =>
    unfold Matrix.linesFrom
    cases k with
    | zero => simp
    | succ k =>
      rw [List.getElem?_cons_succ, ih _ _ (by omega)]
      congr 3
      ring

theorem linesFrom_length (values : List Dbl) (z l ioff : Nat) :
    (Matrix.linesFrom values z l ioff).length = l := by
  induction l generalizing ioff with
  | zero => rfl
  | succ l ih => unfold Matrix.linesFrom; simp [ih]

theorem written_eq (n N : Nat) (s : Matrix) (h : Shape n N s) (i j : Nat) (hi : i < N) (hj : j < N)
    (c d : Dof) (hc : rank c < n) (hd : rank d < n) :
    written s.lines n N i j c d = s.values[idx n N i j (rank c) (rank d)]? := by
  unfold written Matrix.lines
  rw [h.dofs, h.nodes, linesFrom_get _ _ _ _ _ (step_lt N _ _ _ hj hi)]
  simp only [Option.bind_some]
  rw [List.getElem?_take_of_lt (step_lt n _ _ _ hd hc), List.getElem?_drop]
  congr 1
  unfold idx
  ring

theorem raw_of_hist (hist : List Entry) (m : DirectMatrix)
    (h : DirectSpec.run (DirectMatrix.new .SYMMETRIC) hist = .ok m) :
    Inv m ∧ ∀ x y, raw m (canon x y) = lastGiven hist x y := by
  obtain ⟨m', h1, h2, h3, _⟩ := run_eq hist _ inv_new
  rw [h] at h1
  injection h1 with h1
  subst h1
  exact ⟨h2, fun x y => h3 x y⟩

theorem lastGiven_mem (hist : List Entry) (x y : Unknown) (v : Dbl) (h : lastGiven hist x y = some v) :
    ∃ e ∈ hist, e.about x y ∧ e.v = v := by
  unfold lastGiven at h
  have : ∀ (l : List Entry) (r : Option Dbl),
      l.foldl (fun r e => if e.about x y then some e.v else r) r = some v →
        r = some v ∨ ∃ e ∈ l, e.about x y ∧ e.v = v := by
    intro l
    induction l with
    | nil => intro r h; exact .inl h
    | cons e l ih =>
      intro r h
      rw [List.foldl_cons] at h
      rcases ih _ h with h | ⟨e', h1, h2⟩
      · by_cases ha : e.about x y
        · rw [if_pos ha] at h
          injection h with h
          exact .inr ⟨e, List.mem_cons_self .., ha, h⟩
        · rw [if_neg ha] at h; exact .inl h
      · exact .inr ⟨e', List.mem_cons_of_mem _ h1, h2⟩
  rcases this hist none h with h | h
  · cases h
  · exact h

theorem within_raw (n : Nat) (hist : List Entry) (hw : Within n hist) (m : DirectMatrix)
    (h : DirectSpec.run (DirectMatrix.new .SYMMETRIC) hist = .ok m) (k : (Nat × Nat) × (Dof × Dof)) (v : Dbl)
    (hr : raw m k = some v) : rank k.2.1 < n ∧ rank k.2.2 < n := by
  obtain ⟨h1, h2⟩ := raw_of_hist hist m h
  rw [← canon_of_canonical k (canonical_of_raw m h1 k v hr), h2] at hr
  obtain ⟨e, he, ha, _⟩ := lastGiven_mem _ _ _ _ hr
  obtain ⟨w1, w2⟩ := hw e he
  rcases ha with ⟨a, b⟩ | ⟨a, b⟩
  · rw [a] at w1; rw [b] at w2; exact ⟨w1, w2⟩
  · rw [a] at w1; rw [b] at w2; exact ⟨w2, w1⟩

/-! ## C71 -/

/-- **C71.** The matrix written for Systus has one line by pair of nodes, each of `n * n` values, and
the value at the nodes of ranks `i`, `j` and the degrees of freedom `c`, `d` is the last coefficient
given for these two unknowns, zero if none was given. -/
theorem C71_matrix (n : Nat) (hist : List Entry) (hw : Within n hist) (m : DirectMatrix)
    (hm : DirectSpec.run (DirectMatrix.new .SYMMETRIC) hist = .ok m) :
    ∃ s, Matrix.build n m = .ok s ∧
      s.lines.length = m.nodePositions.length * m.nodePositions.length ∧
      (∀ line ∈ s.lines, line.length = n * n) ∧
      ∀ (i j p q : Nat) (c d : Dof), m.nodePositions[i]? = some p → m.nodePositions[j]? = some q →
        rank c < n → rank d < n →
        written s.lines n m.nodePositions.length i j c d = some (coefficient hist (p, c) (q, d)) := by
  obtain ⟨h1, h2⟩ := raw_of_hist hist m hm
  have h0 : Good n m.nodePositions (Matrix.new n m.nodePositions.length) (fun _ => none) := by
    refine ⟨⟨rfl, rfl, rfl, by simp [Matrix.new]⟩, ?_⟩
    intro i j p q c d hi hj hc hd
    have hlt := idx_lt n m.nodePositions.length i j _ _ (List.getElem?_eq_some_iff.mp hi).1
      (List.getElem?_eq_some_iff.mp hj).1 hc hd
    simp [Matrix.new, hlt]
  obtain ⟨s, g1, g2⟩ := setPairs_eq n m h1 (fun k v hr => within_raw n hist hw m hm k v hr) m.nodePairs
    (fun _ h => h) h1.wf _ _ h0 (fun _ _ => rfl)
  refine ⟨s, g1, ?_, ?_, ?_⟩
  · unfold Matrix.lines
    rw [linesFrom_length, g2.shape.nodes]
  · intro line hline
    obtain ⟨k, hk⟩ := List.mem_iff_getElem?.mp hline
    have hkl : k < s.nbNodes * s.nbNodes := by
      have := (List.getElem?_eq_some_iff.mp hk).1
      unfold Matrix.lines at this
      rwa [linesFrom_length] at this
    unfold Matrix.lines at hk
    rw [linesFrom_get _ _ _ _ _ hkl] at hk
    injection hk with hk
    subst hk
    rw [List.length_take, List.length_drop, g2.shape.length, g2.shape.dofs]
    rw [g2.shape.nodes] at hkl
    have : (k + 1) * (n * n) ≤ m.nodePositions.length * m.nodePositions.length * (n * n) :=
      Nat.mul_le_mul_right _ hkl
    have e : m.nodePositions.length * m.nodePositions.length * n * n
      = m.nodePositions.length * m.nodePositions.length * (n * n) := by ring
    rw [Nat.add_mul] at this
    rw [e, Nat.min_eq_left]
    omega
  · intro i j p q c d hi hj hc hd
    rw [written_eq n _ s g2.shape i j (List.getElem?_eq_some_iff.mp hi).1
      (List.getElem?_eq_some_iff.mp hj).1 c d hc hd, g2.vals i j p q c d hi hj hc hd]
    unfold coefficient
    rw [← h2]
    congr 2
    by_cases hk : (canon (p, c) (q, d)).1 ∈ m.nodePairs
    · rw [if_pos hk]
    · rw [if_neg hk]
      cases hr : raw m (canon (p, c) (q, d)) with
      | none => rfl
      | some v => exact absurd (sub_key m _ v hr) hk

/-- A matrix over two nodes with the six degrees of freedom. -/
example : Within 6 [⟨(4, .RX), (2, .DY), 5⟩, ⟨(2, .DX), (2, .DZ), 7⟩] := by
  unfold Within; decide

example : (run (DirectMatrix.new .SYMMETRIC) [⟨(4, .RX), (2, .DY), 5⟩, ⟨(2, .DX), (2, .DZ), 7⟩]).toOption.bind
    (fun m => (Matrix.build 6 m).toOption.map fun s =>
      (written s.lines 6 2 1 0 .RX .DY, written s.lines 6 2 0 1 .DY .RX, written s.lines 6 2 0 1 .RX .DY,
        written s.lines 6 2 0 0 .DZ .DX))
    = some (some 5, some 5, some 0, some 7) := by decide +kernel

/-! ## C72: tables -/

/-- The four digits of a code. -/
def digits (code : Nat) : Nat × Nat × Nat × Nat :=
  (code / 1000, code / 100 % 10, code / 10 % 10, code % 10)

/-- The entries of a table: codes and values alternate. -/
def entriesOf : List Dbl → List (Dbl × Dbl)
  | c :: v :: rest => (c, v) :: entriesOf rest
  | _ => []

/-- The table has a value for the nodes numbered `i`, `j` from one and the degrees of freedom `c`,
`d`: some code has these four digits. -/
def Has (t : List Dbl) (i j : Nat) (c d : Dof) (v : Dbl) : Prop :=
  ∃ code : Nat, ((code : Dbl), v) ∈ entriesOf t ∧ digits code = (i, j, rank c + 1, rank d + 1)

/-- The code of an entry. -/
def code (P : List Nat) (k : (Nat × Nat) × (Dof × Dof)) : Nat :=
  numberOf (number P 1 []) k.1.1 * 1000 + numberOf (number P 1 []) k.1.2 * 100
    + (10 * dofToInt k.2.1 + dofToInt k.2.2)

theorem entriesOf_append (t : List Dbl) (ht : t.length % 2 = 0) (c v : Dbl) :
    entriesOf (t ++ [c, v]) = entriesOf t ++ [(c, v)] := by
  have : ∀ (k : Nat) (t : List Dbl), t.length = 2 * k → entriesOf (t ++ [c, v]) = entriesOf t ++ [(c, v)] := by
    intro k
    induction k with
    | zero =>
      intro t h
      have : t = [] := List.length_eq_zero_iff.mp (by omega)
      subst this; rfl
    | succ k ih =>
      intro t h
      match t, h with
      | a :: b :: t, h =>
        simp only [List.cons_append, entriesOf]
        rw [ih t (by simp at h; omega)]
  exact this (t.length / 2) t (by omega)

theorem fillEntries_eq (n pc : Nat) (l : List ((Dof × Dof) × Dbl))
    (hd : ∀ e ∈ l, rank e.1.1 < n ∧ rank e.1.2 < n) (acc : List Dbl) (ha : acc.length % 2 = 0) :
    ∃ t, Table.fillEntries n pc l acc = .ok t ∧ t.length % 2 = 0 ∧
      entriesOf t = entriesOf acc ++ l.map fun e =>
        (((pc + (10 * dofToInt e.1.1 + dofToInt e.1.2) : Nat) : Dbl), e.2) := by
  induction l generalizing acc with
  | nil => exact ⟨acc, rfl, ha, by simp⟩
  | cons e l ih =>
    obtain ⟨⟨c, d⟩, v⟩ := e
    obtain ⟨h1, h2⟩ := hd _ (List.mem_cons_self ..)
    simp only at h1 h2
    obtain ⟨t, g1, g2, g3⟩ := ih (fun e h => hd e (List.mem_cons_of_mem _ h))
      (acc ++ [((pc + (10 * dofToInt c + dofToInt d) : Nat) : Dbl), v]) (by simp; omega)
    refine ⟨t, ?_, g2, ?_⟩
    · unfold Table.fillEntries
      rw [if_neg (by rw [dofToInt_eq]; omega), if_neg (by rw [dofToInt_eq]; omega)]
      exact g1
    · rw [g3, entriesOf_append acc ha]
      simp

/-- The entries of a direct matrix in the order of the loops. -/
def flat (m : DirectMatrix) (l : List (Nat × Nat)) : List (((Nat × Nat) × (Dof × Dof)) × Dbl) :=
  l.flatMap fun np => (m.findSubmatrix np.1 np.2).componentByDofs.map fun e => ((np, e.1), e.2)

theorem mem_flat (m : DirectMatrix) (hm : Inv m) (l : List (Nat × Nat)) (k : (Nat × Nat) × (Dof × Dof))
    (v : Dbl) : (k, v) ∈ flat m l ↔ k.1 ∈ l ∧ raw m k = some v := by
  unfold flat
  rw [List.mem_flatMap]
  have hsub : ∀ np : Nat × Nat, ∀ d, (d, v) ∈ (m.findSubmatrix np.1 np.2).componentByDofs ↔
      raw m (np, d) = some v := by
    intro np d
    rw [← find_sub m np.1 np.2 d]
    apply Map.mem_iff_find
    unfold findSubmatrix
    cases hf : m.sub.find (np.1, np.2) with
    | none => exact Map.wf_nil
    | some s => exact (hm.subs _ _ hf).2.1
  constructor
  · rintro ⟨np, h1, h2⟩
    obtain ⟨e, h3, h4⟩ := List.mem_map.mp h2
    injection h4 with h4 h5
    subst h4; subst h5
    exact ⟨h1, (hsub np e.1).mp h3⟩
  · rintro ⟨h1, h2⟩
    exact ⟨k.1, h1, List.mem_map.mpr ⟨(k.2, v), (hsub k.1 k.2).mpr h2, rfl⟩⟩

theorem fillPairs_eq (n : Nat) (m : DirectMatrix) (hm : Inv m)
    (hd : ∀ k v, raw m k = some v → rank k.2.1 < n ∧ rank k.2.2 < n) (l : List (Nat × Nat))
    (acc : List Dbl) (ha : acc.length % 2 = 0) :
    ∃ t, Table.fillPairs n m (number m.nodePositions 1 []) l acc = .ok t ∧ t.length % 2 = 0 ∧
      entriesOf t = entriesOf acc ++ (flat m l).map fun e => ((code m.nodePositions e.1 : Dbl), e.2) := by
  induction l generalizing acc with
  | nil => exact ⟨acc, rfl, ha, by simp [flat]⟩
  | cons np l ih =>
    obtain ⟨t1, a1, a2, a3⟩ := fillEntries_eq n
      (numberOf (number m.nodePositions 1 []) np.1 * 1000 + numberOf (number m.nodePositions 1 []) np.2 * 100)
      (m.findSubmatrix np.1 np.2).componentByDofs (by
        rintro ⟨d, v⟩ he
        have : ((np, d), v) ∈ flat m [np] := by
          unfold flat
          simp only [List.flatMap_cons, List.flatMap_nil, List.append_nil]
          exact List.mem_map.mpr ⟨(d, v), he, rfl⟩
        exact hd (np, d) v ((mem_flat m hm _ _ _).mp this).2) acc ha
    obtain ⟨t2, b1, b2, b3⟩ := ih t1 a2
    refine ⟨t2, ?_, b2, ?_⟩
    · simp only [Table.fillPairs, a1, Outcome.bind_ok, b1]
    · rw [b3, a3]
      simp only [flat, List.flatMap_cons, List.map_append, List.map_map, List.append_assoc]
      rfl

theorem fill_eq (n : Nat) (hist : List Entry) (hw : Within n hist) (m : DirectMatrix)
    (hm : DirectSpec.run (DirectMatrix.new .SYMMETRIC) hist = .ok m) :
    ∃ t, Table.fill n m = .ok t ∧
      entriesOf t = (flat m m.nodePairs).map fun e => ((code m.nodePositions e.1 : Dbl), e.2) := by
  obtain ⟨h1, _⟩ := raw_of_hist hist m hm
  obtain ⟨t, a, _, c⟩ := fillPairs_eq n m h1 (fun k v hr => within_raw n hist hw m hm k v hr) m.nodePairs []
    rfl
  exact ⟨t, a, by simpa [entriesOf] using c⟩

theorem digits_code (m : DirectMatrix) (k : (Nat × Nat) × (Dof × Dof)) (i j : Nat)
    (h9 : m.nodePositions.length ≤ 9)
    (hi : m.nodePositions[i]? = some k.1.1) (hj : m.nodePositions[j]? = some k.1.2) :
    digits (code m.nodePositions k) = (i + 1, j + 1, rank k.2.1 + 1, rank k.2.2 + 1) := by
  have hP := nodePositions_nodup m
  unfold code
  rw [numberOf_eq _ hP i _ hi, numberOf_eq _ hP j _ hj, dofToInt_eq, dofToInt_eq]
  have h1 := (List.getElem?_eq_some_iff.mp hi).1
  have h2 := (List.getElem?_eq_some_iff.mp hj).1
  have h3 : rank k.2.1 < 6 := by cases k.2.1 <;> decide
  have h4 : rank k.2.2 < 6 := by cases k.2.2 <;> decide
  unfold digits
  simp only [Prod.mk.injEq]
  omega

/-- **C72, partial.** For a matrix over at most nine nodes, the table has exactly the coefficients
given, each once: in one of the two orders of its unknowns, and under one code. Partial: with more
nodes the codes collide, `C72_nodes_false`. -/
theorem C72_partial (n : Nat) (hist : List Entry) (hw : Within n hist) (m : DirectMatrix)
    (hm : DirectSpec.run (DirectMatrix.new .SYMMETRIC) hist = .ok m) (h9 : m.nodePositions.length ≤ 9) :
    ∃ t, Table.fill n m = .ok t ∧ ((entriesOf t).map (·.1)).Nodup ∧
      ∀ (i j p q : Nat) (c d : Dof) (v : Dbl), m.nodePositions[i]? = some p → m.nodePositions[j]? = some q →
        (lastGiven hist (p, c) (q, d) = some v ↔ Has t (i + 1) (j + 1) c d v ∨ Has t (j + 1) (i + 1) d c v) := by
  obtain ⟨t, h1, h2⟩ := fill_eq n hist hw m hm
  obtain ⟨hi, hraw⟩ := raw_of_hist hist m hm
  have hP := nodePositions_nodup m
  have locate : ∀ k v, (k, v) ∈ flat m m.nodePairs → ∃ i j : Nat, m.nodePositions[i]? = some k.1.1 ∧
      m.nodePositions[j]? = some k.1.2 := by
    intro k v hk
    have := ((mem_flat m hi _ k v).mp hk).1
    obtain ⟨i, hi'⟩ := List.mem_iff_getElem?.mp ((mem_nodePositions m k.1.1).mpr ⟨k.1, this, .inl rfl⟩)
    obtain ⟨j, hj'⟩ := List.mem_iff_getElem?.mp ((mem_nodePositions m k.1.2).mpr ⟨k.1, this, .inr rfl⟩)
    exact ⟨i, j, hi', hj'⟩
  have hasiff : ∀ (i j p q : Nat) (c d : Dof) (v : Dbl), m.nodePositions[i]? = some p →
      m.nodePositions[j]? = some q → (Has t (i + 1) (j + 1) c d v ↔ raw m ((p, q), (c, d)) = some v) := by
    intro i j p q c d v hip hjq
    unfold Has
    constructor
    · rintro ⟨cd, hc1, hc2⟩
      rw [h2, List.mem_map] at hc1
      obtain ⟨⟨k, w⟩, hk1, hk2⟩ := hc1
      simp only [Prod.mk.injEq, Nat.cast_inj] at hk2
      obtain ⟨hk2, hk3⟩ := hk2
      subst hk2; subst hk3
      obtain ⟨i', j', hi', hj'⟩ := locate k w hk1
      rw [digits_code m k i' j' h9 hi' hj'] at hc2
      simp only [Prod.mk.injEq, Nat.add_right_cancel_iff] at hc2
      obtain ⟨e1, e2, e3, e4⟩ := hc2
      subst e1; subst e2
      rw [hip] at hi'; rw [hjq] at hj'
      injection hi' with hi'; injection hj' with hj'
      replace e3 := rank_inj _ _ e3
      replace e4 := rank_inj _ _ e4
      have := ((mem_flat m hi _ k w).mp hk1).2
      rw [← this]
      obtain ⟨⟨k1, k2⟩, ⟨k3, k4⟩⟩ := k
      simp only at hi' hj' e3 e4
      subst hi'; subst hj'; subst e3; subst e4
      rfl
    · intro hr
      have hmem : (((p, q), (c, d)), v) ∈ flat m m.nodePairs :=
        (mem_flat m hi _ _ _).mpr ⟨sub_key m _ v hr, hr⟩
      refine ⟨code m.nodePositions ((p, q), (c, d)), ?_, digits_code m _ i j h9 hip hjq⟩
      rw [h2, List.mem_map]
      exact ⟨_, hmem, rfl⟩
  refine ⟨t, h1, ?_, ?_⟩
  · rw [h2, List.map_map]
    have hfun : ((flat m m.nodePairs).map (·.1)).Nodup := by
      unfold flat
      rw [List.map_flatMap]
      rw [List.nodup_flatMap]
      constructor
      · intro np hnp
        rw [List.map_map]
        have hwf : (m.findSubmatrix np.1 np.2).componentByDofs.WF := by
          unfold findSubmatrix
          cases hf : m.sub.find (np.1, np.2) with
          | none => exact Map.wf_nil
          | some s => exact (hi.subs _ _ hf).2.1
        have : (m.findSubmatrix np.1 np.2).componentByDofs.map ((fun x => x.1) ∘ fun e => ((np, e.1), e.2))
            = (m.findSubmatrix np.1 np.2).componentByDofs.keys.map (fun d => (np, d)) := by
          unfold Map.keys; rw [List.map_map]; rfl
        rw [this]
        exact List.Nodup.map (fun a b h => by injection h) hwf
      · have hkn : m.nodePairs.Nodup := hi.wf
        apply List.Pairwise.imp _ hkn
        intro a b hab
        simp only [Function.onFun]
        intro x h1 h2
        rw [List.map_map, List.mem_map] at h1 h2
        obtain ⟨_, _, e1⟩ := h1
        obtain ⟨_, _, e2⟩ := h2
        simp only [Function.comp] at e1 e2
        apply hab
        have := e1.trans e2.symm
        injection this
    have e : (flat m m.nodePairs).map ((fun x : Dbl × Dbl => x.1) ∘ fun e => ((code m.nodePositions e.1 : Dbl), e.2))
        = ((flat m m.nodePairs).map (·.1)).map fun k => ((code m.nodePositions k : Nat) : Dbl) := by
      rw [List.map_map]; rfl
    rw [e]
    apply List.Nodup.map_on _ hfun
    intro k hk k' hk' hcode
    rw [Nat.cast_inj] at hcode
    obtain ⟨⟨k1, v⟩, hm1, e1⟩ := List.mem_map.mp hk
    obtain ⟨⟨k2, w⟩, hm2, e2⟩ := List.mem_map.mp hk'
    simp only at e1 e2
    subst e1; subst e2
    obtain ⟨a1, a2, a3, a4⟩ := locate _ _ hm1
    obtain ⟨b1, b2, b3, b4⟩ := locate _ _ hm2
    have hd := congrArg digits hcode
    rw [digits_code m _ _ _ h9 a3 a4, digits_code m _ _ _ h9 b3 b4] at hd
    simp only [Prod.mk.injEq, Nat.add_right_cancel_iff] at hd
    obtain ⟨c1, c2, c3, c4⟩ := hd
    subst c1; subst c2
    rw [a3] at b3; rw [a4] at b4
    injection b3 with b3; injection b4 with b4
    exact Prod.ext (Prod.ext b3 b4) (Prod.ext (rank_inj _ _ c3) (rank_inj _ _ c4))
  · intro i j p q c d v hip hjq
    rw [hasiff i j p q c d v hip hjq, hasiff j i q p d c v hjq hip, ← hraw, ← reads_iff m hi]
    unfold Reads
    rw [find_sub, find_sub]

example : ∃ m, run (DirectMatrix.new .SYMMETRIC) [⟨(4, .RX), (2, .DY), 5⟩, ⟨(2, .DX), (2, .DZ), 7⟩] = .ok m ∧
    m.nodePositions.length ≤ 9 := by
  refine ⟨_, rfl, ?_⟩
  decide +kernel

/-- **C72 is false beyond nine nodes**: with twelve nodes, the coefficient between nodes 1 and 12 and
the one of node 2 alone get the same code. -/
theorem C72_nodes_false : ∃ m t, run (DirectMatrix.new .SYMMETRIC)
      (⟨(1, .DX), (12, .DX), 5⟩ :: ⟨(2, .DX), (2, .DX), 7⟩ ::
        ([3, 4, 5, 6, 7, 8, 9, 10, 11].map fun p => ⟨(p, .DX), (p, .DX), 1⟩)) = .ok m ∧
    Table.fill 3 m = .ok t ∧ (2211, 5) ∈ entriesOf t ∧ (2211, 7) ∈ entriesOf t := by
  refine ⟨_, _, rfl, rfl, ?_, ?_⟩
  · decide +kernel
  · decide +kernel

/-- An entry on a degree of freedom beyond the `n` first. -/
def Beyond (n : Nat) (e : (Dof × Dof) × Dbl) : Prop := n ≤ rank e.1.1 ∨ n ≤ rank e.1.2

theorem fillEntries_throw (n pc : Nat) (l : List ((Dof × Dof) × Dbl)) (h : ∃ e ∈ l, Beyond n e)
    (acc : List Dbl) : Table.fillEntries n pc l acc = .throw := by
  induction l generalizing acc with
  | nil => obtain ⟨_, h, _⟩ := h; simp at h
  | cons e l ih =>
    obtain ⟨⟨c, d⟩, v⟩ := e
    unfold Table.fillEntries
    simp only [dofToInt_eq]
    split
    · rfl
    · split
      · rfl
      · apply ih
        obtain ⟨e, h1, h2⟩ := h
        rcases List.mem_cons.mp h1 with h1 | h1
        · subst h1; unfold Beyond at h2; simp only at h2; omega
        · exact ⟨e, h1, h2⟩

theorem setEntries_total (n N i j : Nat) (hi : i < N) (hj : j < N) (l : List ((Dof × Dof) × Dbl))
    (s : Matrix) (hs : Shape n N s) :
    ((∃ e ∈ l, Beyond n e) → Matrix.setEntries (i + 1) (j + 1) l s = .throw) ∧
    ((∀ e ∈ l, ¬ Beyond n e) → ∃ s', Matrix.setEntries (i + 1) (j + 1) l s = .ok s' ∧ Shape n N s') := by
  induction l generalizing s with
  | nil => exact ⟨by simp, fun _ => ⟨s, rfl, hs⟩⟩
  | cons e l ih =>
    obtain ⟨⟨c, d⟩, v⟩ := e
    by_cases hb : Beyond n ((c, d), v)
    · refine ⟨fun _ => ?_, fun h => absurd hb (h _ (List.mem_cons_self ..))⟩
      have : s.setValue (i + 1) (j + 1) (dofToInt c) (dofToInt d) v = .throw := by
        unfold Matrix.setValue
        rw [hs.dofs, dofToInt_eq, dofToInt_eq]
        unfold Beyond at hb
        simp only at hb
        split
        · rfl
        · rw [if_pos (by omega)]
      simp only [Matrix.setEntries, this, Outcome.bind_throw]
    · have hc : rank c < n ∧ rank d < n := by
        unfold Beyond at hb; simp only at hb; omega
      obtain ⟨a1, a2⟩ := setValue_eq n N s hs i j c d v hi hj hc.1 hc.2
      obtain ⟨b1, b2⟩ := setValue_eq n N _ a2 j i d c v hj hi hc.2 hc.1
      obtain ⟨g1, g2⟩ := ih _ b2
      simp only [Matrix.setEntries, a1, b1, Outcome.bind_ok]
      refine ⟨?_, fun h => g2 (fun e he => h e (List.mem_cons_of_mem _ he))⟩
      rintro ⟨e, h1, h2⟩
      apply g1
      rcases List.mem_cons.mp h1 with h1 | h1
      · subst h1; exact absurd h2 hb
      · exact ⟨e, h1, h2⟩

theorem given_beyond (n : Nat) (hist : List Entry) (e : Entry) (he : e ∈ hist)
    (hb : n ≤ rank e.x.2 ∨ n ≤ rank e.y.2) (m : DirectMatrix)
    (hm : DirectSpec.run (DirectMatrix.new .SYMMETRIC) hist = .ok m) :
    ∃ np ∈ m.nodePairs, ∃ f ∈ (m.findSubmatrix np.1 np.2).componentByDofs, Beyond n f := by
  obtain ⟨h1, h2⟩ := raw_of_hist hist m hm
  have hsome : ∃ v, lastGiven hist e.x e.y = some v := by
    unfold lastGiven
    have : ∀ (l : List Entry) (r : Option Dbl), (r ≠ none ∨ e ∈ l) →
        ∃ v, l.foldl (fun r f => if f.about e.x e.y then some f.v else r) r = some v := by
      intro l
      induction l with
      | nil => intro r h; rcases h with h | h
               · exact Option.ne_none_iff_exists'.mp h
               · simp at h
      | cons f l ih =>
        intro r h
        rw [List.foldl_cons]
        apply ih
        by_cases ha : f.about e.x e.y
        · rw [if_pos ha]; left; simp
        · rw [if_neg ha]
          rcases h with h | h
          · exact .inl h
          · rcases List.mem_cons.mp h with h | h
            · subst h; exact absurd (.inl ⟨rfl, rfl⟩) ha
            · exact .inr h
    exact this hist none (.inr he)
  obtain ⟨v, hv⟩ := hsome
  rw [← h2] at hv
  have hmem := (mem_flat m h1 m.nodePairs (canon e.x e.y) v).mpr ⟨sub_key m _ v hv, hv⟩
  unfold flat at hmem
  obtain ⟨np, a, b⟩ := List.mem_flatMap.mp hmem
  obtain ⟨f, c, d⟩ := List.mem_map.mp b
  refine ⟨np, a, f, c, ?_⟩
  injection d with d _
  have hf : f.1 = (canon e.x e.y).2 := by rw [← d]
  unfold Beyond
  rw [hf]
  unfold canon
  split
  · exact hb.symm
  · split
    · exact hb.symm
    · exact hb

/-- **C72, refusal.** A matrix that has a coefficient on a degree of freedom beyond those of the model
(a rotation in a model with three degrees of freedom by node) is refused by both outputs. -/
theorem C72_refused (n : Nat) (hist : List Entry) (e : Entry) (he : e ∈ hist)
    (hb : n ≤ rank e.x.2 ∨ n ≤ rank e.y.2) (m : DirectMatrix)
    (hm : DirectSpec.run (DirectMatrix.new .SYMMETRIC) hist = .ok m) :
    Table.fill n m = .throw ∧ Matrix.build n m = .throw := by
  obtain ⟨np, h1, f, h2, h3⟩ := given_beyond n hist e he hb m hm
  have hP := nodePositions_nodup m
  constructor
  · unfold Table.fill
    have : ∀ (l : List (Nat × Nat)) (acc : List Dbl), np ∈ l →
        Table.fillPairs n m (number m.nodePositions 1 []) l acc = .throw := by
      intro l
      induction l with
      | nil => intro acc h; simp at h
      | cons q l ih =>
        intro acc h
        unfold Table.fillPairs
        by_cases hq : ∃ f ∈ (m.findSubmatrix q.1 q.2).componentByDofs, Beyond n f
        · rw [fillEntries_throw n _ _ hq]; rfl
        · obtain ⟨i, _⟩ := raw_of_hist hist m hm
          rcases List.mem_cons.mp h with h | h
          · subst h; exact absurd ⟨f, h2, h3⟩ hq
          · have hall : ∀ e ∈ (m.findSubmatrix q.1 q.2).componentByDofs, rank e.1.1 < n ∧ rank e.1.2 < n := by
              intro e he
              by_contra hcon
              exact hq ⟨e, he, by unfold Beyond; omega⟩
            have hlen : ∀ (l : List ((Dof × Dof) × Dbl)) pc (acc : List Dbl),
                (∀ e ∈ l, rank e.1.1 < n ∧ rank e.1.2 < n) → ∃ t, Table.fillEntries n pc l acc = .ok t := by
              intro l pc
              induction l with
              | nil => intro acc _; exact ⟨acc, rfl⟩
              | cons e l ih =>
                intro acc hl
                obtain ⟨⟨c, d⟩, v⟩ := e
                obtain ⟨k1, k2⟩ := hl _ (List.mem_cons_self ..)
                simp only at k1 k2
                unfold Table.fillEntries
                rw [if_neg (by rw [dofToInt_eq]; omega), if_neg (by rw [dofToInt_eq]; omega)]
                exact ih _ (fun e h => hl e (List.mem_cons_of_mem _ h))
            obtain ⟨t, ht⟩ := hlen _ (numberOf (number m.nodePositions 1 []) q.1 * 1000 +
              numberOf (number m.nodePositions 1 []) q.2 * 100) acc hall
            rw [ht]
            exact ih t h
    exact this _ _ h1
  · unfold Matrix.build
    have : ∀ (l : List (Nat × Nat)) (s : Matrix), Shape n m.nodePositions.length s →
        (∀ q ∈ l, q ∈ m.nodePairs) → np ∈ l →
        Matrix.setPairs m (number m.nodePositions 1 []) l s = .throw := by
      intro l
      induction l with
      | nil => intro s _ _ h; simp at h
      | cons q l ih =>
        intro s hs hl h
        have hqm := hl q (List.mem_cons_self ..)
        obtain ⟨i, hi⟩ := List.mem_iff_getElem?.mp ((mem_nodePositions m q.1).mpr ⟨q, hqm, .inl rfl⟩)
        obtain ⟨j, hj⟩ := List.mem_iff_getElem?.mp ((mem_nodePositions m q.2).mpr ⟨q, hqm, .inr rfl⟩)
        unfold Matrix.setPairs
        rw [numberOf_eq _ hP i _ hi, numberOf_eq _ hP j _ hj]
        obtain ⟨k1, k2⟩ := setEntries_total n m.nodePositions.length i j
          (List.getElem?_eq_some_iff.mp hi).1 (List.getElem?_eq_some_iff.mp hj).1
          (m.findSubmatrix q.1 q.2).componentByDofs s hs
        by_cases hq : ∃ f ∈ (m.findSubmatrix q.1 q.2).componentByDofs, Beyond n f
        · rw [k1 hq]; rfl
        · rcases List.mem_cons.mp h with h | h
          · subst h; exact absurd ⟨f, h2, h3⟩ hq
          · obtain ⟨s', e1, e2⟩ := k2 (fun e he hbe => hq ⟨e, he, hbe⟩)
            rw [e1]
            exact ih s' e2 (fun q h => hl q (List.mem_cons_of_mem _ h)) h
    exact this _ _ ⟨rfl, rfl, rfl, by simp [Matrix.new]⟩ (fun _ h => h) h1

example : ∃ m, run (DirectMatrix.new .SYMMETRIC) [⟨(1, .RX), (2, .DX), 5⟩] = .ok m ∧ 3 ≤ rank .RX :=
  ⟨_, rfl, by decide⟩

/-- **C72, references.** With fewer than a hundred tables, the number by which an element refers to
its table determines the kind of matrix and the table. -/
theorem C72_reference_partial (k l : MatrixKind) (t u : Nat) (ht : 1 ≤ t ∧ t < 100) (hu : 1 ≤ u ∧ u < 100)
    (h : tableRef k t = tableRef l u) : k = l ∧ t = u := by
  revert h
  cases k <;> cases l <;> simp only [tableRef, true_and, reduceCtorEq, false_and] <;> omega

example : 1 ≤ 7 ∧ 7 < 100 := by decide

/-- **C72 is false beyond**: stiffness table 100 and mass table 1 get the same number. -/
theorem C72_reference_false : tableRef .STIFFNESS 100 = tableRef .MASS 1 := rfl

end SystusMatrixSpec
end Vega
