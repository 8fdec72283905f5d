import Verif.Element.Discrete
import Verif.Dof.MatrixProps
import Mathlib.Tactic.Ring
import Mathlib.Tactic.Linarith
import Mathlib.Tactic.FinCases
import Mathlib.Data.List.Induction
import Mathlib.Data.Fintype.Defs
import Mathlib.Data.Fintype.Basic

/-! # Properties of discrete elements (C50, C68, C69) -/
namespace Vega.DiscreteSpec
open DofMatrixSpec (Store accepted sameEntry lastStored)

/-! ## Specification: the values a solver reads -/

/-- The number of dofs of a node. -/
def dofCount (rotations : Bool) : Nat := if rotations then 6 else 3

/-- A numbering of the unknowns of an element. -/
structure Numbering (ι : Type) where
  size : Nat
  number : ι → Option Nat

/-- The unknowns of a node. -/
def onNode (n : Nat) : Numbering Dof :=
  ⟨n, fun d => if d.position < n then some d.position else none⟩

/-- The unknowns of two nodes: those of the first, then those of the second. -/
def onNodes (n : Nat) : Numbering (Fin 2 × Dof) :=
  ⟨2 * n, fun x => if x.2.position < n then some (x.1.val * n + x.2.position) else none⟩

/-- The values are the entries `(i, j)`, `i ≤ j`, of `M`, column by column. -/
structure UpperTriangle {ι : Type} (ν : Numbering ι) (M : ι → ι → Dbl) (vals : List Dbl) : Prop where
  length : vals.length = ν.size * (ν.size + 1) / 2
  entry : ∀ r c i j, ν.number r = some i → ν.number c = some j → i ≤ j →
    vals[j * (j + 1) / 2 + i]? = some (M r c)

/-- The values are all the entries of `M`, column by column. -/
structure AllColumns {ι : Type} (ν : Numbering ι) (M : ι → ι → Dbl) (vals : List Dbl) : Prop where
  length : vals.length = ν.size * ν.size
  entry : ∀ r c i j, ν.number r = some i → ν.number c = some j →
    vals[j * ν.size + i]? = some (M r c)

/-- `M` has no entry outside the numbered unknowns. -/
def Supported {ι : Type} (ν : Numbering ι) (M : ι → ι → Dbl) : Prop :=
  ∀ r c, (ν.number r = none ∨ ν.number c = none) → M r c = 0

/-- What Code_Aster understands by a characteristic of a node: `K_T_N`, `K_TR_N` give the upper
triangle of a symmetric matrix, with `SYME='NON'` the whole matrix, `K_T_D_N` its diagonal. -/
def DenotesPoint (c : AsterCara) (M : Dof → Dof → Dbl) : Prop :=
  c.line = false ∧ Supported (onNode (dofCount c.rotations)) M ∧
  if c.diagonal then c.values.length = dofCount c.rotations ∧
    (∀ d, d.position < dofCount c.rotations → c.values[d.position]? = some (M d d)) ∧
    ∀ r c, r ≠ c → M r c = 0
  else if c.nonSymmetric then AllColumns (onNode (dofCount c.rotations)) M c.values
  else UpperTriangle (onNode (dofCount c.rotations)) M c.values ∧ ∀ r c, M r c = M c r

/-- The matrix of springs of stiffness `k d` between the two nodes, in each direction `d`:
the one of the energy `½ Σ k d (u₁ d - u₂ d)²`. -/
def directional (k : Dof → Dbl) (x y : Fin 2 × Dof) : Dbl :=
  if x.2 = y.2 then (if x.1 = y.1 then k x.2 else - k x.2) else 0

/-- What Code_Aster understands by a characteristic of a segment: `K_T_L`, `K_TR_L` give the upper
triangle of a symmetric matrix of the two nodes, with `SYME='NON'` the whole matrix, and `K_T_D_L`,
`K_TR_D_L` the stiffness of a spring between the nodes in each direction. -/
def DenotesLine (c : AsterCara) (M : Fin 2 × Dof → Fin 2 × Dof → Dbl) : Prop :=
  c.line = true ∧ Supported (onNodes (dofCount c.rotations)) M ∧
  if c.diagonal then c.values.length = dofCount c.rotations ∧
    ∃ k : Dof → Dbl, (∀ d, d.position < dofCount c.rotations → c.values[d.position]? = some (k d)) ∧
      M = directional k
  else if c.nonSymmetric then AllColumns (onNodes (dofCount c.rotations)) M c.values
  else UpperTriangle (onNodes (dofCount c.rotations)) M c.values ∧ ∀ x y, M x y = M y x

/-! ## Specification: what a history of calls means -/

/-- A call on an element with one matrix per quantity (`DiscretePoint`, `StructuralSegment`). -/
structure NodeStore where
  q : Quantity
  s : Store

/-- A call on a `DiscreteSegment`: value `v` between dof `r` of node `i` and dof `c` of node `j`. -/
structure SegStore where
  q : Quantity
  i : Fin 2
  j : Fin 2
  s : Store

/-- The point after a history; a call that throws changes nothing. -/
def runPoint (t : MatrixType) (hist : List NodeStore) : DiscretePoint :=
  hist.foldl (fun p x => match p.add x.q x.s.r x.s.c x.s.v with | .ok p' => p' | _ => p)
    (DiscretePoint.new t)

/-- The structural segment after a history; a call that throws changes nothing. -/
def runStructural (t : MatrixType) (hist : List NodeStore) : StructuralSegment :=
  hist.foldl (fun p x => match p.add x.q x.s.r x.s.c x.s.v with | .ok p' => p' | _ => p)
    (StructuralSegment.new t)

/-- The segment after a history; a call that throws changes nothing. -/
def runSegment (t : MatrixType) (hist : List SegStore) : DiscreteSegment :=
  hist.foldl (fun p x => match p.add x.q x.i x.j x.s.r x.s.c x.s.v with | .ok p' => p' | _ => p)
    (DiscreteSegment.new t)

/-- The calls about a quantity. -/
def about (q : Quantity) (hist : List NodeStore) : List Store :=
  (hist.filter fun x => x.q = q).map (·.s)

/-- The calls about a quantity and a block. -/
def aboutBlock (q : Quantity) (i j : Fin 2) (hist : List SegStore) : List Store :=
  (hist.filter fun x => x.q = q ∧ x.i = i ∧ x.j = j).map (·.s)

/-- The matrix a history gives: the last accepted value of each entry, zero off the diagonal of a
DIAGONAL matrix. -/
def given (t : MatrixType) (hist : List Store) (r c : Dof) : Dbl :=
  if t = .DIAGONAL ∧ r ≠ c then 0 else lastStored t hist r c

/-- The symmetric matrix between the unknowns of two nodes a history gives: the last value given
for the unordered pair. -/
def givenLine (q : Quantity) (hist : List SegStore) (x y : Fin 2 × Dof) : Dbl :=
  hist.foldl (fun cur s => if s.q = q ∧
    (((s.i, s.s.r) = x ∧ (s.j, s.s.c) = y) ∨ ((s.i, s.s.r) = y ∧ (s.j, s.s.c) = x)) then s.s.v
    else cur) 0

/-- Some accepted call touches a rotation. -/
def touchesRotation (t : MatrixType) (hist : List Store) : Prop :=
  ∃ s ∈ hist, accepted t s ∧ (s.r.isRotation = true ∨ s.c.isRotation = true)

/-! ## helper lemmas -/

/-- Column by column upper triangle. -/
def upper {α} (N : Nat) (g : Nat → Nat → α) : List α :=
  (List.range N).flatMap fun c => (List.range (c + 1)).map fun r => g r c

theorem upper_succ {α} (N : Nat) (g : Nat → Nat → α) :
    upper (N + 1) g = upper N g ++ (List.range (N + 1)).map fun r => g r N := by
  simp [upper, List.range_succ (n := N), List.flatMap_append]

theorem tri_succ (N : Nat) : (N + 1) * (N + 2) / 2 = N * (N + 1) / 2 + (N + 1) := by
  have : (N + 1) * (N + 2) = N * (N + 1) + (N + 1) * 2 := by ring
  rw [this, Nat.add_mul_div_right _ _ (by norm_num)]

theorem upper_length {α} (N : Nat) (g : Nat → Nat → α) : (upper N g).length = N * (N + 1) / 2 := by
  induction N with
  | zero => rfl
  | succ N ih => rw [upper_succ, List.length_append, ih, List.length_map, List.length_range, tri_succ]

theorem tri_mono {a b : Nat} (h : a < b) : a * (a + 1) / 2 + a < b * (b + 1) / 2 := by
  have h1 := tri_succ a
  have h2 : (a + 1) * (a + 2) / 2 ≤ b * (b + 1) / 2 :=
    Nat.div_le_div_right (Nat.mul_le_mul (by omega) (by omega))
  omega

theorem upper_get {α} (N : Nat) (g : Nat → Nat → α) (r c : Nat) (hr : r ≤ c) (hc : c < N) :
    (upper N g)[c * (c + 1) / 2 + r]? = some (g r c) := by
  induction N with
  | zero => omega
  | succ N ih =>
    rw [upper_succ]
    by_cases h : c < N
    · rw [List.getElem?_append_left, ih h]
      rw [upper_length]
      have := tri_mono h
      omega
    · obtain rfl : c = N := by omega
      rw [List.getElem?_append_right (by rw [upper_length]; omega), upper_length,
        Nat.add_sub_cancel_left, List.getElem?_map, List.getElem?_range (by omega)]
      rfl

/-- Dof at a position. -/
def dofAt : Nat → Dof
  | 0 => .DX | 1 => .DY | 2 => .DZ | 3 => .RX | 4 => .RY | _ => .RZ

theorem findByPosition_eq (d : Nat) (h : d < 6) : Dof.findByPosition d = .ok (dofAt d) := by
  match d, h with
  | 0, _ | 1, _ | 2, _ | 3, _ | 4, _ | 5, _ => rfl

open TwoNodes

theorem flatMap_congr' {α β} {l : List α} {f g : α → List β} (h : ∀ x ∈ l, f x = g x) :
    l.flatMap f = l.flatMap g := by
  rw [List.flatMap_def, List.flatMap_def, List.map_congr_left h]

theorem rows_eq (limit : Nat) (f : Dof → Dbl) (m : Nat) : ∀ (a i : Nat) (acc : List Dbl), a + m ≤ 6 →
    ∃ j, (i + m ≤ limit → j = i + m) ∧ (¬ i + m ≤ limit → limit ≤ j) ∧
    rows limit f (List.range' a m) (i, acc) =
      .ok (j, acc ++ (List.range' a (min m (limit - i))).map fun k => f (dofAt k)) := by
  induction m with
  | zero => intro a i acc h; exact ⟨i, by simp, by simp; omega, by simp [rows]⟩
  | succ m ih =>
    intro a i acc h
    rw [List.range'_succ]
    unfold rows
    by_cases hl : i + 1 > limit
    · rw [if_pos hl]
      have h1 : limit - i = 0 := by omega
      exact ⟨i + 1, by omega, by omega, by simp [h1]⟩
    · obtain ⟨j, hj1, hj2, hj⟩ := ih (a + 1) (i + 1) (acc ++ [f (dofAt a)]) (by omega)
      refine ⟨j, by omega, by omega, ?_⟩
      rw [if_neg hl, findByPosition_eq a (by omega), Outcome.bind_ok, hj]
      have : min (m + 1) (limit - i) = min m (limit - (i + 1)) + 1 := by omega
      rw [this, List.range'_succ]
      simp

/-- The node and the dof at a position. -/
def nodeDof (n k : Nat) : Fin 2 × Dof := if k < n then (0, dofAt k) else (1, dofAt (k - n))

theorem both_rows (n limit : Nat) (hn : n ≤ 6) (hl : limit ≤ 2 * n) (f : Fin 2 → Dof → Dbl) (acc : List Dbl) :
    ∃ i, (do let s ← rows limit (f 0) (List.range n) (0, acc); rows limit (f 1) (List.range n) s) =
      .ok (i, acc ++ (List.range limit).map fun k => f (nodeDof n k).1 (nodeDof n k).2) := by
  rw [List.range_eq_range']
  obtain ⟨j, hj1, hj2, hj⟩ := rows_eq limit (f 0) n 0 0 acc (by omega)
  obtain ⟨j', _, _, hj'⟩ := rows_eq limit (f 1) n 0 j
    (acc ++ (List.range' 0 (min n (limit - 0))).map fun k => f 0 (dofAt k)) (by omega)
  rw [hj, Outcome.bind_ok, hj']
  refine ⟨j', ?_⟩
  congr 2
  rw [List.append_assoc]
  congr 1
  simp only [Nat.sub_zero]
  by_cases h : n ≤ limit
  · obtain rfl : j = n := by omega
    rw [Nat.min_eq_left h, Nat.min_eq_right (by omega)]
    obtain ⟨k, rfl⟩ := Nat.exists_eq_add_of_le h
    rw [List.range_add, List.map_append, Nat.add_sub_cancel_left, ← List.range_eq_range', ← List.range_eq_range', List.map_map]
    congr 1
    · apply List.map_congr_left
      intro x hx
      simp [nodeDof, List.mem_range.mp hx]
    · apply List.map_congr_left
      intro x hx
      simp [nodeDof]
  · have h1 : min n limit = limit := by omega
    have h2 : limit - j = 0 := by omega
    rw [h1, h2, ← List.range_eq_range']
    simp only [Nat.min_zero, List.range'_zero, List.map_nil, List.append_nil]
    apply List.map_congr_left
    intro x hx
    have := List.mem_range.mp hx
    simp [nodeDof, show x < n by omega]

theorem columns_eq (n : Nat) (hn : n ≤ 6) (f : Fin 2 → Dof → Dof → Dbl) (m : Nat) :
    ∀ (a limit : Nat) (acc : List Dbl), a + m ≤ n → limit + m ≤ 2 * n →
    columns n f (List.range' a m) (limit, acc) =
      .ok (limit + m, acc ++ (List.range' a m).flatMap fun c =>
        (List.range (limit + 1 + (c - a))).map fun k => f (nodeDof n k).1 (nodeDof n k).2 (dofAt c)) := by
  induction m with
  | zero => intro a limit acc _ _; simp [columns]
  | succ m ih =>
    intro a limit acc h1 h2
    rw [List.range'_succ]
    unfold columns
    rw [findByPosition_eq a (by omega), Outcome.bind_ok]
    obtain ⟨i, hi⟩ := both_rows n (limit + 1) hn (by omega) (fun j r => f j r (dofAt a)) acc
    have : ∀ (k : Nat × List Dbl → Outcome (Nat × List Dbl)),
      (do let s ← rows (limit + 1) (fun r => f 0 r (dofAt a)) (List.range n) (0, acc)
          let s ← rows (limit + 1) (fun r => f 1 r (dofAt a)) (List.range n) s
          k s) = (do
        let s ← (do let s ← rows (limit + 1) (fun r => f 0 r (dofAt a)) (List.range n) (0, acc)
                    rows (limit + 1) (fun r => f 1 r (dofAt a)) (List.range n) s)
        k s) := by
      intro k
      cases rows (limit + 1) (fun r => f 0 r (dofAt a)) (List.range n) (0, acc) <;> rfl
    rw [this, hi, Outcome.bind_ok, ih _ _ _ (by omega) (by omega)]
    congr 2
    · omega
    · simp only [List.flatMap_cons, Nat.sub_self, Nat.add_zero, List.append_assoc]
      congr 2
      apply flatMap_congr'
      intro c hc
      have := List.mem_range'_1.mp hc
      have e : limit + 1 + 1 + (c - (a + 1)) = limit + 1 + (c - a) := by omega
      simp only [e]

/-- The loops list the upper triangle column by column. -/
theorem loops_eq (n : Nat) (hn : n ≤ 6) (f : Fin 2 → Fin 2 → Dof → Dof → Dbl) :
    loops n f = .ok (upper (2 * n) fun r c => f (nodeDof n r).1 (nodeDof n c).1 (nodeDof n r).2 (nodeDof n c).2) := by
  unfold loops
  rw [List.range_eq_range', columns_eq n hn _ _ _ _ _ (by omega) (by omega), Outcome.bind_ok,
    columns_eq n hn _ _ _ _ _ (by omega) (by omega), Outcome.bind_ok]
  congr 1
  rw [upper, two_mul, List.range_add, List.flatMap_append, List.flatMap_map, ← List.range_eq_range', List.nil_append]
  dsimp only
  congr 1
  · apply flatMap_congr'
    intro c hc
    have hc := List.mem_range.mp hc
    have e : 0 + 1 + (c - 0) = c + 1 := by omega
    have e2 : nodeDof n c = (0, dofAt c) := by simp [nodeDof, hc]
    rw [e, e2]
  · apply flatMap_congr'
    intro c hc
    have e : 0 + n + 1 + (c - 0) = n + c + 1 := by omega
    have e2 : nodeDof n (n + c) = (1, dofAt c) := by simp [nodeDof]
    rw [e, e2]

/-! ### matrices of histories -/

theorem given_eq (t : MatrixType) (hist : List Store) (r c : Dof) :
    (DofMatrixSpec.run t hist).findComponent r c = given t hist r c := by
  unfold given
  by_cases h : t = .DIAGONAL ∧ r ≠ c
  · rw [if_pos h]
    obtain ⟨rfl, h⟩ := h
    exact DofMatrixSpec.C03_diagonal_off_diagonal_zero hist r c h
  · rw [if_neg h]
    apply DofMatrixSpec.C03_find_last_stored
    intro ht
    by_contra hne
    exact h ⟨ht, hne⟩

theorem run_snoc (t : MatrixType) (hist : List Store) (s : Store) :
    DofMatrixSpec.run t (hist ++ [s]) = DofMatrixSpec.step (DofMatrixSpec.run t hist) s := by
  simp [DofMatrixSpec.run]

theorem runPoint_matrix (t : MatrixType) (hist : List NodeStore) (q : Quantity) :
    (runPoint t hist).matrix q = DofMatrixSpec.run t (about q hist) ∧
      (runPoint t hist).matrixType = t := by
  induction hist using List.reverseRecOn generalizing q with
  | nil => exact ⟨rfl, rfl⟩
  | append_singleton hist x ih =>
    unfold runPoint at ih ⊢
    rw [List.foldl_append]
    simp only [List.foldl_cons, List.foldl_nil]
    generalize hist.foldl _ _ = p at ih
    have hx := (ih x.q).1
    by_cases hq : x.q = q
    · have e : about q (hist ++ [x]) = about q hist ++ [x.s] := by simp [about, hq]
      rw [e, run_snoc, ← (ih q).1, ← hq]
      unfold DiscretePoint.add DofMatrixSpec.step
      cases hadd : (p.matrix x.q).addComponent x.s.r x.s.c x.s.v with
      | ok m => exact ⟨by simp, (ih q).2⟩
      | _ => exact ⟨rfl, (ih q).2⟩
    · have e : about q (hist ++ [x]) = about q hist := by simp [about, hq]
      rw [e, ← (ih q).1]
      unfold DiscretePoint.add
      cases hadd : (p.matrix x.q).addComponent x.s.r x.s.c x.s.v with
      | ok m => exact ⟨by simp [Ne.symm hq], (ih q).2⟩
      | _ => exact ⟨rfl, (ih q).2⟩

theorem runStructural_matrix (t : MatrixType) (hist : List NodeStore) (q : Quantity) :
    (runStructural t hist).matrix q = DofMatrixSpec.run t (about q hist) ∧
      (runStructural t hist).matrixType = t := by
  induction hist using List.reverseRecOn generalizing q with
  | nil => exact ⟨rfl, rfl⟩
  | append_singleton hist x ih =>
    unfold runStructural at ih ⊢
    rw [List.foldl_append]
    simp only [List.foldl_cons, List.foldl_nil]
    generalize hist.foldl _ _ = p at ih
    by_cases hq : x.q = q
    · have e : about q (hist ++ [x]) = about q hist ++ [x.s] := by simp [about, hq]
      rw [e, run_snoc, ← (ih q).1, ← hq]
      unfold StructuralSegment.add DofMatrixSpec.step
      cases hadd : (p.matrix x.q).addComponent x.s.r x.s.c x.s.v with
      | ok m => exact ⟨by simp, (ih q).2⟩
      | _ => exact ⟨rfl, (ih q).2⟩
    · have e : about q (hist ++ [x]) = about q hist := by simp [about, hq]
      rw [e, ← (ih q).1]
      unfold StructuralSegment.add
      cases hadd : (p.matrix x.q).addComponent x.s.r x.s.c x.s.v with
      | ok m => exact ⟨by simp [Ne.symm hq], (ih q).2⟩
      | _ => exact ⟨rfl, (ih q).2⟩

theorem runSegment_block (t : MatrixType) (hist : List SegStore) (q : Quantity) (i j : Fin 2) :
    (runSegment t hist).blocks q i j =
      DofMatrixSpec.run (DiscreteSegment.blockType t i j) (aboutBlock q i j hist) ∧
      (runSegment t hist).matrixType = t := by
  induction hist using List.reverseRecOn generalizing q i j with
  | nil => exact ⟨rfl, rfl⟩
  | append_singleton hist x ih =>
    unfold runSegment at ih ⊢
    rw [List.foldl_append]
    simp only [List.foldl_cons, List.foldl_nil]
    generalize hist.foldl _ _ = p at ih
    by_cases hq : x.q = q ∧ x.i = i ∧ x.j = j
    · have e : aboutBlock q i j (hist ++ [x]) = aboutBlock q i j hist ++ [x.s] := by
        simp [aboutBlock, hq]
      rw [e, run_snoc, ← (ih q i j).1]
      obtain ⟨rfl, rfl, rfl⟩ := hq
      unfold DiscreteSegment.add DofMatrixSpec.step
      cases hadd : (p.blocks x.q x.i x.j).addComponent x.s.r x.s.c x.s.v with
      | ok m => exact ⟨by simp, (ih x.q x.i x.j).2⟩
      | _ => exact ⟨rfl, (ih x.q x.i x.j).2⟩
    · have e : aboutBlock q i j (hist ++ [x]) = aboutBlock q i j hist := by
        simp only [aboutBlock, List.filter_append, List.map_append]
        simp [hq]
      rw [e, ← (ih q i j).1]
      unfold DiscreteSegment.add
      have hq' : ¬ (q = x.q ∧ i = x.i ∧ j = x.j) := fun h => hq ⟨h.1.symm, h.2.1.symm, h.2.2.symm⟩
      cases hadd : (p.blocks x.q x.i x.j).addComponent x.s.r x.s.c x.s.v with
      | ok m => exact ⟨by simp [hq'], (ih q i j).2⟩
      | _ => exact ⟨rfl, (ih q i j).2⟩

theorem dofAt_position (d : Dof) : dofAt d.position = d := by cases d <;> rfl

theorem nodeDof_number (n : Nat) (x : Fin 2 × Dof) (k : Nat)
    (h : (onNodes n).number x = some k) : nodeDof n k = x ∧ k < 2 * n := by
  simp only [onNodes] at h
  split at h
  · rename_i hp
    obtain ⟨i, d⟩ := x
    simp only [Option.some.injEq] at h
    simp only at hp
    subst h
    fin_cases i
    · simp [nodeDof, hp, dofAt_position]; omega
    · simp [nodeDof, dofAt_position]; omega
  · cases h

/-- The loops give the upper triangle. -/
theorem loops_upper (n : Nat) (hn : n ≤ 6) (f : Fin 2 → Fin 2 → Dof → Dof → Dbl) :
    ∃ v, loops n f = .ok v ∧
      UpperTriangle (onNodes n) (fun x y => f x.1 y.1 x.2 y.2) v := by
  refine ⟨_, loops_eq n hn f, upper_length _ _, ?_⟩
  intro r c i j hi hj hij
  obtain ⟨h1, _⟩ := nodeDof_number n r i hi
  obtain ⟨h2, h3⟩ := nodeDof_number n c j hj
  rw [upper_get _ _ _ _ hij h3, h1, h2]

theorem dofCount_le (b : Bool) : dofCount b ≤ 6 := by cases b <;> decide

theorem dofCount_of_rotation (d : Dof) (h : d.isRotation = false) (b : Bool) :
    d.position < dofCount b := by
  cases d <;> simp [Dof.isRotation] at h <;> cases b <;> decide

theorem hasRotations_false {t : MatrixType} {hist : List Store}
    (h : (DofMatrixSpec.run t hist).hasRotations = false) (r c : Dof)
    (hrc : r.isRotation = true ∨ c.isRotation = true) :
    (DofMatrixSpec.run t hist).findComponent r c = 0 := by
  rw [DofMatrixSpec.findComponent_eq]
  split
  · rfl
  · cases hf : (DofMatrixSpec.run t hist).componentByDofs.find
        (DofMatrixSpec.key (DofMatrixSpec.run t hist).matrixType r c) with
    | none => rfl
    | some v =>
      exfalso
      have hm := Map.mem_of_find _ hf
      unfold DofMatrix.hasRotations at h
      rw [List.any_eq_false] at h
      have := h _ hm
      apply this
      unfold DofMatrixSpec.key
      split
      · simp only [Bool.or_eq_true]; exact hrc.symm
      · simp only [Bool.or_eq_true]; exact hrc

theorem rotation_of_position {d : Dof} {b : Bool} (h : ¬ d.position < dofCount b) :
    b = false ∧ d.isRotation = true := by
  cases b <;> cases d <;> first | exact ⟨rfl, rfl⟩ | exact absurd (by decide) h


/-! ## C50 -/

theorem mem_indices : ∀ i j : Fin 2, (i, j) ∈ DiscreteSegment.indices := by decide

/-- **C50** `asStiffnessVector`, `asMassVector` and `asDampingVector` of a two node element with `n`
dofs per node list the `2n(2n+1)/2` entries `(r, c)`, `r ≤ c`, of its matrix column by column; `n` is
6 if rotations are asked for or present, 3 otherwise. -/
theorem C50_vector (s : DiscreteSegment) (q : Quantity) (addRot : Bool) :
    ∃ v, s.asVector q addRot = .ok v ∧
      UpperTriangle (onNodes (dofCount (addRot || s.hasRotations)))
        (fun x y => (s.blocks q x.1 y.1).findComponent x.2 y.2) v :=
  loops_upper _ (dofCount_le _) (s.find q)

/-- **C50** rotations are present when some accepted call of the history touches one. -/
theorem C50_rotations (t : MatrixType) (hist : List SegStore) :
    (runSegment t hist).hasRotations = true ↔
      ∃ x ∈ hist, accepted (DiscreteSegment.blockType t x.i x.j) x.s ∧
        (x.s.r.isRotation = true ∨ x.s.c.isRotation = true) := by
  have h (q : Quantity) (i j : Fin 2) : ((runSegment t hist).blocks q i j).hasRotations = true ↔
      ∃ x ∈ hist, (x.q = q ∧ x.i = i ∧ x.j = j) ∧ accepted (DiscreteSegment.blockType t x.i x.j) x.s ∧
        (x.s.r.isRotation = true ∨ x.s.c.isRotation = true) := by
    rw [(runSegment_block t hist q i j).1, DofMatrixSpec.C04_hasRotations]
    simp only [aboutBlock, List.mem_map, List.mem_filter, decide_eq_true_eq]
    constructor
    · rintro ⟨s, ⟨x, ⟨hx, rfl, rfl, rfl⟩, rfl⟩, h⟩
      exact ⟨x, hx, ⟨rfl, rfl, rfl⟩, h⟩
    · rintro ⟨x, hx, ⟨rfl, rfl, rfl⟩, h⟩
      exact ⟨x.s, ⟨x, ⟨hx, rfl, rfl, rfl⟩, rfl⟩, h⟩
  unfold DiscreteSegment.hasRotations
  simp only [List.any_eq_true, Bool.or_eq_true, h]
  constructor
  · rintro ⟨_, _, (⟨x, hx, _, h⟩ | ⟨x, hx, _, h⟩) | ⟨x, hx, _, h⟩⟩ <;> exact ⟨x, hx, h⟩
  · rintro ⟨x, hx, h⟩
    refine ⟨(x.i, x.j), ?_, ?_⟩
    · exact mem_indices x.i x.j
    · cases hq : x.q
      · exact Or.inl (Or.inl ⟨x, hx, ⟨hq, rfl, rfl⟩, h⟩)
      · exact Or.inl (Or.inr ⟨x, hx, ⟨hq, rfl, rfl⟩, h⟩)
      · exact Or.inr ⟨x, hx, ⟨hq, rfl, rfl⟩, h⟩

theorem find_givenLine (hist : List SegStore) (hl : ∀ x ∈ hist, x.i ≤ x.j) (q : Quantity)
    (x y : Fin 2 × Dof) (hxy : x.1 ≤ y.1) :
    ((runSegment .SYMMETRIC hist).blocks q x.1 y.1).findComponent x.2 y.2 = givenLine q hist x y := by
  rw [(runSegment_block _ _ _ _ _).1, given_eq]
  unfold given
  obtain ⟨i, r⟩ := x
  obtain ⟨j, c⟩ := y
  simp only at hxy ⊢
  have ht : DiscreteSegment.blockType .SYMMETRIC i j ≠ .DIAGONAL := by
    unfold DiscreteSegment.blockType
    split <;> decide
  rw [if_neg (fun h => ht h.1)]
  unfold lastStored aboutBlock givenLine
  rw [List.foldl_map, List.foldl_filter]
  apply List.foldl_ext
  intro cur s hs
  have hs := hl s hs
  obtain ⟨q', i', j', ⟨r', c', v'⟩⟩ := s
  simp only at hs
  by_cases hq : q' = q
  · subst hq
    revert hs hxy
    fin_cases i <;> fin_cases j <;> fin_cases i' <;> fin_cases j' <;>
      simp [DiscreteSegment.blockType, accepted, sameEntry]
  · simp [hq]

/-- **C50 (partial)** For an element of symmetric type the listed values are, for each unordered pair
of unknowns, the last value given for it, provided every value was given with the first node as row
for the pairs that relate the two nodes. -/
theorem C50_symmetric_partial (hist : List SegStore) (hl : ∀ x ∈ hist, x.i ≤ x.j) (q : Quantity)
    (addRot : Bool) :
    ∃ v, (runSegment .SYMMETRIC hist).asVector q addRot = .ok v ∧
      UpperTriangle (onNodes (dofCount (addRot || (runSegment .SYMMETRIC hist).hasRotations)))
        (givenLine q hist) v := by
  obtain ⟨v, hv, h1, h2⟩ := C50_vector (runSegment .SYMMETRIC hist) q addRot
  refine ⟨v, hv, h1, ?_⟩
  intro r c i j hi hj hij
  rw [h2 r c i j hi hj hij]
  congr 1
  apply find_givenLine hist hl
  simp only [onNodes] at hi hj
  split at hi
  · split at hj
    · rename_i hr hc
      simp only [Option.some.injEq] at hi hj
      obtain ⟨a, r⟩ := r
      obtain ⟨b, c⟩ := c
      simp only at hi hj hr hc ⊢
      fin_cases a <;> fin_cases b <;> simp at hi hj ⊢
      omega
    · cases hj
  · cases hi

/-- **C50 is false of the code** for values given with the second node as row: a history that gives
such values only makes a vector of zeros. -/
theorem C50_lower_false (hist : List SegStore) (hl : ∀ x ∈ hist, x.i = 1 ∧ x.j = 0) (q : Quantity)
    (addRot : Bool) :
    ∃ v, (runSegment .SYMMETRIC hist).asVector q addRot = .ok v ∧ ∀ a ∈ v, a = 0 := by
  refine ⟨_, loops_eq _ (dofCount_le (addRot || (runSegment .SYMMETRIC hist).hasRotations)) _, ?_⟩
  intro a ha
  have hz : ∀ i j : Fin 2, i ≤ j → ∀ r c, (runSegment .SYMMETRIC hist).find q i j r c = 0 := by
    intro i j hij r c
    unfold DiscreteSegment.find
    rw [(runSegment_block _ _ _ _ _).1]
    have : aboutBlock q i j hist = [] := by
      unfold aboutBlock
      rw [List.map_eq_nil_iff, List.filter_eq_nil_iff]
      intro x hx
      obtain ⟨h1, h2⟩ := hl x hx
      simp only [decide_eq_true_eq, not_and]
      intro _ h3 h4
      rw [← h3, ← h4, h1, h2] at hij
      exact absurd hij (by decide)
    rw [this, given_eq]
    simp [given, lastStored]
  unfold upper at ha
  simp only [List.mem_flatMap, List.mem_map, List.mem_range] at ha
  obtain ⟨c, hc, r, hr, rfl⟩ := ha
  apply hz
  unfold nodeDof
  split <;> split <;> simp
  omega

-- a spring of stiffness 5 between the two nodes in the direction X
example : ∃ v : List Dbl, (runSegment .SYMMETRIC [⟨.stiffness, 0, 0, ⟨.DX, .DX, 5⟩⟩, ⟨.stiffness, 1, 1, ⟨.DX, .DX, 5⟩⟩,
    ⟨.stiffness, 0, 1, ⟨.DX, .DX, -5⟩⟩]).asVector .stiffness false = .ok v ∧
    v.length = 21 ∧ v[0]? = some 5 ∧ v[6]? = some (-5 : Dbl) ∧ v[9]? = some 5 := by
  have hl : ∀ x ∈ ([⟨.stiffness, 0, 0, ⟨.DX, .DX, 5⟩⟩, ⟨.stiffness, 1, 1, ⟨.DX, .DX, 5⟩⟩,
    ⟨.stiffness, 0, 1, ⟨.DX, .DX, -5⟩⟩] : List SegStore), x.i ≤ x.j := by
    intro x hx
    simp only [List.mem_cons, List.not_mem_nil, or_false] at hx
    rcases hx with rfl | rfl | rfl <;> decide
  obtain ⟨v, hv, h1, h2⟩ := C50_symmetric_partial _ hl .stiffness false
  have hr : (runSegment .SYMMETRIC [⟨.stiffness, 0, 0, ⟨.DX, .DX, 5⟩⟩,
    ⟨.stiffness, 1, 1, ⟨.DX, .DX, 5⟩⟩, ⟨.stiffness, 0, 1, ⟨.DX, .DX, -5⟩⟩]).hasRotations = false := by
    rw [← Bool.not_eq_true, C50_rotations]
    simp [Dof.isRotation]
  rw [hr] at h1 h2
  refine ⟨v, hv, h1, ?_, ?_, ?_⟩
  · refine (h2 (0, .DX) (0, .DX) 0 0 rfl rfl (by decide)).trans ?_
    simp [givenLine]
  · refine (h2 (0, .DX) (1, .DX) 0 3 rfl rfl (by decide)).trans ?_
    simp [givenLine]
  · refine (h2 (1, .DX) (1, .DX) 3 3 rfl rfl (by decide)).trans ?_
    simp [givenLine]

/-! ## C68: what is written for Code_Aster -/

theorem order_point (t : MatrixType) (hist : List NodeStore) (q : Quantity) (addRot : Bool) :
    DofMatrixSpec.order ((runPoint t hist).matrix q) (addRot || (runPoint t hist).hasRotations) =
      dofCount (addRot || (runPoint t hist).hasRotations) := by
  unfold DofMatrixSpec.order dofCount
  cases h : (addRot || (runPoint t hist).hasRotations)
  · have : ((runPoint t hist).matrix q).hasRotations = false := by
      simp only [DiscretePoint.hasRotations, Bool.or_eq_false_iff] at h
      cases q
      · exact h.2.1.1
      · exact h.2.1.2
      · exact h.2.2
    rw [this]
    rfl
  · rfl

theorem onNode_number {n : Nat} {d : Dof} {i : Nat} (h : (onNode n).number d = some i) :
    d.position < n ∧ i = d.position := by
  simp only [onNode] at h
  split at h
  · rename_i hp
    exact ⟨hp, by simpa using h.symm⟩
  · cases h

theorem onNode_none {n : Nat} {d : Dof} (h : (onNode n).number d = none) : ¬ d.position < n := by
  simp only [onNode] at h
  split at h
  · cases h
  · assumption

theorem point_hasRotations {p : DiscretePoint} (h : p.hasRotations = false) (q : Quantity) :
    (p.matrix q).hasRotations = false := by
  simp only [DiscretePoint.hasRotations, Bool.or_eq_false_iff] at h
  cases q
  · exact h.1.1
  · exact h.1.2
  · exact h.2

theorem point_supported (t : MatrixType) (hist : List NodeStore) (q : Quantity) :
    Supported (onNode (dofCount (runPoint t hist).hasRotations)) (given t (about q hist)) := by
  intro r c h
  rw [← given_eq]
  have key : (runPoint t hist).hasRotations = false ∧ (r.isRotation = true ∨ c.isRotation = true) := by
    rcases h with h | h
    · have := rotation_of_position (onNode_none h); exact ⟨this.1, Or.inl this.2⟩
    · have := rotation_of_position (onNode_none h); exact ⟨this.1, Or.inr this.2⟩
  have := point_hasRotations key.1 q
  rw [(runPoint_matrix t hist q).1] at this
  exact hasRotations_false this r c key.2

theorem given_symm {t : MatrixType} (ht : t ≠ .FULL) (hist : List Store) (r c : Dof) :
    given t hist r c = given t hist c r := by
  cases t with
  | FULL => exact absurd rfl ht
  | SYMMETRIC => rw [← given_eq, ← given_eq]; exact DofMatrixSpec.C03_symmetric hist r c
  | DIAGONAL =>
    unfold given
    by_cases h : r = c
    · rw [h]
    · rw [if_pos ⟨rfl, h⟩, if_pos ⟨rfl, Ne.symm h⟩]

theorem point_upper (t : MatrixType) (hist : List NodeStore) (q : Quantity)
    (hs : (runPoint t hist).isSymmetric = true)
    (hsym : ∀ r c, given t (about q hist) r c = given t (about q hist) c r) :
    ∃ c, (runPoint t hist).toAster q = .ok c ∧ c.nonSymmetric = false ∧
      DenotesPoint c (given t (about q hist)) := by
  obtain ⟨v, hv, h1, h2⟩ := DofMatrixSpec.C04_asUpperTriangularColumnsVector
    ((runPoint t hist).matrix q) (false || (runPoint t hist).hasRotations)
  rw [order_point] at h1 h2
  simp only [Bool.false_or] at hv h1 h2
  refine ⟨⟨(runPoint t hist).hasRotations, false, false, false, v⟩, ?_, rfl, rfl,
    point_supported t hist q, ?_⟩
  · unfold DiscretePoint.toAster DiscretePoint.asVector
    rw [if_pos hs, Bool.false_or, hv, Outcome.bind_ok, hs]
    rfl
  · refine ⟨⟨h1, ?_⟩, hsym⟩
    intro r c i j hi hj hij
    obtain ⟨h3, rfl⟩ := onNode_number hi
    obtain ⟨h4, rfl⟩ := onNode_number hj
    rw [h2 r c hij h4, (runPoint_matrix t hist q).1, given_eq]

/-- **C68** For a point of symmetric or diagonal type, whatever the history, the characteristic
written for Code_Aster denotes the given matrix. -/
theorem C68_point (t : MatrixType) (ht : t ≠ .FULL) (hist : List NodeStore) (q : Quantity) :
    ∃ c, (runPoint t hist).toAster q = .ok c ∧ DenotesPoint c (given t (about q hist)) := by
  have hs : (runPoint t hist).isSymmetric = true := by
    unfold DiscretePoint.isSymmetric
    rw [(runPoint_matrix t hist q).2]
    cases t
    · rfl
    · exact absurd rfl ht
    · rfl
  obtain ⟨c, h1, _, h2⟩ := point_upper t hist q hs (given_symm ht _)
  exact ⟨c, h1, h2⟩

/-- **C68** For a point of full type with some unsymmetric matrix, the characteristic is marked
unsymmetric and denotes the given matrix. -/
theorem C68_point_unsymmetric (hist : List NodeStore) (q : Quantity)
    (hs : (runPoint .FULL hist).isSymmetric = false) :
    ∃ c, (runPoint .FULL hist).toAster q = .ok c ∧ c.nonSymmetric = true ∧
      DenotesPoint c (given .FULL (about q hist)) := by
  obtain ⟨h1, h2⟩ := DofMatrixSpec.C04_asColumnsVector ((runPoint .FULL hist).matrix q)
    (false || (runPoint .FULL hist).hasRotations)
  rw [order_point] at h1 h2
  simp only [Bool.false_or] at h1 h2
  refine ⟨⟨(runPoint .FULL hist).hasRotations, false, true, false,
    ((runPoint .FULL hist).matrix q).asColumnsVector (runPoint .FULL hist).hasRotations⟩, ?_, rfl, rfl,
    point_supported .FULL hist q, ?_⟩
  · unfold DiscretePoint.toAster DiscretePoint.asVector
    rw [hs, Bool.false_or]
    rfl
  · refine ⟨h1, ?_⟩
    intro r c i j hi hj
    obtain ⟨h3, rfl⟩ := onNode_number hi
    obtain ⟨h4, rfl⟩ := onNode_number hj
    refine (h2 r c h3 h4).trans ?_
    rw [(runPoint_matrix .FULL hist q).1, given_eq]

/-- **C68 (partial)** For a point of full type whose matrices are symmetric within the tolerance of the
code, the characteristic denotes the given matrix if that matrix is exactly symmetric. -/
theorem C68_point_symmetric_partial (hist : List NodeStore) (q : Quantity)
    (hs : (runPoint .FULL hist).isSymmetric = true)
    (hsym : ∀ r c, given .FULL (about q hist) r c = given .FULL (about q hist) c r) :
    ∃ c, (runPoint .FULL hist).toAster q = .ok c ∧
      DenotesPoint c (given .FULL (about q hist)) := by
  obtain ⟨c, h1, _, h2⟩ := point_upper .FULL hist q hs hsym
  exact ⟨c, h1, h2⟩

theorem onNodes_none {n : Nat} {x : Fin 2 × Dof} (h : (onNodes n).number x = none) :
    ¬ x.2.position < n := by
  simp only [onNodes] at h
  split at h
  · cases h
  · assumption

theorem segment_hasRotations {s : DiscreteSegment} (h : s.hasRotations = false) (q : Quantity)
    (i j : Fin 2) : (s.blocks q i j).hasRotations = false := by
  unfold DiscreteSegment.hasRotations at h
  rw [List.any_eq_false] at h
  have := h _ (mem_indices i j)
  simp only [Bool.or_eq_true, not_or, Bool.not_eq_true] at this
  cases q
  · exact this.1.1
  · exact this.1.2
  · exact this.2

theorem givenLine_symm (q : Quantity) (hist : List SegStore) (x y : Fin 2 × Dof) :
    givenLine q hist x y = givenLine q hist y x := by
  unfold givenLine
  congr 1
  funext cur s
  congr 1
  apply propext
  constructor <;> rintro ⟨h, h' | h'⟩ <;> first | exact ⟨h, Or.inl h'⟩ | exact ⟨h, Or.inr h'⟩

theorem segment_supported (hist : List SegStore) (hl : ∀ x ∈ hist, x.i ≤ x.j) (q : Quantity) :
    Supported (onNodes (dofCount (runSegment .SYMMETRIC hist).hasRotations)) (givenLine q hist) := by
  have key : ∀ x y : Fin 2 × Dof, x.1 ≤ y.1 →
      ((onNodes (dofCount (runSegment .SYMMETRIC hist).hasRotations)).number x = none ∨
      (onNodes (dofCount (runSegment .SYMMETRIC hist).hasRotations)).number y = none) →
      givenLine q hist x y = 0 := by
    intro x y hxy h
    rw [← find_givenLine hist hl q x y hxy]
    have key : (runSegment .SYMMETRIC hist).hasRotations = false ∧
        (x.2.isRotation = true ∨ y.2.isRotation = true) := by
      rcases h with h | h
      · have := rotation_of_position (onNodes_none h); exact ⟨this.1, Or.inl this.2⟩
      · have := rotation_of_position (onNodes_none h); exact ⟨this.1, Or.inr this.2⟩
    have := segment_hasRotations key.1 q x.1 y.1
    rw [(runSegment_block _ _ _ _ _).1] at this ⊢
    exact hasRotations_false this _ _ key.2
  intro x y h
  rcases le_total x.1 y.1 with hxy | hxy
  · exact key x y hxy h
  · rw [givenLine_symm]
    exact key y x hxy h.symm

theorem segment_isSymmetric {s : DiscreteSegment} (ht : s.matrixType ≠ .FULL) :
    s.isSymmetric = .ok true := by
  unfold DiscreteSegment.isSymmetric
  cases h : s.matrixType
  · rfl
  · exact absurd h ht
  · rfl

/-- **C68 (partial)** For a segment of symmetric type that is not reported diagonal, the
characteristic written for Code_Aster denotes the given matrix, provided the values between the two
nodes were given with the first node as row. -/
theorem C68_segment_partial (hist : List SegStore) (hl : ∀ x ∈ hist, x.i ≤ x.j) (q : Quantity)
    (hd : (runSegment .SYMMETRIC hist).isDiagonal = false) :
    ∃ c, (runSegment .SYMMETRIC hist).toAster q = .ok c ∧ DenotesLine c (givenLine q hist) := by
  obtain ⟨v, hv, hu⟩ := C50_symmetric_partial hist hl q false
  rw [Bool.false_or] at hu
  refine ⟨⟨(runSegment .SYMMETRIC hist).hasRotations, false, false, true, v⟩, ?_, rfl,
    segment_supported hist hl q, hu, givenLine_symm q hist⟩
  unfold DiscreteSegment.toAster
  rw [segment_isSymmetric (by rw [(runSegment_block .SYMMETRIC hist q 0 0).2]; decide),
    Outcome.bind_ok, hv, Outcome.bind_ok, hd]
  rfl

/-- **C68 is false of the code** for every segment reported diagonal: it is written with the keyword
of a diagonal matrix but with the values of a triangle, which denote no matrix at all. -/
theorem C68_segment_diagonal_false (s : DiscreteSegment) (ht : s.matrixType ≠ .FULL)
    (hd : s.isDiagonal = true) (q : Quantity) :
    ∃ c, s.toAster q = .ok c ∧ ∀ M, ¬ DenotesLine c M := by
  obtain ⟨v, hv, hu⟩ := C50_vector s q false
  rw [Bool.false_or] at hu
  refine ⟨⟨s.hasRotations, true, false, true, v⟩, ?_, ?_⟩
  · unfold DiscreteSegment.toAster
    rw [segment_isSymmetric ht, Outcome.bind_ok, hv, Outcome.bind_ok, hd]
    rfl
  · rintro M ⟨_, _, h, _⟩
    have := hu.length
    simp only [onNodes] at this h
    rw [h] at this
    revert this
    cases s.hasRotations <;> decide

/-- **C68 is false of the code** for every segment found unsymmetric: it is announced as unsymmetric
but only a triangle is written. -/
theorem C68_segment_unsymmetric_false (s : DiscreteSegment) (hs : s.isSymmetric = .ok false)
    (q : Quantity) :
    ∃ c, s.toAster q = .ok c ∧ ∀ M, ¬ DenotesLine c M := by
  obtain ⟨v, hv, hu⟩ := C50_vector s q false
  rw [Bool.false_or] at hu
  refine ⟨⟨s.hasRotations, s.isDiagonal, true, true, v⟩, ?_, ?_⟩
  · unfold DiscreteSegment.toAster
    rw [hs, Outcome.bind_ok, hv, Outcome.bind_ok]
    rfl
  · rintro M ⟨_, _, h⟩
    have hlen := hu.length
    simp only [onNodes] at hlen h
    split at h
    · rw [h.1] at hlen
      revert hlen
      cases s.hasRotations <;> decide
    · have := h.length
      rw [hlen] at this
      revert this
      cases s.hasRotations <;> decide

/-! ### structural segments -/

/-- The matrix of a connection of stiffness `S` between two nodes: the one of the energy
`½ (u₁ - u₂)ᵀ S (u₁ - u₂)`. -/
def coupled (S : Dof → Dof → Dbl) (x y : Fin 2 × Dof) : Dbl :=
  if x.1 = y.1 then S x.2 y.2 else - S x.2 y.2

theorem structural_hasRotations {p : StructuralSegment} (h : p.hasRotations = false) (q : Quantity) :
    (p.matrix q).hasRotations = false := by
  simp only [StructuralSegment.hasRotations, Bool.or_eq_false_iff] at h
  cases q
  · exact h.1.1
  · exact h.1.2
  · exact h.2

theorem structural_zero (t : MatrixType) (hist : List NodeStore) (q : Quantity) (r c : Dof)
    (h : ¬ r.position < dofCount (runStructural t hist).hasRotations ∨
      ¬ c.position < dofCount (runStructural t hist).hasRotations) :
    given t (about q hist) r c = 0 := by
  rw [← given_eq]
  have key : (runStructural t hist).hasRotations = false ∧
      (r.isRotation = true ∨ c.isRotation = true) := by
    rcases h with h | h
    · have := rotation_of_position h; exact ⟨this.1, Or.inl this.2⟩
    · have := rotation_of_position h; exact ⟨this.1, Or.inr this.2⟩
  have := structural_hasRotations key.1 q
  rw [(runStructural_matrix t hist q).1] at this
  exact hasRotations_false this r c key.2

theorem structural_supported (t : MatrixType) (hist : List NodeStore) (q : Quantity) :
    Supported (onNodes (dofCount (runStructural t hist).hasRotations))
      (coupled (given t (about q hist))) := by
  intro x y h
  have := structural_zero t hist q x.2 y.2 (by
    rcases h with h | h
    · exact Or.inl (onNodes_none h)
    · exact Or.inr (onNodes_none h))
  unfold coupled
  split <;> simp [this]

/-- **C68** For a structural segment of diagonal type the characteristic written for Code_Aster denotes
the given connection of its two nodes, for stiffness and damping. -/
theorem C68_structural (hist : List NodeStore) (q : Quantity) (hq : q ≠ .mass) :
    ∃ c, (runStructural .DIAGONAL hist).toAster q = .ok c ∧
      DenotesLine c (coupled (given .DIAGONAL (about q hist))) := by
  obtain ⟨h1, h2⟩ := DofMatrixSpec.C04_diagonal ((runStructural .DIAGONAL hist).matrix q)
    (false || (runStructural .DIAGONAL hist).hasRotations)
  have ho : DofMatrixSpec.order ((runStructural .DIAGONAL hist).matrix q)
      (runStructural .DIAGONAL hist).hasRotations =
      dofCount (runStructural .DIAGONAL hist).hasRotations := by
    unfold DofMatrixSpec.order dofCount
    cases h : (runStructural .DIAGONAL hist).hasRotations
    · rw [structural_hasRotations h]; rfl
    · rfl
  have hd : (runStructural .DIAGONAL hist).isDiagonal = true := by
    unfold StructuralSegment.isDiagonal
    rw [if_pos (runStructural_matrix .DIAGONAL hist q).2]
  have hs : (runStructural .DIAGONAL hist).isSymmetric = true := by
    unfold StructuralSegment.isSymmetric
    rw [(runStructural_matrix .DIAGONAL hist q).2]
    rfl
  simp only [Bool.false_or] at h1 h2
  rw [ho] at h1 h2
  refine ⟨⟨(runStructural .DIAGONAL hist).hasRotations, true, false, true,
    ((runStructural .DIAGONAL hist).matrix q).diagonal (runStructural .DIAGONAL hist).hasRotations⟩,
    ?_, rfl, structural_supported .DIAGONAL hist q, ?_⟩
  · unfold StructuralSegment.toAster StructuralSegment.asVector
    cases q
    · simp only [hd, if_true, Bool.false_or, Outcome.bind_ok, hs]; rfl
    · exact absurd rfl hq
    · simp only [hd, if_true, Bool.false_or, Outcome.bind_ok, hs]; rfl
  · refine ⟨h1, fun d => given .DIAGONAL (about q hist) d d, ?_, ?_⟩
    · intro d hd
      refine (h2 d hd).trans ?_
      rw [(runStructural_matrix .DIAGONAL hist q).1, given_eq]
    · funext x y
      obtain ⟨i, r⟩ := x
      obtain ⟨j, c⟩ := y
      by_cases hrc : r = c
      · subst hrc; simp [coupled, directional]
      · simp [coupled, directional, given, hrc]

/-- **C68 is false of the code** for the mass of every structural segment: writing it throws. -/
theorem C68_structural_mass_false (s : StructuralSegment) : s.toAster .mass = .throw := rfl

/-- **C68 is false of the code** for every structural segment of symmetric type with some stiffness:
the characteristic does not denote the connection of its nodes. -/
theorem C68_structural_symmetric_false (hist : List NodeStore) (r c : Dof)
    (hne : given .SYMMETRIC (about .stiffness hist) r c ≠ 0) :
    ∃ k, (runStructural .SYMMETRIC hist).toAster .stiffness = .ok k ∧
      ¬ DenotesLine k (coupled (given .SYMMETRIC (about .stiffness hist))) := by
  have hm := (runStructural_matrix .SYMMETRIC hist .stiffness).1
  have ht := (runStructural_matrix .SYMMETRIC hist .stiffness).2
  have hs : (runStructural .SYMMETRIC hist).isSymmetric = true := by
    unfold StructuralSegment.isSymmetric
    rw [ht]
    rfl
  have hr : r.position < dofCount (runStructural .SYMMETRIC hist).hasRotations :=
    Classical.byContradiction fun h => hne (structural_zero _ _ _ _ _ (Or.inl h))
  have hc : c.position < dofCount (runStructural .SYMMETRIC hist).hasRotations :=
    Classical.byContradiction fun h => hne (structural_zero _ _ _ _ _ (Or.inr h))
  cases hd : (runStructural .SYMMETRIC hist).isDiagonal
  · obtain ⟨v, hv, hu⟩ := loops_upper (dofCount (runStructural .SYMMETRIC hist).hasRotations)
      (dofCount_le _)
      (fun _ _ r c => ((runStructural .SYMMETRIC hist).matrix .stiffness).findComponent r c)
    refine ⟨⟨(runStructural .SYMMETRIC hist).hasRotations, false, false, true, v⟩, ?_, ?_⟩
    · have hv' : (runStructural .SYMMETRIC hist).asVector .stiffness false = .ok v := by
        unfold StructuralSegment.asVector
        rw [← hv]
        simp only [hd, hs, Bool.false_or, if_true]
        rfl
      unfold StructuralSegment.toAster
      rw [hv', Outcome.bind_ok, hd, hs]
      rfl
    · rintro ⟨_, _, h, _⟩
      have n1 : (onNodes (dofCount (runStructural .SYMMETRIC hist).hasRotations)).number (0, r) =
          some r.position := by simp [onNodes, hr]
      have n2 : (onNodes (dofCount (runStructural .SYMMETRIC hist).hasRotations)).number (1, c) =
          some (dofCount (runStructural .SYMMETRIC hist).hasRotations + c.position) := by
        simp [onNodes, hc]
      have e1 := h.entry _ _ _ _ n1 n2 (by omega)
      have e2 := hu.entry _ _ _ _ n1 n2 (by omega)
      simp only at e1 e2
      rw [e1, hm, given_eq] at e2
      simp only [coupled, Option.some.injEq] at e2
      rw [if_neg (by decide)] at e2
      apply hne
      linarith
  · have hd' := hd
    unfold StructuralSegment.isDiagonal at hd'
    rw [ht, if_neg (by decide), hm] at hd'
    simp only [Bool.and_eq_true, Bool.not_eq_true'] at hd'
    have hnd := hd'.1.1
    have : ¬ ∀ r c, r ≠ c → isZero ((DofMatrixSpec.run .SYMMETRIC
        (about .stiffness hist)).findComponent r c) = true := by
      rw [← DofMatrixSpec.C04_isDiagonal, hnd]
      simp
    push Not at this
    obtain ⟨r', c', hrc, hz⟩ := this
    refine ⟨⟨(runStructural .SYMMETRIC hist).hasRotations, true, false, true,
      ((runStructural .SYMMETRIC hist).matrix .stiffness).diagonal
        (runStructural .SYMMETRIC hist).hasRotations⟩, ?_, ?_⟩
    · unfold StructuralSegment.toAster StructuralSegment.asVector
      simp only [hd, if_true, Bool.false_or, Outcome.bind_ok, hs]
      rfl
    · rintro ⟨_, _, _, k, _, h⟩
      have := congrFun (congrFun h (0, r')) (0, c')
      simp only [coupled, directional, if_true, if_neg hrc] at this
      apply hz
      rw [given_eq, this]
      exact isZero_zero

-- hypotheses are met: a point, a segment, structural segments
example : (runPoint .FULL [⟨.stiffness, ⟨.DX, .DY, 3⟩⟩]).isSymmetric = false := by
  unfold DiscretePoint.isSymmetric
  rw [(runPoint_matrix _ _ .stiffness).1, (runPoint_matrix _ _ .stiffness).2]
  have : isZero 3 = false := by norm_num [isZero, tol]
  simp [about, DofMatrixSpec.run, DofMatrixSpec.step, DofMatrix.addComponent, DofMatrix.new,
    DofMatrix.isSymmetric, Map.set, Map.find, this]

example : (DiscreteSegment.new .DIAGONAL).matrixType ≠ .FULL ∧
    (DiscreteSegment.new .DIAGONAL).isDiagonal = true := ⟨by decide, rfl⟩

example : (runSegment .SYMMETRIC [⟨.stiffness, 0, 1, ⟨.DX, .DX, -5⟩⟩]).isDiagonal = false := by
  unfold DiscreteSegment.isDiagonal
  have : isZero (-5) = false := by norm_num [isZero, tol]
  simp [(runSegment_block _ _ _ _ _).1, (runSegment_block _ _ .stiffness 0 0).2, aboutBlock,
    DofMatrixSpec.run, DofMatrixSpec.step, DofMatrix.addComponent, DofMatrix.new,
    DiscreteSegment.blockType, DofMatrix.isZeroMatrix, Map.set, this]

example : given .SYMMETRIC (about .stiffness [⟨.stiffness, ⟨.DX, .DX, 3⟩⟩]) .DX .DX ≠ 0 := by
  simp [given, about, lastStored, accepted, sameEntry]

/-! ## C69: scalar springs -/

/-- The matrix of a spring of stiffness `k` between the dof `d` of the first node and the dof `e` of
the second: the one of the energy `½ k (u₁ d - u₂ e)²`. -/
def springMatrix (k : Dbl) (d e : Dof) (x y : Fin 2 × Dof) : Dbl :=
  let a (z : Fin 2 × Dof) : Dbl := if z = (0, d) then 1 else if z = (1, e) then -1 else 0
  k * a x * a y

/-- **C69 (partial)** What is written for a set of springs denotes springs of the given stiffness
between the two nodes, in all the directions the element has. -/
theorem C69_partial (s : ScalarSpring) (q : Quantity) :
    DenotesLine (s.toAster q)
      (directional fun d => if d.position < dofCount s.hasRotations then s.value q else 0) := by
  refine ⟨rfl, ?_, ?_⟩
  · intro x y h
    unfold directional
    by_cases hxy : x.2 = y.2
    · have : ¬ x.2.position < dofCount s.hasRotations := by
        rcases h with h | h
        · exact onNodes_none h
        · rw [hxy]; exact onNodes_none h
      simp [this]
    · simp [hxy]
  · refine ⟨by simp [ScalarSpring.toAster, ScalarSpring.asVector, dofCount], _, ?_, rfl⟩
    intro d hd
    simp only [ScalarSpring.toAster] at hd
    simp only [ScalarSpring.toAster, ScalarSpring.asVector, Bool.false_or, if_pos hd]
    rw [List.getElem?_replicate]
    exact if_pos hd

/-- **C69 is false of the code** for every spring of non zero stiffness, whatever dofs it connects:
what is written does not denote this spring. -/
theorem C69_false (s : ScalarSpring) (q : Quantity) (hk : s.value q ≠ 0) (d e : Dof) :
    ¬ DenotesLine (s.toAster q) (springMatrix (s.value q) d e) := by
  rintro ⟨_, _, _, k, h1, h2⟩
  have key : ∀ f : Dof, f.position < 3 → k f = s.value q := by
    intro f hf
    have hf' : f.position < dofCount s.hasRotations := by
      unfold dofCount; split <;> omega
    have := h1 f hf'
    simp only [ScalarSpring.toAster, ScalarSpring.asVector, Bool.false_or] at this
    rw [List.getElem?_replicate] at this
    have e : f.position < if s.hasRotations = true then 6 else 3 := hf'
    exact (Option.some.inj ((if_pos e).symm.trans this)).symm
  have hx := congrFun (congrFun h2 (0, .DX)) (0, .DX)
  have hy := congrFun (congrFun h2 (0, .DY)) (0, .DY)
  simp only [directional, springMatrix, if_true, key .DX (by decide), key .DY (by decide)] at hx hy
  cases d <;> simp at hx hy <;> first | exact hk hx.symm | exact hk hy.symm

-- the spring of a CELAS card between the translations along X
example : (⟨fun _ => 5, [(.DX, .DX)]⟩ : ScalarSpring).value .stiffness ≠ 0 := by norm_num

end Vega.DiscreteSpec
