import Verif.Dof.Matrix

/-!
# Properties of nodal matrices (C03, C04)
-/
namespace Vega.DofMatrixSpec
open DofMatrix

/-- One call `addComponent(r, c, v)`. -/
structure Store where
  r : Dof
  c : Dof
  v : Dbl

/-- The matrix after a call; a call that throws leaves the matrix alone and the
caller goes on. -/
def step (m : DofMatrix) (s : Store) : DofMatrix :=
  match m.addComponent s.r s.c s.v with
  | .ok m' => m'
  | _ => m

/-- The matrix after a whole history, starting from the empty matrix of type `t`. -/
def run (t : MatrixType) (hist : List Store) : DofMatrix :=
  hist.foldl step (DofMatrix.new t)

/-- Specification: two positions denote the same entry of a matrix of type `t`. -/
def sameEntry (t : MatrixType) (r c r' c' : Dof) : Prop :=
  (r = r' ∧ c = c') ∨ (t = .SYMMETRIC ∧ r = c' ∧ c = r')

/-- Specification: a diagonal matrix refuses non-zero values outside its diagonal. -/
def accepted (t : MatrixType) (s : Store) : Prop :=
  ¬ (t = .DIAGONAL ∧ s.r ≠ s.c ∧ isZero s.v = false)

instance : Decidable (sameEntry t r c r' c') := inferInstanceAs (Decidable (_ ∨ _))
instance : Decidable (accepted t s) := inferInstanceAs (Decidable (¬ _))

/-- Specification: the value of the last accepted store to the entry, 0 if none. -/
def lastStored (t : MatrixType) (hist : List Store) (r c : Dof) : Dbl :=
  hist.foldl (fun cur s => if accepted t s ∧ sameEntry t s.r s.c r c then s.v else cur) 0

/-! ### helper lemmas -/

theorem lt_irrefl (a : Dof) : a.lt a = false := by cases a <;> rfl
theorem lt_asymm (a b : Dof) (h : a.lt b = true) : b.lt a = false := by
  revert a b; decide +kernel
theorem lt_total (a b : Dof) (h : a.lt b = false) (h' : b.lt a = false) : a = b := by
  revert a b; decide +kernel

/-- The key under which position `(r,c)` is kept. -/
def key (t : MatrixType) (r c : Dof) : Dof × Dof :=
  if t = .SYMMETRIC ∧ c.lt r = true then (c, r) else (r, c)

theorem key_eq_iff (t : MatrixType) (r c r' c' : Dof) :
    key t r c = key t r' c' ↔ sameEntry t r c r' c' := by
  revert r c r' c'
  cases t <;> simp only [key, sameEntry] <;> decide +kernel

theorem addComponent_eq (m : DofMatrix) (r c : Dof) (v : Dbl) :
    m.addComponent r c v =
      if accepted m.matrixType ⟨r, c, v⟩ then
        .ok { m with componentByDofs := m.componentByDofs.set (key m.matrixType r c) v }
      else .throw := by
  unfold addComponent accepted key
  by_cases h : m.matrixType = .DIAGONAL ∧ r ≠ c ∧ isZero v = false
  · simp [h]
  · simp only [h, if_false, not_false_eq_true, if_true]
    split <;> rfl

theorem findComponent_eq (m : DofMatrix) (r c : Dof) :
    m.findComponent r c =
      if m.matrixType = .DIAGONAL ∧ r ≠ c then 0
      else (m.componentByDofs.find (key m.matrixType r c)).getD 0 := by
  unfold findComponent key
  by_cases h : m.matrixType = .DIAGONAL ∧ r ≠ c
  · simp [h]
  · simp only [h, if_false]
    by_cases h2 : m.matrixType = .SYMMETRIC ∧ c.lt r = true
    · simp only [h2, and_self, if_true]
      cases m.componentByDofs.find (c, r) <;> rfl
    · simp only [h2, if_false]
      cases m.componentByDofs.find (r, c) <;> rfl

theorem step_eq (m : DofMatrix) (s : Store) :
    step m s = if accepted m.matrixType s then
        { m with componentByDofs := m.componentByDofs.set (key m.matrixType s.r s.c) s.v }
      else m := by
  unfold step
  rw [addComponent_eq]
  by_cases h : accepted m.matrixType s
  · rw [if_pos h, if_pos h]
  · rw [if_neg h, if_neg h]

/-- What holds of every matrix a program can build. -/
structure Inv (m : DofMatrix) : Prop where
  wf : m.componentByDofs.WF
  sym : m.matrixType = .SYMMETRIC → ∀ k v, (k, v) ∈ m.componentByDofs → k.2.lt k.1 = false
  diag : m.matrixType = .DIAGONAL → ∀ k v, (k, v) ∈ m.componentByDofs → k.1 ≠ k.2 →
    isZero v = true

theorem inv_new (t : MatrixType) : Inv (DofMatrix.new t) :=
  ⟨Map.wf_nil, fun _ _ _ h => by simp [DofMatrix.new] at h,
    fun _ _ _ h => by simp [DofMatrix.new] at h⟩

theorem mem_set {κ α} [DecidableEq κ] {m : Map κ α} {k k' : κ} {a a' : α} (hw : m.WF)
    (h : (k', a') ∈ m.set k a) : (k' = k ∧ a' = a) ∨ (k', a') ∈ m := by
  rw [Map.mem_iff_find _ (Map.wf_set _ _ _ hw), Map.find_set] at h
  split at h
  · rename_i hk
    simp at h
    exact Or.inl ⟨hk.symm, h.symm⟩
  · exact Or.inr (Map.mem_of_find _ h)

theorem inv_addComponent {m m' : DofMatrix} {r c : Dof} {v : Dbl} (hi : Inv m)
    (h : m.addComponent r c v = .ok m') : Inv m' ∧ m'.matrixType = m.matrixType := by
  rw [addComponent_eq] at h
  by_cases ha : accepted m.matrixType ⟨r, c, v⟩
  · rw [if_pos ha] at h
    cases h
    refine ⟨⟨Map.wf_set _ _ _ hi.wf, ?_, ?_⟩, rfl⟩
    · intro ht k v' hm
      rcases mem_set hi.wf hm with ⟨rfl, rfl⟩ | hm
      · simp only at ht
        unfold key
        split
        · rename_i h2; exact lt_asymm _ _ h2.2
        · rename_i h2
          simp only [ht, true_and, Bool.not_eq_true] at h2
          exact h2
      · exact hi.sym ht k v' hm
    · intro ht k v' hm hne
      rcases mem_set hi.wf hm with ⟨rfl, rfl⟩ | hm
      · simp only at ht
        have hk : key m.matrixType r c = (r, c) := by simp [key, ht]
        rw [hk] at hne
        simp only [accepted, ht, true_and, not_and, Bool.not_eq_false] at ha
        exact ha hne
      · exact hi.diag ht k v' hm hne
  · rw [if_neg ha] at h
    cases h

/-- Every reachable matrix satisfies the invariant. -/
theorem inv_run (t : MatrixType) (hist : List Store) :
    Inv (run t hist) ∧ (run t hist).matrixType = t := by
  unfold run
  suffices H : ∀ (m : DofMatrix), Inv m → m.matrixType = t →
      Inv (hist.foldl step m) ∧ (hist.foldl step m).matrixType = t from H _ (inv_new t) rfl
  induction hist with
  | nil => intro m h1 h2; exact ⟨h1, h2⟩
  | cons s hist ih =>
    intro m h1 h2
    simp only [List.foldl_cons]
    apply ih
    · unfold step
      cases h : m.addComponent s.r s.c s.v with
      | ok m' => exact (inv_addComponent h1 h).1
      | _ => exact h1
    · unfold step
      cases h : m.addComponent s.r s.c s.v with
      | ok m' => exact ((inv_addComponent h1 h).2).trans h2
      | _ => exact h2

/-! ### C03 -/

/-- **C03** After any history of stores, an entry holds the value of the last accepted store
to it (0 if there was none). In a DIAGONAL matrix all entries off the diagonal read 0. -/
theorem C03_find_last_stored (t : MatrixType) (hist : List Store) (r c : Dof)
    (h : t = .DIAGONAL → r = c) :
    (run t hist).findComponent r c = lastStored t hist r c := by
  unfold run lastStored
  suffices H : ∀ (m : DofMatrix) (cur : Dbl), m.matrixType = t → m.findComponent r c = cur →
      (hist.foldl step m).findComponent r c =
      hist.foldl (fun cur s => if accepted t s ∧ sameEntry t s.r s.c r c then s.v else cur) cur by
    apply H _ _ rfl
    rw [findComponent_eq]
    split <;> simp [DofMatrix.new]
  induction hist with
  | nil => intro m cur _ h2; exact h2
  | cons s hist ih =>
    intro m cur h1 h2
    simp only [List.foldl_cons]
    have hnd : ¬ (m.matrixType = .DIAGONAL ∧ r ≠ c) := fun hc => hc.2 (h (h1 ▸ hc.1))
    rw [step_eq, h1]
    by_cases ha : accepted t s
    · rw [if_pos ha]
      apply ih
      · rfl
      · rw [findComponent_eq, if_neg hnd] at h2
        rw [findComponent_eq, if_neg (fun hc => hnd ⟨h1.trans hc.1, hc.2⟩)]
        simp only
        rw [Map.find_set]
        simp only [h1] at h2 ⊢
        by_cases he : sameEntry t s.r s.c r c
        · rw [if_pos ((key_eq_iff _ _ _ _ _).mpr he), if_pos ⟨ha, he⟩]; rfl
        · rw [if_neg (fun hk => he ((key_eq_iff _ _ _ _ _).mp hk)), if_neg (fun hc => he hc.2)]
          exact h2
    · rw [if_neg ha, if_neg (fun hc => ha hc.1)]
      exact ih m cur h1 h2

/-- **C03** a DIAGONAL matrix has zeros off its diagonal whatever was stored. -/
theorem C03_diagonal_off_diagonal_zero (hist : List Store) (r c : Dof) (h : r ≠ c) :
    (run .DIAGONAL hist).findComponent r c = 0 := by
  rw [findComponent_eq, if_pos ⟨(inv_run _ _).2, h⟩]

/-- **C03** a non-zero store off the diagonal of a DIAGONAL matrix is refused (it throws, so
the matrix is unchanged), every other store is accepted. -/
theorem C03_refused_iff (t : MatrixType) (hist : List Store) (s : Store) :
    ((run t hist).addComponent s.r s.c s.v = .throw ↔
      (t = .DIAGONAL ∧ s.r ≠ s.c ∧ isZero s.v = false)) ∧
    (¬ (t = .DIAGONAL ∧ s.r ≠ s.c ∧ isZero s.v = false) →
      ∃ m', (run t hist).addComponent s.r s.c s.v = .ok m') := by
  rw [addComponent_eq, (inv_run t hist).2]
  simp only [accepted]
  by_cases h : t = .DIAGONAL ∧ s.r ≠ s.c ∧ isZero s.v = false
  · simp only [h, and_self, not_true_eq_false, if_false, ne_eq, not_false_eq_true]
    simp
  · simp only [h, not_false_eq_true, if_true]
    refine ⟨⟨?_, fun hc => hc.elim⟩, fun _ => ⟨_, rfl⟩⟩
    intro hc
    cases hc

/-- **C03** symmetric matrices are symmetric. -/
theorem C03_symmetric (hist : List Store) (r c : Dof) :
    (run .SYMMETRIC hist).findComponent r c = (run .SYMMETRIC hist).findComponent c r := by
  rw [findComponent_eq, findComponent_eq, (inv_run _ _).2]
  have : key .SYMMETRIC r c = key .SYMMETRIC c r :=
    (key_eq_iff _ _ _ _ _).mpr (Or.inr ⟨rfl, rfl, rfl⟩)
  simp [this]

-- non-trivial history: overwriting through the mirrored position
example : (run .SYMMETRIC [⟨.DX, .DY, 3⟩, ⟨.RZ, .RZ, 1⟩, ⟨.DY, .DX, 5⟩]).findComponent .DX .DY = 5 := by
  rw [C03_find_last_stored _ _ _ _ (by simp)]
  have h (s : Store) : accepted .SYMMETRIC s := by simp [accepted]
  simp [lastStored, h, sameEntry]

example : (run .DIAGONAL [⟨.DX, .DX, 3⟩, ⟨.DX, .DY, 7⟩]).addComponent .DX .DY 7 = .throw := by
  apply ((C03_refused_iff _ _ ⟨.DX, .DY, 7⟩).1).mpr
  refine ⟨rfl, by decide, ?_⟩
  norm_num [isZero, tol]

/-! ### C04: exports -/

/-- The matrix order used by an export: 6 if rotations are requested or present, else 3. -/
def order (m : DofMatrix) (addRot : Bool) : Nat := if addRot || m.hasRotations then 6 else 3

theorem exportDofs_toList (m : DofMatrix) (addRot : Bool) :
    (m.exportDofs addRot).toList = Dof.all.take (order m addRot) := by
  unfold exportDofs order
  split <;> (rw [Dofs.toList_eq]; decide)

/-- **C04** `asColumnsVector` has n*n entries and entry (r,c) is at index c*n + r. -/
theorem C04_asColumnsVector (m : DofMatrix) (addRot : Bool) :
    (m.asColumnsVector addRot).length = order m addRot * order m addRot ∧
    ∀ r c : Dof, r.position < order m addRot → c.position < order m addRot →
      (m.asColumnsVector addRot)[c.position * order m addRot + r.position]? =
        some (m.findComponent r c) := by
  unfold asColumnsVector
  rw [exportDofs_toList]
  unfold order
  generalize m.findComponent = f
  split
  · constructor
    · simp [Dof.all]
    · intro r c _ _
      cases r <;> cases c <;> rfl
  · constructor
    · simp [Dof.all]
    · intro r c hr hc
      cases r <;> simp [Dof.position] at hr <;> cases c <;> simp [Dof.position] at hc <;> rfl

theorem exportDofs_size (m : DofMatrix) (addRot : Bool) :
    (m.exportDofs addRot).size = order m addRot := by
  unfold exportDofs order
  split <;> decide

/-- **C04** `asUpperTriangularColumnsVector` never throws, has n(n+1)/2 entries and entry
(r,c), r ≤ c, is at index c(c+1)/2 + r. -/
theorem C04_asUpperTriangularColumnsVector (m : DofMatrix) (addRot : Bool) :
    ∃ v, m.asUpperTriangularColumnsVector addRot = .ok v ∧
    v.length = order m addRot * (order m addRot + 1) / 2 ∧
    ∀ r c : Dof, r.position ≤ c.position → c.position < order m addRot →
      v[c.position * (c.position + 1) / 2 + r.position]? = some (m.findComponent r c) := by
  unfold asUpperTriangularColumnsVector
  rw [exportDofs_size]
  unfold order
  generalize m.findComponent = f
  split
  · refine ⟨[f .DX .DX, f .DX .DY, f .DY .DY, f .DX .DZ, f .DY .DZ, f .DZ .DZ,
      f .DX .RX, f .DY .RX, f .DZ .RX, f .RX .RX,
      f .DX .RY, f .DY .RY, f .DZ .RY, f .RX .RY, f .RY .RY,
      f .DX .RZ, f .DY .RZ, f .DZ .RZ, f .RX .RZ, f .RY .RZ, f .RZ .RZ], ?_, rfl, ?_⟩
    · simp [List.range_succ, Dof.findByPosition]
    intro r c hr _
    cases c <;> cases r <;> first | rfl | (simp [Dof.position] at hr)
  · refine ⟨[f .DX .DX, f .DX .DY, f .DY .DY, f .DX .DZ, f .DY .DZ, f .DZ .DZ], rfl, rfl, ?_⟩
    intro r c hr hc
    cases c <;> simp [Dof.position] at hc <;> cases r <;>
      first | rfl | (simp [Dof.position] at hr)

/-- **C04** `diagonal` lists the diagonal entries in order. -/
theorem C04_diagonal (m : DofMatrix) (addRot : Bool) :
    (m.diagonal addRot).length = order m addRot ∧
    ∀ d : Dof, d.position < order m addRot →
      (m.diagonal addRot)[d.position]? = some (m.findComponent d d) := by
  unfold diagonal
  rw [exportDofs_toList]
  unfold order
  generalize m.findComponent = f
  split
  · exact ⟨by simp [Dof.all], fun d _ => by cases d <;> rfl⟩
  · exact ⟨by simp [Dof.all], fun d hd => by cases d <;> first | rfl | simp [Dof.position] at hd⟩

/-- `hasRotations` is about what was stored: some accepted store touches a rotation. -/
theorem C04_hasRotations (t : MatrixType) (hist : List Store) :
    (run t hist).hasRotations = true ↔
      ∃ s ∈ hist, accepted t s ∧ (s.r.isRotation = true ∨ s.c.isRotation = true) := by
  have hany : ∀ m : DofMatrix, m.hasRotations = true ↔
      ∃ k ∈ m.componentByDofs.keys, k.1.isRotation = true ∨ k.2.isRotation = true := by
    intro m
    simp only [hasRotations, List.any_eq_true, Bool.or_eq_true, Map.keys, List.mem_map]
    constructor
    · rintro ⟨x, hx, h⟩; exact ⟨x.1, ⟨x, hx, rfl⟩, h⟩
    · rintro ⟨k, ⟨x, hx, rfl⟩, h⟩; exact ⟨x, hx, h⟩
  unfold run
  suffices H : ∀ (m : DofMatrix), m.matrixType = t →
      ((hist.foldl step m).hasRotations = true ↔ m.hasRotations = true ∨
      ∃ s ∈ hist, accepted t s ∧ (s.r.isRotation = true ∨ s.c.isRotation = true)) by
    rw [H _ rfl]
    simp [DofMatrix.new, hasRotations]
  induction hist with
  | nil => intro m _; simp
  | cons s hist ih =>
    intro m h1
    simp only [List.foldl_cons]
    rw [step_eq, h1]
    by_cases ha : accepted t s
    · rw [if_pos ha, ih _ rfl, hany, hany]
      simp only [List.mem_cons, exists_eq_or_imp]
      rw [Map.keys_set]
      have hrot : ∀ k, k = key m.matrixType s.r s.c → ((k.1.isRotation = true ∨ k.2.isRotation = true) ↔
          (s.r.isRotation = true ∨ s.c.isRotation = true)) := by
        rintro k rfl
        unfold key
        split
        · exact or_comm
        · rfl
      rw [← h1]
      by_cases hk : key m.matrixType s.r s.c ∈ m.componentByDofs.keys
      · rw [if_pos hk]
        constructor
        · rintro (h | h)
          · exact Or.inl h
          · exact Or.inr (Or.inr (h1 ▸ h))
        · rintro (h | h | h)
          · exact Or.inl h
          · exact Or.inl ⟨_, hk, (hrot _ rfl).mpr h.2⟩
          · exact Or.inr (h1 ▸ h)
      · rw [if_neg hk]
        simp only [List.mem_append, List.mem_singleton]
        constructor
        · rintro (⟨k, hk | hk, h⟩ | h)
          · exact Or.inl ⟨k, hk, h⟩
          · exact Or.inr (Or.inl ⟨h1 ▸ ha, (hrot k hk).mp h⟩)
          · exact Or.inr (Or.inr (h1 ▸ h))
        · rintro (⟨k, hk, h⟩ | h | h)
          · exact Or.inl ⟨k, Or.inl hk, h⟩
          · exact Or.inl ⟨_, Or.inr rfl, (hrot _ rfl).mpr h.2⟩
          · exact Or.inr (h1 ▸ h)
    · rw [if_neg ha, ih m h1]
      simp only [List.mem_cons, exists_eq_or_imp]
      constructor
      · rintro (h | h)
        · exact Or.inl h
        · exact Or.inr (Or.inr h)
      · rintro (h | h | h)
        · exact Or.inl h
        · exact absurd h.1 ha
        · exact Or.inr h

/-- Storing the entries of a well-formed map under distinct new keys. -/
theorem find_foldl_set {κ : Type} {α : Type} [DecidableEq κ] (σ : κ → κ) (l : Map κ α)
    (acc : Map κ α) (hw : l.WF)
    (hinj : ∀ k ∈ l.keys, ∀ k' ∈ l.keys, σ k = σ k' → k = k') :
    (∀ k ∈ l.keys, (l.foldl (fun acc kv => acc.set (σ kv.1) kv.2) acc).find (σ k) = l.find k) ∧
    (∀ k', (∀ k ∈ l.keys, σ k ≠ k') →
      (l.foldl (fun acc kv => acc.set (σ kv.1) kv.2) acc).find k' = acc.find k') := by
  induction l generalizing acc with
  | nil => simp
  | cons x l ih =>
    obtain ⟨kx, ax⟩ := x
    have hw' : Map.WF l := (List.nodup_cons.mp hw).2
    have hx : kx ∉ Map.keys l := (List.nodup_cons.mp hw).1
    obtain ⟨ih1, ih2⟩ := ih (acc.set (σ kx) ax) hw'
      (fun k hk k' hk' => hinj k (List.mem_cons_of_mem _ hk) k' (List.mem_cons_of_mem _ hk'))
    simp only [List.foldl_cons]
    constructor
    · intro k hk
      simp only [Map.keys_cons, List.mem_cons] at hk
      simp only [Map.find]
      by_cases he : kx = k
      · subst he
        rw [if_pos rfl, ih2, Map.find_set_self]
        intro k' hk' heq
        have := hinj k' (List.mem_cons_of_mem _ hk') kx (by simp) heq
        subst this
        exact hx hk'
      · rw [if_neg he]
        rcases hk with hk | hk
        · exact absurd hk.symm he
        · exact ih1 k hk
    · intro k' hk'
      rw [ih2 k' (fun k hk => hk' k (by simp [hk]))]
      exact Map.find_set_ne _ _ (hk' kx (by simp))

/-- `transposed` of a reachable matrix: the entries are moved one by one. -/
theorem transposed_eq (m : DofMatrix) (hi : Inv m) :
    m.transposed = .ok ⟨m.matrixType,
      m.componentByDofs.foldl (fun acc kv => acc.set (key m.matrixType kv.1.2 kv.1.1) kv.2) []⟩ := by
  unfold transposed DofMatrix.new
  suffices H : ∀ (l acc : Map (Dof × Dof) Dbl),
      (∀ k v, (k, v) ∈ l → accepted m.matrixType ⟨k.2, k.1, v⟩) →
      (l.foldlM (init := (⟨m.matrixType, acc⟩ : DofMatrix)) fun t kv =>
        t.addComponent kv.1.2 kv.1.1 kv.2) =
      Outcome.ok ⟨m.matrixType, l.foldl (fun acc kv => acc.set (key m.matrixType kv.1.2 kv.1.1) kv.2) acc⟩ by
    apply H
    intro k v hm hc
    obtain ⟨h1, h2, h3⟩ := hc
    have := hi.diag h1 k v hm (fun e => h2 e.symm)
    rw [this] at h3
    cases h3
  intro l
  induction l with
  | nil => intro acc _; rfl
  | cons x l ih =>
    intro acc hacc
    simp only [List.foldlM_cons, List.foldl_cons]
    rw [addComponent_eq, if_pos (hacc _ _ (by simp))]
    simp only [Outcome.bind_ok]
    exact ih _ (fun k v hm => hacc k v (by simp [hm]))

/-- **C04** transposing a matrix built by any history exchanges rows and columns. -/
theorem C04_transposed (t : MatrixType) (hist : List Store) :
    ∃ m', (run t hist).transposed = .ok m' ∧
      ∀ r c, m'.findComponent r c = (run t hist).findComponent c r := by
  obtain ⟨hi, ht⟩ := inv_run t hist
  generalize run t hist = m at *
  refine ⟨_, transposed_eq m hi, ?_⟩
  intro r c
  have hinj : ∀ k ∈ m.componentByDofs.keys, ∀ k' ∈ m.componentByDofs.keys,
      key m.matrixType k.2 k.1 = key m.matrixType k'.2 k'.1 → k = k' := by
    intro k hk k' hk' he
    rcases (key_eq_iff _ _ _ _ _).mp he with ⟨h1, h2⟩ | ⟨h0, h1, h2⟩
    · exact Prod.ext h2 h1
    · obtain ⟨v, hv⟩ := (Map.mem_keys_iff _ _).mp hk
      obtain ⟨v', hv'⟩ := (Map.mem_keys_iff _ _).mp hk'
      have e1 := hi.sym h0 k v (Map.mem_of_find _ hv)
      have e2 := hi.sym h0 k' v' (Map.mem_of_find _ hv')
      rw [h1, h2] at e1
      have := lt_total _ _ e1 e2
      exact Prod.ext (h2.trans this.symm) (h1.trans this)
  obtain ⟨h1, h2⟩ := find_foldl_set (fun k : Dof × Dof => key m.matrixType k.2 k.1)
    m.componentByDofs [] hi.wf hinj
  rw [findComponent_eq, findComponent_eq]
  by_cases hd : m.matrixType = .DIAGONAL ∧ r ≠ c
  · rw [if_pos hd, if_pos ⟨hd.1, fun e => hd.2 e.symm⟩]
  · rw [if_neg hd, if_neg (fun hc => hd ⟨hc.1, fun e => hc.2 e.symm⟩)]
    congr 1
    -- the key of (r,c) in the transposed matrix is the image of the key of (c,r)
    have hkey : key m.matrixType r c =
        key m.matrixType (key m.matrixType c r).2 (key m.matrixType c r).1 := by
      rw [key_eq_iff]
      unfold key
      split
      · rename_i h; exact Or.inr ⟨h.1, rfl, rfl⟩
      · exact Or.inl ⟨rfl, rfl⟩
    by_cases hk : key m.matrixType c r ∈ m.componentByDofs.keys
    · have := h1 _ hk
      rw [← hkey] at this
      exact this
    · rw [(Map.find_eq_none_iff _ _).mpr hk]
      rw [h2 (key m.matrixType r c)]
      · rfl
      · intro k hkm he
        apply hk
        -- k is stored and its image is key (r,c), hence k = key (c,r)
        have hkk : key m.matrixType k.1 k.2 = k := by
          unfold key
          split
          · rename_i h
            obtain ⟨v, hv⟩ := (Map.mem_keys_iff _ _).mp hkm
            have := hi.sym h.1 k v (Map.mem_of_find _ hv)
            rw [this] at h
            exact absurd h.2 (by simp)
          · rfl
        have hs : sameEntry m.matrixType k.1 k.2 c r := by
          rcases (key_eq_iff _ _ _ _ _).mp he with ⟨a, b⟩ | ⟨z, a, b⟩
          · exact Or.inl ⟨b, a⟩
          · exact Or.inr ⟨z, b, a⟩
        rw [← (key_eq_iff _ _ _ _ _).mpr hs, hkk]
        exact hkm

/-- **C04** transposing twice gives back every entry. -/
theorem C04_transposed_involutive (t : MatrixType) (hist : List Store) :
    ∃ m' m'', (run t hist).transposed = .ok m' ∧ m'.transposed = .ok m'' ∧
      ∀ r c, m''.findComponent r c = (run t hist).findComponent r c := by
  -- the transposed matrix is itself built by a history
  obtain ⟨m', h1, h2⟩ := C04_transposed t hist
  obtain ⟨hi, ht⟩ := inv_run t hist
  have hm' : m' = run t ((run t hist).componentByDofs.map fun kv => ⟨kv.1.2, kv.1.1, kv.2⟩) := by
    have heq := transposed_eq _ hi
    rw [h1] at heq
    cases heq
    unfold run
    rw [List.foldl_map]
    rw [← run, ht]
    suffices H : ∀ (l acc : Map (Dof × Dof) Dbl),
        (∀ k v, (k, v) ∈ l → accepted t ⟨k.2, k.1, v⟩) →
        (⟨t, l.foldl (fun acc kv => acc.set (key t kv.1.2 kv.1.1) kv.2) acc⟩ : DofMatrix) =
        l.foldl (fun m kv => match m.addComponent kv.1.2 kv.1.1 kv.2 with
          | .ok m' => m'
          | _ => m) ⟨t, acc⟩ by
      apply H
      intro k v hm hc
      obtain ⟨e1, e2, e3⟩ := hc
      have := hi.diag (ht.trans e1) k v hm (fun e => e2 e.symm)
      rw [this] at e3
      cases e3
    intro l
    induction l with
    | nil => intro acc _; rfl
    | cons x l ih =>
      intro acc hacc
      simp only [List.foldl_cons]
      rw [addComponent_eq, if_pos (hacc _ _ (by simp))]
      exact ih _ (fun k v hm => hacc k v (by simp [hm]))
  obtain ⟨m'', h3, h4⟩ := C04_transposed t ((run t hist).componentByDofs.map fun kv => ⟨kv.1.2, kv.1.1, kv.2⟩)
  refine ⟨m', m'', h1, ?_, ?_⟩
  · rw [hm']; exact h3
  · intro r c
    rw [h4, ← hm', h2]

/-- **C04** `isDiagonal` answers whether all off-diagonal entries are zero (up to the
tolerance of `is_zero`). -/
theorem C04_isDiagonal (t : MatrixType) (hist : List Store) :
    (run t hist).isDiagonal = true ↔
      ∀ r c, r ≠ c → isZero ((run t hist).findComponent r c) = true := by
  obtain ⟨hi, ht⟩ := inv_run t hist
  generalize run t hist = m at *
  unfold isDiagonal
  by_cases hd : m.matrixType = .DIAGONAL
  · rw [if_pos hd]
    simp only [true_iff]
    intro r c hne
    rw [findComponent_eq, if_pos ⟨hd, hne⟩, isZero_zero]
  · rw [if_neg hd]
    simp only [List.all_eq_true, Bool.not_eq_true', Bool.and_eq_false_imp, decide_eq_true_eq,
      Bool.not_eq_false']
    constructor
    · intro h r c hne
      rw [findComponent_eq, if_neg (fun hc => hd hc.1)]
      cases hf : m.componentByDofs.find (key m.matrixType r c) with
      | none => simp
      | some v =>
        have := h (key m.matrixType r c, v) (Map.mem_of_find _ hf)
        simp only at this
        apply this
        unfold key
        split
        · exact fun e => hne e.symm
        · exact hne
    · rintro h ⟨k, v⟩ hm hne
      simp only at hne ⊢
      have h2 := h k.1 k.2 hne
      rw [findComponent_eq, if_neg (fun hc => hd hc.1)] at h2
      have hkk : key m.matrixType k.1 k.2 = k := by
        unfold key
        split
        · rename_i hs
          have := hi.sym hs.1 k v hm
          rw [this] at hs
          exact absurd hs.2 (by simp)
        · rfl
      rw [hkk, (Map.mem_iff_find _ hi.wf _ _).mp hm] at h2
      exact h2

/-- **C04** `isSymmetric` answers whether entries (r,c) and (c,r) are equal (up to the
tolerance of `is_equal`). -/
theorem C04_isSymmetric (t : MatrixType) (hist : List Store) :
    (run t hist).isSymmetric = true ↔
      ∀ r c, isEqual ((run t hist).findComponent r c) ((run t hist).findComponent c r) = true := by
  cases t with
  | SYMMETRIC =>
    have ht := (inv_run .SYMMETRIC hist).2
    simp only [isSymmetric, ht, if_true, true_iff]
    intro r c
    rw [C03_symmetric, isEqual_self]
  | DIAGONAL =>
    have ht := (inv_run .DIAGONAL hist).2
    simp only [isSymmetric, ht, if_true, reduceCtorEq, if_false, true_iff]
    intro r c
    by_cases h : r = c
    · rw [h, isEqual_self]
    · rw [C03_diagonal_off_diagonal_zero _ _ _ h,
        C03_diagonal_off_diagonal_zero _ _ _ (fun e => h e.symm), isEqual_self]
  | FULL =>
    obtain ⟨hi, ht⟩ := inv_run .FULL hist
    generalize run .FULL hist = m at *
    have hns : ¬ m.matrixType = .SYMMETRIC := by rw [ht]; decide
    have hnd : ¬ m.matrixType = .DIAGONAL := by rw [ht]; decide
    have hfind : ∀ r c, m.findComponent r c = (m.componentByDofs.find (r, c)).getD 0 := by
      intro r c
      rw [findComponent_eq, if_neg (fun hc => hnd hc.1)]
      simp [key, ht]
    simp only [isSymmetric, hns, hnd, if_false, List.all_eq_true]
    constructor
    · intro h r c
      rw [hfind, hfind]
      cases h1 : m.componentByDofs.find (r, c) with
      | some v =>
        have := h _ (Map.mem_of_find _ h1)
        simp only at this
        cases h2 : m.componentByDofs.find (c, r) with
        | some v2 => rw [h2] at this; exact this
        | none => rw [h2] at this; simpa [isEqual_zero_right] using this
      | none =>
        cases h2 : m.componentByDofs.find (c, r) with
        | some v2 =>
          have := h _ (Map.mem_of_find _ h2)
          simp only [h1] at this
          simpa [isEqual_comm 0, isEqual_zero_right] using this
        | none => simp
    · rintro h ⟨k, v⟩ hm
      have h1 := (Map.mem_iff_find _ hi.wf _ _).mp hm
      have := h k.1 k.2
      rw [hfind, hfind, h1] at this
      simp only
      cases h2 : m.componentByDofs.find (k.2, k.1) with
      | some v2 => rw [h2] at this; exact this
      | none => rw [h2] at this; simpa [isEqual_zero_right] using this

/-- `isEqual` is undefined on two matrices a program can build: same number of stored
components, a stored zero in the first that the second lacks. -/
theorem C04_isEqual_undefined :
    (run .FULL [⟨.DX, .DX, 0⟩]).isEqualTo (run .FULL [⟨.DY, .DY, 1⟩]) = .ub := by
  have h1 : run .FULL [⟨.DX, .DX, 0⟩] = ⟨.FULL, [((.DX, .DX), 0)]⟩ := by
    simp [run, step, addComponent, DofMatrix.new, Map.set]
  have h2 : run .FULL [⟨.DY, .DY, 1⟩] = ⟨.FULL, [((.DY, .DY), 1)]⟩ := by
    simp [run, step, addComponent, DofMatrix.new, Map.set]
  rw [h1, h2]
  simp [isEqualTo, isEqualLoop, isEqualStep, Map.find]

/-- Where the two matrices store the same components `isEqual` is defined and compares them
all. -/
theorem C04_isEqual_defined (m other : DofMatrix)
    (h : ∀ k, k ∈ m.componentByDofs.keys → k ∈ other.componentByDofs.keys) :
    ∃ b, m.isEqualTo other = .ok b ∧
      (b = true ↔ m.componentByDofs.length = other.componentByDofs.length ∧
        ∀ k v, (k, v) ∈ m.componentByDofs → ∃ v', other.componentByDofs.find k = some v' ∧
          isEqual v v' = true) := by
  unfold isEqualTo
  by_cases hl : m.componentByDofs.length = other.componentByDofs.length
  · rw [if_neg (not_not.mpr hl)]
    simp only [hl, true_and]
    clear hl
    generalize m.componentByDofs = l at h ⊢
    induction l with
    | nil => exact ⟨true, rfl, by simp⟩
    | cons x l ih =>
      obtain ⟨k, v⟩ := x
      obtain ⟨v', hv'⟩ := (Map.mem_keys_iff _ _).mp (h k (by simp))
      obtain ⟨b, hb, hiff⟩ := ih (fun k hk => h k (by simp [hk]))
      simp only [isEqualLoop, isEqualStep, hv', Outcome.bind_ok]
      by_cases he : isEqual v v' = true
      · rw [if_pos he]
        refine ⟨b, hb, ?_⟩
        rw [hiff]
        constructor
        · intro hall k2 v2 hm
          rcases List.mem_cons.mp hm with hm | hm
          · cases hm; exact ⟨v', hv', he⟩
          · exact hall k2 v2 hm
        · intro hall k2 v2 hm
          exact hall k2 v2 (by simp [hm])
      · rw [if_neg he]
        refine ⟨false, rfl, ?_⟩
        simp only [Bool.false_eq_true, false_iff]
        intro hall
        obtain ⟨w, hw, hew⟩ := hall k v (by simp)
        rw [hv'] at hw
        cases hw
        exact he hew
  · rw [if_pos hl]
    exact ⟨false, rfl, by simp [hl]⟩

end Vega.DofMatrixSpec
