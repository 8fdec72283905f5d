import Verif.Constraint.LmpcProps

/-!
# Rigid constraints written as linear relations (C36)
-/
namespace Vega.RigidSpec
open QuasiRigid

/-- Specification: displacements and rotations satisfy a linear relation. -/
def Holds (u : Nat → Dof → Dbl) (l : Lmpc) : Prop :=
  (l.nodePositions.map fun p =>
    (Dof.all.map fun d => (l.getDoFCoefsForNode p).getValue d * u p d).sum).sum = l.coefImpo

/-- Specification: the translation of the point `s` carried along by the master `m`, which moves by
`um` (three translations and the three components of a small rotation): `u + θ × (s - m)`. -/
def carried (m s : RigidNode) (um : Dof → Dbl) : Dof → Dbl
  | .DX => um .DX + (um .RY * (s.z - m.z) - um .RZ * (s.y - m.y))
  | .DY => um .DY + (um .RZ * (s.x - m.x) - um .RX * (s.z - m.z))
  | .DZ => um .DZ + (um .RX * (s.y - m.y) - um .RY * (s.x - m.x))
  | d => um d

theorem holds_relation (u : Nat → Dof → Dbl) (m s : Nat) (h : s ≠ m) (cm cs : DofCoefs) :
    Holds u (relation m s cm cs) ↔
      (Dof.all.map fun d => cm.getValue d * u m d).sum +
        (Dof.all.map fun d => cs.getValue d * u s d).sum = 0 := by
  have h' : m ≠ s := fun hc => h hc.symm
  simp [Holds, relation, Lmpc.participate, Lmpc.new, Lmpc.nodePositions, Lmpc.getDoFCoefsForNode,
    Map.find, Map.set, Map.keys, h, h']

theorem holds_written (u : Nat → Dof → Dbl) (b : Bool) (l : Lmpc) :
    (∀ k ∈ written b l, Holds u k) ↔ (b = true → Holds u l) := by
  unfold written
  cases b <;> simp

theorem sum_ofValues (u : Dof → Dbl) (a b c d e f : Dbl) :
    (Dof.all.map fun x => (DofCoefs.ofValues a b c d e f).getValue x * u x).sum =
      a * u .DX + b * u .DY + c * u .DZ + d * u .RX + e * u .RY + f * u .RZ := by
  simp [Dof.all, DofCoefs.ofValues, DofCoefs.getValue]
  ring

theorem holds_rot (u : Nat → Dof → Dbl) (m s : Nat) (h : s ≠ m) (a b c a' b' c' : Dbl)  :
    Holds u (relation m s (.ofValues 0 0 0 a b c) (.ofValues 0 0 0 a' b' c')) ↔
      a * u m .RX + b * u m .RY + c * u m .RZ + (a' * u s .RX + b' * u s .RY + c' * u s .RZ) = 0 := by
  rw [holds_relation u m s h, sum_ofValues, sum_ofValues]
  constructor <;> intro h <;> linarith

theorem holds_DX (u : Nat → Dof → Dbl) (m s : Nat) (h : s ≠ m) (M S : RigidNode) (D : Dofs)
    (h0 : D.contains .RY = false → D.contains .RZ = false →
      u m .RY * (S.z - M.z) - u m .RZ * (S.y - M.y) = 0) :
    Holds u (relDX m s (M.x - S.x) (M.y - S.y) (M.z - S.z) D) ↔ u s .DX = carried M S (u m) .DX := by
  unfold relDX carried
  split
  · rw [holds_relation u m s h, sum_ofValues, sum_ofValues]
    constructor <;> intro h <;> linarith
  · rename_i hc
    simp only [Bool.or_eq_true, not_or, Bool.not_eq_true] at hc
    rw [holds_relation u m s h, sum_ofValues, sum_ofValues, h0 hc.1 hc.2]
    constructor <;> intro h <;> linarith

theorem holds_DY (u : Nat → Dof → Dbl) (m s : Nat) (h : s ≠ m) (M S : RigidNode) (D : Dofs)
    (h0 : D.contains .RX = false → D.contains .RZ = false →
      u m .RZ * (S.x - M.x) - u m .RX * (S.z - M.z) = 0) :
    Holds u (relDY m s (M.x - S.x) (M.y - S.y) (M.z - S.z) D) ↔ u s .DY = carried M S (u m) .DY := by
  unfold relDY carried
  split
  · rw [holds_relation u m s h, sum_ofValues, sum_ofValues]
    constructor <;> intro h <;> linarith
  · rename_i hc
    simp only [Bool.or_eq_true, not_or, Bool.not_eq_true] at hc
    rw [holds_relation u m s h, sum_ofValues, sum_ofValues, h0 hc.1 hc.2]
    constructor <;> intro h <;> linarith

theorem holds_DZ (u : Nat → Dof → Dbl) (m s : Nat) (h : s ≠ m) (M S : RigidNode) (D : Dofs)
    (h0 : D.contains .RX = false → D.contains .RY = false →
      u m .RX * (S.y - M.y) - u m .RY * (S.x - M.x) = 0) :
    Holds u (relDZ m s (M.x - S.x) (M.y - S.y) (M.z - S.z) D) ↔ u s .DZ = carried M S (u m) .DZ := by
  unfold relDZ carried
  split
  · rw [holds_relation u m s h, sum_ofValues, sum_ofValues]
    constructor <;> intro h <;> linarith
  · rename_i hc
    simp only [Bool.or_eq_true, not_or, Bool.not_eq_true] at hc
    rw [holds_relation u m s h, sum_ofValues, sum_ofValues, h0 hc.1 hc.2]
    constructor <;> intro h <;> linarith

/-- The rotations that the master is not given do not move the slave. -/
structure NoLever (M S : RigidNode) (um : Dof → Dbl) (D : Dofs) : Prop where
  x : D.contains .RY = false → D.contains .RZ = false →
    um .RY * (S.z - M.z) - um .RZ * (S.y - M.y) = 0
  y : D.contains .RX = false → D.contains .RZ = false →
    um .RZ * (S.x - M.x) - um .RX * (S.z - M.z) = 0
  z : D.contains .RX = false → D.contains .RY = false →
    um .RX * (S.y - M.y) - um .RY * (S.x - M.x) = 0

theorem holds_slave (node : Nat → RigidNode) (q : QuasiRigid) (u : Nat → Dof → Dbl) (D : Dofs) (s : Nat)
    (hs : s ≠ q.master) (h0 : NoLever (node q.master) (node s) (u q.master) D) :
    (∀ l ∈ slaveRelations node q D s, Holds u l) ↔
      (∀ d, d.isTranslation = true → q.dofs.contains d = true →
        u s d = carried (node q.master) (node s) (u q.master) d) ∧
      (∀ d, d.isRotation = true → q.dofs.contains d = true → D.contains d = true →
        u s d = u q.master d) := by
  have happ : ∀ a b : List Lmpc, (∀ l ∈ a ++ b, Holds u l) ↔
      (∀ l ∈ a, Holds u l) ∧ ∀ l ∈ b, Holds u l := by
    intro a b
    simp only [List.mem_append]
    constructor
    · intro h; exact ⟨fun l hl => h l (Or.inl hl), fun l hl => h l (Or.inr hl)⟩
    · rintro ⟨h, h'⟩ l (hl | hl)
      · exact h l hl
      · exact h' l hl
  unfold slaveRelations
  simp only [happ, holds_written]
  rw [holds_DX u _ s hs _ _ D h0.x, holds_DY u _ s hs _ _ D h0.y, holds_DZ u _ s hs _ _ D h0.z,
    holds_rot u _ s hs, holds_rot u _ s hs, holds_rot u _ s hs]
  have r1 : (1 * u q.master .RX + 0 * u q.master .RY + 0 * u q.master .RZ +
      (-1 * u s .RX + 0 * u s .RY + 0 * u s .RZ) = 0) ↔ u s .RX = u q.master .RX := by
    constructor <;> intro h <;> linarith
  have r2 : (0 * u q.master .RX + 1 * u q.master .RY + 0 * u q.master .RZ +
      (0 * u s .RX + -1 * u s .RY + 0 * u s .RZ) = 0) ↔ u s .RY = u q.master .RY := by
    constructor <;> intro h <;> linarith
  have r3 : (0 * u q.master .RX + 0 * u q.master .RY + 1 * u q.master .RZ +
      (0 * u s .RX + 0 * u s .RY + -1 * u s .RZ) = 0) ↔ u s .RZ = u q.master .RZ := by
    constructor <;> intro h <;> linarith
  rw [r1, r2, r3]
  simp only [Bool.and_eq_true, and_imp]
  constructor
  · rintro ⟨⟨⟨⟨⟨h1, h2⟩, h3⟩, h4⟩, h5⟩, h6⟩
    constructor
    · intro d hd hq
      cases d <;> first | exact h1 hq | exact h2 hq | exact h3 hq | cases hd
    · intro d hd hq hD
      cases d <;> first | exact h4 hq hD | exact h5 hq hD | exact h6 hq hD | cases hd
  · rintro ⟨h, h'⟩
    exact ⟨⟨⟨⟨⟨h .DX rfl, h .DY rfl⟩, h .DZ rfl⟩, h' .RX rfl⟩, h' .RY rfl⟩, h' .RZ rfl⟩

theorem contains_all (d : Dof) : Dofs.ALL_DOFS.contains d = true := by revert d; decide

theorem addLever_mono (m s : RigidNode) (D : Dofs) (d : Dof) (h : D.contains d = true) :
    (addLever m s D).contains d = true := by
  unfold addLever
  simp only
  split <;> split <;> split <;> simp [Dofs.contains_union, h]

theorem masterLoop_mono (node : Nat → RigidNode) (m : RigidNode) (ss : List Nat) (D : Dofs) (d : Dof)
    (h : D.contains d = true) : (masterLoop node m ss D).contains d = true := by
  induction ss generalizing D with
  | nil => exact h
  | cons s ss ih =>
    unfold masterLoop
    simp only
    split
    · exact contains_all d
    · exact ih _ (addLever_mono _ _ _ _ (by simp [Dofs.contains_union, h]))

theorem masterLoop_mem (node : Nat → RigidNode) (m : RigidNode) (ss : List Nat) (D : Dofs) (d : Dof)
    (s : Nat) (hs : s ∈ ss)
    (h : ∀ E : Dofs, (addLever m (node s) (E.union (node s).dofs)).contains d = true) :
    (masterLoop node m ss D).contains d = true := by
  induction ss generalizing D with
  | nil => cases hs
  | cons t ss ih =>
    unfold masterLoop
    simp only
    split
    · exact contains_all d
    · rcases List.mem_cons.mp hs with rfl | hs
      · exact masterLoop_mono _ _ _ _ _ (h D)
      · exact ih _ hs

/-- The rotations an offset requires. -/
theorem lever_needed (m s : RigidNode) (E : Dofs) (d : Dof)
    (h : (isZero (m.x - s.x) = false ∧ (d = .RY ∨ d = .RZ)) ∨
      (isZero (m.y - s.y) = false ∧ (d = .RX ∨ d = .RZ)) ∨
      (isZero (m.z - s.z) = false ∧ (d = .RX ∨ d = .RY))) :
    (addLever m s E).contains d = true := by
  unfold addLever
  simp only
  have e1 : ((Dofs.ofDof .RY).addDof .RZ).contains d = true ↔ (d = .RY ∨ d = .RZ) := by
    clear h; revert d; decide
  have e2 : ((Dofs.ofDof .RX).addDof .RZ).contains d = true ↔ (d = .RX ∨ d = .RZ) := by
    clear h; revert d; decide
  have e3 : ((Dofs.ofDof .RX).addDof .RY).contains d = true ↔ (d = .RX ∨ d = .RY) := by
    clear h; revert d; decide
  rcases h with ⟨h, h'⟩ | ⟨h, h'⟩ | ⟨h, h'⟩
  · rw [← e1] at h'
    simp only [h, Bool.not_false, if_true]
    split <;> split <;> simp [Dofs.contains_union, h']
  · rw [← e2] at h'
    simp only [h, Bool.not_false, if_true]
    split <;> split <;> simp [Dofs.contains_union, h']
  · rw [← e3] at h'
    simp only [h, Bool.not_false, if_true]
    rw [Dofs.contains_union, h', Bool.or_true]

theorem calc_lever (node : Nat → RigidNode) (q : QuasiRigid) (hr : q.addRotations = true) (s : Nat)
    (hs : s ∈ q.slaves) (d : Dof)
    (h : (isZero ((node q.master).x - (node s).x) = false ∧ (d = .RY ∨ d = .RZ)) ∨
      (isZero ((node q.master).y - (node s).y) = false ∧ (d = .RX ∨ d = .RZ)) ∨
      (isZero ((node q.master).z - (node s).z) = false ∧ (d = .RX ∨ d = .RY))) :
    (calcMasterDOFS node q).contains d = true := by
  unfold calcMasterDOFS
  split
  · exact contains_all d
  · exact masterLoop_mem node _ _ _ d s hs (fun E => lever_needed _ _ _ d h)

/-! ## C36 -/

/-- The coordinate differences with the master are zero, or large enough not to be taken for
zero. -/
def Clear (node : Nat → RigidNode) (q : QuasiRigid) : Prop :=
  ∀ s ∈ q.slaves,
    ((node q.master).x - (node s).x = 0 ∨ isZero ((node q.master).x - (node s).x) = false) ∧
    ((node q.master).y - (node s).y = 0 ∨ isZero ((node q.master).y - (node s).y) = false) ∧
    ((node q.master).z - (node s).z = 0 ∨ isZero ((node q.master).z - (node s).z) = false)

/-- **C36** the relations written for a completely rigid constraint hold for given displacements
if and only if every slave is carried along by the master as one rigid body: `u + θ × (s - m)`,
and the same rotations (those the master is given; see `C36_rotations` and
`C36_all_rotations`). -/
theorem C36_rigid (node : Nat → RigidNode) (q : QuasiRigid) (hd : q.dofs = Dofs.ALL_DOFS)
    (hr : q.addRotations = true) (hm : q.master ∉ q.slaves) (hc : Clear node q)
    (u : Nat → Dof → Dbl) :
    (∀ l ∈ emulateWithMPCs node q, Holds u l) ↔
      ∀ s ∈ q.slaves,
        (∀ d, d.isTranslation = true → u s d = carried (node q.master) (node s) (u q.master) d) ∧
        (∀ d, d.isRotation = true → (calcMasterDOFS node q).contains d = true →
          u s d = u q.master d) := by
  unfold emulateWithMPCs
  have hlev : ∀ s ∈ q.slaves,
      NoLever (node q.master) (node s) (u q.master) (calcMasterDOFS node q) := by
    intro s hs
    obtain ⟨cx, cy, cz⟩ := hc s hs
    have key : ∀ d, (calcMasterDOFS node q).contains d = false →
        ((d = .RY ∨ d = .RZ) → (node q.master).x - (node s).x = 0) ∧
        ((d = .RX ∨ d = .RZ) → (node q.master).y - (node s).y = 0) ∧
        ((d = .RX ∨ d = .RY) → (node q.master).z - (node s).z = 0) := by
      intro d hd
      have := fun h => calc_lever node q hr s hs d h
      refine ⟨fun h => ?_, fun h => ?_, fun h => ?_⟩
      · rcases cx with h0 | h0
        · exact h0
        · rw [this (Or.inl ⟨h0, h⟩)] at hd; cases hd
      · rcases cy with h0 | h0
        · exact h0
        · rw [this (Or.inr (Or.inl ⟨h0, h⟩))] at hd; cases hd
      · rcases cz with h0 | h0
        · exact h0
        · rw [this (Or.inr (Or.inr ⟨h0, h⟩))] at hd; cases hd
    refine ⟨fun h1 h2 => ?_, fun h1 h2 => ?_, fun h1 h2 => ?_⟩
    · have a := (key .RY h1).2.2 (Or.inr rfl)
      have b := (key .RZ h2).2.1 (Or.inr rfl)
      have a' : (node s).z - (node q.master).z = 0 := by linarith
      have b' : (node s).y - (node q.master).y = 0 := by linarith
      rw [a', b']; ring
    · have a := (key .RX h1).2.2 (Or.inl rfl)
      have b := (key .RZ h2).1 (Or.inr rfl)
      have a' : (node s).z - (node q.master).z = 0 := by linarith
      have b' : (node s).x - (node q.master).x = 0 := by linarith
      rw [a', b']; ring
    · have a := (key .RX h1).2.1 (Or.inl rfl)
      have b := (key .RY h2).1 (Or.inl rfl)
      have a' : (node s).y - (node q.master).y = 0 := by linarith
      have b' : (node s).x - (node q.master).x = 0 := by linarith
      rw [a', b']; ring
  have hslave : ∀ s ∈ q.slaves, ((∀ l ∈ slaveRelations node q (calcMasterDOFS node q) s, Holds u l) ↔
        (∀ d, d.isTranslation = true → u s d = carried (node q.master) (node s) (u q.master) d) ∧
        (∀ d, d.isRotation = true → (calcMasterDOFS node q).contains d = true →
          u s d = u q.master d)) := by
    intro s hs
    rw [holds_slave node q u _ s (fun h => hm (h ▸ hs)) (hlev s hs)]
    simp only [hd, contains_all, forall_const]
  constructor
  · intro h s hs
    rw [← hslave s hs]
    intro l hl
    exact h l (List.mem_flatMap.mpr ⟨s, hs, hl⟩)
  · intro h l hl
    obtain ⟨s, hs, hl⟩ := List.mem_flatMap.mp hl
    exact (hslave s hs).mpr (h s hs) l hl

/-- **C36** for a constraint on some degrees of freedom only, or without added rotations, the
relations tie those degrees of freedom, the rotations that the master does not have counting for
zero. -/
theorem C36_some_dofs (node : Nat → RigidNode) (q : QuasiRigid) (hm : q.master ∉ q.slaves)
    (u : Nat → Dof → Dbl)
    (hu : ∀ d, d.isRotation = true → (calcMasterDOFS node q).contains d = false → u q.master d = 0) :
    (∀ l ∈ emulateWithMPCs node q, Holds u l) ↔
      ∀ s ∈ q.slaves,
        (∀ d, d.isTranslation = true → q.dofs.contains d = true →
          u s d = carried (node q.master) (node s) (u q.master) d) ∧
        (∀ d, d.isRotation = true → q.dofs.contains d = true →
          (calcMasterDOFS node q).contains d = true → u s d = u q.master d) := by
  unfold emulateWithMPCs
  have hlev : ∀ s ∈ q.slaves,
      NoLever (node q.master) (node s) (u q.master) (calcMasterDOFS node q) := by
    intro s _
    refine ⟨fun h1 h2 => ?_, fun h1 h2 => ?_, fun h1 h2 => ?_⟩
    · rw [hu .RY rfl h1, hu .RZ rfl h2]; ring
    · rw [hu .RX rfl h1, hu .RZ rfl h2]; ring
    · rw [hu .RX rfl h1, hu .RY rfl h2]; ring
  have hslave := fun s (hs : s ∈ q.slaves) =>
    holds_slave node q u (calcMasterDOFS node q) s (fun h => hm (h ▸ hs)) (hlev s hs)
  constructor
  · intro h s hs
    rw [← hslave s hs]
    intro l hl
    exact h l (List.mem_flatMap.mpr ⟨s, hs, hl⟩)
  · intro h l hl
    obtain ⟨s, hs, hl⟩ := List.mem_flatMap.mp hl
    exact (hslave s hs).mpr (h s hs) l hl

/-- **C36** the rotations of the master include those it has, those any slave has, and the
rotations about any axis to which a slave is at a distance. -/
theorem C36_rotations (node : Nat → RigidNode) (q : QuasiRigid) (hr : q.addRotations = true) (d : Dof)
    (h : (node q.master).dofs.contains d = true ∨ d.isTranslation = true ∨
      (∃ s ∈ q.slaves, (node s).dofs.contains d = true) ∨
      (∃ s ∈ q.slaves,
        (isZero ((node q.master).x - (node s).x) = false ∧ (d = .RY ∨ d = .RZ)) ∨
        (isZero ((node q.master).y - (node s).y) = false ∧ (d = .RX ∨ d = .RZ)) ∨
        (isZero ((node q.master).z - (node s).z) = false ∧ (d = .RX ∨ d = .RY)))) :
    (calcMasterDOFS node q).contains d = true := by
  rcases h with h | h | ⟨s, hs, h⟩ | ⟨s, hs, h⟩
  · unfold calcMasterDOFS
    split
    · exact contains_all d
    · exact masterLoop_mono _ _ _ _ _ (by simp [Dofs.contains_union, h])
  · unfold calcMasterDOFS
    split
    · exact contains_all d
    · apply masterLoop_mono
      have : Dofs.TRANSLATIONS.contains d = true := by revert h; revert d; decide
      simp [Dofs.contains_union, this]
  · unfold calcMasterDOFS
    split
    · exact contains_all d
    · exact masterLoop_mem node _ _ _ d s hs
        (fun E => addLever_mono _ _ _ _ (by simp [Dofs.contains_union, h]))
  · exact calc_lever node q hr s hs d h

/-- At least two coordinates of two points differ. -/
def TwoOffsets (m s : RigidNode) : Prop :=
  (isZero (m.x - s.x) = false ∧ isZero (m.y - s.y) = false) ∨
  (isZero (m.x - s.x) = false ∧ isZero (m.z - s.z) = false) ∨
  (isZero (m.y - s.y) = false ∧ isZero (m.z - s.z) = false)

/-- **C36** in full when the master has its rotations, or some slave lies off every axis through the
master. -/
theorem C36_all_rotations (node : Nat → RigidNode) (q : QuasiRigid) (hd : q.dofs = Dofs.ALL_DOFS)
    (hr : q.addRotations = true) (hm : q.master ∉ q.slaves) (hc : Clear node q)
    (hfull : (∀ d, (node q.master).dofs.contains d = true) ∨ ∃ s ∈ q.slaves, TwoOffsets (node q.master) (node s))
    (u : Nat → Dof → Dbl) :
    (∀ l ∈ emulateWithMPCs node q, Holds u l) ↔
      ∀ s ∈ q.slaves, ∀ d, u s d = carried (node q.master) (node s) (u q.master) d := by
  have hall : ∀ d, d.isRotation = true → (calcMasterDOFS node q).contains d = true := by
    intro d hd
    rcases hfull with h | ⟨s, hs, h⟩
    · exact C36_rotations node q hr d (Or.inl (h d))
    · refine C36_rotations node q hr d (Or.inr (Or.inr (Or.inr ⟨s, hs, ?_⟩)))
      unfold TwoOffsets at h
      cases d <;> first | (exact absurd hd (by decide)) | (simp only [reduceCtorEq, or_false, false_or, true_or, or_true, or_self, and_true, and_false]; tauto)
  rw [C36_rigid node q hd hr hm hc u]
  constructor
  · intro h s hs d
    obtain ⟨h1, h2⟩ := h s hs
    cases hdt : d.isTranslation with
    | true => exact h1 d hdt
    | false =>
      have hdr : d.isRotation = true := by cases d <;> first | rfl | cases hdt
      rw [h2 d hdr (hall d hdr)]
      cases d <;> first | rfl | cases hdr
  · intro h s hs
    refine ⟨fun d _ => h s hs d, fun d hd _ => ?_⟩
    rw [h s hs d]
    cases d <;> first | rfl | cases hd

-- a master with translations only and two slaves, one of them off the axes
def exNode : Nat → RigidNode := fun n =>
  if n = 0 then ⟨0, 0, 0, Dofs.TRANSLATIONS⟩ else if n = 1 then ⟨1, 0, 0, Dofs.TRANSLATIONS⟩
  else ⟨2, 3, -1, Dofs.TRANSLATIONS⟩
def exRigid : QuasiRigid := ⟨Dofs.ALL_DOFS, true, 0, [1, 2]⟩
example : exRigid.dofs = Dofs.ALL_DOFS ∧ exRigid.addRotations = true ∧ exRigid.master ∉ exRigid.slaves ∧
    Clear exNode exRigid := by
  unfold Clear
  exact ⟨rfl, rfl, by decide, by decide +kernel⟩
example : ∃ s ∈ exRigid.slaves, TwoOffsets (exNode exRigid.master) (exNode s) := by
  unfold TwoOffsets
  exact ⟨2, by decide, by decide +kernel⟩
example : (emulateWithMPCs exNode exRigid).length = 12 := by decide +kernel

theorem near_bound {a b s t : Dbl} (hs : isZero s = true) (ht : isZero t = true) : |a * s - b * t| ≤ tol * (|a| + |b|) := by
  have h1 : |s| ≤ tol := of_decide_eq_true hs
  have h2 : |t| ≤ tol := of_decide_eq_true ht
  calc |a * s - b * t| ≤ |a * s| + |b * t| := abs_sub _ _
    _ = |a| * |s| + |b| * |t| := by rw [abs_mul, abs_mul]
    _ ≤ |a| * tol + |b| * tol := add_le_add (mul_le_mul_of_nonneg_left h1 (abs_nonneg _)) (mul_le_mul_of_nonneg_left h2 (abs_nonneg _))
    _ = tol * (|a| + |b|) := by ring

theorem isZero_swap (a b : Dbl) : isZero (a - b) = isZero (b - a) := by
  unfold isZero
  rw [abs_sub_comm]

/-- **C36** for every position of the nodes: when the relations hold every slave is carried along by the master, up to the rotation
times the tolerance, 5 / 2^52, under which a distance is taken for zero. -/
theorem C36_near (node : Nat → RigidNode) (q : QuasiRigid) (hd : q.dofs = Dofs.ALL_DOFS) (hr : q.addRotations = true)
    (hm : q.master ∉ q.slaves) (u : Nat → Dof → Dbl) (h : ∀ l ∈ emulateWithMPCs node q, Holds u l) (s : Nat) (hs : s ∈ q.slaves)
    (d : Dof) (ht : d.isTranslation = true) :
    |u s d - carried (node q.master) (node s) (u q.master) d| ≤
      5 / 2 ^ 52 * (|u q.master .RX| + |u q.master .RY| + |u q.master .RZ|) := by
  have hsm : s ≠ q.master := fun e => hm (e ▸ hs)
  have hin : ∀ l ∈ slaveRelations node q (calcMasterDOFS node q) s, Holds u l :=
    fun l hl => h l (List.mem_flatMap.mpr ⟨s, hs, hl⟩)
  have htol : (5 : Dbl) / 2 ^ 52 = tol := rfl
  have hpos := tol_pos
  have hz : ∀ b : Bool, b = false ∨ b = true := fun b => by cases b <;> simp
  have key : ∀ e, (calcMasterDOFS node q).contains e = false →
      ((e = .RY ∨ e = .RZ) → isZero ((node s).x - (node q.master).x) = true) ∧
      ((e = .RX ∨ e = .RZ) → isZero ((node s).y - (node q.master).y) = true) ∧
      ((e = .RX ∨ e = .RY) → isZero ((node s).z - (node q.master).z) = true) := by
    intro e he
    have k := fun x => calc_lever node q hr s hs e x
    rw [he] at k
    refine ⟨fun x => ?_, fun x => ?_, fun x => ?_⟩
    · rw [isZero_swap]
      rcases hz (isZero ((node q.master).x - (node s).x)) with h0 | h0
      · cases k (.inl ⟨h0, x⟩)
      · exact h0
    · rw [isZero_swap]
      rcases hz (isZero ((node q.master).y - (node s).y)) with h0 | h0
      · cases k (.inr (.inl ⟨h0, x⟩))
      · exact h0
    · rw [isZero_swap]
      rcases hz (isZero ((node q.master).z - (node s).z)) with h0 | h0
      · cases k (.inr (.inr ⟨h0, x⟩))
      · exact h0
  have aX := abs_nonneg (u q.master .RX)
  have aY := abs_nonneg (u q.master .RY)
  have aZ := abs_nonneg (u q.master .RZ)
  have exact0 : ∀ x y : Dbl, x = y → |x - y| ≤ tol * (|u q.master .RX| + |u q.master .RY| + |u q.master .RZ|) := by
    intro x y e
    rw [e, sub_self, abs_zero]
    exact mul_nonneg hpos.le (by linarith)
  rw [htol]
  unfold slaveRelations at hin
  simp only [hd, contains_all, written, if_true, List.mem_append, List.mem_singleton] at hin
  cases d with
  | DX =>
    have hl := hin _ (.inl (.inl (.inl (.inl (.inl rfl)))))
    by_cases hc : (calcMasterDOFS node q).contains .RY = false ∧ (calcMasterDOFS node q).contains .RZ = false
    · rw [relDX, if_neg (by simp [hc.1, hc.2]), holds_relation u _ _ hsm, sum_ofValues, sum_ofValues] at hl
      have e : u s .DX = u q.master .DX := by linarith
      have b := near_bound (a := u q.master .RY) (b := u q.master .RZ) ((key .RY hc.1).2.2 (.inr rfl)) ((key .RZ hc.2).2.1 (.inr rfl))
      have : u s .DX - carried (node q.master) (node s) (u q.master) .DX =
          -(u q.master .RY * ((node s).z - (node q.master).z) - u q.master .RZ * ((node s).y - (node q.master).y)) := by
        rw [e]; unfold carried; ring
      rw [this, abs_neg]
      refine b.trans (mul_le_mul_of_nonneg_left (by linarith) hpos.le)
    · refine exact0 _ _ ((holds_DX u _ _ hsm (node q.master) (node s) _ fun a b => absurd ⟨a, b⟩ hc).mp hl)
  | DY =>
    have hl := hin _ (.inl (.inl (.inl (.inl (.inr rfl)))))
    by_cases hc : (calcMasterDOFS node q).contains .RX = false ∧ (calcMasterDOFS node q).contains .RZ = false
    · rw [relDY, if_neg (by simp [hc.1, hc.2]), holds_relation u _ _ hsm, sum_ofValues, sum_ofValues] at hl
      have e : u s .DY = u q.master .DY := by linarith
      have b := near_bound (a := u q.master .RZ) (b := u q.master .RX) ((key .RZ hc.2).1 (.inr rfl)) ((key .RX hc.1).2.2 (.inl rfl))
      have : u s .DY - carried (node q.master) (node s) (u q.master) .DY =
          -(u q.master .RZ * ((node s).x - (node q.master).x) - u q.master .RX * ((node s).z - (node q.master).z)) := by
        rw [e]; unfold carried; ring
      rw [this, abs_neg]
      refine b.trans (mul_le_mul_of_nonneg_left (by linarith) hpos.le)
    · refine exact0 _ _ ((holds_DY u _ _ hsm (node q.master) (node s) _ fun a b => absurd ⟨a, b⟩ hc).mp hl)
  | DZ =>
    have hl := hin _ (.inl (.inl (.inl (.inr rfl))))
    by_cases hc : (calcMasterDOFS node q).contains .RX = false ∧ (calcMasterDOFS node q).contains .RY = false
    · rw [relDZ, if_neg (by simp [hc.1, hc.2]), holds_relation u _ _ hsm, sum_ofValues, sum_ofValues] at hl
      have e : u s .DZ = u q.master .DZ := by linarith
      have b := near_bound (a := u q.master .RX) (b := u q.master .RY) ((key .RX hc.1).2.1 (.inl rfl)) ((key .RY hc.2).1 (.inl rfl))
      have : u s .DZ - carried (node q.master) (node s) (u q.master) .DZ =
          -(u q.master .RX * ((node s).y - (node q.master).y) - u q.master .RY * ((node s).x - (node q.master).x)) := by
        rw [e]; unfold carried; ring
      rw [this, abs_neg]
      refine b.trans (mul_le_mul_of_nonneg_left (by linarith) hpos.le)
    · refine exact0 _ _ ((holds_DZ u _ _ hsm (node q.master) (node s) _ fun a b => absurd ⟨a, b⟩ hc).mp hl)
  | RX => cases ht
  | RY => cases ht
  | RZ => cases ht

/-- A slave very near its master, and the master turning without moving. -/
def nearNode : Nat → RigidNode := fun n =>
  if n = 0 then ⟨0, 0, 0, Dofs.TRANSLATIONS⟩ else ⟨1 / 10 ^ 300, 0, 0, Dofs.TRANSLATIONS⟩
def turning : Nat → Dof → Dbl := fun n d => if n = 0 ∧ d = .RZ then 1 else 0

/-- Without `Clear` C36 is false: for a slave whose distance is taken for zero the relations hold although it is not carried along.
How far it is from that is bounded by `C36_near`. -/
theorem C36_near_false : ∃ (node : Nat → RigidNode) (q : QuasiRigid) (u : Nat → Dof → Dbl), q.dofs = Dofs.ALL_DOFS ∧
    q.addRotations = true ∧ q.master ∉ q.slaves ∧ (∀ l ∈ emulateWithMPCs node q, Holds u l) ∧
    ¬ ∀ s ∈ q.slaves, ∀ d, d.isTranslation = true → u s d = carried (node q.master) (node s) (u q.master) d := by
  refine ⟨nearNode, ⟨Dofs.ALL_DOFS, true, 0, [1]⟩, turning, rfl, rfl, by decide, ?_, ?_⟩
  · unfold Holds
    decide +kernel
  · intro h
    have := h 1 (by decide) .DY rfl
    revert this
    unfold carried
    decide +kernel

end Vega.RigidSpec
