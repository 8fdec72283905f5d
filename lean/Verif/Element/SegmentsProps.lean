import Verif.Element.Segments
import Verif.Element.DiscreteProps
import Mathlib.Data.List.Forall2

/-!
# Rigid springs become rigid links (C122); what is fixed to a point is kept when it becomes a segment (C123)
-/
namespace Vega

namespace SegmentsSpec
open Segments NastranWrite

/-- The twelve values of a spring, one stiffness and one damping for every degree of freedom. -/
structure Spring where
  k : Dof → Dbl
  b : Dof → Dbl

/-- The value that stands for the word RIGID. -/
def rigid : Dbl := dblMax

/-- A number far from the value that stands for RIGID. -/
def Ordinary (x : Dbl) : Prop := |x| ≤ dblMax / 2

/-- The segment that is made for a spring. -/
def Made (p : Spring) (s : StructuralSegment) : Prop := bush (bushDofs.map p.k) (bushDofs.map p.b) = .ok s

/-- Pairs of nodes as cells. -/
def seg2 (l : List (Int × Int)) : List (List Int) := l.map fun c => [c.1, c.2]

/-- Every pair of nodes is tied rigidly, by a link of its own. -/
def ties (l : List (Int × Int)) : List RigidLink := l.map fun c => ⟨c.1, {c.2}⟩

/-- The segment has neither stiffness, nor mass, nor damping. -/
def Nothing (s : StructuralSegment) : Prop := ∀ q r c, (s.matrix q).findComponent r c = 0

end SegmentsSpec

namespace Segments
open SegmentsSpec NastranWrite Nastran DiscreteSpec DofMatrixSpec

/-! ## Lemmas -/

theorem finite_ne {x : Dbl} (h : Ordinary x) : isEqual x dblMax = false := by
  have h' : |(-x)| ≤ dblMax / 2 := by rw [abs_neg]; exact h
  have := isEqual_unavailable_of_le_half (-x) h'
  unfold isEqual unavailable at *
  rw [decide_eq_false_iff_not] at *
  rw [show -x - -dblMax = -(x - dblMax) by ring, abs_neg, abs_neg, abs_neg] at this
  exact this

theorem made_ok (p : Spring) : ∃ s, Made p s ∧ s.matrixType = .DIAGONAL ∧
    (s.matrix .stiffness).matrixType = .DIAGONAL ∧ (s.matrix .damping).matrixType = .DIAGONAL ∧
    (s.matrix .stiffness).componentByDofs = bushDofs.map (fun d => ((d, d), p.k d)) ∧
    (s.matrix .damping).componentByDofs = bushDofs.map (fun d => ((d, d), p.b d)) :=
  ⟨_, rfl, rfl, rfl, rfl, rfl, rfl⟩

theorem made_stiffness {p : Spring} {s : StructuralSegment} (h : Made p s) :
    (s.matrix .stiffness).componentByDofs = bushDofs.map (fun d => ((d, d), p.k d)) := by
  obtain ⟨s', h', _, _, _, h1, _⟩ := made_ok p
  unfold Made at h h'
  rw [h] at h'
  cases h'
  exact h1

theorem made_find {p : Spring} {s : StructuralSegment} (h : Made p s) (d : Dof) :
    (s.matrix .stiffness).findComponent d d = p.k d := by
  obtain ⟨s', h', -⟩ := made_ok p
  unfold Made at h h'
  have : s = s' := by rw [h] at h'; cases h'; rfl
  have hs : bush (bushDofs.map p.k) (bushDofs.map p.b) = .ok s := h
  clear this h' h
  simp only [bush, bushDofs, List.map, List.zip_cons_cons, List.zip_nil_right] at hs
  cases hs
  cases d <;> rfl

theorem mem_bushDofs (d : Dof) : d ∈ bushDofs := by cases d <;> decide

theorem find_zero {κ : Type} [DecidableEq κ] (m : Map κ Dbl) (k : κ) (v : Dbl)
    (h : Map.find (m.map fun kv => (kv.1, (0 : Dbl))) k = some v) : v = 0 := by
  have := Map.mem_of_find _ h
  simp only [List.mem_map, Prod.mk.injEq] at this
  obtain ⟨_, _, _, h⟩ := this
  exact h.symm

theorem setAllZero_nothing (s : StructuralSegment) : Nothing (setAllZero s) := by
  intro q r c
  rw [findComponent_eq]
  split
  · rfl
  · cases h : Map.find (((setAllZero s).matrix q).componentByDofs)
      (key ((setAllZero s).matrix q).matrixType r c) with
    | none => rfl
    | some v => exact find_zero _ _ _ h

theorem linksOf_seg2 (l : List (Int × Int)) : linksOf (seg2 l) = .ok (ties l) := by
  induction l with
  | nil => rfl
  | cons c l ih =>
    unfold seg2 ties at *
    simp only [List.map_cons, linksOf, linkOf, ih, Outcome.bind_ok]
    rfl

theorem bush_rigid {p : Spring} {s : StructuralSegment} (h : Made p s) (hr : ∀ d, p.k d = rigid) :
    isDiagonalRigid s = true := by
  unfold isDiagonalRigid DofMatrix.isMaxDiagonal
  rw [made_stiffness h, List.all_eq_true]
  intro kv hkv
  simp only [List.mem_map] at hkv
  obtain ⟨d, -, rfl⟩ := hkv
  simp [hr d, rigid]

theorem not_rigid {m : DofMatrix} {kv : (Dof × Dof) × Dbl} (h : kv ∈ m.componentByDofs) (hf : Ordinary kv.2) :
    m.isMaxDiagonal = false := by
  rw [Bool.eq_false_iff]
  intro hc
  unfold DofMatrix.isMaxDiagonal at hc
  rw [List.all_eq_true] at hc
  have := hc kv h
  simp [finite_ne hf] at this

theorem bush_not_rigid {p : Spring} {s : StructuralSegment} (h : Made p s) {d : Dof} (hd : Ordinary (p.k d)) :
    isDiagonalRigid s = false := by
  refine not_rigid (kv := ((d, d), p.k d)) ?_ hd
  rw [made_stiffness h]
  exact List.mem_map.mpr ⟨d, mem_bushDofs d, rfl⟩

theorem replace_rigid {s : SegmentSet} (h : isDiagonalRigid s.segment = true) {rs : List RigidLink}
    (hl : linksOf s.cells = .ok rs) :
    replaceOne s = .ok (⟨setAllZero s.segment, s.cells⟩, rs) := by
  unfold replaceOne
  simp [h, hl]

theorem replace_kept {s : SegmentSet} (h : isDiagonalRigid s.segment = false) : replaceOne s = .ok (s, []) := by
  unfold replaceOne
  simp [h]

/-- The damper of two values has no stiffness. -/
theorem damper_stiffness {ce cr : Dbl} {s : StructuralSegment} (h : damper ce cr = .ok s) :
    (s.matrix .stiffness).componentByDofs = [] := by
  unfold damper at h
  by_cases h1 : isZero ce <;> by_cases h2 : isZero cr <;>
    simp only [h1, h2, if_true, if_false, Bool.false_eq_true] at h <;> cases h <;> rfl

theorem parseDamper_damper {c c' : Cursor} {d : Int × StructuralSegment} (h : parseDamper c = .ok (d, c')) :
    ∃ ce cr, damper ce cr = .ok d.2 := by
  unfold parseDamper at h
  cases h1 : nextInt none c with
  | ok a =>
    rw [h1] at h
    simp only [Outcome.bind_ok] at h
    cases h2 : nextDouble (some 0) a.2 with
    | ok x =>
      rw [h2] at h
      simp only [Outcome.bind_ok] at h
      cases h3 : nextDouble (some 0) x.2 with
      | ok y =>
        rw [h3] at h
        simp only [Outcome.bind_ok] at h
        cases h4 : damper x.1 y.1 with
        | ok s =>
          rw [h4] at h
          simp only [Outcome.bind_ok] at h
          cases h
          exact ⟨_, _, h4⟩
        | _ => rw [h4] at h; cases h
      | _ => rw [h3] at h; cases h
    | _ => rw [h2] at h; cases h
  | _ => rw [h1] at h; cases h

theorem parsePVISC_dampers {c c' : Cursor} {l : List (Int × StructuralSegment)} (h : parsePVISC c = .ok (l, c')) :
    l ≠ [] ∧ ∀ d ∈ l, ∃ ce cr, damper ce cr = .ok d.2 := by
  unfold parsePVISC at h
  cases h1 : parseDamper c with
  | ok a =>
    rw [h1] at h
    simp only [Outcome.bind_ok] at h
    obtain ⟨d, c1⟩ := a
    split at h
    · cases h
      refine ⟨by simp, fun d' hd' => ?_⟩
      rw [List.mem_singleton] at hd'
      subst hd'
      exact parseDamper_damper h1
    · cases h2 : skip 1 c1 with
      | ok c2 =>
        rw [h2] at h
        simp only [Outcome.bind_ok] at h
        cases h3 : parseDamper c2 with
        | ok b =>
          rw [h3] at h
          simp only [Outcome.bind_ok] at h
          cases h
          refine ⟨by simp, fun d' hd' => ?_⟩
          simp only [List.mem_cons, List.not_mem_nil, or_false] at hd'
          rcases hd' with rfl | rfl
          · exact parseDamper_damper h1
          · exact parseDamper_damper h3
        | _ => rw [h3] at h; cases h
      | _ => rw [h2] at h; cases h
  | _ => rw [h1] at h; cases h

/-! ## C122 -/

/-- **C122.** Between the two nodes of every cell of a spring with six rigid stiffnesses there is a rigid link, and the
spring itself is without effect from then on. -/
theorem C122_rigid (p : Spring) (s : StructuralSegment) (h : Made p s) (hr : ∀ d, p.k d = rigid)
    (l : List (Int × Int)) :
    ∃ s', replaceOne ⟨s, seg2 l⟩ = .ok (⟨s', seg2 l⟩, ties l) ∧ Nothing s' :=
  ⟨_, replace_rigid (bush_rigid h hr) (linksOf_seg2 l), setAllZero_nothing s⟩

example : ∃ s, Made ⟨fun _ => rigid, fun _ => 0⟩ s ∧
    ∃ s', replaceOne ⟨s, seg2 [(1, 2)]⟩ = .ok (⟨s', seg2 [(1, 2)]⟩, [⟨1, {2}⟩]) ∧ Nothing s' := by
  obtain ⟨s, h, -⟩ := made_ok ⟨fun _ => rigid, fun _ => 0⟩
  exact ⟨s, h, C122_rigid _ s h (fun _ => rfl) [(1, 2)]⟩

/-- **C122.** A spring one of whose stiffnesses is an ordinary number, zero included, stays as it is, and nothing is
tied. -/
theorem C122_kept (p : Spring) (s : StructuralSegment) (h : Made p s) (d : Dof) (hd : Ordinary (p.k d))
    (cells : List (List Int)) : replaceOne ⟨s, cells⟩ = .ok (⟨s, cells⟩, []) :=
  replace_kept (bush_not_rigid h hd)

example : Ordinary ((⟨fun _ => 0, fun _ => 7⟩ : Spring).k .DX) := by
  simpa [Ordinary] using div_nonneg dblMax_pos.le (by norm_num)

/-- **C122.** The same of every segment however it was made: with one stiffness that reads back as an ordinary number that
is not zero, it stays as it is. -/
theorem C122_kept_any (s : StructuralSegment) (r c : Dof) (h0 : (s.matrix .stiffness).findComponent r c ≠ 0)
    (hf : Ordinary ((s.matrix .stiffness).findComponent r c)) (cells : List (List Int)) :
    replaceOne ⟨s, cells⟩ = .ok (⟨s, cells⟩, []) := by
  apply replace_kept
  rw [findComponent_eq] at h0 hf
  split at h0
  · exact absurd rfl h0
  · rename_i hn
    rw [if_neg hn] at hf
    cases hfind : Map.find (s.matrix .stiffness).componentByDofs (key (s.matrix .stiffness).matrixType r c) with
    | none => rw [hfind] at h0; exact absurd rfl h0
    | some v =>
      rw [hfind] at hf
      exact not_rigid (Map.mem_of_find _ hfind) hf

example : ∃ s, StructuralSegment.add (.new .SYMMETRIC) .stiffness .DX .DY 5 = .ok s ∧
    (s.matrix .stiffness).findComponent .DY .DX = 5 := ⟨_, rfl, rfl⟩

/-- **C122.** What is done with one segment does not depend on the others: the segments stay in their order and the links
come one segment after the other. -/
theorem C122_each : ∀ (l : List SegmentSet) (l' : List SegmentSet) (rs : List RigidLink),
    replaceRigidSegments l = .ok (l', rs) →
    ∃ each, List.Forall₂ (fun s r => replaceOne s = .ok r) l each ∧ l' = each.map Prod.fst ∧
      rs = each.flatMap Prod.snd
  | [], l', rs, h => by
    cases h
    exact ⟨[], .nil, rfl, rfl⟩
  | s :: l, l', rs, h => by
    unfold replaceRigidSegments at h
    cases h1 : replaceOne s with
    | ok a =>
      rw [h1] at h
      simp only [Outcome.bind_ok] at h
      cases h2 : replaceRigidSegments l with
      | ok b =>
        rw [h2] at h
        simp only [Outcome.bind_ok] at h
        obtain ⟨each, hf, he, hr⟩ := C122_each l b.1 b.2 h2
        cases h
        exact ⟨a :: each, .cons h1 hf, by simp [he], by simp [hr]⟩
      | _ => rw [h2] at h; cases h
    | _ => rw [h1] at h; cases h

example : ∃ l' rs, replaceRigidSegments [⟨.new .DIAGONAL, [[1, 2]]⟩, ⟨.new .DIAGONAL, [[3, 4]]⟩] = .ok (l', rs) ∧
    rs.length = 2 := ⟨_, _, rfl, rfl⟩

/-- **C122.** The replacement succeeds whenever no cell is without nodes. -/
theorem C122_total : ∀ (l : List SegmentSet), (∀ s ∈ l, ∀ c ∈ s.cells, c ≠ []) →
    ∃ r, replaceRigidSegments l = .ok r
  | [], _ => ⟨_, rfl⟩
  | s :: l, h => by
    have hl : ∀ cells : List (List Int), (∀ c ∈ cells, c ≠ []) → ∃ rs, linksOf cells = .ok rs := by
      intro cells
      induction cells with
      | nil => intro _; exact ⟨_, rfl⟩
      | cons c cells ih =>
        intro hc
        obtain ⟨rs, hrs⟩ := ih fun c' h' => hc c' (List.mem_cons_of_mem _ h')
        cases c with
        | nil => exact absurd rfl (hc [] List.mem_cons_self)
        | cons n c => exact ⟨⟨n, c.toFinset⟩ :: rs, by simp only [linksOf, linkOf, Outcome.bind_ok, hrs]⟩
    have h1 : ∃ r, replaceOne s = .ok r := by
      cases hr : isDiagonalRigid s.segment with
      | false => exact ⟨_, replace_kept hr⟩
      | true =>
        obtain ⟨rs, hrs⟩ := hl s.cells (h s List.mem_cons_self)
        exact ⟨_, replace_rigid hr hrs⟩
    obtain ⟨a, ha⟩ := h1
    obtain ⟨b, hb⟩ := C122_total l fun s' h' => h s' (List.mem_cons_of_mem _ h')
    exact ⟨(a.1 :: b.1, a.2 ++ b.2), by unfold replaceRigidSegments; rw [ha]; simp only [Outcome.bind_ok, hb]⟩

/-- What PVISC says: the first value along every translation, the second about every rotation, unless it is as good as
zero. -/
theorem C122_viscous_values (ce cr : Dbl) :
    ∃ s, damper ce cr = .ok s ∧ ∀ d : Dof, (s.matrix .damping).findComponent d d =
      if d.isTranslation then (if isZero ce then 0 else ce) else (if isZero cr then 0 else cr) := by
  unfold damper
  by_cases h1 : isZero ce <;> by_cases h2 : isZero cr <;>
    simp only [h1, h2, if_true, if_false, Bool.false_eq_true] <;>
    exact ⟨_, rfl, by intro d; cases d <;> rfl⟩

/-- **C122 (false).** Every damper of every card PVISC, which has no stiffness at all, is taken for a rigid segment: the
two nodes of each of its cells are tied rigidly, and its damping is lost. -/
theorem C122_viscous_false (c c' : Cursor) (dampers : List (Int × StructuralSegment))
    (h : parsePVISC c = .ok (dampers, c')) :
    dampers ≠ [] ∧ ∀ d ∈ dampers, ∀ l : List (Int × Int),
      ∃ s', replaceOne ⟨d.2, seg2 l⟩ = .ok (⟨s', seg2 l⟩, ties l) ∧ Nothing s' := by
  obtain ⟨h0, h1⟩ := parsePVISC_dampers h
  refine ⟨h0, fun d hd l => ?_⟩
  obtain ⟨ce, cr, hc⟩ := h1 d hd
  refine ⟨_, replace_rigid ?_ (linksOf_seg2 l), setAllZero_nothing d.2⟩
  unfold isDiagonalRigid DofMatrix.isMaxDiagonal
  rw [damper_stiffness hc]
  rfl

/-- **C122 (false).** A spring with six rigid stiffnesses between a node and the ground disappears: the link that replaces it
ties the node to no other one. -/
theorem C122_ground_false (p : Spring) (s : StructuralSegment) (h : Made p s) (hr : ∀ d, p.k d = rigid) (ga : Int) :
    ∃ s', replaceOne ⟨s, [bushCell ga none]⟩ = .ok (⟨s', [[ga]]⟩, [⟨ga, ∅⟩]) ∧ Nothing s' :=
  ⟨_, replace_rigid (s := ⟨s, [bushCell ga none]⟩) (bush_rigid h hr) rfl, setAllZero_nothing s⟩

/-- **C122 (false).** A spring that is rigid in one direction and not in another stays a spring, and the largest double
stays its stiffness: nothing is tied in the rigid direction. -/
theorem C122_partly_false (p : Spring) (s : StructuralSegment) (h : Made p s) (d d' : Dof) (hd : p.k d = rigid)
    (hd' : Ordinary (p.k d')) (cells : List (List Int)) :
    replaceOne ⟨s, cells⟩ = .ok (⟨s, cells⟩, []) ∧ (s.matrix .stiffness).findComponent d d = dblMax :=
  ⟨C122_kept p s h d' hd' cells, (made_find h d).trans hd⟩

example : (⟨fun d => if d = .DX then rigid else 0, fun _ => 0⟩ : Spring).k .DX = rigid ∧
    Ordinary ((⟨fun d => if d = .DX then rigid else 0, fun _ => 0⟩ : Spring).k .DY) :=
  ⟨rfl, by simpa [Ordinary] using div_nonneg dblMax_pos.le (by norm_num)⟩

/-! ## C123 -/

/-- One component stored: what is read at every position. -/
theorem add_find {m m' : DofMatrix} {r c : Dof} {v : Dbl} (h : m.addComponent r c v = .ok m') :
    m'.matrixType = m.matrixType ∧ ∀ r' c', m'.findComponent r' c' =
      if m.matrixType = .DIAGONAL ∧ r' ≠ c' then 0
      else if key m.matrixType r c = key m.matrixType r' c' then v else m.findComponent r' c' := by
  rw [addComponent_eq] at h
  split at h
  · cases h
    refine ⟨rfl, fun r' c' => ?_⟩
    rw [findComponent_eq, findComponent_eq]
    by_cases h1 : m.matrixType = .DIAGONAL ∧ r' ≠ c'
    · simp [h1]
    · simp only [h1, if_false]
      rw [Map.find_set]
      split <;> rfl
  · cases h

/-- The copy of one component of a matrix into another one of the same type. -/
theorem copy_one (m m' : DofMatrix) (ht : m'.matrixType = m.matrixType) (r c : Dof) :
    ∃ m'', m'.addComponent r c (m.findComponent r c) = .ok m'' ∧ m''.matrixType = m.matrixType ∧
      m''.findComponent r c = m.findComponent r c ∧
      ∀ r' c', m'.findComponent r' c' = m.findComponent r' c' →
        m''.findComponent r' c' = m.findComponent r' c' := by
  have hacc : accepted m'.matrixType ⟨r, c, m.findComponent r c⟩ := by
    rintro ⟨h1, h2, h3⟩
    have : m.findComponent r c = 0 := by
      rw [findComponent_eq, if_pos ⟨ht ▸ h1, h2⟩]
    simp [this] at h3
  have hok := addComponent_eq m' r c (m.findComponent r c)
  rw [if_pos hacc] at hok
  have hval : ∀ r' c', key m.matrixType r c = key m.matrixType r' c' →
      ¬ (m.matrixType = .DIAGONAL ∧ r' ≠ c') → m.findComponent r c = m.findComponent r' c' := by
    intro r' c' hk hn
    rw [findComponent_eq, findComponent_eq, if_neg hn, hk, if_neg]
    rintro ⟨h1, h2⟩
    apply hn
    refine ⟨h1, ?_⟩
    simp only [key, h1] at hk
    simp at hk
    rw [← hk.1, ← hk.2]
    exact h2
  refine ⟨_, hok, ht, ?_, fun r' c' hp => ?_⟩
  · rw [(add_find hok).2, ht]
    split
    · rename_i h1
      rw [findComponent_eq, if_pos h1]
    · simp
  · rw [(add_find hok).2, ht]
    split
    · rename_i h1
      rw [findComponent_eq, if_pos h1]
    · rename_i h1
      split
      · rename_i hk
        exact hval r' c' hk h1
      · exact hp

/-- What holds while the components are copied: the types agree, and the copied components are there. -/
structure Copying (p : DiscretePoint) (s : StructuralSegment) (done : List (Dof × Dof)) : Prop where
  type : s.matrixType = p.matrixType
  types : ∀ q, (s.matrix q).matrixType = (p.matrix q).matrixType
  copied : ∀ q, ∀ d ∈ done, (s.matrix q).findComponent d.1 d.2 = (p.matrix q).findComponent d.1 d.2

/-- The copy of the component of one quantity. -/
theorem copy_quantity {p : DiscretePoint} {s : StructuralSegment} (q : Quantity) (r c : Dof)
    (ht : ∀ q, (s.matrix q).matrixType = (p.matrix q).matrixType) :
    ∃ s', s.add q r c ((p.matrix q).findComponent r c) = .ok s' ∧ s'.matrixType = s.matrixType ∧
      (∀ q, (s'.matrix q).matrixType = (p.matrix q).matrixType) ∧
      (s'.matrix q).findComponent r c = (p.matrix q).findComponent r c ∧
      ∀ q' r' c', (s.matrix q').findComponent r' c' = (p.matrix q').findComponent r' c' →
        (s'.matrix q').findComponent r' c' = (p.matrix q').findComponent r' c' := by
  obtain ⟨m, h1, h2, h3, h4⟩ := copy_one (p.matrix q) (s.matrix q) (ht q) r c
  refine ⟨{ s with matrix := fun q' => if q' = q then m else s.matrix q' }, ?_, rfl, ?_, ?_, ?_⟩
  · unfold StructuralSegment.add
    rw [h1]
    rfl
  · intro q'
    by_cases h : q' = q
    · subst h; simpa using h2
    · simpa [h] using ht q'
  · simpa using h3
  · intro q' r' c' hp
    by_cases h : q' = q
    · subst h; simpa using h4 r' c' hp
    · simpa [h] using hp

theorem copyAt_copying {p : DiscretePoint} {s : StructuralSegment} {done : List (Dof × Dof)} (h : Copying p s done)
    (d : Dof × Dof) : ∃ s', copyAt p s d = .ok s' ∧ Copying p s' (d :: done) := by
  obtain ⟨s1, e1, t1, k1, a1, b1⟩ := copy_quantity .stiffness d.1 d.2 h.types
  obtain ⟨s2, e2, t2, k2, a2, b2⟩ := copy_quantity .mass d.1 d.2 k1
  obtain ⟨s3, e3, t3, k3, a3, b3⟩ := copy_quantity .damping d.1 d.2 k2
  refine ⟨s3, ?_, ?_, k3, ?_⟩
  · unfold copyAt
    rw [e1]
    simp only [Outcome.bind_ok, e2, e3]
  · rw [t3, t2, t1, h.type]
  · intro q d' hd'
    rw [List.mem_cons] at hd'
    rcases hd' with rfl | hd'
    · cases q with
      | stiffness => exact b3 _ _ _ (b2 _ _ _ a1)
      | mass => exact b3 _ _ _ a2
      | damping => exact a3
    · exact b3 _ _ _ (b2 _ _ _ (b1 _ _ _ (h.copied q d' hd')))

theorem copy_all (p : DiscretePoint) : ∀ (l : List (Dof × Dof)) (s : StructuralSegment) (done : List (Dof × Dof)),
    Copying p s done → ∃ s', l.foldlM (copyAt p) s = .ok s' ∧ Copying p s' (l.reverse ++ done)
  | [], s, done, h => ⟨s, rfl, by simpa using h⟩
  | d :: l, s, done, h => by
    obtain ⟨s1, e1, h1⟩ := copyAt_copying h d
    obtain ⟨s2, e2, h2⟩ := copy_all p l s1 _ h1
    refine ⟨s2, ?_, by simpa using h2⟩
    simp only [List.foldlM_cons, e1, Outcome.bind_ok, e2]

theorem mem_dofPairs (d : Dof × Dof) : d ∈ dofPairs := by
  obtain ⟨a, b⟩ := d
  cases a <;> cases b <;> decide +kernel

theorem copyPoint_ok (p : DiscretePoint) (h : ∀ q, (p.matrix q).matrixType = p.matrixType) :
    ∃ s, copyPoint p = .ok s ∧ s.matrixType = p.matrixType ∧
      ∀ q r c, (s.matrix q).findComponent r c = (p.matrix q).findComponent r c := by
  obtain ⟨s, e, hs⟩ := copy_all p dofPairs (StructuralSegment.new p.matrixType) []
    ⟨rfl, fun q => (h q).symm, fun q d hd => by cases hd⟩
  refine ⟨s, e, hs.type, fun q r c => ?_⟩
  exact hs.copied q (r, c) (by simp [mem_dofPairs])

/-- **C123.** Whatever was given to a point, each of its stiffnesses, masses and dampings is that of the segment it becomes,
for every pair of degrees of freedom. -/
theorem C123_components (id : Int) (t : MatrixType) (hist : List NodeStore) (nodes : List Int) :
    ∃ s g, convertOne ⟨id, runPoint t hist, nodes⟩ = .ok (s, g) ∧ s.segment.matrixType = t ∧
      ∀ q r c, (s.segment.matrix q).findComponent r c = ((runPoint t hist).matrix q).findComponent r c := by
  have ht : ∀ q, ((runPoint t hist).matrix q).matrixType = (runPoint t hist).matrixType := by
    intro q
    obtain ⟨h1, h2⟩ := runPoint_matrix t hist q
    rw [h1, h2]
    exact (inv_run _ _).2
  obtain ⟨s, e, h1, h2⟩ := copyPoint_ok (runPoint t hist) ht
  refine ⟨⟨s, []⟩, ⟨id, nodes.map fun n => [n, n]⟩, ?_, ?_, h2⟩
  · unfold convertOne
    simp only [e, Outcome.bind_ok]
  · exact h1.trans (runPoint_matrix t hist .stiffness).2

example : ∃ s g, convertOne ⟨7, runPoint .SYMMETRIC [⟨.mass, ⟨.DY, .DX, 3⟩⟩], [1]⟩ = .ok (s, g) ∧
    (s.segment.matrix .mass).findComponent .DX .DY = 3 := by
  obtain ⟨s, g, h, -, hf⟩ := C123_components 7 .SYMMETRIC [⟨.mass, ⟨.DY, .DX, 3⟩⟩] [1]
  exact ⟨s, g, h, (hf _ _ _).trans rfl⟩

theorem convertOne_cells {p : PointSet} {s : SegmentSet} {g : CellGroup} (h : convertOne p = .ok (s, g)) :
    s.cells = [] ∧ g = ⟨p.id, p.nodes.map fun n => [n, n]⟩ := by
  unfold convertOne at h
  cases h1 : copyPoint p.point with
  | ok a => rw [h1] at h; cases h; exact ⟨rfl, rfl⟩
  | _ => rw [h1] at h; cases h

/-- **C123.** Every point that has nodes is replaced, and for each of its nodes a segment from the node to itself is put into
a group with the number of the point; only points without nodes stay. -/
theorem C123_groups : ∀ (l : List PointSet) (r : Converted), convert0D l = .ok r →
    r.groups = (l.filter fun p => !p.nodes.isEmpty).map (fun p => ⟨p.id, p.nodes.map fun n => [n, n]⟩) ∧
      r.points = l.filter (fun p => p.nodes.isEmpty) ∧
      r.segments.length = (l.filter fun p => !p.nodes.isEmpty).length
  | [], r, h => by cases h; exact ⟨rfl, rfl, rfl⟩
  | p :: l, r, h => by
    unfold convert0D at h
    split at h
    · rename_i hp
      cases h1 : convert0D l with
      | ok a =>
        rw [h1] at h
        obtain ⟨e1, e2, e3⟩ := C123_groups l a h1
        cases h
        refine ⟨?_, ?_, ?_⟩
        · simp [hp, e1]
        · simp [hp, e2]
        · simp [hp, e3]
      | _ => rw [h1] at h; cases h
    · rename_i hp
      cases h0 : convertOne p with
      | ok b =>
        rw [h0] at h
        cases h1 : convert0D l with
        | ok a =>
          rw [h1] at h
          obtain ⟨e1, e2, e3⟩ := C123_groups l a h1
          cases h
          refine ⟨?_, ?_, ?_⟩
          · simp [hp, e1, (convertOne_cells (s := b.1) (g := b.2) h0).2]
          · simp [hp, e2]
          · simp [hp, e3]
        | _ => rw [h1] at h; cases h
      | _ => rw [h0] at h; cases h

/-- **C123 (false).** The group is given to nobody: no segment that comes from a point has a cell, whatever nodes the point
had, so that what was fixed to these nodes is nowhere any more. -/
theorem C123_cells_false : ∀ (l : List PointSet) (r : Converted), convert0D l = .ok r →
    ∀ s ∈ r.segments, s.cells = []
  | [], r, h => by cases h; intro s hs; cases hs
  | p :: l, r, h => by
    unfold convert0D at h
    split at h
    · cases h1 : convert0D l with
      | ok a =>
        rw [h1] at h
        have := C123_cells_false l a h1
        cases h
        exact this
      | _ => rw [h1] at h; cases h
    · cases h0 : convertOne p with
      | ok b =>
        rw [h0] at h
        cases h1 : convert0D l with
        | ok a =>
          rw [h1] at h
          have := C123_cells_false l a h1
          cases h
          intro s hs
          rw [List.mem_cons] at hs
          rcases hs with rfl | hs
          · exact (convertOne_cells (s := b.1) (g := b.2) h0).1
          · exact this s hs
        | _ => rw [h1] at h; cases h
      | _ => rw [h0] at h; cases h

example : ∃ r, convert0D [⟨7, .new .DIAGONAL, [1, 2]⟩, ⟨8, .new .FULL, []⟩] = .ok r ∧
    r.groups = [⟨7, [[1, 1], [2, 2]]⟩] ∧ r.points.length = 1 ∧ r.segments.length = 1 := by
  obtain ⟨s, e, -⟩ := copyPoint_ok (.new .DIAGONAL) (fun _ => rfl)
  refine ⟨⟨[⟨8, .new .FULL, []⟩], [⟨s, []⟩], [⟨7, [[1, 1], [2, 2]]⟩]⟩, ?_, rfl, rfl, rfl⟩
  simp [convert0D, convertOne, e]

end Segments
end Vega
