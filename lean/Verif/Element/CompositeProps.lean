import Mathlib.Algebra.BigOperators.Group.List.Basic
import Mathlib.Tactic.Linarith
import Mathlib.Tactic.Ring
import Verif.Element.Composite

/-! # Properties of composites (C49, C65, C66, C67) -/
namespace Vega.CompositeSpec
open Composite

/-! ### specification -/

/-- The sum of the thicknesses of plies. -/
def sumThickness (ps : List Ply) : Dbl := (ps.map (·.thickness)).sum

/-- The plies a list of ply fields stands for, given the material and the thickness of the ply
before them: a blank material or thickness repeats the last one given, a blank angle is zero, and
the list ends at the first group of four blanks. -/
def meant (mid : Int) (t : Dbl) : List PlyFields → List Ply
  | [] => []
  | p :: ps =>
    match p with
    | ⟨none, none, none, false⟩ => []
    | ⟨m, u, a, _⟩ =>
      ⟨m.getD mid, u.getD t, a.getD 0⟩ :: meant (m.getD mid) (u.getD t) ps

/-- All the cells of a list of parts. -/
def allCells {α} (ps : List (OffsetPart α)) : List (Nat × Dbl) := ps.flatMap (·.cells)

/-- A part `q` of the result suits a cell of the part `p`: same thickness, material or layers, and
the offset of the part and the one of the cell together. -/
def Suits {α} (p : OffsetPart α) (c : Nat × Dbl) (q : OffsetPart α) : Prop :=
  q.data = p.data ∧ |q.offset - (p.offset + c.2)| ≤ tol

/-- Splitting changes the offset of no cell and moves none to another property: each cell is in a
suitable part, and in no other. -/
def Faithful {α} (before after : List (OffsetPart α)) : Prop :=
  (∀ p ∈ before, ∀ c ∈ p.cells, ∃ q ∈ after, c ∈ q.cells ∧ Suits p c q) ∧
  ∀ q ∈ after, ∀ c ∈ q.cells, ∃ p ∈ before, c ∈ p.cells ∧ Suits p c q

/-- Cells whose offsets have the same rounded sixth power may share a part. -/
def Separated {α} (ps : List (OffsetPart α)) : Prop :=
  ∀ p ∈ ps, ∀ c ∈ p.cells, ∀ p' ∈ ps, ∀ c' ∈ p'.cells,
    OffsetPart.key c.2 = OffsetPart.key c'.2 → p.data = p'.data ∧ p.offset + c.2 = p'.offset + c'.2

/-- An orthotropic material behaves as an isotropic one, but for its density and expansion. -/
def SameStiffness (o : Ortho) (e : Elastic) : Prop :=
  o.eL = e.getE ∧ o.eT = e.getE ∧ o.nuLT = e.getNu ∧ o.gLT = e.getG ∧ o.gTN = e.getG ∧ o.gLN = e.getG

/-- What a ply becomes: same thickness and angle; an orthotropic material is kept, an isotropic one
becomes an orthotropic one of the same stiffness, and of the same density if `density`. -/
def Becomes (density : Bool) (k : Option Dbl) (before after : Map Int Mat) (p p' : Ply) : Prop :=
  p'.thickness = p.thickness ∧ p'.orientation = p.orientation ∧
  ∃ m m' o, before.find p.mat = some m ∧ after.find p'.mat = some m' ∧ m'.ortho = some o ∧
    (m.ortho = some o ∨
      m.ortho = none ∧ ∃ e, m.elastic = some e ∧ SameStiffness o e ∧
        (density = true → o.getRho k = e.getRho k))

/-! ### helper lemmas -/

theorem addThicknesses_eq (t : Dbl) (ps : List Ply) : addThicknesses t ps = t + sumThickness ps := by
  induction ps generalizing t with
  | nil => simp [addThicknesses, sumThickness]
  | cons p ps ih => simp only [addThicknesses, ih, sumThickness, List.map_cons, List.sum_cons]; ring

theorem sumThickness_append (a b : List Ply) :
    sumThickness (a ++ b) = sumThickness a + sumThickness b := by
  simp [sumThickness]

theorem sumThickness_reverse (a : List Ply) : sumThickness a.reverse = sumThickness a := by
  simp only [sumThickness, List.map_reverse, List.sum_reverse]

theorem laminate_ok {lam ft : String} {o : Laminate} (hft : ft ∈ failureTheories)
    (h : laminate lam ft = .ok o) : (lam = "" ∧ o = .full) ∨ (lam = "SYM" ∧ o = .sym) := by
  unfold laminate at h
  split at h
  · cases h; exact .inl ⟨by assumption, rfl⟩
  split at h
  · cases h; exact .inr ⟨by assumption, rfl⟩
  exfalso
  simp only [failureTheories, List.mem_cons, List.not_mem_nil, or_false] at hft
  rcases hft with rfl | rfl | rfl | rfl | rfl | rfl | rfl | rfl | rfl | rfl <;> revert h <;> simp

/-- What a card that is accepted becomes. -/
theorem pcomp_ok {k : PcompCard} {c : Composite} (h : pcomp k = .ok c) :
    ((k.lam = "" ∧ c.option = .full) ∨ (k.lam = "SYM" ∧ c.option = .sym)) ∧
    c.layers = ⟨k.mid1, k.t1, k.theta1.getD 0⟩ ::
      furtherPlies k.mid1 k.t1 (k.theta1.getD 0) k.plies ∧
    offsetOf k.z0 ⟨c.layers, c.option, 0⟩ = .ok c.offset := by
  unfold pcomp at h
  split at h
  · cases h
  split at h
  · cases h
  rename_i hft
  split at h
  · cases h
  cases hl : laminate k.lam k.ft with
  | ok o =>
    rw [hl, Outcome.bind_ok] at h
    generalize hL : (⟨k.mid1, k.t1, k.theta1.getD 0⟩ ::
      furtherPlies k.mid1 k.t1 (k.theta1.getD 0) k.plies : List Ply) = L at h
    cases ho : offsetOf k.z0 ⟨L, o, 0⟩ with
    | ok off =>
      simp only [ho, Outcome.bind_ok, Outcome.ok.injEq] at h
      subst h
      exact ⟨laminate_ok (by simpa using hft) hl, rfl, ho⟩
    | _ => simp [ho] at h
  | _ => simp [hl] at h

theorem modify_perm {α} (c : Nat × Dbl) (l : List (OffsetPart α)) (i : Nat) (h : i < l.length) :
    (allCells (l.modify i (OffsetPart.addCell c))).Perm (allCells l ++ [c]) := by
  induction l generalizing i with
  | nil => simp at h
  | cons p l ih =>
    cases i with
    | zero =>
      simp only [List.modify_zero_cons, allCells, List.flatMap_cons, OffsetPart.addCell]
      rw [List.append_assoc, List.append_assoc]
      exact List.Perm.append_left _ List.perm_append_comm
    | succ i =>
      simp only [List.modify_succ_cons, allCells, List.flatMap_cons, List.append_assoc]
      exact List.Perm.append_left _ (ih i (by simpa using h))

section split
variable {α : Type}
open OffsetPart

/-- The indices kept by key are valid. -/
def Valid (s : SplitState α) : Prop := ∀ k i, s.byKey.find k = some i → i < s.added.length

theorem splitCell_valid {p : OffsetPart α} {s : SplitState α} {c : Nat × Dbl} (h : Valid s) :
    Valid (splitCell p s c) := by
  intro k i hk
  unfold splitCell at hk ⊢
  split at hk
  · simp only [Map.find_set] at hk
    simp only [List.length_append, List.length_singleton]
    split at hk
    · cases hk; omega
    · have := h k i hk; omega
  · rename_i j hj
    simp only [List.length_modify]
    exact h k i hk

theorem splitCell_cells {p : OffsetPart α} {s : SplitState α} {c : Nat × Dbl} (h : Valid s) :
    (allCells (splitCell p s c).added).Perm (allCells s.added ++ [c]) := by
  unfold splitCell
  split
  · simp [allCells]
  · rename_i j hj
    exact modify_perm c _ j (h _ _ hj)

theorem splitCells_cells {p : OffsetPart α} {cs : List (Nat × Dbl)} {s : SplitState α} (h : Valid s) :
    Valid (cs.foldl (splitCell p) s) ∧
      (allCells (cs.foldl (splitCell p) s).added).Perm (allCells s.added ++ cs) := by
  induction cs generalizing s with
  | nil => simpa using h
  | cons c cs ih =>
    simp only [List.foldl_cons]
    obtain ⟨h1, h2⟩ := ih (splitCell_valid (p := p) (c := c) h)
    refine ⟨h1, h2.trans ?_⟩
    have := (splitCell_cells (p := p) (c := c) h).append_right cs
    simpa using this

theorem splitParts_cells {ps : List (OffsetPart α)} {s : SplitState α} (h : Valid s) :
    (allCells (ps.foldl splitPart s).added).Perm
      (allCells s.added ++ allCells (ps.filter fun p => p.containsNonzeroOffsetCell)) := by
  induction ps generalizing s with
  | nil => simp [allCells]
  | cons p ps ih =>
    simp only [List.foldl_cons]
    cases hp : p.containsNonzeroOffsetCell with
    | false =>
      rw [List.filter_cons_of_neg (by simp [hp])]
      have e : splitPart s p = s := by simp [splitPart, hp]
      rw [e]
      exact ih h
    | true =>
      rw [List.filter_cons_of_pos (by simp [hp])]
      have e : splitPart s p = p.cells.foldl (splitCell p) s := by simp [splitPart, hp]
      rw [e]
      obtain ⟨h1, h2⟩ := splitCells_cells (p := p) (cs := p.cells) h
      refine (ih h1).trans ?_
      have := h2.append_right (allCells (ps.filter fun p => p.containsNonzeroOffsetCell))
      simpa [allCells] using this

/-- All cells placed so far are in a part made for them; parts kept by key belong to the key. -/
def Good (ps : List (OffsetPart α)) (s : SplitState α) : Prop :=
  (∀ k i, s.byKey.find k = some i → ∃ q, s.added[i]? = some q ∧ ∃ p ∈ ps, ∃ c ∈ p.cells,
    key c.2 = k ∧ q.data = p.data ∧ q.offset = p.offset + c.2) ∧
  ∀ q ∈ s.added, ∀ c ∈ q.cells, ∃ p ∈ ps, c ∈ p.cells ∧ q.data = p.data ∧ q.offset = p.offset + c.2

theorem splitCell_good {ps : List (OffsetPart α)} (hs : Separated ps) {p : OffsetPart α} (hp : p ∈ ps)
    {s : SplitState α} {c : Nat × Dbl} (hc : c ∈ p.cells) (h : Good ps s) :
    Good ps (splitCell p s c) := by
  obtain ⟨h1, h2⟩ := h
  unfold splitCell
  split
  · refine ⟨?_, ?_⟩
    · intro k i hk
      simp only [Map.find_set] at hk
      split at hk
      · rename_i hkk
        cases hk
        exact ⟨⟨p.data, p.offset + c.2, [c]⟩, by simp, p, hp, c, hc, hkk, rfl, rfl⟩
      · obtain ⟨q, hq, rest⟩ := h1 k i hk
        refine ⟨q, ?_, rest⟩
        rw [List.getElem?_append_left]
        · exact hq
        · exact (List.getElem?_eq_some_iff.mp hq).1
    · intro q hq d hd
      rcases List.mem_append.mp hq with hq | hq
      · exact h2 q hq d hd
      · simp only [List.mem_singleton] at hq
        subst hq
        simp only [List.mem_singleton] at hd
        subst hd
        exact ⟨p, hp, hc, rfl, rfl⟩
  · rename_i j hj
    obtain ⟨q0, hq0, p0, hp0, c0, hc0, hk0, hd0, ho0⟩ := h1 _ _ hj
    refine ⟨?_, ?_⟩
    · intro k i hk
      obtain ⟨q, hq, rest⟩ := h1 k i hk
      simp only [List.getElem?_modify, hq]
      by_cases hji : j = i
      · exact ⟨addCell c q, by simp [hji], rest⟩
      · exact ⟨q, by simp [hji], rest⟩
    · intro q hq d hd
      obtain ⟨i, hi⟩ := List.mem_iff_getElem?.mp hq
      rw [List.getElem?_modify] at hi
      cases ha : s.added[i]? with
      | none => rw [ha] at hi; simp at hi
      | some q1 =>
        rw [ha] at hi
        have hm : q1 ∈ s.added := List.mem_of_getElem? ha
        by_cases hji : j = i
        · subst hji
          simp only [if_true] at hi
          cases hi
          rw [hq0] at ha
          cases ha
          rcases List.mem_append.mp hd with hd | hd
          · exact h2 q0 hm d hd
          · simp only [List.mem_singleton] at hd
            subst hd
            obtain ⟨e1, e2⟩ := hs p hp d hc p0 hp0 c0 hc0 hk0.symm
            exact ⟨p, hp, hc, hd0.trans e1.symm, ho0.trans e2.symm⟩
        · simp only [hji, if_false] at hi
          cases hi
          exact h2 q1 hm d hd

theorem splitCells_good {ps : List (OffsetPart α)} (hs : Separated ps) {p : OffsetPart α} (hp : p ∈ ps)
    {cs : List (Nat × Dbl)} (hc : ∀ c ∈ cs, c ∈ p.cells) {s : SplitState α} (h : Good ps s) :
    Good ps (cs.foldl (splitCell p) s) := by
  induction cs generalizing s with
  | nil => exact h
  | cons c cs ih =>
    exact ih (fun d hd => hc d (List.mem_cons_of_mem _ hd))
      (splitCell_good hs hp (hc c (List.mem_cons_self ..)) h)

theorem splitParts_good {all ps : List (OffsetPart α)} (hs : Separated all) (hp : ∀ p ∈ ps, p ∈ all)
    {s : SplitState α} (h : Good all s) : Good all (ps.foldl splitPart s) := by
  induction ps generalizing s with
  | nil => exact h
  | cons p ps ih =>
    refine ih (fun q hq => hp q (List.mem_cons_of_mem _ hq)) ?_
    unfold splitPart
    split
    · exact h
    · exact splitCells_good hs (hp p (List.mem_cons_self ..)) (fun _ h => h) h

theorem suits_unsplit {p : OffsetPart α} (h : p.containsNonzeroOffsetCell = false) {c : Nat × Dbl}
    (hc : c ∈ p.cells) : Suits p c p := by
  refine ⟨rfl, ?_⟩
  have : isZero c.2 = true := by
    unfold containsNonzeroOffsetCell at h
    rw [List.any_eq_false] at h
    simpa using h c hc
  have hz : |c.2| ≤ tol := by simpa [isZero] using this
  rwa [show p.offset - (p.offset + c.2) = -c.2 by ring, abs_neg]

end split

/-! ### C49: laminates -/

/-- **C49** a symmetric laminate is its plies followed by the same plies backwards; read backwards
it is the same, it has twice the plies and twice the thickness. -/
theorem C49_sym (c : Composite) (h : c.option = .sym) :
    ∃ ps, c.getFullLayers = .ok ps ∧ ps = c.layers ++ c.layers.reverse ∧ ps.reverse = ps ∧
      ps.length = 2 * c.layers.length ∧
      c.getTotalThickness = .ok (2 * sumThickness c.layers) := by
  refine ⟨c.layers ++ c.layers.reverse, by simp [getFullLayers, h], rfl, by simp, by simp; omega, ?_⟩
  simp only [getTotalThickness, getFullLayers, h, Outcome.bind_ok, addThicknesses_eq,
    sumThickness_append, sumThickness_reverse]
  congr 1; ring

/-- **C49** any other laminate that is accepted is its plies. -/
theorem C49_full (c : Composite) (h : c.option = .full) :
    c.getFullLayers = .ok c.layers ∧ c.getTotalThickness = .ok (sumThickness c.layers) := by
  refine ⟨by simp [getFullLayers, h], ?_⟩
  simp only [getTotalThickness, getFullLayers, h, Outcome.bind_ok, addThicknesses_eq]
  congr 1; ring

/-- **C49** the remaining options are refused, not treated as one of these. -/
theorem C49_refused (c : Composite) (h1 : c.option ≠ .sym) (h2 : c.option ≠ .full) :
    c.getFullLayers = .throw ∧ c.getTotalThickness = .throw := by
  have : c.getFullLayers = .throw := by
    unfold getFullLayers
    cases h : c.option <;> simp_all
  exact ⟨this, by simp [getTotalThickness, this]⟩

/-- **C49** on a `PCOMP` card a blank laminate option is the full one and `SYM` the symmetric one;
a card with another option is refused. -/
theorem C49_card (k : PcompCard) :
    (∀ c, pcomp k = .ok c → (k.lam = "" ∧ c.option = .full) ∨ (k.lam = "SYM" ∧ c.option = .sym)) ∧
    (k.lam ≠ "" → k.lam ≠ "SYM" → ∀ c, pcomp k ≠ .ok c) := by
  refine ⟨fun c h => (pcomp_ok h).1, fun h1 h2 c h => ?_⟩
  rcases (pcomp_ok h).1 with h | h
  · exact h1 h.1
  · exact h2 h.1

/-- **C49** exactly these cards are accepted: no mass, a known failure theory, nothing in the fields
that are not read, and a blank or symmetric laminate option. -/
theorem C49_accepted (k : PcompCard) :
    (∃ c, pcomp k = .ok c) ↔
      k.nsmZero = true ∧ k.ft ∈ ["", "HILL", "HOFF", "TSAI", "STRESS", "STRAIN", "STRN", "LARC02", "PUCK", "MCT"] ∧
      k.otherBlank = true ∧ (k.lam = "" ∨ k.lam = "SYM") := by
  constructor
  · rintro ⟨c, h⟩
    have h1 := (pcomp_ok h).1
    unfold pcomp at h
    split at h
    · cases h
    rename_i g1
    split at h
    · cases h
    rename_i g2
    split at h
    · cases h
    rename_i g3
    refine ⟨by simpa using g1, not_not.mp g2, by simpa using g3, ?_⟩
    rcases h1 with h1 | h1
    · exact .inl h1.1
    · exact .inr h1.1
  · rintro ⟨g1, g2, g3, h⟩
    have hl : ∃ o, laminate k.lam k.ft = .ok o ∧ (o = .full ∨ o = .sym) := by
      rcases h with h | h
      · exact ⟨.full, by simp [laminate, h], .inl rfl⟩
      · exact ⟨.sym, by simp [laminate, h], .inr rfl⟩
    obtain ⟨o, ho, hs⟩ := hl
    have hf : k.ft ∈ failureTheories := g2
    have ht : ∀ l : List Ply, ∃ t, Composite.getTotalThickness ⟨l, o, 0⟩ = .ok t := by
      intro l
      rcases hs with rfl | rfl
      · exact ⟨_, rfl⟩
      · exact ⟨_, rfl⟩
    unfold pcomp
    simp only [g1, g3, hf, ho, not_true_eq_false, Bool.not_true, Bool.false_eq_true, if_false, Outcome.bind_ok]
    obtain ⟨t, ht⟩ := ht (⟨k.mid1, k.t1, k.theta1.getD 0⟩ ::
      furtherPlies k.mid1 k.t1 (k.theta1.getD 0) k.plies)
    cases hz : k.z0 with
    | none => exact ⟨_, by simp [offsetOf, ht]; rfl⟩
    | some z => exact ⟨_, by simp [offsetOf]; rfl⟩

/-- Three plies, symmetric: six in all. -/
example : (⟨[⟨1, 1, 0⟩, ⟨2, 3, 45⟩, ⟨1, 1, 90⟩], .sym, 0⟩ : Composite).getFullLayers =
    .ok [⟨1, 1, 0⟩, ⟨2, 3, 45⟩, ⟨1, 1, 90⟩, ⟨1, 1, 90⟩, ⟨2, 3, 45⟩, ⟨1, 1, 0⟩] := rfl

/-! ### C65: defaults of the `PCOMP` card -/

/-- **C65** what a ply gives is kept, ply by ply in the order of the card, up to the first group of
four blanks. -/
theorem C65_given (k : PcompCard) (c : Composite) (h : pcomp k = .ok c) :
    c.layers.length = 1 + (k.plies.takeWhile fun p => !p.empty).length ∧
    ∀ i p, (k.plies.takeWhile fun p => !p.empty)[i]? = some p → ∃ q, c.layers[i + 1]? = some q ∧
      (∀ m, p.mid = some m → q.mat = m) ∧ (∀ t, p.t = some t → q.thickness = t) ∧
      ∀ a, p.theta = some a → q.orientation = a := by
  rw [(pcomp_ok h).2.1]
  generalize k.theta1.getD 0 = th
  generalize k.plies = ps
  have key : ∀ ps : List PlyFields, furtherPlies k.mid1 k.t1 th ps =
      (ps.takeWhile fun p => !p.empty).map
        fun p => ⟨p.mid.getD k.mid1, p.t.getD k.t1, p.theta.getD th⟩ := by
    intro ps
    induction ps with
    | nil => rfl
    | cons p ps ih =>
      cases hp : p.empty <;> simp [furtherPlies, hp, ih]
  rw [key]
  refine ⟨by simp; omega, fun i p hp => ?_⟩
  refine ⟨⟨p.mid.getD k.mid1, p.t.getD k.t1, p.theta.getD th⟩, by simp [hp], ?_, ?_, ?_⟩
  · intro m hm; simp [hm]
  · intro m hm; simp [hm]
  · intro m hm; simp [hm]

/-- **C65** the first ply is the one of the card, with the angle zero if it gives none, and an offset
that is given is kept. -/
theorem C65_first (k : PcompCard) (c : Composite) (h : pcomp k = .ok c) :
    (∃ q, c.layers[0]? = some q ∧ q.mat = k.mid1 ∧ q.thickness = k.t1 ∧
      (∀ a, k.theta1 = some a → q.orientation = a) ∧ (k.theta1 = none → q.orientation = 0)) ∧
    ∀ z, k.z0 = some z → c.offset = z := by
  have ho := (pcomp_ok h).2.2
  rw [(pcomp_ok h).2.1]
  refine ⟨⟨_, rfl, rfl, rfl, ?_, ?_⟩, ?_⟩
  · intro a ha; simp [ha]
  · intro ha; simp [ha]
  · intro z hz
    rw [hz] at ho
    simp only [offsetOf, Outcome.ok.injEq] at ho
    exact ho.symm

/-- **C65** blanks stand for what they should when the angle of the first ply is zero and no later
ply gives another material or thickness. Missing: the other cards, for which it is false. -/
theorem C65_blank_partial (k : PcompCard) (c : Composite) (h : pcomp k = .ok c)
    (ha : k.theta1.getD 0 = 0) (hm : ∀ p ∈ k.plies, ∀ m, p.mid = some m → m = k.mid1)
    (ht : ∀ p ∈ k.plies, ∀ t, p.t = some t → t = k.t1) :
    c.layers = ⟨k.mid1, k.t1, 0⟩ :: meant k.mid1 k.t1 k.plies := by
  rw [(pcomp_ok h).2.1, ha]
  congr 1
  generalize k.plies = ps at hm ht
  induction ps with
  | nil => rfl
  | cons p ps ih =>
    have hm' := hm p (List.mem_cons_self ..)
    have ht' := ht p (List.mem_cons_self ..)
    have i := ih (fun q hq => hm q (List.mem_cons_of_mem _ hq)) fun q hq =>
      ht q (List.mem_cons_of_mem _ hq)
    have e1 : p.mid.getD k.mid1 = k.mid1 := by
      cases hp : p.mid with
      | none => rfl
      | some m => exact hm' m hp
    have e2 : p.t.getD k.t1 = k.t1 := by
      cases hp : p.t with
      | none => rfl
      | some m => exact ht' m hp
    obtain ⟨m, t, a, b⟩ := p
    simp only at e1 e2
    clear hm ht hm' ht' ih h ha
    cases m <;> cases t <;> cases a <;> cases b <;>
      simp only [furtherPlies, PlyFields.empty, meant, Option.isNone_none, Option.isNone_some,
        Bool.and_true, Bool.and_false, Bool.not_true, Bool.not_false, Bool.true_and, Bool.false_and,
        Bool.false_eq_true, if_true, if_false, e1, e2, i]

/-- **C65** is false of blank materials: after plies of materials 1 and 2, a ply without material is
of material 1. -/
theorem C65_material_false :
    ∃ k c, pcomp k = .ok c ∧ k.theta1.getD 0 = 0 ∧
      c.layers ≠ ⟨k.mid1, k.t1, 0⟩ :: meant k.mid1 k.t1 k.plies := by
  refine ⟨⟨some 0, true, "", true, "", 1, 1, none,
      [⟨some 2, none, none, false⟩, ⟨none, none, some 45, false⟩]⟩,
    ⟨[⟨1, 1, 0⟩, ⟨2, 1, 0⟩, ⟨1, 1, 45⟩], .full, 0⟩, rfl, rfl, ?_⟩
  simp [meant]

/-- **C65** is false of blank angles: they repeat the angle of the first ply. -/
theorem C65_angle_false :
    ∃ k c, pcomp k = .ok c ∧
      c.layers ≠ ⟨k.mid1, k.t1, k.theta1.getD 0⟩ :: meant k.mid1 k.t1 k.plies := by
  refine ⟨⟨some 0, true, "", true, "", 1, 1, some 45, [⟨none, some 1, none, false⟩]⟩,
    ⟨[⟨1, 1, 45⟩, ⟨1, 1, 45⟩], .full, 0⟩, rfl, ?_⟩
  simp [meant]

/-- **C65** is false of a blank `Z0` on every card whose plies have a thickness: it is not the same
as minus half the thickness, but plus half of it. -/
theorem C65_z0_false (k : PcompCard) (c : Composite) (t : Dbl) (h : pcomp { k with z0 := none } = .ok c)
    (ht : c.getTotalThickness = .ok t) (h0 : t ≠ 0) :
    c.offset = t / 2 ∧ ∃ c', pcomp { k with z0 := some (-(t / 2)) } = .ok c' ∧ c'.layers = c.layers ∧
      c'.offset ≠ c.offset := by
  have ho := (pcomp_ok h).2.2
  have ht' : Composite.getTotalThickness ⟨c.layers, c.option, 0⟩ = .ok t := ht
  have hc : c.offset = t / 2 := by
    simp only [offsetOf, ht', Outcome.bind_ok, Outcome.ok.injEq] at ho
    exact ho.symm
  refine ⟨hc, ⟨c.layers, c.option, -(t / 2)⟩, ?_, rfl, ?_⟩
  · have hl := (pcomp_ok h).2.1
    unfold pcomp at h ⊢
    simp only at h ⊢
    split at h
    · cases h
    rename_i g1
    split at h
    · cases h
    rename_i g2
    split at h
    · cases h
    rename_i g3
    rw [if_neg g1, if_neg g2, if_neg g3]
    cases hla : laminate k.lam k.ft with
    | ok o =>
      rw [hla, Outcome.bind_ok] at h
      rw [Outcome.bind_ok]
      simp only [offsetOf, Outcome.bind_ok] at h ⊢
      cases hg : Composite.getTotalThickness ⟨⟨k.mid1, k.t1, k.theta1.getD 0⟩ ::
          furtherPlies k.mid1 k.t1 (k.theta1.getD 0) k.plies, o, 0⟩ with
      | ok u => rw [hg] at h; cases h; rfl
      | _ => simp [hg] at h
    | _ => simp [hla] at h
  · rw [hc]
    intro hh
    simp only at hh
    exact h0 (by linarith)

/-- A card the last theorem is about. -/
example : ∃ c t, pcomp ⟨none, true, "TSAI", true, "SYM", 1, 2, none, [⟨none, some 1, some 90, false⟩]⟩ =
    .ok c ∧ c.getTotalThickness = .ok t ∧ t ≠ 0 := by
  refine ⟨⟨[⟨1, 2, 0⟩, ⟨1, 1, 90⟩], .sym, 3⟩, 6, ?_, ?_, by norm_num⟩
  · simp [pcomp, failureTheories, laminate, furtherPlies, PlyFields.empty, offsetOf,
      getTotalThickness, getFullLayers, addThicknesses]
    norm_num
  · simp [getTotalThickness, getFullLayers, addThicknesses]
    norm_num

/-! ### C66: splitting by offsets -/

/-- **C66** splitting loses no cell and repeats none. -/
theorem C66_cells {α} (ps : List (OffsetPart α)) : (allCells (OffsetPart.split ps)).Perm (allCells ps) := by
  unfold OffsetPart.split
  have h := splitParts_cells (ps := ps) (s := ⟨[], []⟩) (by intro k i h; simp at h)
  have e : allCells (ps.filter (fun p => !p.containsNonzeroOffsetCell) ++
      (ps.foldl OffsetPart.splitPart ⟨[], []⟩).added) =
      allCells (ps.filter fun p => !p.containsNonzeroOffsetCell) ++
      allCells (ps.foldl OffsetPart.splitPart ⟨[], []⟩).added := by simp [allCells]
  rw [e]
  refine (h.append_left _).trans ?_
  simp only [allCells, List.flatMap_nil, List.nil_append]
  rw [← List.flatMap_append]
  refine List.Perm.flatMap_right _ ?_
  have := List.filter_append_perm (fun p : OffsetPart α => !p.containsNonzeroOffsetCell) ps
  simpa using this

/-- **C66** when cells whose offsets have the same rounded sixth power belong together, each cell
ends in a part with its property and its offset. Missing: all other models, for which it is false. -/
theorem C66_partial {α} (ps : List (OffsetPart α)) (hs : Separated ps) :
    Faithful ps (OffsetPart.split ps) := by
  have hg : Good ps (ps.foldl OffsetPart.splitPart ⟨[], []⟩) :=
    splitParts_good hs (fun _ h => h) ⟨fun k i h => by simp at h, fun q h => by simp at h⟩
  have back : ∀ q ∈ OffsetPart.split ps, ∀ c ∈ q.cells, ∃ p ∈ ps, c ∈ p.cells ∧ Suits p c q := by
    intro q hq c hc
    rcases List.mem_append.mp hq with h | h
    · obtain ⟨h1, h2⟩ := List.mem_filter.mp h
      exact ⟨q, h1, hc, suits_unsplit (by simpa using h2) hc⟩
    · obtain ⟨p, hp, hcp, hd, ho⟩ := hg.2 q h c hc
      refine ⟨p, hp, hcp, hd, ?_⟩
      rw [ho]; simp [tol_pos.le]
  refine ⟨fun p hp c hc => ?_, back⟩
  have hm : c ∈ allCells (OffsetPart.split ps) :=
    (C66_cells ps).mem_iff.mpr (List.mem_flatMap.mpr ⟨p, hp, hc⟩)
  obtain ⟨q, hq, hcq⟩ := List.mem_flatMap.mp hm
  obtain ⟨p', hp', hcp', hsu⟩ := back q hq c hcq
  obtain ⟨e1, e2⟩ := hs p hp c hc p' hp' c hcp' rfl
  exact ⟨q, hq, hcq, hsu.1.trans e1.symm, by rw [e2]; exact hsu.2⟩

/-- A shell with cells of offsets 0, 1 and 2. -/
example : Separated [(⟨5, 0, [(1, 0), (2, 1), (3, 2), (4, 1)]⟩ : OffsetPart Nat)] := by
  intro p hp c hc p' hp' c' hc' h
  simp only [List.mem_singleton] at hp hp'
  subst hp hp'
  simp only [List.mem_cons, List.not_mem_nil, or_false] at hc hc'
  have k0 : OffsetPart.key 0 = 0 := by decide +kernel
  have k1 : OffsetPart.key 1 = 1 := by decide +kernel
  have k2 : OffsetPart.key 2 = 64 := by decide +kernel
  rcases hc with rfl | rfl | rfl | rfl <;> rcases hc' with rfl | rfl | rfl | rfl <;>
    simp_all

/-- **C66** is false of two cells of one shell with the offsets 1/2 and 1/4: both get 1/2. -/
theorem C66_rounding_false :
    ∃ ps : List (OffsetPart Nat), ¬ Faithful ps (OffsetPart.split ps) := by
  refine ⟨[⟨1, 0, [(1, 1/2), (2, 1/4)]⟩], fun h => ?_⟩
  have e : OffsetPart.split [(⟨1, 0, [(1, 1/2), (2, 1/4)]⟩ : OffsetPart Nat)] =
      [⟨1, 0 + 1/2, [(1, 1/2), (2, 1/4)]⟩] := by
    have k1 : OffsetPart.key (1/2) = 0 := by decide +kernel
    have k2 : OffsetPart.key (1/4) = 0 := by decide +kernel
    have z : isZero (1/2) = false := by decide +kernel
    simp only [OffsetPart.split, List.foldl, OffsetPart.splitPart, OffsetPart.containsNonzeroOffsetCell,
      List.any, z, OffsetPart.splitCell, k1, k2, Map.find, Map.set, List.filter]
    rfl
  obtain ⟨q, hq, _, _, ho⟩ := h.1 _ (List.mem_singleton.mpr rfl) (2, 1/4) (by simp)
  rw [e] at hq
  simp only [List.mem_singleton] at hq
  subst hq
  norm_num [tol] at ho

theorem key_small {x : Dbl} (h : |x| ≤ 4 / 5) : OffsetPart.key x = 0 := by
  have h0 : 0 ≤ x ^ 6 := by positivity
  have h1 : x ^ 6 ≤ (4 / 5) ^ 6 := by
    have : x ^ 6 = |x| ^ 6 := by rw [← abs_pow, abs_of_nonneg h0]
    rw [this]
    exact pow_le_pow_left₀ (abs_nonneg x) h 6
  have h2 : ((4 : ℚ) / 5) ^ 6 < 1 / 2 := by norm_num
  unfold OffsetPart.key
  rw [Int.floor_eq_iff]
  constructor
  · push_cast; linarith
  · push_cast; linarith

theorem split_small {α} (p : OffsetPart α) (c : Nat × Dbl) (cs : List (Nat × Dbl)) :
    ∀ done : List (Nat × Dbl), (∀ c ∈ cs, |c.2| ≤ 4 / 5) →
    cs.foldl (OffsetPart.splitCell p) ⟨[(0, 0)], [⟨p.data, p.offset + c.2, done⟩]⟩ =
      ⟨[(0, 0)], [⟨p.data, p.offset + c.2, done ++ cs⟩]⟩ := by
  induction cs with
  | nil => intro done _; simp
  | cons d cs ih =>
    intro done h
    have hk := key_small (h d (by simp))
    rw [List.foldl_cons]
    have e : OffsetPart.splitCell p ⟨[(0, 0)], [⟨p.data, p.offset + c.2, done⟩]⟩ d =
        ⟨[(0, 0)], [⟨p.data, p.offset + c.2, done ++ [d]⟩]⟩ := by
      unfold OffsetPart.splitCell
      rw [hk]
      rfl
    rw [e, ih _ fun x hx => h x (by simp [hx])]
    simp

/-- **C66** is false of every shell whose cells have offsets up to 4/5, two of them different: all its
cells get the offset of the first one. -/
theorem C66_small_false {α} (p : OffsetPart α) (hs : ∀ c ∈ p.cells, |c.2| ≤ 4 / 5)
    (c1 c2 : Nat × Dbl) (h1 : c1 ∈ p.cells) (h2 : c2 ∈ p.cells) (hd : 2 * tol < |c1.2 - c2.2|) :
    (∃ c, p.cells.head? = some c ∧ OffsetPart.split [p] = [⟨p.data, p.offset + c.2, p.cells⟩]) ∧
    ¬ Faithful [p] (OffsetPart.split [p]) := by
  have hnz : p.containsNonzeroOffsetCell = true := by
    unfold OffsetPart.containsNonzeroOffsetCell
    rw [List.any_eq_true]
    by_contra hc
    push Not at hc
    have z : ∀ c ∈ p.cells, |c.2| ≤ tol := by
      intro c hcm
      have := hc c hcm
      simp [isZero] at this
      linarith
    have a1 := z c1 h1
    have a2 := z c2 h2
    have := abs_sub c1.2 c2.2
    linarith
  have hsplit : ∃ c, p.cells.head? = some c ∧
      OffsetPart.split [p] = [⟨p.data, p.offset + c.2, p.cells⟩] := by
    cases hcs : p.cells with
    | nil => rw [hcs] at h1; cases h1
    | cons c cs =>
      refine ⟨c, rfl, ?_⟩
      have hk := key_small (hs c (by simp [hcs]))
      have e : OffsetPart.splitCell p ⟨[], []⟩ c = ⟨[(0, 0)], [⟨p.data, p.offset + c.2, [c]⟩]⟩ := by
        unfold OffsetPart.splitCell
        rw [hk]
        rfl
      simp only [OffsetPart.split, List.filter, hnz, Bool.not_true, List.nil_append, List.foldl_cons, List.foldl_nil,
        OffsetPart.splitPart, Bool.false_eq_true, if_false, hcs, e]
      rw [split_small p c cs [c] fun x hx => hs x (by simp [hcs, hx])]
      simp
  refine ⟨hsplit, fun hf => ?_⟩
  obtain ⟨c, _, he⟩ := hsplit
  obtain ⟨q1, hq1, _, _, o1⟩ := hf.1 p (by simp) c1 h1
  obtain ⟨q2, hq2, _, _, o2⟩ := hf.1 p (by simp) c2 h2
  rw [he, List.mem_singleton] at hq1 hq2
  subst hq1
  subst hq2
  simp only at o1 o2
  have : |c1.2 - c2.2| ≤ 2 * tol := by
    rw [abs_le] at o1 o2 ⊢
    constructor <;> linarith
  linarith

/-- A shell the theorem is about, with offsets in metres. -/
example : ∀ c ∈ (⟨(), 0, [(1, 1/100), (2, 1/50)]⟩ : OffsetPart Unit).cells, |c.2| ≤ 4 / 5 := by
  simp only [List.mem_cons, List.not_mem_nil, or_false]
  rintro c (rfl | rfl) <;> norm_num [abs_of_pos]

/-- **C66** is false of two shells of thicknesses 1 and 2 with cells of the same offset: all these
cells get the thickness 1. -/
theorem C66_property_false :
    ∃ ps : List (OffsetPart Nat), ¬ Faithful ps (OffsetPart.split ps) ∧
      ∀ p ∈ ps, ∀ c ∈ p.cells, ∀ p' ∈ ps, ∀ c' ∈ p'.cells, c.2 = c'.2 := by
  refine ⟨[⟨1, 0, [(1, 1)]⟩, ⟨2, 0, [(2, 1)]⟩], fun h => ?_, by simp⟩
  have e : OffsetPart.split [(⟨1, 0, [(1, 1)]⟩ : OffsetPart Nat), ⟨2, 0, [(2, 1)]⟩] =
      [⟨1, 0 + 1, [(1, 1), (2, 1)]⟩] := by
    have k1 : OffsetPart.key 1 = 1 := by decide +kernel
    have z : isZero 1 = false := by decide +kernel
    simp only [OffsetPart.split, List.foldl, OffsetPart.splitPart, OffsetPart.containsNonzeroOffsetCell,
      List.any, z, OffsetPart.splitCell, k1, Map.find, Map.set, List.filter]
    rfl
  obtain ⟨q, hq, _, hd, _⟩ := h.1 ⟨2, 0, [(2, 1)]⟩ (by simp) (2, 1) (by simp)
  rw [e] at hq
  simp only [List.mem_singleton] at hq
  subst hq
  simp at hd

/-! ### C67: replacing isotropic materials -/

open Replace

/-- What the materials known at the start become while the layers are visited. -/
structure Inv (k : Option Dbl) (s0 s : State) : Prop where
  below : ∀ a m, s.mats.find a = some m → a < s.next
  kept : ∀ a m, s0.mats.find a = some m → s.mats.find a = some m
  from0 : ∀ a m, s.mats.find a = some m → a < s0.next → s0.mats.find a = some m
  le : s0.next ≤ s.next
  repl : ∀ a r, s.replaced.find a = some r → ∃ m e, s0.mats.find a = some m ∧ m.ortho = none ∧
    m.elastic = some e ∧ s.mats.find r = some ⟨none, some (toOrtho k e)⟩

theorem sameStiffness_toOrtho (k : Option Dbl) (e : Elastic) : SameStiffness (toOrtho k e) e :=
  ⟨rfl, rfl, rfl, rfl, rfl, rfl⟩

theorem rho_none (e : Elastic) : (toOrtho none e).getRho none = e.getRho none := by
  have h0 : Elastic.blank 0 = false := isEqual_unavailable_of_small 0 (by norm_num)
  simp only [Ortho.getRho, toOrtho, Elastic.getRho]
  split
  · simp
  · split
    · rename_i h1 h2
      simp only [mul_one] at h2
      exact absurd h2 h1
    · simp

theorem layer_spec {k : Option Dbl} {s0 s s' : State} {p p' : Ply} (hi : Inv k s0 s)
    (hp : ∃ m, s0.mats.find p.mat = some m) (h : layer k s p = .ok (s', p')) :
    Inv k s0 s' ∧ (∀ a m, s.mats.find a = some m → s'.mats.find a = some m) ∧
      Becomes (decide (k = none)) k s0.mats s'.mats p p' := by
  obtain ⟨m0, hm0⟩ := hp
  have hm := hi.kept _ _ hm0
  unfold layer at h
  rw [hm] at h
  simp only at h
  have dens : ∀ e : Elastic, decide (k = none) = true →
      (toOrtho k e).getRho k = e.getRho k := by
    intro e hk
    have : k = none := by simpa using hk
    subst this
    exact rho_none e
  cases hr : s.replaced.find p.mat with
  | some r =>
    simp only [hr, Outcome.ok.injEq, Prod.mk.injEq] at h
    obtain ⟨rfl, rfl⟩ := h
    obtain ⟨m, e, h1, h2, h3, h4⟩ := hi.repl _ _ hr
    exact ⟨hi, fun _ _ h => h, rfl, rfl, m, _, toOrtho k e, h1, h4, rfl,
      .inr ⟨h2, e, h3, sameStiffness_toOrtho k e, dens e⟩⟩
  | none =>
    simp only [hr] at h
    cases ho : m0.ortho with
    | some o =>
      simp only [ho, Outcome.ok.injEq, Prod.mk.injEq] at h
      obtain ⟨rfl, rfl⟩ := h
      exact ⟨hi, fun _ _ h => h, rfl, rfl, m0, m0, o, hm0, hm, ho, .inl ho⟩
    | none =>
      simp only [ho] at h
      cases he : m0.elastic with
      | none => simp [he] at h
      | some e =>
        simp only [he, Outcome.ok.injEq, Prod.mk.injEq] at h
        obtain ⟨rfl, rfl⟩ := h
        have mono : ∀ a m, s.mats.find a = some m →
            (s.mats.set s.next ⟨none, some (toOrtho k e)⟩).find a = some m := by
          intro a m ha
          rw [Map.find_set_ne]
          · exact ha
          · have := hi.below a m ha; omega
        refine ⟨⟨?_, ?_, ?_, ?_, ?_⟩, mono, rfl, rfl, m0, _, toOrtho k e, hm0, Map.find_set_self .., rfl,
          .inr ⟨ho, e, he, sameStiffness_toOrtho k e, dens e⟩⟩
        · intro a m ha
          simp only [Map.find_set] at ha
          split at ha
          · simp only; omega
          · have := hi.below a m ha; simp only; omega
        · exact fun a m ha => mono _ _ (hi.kept a m ha)
        · intro a m ha hlt
          simp only [Map.find_set] at ha
          split at ha
          · have := hi.le; omega
          · exact hi.from0 a m ha hlt
        · have := hi.le; simp only; omega
        · intro a r ha
          simp only [Map.find_set] at ha
          split at ha
          · rename_i hpa
            subst hpa
            cases ha
            exact ⟨m0, e, hm0, ho, he, Map.find_set_self ..⟩
          · obtain ⟨m, e', h1, h2, h3, h4⟩ := hi.repl a r ha
            exact ⟨m, e', h1, h2, h3, mono _ _ h4⟩

theorem layers_spec {k : Option Dbl} {s0 s s' : State} {ps ps' : List Ply} (hi : Inv k s0 s)
    (hp : ∀ p ∈ ps, ∃ m, s0.mats.find p.mat = some m) (h : layers k s ps = .ok (s', ps')) :
    Inv k s0 s' ∧ (∀ a m, s.mats.find a = some m → s'.mats.find a = some m) ∧
      List.Forall₂ (Becomes (decide (k = none)) k s0.mats s'.mats) ps ps' := by
  induction ps generalizing s ps' with
  | nil =>
    simp only [Replace.layers, Outcome.ok.injEq, Prod.mk.injEq] at h
    obtain ⟨rfl, rfl⟩ := h
    exact ⟨hi, fun _ _ h => h, .nil⟩
  | cons p ps ih =>
    simp only [Replace.layers] at h
    cases h1 : layer k s p with
    | ok r =>
      obtain ⟨s1, p1⟩ := r
      simp only [h1, Outcome.bind_ok] at h
      cases h2 : layers k s1 ps with
      | ok r =>
        obtain ⟨s2, ps2⟩ := r
        simp only [h2, Outcome.bind_ok, Outcome.ok.injEq, Prod.mk.injEq] at h
        obtain ⟨rfl, rfl⟩ := h
        obtain ⟨i1, m1, b1⟩ := layer_spec hi (hp p (List.mem_cons_self ..)) h1
        obtain ⟨i2, m2, b2⟩ := ih i1 (fun q hq => hp q (List.mem_cons_of_mem _ hq)) h2
        refine ⟨i2, fun a m ha => m2 a m (m1 a m ha), .cons ?_ b2⟩
        obtain ⟨e1, e2, m, m', o, f1, f2, f3⟩ := b1
        exact ⟨e1, e2, m, m', o, f1, m2 _ _ f2, f3⟩
      | _ => simp [h2] at h
    | _ => simp [h1] at h

theorem inv_start {k : Option Dbl} {s : State} (hr : s.replaced = [])
    (hn : ∀ a m, s.mats.find a = some m → a < s.next) : Inv k s s :=
  ⟨hn, fun _ _ h => h, fun _ _ h _ => h, Int.le_refl _, by simp [hr]⟩

/-- **C67** every ply keeps its thickness, its angle and the stiffness of its material, and all
materials are orthotropic afterwards. Missing: the density when the model has a mass multiplier and
the thermal expansion, for which it is false. -/
theorem C67_partial (k : Option Dbl) (s s' : State) (ps ps' : List Ply) (hr : s.replaced = [])
    (hn : ∀ a m, s.mats.find a = some m → a < s.next)
    (hp : ∀ p ∈ ps, ∃ m, s.mats.find p.mat = some m) (h : layers k s ps = .ok (s', ps')) :
    List.Forall₂ (Becomes (decide (k = none)) k s.mats s'.mats) ps ps' :=
  (layers_spec (inv_start hr hn) hp h).2.2

/-- **C67** no material of the model is changed. -/
theorem C67_others (k : Option Dbl) (s s' : State) (ps ps' : List Ply) (hr : s.replaced = [])
    (hn : ∀ a m, s.mats.find a = some m → a < s.next)
    (hp : ∀ p ∈ ps, ∃ m, s.mats.find p.mat = some m) (h : layers k s ps = .ok (s', ps')) :
    ∀ a m, s.mats.find a = some m → s'.mats.find a = some m :=
  (layers_spec (inv_start hr hn) hp h).2.1

/-- The numbers of the new materials: new, and different for different materials. -/
structure Fresh (n0 : Int) (s : State) : Prop where
  range : ∀ a r, s.replaced.find a = some r → n0 ≤ r ∧ r < s.next
  inj : ∀ a b r, s.replaced.find a = some r → s.replaced.find b = some r → a = b
  le : n0 ≤ s.next

/-- What became of the material of a ply. -/
def Placed (mats : Map Int Mat) (s : State) (p p' : Ply) : Prop :=
  s.replaced.find p.mat = some p'.mat ∨ (p'.mat = p.mat ∧ ∃ m, mats.find p.mat = some m ∧ m.ortho ≠ none)

theorem layer_placed {k : Option Dbl} {s0 s s' : State} {p p' : Ply} (hi : Inv k s0 s) (hf : Fresh s0.next s)
    (hp : ∃ m, s0.mats.find p.mat = some m) (h : layer k s p = .ok (s', p')) :
    Fresh s0.next s' ∧ (∀ a r, s.replaced.find a = some r → s'.replaced.find a = some r) ∧
      Placed s0.mats s' p p' := by
  obtain ⟨m0, hm0⟩ := hp
  have hm := hi.kept _ _ hm0
  unfold layer at h
  rw [hm] at h
  simp only at h
  cases hr : s.replaced.find p.mat with
  | some r =>
    simp only [hr, Outcome.ok.injEq, Prod.mk.injEq] at h
    obtain ⟨rfl, rfl⟩ := h
    exact ⟨hf, fun _ _ h => h, .inl hr⟩
  | none =>
    simp only [hr] at h
    cases ho : m0.ortho with
    | some o =>
      simp only [ho, Outcome.ok.injEq, Prod.mk.injEq] at h
      obtain ⟨rfl, rfl⟩ := h
      exact ⟨hf, fun _ _ h => h, .inr ⟨rfl, m0, hm0, by simp [ho]⟩⟩
    | none =>
      simp only [ho] at h
      cases he : m0.elastic with
      | none => simp [he] at h
      | some e =>
        simp only [he, Outcome.ok.injEq, Prod.mk.injEq] at h
        obtain ⟨rfl, rfl⟩ := h
        refine ⟨⟨?_, ?_, ?_⟩, ?_, .inl (Map.find_set_self ..)⟩
        · intro a r ha
          simp only [Map.find_set] at ha
          split at ha
          · have := hf.le
            simp only [Option.some.injEq] at ha
            simp only; omega
          · have := hf.range a r ha
            simp only; omega
        · intro a b r ha hb
          simp only [Map.find_set] at ha hb
          split at ha <;> split at hb
          · simp_all
          · have := hf.range b r hb
            simp only [Option.some.injEq] at ha
            omega
          · have := hf.range a r ha
            simp only [Option.some.injEq] at hb
            omega
          · exact hf.inj a b r ha hb
        · have := hf.le
          simp only; omega
        · intro a r ha
          simp only [Map.find_set]
          split
          · rename_i hx
            rw [← hx, hr] at ha
            cases ha
          · exact ha

theorem layers_placed {k : Option Dbl} {s0 : State} (ps : List Ply) : ∀ {s s' : State} {ps' : List Ply},
    Inv k s0 s → Fresh s0.next s → (∀ p ∈ ps, ∃ m, s0.mats.find p.mat = some m) →
    layers k s ps = .ok (s', ps') →
    Fresh s0.next s' ∧ (∀ a r, s.replaced.find a = some r → s'.replaced.find a = some r) ∧
      List.Forall₂ (Placed s0.mats s') ps ps' := by
  induction ps with
  | nil =>
    intro s s' ps' _ hf _ h
    simp only [Replace.layers, Outcome.ok.injEq, Prod.mk.injEq] at h
    obtain ⟨rfl, rfl⟩ := h
    exact ⟨hf, fun _ _ h => h, .nil⟩
  | cons p ps ih =>
    intro s s' ps' hi hf hp h
    simp only [Replace.layers] at h
    cases h1 : layer k s p with
    | ok x =>
      obtain ⟨s1, p1⟩ := x
      rw [h1] at h
      simp only [Outcome.bind_ok] at h
      cases h2 : layers k s1 ps with
      | ok y =>
        obtain ⟨s2, ps2⟩ := y
        rw [h2] at h
        simp only [Outcome.bind_ok, Outcome.ok.injEq, Prod.mk.injEq] at h
        obtain ⟨rfl, rfl⟩ := h
        have hp0 := hp p (List.mem_cons_self ..)
        obtain ⟨a1, a2, a3⟩ := layer_placed hi hf hp0 h1
        obtain ⟨b1, b2, b3⟩ := ih (layer_spec hi hp0 h1).1 a1 (fun q hq => hp q (List.mem_cons_of_mem _ hq)) h2
        refine ⟨b1, fun a r h => b2 a r (a2 a r h), .cons ?_ b3⟩
        rcases a3 with h | h
        · exact .inl (b2 _ _ h)
        · exact .inr h
      | _ => rw [h2] at h; cases h
    | _ => rw [h1] at h; cases h

theorem forall₂_at {α β : Type} {R : α → β → Prop} {l : List α} {l' : List β} (h : List.Forall₂ R l l') :
    ∀ {i : Nat} {a : α} {b : β}, l[i]? = some a → l'[i]? = some b → R a b := by
  induction h with
  | nil => intro i a b ha; simp at ha
  | cons h _ ih =>
    intro i a b ha hb
    cases i with
    | zero => simp at ha hb; subst ha; subst hb; exact h
    | succ i => exact ih (by simpa using ha) (by simpa using hb)

/-- **C67** equal materials are replaced by one, different ones by different ones: two plies have the
same material afterwards exactly when they had the same before. -/
theorem C67_equal (k : Option Dbl) (s s' : State) (ps ps' : List Ply) (hr : s.replaced = [])
    (hn : ∀ a m, s.mats.find a = some m → a < s.next)
    (hp : ∀ p ∈ ps, ∃ m, s.mats.find p.mat = some m) (h : layers k s ps = .ok (s', ps'))
    (i j : Nat) (p q p' q' : Ply) (hpi : ps[i]? = some p) (hqj : ps[j]? = some q)
    (hpi' : ps'[i]? = some p') (hqj' : ps'[j]? = some q') :
    p'.mat = q'.mat ↔ p.mat = q.mat := by
  have hi := (layers_spec (inv_start hr hn) hp h).1
  obtain ⟨hf, -, hall⟩ := layers_placed ps (inv_start (k := k) hr hn)
    ⟨by simp [hr], by simp [hr], le_refl _⟩ hp h
  have mixed : ∀ {a b a' b' : Ply}, s'.replaced.find a.mat = some a'.mat → b'.mat = b.mat →
      (∃ m, s.mats.find b.mat = some m ∧ m.ortho ≠ none) → (a'.mat = b'.mat ↔ a.mat = b.mat) := by
    rintro a b a' b' h1 h2 ⟨m, h3, h4⟩
    constructor
    · intro e
      have := (hf.range _ _ h1).1
      have := hn _ _ h3
      omega
    · intro e
      obtain ⟨m1, _, h5, h6, _⟩ := hi.repl _ _ h1
      rw [e, h3] at h5
      cases h5
      exact absurd h6 h4
  rcases forall₂_at hall hpi hpi' with h1 | ⟨h1, h2⟩ <;> rcases forall₂_at hall hqj hqj' with h3 | ⟨h3, h4⟩
  · constructor
    · intro e
      exact hf.inj _ _ _ h1 (e ▸ h3)
    · intro e
      rw [e, h3] at h1
      exact (Option.some.inj h1).symm
  · exact mixed h1 h3 h4
  · exact eq_comm.trans ((mixed h3 h1 h2).trans eq_comm)
  · rw [h1, h3]

theorem layers_succeed {k : Option Dbl} {s0 : State} (ps : List Ply) : ∀ {s : State}, Inv k s0 s →
    (∀ p ∈ ps, ∃ m, s0.mats.find p.mat = some m ∧ (m.ortho ≠ none ∨ m.elastic ≠ none)) →
    ∃ s' ps', layers k s ps = .ok (s', ps') := by
  induction ps with
  | nil => intro s _ _; exact ⟨s, [], rfl⟩
  | cons p ps ih =>
    intro s hi hp
    obtain ⟨m, hm, ho⟩ := hp p (List.mem_cons_self ..)
    have hl : ∃ s1 p1, layer k s p = .ok (s1, p1) := by
      unfold layer
      rw [hi.kept _ _ hm]
      cases s.replaced.find p.mat with
      | some r => exact ⟨_, _, rfl⟩
      | none =>
        cases h1 : m.ortho with
        | some o => exact ⟨_, _, by simp only [h1]; rfl⟩
        | none =>
          cases h2 : m.elastic with
          | some e => exact ⟨_, _, by simp only [h1, h2]; rfl⟩
          | none => simp [h1, h2] at ho
    obtain ⟨s1, p1, hl⟩ := hl
    obtain ⟨s2, ps2, h2⟩ := ih (layer_spec hi ⟨m, hm⟩ hl).1 (fun q hq => hp q (List.mem_cons_of_mem _ hq))
    exact ⟨s2, p1 :: ps2, by simp [Replace.layers, hl, h2]⟩

/-- **C67** the replacement succeeds when every ply has an isotropic or an orthotropic material. -/
theorem C67_succeeds (k : Option Dbl) (s : State) (ps : List Ply) (hr : s.replaced = [])
    (hn : ∀ a m, s.mats.find a = some m → a < s.next)
    (hp : ∀ p ∈ ps, ∃ m, s.mats.find p.mat = some m ∧ (m.ortho ≠ none ∨ m.elastic ≠ none)) :
    ∃ s' ps', layers k s ps = .ok (s', ps') := layers_succeed ps (inv_start hr hn) hp

/-- **C67** is false of the density: with the mass multiplier 2 the density 3 becomes 12 instead of
6. -/
theorem C67_density_false :
    ∃ k s s' p p' e o, layers k s [p] = .ok (s', [p']) ∧
      s.mats.find p.mat = some ⟨some e, none⟩ ∧ s'.mats.find p'.mat = some ⟨none, some o⟩ ∧
      e.getRho k = 6 ∧ o.getRho k = 12 := by
  have b3 : Elastic.blank 3 = false := by
    refine isEqual_unavailable_of_le_half 3 ?_
    have h : (2 : ℚ) ^ 5 ≤ 2 ^ 1023 := pow_le_pow_right₀ (by norm_num) (by norm_num)
    have h2 : (1 : ℚ) ≤ 2 - 1 / 2 ^ 52 := by norm_num
    unfold dblMax
    generalize (2 : ℚ) ^ 1023 = a at h ⊢
    generalize (2 : ℚ) - 1 / 2 ^ 52 = b at h2 ⊢
    rw [abs_of_pos (by norm_num)]
    nlinarith
  have b6 : Elastic.blank 6 = false := by
    refine isEqual_unavailable_of_le_half 6 ?_
    have h : (2 : ℚ) ^ 5 ≤ 2 ^ 1023 := pow_le_pow_right₀ (by norm_num) (by norm_num)
    have h2 : (1 : ℚ) ≤ 2 - 1 / 2 ^ 52 := by norm_num
    unfold dblMax
    generalize (2 : ℚ) ^ 1023 = a at h ⊢
    generalize (2 : ℚ) - 1 / 2 ^ 52 = b at h2 ⊢
    rw [abs_of_pos (by norm_num)]
    nlinarith
  refine ⟨some 2, ⟨[(1, ⟨some ⟨1, 0, 1/2, 3, 0, 0⟩, none⟩)], 2, []⟩, _, ⟨1, 1, 0⟩, _,
    ⟨1, 0, 1/2, 3, 0, 0⟩, toOrtho (some 2) ⟨1, 0, 1/2, 3, 0, 0⟩, rfl, rfl, rfl, ?_, ?_⟩
  · simp [Elastic.getRho, b3]; norm_num
  · simp [toOrtho, Ortho.getRho, Elastic.getRho, b3]
    norm_num [b6]

/-- **C67** is false of the thermal expansion: whatever it was, it is blank afterwards. -/
theorem C67_expansion_false (k : Option Dbl) (s s' : State) (p p' : Ply) (e : Elastic)
    (hr : s.replaced = []) (hm : s.mats.find p.mat = some ⟨some e, none⟩)
    (h : layers k s [p] = .ok (s', [p'])) :
    ∃ o, s'.mats.find p'.mat = some ⟨none, some o⟩ ∧ Elastic.blank o.alphaL = true ∧
      Elastic.blank o.alphaT = true := by
  simp only [Replace.layers, layer, hm, hr, Map.find_nil, Outcome.bind_ok, Outcome.ok.injEq, Prod.mk.injEq,
    List.cons.injEq, and_true] at h
  obtain ⟨rfl, rfl⟩ := h
  exact ⟨toOrtho k e, Map.find_set_self .., isEqual_self _, isEqual_self _⟩

/-- Two plies of one isotropic material and one of an orthotropic one. -/
example : ∃ s ps s' ps', layers none s ps = .ok (s', ps') ∧ s.replaced = [] ∧
    (∀ a m, s.mats.find a = some m → a < s.next) ∧ (∀ p ∈ ps, ∃ m, s.mats.find p.mat = some m) ∧
    ps'.map (·.mat) = [3, 2, 3] := by
  refine ⟨⟨[(1, ⟨some ⟨1, 0, 1/2, 3, 0, 0⟩, none⟩),
      (2, ⟨none, some ⟨1, 1, some 0, some 1, some 1, some 1, 0, 0, 0⟩⟩)], 3, []⟩,
    [⟨1, 1, 0⟩, ⟨2, 1, 0⟩, ⟨1, 1, 0⟩], _, _, rfl, rfl, ?_, ?_, rfl⟩
  · intro a m h
    simp only [Map.find] at h
    split at h
    · simp only; omega
    · split at h
      · simp only; omega
      · cases h
  · intro p hp
    simp only [List.mem_cons, List.not_mem_nil, or_false] at hp
    rcases hp with rfl | rfl | rfl <;> exact ⟨_, rfl⟩

end Vega.CompositeSpec
