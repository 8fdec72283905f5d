import Verif.Element.AddedMass
import Mathlib.Tactic.Linarith
import Mathlib.Algebra.BigOperators.Group.List.Basic
import Mathlib.Data.List.Nodup

/-! # Additional mass: property C119 -/
namespace Vega

/-! ## Specification -/
namespace AddedMassSpec
open AddedMass

/-- Code_Aster: of several lines that assign a material to a cell, the last one counts. -/
def assigned (ls : List (Mat × List Cell)) (c : Cell) : Option Mat := ((ls.filter fun l => l.2.contains c).map (·.1)).getLast?

/-- The sum of a constant of the material over the cells of the mesh at a place. -/
def total (f : Mat → Dbl) (mat : Cell → Option Mat) (mesh : List Cell) (p : Nat) : Dbl :=
  (((mesh.filter fun c => c.place = p).filterMap mat).map f).sum

/-- The mesh and the element sets before: cells are at their own places, `nc` is beyond the cells and `nm` beyond the materials; no cell is in
two element sets, and every element set has one material. -/
structure Before (nc nm : Nat) (mesh : List Cell) (sets : List ESet) : Prop where
  place : ∀ c ∈ mesh, c.place = c.id ∧ c.id < nc
  nodup : mesh.Nodup
  cells : ∀ s ∈ sets, s.cells.Nodup ∧ ∀ c ∈ s.cells, c ∈ mesh
  apart : sets.Pairwise fun s t => ∀ c ∈ s.cells, c ∉ t.cells
  mats : ∀ s ∈ sets, ∃ m, s.mats = [m] ∧ m.id < nm

end AddedMassSpec

namespace AddedMass
open AddedMassSpec

/-! ## Lemmas -/

theorem mem_copies (l : List Cell) : ∀ nc, ∀ x ∈ copies nc l, nc ≤ x.id ∧ x.id < nc + l.length ∧ ∃ c ∈ l, x.place = c.place := by
  induction l with
  | nil => intro nc x hx; cases hx
  | cons c r ih =>
    intro nc x hx
    rw [List.length_cons]
    rcases List.mem_cons.1 hx with rfl | hx
    · exact ⟨Nat.le_refl _, by simp only; omega, c, List.mem_cons_self, rfl⟩
    · obtain ⟨h1, h2, d, h3, h4⟩ := ih (nc + 1) x hx
      exact ⟨by omega, by omega, d, List.mem_cons_of_mem _ h3, h4⟩

/-- The number of cells that are made. -/
def adv : List ESet → Nat
  | [] => 0
  | s :: r => if isZero s.addRho then adv r else s.cells.length + adv r

/-- The number of materials that are made. -/
def advMat : List ESet → Nat
  | [] => 0
  | s :: r => if isZero s.addRho then advMat r else 1 + advMat r

theorem loop_append (l₁ l₂ : List ESet) : ∀ nc nm, loop nc nm (l₁ ++ l₂) =
    ⟨(loop nc nm l₁).old ++ (loop (nc + adv l₁) (nm + advMat l₁) l₂).old, (loop nc nm l₁).new ++ (loop (nc + adv l₁) (nm + advMat l₁) l₂).new,
      (loop nc nm l₁).cells ++ (loop (nc + adv l₁) (nm + advMat l₁) l₂).cells⟩ := by
  induction l₁ with
  | nil => intro nc nm; rfl
  | cons s r ih =>
    intro nc nm
    rw [List.cons_append, loop, loop, adv, advMat]
    split
    · rw [ih]
      rfl
    · rw [ih]
      simp only [List.cons_append, List.append_assoc, Nat.add_assoc]

theorem loop_cells (l : List ESet) : ∀ nc nm,
    (∀ t ∈ (loop nc nm l).old, ∀ x ∈ t.cells, (∃ s ∈ l, x ∈ s.cells) ∨ (nc ≤ x.id ∧ x.id < nc + adv l)) ∧
    (∀ t ∈ (loop nc nm l).new, ∃ s ∈ l, t.cells = s.cells) ∧
    (∀ x ∈ (loop nc nm l).cells, ∃ s ∈ l, ∃ c ∈ s.cells, x.place = c.place) := by
  induction l with
  | nil => intro nc nm; exact ⟨fun t ht => (by cases ht), fun t ht => (by cases ht), fun t ht => (by cases ht)⟩
  | cons s r ih =>
    intro nc nm
    rw [loop, adv]
    split
    · obtain ⟨h1, h2, h3⟩ := ih nc nm
      refine ⟨fun t ht x hx => ?_, fun t ht => ?_, fun x hx => ?_⟩
      · rcases List.mem_cons.1 ht with rfl | ht
        · exact .inl ⟨t, List.mem_cons_self, hx⟩
        · rcases h1 t ht x hx with ⟨u, hu, hxu⟩ | h
          · exact .inl ⟨u, List.mem_cons_of_mem _ hu, hxu⟩
          · exact .inr h
      · obtain ⟨u, hu, h⟩ := h2 t ht
        exact ⟨u, List.mem_cons_of_mem _ hu, h⟩
      · obtain ⟨u, hu, h⟩ := h3 x hx
        exact ⟨u, List.mem_cons_of_mem _ hu, h⟩
    · obtain ⟨h1, h2, h3⟩ := ih (nc + s.cells.length) (nm + 1)
      refine ⟨fun t ht x hx => ?_, fun t ht => ?_, fun x hx => ?_⟩
      · rcases List.mem_cons.1 ht with rfl | ht
        · rcases List.mem_append.1 hx with hx | hx
          · exact .inl ⟨s, List.mem_cons_self, hx⟩
          · have := mem_copies s.cells nc x hx
            exact .inr ⟨this.1, by omega⟩
        · rcases h1 t ht x hx with ⟨u, hu, hxu⟩ | h
          · exact .inl ⟨u, List.mem_cons_of_mem _ hu, hxu⟩
          · exact .inr ⟨by omega, by omega⟩
      · rcases List.mem_cons.1 ht with rfl | ht
        · exact ⟨s, List.mem_cons_self, rfl⟩
        · obtain ⟨u, hu, h⟩ := h2 t ht
          exact ⟨u, List.mem_cons_of_mem _ hu, h⟩
      · rcases List.mem_append.1 hx with hx | hx
        · obtain ⟨_, _, c, hc, h⟩ := mem_copies s.cells nc x hx
          exact ⟨s, List.mem_cons_self, c, hc, h⟩
        · obtain ⟨u, hu, h⟩ := h3 x hx
          exact ⟨u, List.mem_cons_of_mem _ hu, h⟩

/-- The sets that have a cell. -/
def having (c : Cell) (sets : List ESet) : List ESet := sets.filter fun s => s.cells.contains c

theorem assigned_lines (order : ESet → List Mat) (sets : List ESet) (c : Cell) :
    assigned (lines order sets) c = ((having c sets).flatMap order).getLast? := by
  unfold assigned lines having
  congr 1
  induction sets with
  | nil => rfl
  | cons s r ih =>
    have key : ∀ b : Bool, b = s.cells.contains c → ((((order s).map fun m => (m, s.cells)).filter fun l => l.2.contains c).map (·.1)) =
        if b then order s else [] := by
      intro b hb
      rw [List.filter_map, List.map_map]
      have : ((fun l : Mat × List Cell => l.2.contains c) ∘ fun m => (m, s.cells)) = fun _ => b := by
        funext m
        exact hb.symm
      rw [this]
      cases b
      · simp
      · have : ((fun x : Mat × List Cell => x.1) ∘ fun m => (m, s.cells)) = id := rfl
        simp [this]
    rw [List.filter_cons, List.filter_cons]
    by_cases he : s.cells.isEmpty
    · have hs : s.cells = [] := List.isEmpty_iff.1 he
      rw [if_neg (by simp [he]), if_neg (by simp [hs]), ih]
    · rw [if_pos (by simp [he]), List.flatMap_cons, List.filter_append, List.map_append, key _ rfl, ih]
      split
      · rw [List.flatMap_cons]
      · rw [List.nil_append]

theorem having_nil (c : Cell) (sets : List ESet) (h : ∀ s ∈ sets, c ∉ s.cells) : having c sets = [] := by
  unfold having
  rw [List.filter_eq_nil_iff]
  intro s hs hc
  exact h s hs (by simpa using hc)

theorem having_append (c : Cell) (a b : List ESet) : having c (a ++ b) = having c a ++ having c b := List.filter_append ..

theorem having_pos (c : Cell) (s : ESet) (r : List ESet) (h : c ∈ s.cells) : having c (s :: r) = s :: having c r := by
  unfold having
  rw [List.filter_cons, if_pos (by simpa using h)]

theorem having_neg (c : Cell) (s : ESet) (r : List ESet) (h : c ∉ s.cells) : having c (s :: r) = having c r := by
  unfold having
  rw [List.filter_cons, if_neg (by simpa using h)]

/-- The sets before and after a set of the model. -/
theorem split_before {nc nm : Nat} {mesh : List Cell} {l₁ l₂ : List ESet} {s : ESet} (hb : Before nc nm mesh (l₁ ++ s :: l₂)) (c : Cell)
    (hc : c ∈ s.cells) : (∀ t ∈ l₁, c ∉ t.cells) ∧ ∀ t ∈ l₂, c ∉ t.cells := by
  obtain ⟨h1, h2, h3⟩ := List.pairwise_append.1 hb.apart
  constructor
  · intro t ht hct
    exact h3 t ht s List.mem_cons_self c hct hc
  · intro t ht hct
    exact (List.pairwise_cons.1 h2).1 t ht c hc hct

theorem old_id {nc nm : Nat} {mesh : List Cell} {sets : List ESet} (hb : Before nc nm mesh sets) (s : ESet) (hs : s ∈ sets) (c : Cell)
    (hc : c ∈ s.cells) : c.place = c.id ∧ c.id < nc := hb.place c ((hb.cells s hs).2 c hc)

/-- The copy of a cell. -/
theorem copies_place (l : List Cell) (hn : (l.map (·.place)).Nodup) (c : Cell) (hc : c ∈ l) : ∀ nc, ∃ x, x.place = c.place ∧ x ∈ copies nc l ∧
    (copies nc l).filter (fun y => y.place = c.place) = [x] := by
  induction l with
  | nil => cases hc
  | cons d r ih =>
    intro nc
    rw [List.map_cons, List.nodup_cons] at hn
    rw [copies, List.filter_cons]
    rcases List.mem_cons.1 hc with rfl | hc
    · refine ⟨⟨nc, c.place⟩, rfl, List.mem_cons_self, ?_⟩
      rw [if_pos (by simp)]
      congr 1
      rw [List.filter_eq_nil_iff]
      intro y hy hyp
      obtain ⟨_, _, e, he, hpl⟩ := mem_copies r (nc + 1) y hy
      refine hn.1 (List.mem_map.2 ⟨e, he, ?_⟩)
      rw [← hpl]
      simpa using hyp
    · obtain ⟨x, h1, h2, h3⟩ := ih hn.2 hc (nc + 1)
      refine ⟨x, h1, List.mem_cons_of_mem _ h2, ?_⟩
      rw [if_neg, h3]
      intro h
      have h' : d.place = c.place := by simpa using h
      exact hn.1 (List.mem_map.2 ⟨c, hc, h'.symm⟩)

/-- What there is at a place afterwards, for a set with additional mass. -/
theorem at_place {nc nm : Nat} {mesh : List Cell} {sets : List ESet} (hb : Before nc nm mesh sets) (s : ESet) (hs : s ∈ sets)
    (hr : isZero s.addRho = false) (c : Cell) (hc : c ∈ s.cells) :
    ∃ (x : Cell) (cl : List Cell) (k : Nat), nm ≤ k ∧ x ≠ c ∧ x.place = c.place ∧
      (mesh ++ (loop nc nm sets).cells).filter (fun y => y.place = c.place) = [c, x] ∧
      having c (emulate nc nm sets) = [{ s with cells := s.cells ++ cl }, { s with mats := s.mats ++ [⟨k, 0, s.addRho⟩] }] ∧
      having x (emulate nc nm sets) = [{ s with cells := s.cells ++ cl }] := by
  obtain ⟨l₁, l₂, rfl⟩ := List.append_of_mem hs
  obtain ⟨a1, a2⟩ := split_before hb c hc
  have hid := old_id hb s hs c hc
  have hplaces : (s.cells.map (·.place)).Nodup := by
    refine List.Nodup.map_on ?_ (hb.cells s hs).1
    intro a ha b hb' hab
    have h1 := old_id hb s hs a ha
    have h2 := old_id hb s hs b hb'
    cases a; cases b
    simp only at h1 h2 hab
    simp only [Cell.mk.injEq]
    omega
  obtain ⟨x, hxp, hxm, hxf⟩ := copies_place s.cells hplaces c hc (nc + adv l₁)
  have hxid := mem_copies _ _ x hxm
  have hloop : loop nc nm (l₁ ++ s :: l₂) =
      ⟨(loop nc nm l₁).old ++ { s with cells := s.cells ++ copies (nc + adv l₁) s.cells } ::
          (loop (nc + adv l₁ + s.cells.length) (nm + advMat l₁ + 1) l₂).old,
        (loop nc nm l₁).new ++ { s with mats := s.mats ++ [⟨nm + advMat l₁, 0, s.addRho⟩] } ::
          (loop (nc + adv l₁ + s.cells.length) (nm + advMat l₁ + 1) l₂).new,
        (loop nc nm l₁).cells ++ (copies (nc + adv l₁) s.cells ++ (loop (nc + adv l₁ + s.cells.length) (nm + advMat l₁ + 1) l₂).cells)⟩ := by
    rw [loop_append]
    rw [loop, if_neg (by rw [hr]; decide)]
  obtain ⟨b1, b2, b3⟩ := loop_cells l₁ nc nm
  obtain ⟨d1, d2, d3⟩ := loop_cells l₂ (nc + adv l₁ + s.cells.length) (nm + advMat l₁ + 1)
  have mem1 : ∀ t ∈ l₁, t ∈ l₁ ++ s :: l₂ := fun t ht => List.mem_append_left _ ht
  have mem2 : ∀ t ∈ l₂, t ∈ l₁ ++ s :: l₂ := fun t ht => List.mem_append_right _ (List.mem_cons_of_mem _ ht)
  have other : ∀ t ∈ l₁ ++ s :: l₂, c ∉ t.cells → ∀ y ∈ t.cells, y.place ≠ c.place := by
    intro t ht hct y hy h
    have h1 := old_id hb t ht y hy
    apply hct
    have : y = c := by
      cases y; cases c
      simp only at h1 hid h
      simp only [Cell.mk.injEq]
      omega
    exact this ▸ hy
  have old_x : ∀ t ∈ l₁ ++ s :: l₂, x ∉ t.cells := by
    intro t ht hx
    have h1 := old_id hb t ht x hx
    omega
  refine ⟨x, copies (nc + adv l₁) s.cells, nm + advMat l₁, by omega, ?_, hxp, ?_, ?_, ?_⟩
  · rintro rfl
    omega
  · have hmesh : mesh.filter (fun y => y.place = c.place) = [c] := by
      have hcm := (hb.cells s hs).2 c hc
      have hnd := hb.nodup
      have huniq : ∀ y ∈ mesh, y.place = c.place → y = c := by
        intro y hy h
        have h1 := hb.place y hy
        cases y; cases c
        simp only at h1 hid h
        simp only [Cell.mk.injEq]
        omega
      clear hb hloop
      induction mesh with
      | nil => cases hcm
      | cons y r ih =>
        rw [List.nodup_cons] at hnd
        rw [List.filter_cons]
        rcases List.mem_cons.1 hcm with rfl | hcm
        · rw [if_pos (by simp)]
          congr 1
          rw [List.filter_eq_nil_iff]
          intro z hz hzp
          have := huniq z (List.mem_cons_of_mem _ hz) (by simpa using hzp)
          exact hnd.1 (this ▸ hz)
        · rw [if_neg]
          · exact ih hcm hnd.2 fun z hz => huniq z (List.mem_cons_of_mem _ hz)
          · intro h
            have := huniq y List.mem_cons_self (by simpa using h)
            exact hnd.1 (this ▸ hcm)
    have hnone : ∀ (l : List ESet) (l' : List Cell), (∀ t ∈ l, t ∈ l₁ ++ s :: l₂ ∧ c ∉ t.cells) →
        (∀ y ∈ l', ∃ t ∈ l, ∃ d ∈ t.cells, y.place = d.place) → l'.filter (fun y => y.place = c.place) = [] := by
      intro l l' hl hl'
      rw [List.filter_eq_nil_iff]
      intro y hy hyp
      obtain ⟨t, ht, d, hd, hyd⟩ := hl' y hy
      have hyp' : y.place = c.place := by simpa using hyp
      exact other t (hl t ht).1 (hl t ht).2 d hd (hyd ▸ hyp')
    rw [hloop, List.filter_append, List.filter_append, List.filter_append, hmesh, hxf,
      hnone l₁ _ (fun t ht => ⟨mem1 t ht, a1 t ht⟩) b3, hnone l₂ _ (fun t ht => ⟨mem2 t ht, a2 t ht⟩) d3]
    rfl
  · unfold emulate
    rw [hloop, having_append, having_append, having_append,
      having_pos c _ _ (show c ∈ s.cells ++ copies (nc + adv l₁) s.cells from List.mem_append_left _ hc),
      having_pos c { s with mats := s.mats ++ [⟨nm + advMat l₁, 0, s.addRho⟩] } _ hc]
    rw [having_nil c (loop nc nm l₁).old, having_nil c (loop nc nm l₁).new, having_nil c (loop _ _ l₂).old, having_nil c (loop _ _ l₂).new]
    · rfl
    · intro t ht hct
      obtain ⟨u, hu, h⟩ := d2 t ht
      exact a2 u hu (h ▸ hct)
    · intro t ht hct
      rcases d1 t ht c hct with ⟨u, hu, h⟩ | h
      · exact a2 u hu h
      · omega
    · intro t ht hct
      obtain ⟨u, hu, h⟩ := b2 t ht
      exact a1 u hu (h ▸ hct)
    · intro t ht hct
      rcases b1 t ht c hct with ⟨u, hu, h⟩ | h
      · exact a1 u hu h
      · omega
  · unfold emulate
    rw [hloop, having_append, having_append, having_append,
      having_pos x _ _ (show x ∈ s.cells ++ copies (nc + adv l₁) s.cells from List.mem_append_right _ hxm),
      having_neg x { s with mats := s.mats ++ [⟨nm + advMat l₁, 0, s.addRho⟩] } _ (old_x s hs)]
    rw [having_nil x (loop nc nm l₁).old, having_nil x (loop nc nm l₁).new, having_nil x (loop _ _ l₂).old, having_nil x (loop _ _ l₂).new]
    · rfl
    · intro t ht hct
      obtain ⟨u, hu, h⟩ := d2 t ht
      exact old_x u (mem2 u hu) (h ▸ hct)
    · intro t ht hct
      rcases d1 t ht x hct with ⟨u, hu, h⟩ | h
      · exact old_x u (mem2 u hu) h
      · omega
    · intro t ht hct
      obtain ⟨u, hu, h⟩ := b2 t ht
      exact old_x u (mem1 u hu) (h ▸ hct)
    · intro t ht hct
      rcases b1 t ht x hct with ⟨u, hu, h⟩ | h
      · exact old_x u (mem1 u hu) h
      · omega

/-! ## C119 -/

/-- The mesh afterwards. -/
def meshAfter (nc nm : Nat) (mesh : List Cell) (sets : List ESet) : List Cell := mesh ++ (loop nc nm sets).cells

/-- **C119, Code_Aster.** If the addresses of the materials that are made come after those of the others, the modulus at the place of
every cell is that of the material, and the density is that of the material and the additional one together. -/
theorem C119_aster_partial (nc nm : Nat) (mesh : List Cell) (sets : List ESet) (hb : Before nc nm mesh sets) (order : ESet → List Mat)
    (ho : ∀ t, (order t).Perm t.mats) (hlast : ∀ t ∈ emulate nc nm sets, ∀ m ∈ t.mats, nm ≤ m.id → ∃ l, order t = l ++ [m])
    (s : ESet) (hs : s ∈ sets) (m : Mat) (hm : s.mats = [m]) (hr : isZero s.addRho = false) (c : Cell) (hc : c ∈ s.cells) :
    total Mat.e (assigned (lines order (emulate nc nm sets))) (meshAfter nc nm mesh sets) c.place = m.e ∧
      total Mat.rho (assigned (lines order (emulate nc nm sets))) (meshAfter nc nm mesh sets) c.place = m.rho + s.addRho := by
  obtain ⟨x, cl, k, hk, hxc, hxp, h1, h2, h3⟩ := at_place hb s hs hr c hc
  have hone : ∀ t : ESet, t.mats = [m] → order t = [m] := fun t ht => List.perm_singleton.1 (ht ▸ ho t)
  have ha : assigned (lines order (emulate nc nm sets)) c = some ⟨k, 0, s.addRho⟩ := by
    rw [assigned_lines, h2]
    have hmem : ({ s with mats := s.mats ++ [⟨k, 0, s.addRho⟩] } : ESet) ∈ emulate nc nm sets := by
      have : ({ s with mats := s.mats ++ [⟨k, 0, s.addRho⟩] } : ESet) ∈ having c (emulate nc nm sets) := by rw [h2]; simp
      exact (List.mem_filter.1 this).1
    obtain ⟨l, hl⟩ := hlast _ hmem ⟨k, 0, s.addRho⟩ (by simp) hk
    simp only [List.flatMap_cons, List.flatMap_nil, List.append_nil]
    rw [hl, ← List.append_assoc, List.getLast?_concat]
  have hx : assigned (lines order (emulate nc nm sets)) x = some m := by
    rw [assigned_lines, h3]
    simp only [List.flatMap_cons, List.flatMap_nil, List.append_nil]
    rw [hone { s with cells := s.cells ++ cl } hm]
    rfl
  unfold total meshAfter
  rw [h1]
  simp only [List.filterMap_cons, ha, hx, List.filterMap_nil, List.map_cons, List.map_nil, List.sum_cons, List.sum_nil]
  constructor <;> linarith

/-- **C119 is false of Code_Aster if addresses are the other way:** if the material that is made for a set has the smaller address, the
additional mass is lost, and the modulus and density are doubled. -/
theorem C119_aster_false (nc nm : Nat) (mesh : List Cell) (sets : List ESet) (hb : Before nc nm mesh sets) (order : ESet → List Mat)
    (ho : ∀ t, (order t).Perm t.mats) (hfirst : ∀ t ∈ emulate nc nm sets, ∀ m ∈ t.mats, m.id < nm → ∃ l, order t = l ++ [m])
    (s : ESet) (hs : s ∈ sets) (m : Mat) (hm : s.mats = [m]) (hr : isZero s.addRho = false) (c : Cell) (hc : c ∈ s.cells) :
    total Mat.e (assigned (lines order (emulate nc nm sets))) (meshAfter nc nm mesh sets) c.place = 2 * m.e ∧
      total Mat.rho (assigned (lines order (emulate nc nm sets))) (meshAfter nc nm mesh sets) c.place = 2 * m.rho := by
  obtain ⟨x, cl, k, hk, hxc, hxp, h1, h2, h3⟩ := at_place hb s hs hr c hc
  have hone : ∀ t : ESet, t.mats = [m] → order t = [m] := fun t ht => List.perm_singleton.1 (ht ▸ ho t)
  have hid : m.id < nm := by
    obtain ⟨m', h, h'⟩ := hb.mats s hs
    rw [hm] at h
    cases h
    exact h'
  have ha : assigned (lines order (emulate nc nm sets)) c = some m := by
    rw [assigned_lines, h2]
    have hmem : ({ s with mats := s.mats ++ [⟨k, 0, s.addRho⟩] } : ESet) ∈ emulate nc nm sets := by
      have : ({ s with mats := s.mats ++ [⟨k, 0, s.addRho⟩] } : ESet) ∈ having c (emulate nc nm sets) := by rw [h2]; simp
      exact (List.mem_filter.1 this).1
    obtain ⟨l, hl⟩ := hfirst _ hmem m (by rw [hm]; simp) hid
    simp only [List.flatMap_cons, List.flatMap_nil, List.append_nil]
    rw [hl, ← List.append_assoc, List.getLast?_concat]
  have hx : assigned (lines order (emulate nc nm sets)) x = some m := by
    rw [assigned_lines, h3]
    simp only [List.flatMap_cons, List.flatMap_nil, List.append_nil]
    rw [hone { s with cells := s.cells ++ cl } hm]
    rfl
  unfold total meshAfter
  rw [h1]
  simp only [List.filterMap_cons, ha, hx, List.filterMap_nil, List.map_cons, List.map_nil, List.sum_cons, List.sum_nil]
  constructor <;> linarith

theorem elements_at (sets : List ESet) (c : Cell) (hn : ∀ s ∈ having c sets, s.cells.Nodup) :
    (elements sets).filter (fun q => q.1 = c) = (having c sets).map fun s => (c, s.mats.head?) := by
  have key : ∀ (l : List Cell) (f : Option Mat), l.Nodup → c ∈ l → (l.map fun d => (d, f)).filter (fun q => q.1 = c) = [(c, f)] := by
    intro l f hl hcl
    induction l with
    | nil => cases hcl
    | cons d r ih =>
      rw [List.nodup_cons] at hl
      rw [List.map_cons, List.filter_cons]
      by_cases hd : d = c
      · subst hd
        rw [if_pos (by simp)]
        congr 1
        rw [List.filter_eq_nil_iff]
        intro q hq hqc
        obtain ⟨z, hz, rfl⟩ := List.mem_map.1 hq
        have : z = d := by simpa using hqc
        exact hl.1 (this ▸ hz)
      · rw [if_neg (by simp [hd])]
        exact ih hl.2 ((List.mem_cons.1 hcl).resolve_left fun h => hd h.symm)
  induction sets with
  | nil => rfl
  | cons s r ih =>
    have he : elements (s :: r) = (s.cells.map fun d => (d, s.mats.head?)) ++ elements r := List.flatMap_cons
    rw [he, List.filter_append]
    by_cases hc : c ∈ s.cells
    · rw [having_pos c s r hc] at hn ⊢
      rw [key s.cells _ (hn s List.mem_cons_self) hc, ih fun t ht => hn t (List.mem_cons_of_mem _ ht)]
      rfl
    · rw [having_neg c s r hc] at hn ⊢
      rw [ih hn]
      have : (s.cells.map fun d => (d, s.mats.head?)).filter (fun q => q.1 = c) = [] := by
        rw [List.filter_eq_nil_iff]
        intro q hq hqc
        obtain ⟨z, hz, rfl⟩ := List.mem_map.1 hq
        have : z = c := by simpa using hqc
        exact hc (this ▸ hz)
      rw [this, List.nil_append]

theorem copies_nodup (l : List Cell) : ∀ nc, (copies nc l).Nodup := by
  induction l with
  | nil => intro _; exact List.nodup_nil
  | cons c r ih =>
    intro nc
    rw [copies, List.nodup_cons]
    refine ⟨fun h => ?_, ih (nc + 1)⟩
    have := mem_copies r (nc + 1) _ h
    simp only at this
    omega

theorem loop_nodup (l : List ESet) : ∀ nc nm, (∀ s ∈ l, s.cells.Nodup ∧ ∀ c ∈ s.cells, c.id < nc) →
    (∀ t ∈ (loop nc nm l).old, t.cells.Nodup) ∧ ∀ t ∈ (loop nc nm l).new, t.cells.Nodup := by
  induction l with
  | nil => intro nc nm _; exact ⟨fun t ht => (by cases ht), fun t ht => (by cases ht)⟩
  | cons s r ih =>
    intro nc nm h
    have hs := h s List.mem_cons_self
    rw [loop]
    split
    · obtain ⟨h1, h2⟩ := ih nc nm fun t ht => h t (List.mem_cons_of_mem _ ht)
      refine ⟨fun t ht => ?_, h2⟩
      rcases List.mem_cons.1 ht with rfl | ht
      · exact hs.1
      · exact h1 t ht
    · obtain ⟨h1, h2⟩ := ih (nc + s.cells.length) (nm + 1) fun t ht =>
        ⟨(h t (List.mem_cons_of_mem _ ht)).1, fun c hc => Nat.lt_of_lt_of_le ((h t (List.mem_cons_of_mem _ ht)).2 c hc) (Nat.le_add_right _ _)⟩
      refine ⟨fun t ht => ?_, fun t ht => ?_⟩
      · rcases List.mem_cons.1 ht with rfl | ht
        · refine List.nodup_append.2 ⟨hs.1, copies_nodup _ _, ?_⟩
          intro a ha b hb hab
          have h3 := hs.2 a ha
          have h4 := mem_copies _ _ b hb
          rw [hab] at h3
          omega
        · exact h1 t ht
      · rcases List.mem_cons.1 ht with rfl | ht
        · exact hs.1
        · exact h2 t ht

/-- **C119 is false of Systus:** for every cell of a set with additional mass three elements are written, two of them for the same cell, and all
three have the material of the set. The material that has the additional mass is not used. -/
theorem C119_systus_false (nc nm : Nat) (mesh : List Cell) (sets : List ESet) (hb : Before nc nm mesh sets)
    (s : ESet) (hs : s ∈ sets) (m : Mat) (hm : s.mats = [m]) (hr : isZero s.addRho = false) (c : Cell) (hc : c ∈ s.cells) :
    ∃ x ≠ c, x.place = c.place ∧ (elements (emulate nc nm sets)).filter (fun q => q.1 = c) = [(c, some m), (c, some m)] ∧
      (elements (emulate nc nm sets)).filter (fun q => q.1 = x) = [(x, some m)] := by
  obtain ⟨x, cl, k, hk, hxc, hxp, h1, h2, h3⟩ := at_place hb s hs hr c hc
  obtain ⟨n1, n2⟩ := loop_nodup sets nc nm fun t ht => ⟨(hb.cells t ht).1, fun d hd => (old_id hb t ht d hd).2⟩
  have hn : ∀ t ∈ emulate nc nm sets, t.cells.Nodup := fun t ht => (List.mem_append.1 ht).elim (n1 t) (n2 t)
  refine ⟨x, hxc, hxp, ?_, ?_⟩
  · rw [elements_at _ c fun t ht => hn t (List.mem_filter.1 ht).1, h2]
    simp [hm]
  · rw [elements_at _ x fun t ht => hn t (List.mem_filter.1 ht).1, h3]
    simp [hm]

theorem loop_mats (l : List ESet) : ∀ nc nm, (∀ s ∈ l, ∃ m, s.mats = [m] ∧ m.id < nm) →
    ∀ t, (t ∈ (loop nc nm l).old ∨ t ∈ (loop nc nm l).new) → ∃ s ∈ l, t.mats.head? = s.mats.head? := by
  induction l with
  | nil => intro nc nm _ t ht; rcases ht with h | h <;> cases h
  | cons s r ih =>
    intro nc nm h t ht
    obtain ⟨m, hm, _⟩ := h s List.mem_cons_self
    rw [loop] at ht
    split at ht
    · rcases ht with ht | ht
      · rcases List.mem_cons.1 ht with rfl | ht
        · exact ⟨t, List.mem_cons_self, rfl⟩
        · obtain ⟨u, hu, h'⟩ := ih nc nm (fun x hx => h x (List.mem_cons_of_mem _ hx)) t (.inl ht)
          exact ⟨u, List.mem_cons_of_mem _ hu, h'⟩
      · obtain ⟨u, hu, h'⟩ := ih nc nm (fun x hx => h x (List.mem_cons_of_mem _ hx)) t (.inr ht)
        exact ⟨u, List.mem_cons_of_mem _ hu, h'⟩
    · have hih := ih (nc + s.cells.length) (nm + 1) (fun x hx => by
        obtain ⟨m, h1, h2⟩ := h x (List.mem_cons_of_mem _ hx)
        exact ⟨m, h1, Nat.lt_succ_of_lt h2⟩) t
      rcases ht with ht | ht
      · rcases List.mem_cons.1 ht with rfl | ht
        · exact ⟨s, List.mem_cons_self, rfl⟩
        · obtain ⟨u, hu, h'⟩ := hih (.inl ht)
          exact ⟨u, List.mem_cons_of_mem _ hu, h'⟩
      · rcases List.mem_cons.1 ht with rfl | ht
        · exact ⟨s, List.mem_cons_self, by simp [hm]⟩
        · obtain ⟨u, hu, h'⟩ := hih (.inr ht)
          exact ⟨u, List.mem_cons_of_mem _ hu, h'⟩

/-- **C119 is false of Systus, continued:** no element at all has the material of an additional mass. -/
theorem C119_systus_lost_false (nc nm : Nat) (mesh : List Cell) (sets : List ESet) (hb : Before nc nm mesh sets) :
    ∀ q ∈ elements (emulate nc nm sets), ∃ m, q.2 = some m ∧ m.id < nm := by
  intro q hq
  obtain ⟨t, ht, hqt⟩ := List.mem_flatMap.1 hq
  obtain ⟨d, _, rfl⟩ := List.mem_map.1 hqt
  obtain ⟨s, hs, h⟩ := loop_mats sets nc nm hb.mats t (List.mem_append.1 ht)
  obtain ⟨m, h1, h2⟩ := hb.mats s hs
  exact ⟨m, by simp only; rw [h, h1]; rfl, h2⟩

/-- **C119, sets without additional mass.** They stay as they are. -/
theorem C119_none (nc nm : Nat) (sets : List ESet) (h : ∀ s ∈ sets, isZero s.addRho = true) : emulate nc nm sets = sets ∧ (loop nc nm sets).cells = [] := by
  have : loop nc nm sets = ⟨sets, [], []⟩ := by
    induction sets with
    | nil => rfl
    | cons s r ih =>
      rw [loop, if_pos (h s List.mem_cons_self), ih fun t ht => h t (List.mem_cons_of_mem _ ht)]
  unfold emulate
  rw [this]
  exact ⟨List.append_nil _, rfl⟩

/-! ## Examples -/

/-- Two sets, of which the first has additional mass. -/
def exSets : List ESet := [⟨[⟨0, 210, 8⟩], [⟨0, 0⟩, ⟨1, 1⟩], 3⟩, ⟨[⟨1, 70, 2⟩], [⟨2, 2⟩], 0⟩]

example : Before 3 2 [⟨0, 0⟩, ⟨1, 1⟩, ⟨2, 2⟩] exSets := by
  refine ⟨by decide, by decide, by decide, by decide, ?_⟩
  intro s hs
  simp only [exSets, List.mem_cons, List.not_mem_nil, or_false] at hs
  rcases hs with rfl | rfl
  · exact ⟨_, rfl, by decide⟩
  · exact ⟨_, rfl, by decide⟩

/-- The order of references satisfies the hypotheses of `C119_aster_partial`, the reverse those of `C119_aster_false`. -/
example : (∀ t : ESet, t.mats.Perm t.mats) ∧ (∀ t ∈ emulate 3 2 exSets, ∀ m ∈ t.mats, 2 ≤ m.id → t.mats.getLast? = some m) ∧
    (∀ t ∈ emulate 3 2 exSets, ∀ m ∈ t.mats, m.id < 2 → t.mats.reverse.getLast? = some m) :=
  ⟨fun _ => .refl _, by decide +kernel, by decide +kernel⟩

example : total Mat.rho (assigned (lines ESet.mats (emulate 3 2 exSets))) (meshAfter 3 2 [⟨0, 0⟩, ⟨1, 1⟩, ⟨2, 2⟩] exSets) 1 = 11 ∧
    total Mat.rho (assigned (lines (fun s => s.mats.reverse) (emulate 3 2 exSets))) (meshAfter 3 2 [⟨0, 0⟩, ⟨1, 1⟩, ⟨2, 2⟩] exSets) 1 = 16 := by
  decide +kernel

end AddedMass
end Vega
