import Verif.Systus.Data
import Verif.Systus.CellProps
import Verif.Results.F06Props
import Mathlib.Tactic.Linarith
import Mathlib.Data.List.Perm.Basic
import Mathlib.Data.List.NodupEquivFin

/-! # C115: the data file of Systus contains what it announces -/
namespace Vega
namespace SystusDataSpec
open SystusData SystusCellSpec

/-- Every cell of the mesh belongs to exactly one element set, once. -/
def Partition (mesh : List Cell) (sets : List ESet) : Prop := (sets.flatMap (·.cells)).Perm (List.range mesh.length)

/-- The numbers of the cells are different. -/
def Distinct (mesh : List Cell) : Prop := (mesh.map (·.id)).Nodup

/-- The cell has its nodes, and is of a type known to Systus (see C81). -/
def Good (c : Cell) : Prop := Supported c.type = true ∧ c.nodes.length = c.type.numNodes

/-- The sets that need rotations of nodes: beams that are not trusses, shells, and matrices, relations, springs and segments with
rotations. -/
def NeedsRotations : Kind → Prop
  | .circular t | .rectangular t | .iSection t | .generic t | .tube t => t = false
  | .shell | .composite => True
  | .segment r | .lmpc _ r | .spring _ r => r = true
  | _ => False

/-- The dimension of the elements of a structure: of lines, surfaces and volumes. -/
def Dimension : Kind → Nat → Prop
  | .circular _, d | .rectangular _, d | .iSection _, d | .generic _, d | .tube _, d => d = 1
  | .shell, d | .composite, d | .skin, d => d = 2
  | .continuum, d => d = 3
  | _, _ => False

/-- The digits by which Systus knows the elements of a set with cells of `n` nodes: the dimension, and the type. -/
inductive Digits : Kind → Nat → Nat × Nat → Prop
  | circular t n : Digits (.circular t) n (1, 0)
  | rectangular t n : Digits (.rectangular t) n (1, 0)
  | iSection t n : Digits (.iSection t) n (1, 0)
  | generic t n : Digits (.generic t) n (1, 0)
  | segment1 r : Digits (.segment r) 1 (0, 6)
  | segment2 r : Digits (.segment r) 2 (1, 6)
  | aligned d l r n : Digits (.spring ((d, d) :: l) r) n (1, 6)
  | crossed d e l r n : d ≠ e → Digits (.spring ((d, e) :: l) r) n (1, 9)
  | skin n : Digits .skin n (2, 0)
  | shell n : Digits .shell n (2, 4)
  | slide n : Digits .slide n (3, 0)
  | continuum n : Digits .continuum n (3, 0)
  | stiffness n : Digits .stiffness n (3, 9)
  | massMatrix n : Digits .massMatrix n (3, 9)
  | damping n : Digits .damping n (3, 9)
  | rbar n : Digits .rbar n (1, 9)
  | rbe3 n : Digits .rbe3 n (1, 9)
  | lmpc a r n : Digits (.lmpc a r) n (1, 9)

/-- The set is one of those that have no elements in a file of the given analyses: masses and discrete elements at nodes, which are
written elsewhere, and relations of other analyses. -/
def LeftOut (analyses : List Int) (k : Kind) : Prop :=
  k = .mass ∨ k = .discrete0 ∨ k = .discrete1 ∨ ∃ a r, k = .lmpc a r ∧ a ∉ analyses

/-- The sets with elements that need no rotations: skins, volumes, and relations and springs without them. -/
def Translations : Kind → Prop
  | .skin | .continuum => True
  | .lmpc _ r | .spring _ r => r = false
  | _ => False

end SystusDataSpec

namespace SystusData
open Systus SystusDataSpec SystusCellSpec

/-! ## Helper lemmas -/

theorem cellLine_ok (code : Option Nat × Nat) (c : Cell) (h : Good c) :
    ∃ l, cellLine code c = .ok (some l) ∧ l.element.id = c.id ∧ l.element.nodes.Perm c.nodes ∧ l.element.announced = l.element.nodes.length ∧
      l.dim = dimension code.1 c.nodes.length ∧ l.type = code.2 := by
  obtain ⟨e, he, h1, h2, h3⟩ := C81_nodes_partial c.id c.type c.nodes h.1 h.2
  exact ⟨⟨dimension code.1 c.nodes.length, code.2, e⟩, by simp [cellLine, he], h1, h2, h3, rfl, rfl⟩

/-- The line belongs to the cell. -/
def Of (c : Cell) (l : Line) : Prop :=
  l.element.id = c.id ∧ l.element.nodes.Perm c.nodes ∧ l.element.announced = l.element.nodes.length

theorem cellLines_ok (mesh : List Cell) (hg : ∀ c ∈ mesh, Good c) (code : Option Nat × Nat) : ∀ ps : List Nat, (∀ p ∈ ps, p < mesh.length) →
    ∃ ls, cellLines mesh code ps = .ok ls ∧ List.Forall₂ (fun p l => ∃ c, mesh[p]? = some c ∧ Of c l) ps ls := by
  intro ps
  induction ps with
  | nil => exact fun _ => ⟨[], rfl, .nil⟩
  | cons p ps ih =>
    intro h
    obtain ⟨ls, h1, h2⟩ := ih fun q hq => h q (List.mem_cons_of_mem _ hq)
    have hlt := h p List.mem_cons_self
    have hp : mesh[p]? = some mesh[p] := List.getElem?_eq_getElem hlt
    obtain ⟨l, e1, e2, e3, e4, -⟩ := cellLine_ok code mesh[p] (hg _ (List.getElem_mem hlt))
    refine ⟨l :: ls, ?_, .cons ⟨_, hp, e2, e3, e4⟩ h2⟩
    simp [cellLines, hp, e1, h1]

theorem elementLines_ok (mesh : List Cell) (hg : ∀ c ∈ mesh, Good c) (as : List Int) : ∀ sets : List ESet,
    (∀ s ∈ sets, ∀ p ∈ s.cells, p < mesh.length) → (∀ s ∈ sets, ∀ r, s.kind ≠ .spring [] r) →
    ∃ ls, elementLines mesh as sets = .ok ls ∧
      List.Forall₂ (fun p l => ∃ c, mesh[p]? = some c ∧ Of c l) ((sets.filter (·.kind.written as)).flatMap (·.cells)) ls := by
  intro sets
  induction sets with
  | nil => exact fun _ _ => ⟨[], rfl, .nil⟩
  | cons s r ih =>
    intro h hs
    obtain ⟨ls, h1, h2⟩ := ih (fun t ht => h t (List.mem_cons_of_mem _ ht)) (fun t ht => hs t (List.mem_cons_of_mem _ ht))
    by_cases hw : s.kind.written as = true
    · have hc : ∃ code, s.kind.code = .ok code := by
        have := hs s List.mem_cons_self
        revert this
        cases s.kind with
        | spring d r =>
          cases d with
          | nil => intro this; exact absurd rfl (this r)
          | cons p q => exact fun _ => ⟨_, rfl⟩
        | _ => exact fun _ => ⟨_, rfl⟩
      obtain ⟨code, hc⟩ := hc
      obtain ⟨l, e1, e2⟩ := cellLines_ok mesh hg code s.cells (h s List.mem_cons_self)
      refine ⟨l ++ ls, ?_, ?_⟩
      · simp [elementLines, hw, hc, e1, h1]
      · rw [List.filter_cons, if_pos hw, List.flatMap_cons]
        exact List.rel_append e2 h2
    · refine ⟨ls, ?_, ?_⟩
      · simp [elementLines, hw, h1]
      · rw [List.filter_cons, if_neg hw]
        exact h2

theorem countCells_distinct {mesh : List Cell} (h : Distinct mesh) : countCells mesh = mesh.length := by
  unfold countCells
  rw [List.Nodup.dedup h, List.length_map]

theorem partition_valid {mesh : List Cell} {sets : List ESet} (h : Partition mesh sets) : ∀ s ∈ sets, ∀ p ∈ s.cells, p < mesh.length := by
  intro s hs p hp
  exact List.mem_range.1 (h.mem_iff.1 (List.mem_flatMap.2 ⟨s, hs, hp⟩))

theorem flatMap_length_le (as : List Int) : ∀ sets : List ESet,
    ((sets.filter (·.kind.written as)).flatMap (·.cells)).length ≤ (sets.flatMap (·.cells)).length := by
  intro sets
  induction sets with
  | nil => simp
  | cons s r ih =>
    by_cases hw : s.kind.written as = true
    · rw [List.filter_cons, if_pos hw]
      simp only [List.flatMap_cons, List.length_append]
      omega
    · rw [List.filter_cons, if_neg hw]
      simp only [List.flatMap_cons, List.length_append]
      omega

theorem flatMap_length_lt (as : List Int) (s : ESet) (hw : s.kind.written as = false) (hc : s.cells ≠ []) : ∀ sets : List ESet, s ∈ sets →
    ((sets.filter (·.kind.written as)).flatMap (·.cells)).length < (sets.flatMap (·.cells)).length := by
  intro sets
  induction sets with
  | nil => simp
  | cons t r ih =>
    intro h
    rcases List.mem_cons.1 h with rfl | h
    · rw [List.filter_cons, if_neg (by simp [hw])]
      simp only [List.flatMap_cons, List.length_append]
      have := List.length_pos_iff.2 hc
      have := flatMap_length_le as r
      omega
    · have := ih h
      by_cases hw' : t.kind.written as = true
      · rw [List.filter_cons, if_pos hw']
        simp only [List.flatMap_cons, List.length_append]
        omega
      · rw [List.filter_cons, if_neg hw']
        simp only [List.flatMap_cons, List.length_append]
        omega

/-! ## C115, elements -/

/-- **C115 (partial).** If no set is left out, each cell of the mesh is one element of the file, with its number and nodes, and their number is
announced. -/
theorem C115_elements_partial (mesh : List Cell) (as : List Int) (sets : List ESet) (hp : Partition mesh sets) (hd : Distinct mesh)
    (hg : ∀ c ∈ mesh, Good c) (hs : ∀ s ∈ sets, ∀ r, s.kind ≠ .spring [] r) (hw : ∀ s ∈ sets, s.kind.written as = true) :
    ∃ n ls, writeElements mesh as sets = .ok (n, ls) ∧ n = ls.length ∧ n = mesh.length ∧
      ∀ c ∈ mesh, ∃ l ∈ ls, l.element.id = c.id ∧ l.element.nodes.Perm c.nodes ∧ l.element.announced = c.nodes.length := by
  obtain ⟨ls, h1, h2⟩ := elementLines_ok mesh hg as sets (partition_valid hp) hs
  rw [List.filter_eq_self.2 hw] at h2
  have hl : ls.length = mesh.length := by
    rw [← h2.length_eq, hp.length_eq, List.length_range]
  refine ⟨mesh.length, ls, ?_, hl.symm, rfl, ?_⟩
  · simp [writeElements, h1, countCells_distinct hd]
  · intro c hc
    obtain ⟨p, hlt, hpc⟩ := List.mem_iff_getElem.1 hc
    have hm : p ∈ sets.flatMap (·.cells) := hp.mem_iff.2 (List.mem_range.2 hlt)
    obtain ⟨k, hk, hpk⟩ := List.mem_iff_getElem.1 hm
    have hk' : k < ls.length := by rw [← h2.length_eq]; exact hk
    have := (List.forall₂_iff_get.1 h2).2 k hk hk'
    simp only [List.get_eq_getElem, hpk] at this
    obtain ⟨c', e1, e2, e3, e4⟩ := this
    have : c' = c := by
      rw [List.getElem?_eq_getElem hlt, hpc] at e1
      exact (Option.some.inj e1).symm
    subst this
    exact ⟨ls[k], List.getElem_mem hk', e2, e3, by rw [e4, e3.length_eq]⟩

/-- **C115 is false of models with masses at nodes** or relations of other files: their cells are announced and not written. -/
theorem C115_elements_false (mesh : List Cell) (as : List Int) (sets : List ESet) (hp : Partition mesh sets) (hd : Distinct mesh)
    (hg : ∀ c ∈ mesh, Good c) (hs : ∀ s ∈ sets, ∀ r, s.kind ≠ .spring [] r) (s : ESet) (hm : s ∈ sets) (hw : s.kind.written as = false) (hc : s.cells ≠ []) :
    ∃ n ls, writeElements mesh as sets = .ok (n, ls) ∧ ls.length < n := by
  obtain ⟨ls, h1, h2⟩ := elementLines_ok mesh hg as sets (partition_valid hp) hs
  refine ⟨mesh.length, ls, ?_, ?_⟩
  · simp [writeElements, h1, countCells_distinct hd]
  · rw [← h2.length_eq]
    have := flatMap_length_lt as s hw hc sets hm
    rw [hp.length_eq, List.length_range] at this
    exact this

/-- Two beams and a mass: three elements are announced. -/
example : let mesh : List Cell := [⟨1, .seg2, [1, 2]⟩, ⟨2, .seg2, [2, 3]⟩, ⟨7, .point1, [3]⟩]
    let sets : List ESet := [⟨1, .circular false, [0, 1], [0]⟩, ⟨2, .mass, [2], [1]⟩]
    Partition mesh sets ∧ Distinct mesh ∧ (∀ c ∈ mesh, Good c) ∧ (Kind.mass.written [1] = false) ∧
    (writeElements mesh [1] sets = .ok (3, [⟨1, 0, ⟨1, 2, [1, 2]⟩⟩, ⟨1, 0, ⟨2, 2, [2, 3]⟩⟩])) := by
  refine ⟨?_, ?_, ?_, rfl, ?_⟩
  · unfold Partition; decide
  · unfold Distinct; decide
  · intro c hc
    simp only [List.mem_cons, List.not_mem_nil, or_false] at hc
    rcases hc with rfl | rfl | rfl <;> exact ⟨rfl, rfl⟩
  · decide +kernel

/-- **C115 (partial).** Beams, shells, skins and volumes are written as elements of their dimension, if they are not tubes or composites. -/
theorem C115_dimension_partial (k : Kind) (d : Nat) (h : Dimension k d) (ht : ∀ t, k ≠ .tube t) (hc : k ≠ .composite) (c : Cell) (hg : Good c) :
    ∃ code l, k.code = .ok code ∧ cellLine code c = .ok (some l) ∧ l.dim = d := by
  cases k with
  | circular t | rectangular t | iSection t | generic t | shell | skin | continuum =>
    obtain ⟨l, e1, -, -, -, e2, -⟩ := cellLine_ok (some d, _) c hg
    refine ⟨_, l, ?_, e1, e2⟩
    cases h
    rfl
  | tube t => exact absurd rfl (ht t)
  | composite => exact absurd rfl hc
  | _ => exact absurd h (by simp [Dimension])

/-- **C115 is false for tubes and composites.** After a message that they are not supported, their cells are written as volumes. -/
theorem C115_dimension_false (k : Kind) (hk : k = .composite ∨ ∃ t, k = .tube t) (as : List Int) (c : Cell) (hg : Good c) :
    k.written as = true ∧ ∃ code l, k.code = .ok code ∧ cellLine code c = .ok (some l) ∧ l.dim = 3 ∧ ¬ Dimension k l.dim := by
  obtain ⟨l, e1, -, -, -, e2, -⟩ := cellLine_ok (some 3, 0) c hg
  rcases hk with rfl | ⟨t, rfl⟩
  · exact ⟨rfl, _, l, rfl, e1, e2, by rw [e2]; simp [Dimension, dimension]⟩
  · exact ⟨rfl, _, l, rfl, e1, e2, by rw [e2]; simp [Dimension, dimension]⟩

example : Good ⟨1, .quad4, [1, 2, 3, 4]⟩ := ⟨rfl, rfl⟩

/-- **C115.** The elements of a set have the digits of the set. -/
theorem C115_digits (k : Kind) (c : Cell) (d : Nat × Nat) (h : Digits k c.nodes.length d) (hg : Good c) :
    ∃ code l, k.code = .ok code ∧ cellLine code c = .ok (some l) ∧ (l.dim, l.type) = d := by
  have key : ∀ code : Option Nat × Nat, k.code = .ok code → (dimension code.1 c.nodes.length, code.2) = d →
      ∃ code l, k.code = .ok code ∧ cellLine code c = .ok (some l) ∧ (l.dim, l.type) = d := by
    intro code h1 h2
    obtain ⟨l, e1, -, -, -, e2, e3⟩ := cellLine_ok code c hg
    exact ⟨code, l, h1, e1, by rw [e2, e3, h2]⟩
  generalize hn : c.nodes.length = n at h key
  cases h with
  | aligned d l r n => exact key (some 1, 6) (by simp [Kind.code]) rfl
  | crossed d e l r n hne => exact key (some 1, 9) (by simp [Kind.code, hne]) rfl
  | _ => exact key _ rfl rfl

example : Digits (.spring [(1, 3)] false) 2 (1, 9) ∧ Good ⟨1, .seg2, [4, 5]⟩ := ⟨.crossed _ _ _ _ _ (by decide), rfl, rfl⟩

/-- **C115.** The sets that are left out are exactly those. -/
theorem C115_left_out (as : List Int) (k : Kind) : k.written as = false ↔ LeftOut as k := by
  unfold LeftOut
  cases k <;> simp [Kind.written]

/-! ## C115, groups -/

theorem free_spec (used : List Int) : ∀ (fuel : Nat) (p counter : Int),
    (used.filter (· ≤ counter)).length + 2 ≤ fuel →
    ∃ q c, free used fuel p counter = .ok (q, c) ∧ q ∉ used ∧ (p ∉ used → q = p ∧ c = counter) := by
  intro fuel
  induction fuel with
  | zero => intro p counter h; omega
  | succ fuel ih =>
    intro p counter h
    by_cases hp : p ∈ used
    · by_cases hc : counter ∈ used
      · have hlt : (used.filter (· ≤ counter - 1)).length < (used.filter (· ≤ counter)).length := by
          have hsub : (used.filter (· ≤ counter - 1)) = (used.filter (· ≤ counter)).filter (· ≤ counter - 1) := by
            rw [List.filter_filter]
            apply List.filter_congr
            intro x _
            simp only [Bool.and_eq_true, decide_eq_true_eq, eq_iff_iff, Bool.decide_and, ← Bool.decide_and]
            simp only [decide_eq_decide]
            omega
          rw [hsub]
          apply List.length_filter_lt_length_iff_exists.2
          exact ⟨counter, List.mem_filter.2 ⟨hc, by simp⟩, by simp⟩
        obtain ⟨q, c, h1, h2, -⟩ := ih counter (counter - 1) (by omega)
        exact ⟨q, c, by simp only [free, hp, if_true]; exact h1, h2, fun hn => absurd hp hn⟩
      · have : fuel ≠ 0 := by omega
        obtain ⟨f, rfl⟩ := Nat.exists_eq_succ_of_ne_zero this
        exact ⟨counter, counter - 1, by simp [free, hp, hc], hc, fun hn => absurd hp hn⟩
    · exact ⟨p, counter, by simp [free, hp], hp, fun _ => ⟨rfl, rfl⟩⟩

theorem partId_spec (name : List Char) (used : List Int) (counter : Int) :
    ∃ q c, partId name used counter = .ok (q, c) ∧ q ∉ used ∧ ∀ n, fromName name = some n → n ∉ used → q = n := by
  unfold partId
  have hlen : ∀ c : Int, (used.filter (· ≤ c)).length + 2 ≤ used.length + 2 := fun c => by
    have := List.length_filter_le (fun x => decide (x ≤ c)) used
    omega
  cases hn : fromName name with
  | some n =>
    obtain ⟨q, c, h1, h2, h3⟩ := free_spec used _ n counter (hlen counter)
    refine ⟨q, c, h1, h2, ?_⟩
    intro m hm hu
    cases hm
    exact (h3 hu).1
  | none =>
    obtain ⟨q, c, h1, h2, -⟩ := free_spec used _ counter (counter - 1) (hlen (counter - 1))
    exact ⟨q, c, h1, h2, by simp⟩

theorem cellGroupLines_spec (u : Nat → Bool) : ∀ (gs : List Group) (n : Nat) (used : List Int) (counter : Int),
    ∃ ls c, cellGroupLines u gs n used counter = .ok (ls, n + ls.length, c) ∧
      ls.map (·.number) = List.range' (n + 1) ls.length ∧
      ls.map (·.members) = (gs.filter fun g => u g.key && decide (g.members ≠ [])).map (·.members) ∧
      ls.map (·.name) = (gs.filter fun g => u g.key && decide (g.members ≠ [])).map (underscores ·.name) ∧
      (ls.filterMap (·.part)).Nodup ∧ (∀ p ∈ ls.filterMap (·.part), p ∉ used) ∧ (ls.filterMap (·.part)).length = ls.length := by
  intro gs
  induction gs with
  | nil => exact fun n used counter => ⟨[], counter, rfl, rfl, rfl, rfl, List.nodup_nil, by simp, rfl⟩
  | cons g r ih =>
    intro n used counter
    by_cases h : u g.key = true ∧ g.members ≠ []
    · obtain ⟨q, c, h1, h2, -⟩ := partId_spec g.name used counter
      obtain ⟨ls, c', e1, e2, e3, e4, e5, e6, e7⟩ := ih (n + 1) (q :: used) c
      have hf : (u g.key && decide (g.members ≠ [])) = true := by simp [h.1, h.2]
      refine ⟨⟨n + 1, underscores g.name, some q, g.members⟩ :: ls, c', ?_, ?_, ?_, ?_, ?_, ?_, ?_⟩
      · simp only [cellGroupLines]
        rw [if_pos h]
        simp [h1, e1]
        omega
      · simp only [List.map_cons, e2, List.length_cons, List.range'_succ]
      · rw [List.filter_cons, if_pos hf]; simp only [List.map_cons, e3]
      · rw [List.filter_cons, if_pos hf]; simp only [List.map_cons, e4]
      · rw [List.filterMap_cons_some (f := fun x : GroupLine => x.part) (b := q) rfl]
        refine List.nodup_cons.2 ⟨?_, e5⟩
        intro hq
        exact e6 q hq List.mem_cons_self
      · rw [List.filterMap_cons_some (f := fun x : GroupLine => x.part) (b := q) rfl]
        intro p hp
        rcases List.mem_cons.1 hp with rfl | hp
        · exact h2
        · exact fun hu => e6 p hp (List.mem_cons_of_mem _ hu)
      · rw [List.filterMap_cons_some (f := fun x : GroupLine => x.part) (b := q) rfl]
        simp [e7]
    · obtain ⟨ls, c', e1, e2, e3, e4, e5, e6, e7⟩ := ih n used counter
      have hf : ¬ (u g.key && decide (g.members ≠ [])) = true := by
        simp only [Bool.and_eq_true, decide_eq_true_eq]
        exact h
      refine ⟨ls, c', ?_, e2, ?_, ?_, e5, e6, e7⟩
      · simp only [cellGroupLines]
        rw [if_neg h]
        exact e1
      · rw [List.filter_cons, if_neg hf]; exact e3
      · rw [List.filter_cons, if_neg hf]; exact e4

theorem nodeGroupLines_spec : ∀ (gs : List Group) (n : Nat),
    (nodeGroupLines gs n).2 = n + (nodeGroupLines gs n).1.length ∧
    (nodeGroupLines gs n).1.map (·.number) = List.range' (n + 1) (nodeGroupLines gs n).1.length ∧
    (nodeGroupLines gs n).1.map (·.members) = (gs.filter fun g => decide (g.members ≠ [])).map (·.members) ∧
    (nodeGroupLines gs n).1.filterMap (·.part) = [] := by
  intro gs
  induction gs with
  | nil => exact fun n => ⟨rfl, rfl, rfl, rfl⟩
  | cons g r ih =>
    intro n
    by_cases h : g.members = []
    · have hf : ¬ (decide (g.members ≠ [])) = true := by simp [h]
      rw [List.filter_cons, if_neg hf]
      simp only [nodeGroupLines]
      rw [if_pos h]
      exact ih n
    · have hf : (decide (g.members ≠ [])) = true := by simp [h]
      obtain ⟨e1, e2, e3, e4⟩ := ih (n + 1)
      rw [List.filter_cons, if_pos hf]
      simp only [nodeGroupLines]
      rw [if_neg h]
      refine ⟨?_, ?_, ?_, ?_⟩
      · simp only [e1, List.length_cons]; omega
      · simp only [List.map_cons, e2, List.length_cons, List.range'_succ]
      · simp only [List.map_cons, e3]
      · rw [List.filterMap_cons_none (f := fun x : GroupLine => x.part) rfl]; exact e4

/-- **C115.** As many groups are written as announced, numbered from 1, each group of nodes and each useful group of cells that is not
empty, with its members; the parts have different numbers. The search for a free number of a part always ends. -/
theorem C115_groups (u : Nat → Bool) (cs ns : List Group) (counter : Int) :
    ∃ n ls c, writeGroups u cs ns counter = .ok (n, ls, c) ∧ n = ls.length ∧ ls.map (·.number) = List.range' 1 n ∧
      ls.map (·.members) = ((cs.filter fun g => u g.key && decide (g.members ≠ [])) ++ ns.filter fun g => decide (g.members ≠ [])).map (·.members) ∧
      (ls.filterMap (·.part)).Nodup ∧ (ls.filterMap (·.part)).length = (cs.filter fun g => u g.key && decide (g.members ≠ [])).length := by
  obtain ⟨ls, c, e1, e2, e3, e4, e5, e6, e7⟩ := cellGroupLines_spec u cs 0 [] counter
  obtain ⟨f1, f2, f3, f4⟩ := nodeGroupLines_spec ns (0 + ls.length)
  refine ⟨(nodeGroupLines ns (0 + ls.length)).2, ls ++ (nodeGroupLines ns (0 + ls.length)).1, c, ?_, ?_, ?_, ?_, ?_, ?_⟩
  · simp only [writeGroups, e1, Outcome.bind_ok]
  · rw [f1, List.length_append]; omega
  · rw [List.map_append, e2, f2, f1]
    rw [show 0 + ls.length + (nodeGroupLines ns (0 + ls.length)).1.length = ls.length + (nodeGroupLines ns (0 + ls.length)).1.length by omega]
    rw [← List.range'_append_1]
    congr 2
    omega
  · rw [List.map_append, e3, f3, List.map_append]
  · rw [List.filterMap_append, f4, List.append_nil]; exact e5
  · rw [List.filterMap_append, f4, List.append_nil, e7]
    have := congrArg List.length e3
    simpa using this

theorem kept (u : Nat → Bool) : ∀ (gs : List Group) (n : Nat) (used : List Int) (counter : Int) (ks : List Int),
    (gs.filter fun g => u g.key && decide (g.members ≠ [])).map (fromName ·.name) = ks.map some → ks.Nodup → (∀ k ∈ ks, k ∉ used) →
    ∃ ls m, cellGroupLines u gs n used counter = .ok (ls, m) ∧ ls.map (·.part) = ks.map some := by
  intro gs
  induction gs with
  | nil =>
    intro n used counter ks h _ _
    have : ks = [] := by simpa using h.symm
    subst this
    exact ⟨[], _, rfl, rfl⟩
  | cons g r ih =>
    intro n used counter ks hk hd hu
    by_cases h : u g.key = true ∧ g.members ≠ []
    · have hf : (u g.key && decide (g.members ≠ [])) = true := by simp [h.1, h.2]
      rw [List.filter_cons, if_pos hf] at hk
      cases ks with
      | nil => simp at hk
      | cons k ks =>
        simp only [List.map_cons, List.cons.injEq] at hk
        obtain ⟨q, c, h1, -, h3⟩ := partId_spec g.name used counter
        have hq : q = k := h3 k hk.1 (hu k List.mem_cons_self)
        subst hq
        obtain ⟨hnot, hd'⟩ := List.nodup_cons.1 hd
        obtain ⟨ls, m, e1, e2⟩ := ih (n + 1) (q :: used) c ks hk.2 hd' (by
          intro j hj hm
          rcases List.mem_cons.1 hm with rfl | hm
          · exact hnot hj
          · exact hu j (List.mem_cons_of_mem _ hj) hm)
        refine ⟨⟨n + 1, underscores g.name, some q, g.members⟩ :: ls, m, ?_, ?_⟩
        · simp only [cellGroupLines]
          rw [if_pos h]
          simp [h1, e1]
        · simp [e2]
    · have hf : ¬ (u g.key && decide (g.members ≠ [])) = true := by
        simp only [Bool.and_eq_true, decide_eq_true_eq]
        exact h
      rw [List.filter_cons, if_neg hf] at hk
      obtain ⟨ls, m, e1, e2⟩ := ih n used counter ks hk hd hu
      refine ⟨ls, m, ?_, e2⟩
      simp only [cellGroupLines]
      rw [if_neg h]
      exact e1

/-- **C115.** If the names of the groups of cells written end in different numbers, these are the numbers of the parts. -/
theorem C115_parts (u : Nat → Bool) (cs ns : List Group) (counter : Int) (ks : List Int)
    (hk : (cs.filter fun g => u g.key && decide (g.members ≠ [])).map (fromName ·.name) = ks.map some) (hd : ks.Nodup) :
    ∃ n ls c, writeGroups u cs ns counter = .ok (n, ls, c) ∧ ls.filterMap (·.part) = ks := by
  obtain ⟨ls, m, e1, e2⟩ := kept u cs 0 [] counter ks hk hd (by simp)
  obtain ⟨-, -, -, f4⟩ := nodeGroupLines_spec ns m.1
  refine ⟨(nodeGroupLines ns m.1).2, ls ++ (nodeGroupLines ns m.1).1, m.2, ?_, ?_⟩
  · simp only [writeGroups, e1, Outcome.bind_ok]
  · rw [List.filterMap_append, f4, List.append_nil]
    have := congrArg (List.filterMap id) e2
    simpa [List.filterMap_map, Function.comp_def] using this

/-- The name of the group of the property 12 of Nastran, and what is found from it. -/
example : fromName "PSHELL_12".toList = some 12 ∧ fromName "PBAR_3".toList = some 3 ∧ fromName "SKIN".toList = none := by decide +kernel

/-- **C115.** The groups of an element set, that no other set has, are written exactly if the set is. -/
theorem C115_useful (as : List Int) (sets : List ESet) (s : ESet) (hs : s ∈ sets) (g : Nat) (hg : g ∈ s.groups)
    (ho : ∀ t ∈ sets, g ∈ t.groups → t = s) : useful as sets g = s.kind.written as := by
  unfold useful
  have hne : sets.filter (·.groups.contains g) ≠ [] := by
    intro h
    have : s ∈ sets.filter (·.groups.contains g) := List.mem_filter.2 ⟨hs, by simpa using hg⟩
    rw [h] at this
    simp at this
  rw [List.getLast?_eq_some_getLast hne]
  have hm := List.getLast_mem hne
  obtain ⟨h1, h2⟩ := List.mem_filter.1 hm
  have := ho _ h1 (by simpa using h2)
  simp only [this]

/-- **C115 is false of groups that belong to no element set**, as the sets of elements of the user: they are not written. -/
theorem C115_user_groups_false (as : List Int) (sets : List ESet) (g : Nat) (h : ∀ s ∈ sets, g ∉ s.groups) : useful as sets g = false := by
  unfold useful
  have : sets.filter (·.groups.contains g) = [] := by
    rw [List.filter_eq_nil_iff]
    intro s hs
    simpa using h s hs
  rw [this]
  rfl

/-- **C115 is false of names.** Groups whose names differ by a space and an underscore have the same name in the file. -/
theorem C115_names_false (a b : List Char) (u : Nat → Bool) (hu : u 0 = true ∧ u 1 = true) (m m' : Int) (counter : Int) :
    a ++ ' ' :: b ≠ a ++ '_' :: b ∧
    ∃ l l' c, writeGroups u [⟨0, a ++ ' ' :: b, [m]⟩, ⟨1, a ++ '_' :: b, [m']⟩] [] counter = .ok (2, [l, l'], c) ∧ l.name = l'.name := by
  constructor
  · simp
  · obtain ⟨ls, c, e1, -, -, e4, -, -, e7⟩ := cellGroupLines_spec u [⟨0, a ++ ' ' :: b, [m]⟩, ⟨1, a ++ '_' :: b, [m']⟩] 0 [] counter
    have hl : ls.length = 2 := by
      have := congrArg List.length e4
      simpa [hu.1, hu.2] using this
    obtain ⟨l, l', rfl⟩ := List.length_eq_two.1 hl
    refine ⟨l, l', c, ?_, ?_⟩
    · simp [writeGroups, e1, nodeGroupLines]
    · simp [hu.1, hu.2, underscores] at e4
      rw [e4.1, e4.2]

/-! ## C115, masses and materials -/

/-- **C115.** After the removal of ineffective sets by the preparation of the model as many masses are written as announced. -/
theorem C115_masses (effective : List Bool) :
    (writeMasses (removeIneffectives effective)).1 = (writeMasses (removeIneffectives effective)).2 ∧
    (writeMasses (removeIneffectives effective)).2 = effective.count true := by
  constructor
  · simp only [writeMasses, removeIneffectives, List.filter_filter, Bool.and_self]
  · simp only [writeMasses, removeIneffectives, List.filter_filter, Bool.and_self, List.count]
    rw [List.countP_eq_length_filter]
    congr 1
    apply List.filter_congr
    intro x _
    cases x <;> rfl

/-- Without it they would not be as many, if there is one that is ineffective. -/
theorem masses_ineffective (effective : List Bool) (h : false ∈ effective) : (writeMasses effective).2 < (writeMasses effective).1 := by
  simp only [writeMasses]
  exact List.length_filter_lt_length_iff_exists.2 ⟨false, h, by simp⟩

/-- **C115.** The materials announced are those written, and so is the number of fields. -/
theorem C115_materials (ms : List (Nat × List (Nat × List Char))) :
    (writeMaterial ms).1 = ((writeMaterial ms).2.length, ((writeMaterial ms).2.map (·.2.length)).sum) := by
  have h1 : ∀ (l : List (Nat × List Char)) (n : Nat), l.foldl (fun n _ => n + 1) n = n + l.length := by
    intro l
    induction l with
    | nil => intro n; rfl
    | cons a l ih => intro n; simp only [List.foldl_cons, ih, List.length_cons]; omega
  have h2 : ∀ (l : List (Nat × List (Nat × List Char))) (n : Nat),
      l.foldl (fun n m => m.2.foldl (fun n _ => n + 1) n) n = n + (l.map (·.2.length)).sum := by
    intro l
    induction l with
    | nil => intro n; rfl
    | cons a l ih => intro n; rw [List.foldl_cons, ih, h1, List.map_cons, List.sum_cons]; omega
  simp only [writeMaterial]
  rw [h2, Nat.zero_add]

/-! ## C115, degrees of freedom -/

/-- What sets the first flag, and the second. -/
def sets6 : Kind → Bool
  | .circular t | .generic t | .iSection t | .rectangular t => !t
  | .shell | .stiffness | .massMatrix | .damping => true
  | .lmpc _ r | .spring _ r => r
  | _ => false

/-- See above. -/
def sets3 : Kind → Bool
  | .lmpc _ r | .spring _ r => !r
  | .skin | .continuum => true
  | _ => false

theorem flags_eq (k : Kind) (f : Bool × Bool) : flags k f = (f.1 || sets6 k, f.2 || sets3 k) := by
  rcases f with ⟨a, b⟩
  cases k <;> simp [flags, sets6, sets3]

theorem flagLoop_eq : ∀ (ks : List Kind) (f : Bool × Bool), flagLoop ks f = (f.1 || ks.any sets6, f.2 || ks.any sets3) := by
  intro ks
  induction ks with
  | nil => intro f; simp [flagLoop]
  | cons k r ih =>
    intro f
    simp only [flagLoop, flags_eq]
    split_ifs with h
    · simp only [Bool.and_eq_true] at h
      rw [h.1, h.2]
      simp only [List.any_cons, ← Bool.or_assoc, h.1, h.2, Bool.true_or]
    · rw [ih]
      simp only [List.any_cons, ← Bool.or_assoc]

/-- **C115 (partial).** Nodes have six degrees of freedom if any element needs rotations, except if it is a tube, composite or
discrete segment; and if they have six, there is an element that needs rotations or a matrix. -/
theorem C115_option_partial (ks : List Kind) :
    ((∃ k ∈ ks, NeedsRotations k ∧ (∀ t, k ≠ .tube t) ∧ k ≠ .composite ∧ ∀ r, k ≠ .segment r) → nbDOFS (automatic ks) = 6) ∧
    (nbDOFS (automatic ks) = 6 → ∃ k ∈ ks, NeedsRotations k ∨ k = .stiffness ∨ k = .massMatrix ∨ k = .damping) := by
  have key : nbDOFS (automatic ks) = 6 ↔ ks.any sets6 = true := by
    simp only [automatic, flagLoop_eq, Bool.false_or]
    cases ks.any sets6 <;> cases ks.any sets3 <;> simp [nbDOFS]
  rw [key]
  simp only [List.any_eq_true]
  constructor
  · rintro ⟨k, hk, hn, h1, h2, h3⟩
    refine ⟨k, hk, ?_⟩
    cases k with
    | tube t => exact absurd rfl (h1 t)
    | composite => exact absurd rfl h2
    | segment r => exact absurd rfl (h3 r)
    | _ => first | exact hn.elim | simpa [NeedsRotations, sets6] using hn
  · rintro ⟨k, hk, hs⟩
    refine ⟨k, hk, ?_⟩
    cases k <;> simp_all [NeedsRotations, sets6]

example : NeedsRotations (.circular false) ∧ nbDOFS (automatic [.continuum, .circular false]) = 6 := ⟨rfl, rfl⟩

/-- **C115 is false for tubes, composites and discrete segments.** A model of these, with or without volumes, trusses, rigid bars and masses,
has three degrees of freedom at its nodes: their rotations are lost. -/
theorem C115_option_false (ks : List Kind)
    (h : ∀ k ∈ ks, k = .composite ∨ (∃ t, k = .tube t) ∨ (∃ r, k = .segment r) ∨ k = .continuum ∨ k = .skin ∨ k = .circular true ∨ k = .rbar ∨ k = .rbe3 ∨ k = .mass) :
    nbDOFS (automatic ks) = 3 := by
  have : ks.any sets6 = false := by
    rw [List.any_eq_false]
    intro k hk
    rcases h k hk with rfl | ⟨t, rfl⟩ | ⟨r, rfl⟩ | rfl | rfl | rfl | rfl | rfl | rfl <;> simp [sets6]
  simp [automatic, flagLoop_eq, this, nbDOFS]

example : NeedsRotations .composite ∧ nbDOFS (automatic [.composite]) = 3 := ⟨trivial, rfl⟩

/-- **C115.** A model has the option of shells and of volumes together if and only if the option is that of six degrees of freedom, and there
is a set whose elements need no rotations. -/
theorem C115_mixed (ks : List Kind) : automatic ks = .shellMulti ↔ nbDOFS (automatic ks) = 6 ∧ ∃ k ∈ ks, Translations k := by
  have h3 : ks.any sets3 = true ↔ ∃ k ∈ ks, Translations k := by
    rw [List.any_eq_true]
    refine exists_congr fun k => and_congr_right fun _ => ?_
    cases k <;> simp [sets3, Translations]
  rw [← h3]
  simp only [automatic, flagLoop_eq, Bool.false_or]
  cases ks.any sets6 <;> cases ks.any sets3 <;> simp [nbDOFS]

example : automatic [.continuum, .shell] = .shellMulti ∧ automatic [.shell] = .shell := ⟨rfl, rfl⟩

end SystusData
end Vega
