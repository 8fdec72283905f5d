import Verif.Systus.Penalty
import Mathlib.Algebra.BigOperators.Group.List.Lemmas
import Mathlib.Algebra.Order.BigOperators.Group.List
import Mathlib.Tactic.Linarith
import Mathlib.Tactic.Ring
import Mathlib.Tactic.FieldSimp
import Mathlib.Tactic.Positivity
import Mathlib.Tactic.NormNum

/-! # C154: stiffness of rigid elements (Systus) -/
namespace Vega
namespace Penalty

/-! ## Specification -/

/-- The squares of the distances between two different nodes of a cell. -/
def sides : List Point → List ℚ
  | [] => []
  | p :: t => t.map (square p) ++ sides t

/-- A distance that counts: its square is more than the tolerance. -/
def Long (x : ℚ) : Prop := tolerance < x

instance (x : ℚ) : Decidable (Long x) := inferInstanceAs (Decidable (_ < _))

/-- The distances that count in the cells of a mesh. -/
def lengths (cells : List Cell) : List ℚ := cells.flatMap fun c => (sides c.nodes).filter fun x => decide (Long x)

/-- Cells have as many nodes as their types. -/
def Sound (cells : List Cell) : Prop := ∀ c ∈ cells, c.nodes.length = c.type.numNodes

/-- Every type of cells with two nodes or more has a cell with two nodes apart. -/
def Apart (cells : List Cell) : Prop :=
  ∀ c ∈ cells, 2 ≤ c.type.numNodes → ∃ c' ∈ cells, c'.type = c.type ∧ ∃ x ∈ sides c'.nodes, Long x

/-! ## Lemmas -/

theorem square_self (p : Point) : square p p = 0 := by simp [square]

theorem square_nonneg (p q : Point) : 0 ≤ square p q := by
  unfold square
  positivity

theorem tolerance_pos : 0 < tolerance := by norm_num [tolerance]

theorem squares_nonneg : ∀ (l : List Point) (x : ℚ), x ∈ squares l → 0 ≤ x
  | [], x, h => by simp [squares] at h
  | [_], x, h => by simp [squares] at h
  | p :: q :: t, x, h => by
    rw [squares, List.mem_append] at h
    rcases h with h | h
    · obtain ⟨r, -, rfl⟩ := List.mem_map.mp h
      exact square_nonneg _ _
    · exact squares_nonneg _ x h

theorem not_isZero {x : ℚ} (h : 0 ≤ x) : (!isZero x) = decide (Long x) := by
  rw [isZero, abs_of_nonneg h, Bool.eq_iff_iff, decide_eq_true_iff]
  simp [Long]

theorem squares_filter : ∀ l : List Point, (squares l).filter (fun x => !isZero x) = (sides l).filter fun x => decide (Long x)
  | [] => rfl
  | [p] => by simp [squares, sides]
  | p :: q :: t => by
    have h1 : ∀ x ∈ (q :: t).map (square p), (!isZero x) = decide (Long x) := fun x hx => by
      obtain ⟨r, -, rfl⟩ := List.mem_map.mp hx
      exact not_isZero (square_nonneg _ _)
    have h0 : (!isZero (square p p)) = false := by
      rw [square_self, not_isZero le_rfl]
      exact decide_eq_false (not_lt.mpr tolerance_pos.le)
    rw [squares, sides, List.filter_append, squares_filter (q :: t), List.filter_append, List.map_cons, List.filter_cons, h0]
    simp only [Bool.false_eq_true, if_false]
    rw [List.filter_congr h1]

theorem distances_eq (cells : List Cell) (t : CellType) :
    distances cells t = lengths (cells.filter fun c => decide (c.type = t)) := by
  unfold distances lengths
  rw [List.filter_flatMap]
  congr 1
  funext c
  exact squares_filter _

/-- The cells, type by type. -/
theorem grouped (ts : List CellType) (hn : ts.Nodup) (cells : List Cell) :
    (ts.flatMap fun t => cells.filter fun c => decide (c.type = t)).Perm (cells.filter fun c => decide (c.type ∈ ts)) := by
  induction ts with
  | nil => simp
  | cons t ts ih =>
    obtain ⟨h1, h2⟩ := List.nodup_cons.mp hn
    rw [List.flatMap_cons]
    refine ((ih h2).append_left _).trans ?_
    have hp := List.filter_append_perm (fun c : Cell => decide (c.type = t)) (cells.filter fun c => decide (c.type ∈ t :: ts))
    refine List.Perm.trans ?_ hp
    rw [List.filter_filter, List.filter_filter]
    refine List.Perm.append (.of_eq ?_) (.of_eq ?_)
    · refine List.filter_congr fun c _ => ?_
      by_cases h : c.type = t <;> simp [h]
    · refine List.filter_congr fun c _ => ?_
      by_cases h : c.type = t
      · simp [h, h1]
      · simp [h]

theorem sums_ok (cells : List Cell) : ∀ (ts : List CellType) (acc : ℚ × Nat), (∀ t ∈ ts, distances cells t ≠ []) →
    sums cells ts acc = .ok (acc.1 + (ts.flatMap (distances cells)).sum, acc.2 + (ts.flatMap (distances cells)).length)
  | [], acc, _ => by simp [sums]
  | t :: ts, acc, h => by
    rw [sums, if_neg (h t (by simp)), sums_ok cells ts _ fun u hu => h u (by simp [hu])]
    simp only [List.flatMap_cons, List.sum_append, List.length_append, add_assoc]

theorem sums_ub (cells : List Cell) : ∀ (ts : List CellType) (acc : ℚ × Nat), (∃ t ∈ ts, distances cells t = []) →
    sums cells ts acc = .ub
  | [], acc, h => by simp at h
  | t :: ts, acc, h => by
    rw [sums]
    split
    · rfl
    · rename_i hne
      obtain ⟨u, hu, he⟩ := h
      rcases List.mem_cons.mp hu with rfl | hu
      · exact absurd he hne
      · exact sums_ub cells ts _ ⟨u, hu, he⟩

theorem sides_short {l : List Point} (h : l.length < 2) : sides l = [] := by
  match l, h with
  | [], _ => rfl
  | [p], _ => rfl

theorem lengths_perm {a b : List Cell} (h : a.Perm b) : (lengths a).Perm (lengths b) := h.flatMap_right _

theorem all_lengths (cells : List Cell) (hs : Sound cells) :
    ((types cells).flatMap (distances cells)).Perm (lengths cells) := by
  have h1 : (types cells).flatMap (distances cells) =
      lengths ((types cells).flatMap fun t => cells.filter fun c => decide (c.type = t)) := by
    unfold lengths
    rw [List.flatMap_assoc]
    congr 1
    funext t
    exact distances_eq cells t
  rw [h1]
  refine (lengths_perm (grouped _ ((List.nodup_dedup _).filter _) cells)).trans (.of_eq ?_)
  have key : ∀ l : List Cell, (∀ c ∈ l, c ∈ cells) → lengths (l.filter fun c => decide (c.type ∈ types cells)) = lengths l := by
    intro l
    induction l with
    | nil => intro _; rfl
    | cons c l ih =>
      intro hl
      have ih := ih fun x hx => hl x (by simp [hx])
      unfold lengths at ih ⊢
      by_cases hc : c.type ∈ types cells
      · rw [List.filter_cons_of_pos (by simpa using hc), List.flatMap_cons, List.flatMap_cons, ih]
      · rw [List.filter_cons_of_neg (by simpa using hc), List.flatMap_cons, ih]
        have hm := hl c (by simp)
        have : ¬ 2 ≤ c.type.numNodes := fun h2 => hc (by
          simp only [types, List.mem_filter, List.mem_dedup, decide_eq_true_eq]
          exact ⟨List.mem_map_of_mem hm, h2⟩)
        rw [sides_short (by rw [hs c hm]; omega)]
        rfl
  exact key cells fun _ h => h

theorem mem_types {cells : List Cell} {t : CellType} : t ∈ types cells ↔ (∃ c ∈ cells, c.type = t) ∧ 2 ≤ t.numNodes := by
  simp [types]

theorem distances_ne {cells : List Cell} {t : CellType} :
    distances cells t ≠ [] ↔ ∃ c ∈ cells, c.type = t ∧ ∃ x ∈ sides c.nodes, Long x := by
  rw [distances_eq, ← List.length_pos_iff_ne_nil, List.length_pos_iff_exists_mem]
  constructor
  · rintro ⟨x, hx⟩
    obtain ⟨c, hc, hx⟩ := List.mem_flatMap.mp hx
    obtain ⟨hc, ht⟩ := List.mem_filter.mp hc
    obtain ⟨hx, hl⟩ := List.mem_filter.mp hx
    exact ⟨c, hc, by simpa using ht, x, hx, by simpa using hl⟩
  · rintro ⟨c, hc, ht, x, hx, hl⟩
    exact ⟨x, List.mem_flatMap.mpr ⟨c, List.mem_filter.mpr ⟨hc, by simpa using ht⟩, List.mem_filter.mpr ⟨hx, by simpa using hl⟩⟩⟩

theorem calcStats_eq (cells : List Cell) (hs : Sound cells) (ha : Apart cells) :
    calcStats cells = .ok (if lengths cells = [] then none else some ((lengths cells).sum / (lengths cells).length)) := by
  have h : ∀ t ∈ types cells, distances cells t ≠ [] := by
    intro t ht
    obtain ⟨⟨c, hc, rfl⟩, h2⟩ := mem_types.mp ht
    exact distances_ne.mpr (ha c hc h2)
  have hp := all_lengths cells hs
  unfold calcStats
  rw [sums_ok cells _ _ h]
  simp only [zero_add, hp.sum_eq, hp.length_eq, List.length_eq_zero_iff]

theorem mean_bounds (l : List ℚ) (a b : ℚ) (hl : l ≠ []) (h : ∀ x ∈ l, a ≤ x ∧ x ≤ b) : a ≤ l.sum / l.length ∧ l.sum / l.length ≤ b := by
  have hpos : (0 : ℚ) < l.length := by exact_mod_cast List.length_pos_iff_ne_nil.mpr hl
  have h1 : ∀ l : List ℚ, (∀ x ∈ l, a ≤ x ∧ x ≤ b) → a * l.length ≤ l.sum ∧ l.sum ≤ b * l.length := by
    intro l
    induction l with
    | nil => intro _; simp
    | cons x l ih =>
      intro h
      obtain ⟨i1, i2⟩ := ih fun y hy => h y (by simp [hy])
      obtain ⟨x1, x2⟩ := h x (by simp)
      simp only [List.sum_cons, List.length_cons, Nat.cast_add, Nat.cast_one]
      constructor <;> linarith
  obtain ⟨h2, h3⟩ := h1 l h
  exact ⟨(le_div_iff₀ hpos).mpr h2, (div_le_iff₀ hpos).mpr h3⟩

theorem long_of_mem {cells : List Cell} {x : ℚ} (h : x ∈ lengths cells) : Long x := by
  obtain ⟨c, _, h⟩ := List.mem_flatMap.mp h
  simpa using (List.mem_filter.mp h).2

theorem sqrt_long {m : ℚ} (h : tolerance < m) : (tolerance : ℝ) < Real.sqrt m := by
  have h1 : (tolerance : ℝ) < m := by exact_mod_cast h
  have ht : (0 : ℝ) < tolerance := by exact_mod_cast tolerance_pos
  have h2 : (tolerance : ℝ) < 1 := by
    have : tolerance < 1 := by norm_num [tolerance]
    exact_mod_cast this
  rw [Real.lt_sqrt ht.le]
  nlinarith

theorem mean_long (cells : List Cell) (h : lengths cells ≠ []) : tolerance < (lengths cells).sum / (lengths cells).length := by
  have hpos : (0 : ℚ) < (lengths cells).length := by exact_mod_cast List.length_pos_iff_ne_nil.mpr h
  rw [lt_div_iff₀ hpos]
  have : ∀ l : List ℚ, l ≠ [] → (∀ x ∈ l, tolerance < x) → tolerance * l.length < l.sum := by
    intro l
    induction l with
    | nil => intro h; exact absurd rfl h
    | cons x l ih =>
      intro _ hl
      have hx := hl x (by simp)
      simp only [List.sum_cons, List.length_cons, Nat.cast_add, Nat.cast_one]
      by_cases hn : l = []
      · subst hn
        simpa using hx
      · have := ih hn fun y hy => hl y (by simp [hy])
        linarith
  exact this _ h fun x hx => long_of_mem hx

theorem rbarStiffness_long (parts : List Part) {m : ℚ} (h : tolerance < m) :
    rbarStiffness parts (some m) = some (maxYoung parts * Real.sqrt m) := by
  have h1 := sqrt_long h
  simp only [rbarStiffness]
  rw [if_neg]
  rw [abs_of_nonneg (Real.sqrt_nonneg _)]
  exact not_le.mpr h1

/-- A part whose modulus is looked at. -/
def Elastic (p : Part) (e : ℚ) : Prop := p.effective = true ∧ p.hasMaterials = true ∧ p.young = some e

/-! ## The modulus -/

theorem maxYoung_fold (parts : List Part) : ∀ a : ℚ,
    a ≤ parts.foldl (fun a p => if p.effective && p.hasMaterials then
      match p.young with
      | some e => max a e
      | none => a
      else a) a ∧
    (∀ p ∈ parts, ∀ e, Elastic p e → e ≤ parts.foldl (fun a p => if p.effective && p.hasMaterials then
      match p.young with
      | some e => max a e
      | none => a
      else a) a) ∧
    (parts.foldl (fun a p => if p.effective && p.hasMaterials then
      match p.young with
      | some e => max a e
      | none => a
      else a) a = a ∨ ∃ p ∈ parts, Elastic p (parts.foldl (fun a p => if p.effective && p.hasMaterials then
      match p.young with
      | some e => max a e
      | none => a
      else a) a)) := by
  induction parts with
  | nil => intro a; simp
  | cons p parts ih =>
    intro a
    simp only [List.foldl_cons]
    set b : ℚ := (if p.effective && p.hasMaterials then
      match p.young with
      | some e => max a e
      | none => a
      else a) with hb
    obtain ⟨h1, h2, h3⟩ := ih b
    have hab : a ≤ b := by
      rw [hb]
      split
      · cases p.young <;> simp
      · exact le_rfl
    have hpb : ∀ e, Elastic p e → e ≤ b := by
      rintro e ⟨he, hm, hy⟩
      rw [hb, he, hm, hy]
      simp
    have hbe : b = a ∨ Elastic p b := by
      by_cases hc : p.effective = true ∧ p.hasMaterials = true
      · cases hy : p.young with
        | none => left; rw [hb, hc.1, hc.2, hy]; simp
        | some e =>
          have hbm : b = max a e := by rw [hb, hc.1, hc.2, hy]; simp
          rcases max_choice a e with h | h
          · left; rw [hbm, h]
          · right; rw [hbm, h]; exact ⟨hc.1, hc.2, hy⟩
      · left
        rw [hb, if_neg (by simpa using hc)]
    refine ⟨hab.trans h1, ?_, ?_⟩
    · intro q hq e he
      rcases List.mem_cons.mp hq with rfl | hq
      · exact (hpb e he).trans h1
      · exact h2 q hq e he
    · rcases h3 with h3 | ⟨q, hq, h3⟩
      · rw [h3]
        rcases hbe with h | h
        · exact .inl h
        · exact .inr ⟨p, by simp, h⟩
      · exact .inr ⟨q, by simp [hq], h3⟩

/-- C154, modulus: the modulus is the largest of those of the elastic parts, when one of them is positive; without such a part it is 0. -/
theorem C154_modulus (parts : List Part) :
    0 ≤ maxYoung parts ∧ (∀ p ∈ parts, ∀ e, Elastic p e → e ≤ maxYoung parts) ∧
      (maxYoung parts = 0 ∨ ∃ p ∈ parts, Elastic p (maxYoung parts)) := maxYoung_fold parts 0

example : maxYoung [⟨true, true, some 70⟩, ⟨true, true, some 210⟩, ⟨true, true, none⟩, ⟨false, true, some 1000⟩] = 210 := by decide +kernel

/-! ## The length -/

/-- C154, stiffness: without a stiffness in the options, and when every type of cells has two nodes apart, the rigidity of a set of
rigid bars or of linear relations is the coefficient times the largest modulus times the square root of the mean of the squares of all
distances between two nodes of a cell, those that are zero left out. -/
theorem C154_stiffness (o : Options) (parts : List Part) (cells : List Cell) (hm : o.mode = .penalty) (ho : (settings o).1 = none)
    (hs : Sound cells) (ha : Apart cells) (hc : ∃ c ∈ cells, 2 ≤ c.type.numNodes) :
    ∃ cache, update o parts none cells = .ok (.rigidity (some ((settings o).2 *
      (maxYoung parts * Real.sqrt ((lengths cells).sum / (lengths cells).length : ℚ)))), cache) := by
  have hne : lengths cells ≠ [] := by
    obtain ⟨c, hc, h2⟩ := hc
    obtain ⟨c', hc', _, x, hx, hl⟩ := ha c hc h2
    exact List.ne_nil_of_mem (List.mem_flatMap.mpr ⟨c', hc', List.mem_filter.mpr ⟨hx, by simpa using hl⟩⟩)
  have h1 := calcStats_eq cells hs ha
  rw [if_neg hne] at h1
  have h2 := rbarStiffness_long parts (mean_long cells hne)
  refine ⟨some (some ((lengths cells).sum / (lengths cells).length)), ?_⟩
  simp only [update, ho, h1, Outcome.bind_ok, h2, hm, Option.map_some]

/-- A square of side 2 with a bar along a side, and a point. -/
def exCells : List Cell :=
  [⟨.quad4, [(0, 0, 0), (2, 0, 0), (2, 2, 0), (0, 2, 0)]⟩, ⟨.point1, [(0, 0, 0)]⟩, ⟨.seg2, [(0, 0, 0), (2, 0, 0)]⟩,
    ⟨.seg2, [(0, 0, 0), (0, 0, 0)]⟩]

/-- The mean of its distances: four sides, two diagonals and a bar. -/
example : calcStats exCells = .ok (some (36 / 7)) := by decide +kernel

example : Sound exCells := by
  unfold Sound
  decide

example : Apart exCells := by
  intro c hc h
  simp only [exCells, List.mem_cons, List.not_mem_nil, or_false] at hc
  rcases hc with rfl | rfl | rfl | rfl
  · exact ⟨_, by simp [exCells], rfl, 4, by decide +kernel, by decide +kernel⟩
  · exact absurd h (by decide)
  · exact ⟨_, by simp [exCells], rfl, 4, by decide +kernel, by decide +kernel⟩
  · exact ⟨⟨.seg2, [(0, 0, 0), (2, 0, 0)]⟩, by simp [exCells], rfl, 4, by decide +kernel, by decide +kernel⟩

/-- C154, size: the length is between the shortest and the longest distance between two nodes of a cell. -/
theorem C154_between (cells : List Cell) (hs : Sound cells) (m : ℚ) (h : calcStats cells = .ok (some m)) (a b : ℚ)
    (hb : ∀ x ∈ lengths cells, a ^ 2 ≤ x ∧ x ≤ b ^ 2) (hb0 : 0 ≤ b) :
    (a : ℝ) ≤ Real.sqrt m ∧ Real.sqrt m ≤ b := by
  have hap : Apart cells := by
    by_contra hn
    simp only [Apart, not_forall] at hn
    obtain ⟨c, hc, h2, hx⟩ := hn
    have : distances cells c.type = [] := by
      by_contra hne
      exact hx (distances_ne.mp hne)
    rw [calcStats, sums_ub cells _ _ ⟨c.type, mem_types.mpr ⟨⟨c, hc, rfl⟩, h2⟩, this⟩] at h
    cases h
  rw [calcStats_eq cells hs hap] at h
  split at h
  · cases h
  · rename_i hne
    obtain ⟨h1, h2⟩ := mean_bounds _ _ _ hne hb
    have hm : (lengths cells).sum / (lengths cells).length = m := by simpa using h
    rw [hm] at h1 h2
    constructor
    · refine Real.le_sqrt_of_sq_le ?_
      exact_mod_cast h1
    · rw [Real.sqrt_le_left (by exact_mod_cast hb0)]
      exact_mod_cast h2

example : ∀ x ∈ lengths exCells, (2 : ℚ) ^ 2 ≤ x ∧ x ≤ 3 ^ 2 := by decide +kernel

/-- C154, order: the stiffness does not depend on the order of the cells. -/
theorem C154_order (a b : List Cell) (h : a.Perm b) (hs : Sound a) : calcStats a = calcStats b := by
  have hs' : Sound b := fun c hc => hs c (h.mem_iff.mpr hc)
  by_cases ha : Apart a
  · have hb : Apart b := fun c hc h2 => by
      obtain ⟨c', hc', r⟩ := ha c (h.mem_iff.mpr hc) h2
      exact ⟨c', h.mem_iff.mp hc', r⟩
    have hp := lengths_perm h
    rw [calcStats_eq a hs ha, calcStats_eq b hs' hb, hp.sum_eq, hp.length_eq]
    by_cases hn : lengths a = []
    · have : lengths b = [] := by rw [← List.length_eq_zero_iff, ← hp.length_eq, hn]; rfl
      simp [hn, this]
    · have : lengths b ≠ [] := by rwa [ne_eq, ← List.length_eq_zero_iff, ← hp.length_eq, List.length_eq_zero_iff]
      simp [hn, this]
  · have ub : ∀ l : List Cell, ¬ Apart l → calcStats l = .ub := by
      intro l hn
      simp only [Apart, not_forall] at hn
      obtain ⟨c, hc, h2, hx⟩ := hn
      have : distances l c.type = [] := by
        by_contra hne
        exact hx (distances_ne.mp hne)
      rw [calcStats, sums_ub l _ _ ⟨c.type, mem_types.mpr ⟨⟨c, hc, rfl⟩, h2⟩, this⟩]
    rw [ub a ha, ub b fun hb => ha fun c hc h2 => by
      obtain ⟨c', hc', r⟩ := hb c (h.mem_iff.mp hc) h2
      exact ⟨c', h.mem_iff.mpr hc', r⟩]

/-- A cell in another unit of length. -/
def scale (k : ℚ) (c : Cell) : Cell := { c with nodes := c.nodes.map fun p => (k * p.1, k * p.2.1, k * p.2.2) }

theorem sides_scale (k : ℚ) : ∀ l : List Point, sides (l.map fun p => (k * p.1, k * p.2.1, k * p.2.2)) = (sides l).map (k ^ 2 * ·)
  | [] => rfl
  | p :: t => by
    simp only [List.map_cons, sides, List.map_append, List.map_map, sides_scale k t]
    congr 1
    refine List.map_congr_left fun q _ => ?_
    simp only [Function.comp_apply, square]
    ring

/-- C154, units: when coordinates are given in another unit of length, `k` times as large, and the same distances count, the length is
`k` times as large. -/
theorem C154_units (k : ℚ) (hk : 0 < k) (cells : List Cell) (hs : Sound cells) (m : ℚ) (h : calcStats cells = .ok (some m))
    (hl : ∀ c ∈ cells, ∀ x ∈ sides c.nodes, Long (k ^ 2 * x) ↔ Long x) :
    ∃ m', calcStats (cells.map (scale k)) = .ok (some m') ∧ Real.sqrt m' = k * Real.sqrt m := by
  have hap : Apart cells := by
    by_contra hn
    simp only [Apart, not_forall] at hn
    obtain ⟨c, hc, h2, hx⟩ := hn
    have : distances cells c.type = [] := by
      by_contra hne
      exact hx (distances_ne.mp hne)
    rw [calcStats, sums_ub cells _ _ ⟨c.type, mem_types.mpr ⟨⟨c, hc, rfl⟩, h2⟩, this⟩] at h
    cases h
  rw [calcStats_eq cells hs hap] at h
  have hlen : ∀ l : List Cell, (∀ c ∈ l, c ∈ cells) → lengths (l.map (scale k)) = (lengths l).map (k ^ 2 * ·) := by
    intro l
    induction l with
    | nil => intro _; rfl
    | cons c l ih =>
      intro hc
      have ih := ih fun x hx => hc x (by simp [hx])
      unfold lengths at ih ⊢
      rw [List.map_cons, List.flatMap_cons, List.flatMap_cons, List.map_append, ih]
      congr 1
      rw [scale, sides_scale, List.filter_map]
      congr 1
      refine List.filter_congr fun x hx => ?_
      simp only [Function.comp_apply, decide_eq_decide]
      exact hl c (hc c (by simp)) x hx
  have hlen := hlen cells fun _ h => h
  have hs' : Sound (cells.map (scale k)) := by
    intro c hc
    obtain ⟨d, hd, rfl⟩ := List.mem_map.mp hc
    simpa [scale] using hs d hd
  have hap' : Apart (cells.map (scale k)) := by
    intro c hc h2
    obtain ⟨d, hd, rfl⟩ := List.mem_map.mp hc
    obtain ⟨d', hd', ht, x, hx, hlx⟩ := hap d hd h2
    refine ⟨scale k d', List.mem_map_of_mem hd', ht, k ^ 2 * x, ?_, (hl d' hd' x hx).mpr hlx⟩
    rw [scale, sides_scale]
    exact List.mem_map_of_mem hx
  split at h
  · cases h
  · rename_i hne
    have hm : (lengths cells).sum / (lengths cells).length = m := by simpa using h
    refine ⟨k ^ 2 * m, ?_, ?_⟩
    · rw [calcStats_eq _ hs' hap', hlen, if_neg (by simpa using hne), List.length_map, List.sum_map_mul_left, List.map_id', ← hm, mul_div_assoc]
    · have hk' : (0 : ℝ) ≤ k := by exact_mod_cast hk.le
      push_cast
      rw [Real.sqrt_mul (by positivity), Real.sqrt_sq hk']

/-- The same distances count in millimetres and in metres. -/
example : ∀ c ∈ exCells, ∀ x ∈ sides c.nodes, Long ((1 / 1000 : ℚ) ^ 2 * x) ↔ Long x := by decide +kernel

/-- C154, effect: with an elastic part of positive modulus and a positive coefficient the rigidity is positive. -/
theorem C154_positive (o : Options) (parts : List Part) (cells : List Cell) (hm : o.mode = .penalty) (ho : (settings o).1 = none)
    (hs : Sound cells) (ha : Apart cells) (hc : ∃ c ∈ cells, 2 ≤ c.type.numNodes) (hk : 0 < (settings o).2)
    (p : Part) (hp : p ∈ parts) (e : ℚ) (he : Elastic p e) (hpos : 0 < e) :
    ∃ r cache, update o parts none cells = .ok (.rigidity (some r), cache) ∧ 0 < r := by
  obtain ⟨cache, h⟩ := C154_stiffness o parts cells hm ho hs ha hc
  refine ⟨_, cache, h, ?_⟩
  have hne : lengths cells ≠ [] := by
    obtain ⟨c, hc, h2⟩ := hc
    obtain ⟨c', hc', _, x, hx, hl⟩ := ha c hc h2
    exact List.ne_nil_of_mem (List.mem_flatMap.mpr ⟨c', hc', List.mem_filter.mpr ⟨hx, by simpa using hl⟩⟩)
  have h1 : (0 : ℝ) < (settings o).2 := by exact_mod_cast hk
  have h2 : (0 : ℝ) < maxYoung parts := by
    have := hpos.trans_le ((C154_modulus parts).2.1 p hp e he)
    exact_mod_cast this
  have h3 : (0 : ℝ) < Real.sqrt ((lengths cells).sum / (lengths cells).length : ℚ) := by
    rw [Real.sqrt_pos]
    have := tolerance_pos.trans (mean_long cells hne)
    exact_mod_cast this
  positivity

/-- C154 is false for a model without elastic parts (springs, matrices, shells of composite material, hyperelastic solids): rigid bars
have no stiffness at all. -/
theorem C154_springs_false (o : Options) (parts : List Part) (cells : List Cell) (hm : o.mode = .penalty) (ho : (settings o).1 = none)
    (hs : Sound cells) (ha : Apart cells) (hc : ∃ c ∈ cells, 2 ≤ c.type.numNodes) (hp : ∀ p ∈ parts, ∀ e, ¬ Elastic p e) :
    ∃ cache, update o parts none cells = .ok (.rigidity (some 0), cache) := by
  obtain ⟨cache, h⟩ := C154_stiffness o parts cells hm ho hs ha hc
  have h0 : maxYoung parts = 0 := by
    rcases (C154_modulus parts).2.2 with h | ⟨p, hp', h⟩
    · exact h
    · exact absurd h (hp p hp' _)
  refine ⟨cache, ?_⟩
  rw [h, h0]
  simp

/-- A part of springs. -/
example : ∀ p ∈ [(⟨true, false, none⟩ : Part)], ∀ e, ¬ Elastic p e := by
  intro p hp e h
  simp only [List.mem_cons, List.not_mem_nil, or_false] at hp
  subst hp
  exact absurd h.2.1 (by decide)

/-- C154 is false when the nodes of every cell of some type are at the same place (rigid bars or springs between coincident nodes, in a
model without other segments): undefined behaviour, also when the Lagrange formulation is asked for. -/
theorem C154_coincident_false (o : Options) (parts : List Part) (cells : List Cell) (ho : (settings o).1 = none) (c : Cell)
    (hc : c ∈ cells) (h2 : 2 ≤ c.type.numNodes) (hx : ∀ c' ∈ cells, c'.type = c.type → ∀ x ∈ sides c'.nodes, x = 0) :
    update o parts none cells = .ub := by
  have : distances cells c.type = [] := by
    by_contra hne
    obtain ⟨c', hc', ht, x, hx', hl⟩ := distances_ne.mp hne
    rw [hx c' hc' ht x hx'] at hl
    exact absurd hl (not_lt.mpr tolerance_pos.le)
  have hu : calcStats cells = .ub := by
    rw [calcStats, sums_ub cells _ _ ⟨c.type, mem_types.mpr ⟨⟨c, hc, rfl⟩, h2⟩, this⟩]
  simp only [update, ho, hu]
  cases o.mode <;> rfl

/-- A solid with a rigid bar between two nodes at the same place. -/
example : calcStats [⟨.tetra4, [(0, 0, 0), (1, 0, 0), (0, 1, 0), (0, 0, 1)]⟩, ⟨.seg2, [(0, 0, 0), (0, 0, 0)]⟩] = .ub := by decide +kernel

/-! ## All sets -/

/-- The value of a penalty. -/
def Setting.value : Setting → Option ℝ
  | .rigidity v => v
  | .lagrangian v => some v

theorem updates_same (o : Options) (parts : List Part) (m : Option ℚ) (s : Setting) (cells : List Cell)
    (h : update o parts (some m) cells = .ok (s, some m)) : ∀ (rest : List (List Cell)) (l : List Setting),
    updates o parts (some m) rest = .ok l → ∀ t ∈ l, t = s := by
  have h' : ∀ cs, update o parts (some m) cs = .ok (s, some m) := fun cs => by
    rw [← h]
    rfl
  intro rest
  induction rest with
  | nil => intro l hl t ht; cases hl; cases ht
  | cons cs rest ih =>
    intro l hl t ht
    simp only [updates, h' cs, Outcome.bind_ok] at hl
    cases hr : updates o parts (some m) rest with
    | ok r =>
      rw [hr] at hl
      simp only [Outcome.bind_ok] at hl
      cases hl
      rcases List.mem_cons.mp ht with rfl | ht
      · rfl
      · exact ih r hr t ht
    | throw => rw [hr] at hl; cases hl
    | ub => rw [hr] at hl; cases hl
    | diverges => rw [hr] at hl; cases hl

/-- C154, all sets: whatever is done to the cells between one set and the next, all sets have the value of the first one. -/
theorem C154_same (o : Options) (parts : List Part) (cells : List Cell) (rest : List (List Cell)) (l : List Setting)
    (h : updates o parts none (cells :: rest) = .ok l) :
    l.length = rest.length + 1 ∧ ∃ s cache, update o parts none cells = .ok (s, cache) ∧ ∀ t ∈ l, t = s := by
  have hlen : ∀ (rs : List (List Cell)) (cache : Option (Option ℚ)) (l : List Setting), updates o parts cache rs = .ok l →
      l.length = rs.length := by
    intro rs
    induction rs with
    | nil => intro cache l h; cases h; rfl
    | cons r rs ih =>
      intro cache l h
      rw [updates] at h
      cases hu : update o parts cache r with
      | ok u =>
        rw [hu] at h
        simp only [Outcome.bind_ok] at h
        cases hv : updates o parts u.2 rs with
        | ok v =>
          rw [hv] at h
          cases h
          simp [ih _ _ hv]
        | throw => rw [hv] at h; cases h
        | ub => rw [hv] at h; cases h
        | diverges => rw [hv] at h; cases h
      | throw => rw [hu] at h; cases h
      | ub => rw [hu] at h; cases h
      | diverges => rw [hu] at h; cases h
  refine ⟨by simpa using hlen _ _ _ h, ?_⟩
  rw [updates] at h
  cases hu : update o parts none cells with
  | ok u =>
    rw [hu] at h
    simp only [Outcome.bind_ok] at h
    refine ⟨u.1, u.2, rfl, ?_⟩
    cases hv : updates o parts u.2 rest with
    | ok v =>
      rw [hv] at h
      cases h
      intro t ht
      rcases List.mem_cons.mp ht with rfl | ht
      · rfl
      · cases hs : (settings o).1 with
        | some k =>
          -- the stiffness is that of the options, each time
          have hall : ∀ (rs : List (List Cell)) (cache : Option (Option ℚ)) (v : List Setting), updates o parts cache rs = .ok v →
              ∀ t ∈ v, t = u.1 := by
            intro rs
            induction rs with
            | nil => intro cache v h t ht; cases h; cases ht
            | cons r rs ih =>
              intro cache v h t ht
              have hr : update o parts cache r = .ok (u.1, cache) := by
                have hu' := hu
                simp only [update, hs, Outcome.bind_ok] at hu' ⊢
                cases hm : o.mode <;> (rw [hm] at hu'; simp only at hu'; cases hu'; rfl)
              simp only [updates, hr, Outcome.bind_ok] at h
              cases hv : updates o parts cache rs with
              | ok w =>
                rw [hv] at h
                cases h
                rcases List.mem_cons.mp ht with rfl | ht
                · rfl
                · exact ih _ _ hv t ht
              | throw => rw [hv] at h; cases h
              | ub => rw [hv] at h; cases h
              | diverges => rw [hv] at h; cases h
          exact hall rest u.2 v hv t ht
        | none =>
          cases hc : calcStats cells with
          | ok m =>
            have hu2 : u.2 = some m ∧ update o parts (some m) cells = .ok (u.1, some m) := by
              simp only [update, hs, hc, Outcome.bind_ok] at hu ⊢
              cases hm : o.mode <;> (rw [hm] at hu; simp only at hu; cases hu; exact ⟨rfl, rfl⟩)
            rw [hu2.1] at hv
            exact updates_same o parts m u.1 cells hu2.2 rest v hv t ht
          | throw => simp only [update, hs, hc] at hu; cases hu
          | ub => simp only [update, hs, hc] at hu; cases hu
          | diverges => simp only [update, hs, hc] at hu; cases hu
    | throw => rw [hv] at h; cases h
    | ub => rw [hv] at h; cases h
    | diverges => rw [hv] at h; cases h
  | throw => rw [hu] at h; cases h
  | ub => rw [hu] at h; cases h
  | diverges => rw [hu] at h; cases h

/-! ## Options -/

/-- C154, options: a stiffness and a coefficient that are given are used, whatever the older options; without any option there is no
stiffness and the coefficient is 10 for the penalty and 1000 for the Lagrange formulation. -/
theorem C154_options (o : Options) :
    (∀ s, o.stiffness = some s → (settings o).1 = some s) ∧ (∀ c, o.coefficient = some c → (settings o).2 = c) ∧
    (o.rbeLagrangian = none → o.rbe2Rigidity = none → o.stiffness = none → (settings o).1 = none) ∧
    (o.rbeLagrangian = none → o.rbe2Rigidity = none → o.coefficient = none →
      (settings o).2 = if o.mode = Mode.penalty then 10 else 1000) ∧
    (o.rbe2Rigidity ≠ none → o.mode = .penalty → o.stiffness = none → o.coefficient = none →
      (settings o).1 = o.rbe2Rigidity ∧ (settings o).2 = 1) := by
  obtain ⟨mode, l, r, s, c⟩ := o
  refine ⟨?_, ?_, ?_, ?_, ?_⟩
  · intro s h; cases h; rfl
  · intro c h; cases h; rfl
  · intro h1 h2 h3; cases h1; cases h2; cases h3; rfl
  · intro h1 h2 h3; cases h1; cases h2; cases h3; rfl
  · intro h1 h2 h3 h4
    cases h2; cases h3; cases h4
    cases r with
    | none => exact absurd rfl h1
    | some v => exact ⟨rfl, rfl⟩

/-- C154 is false of the option for Lagrange multipliers when the penalty is used (the default): its value is taken for the rigidity of
the bars, whatever the materials and the mesh. -/
theorem C154_lagrangian_false (o : Options) (parts : List Part) (cache : Option (Option ℚ)) (cells : List Cell) (v : ℚ)
    (hl : o.rbeLagrangian = some v) (hr : o.rbe2Rigidity = none) (hs : o.stiffness = none) (hc : o.coefficient = none)
    (hm : o.mode = .penalty) : update o parts cache cells = .ok (.rigidity (some v), cache) := by
  obtain ⟨mode, l, r, s, c⟩ := o
  cases hl; cases hr; cases hs; cases hc; cases hm
  simp [update, settings]

end Penalty
end Vega
