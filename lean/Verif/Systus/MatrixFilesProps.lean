import Verif.Systus.MatrixFiles
import Verif.Systus.MatrixProps
import Verif.Aster.TsaiWuProps

/-! # C160: the files of element matrices for Systus -/
namespace Vega.MatrixFilesSpec
open Systus MatrixFiles SystusMatrixSpec DirectSpec

/-! ## Specification -/

/-- What a file has after its first 21 lines, for `n` degrees of freedom by node: matrices with a number that is not 0, a number of nodes,
the nodes from 1, and a line of `n * n` values for each pair of nodes; a matrix of number 0 ends the file. -/
inductive Holds (n : Nat) : List Line → List (Nat × Nat × List Line) → Prop
  | done (rest : List Line) : Holds n ([[0], [0], [0], [0], [0], [0], [0]] ++ rest) []
  | next (id N : Nat) (blocks rest : List Line) (ms : List (Nat × Nat × List Line)) (hid : id ≠ 0) (hb : blocks.length = N * N)
      (hn : ∀ b ∈ blocks, b.length = n * n) (h : Holds n rest ms) :
      Holds n ([[0], [(id : Dbl)], [(N : Dbl)], [(N : Dbl)], [((N * N * n * n : Nat) : Dbl)], [0], [0]] ++
        (List.range N).map (fun i => [((i + 1 : Nat) : Dbl)]) ++ blocks ++ rest) ((id, N, blocks) :: ms)

/-- Matrices made by the constructor and by `setValue`. -/
inductive Made (n : Nat) : Matrix → Prop
  | new (N : Nat) : Made n (Matrix.new n N)
  | set (m m' : Matrix) (i j a b : Nat) (v : Dbl) (h : Made n m) (e : m.setValue i j a b v = .ok m') : Made n m'

/-! ## Lemmas -/

theorem holds_unique {n : Nat} {l : List Line} {a : List (Nat × Nat × List Line)} (ha : Holds n l a) :
    ∀ {b : List (Nat × Nat × List Line)}, Holds n l b → a = b := by
  induction ha with
  | done rest =>
    intro b hb
    generalize hl : [[0], [0], [0], [0], [0], [0], [0]] ++ rest = l at hb
    cases hb with
    | done => rfl
    | next id N blocks rest' ms hid =>
      simp only [List.cons_append, List.cons.injEq, and_true] at hl
      have : (id : Dbl) = 0 := hl.2.1.symm
      exact absurd (by exact_mod_cast this) hid
  | next id N blocks rest ms hid hb hn h ih =>
    intro b hb'
    generalize hl : [[0], [(id : Dbl)], [(N : Dbl)], [(N : Dbl)], [((N * N * n * n : Nat) : Dbl)], [0], [0]] ++
        (List.range N).map (fun i => [((i + 1 : Nat) : Dbl)]) ++ blocks ++ rest = l at hb'
    cases hb' with
    | done =>
      simp only [List.cons_append, List.cons.injEq, and_true] at hl
      have : (id : Dbl) = 0 := hl.2.1
      exact absurd (by exact_mod_cast this) hid
    | next id' N' blocks' rest' ms' hid' hb' hn' h' =>
      simp only [List.cons_append, List.nil_append, List.cons.injEq, and_true, true_and] at hl
      obtain ⟨h1, h2, -, -, h3⟩ := hl
      have e1 : id = id' := by exact_mod_cast h1
      have e2 : N = N' := by exact_mod_cast h2
      subst e1 e2
      rw [List.append_assoc, List.append_assoc] at h3
      have h4 := List.append_cancel_left h3
      obtain ⟨e3, e4⟩ := List.append_inj h4 (by rw [hb, hb'])
      subst e3 e4
      rw [ih h']

theorem made_sized {n : Nat} {m : Matrix} (h : Made n m) :
    m.nbDOFS = n ∧ m.size = m.nbNodes * m.nbNodes * n * n ∧ m.values.length = m.size := by
  induction h with
  | new N => simp [Matrix.new]
  | set m m' i j a b v _ e ih =>
    unfold Matrix.setValue at e
    split at e
    · cases e
    split at e
    · cases e
    simp only at e
    split at e
    · cases e
    split at e
    · cases e
    cases e
    simpa using ih

theorem linesFrom_sizes (values : List Dbl) (z : Nat) : ∀ (l ioff : Nat), ioff + l * z ≤ values.length →
    (Matrix.linesFrom values z l ioff).length = l ∧ ∀ b ∈ Matrix.linesFrom values z l ioff, b.length = z
  | 0, _, _ => by simp [Matrix.linesFrom]
  | l + 1, ioff, h => by
    have e : (l + 1) * z = l * z + z := by ring
    obtain ⟨h1, h2⟩ := linesFrom_sizes values z l (ioff + z) (by omega)
    refine ⟨by simp [Matrix.linesFrom, h1], ?_⟩
    intro b hb
    simp only [Matrix.linesFrom, List.mem_cons] at hb
    rcases hb with rfl | hb
    · simp only [List.length_take, List.length_drop]
      omega
    · exact h2 b hb

theorem made_lines {n : Nat} {m : Matrix} (h : Made n m) :
    m.lines.length = m.nbNodes * m.nbNodes ∧ ∀ b ∈ m.lines, b.length = n * n := by
  obtain ⟨h1, h2, h3⟩ := made_sized h
  unfold Matrix.lines
  rw [h1]
  apply linesFrom_sizes
  rw [h3, h2]
  exact le_of_eq (by ring)

theorem allLines_holds {n : Nat} (rest : List Line) : ∀ (ms : List Matrix) (k : Nat), 1 ≤ k → (∀ m ∈ ms, Made n m) →
    Holds n (allLines k ms ++ ([[0], [0], [0], [0], [0], [0], [0]] ++ rest)) ((ms.zipIdx k).map fun e => (e.2, e.1.nbNodes, e.1.lines))
  | [], _, _, _ => .done rest
  | m :: ms, k, hk, h => by
    have hm := h m (by simp)
    obtain ⟨l1, l2⟩ := made_lines hm
    have ih := allLines_holds rest ms (k + 1) (by omega) fun x hx => h x (by simp [hx])
    have := Holds.next (n := n) k m.nbNodes m.lines _ _ (by omega) l1 l2 ih
    rw [← (made_sized hm).2.1] at this
    simpa only [allLines, matrixLines, List.append_assoc, List.zipIdx_cons, List.map_cons] using this

theorem matrixLines_end : matrixLines 0 (Matrix.new 0 0) = [[0], [0], [0], [0], [0], [0], [0]] := by
  simp [matrixLines, Matrix.new, Matrix.lines, Matrix.linesFrom]

theorem setEntries_made {n : Nat} (a b : Nat) : ∀ (l : List ((Dof × Dof) × Dbl)) (s s' : Matrix), Made n s →
    Matrix.setEntries a b l s = .ok s' → Made n s' ∧ s'.nbNodes = s.nbNodes
  | [], s, s', h, e => by
    cases e
    exact ⟨h, rfl⟩
  | ((d1, d2), v) :: l, s, s', h, e => by
    simp only [Matrix.setEntries] at e
    obtain ⟨s1, e1, e⟩ := Bars.bind_ok_iff.mp e
    obtain ⟨s2, e2, e⟩ := Bars.bind_ok_iff.mp e
    obtain ⟨h3, h4⟩ := setEntries_made a b l s2 s' (.set _ _ _ _ _ _ _ (.set _ _ _ _ _ _ _ h e1) e2) e
    refine ⟨h3, h4.trans ?_⟩
    have key : ∀ (m m' : Matrix) i j a b v, m.setValue i j a b v = .ok m' → m'.nbNodes = m.nbNodes := by
      intro m m' i j a b v e
      unfold Matrix.setValue at e
      split at e
      · cases e
      split at e
      · cases e
      simp only at e
      split at e
      · cases e
      split at e
      · cases e
      cases e
      rfl
    rw [key _ _ _ _ _ _ _ e2, key _ _ _ _ _ _ _ e1]

theorem setPairs_made {n : Nat} (m : DirectMatrix) (nb : Map Nat Nat) : ∀ (l : List (Nat × Nat)) (s s' : Matrix), Made n s →
    Matrix.setPairs m nb l s = .ok s' → Made n s' ∧ s'.nbNodes = s.nbNodes
  | [], s, s', h, e => by
    cases e
    exact ⟨h, rfl⟩
  | np :: l, s, s', h, e => by
    simp only [Matrix.setPairs] at e
    obtain ⟨s1, e1, e⟩ := Bars.bind_ok_iff.mp e
    obtain ⟨h1, h2⟩ := setEntries_made _ _ _ _ _ h e1
    obtain ⟨h3, h4⟩ := setPairs_made m nb l s1 s' h1 e
    exact ⟨h3, h4.trans h2⟩

theorem build_made {n : Nat} {m : DirectMatrix} {s : Matrix} (e : Matrix.build n m = .ok s) :
    Made n s ∧ s.nbNodes = m.nodePositions.length := by
  have := setPairs_made m _ _ _ _ (.new _) e
  simpa [Matrix.new] using this

/-! ## Properties: the contents of a file -/

/-- **C160.** Every file of matrices begins with the number of degrees of freedom in its line 12 and zeros, and has the matrices, in their
order and with the numbers 1, 2, ... -/
theorem C160_file (n : Nat) (ms : List Matrix) (h : ∀ m ∈ ms, Made n m) :
    (fileLines n ms).take 21 = List.replicate 11 [0] ++ [[(n : Dbl)]] ++ List.replicate 9 [0] ∧
      Holds n ((fileLines n ms).drop 21) (ms.mapIdx fun i m => (i + 1, m.nbNodes, m.lines)) := by
  have hl : (List.replicate 11 ([0] : Line) ++ [[(n : Dbl)]] ++ List.replicate 9 [0]).length = 21 := by simp
  have e : fileLines n ms = (List.replicate 11 [0] ++ [[(n : Dbl)]] ++ List.replicate 9 [0]) ++
      (allLines 1 ms ++ ([[0], [0], [0], [0], [0], [0], [0]] ++ [[], []])) := by
    simp only [fileLines, matrixLines_end, List.append_assoc]
  constructor
  · rw [e, List.take_append_of_le_length (by rw [hl]), List.take_of_length_le (by rw [hl])]
  · rw [e, List.drop_append_of_le_length (by rw [hl]), List.drop_of_length_le (by rw [hl]), List.nil_append]
    have := allLines_holds (n := n) [[], []] ms 1 (le_refl 1) h
    rw [List.mapIdx_eq_zipIdx_map]
    have z : ms.zipIdx 1 = (ms.zipIdx).map fun e => (e.1, e.2 + 1) := by
      rw [List.zipIdx_eq_map_add]
      apply List.map_congr_left
      rintro ⟨a, b⟩ _
      simp [Nat.add_comm]
    rw [z, List.map_map] at this
    exact this

/-- **C160.** A file has one reading only. -/
theorem C160_unique (n : Nat) (l : List Line) (a b : List (Nat × Nat × List Line)) (ha : Holds n l a) (hb : Holds n l b) : a = b :=
  holds_unique ha hb

/-- **C160.** In the file of direct matrices the matrix of number `i + 1` has the coefficients given for the matrix `i`. -/
theorem C160_coefficients (n : Nat) (ds : List (List Entry × DirectMatrix))
    (h : ∀ d ∈ ds, Within n d.1 ∧ run (DirectMatrix.new .SYMMETRIC) d.1 = .ok d.2) :
    ∃ ms held, List.Forall₂ (fun d m => Matrix.build n d.2 = .ok m) ds ms ∧ Holds n ((fileLines n ms).drop 21) held ∧
      held.length = ds.length ∧
      ∀ (t : Nat) (d : List Entry × DirectMatrix), ds[t]? = some d → ∃ blocks, held[t]? = some (t + 1, d.2.nodePositions.length, blocks) ∧
        ∀ (i j p q : Nat) (c e : Dof), d.2.nodePositions[i]? = some p → d.2.nodePositions[j]? = some q → rank c < n → rank e < n →
          written blocks n d.2.nodePositions.length i j c e = some (coefficient d.1 (p, c) (q, e)) := by
  have hf : ∃ ms, List.Forall₂ (fun d m => Matrix.build n d.2 = .ok m) ds ms := by
    induction ds with
    | nil => exact ⟨[], .nil⟩
    | cons d ds ih =>
      obtain ⟨ms, hms⟩ := ih fun x hx => h x (by simp [hx])
      obtain ⟨s, hs, _⟩ := C71_matrix n d.1 (h d (by simp)).1 d.2 (h d (by simp)).2
      exact ⟨s :: ms, .cons hs hms⟩
  obtain ⟨ms, hms⟩ := hf
  have hmade : ∀ m ∈ ms, Made n m := by
    intro m hm
    obtain ⟨t, ht⟩ := List.mem_iff_getElem?.mp hm
    obtain ⟨ht', e⟩ := List.getElem?_eq_some_iff.mp ht
    have hl : t < ds.length := by rw [hms.length_eq]; exact ht'
    have := hms.get hl ht'
    simp only [List.get_eq_getElem] at this
    rw [e] at this
    exact (build_made this).1
  refine ⟨ms, _, hms, (C160_file n ms hmade).2, by simp [hms.length_eq], ?_⟩
  intro t d hd
  obtain ⟨ht, e⟩ := List.getElem?_eq_some_iff.mp hd
  have ht' : t < ms.length := by rw [← hms.length_eq]; exact ht
  have hb := hms.get ht ht'
  simp only [List.get_eq_getElem] at hb
  rw [e] at hb
  obtain ⟨s, h1, _, _, h4⟩ := C71_matrix n d.1 (h d (List.mem_of_getElem? hd)).1 d.2 (h d (List.mem_of_getElem? hd)).2
  rw [hb] at h1
  cases h1
  refine ⟨ms[t].lines, ?_, h4⟩
  rw [List.getElem?_mapIdx, List.getElem?_eq_getElem ht']
  simp [(build_made hb).2]

/-- A matrix of two nodes for three degrees of freedom. -/
example : Made 3 (Matrix.new 3 2) ∧ ∃ m, (Matrix.new 3 2).setValue 1 2 1 3 7 = .ok m ∧ Made 3 m ∧ (fileLines 3 [m]).length = 43 := by
  refine ⟨.new 2, _, rfl, .set _ _ 1 2 1 3 7 (.new 2) rfl, by decide +kernel⟩

/-! ## Lemmas on the names -/

/-- The kinds with matrices, in the order of writing. -/
def present (mats : MatrixKind → List Matrix) : List MatrixKind :=
  [MatrixKind.DAMPING, .MASS, .STIFFNESS].filter fun k => 0 < (mats k).length

theorem mem_present (mats : MatrixKind → List Matrix) (k : MatrixKind) : k ∈ present mats ↔ mats k ≠ [] := by
  unfold present
  rw [List.mem_filter]
  simp only [decide_eq_true_eq, List.length_pos_iff]
  cases k <;> simp

theorem present_nodup (mats : MatrixKind → List Matrix) : (present mats).Nodup := by
  unfold present
  exact List.Nodup.filter _ (by decide)

/-- `filebyAccessId` after the subcase `i`. -/
def tableOf (model : List Char) (mats : MatrixKind → List Matrix) (i : Nat) : Map Nat (List Char) :=
  (present mats).map fun k => (accessId k, fileName model i k)

/-- The files of the subcase `i`. -/
def filesOf (model : List Char) (n : Nat) (mats : MatrixKind → List Matrix) (i : Nat) : List (List Char × List Line) :=
  (present mats).map fun k => (fileName model i k ++ ".ASC".toList, fileLines n (mats k))

theorem write_files (model : List Char) (n i : Nat) (mats : MatrixKind → List Matrix) (s : State) :
    (writeMatrixFiles model n i mats s).files = s.files ++ filesOf model n mats i := by
  unfold writeMatrixFiles writeKind filesOf present
  by_cases h1 : 0 < (mats .DAMPING).length <;> by_cases h2 : 0 < (mats .MASS).length <;>
    by_cases h3 : 0 < (mats .STIFFNESS).length <;> simp [h1, h2, h3]

theorem write_table (model : List Char) (n i : Nat) (mats : MatrixKind → List Matrix) (s : State)
    (h : s.byAccess = [] ∨ ∃ j, s.byAccess = tableOf model mats j) :
    (writeMatrixFiles model n i mats s).byAccess = tableOf model mats i := by
  unfold writeMatrixFiles writeKind
  rcases h with h | ⟨j, h⟩
  · by_cases h1 : 0 < (mats .DAMPING).length <;> by_cases h2 : 0 < (mats .MASS).length <;>
      by_cases h3 : 0 < (mats .STIFFNESS).length <;> simp [h1, h2, h3, h, tableOf, present, Map.set, accessId]
  · by_cases h1 : 0 < (mats .DAMPING).length <;> by_cases h2 : 0 < (mats .MASS).length <;>
      by_cases h3 : 0 < (mats .STIFFNESS).length <;> simp [h1, h2, h3, h, tableOf, present, Map.set, accessId]

theorem subcases_spec (model : List Char) (n : Nat) (file : Bool) (mats : MatrixKind → List Matrix) :
    ∀ (scs : List (List Nat)) (i : Nat) (s : State),
      (s.byAccess = [] ∨ ∃ j, s.byAccess = tableOf model (if file then mats else fun _ => []) j) →
      (subcases model n file mats i scs s).1.files =
        s.files ++ (List.range scs.length).flatMap (fun j => filesOf model n (if file then mats else fun _ => []) (i + j)) ∧
      (subcases model n file mats i scs s).2 =
        scs.mapIdx fun j as => accesses file as (tableOf model (if file then mats else fun _ => []) (i + j))
  | [], i, s, _ => by simp [subcases]
  | as :: scs, i, s, h => by
    have h1 := write_table model n i (if file then mats else fun _ => []) s h
    obtain ⟨a, b⟩ := subcases_spec model n file mats scs (i + 1)
      (writeMatrixFiles model n i (if file then mats else fun _ => []) s) (.inr ⟨i, h1⟩)
    have e : ∀ j, i + 1 + j = i + (j + 1) := fun j => by omega
    simp only [e] at a b
    constructor
    · simp only [subcases]
      rw [a, write_files, List.length_cons, List.range_succ_eq_map, List.flatMap_cons, List.flatMap_map, Nat.add_zero,
        List.append_assoc]
    · simp only [subcases]
      rw [b, h1, List.mapIdx_cons, Nat.add_zero]

/-! ## Properties: the names of the files and the access to them -/

/-- **C160.** Two files have different names, unless they are of the same subcase and kind. -/
theorem C160_names (model : List Char) (i j : Nat) (k l : MatrixKind) (h : fileName model i k = fileName model j l) : i = j ∧ k = l := by
  unfold fileName at h
  rw [List.append_assoc, List.append_assoc, List.append_assoc, List.append_assoc] at h
  have h := List.append_cancel_left (List.append_cancel_left h)
  have hs : ∀ k, ∃ r, suffix k = '_' :: r := by intro k; cases k <;> exact ⟨_, rfl⟩
  obtain ⟨r, hr⟩ := hs k
  obtain ⟨r', hr'⟩ := hs l
  rw [hr, hr'] at h
  obtain ⟨h1, h2⟩ := Tsai.decimal_split (by decide) h
  refine ⟨by omega, ?_⟩
  have : suffix k = suffix l := by rw [hr, hr', h2]
  revert this
  cases k <;> cases l <;> simp [suffix]

/-- **C160.** In the mode of files every subcase has its own file for each kind of matrices that the model has, with these matrices, and no
two files have the same name. The commands of a subcase with analyses give access to these files, with the numbers 41, 42 and 43
of their kinds, and to no others; those of a subcase without analyses to none. -/
theorem C160_access (model : List Char) (n : Nat) (mats : MatrixKind → List Matrix) (scs : List (List Nat)) :
    ∃ t r, subcases model n true mats 0 scs ⟨[], []⟩ = (t, r) ∧ r.length = scs.length ∧ (t.files.map (·.1)).Nodup ∧
      (∀ name lines, (name, lines) ∈ t.files ↔ ∃ i k, i < scs.length ∧ mats k ≠ [] ∧ name = fileName model i k ++ ".ASC".toList ∧
        lines = fileLines n (mats k)) ∧
      ∀ (i : Nat) (as : List Nat) (acc : List Access), scs[i]? = some as → r[i]? = some acc →
        (as = [] → acc = []) ∧ (acc.map (·.number)).Nodup ∧
        (as ≠ [] → ∀ a, a ∈ acc ↔ ∃ k, mats k ≠ [] ∧ a.number = (match k with | .DAMPING => 41 | .MASS => 42 | .STIFFNESS => 43) ∧
          a.source = fileName model i k ++ ".ASC".toList ∧ a.converted = fileName model i k ++ ".TIT".toList ∧
          a.assigned = a.converted) := by
  obtain ⟨h1, h2⟩ := subcases_spec model n true mats scs 0 ⟨[], []⟩ (.inl rfl)
  simp only [if_true, List.nil_append, Nat.zero_add] at h1 h2
  have hacc : ∀ k l, accessId k = accessId l → k = l := by intro k l; cases k <;> cases l <;> simp [accessId]
  refine ⟨_, _, rfl, by rw [h2]; simp, ?_, ?_, ?_⟩
  · rw [h1, List.map_flatMap]
    rw [List.nodup_flatMap]
    constructor
    · intro i _
      unfold filesOf
      rw [List.map_map]
      refine List.Nodup.map_on ?_ (present_nodup mats)
      intro k _ l _ e
      exact (C160_names model i i k l (List.append_cancel_right e)).2
    · refine List.Pairwise.imp_of_mem ?_ List.nodup_range
      intro i j _ _ hij
      rw [Function.onFun, List.disjoint_left]
      intro x hx hy
      unfold filesOf at hx hy
      simp only [List.map_map, List.mem_map, Function.comp_apply] at hx hy
      obtain ⟨k, _, rfl⟩ := hx
      obtain ⟨l, _, e⟩ := hy
      exact hij (C160_names model j i l k (List.append_cancel_right e)).1.symm
  · intro name lines
    rw [h1]
    simp only [List.mem_flatMap, List.mem_range, filesOf, List.mem_map, mem_present, Prod.mk.injEq]
    constructor
    · rintro ⟨i, hi, k, hk, rfl, rfl⟩
      exact ⟨i, k, hi, hk, rfl, rfl⟩
    · rintro ⟨i, k, hi, hk, rfl, rfl⟩
      exact ⟨i, hi, k, hk, rfl, rfl⟩
  · intro i as acc has hr
    rw [h2, List.getElem?_mapIdx, has] at hr
    simp only [Option.map_some, Option.some.injEq] at hr
    subst hr
    refine ⟨?_, ?_, ?_⟩
    · rintro rfl
      rfl
    · unfold accesses
      split
      · simp
      · simp only [if_true, tableOf, List.map_map]
        refine List.Nodup.map_on ?_ (present_nodup mats)
        intro k _ l _ e
        exact hacc k l e
    · intro hne a
      have : as.length ≠ 0 := fun e => hne (List.length_eq_zero_iff.mp e)
      unfold accesses
      rw [if_neg this, if_pos rfl]
      simp only [tableOf, List.map_map, List.mem_map, mem_present, Function.comp_apply]
      constructor
      · rintro ⟨k, hk, rfl⟩
        exact ⟨k, hk, by cases k <;> rfl, rfl, rfl, rfl⟩
      · rintro ⟨k, hk, e1, e2, e3, e4⟩
        refine ⟨k, hk, ?_⟩
        obtain ⟨a1, a2, a3, a4⟩ := a
        simp only at e1 e2 e3 e4
        subst e4 e3 e2 e1
        cases k <;> rfl

/-- **C160.** Without the mode of files there are no files and no access. -/
theorem C160_table (model : List Char) (n : Nat) (mats : MatrixKind → List Matrix) (scs : List (List Nat)) :
    ∃ t r, subcases model n false mats 0 scs ⟨[], []⟩ = (t, r) ∧ t.files = [] ∧ ∀ acc ∈ r, acc = [] := by
  obtain ⟨h1, h2⟩ := subcases_spec model n false mats scs 0 ⟨[], []⟩ (.inl rfl)
  refine ⟨_, _, rfl, ?_, ?_⟩
  · rw [h1]
    simp [filesOf, present]
  · intro acc h
    rw [h2] at h
    obtain ⟨i, hi, rfl⟩ := List.mem_mapIdx.mp h
    simp [accesses]

/-- Two subcases, with a mass and a stiffness matrix. -/
example : ∃ t a b, subcases "M".toList 3 true (fun k => if k = .DAMPING then [] else [Matrix.new 3 2]) 0 [[1], [2, 3]] ⟨[], []⟩ =
    (t, [a, b]) ∧ t.files.length = 4 ∧ b.map (fun x => (x.number, String.ofList x.source)) =
      [(42, "M_SC2_MASGEN.ASC"), (43, "M_SC2_STIGEN.ASC")] := by
  refine ⟨_, _, _, rfl, by decide +kernel, by decide +kernel⟩

end Vega.MatrixFilesSpec
