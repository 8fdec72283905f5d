import Verif.Systus.MatrixCells
import Verif.Systus.MatrixProps
import Verif.Mesh.SkinsProps
import Verif.Element.DirectSplitProps

/-! # C155: the cell made for a direct matrix has the nodes of the matrix in the order in which its coefficients are numbered -/
namespace Vega.MatrixCellsSpec
open Vega.Mesh Skins SkinsSpec CellSpec MatrixCells

/-! ## Specification -/

/-- The element set gets a cell: a matrix with coefficients that has no cells, alone or by groups. -/
def Wanted (m : Mesh) (x : Item) (d : DirectMatrix) : Prop :=
  x.matrix = some d ∧ positionsOf m x.on = [] ∧ d.nodePositions ≠ []

/-- The element set gets no cell: it is no matrix, or has cells, or has no coefficients. -/
def Unwanted (m : Mesh) (x : Item) : Prop :=
  ∀ d, x.matrix = some d → positionsOf m x.on ≠ [] ∨ d.nodePositions = []

/-- The groups an element set lists exist. -/
def Known (m : Mesh) (x : Item) : Prop := ∀ name ∈ x.on.groups, (m.cellGroups.find name).isSome

/-- The matrix can have a cell: at most 20 nodes, all of the mesh and with a number. -/
def Fits (m : Mesh) (d : DirectMatrix) : Prop :=
  d.nodePositions.length ≤ 20 ∧ ∀ p ∈ d.nodePositions, ∃ i, m.nodes.ids[p]? = some i ∧ i ≠ AUTO_ID

/-- The element sets with the matrices that get a cell. -/
def Choice (m : Mesh) (xs : List Item) (ws : List (Option DirectMatrix)) : Prop :=
  List.Forall₂ (fun x w => Known m x ∧ match w with
    | some d => Wanted m x d ∧ Fits m d
    | none => Unwanted m x) xs ws

/-- The cell of the matrix `d`: as many nodes as the matrix has, in the order of their positions. -/
def CellOf (m : Mesh) (d : DirectMatrix) (c : Given) : Prop :=
  CellType.polyType d.nodePositions.length = .ok c.type ∧ c.type.numNodes = d.nodePositions.length ∧
    c.nodeIds.map some = d.nodePositions.map (m.nodes.ids[·]?) ∧ c.elementId = none ∧ c.offset = 0

/-- The element sets afterwards, in the final mesh: the chosen matrices act on one cell each, the cells from `n` on, by groups named
from `k + 1` on that have this cell alone. The others are as they were. -/
def Placed (m : Mesh) : Nat → Nat → List (Option DirectMatrix) → List Item → List Item → Prop
  | _, _, [], [], [] => True
  | k, n, none :: ws, x :: xs, x' :: xs' => x' = x ∧ Placed m k n ws xs xs'
  | k, n, some _ :: ws, x :: xs, x' :: xs' => x'.matrix = x.matrix ∧ x'.on = ⟨x.on.cells, x.on.groups ++ [dmName (k + 1)]⟩ ∧
      groupCells m (dmName (k + 1)) = [n] ∧ positionsOf m x'.on = [n] ∧ Placed m (k + 1) (n + 1) ws xs xs'
  | _, _, _, _, _ => False

/-! ## Lemmas -/

theorem dmName_inj {a b : Nat} (h : dmName a = dmName b) : a = b := by
  unfold dmName at h
  have := String.ofList_injective h
  simp only [List.cons.injEq, true_and] at this
  exact Med.decimal_inj this

theorem dmName_ne (k : Nat) : dmName k ≠ "" := by
  intro e
  have := congrArg String.toList e
  simp [dmName] at this

theorem nodeIdsOf_spec {m : Mesh} : ∀ ps : List Nat, (∀ p ∈ ps, ∃ i, m.nodes.ids[p]? = some i ∧ i ≠ AUTO_ID) →
    ∃ is, nodeIdsOf m ps = .ok is ∧ is.map some = ps.map (m.nodes.ids[·]?) ∧ (∀ i ∈ is, i ∈ m.nodes.ids ∧ i ≠ AUTO_ID) ∧
      is.length = ps.length
  | [], _ => ⟨[], rfl, rfl, by simp, rfl⟩
  | p :: ps, h => by
    obtain ⟨is, h1, h2, h3, h4⟩ := nodeIdsOf_spec ps (fun q hq => h q (by simp [hq]))
    obtain ⟨i, hi, hne⟩ := h p (by simp)
    refine ⟨i :: is, ?_, ?_, ?_, by simp [h4]⟩
    · simp only [nodeIdsOf, (NodeSpec.findNodeId_iff _ _ _).mpr hi, Outcome.bind_ok, h1]
    · simp only [List.map_cons, h2, hi]
    · intro j hj
      rcases List.mem_cons.mp hj with rfl | hj
      · exact ⟨List.mem_of_getElem? hi, hne⟩
      · exact h3 j hj

/-- A new cell with an automatic number, on nodes of the mesh. -/
theorem newCell_spec {m : Mesh} {g : List Given} (r : Reach m g) {t : CellType} {ids : List Int} (ht : ids.length = t.numNodes)
    (hk : ∀ i ∈ ids, i ∈ m.nodes.ids ∧ i ≠ AUTO_ID) :
    ∃ m' cid, m.addCell AUTO_ID t ids none 0 = .ok (m', g.length) ∧ Reach m' (g ++ [skinOf cid t ids]) ∧ m'.nodes = m.nodes ∧
      m'.cellGroups = m.cellGroups ∧ m.hasCell cid = false ∧ m'.findCellPosition cid = some g.length := by
  obtain ⟨cid, auto, h1, _, h3⟩ := pickCellId_spec m AUTO_ID
  have hv : (skinOf cid t ids).Valid := ⟨ht, fun i hi => (hk i hi).2⟩
  obtain ⟨m', h4, h5, h6⟩ := addCell_eq r.cinv AUTO_ID (skinOf cid t ids) hv cid auto h1
  have hf := h6.findCellId g.length (skinOf cid t ids) (by simp [skinOf])
  obtain ⟨ps, hps⟩ := reserveAll_known ids r.cinv.nodes (fun i hi => (hk i hi).1)
  have h4' := h4
  unfold addCell at h4'
  rw [h1] at h4'
  simp only [skinOf, Outcome.bind_ok, hps, Outcome.ok.injEq, Prod.mk.injEq] at h4'
  have hpos : m'.cellPosById = m.cellPosById.set cid m.cellDatas.length := by rw [← h4'.1]
  refine ⟨m', cid, h4, Reach.create r (skinOf cid t ids) hv h4 hf, by rw [← h4'.1], h5, by simp [hasCell, h3 rfl], ?_⟩
  rw [findCellPosition, hpos, Map.find_set_self, r.cinv.size]

theorem cellFor_spec {m : Mesh} {g : List Given} (r : Reach m g) {d : DirectMatrix} (k : Nat)
    (hfree : m.cellGroups.find (dmName k) = none) (hne : d.nodePositions ≠ []) (hd : Fits m d) :
    ∃ m' c, cellFor m k d = .ok m' ∧ Reach m' (g ++ [c]) ∧ CellOf m d c ∧ m.hasCell c.id = false ∧
      groupCells m' (dmName k) = [g.length] ∧ (m'.cellGroups.find (dmName k)).isSome ∧ Kept m m' (· = dmName k) := by
  obtain ⟨t, ht, htn⟩ := (C20_polyType d.nodePositions.length).1 ⟨List.length_pos_iff.mpr hne, hd.1⟩
  have c1 := createGroup_ok (dmName_ne k) hfree
  have r1 := Reach.newGroup r _ c1
  obtain ⟨ids, i1, i2, i3, i4⟩ := nodeIdsOf_spec (m := { m with cellGroups := m.cellGroups.set (dmName k) [] }) d.nodePositions hd.2
  obtain ⟨m2, cid, a1, a2, a3, a4, a5, a6⟩ := newCell_spec r1 (t := t) (ids := ids) (by rw [i4, htn]) i3
  have hf : m2.cellGroups.find (dmName k) = some [] := by rw [a4]; exact Map.find_set_self _ _ _
  have c2 : m2.addToGroup (dmName k) g.length = .ok { m2 with cellGroups := m2.cellGroups.set (dmName k) [g.length] } := by
    unfold addToGroup
    simp [hf]
  have r3 := Reach.group a2 _ cid a6 c2
  refine ⟨_, _, ?_, r3, ⟨ht, htn, i2, rfl, rfl⟩, a5, ?_, ?_, a3, ?_, ?_⟩
  · unfold cellFor
    simp only [c1, Outcome.bind_ok, ht, i1, a1, c2]
  · simp [groupCells, Map.find_set_self]
  · simp [Map.find_set_self]
  · exact positions_later r r3 a5
  · intro name hn
    simp only
    rw [Map.find_set_ne _ _ (fun e => hn e.symm), a4]
    simp only
    rw [Map.find_set_ne _ _ (fun e => hn e.symm)]

theorem positionsOf_kept {m m' : Mesh} {mine : String → Prop} (h : Kept m m' mine) {c : Container}
    (hc : ∀ name ∈ c.groups, ¬ mine name) : positionsOf m' c = positionsOf m c := by
  unfold positionsOf
  congr 1
  rw [List.flatMap_def, List.flatMap_def]
  congr 1
  apply List.map_congr_left
  intro n hn
  unfold groupCells
  rw [h.groups n (hc n hn)]

theorem known_not {m : Mesh} {x : Item} (hx : Known m x) {name : String} (hf : m.cellGroups.find name = none) :
    ∀ n ∈ x.on.groups, ¬ n = name := by
  rintro n hn rfl
  have := hx _ hn
  rw [hf] at this
  cases this

theorem choice_later {m m' : Mesh} {name : String} (hf : m.cellGroups.find name = none) (h : Kept m m' (· = name))
    {xs : List Item} {ws : List (Option DirectMatrix)} (hc : Choice m xs ws) : Choice m' xs ws := by
  refine hc.imp ?_
  rintro x w ⟨hk, hw⟩
  have hp := positionsOf_kept h (known_not hk hf)
  refine ⟨fun n hn => by rw [h.groups n (known_not hk hf n hn)]; exact hk n hn, ?_⟩
  cases w with
  | some d => exact ⟨⟨hw.1.1, by rw [hp]; exact hw.1.2.1, hw.1.2.2⟩, hw.2.1, by rw [h.nodes]; exact hw.2.2⟩
  | none => exact fun d hd => by rw [hp]; exact hw d hd

theorem makeCells_spec : ∀ (xs : List Item) (ws : List (Option DirectMatrix)) (k : Nat) (m : Mesh) (g : List Given), Reach m g →
    Choice m xs ws → (∀ j, k < j → m.cellGroups.find (dmName j) = none) →
    ∃ m' xs' new, makeCells k m xs = .ok (m', xs') ∧ Reach m' (g ++ new) ∧ List.Forall₂ (CellOf m) (ws.filterMap id) new ∧
      Placed m' k g.length ws xs xs' ∧ (∀ c ∈ new, m.hasCell c.id = false) ∧ Kept m m' (fun n => ∃ j, k < j ∧ n = dmName j)
  | [], _, k, m, g, r, h, _ => by
    cases h
    exact ⟨m, [], [], rfl, by simpa using r, .nil, trivial, by simp, ⟨rfl, fun _ _ => rfl, fun _ _ => rfl⟩⟩
  | x :: xs, _, k, m, g, r, .cons (b := w) (l₂ := ws) ⟨hk, hw⟩ hws, hfree => by
    cases w with
    | none =>
      obtain ⟨m', xs', new, h1, h2, h3, h4, h5, h6⟩ := makeCells_spec xs ws k m g r hws hfree
      refine ⟨m', x :: xs', new, ?_, h2, h3, ⟨rfl, h4⟩, h5, h6⟩
      unfold makeCells
      cases hx : x.matrix with
      | none => simp only [h1, Outcome.bind_ok]
      | some d =>
        simp only [h1, Outcome.bind_ok]
        rcases hw d hx with h | h
        · rw [if_pos h]
        · simp [h]
    | some d =>
      obtain ⟨⟨hx, hp, hne⟩, hd⟩ := hw
      have hf := hfree (k + 1) (by omega)
      obtain ⟨m1, c, a1, a2, a3, a4, a5, a8, a6⟩ := cellFor_spec r (k + 1) hf hne hd
      have hfree' : ∀ j, k + 1 < j → m1.cellGroups.find (dmName j) = none := by
        intro j hj
        rw [a6.groups _ (fun e => by have := dmName_inj e; omega)]
        exact hfree j (by omega)
      obtain ⟨m', xs', new, h1, h2, h3, h4, h5, h6⟩ := makeCells_spec xs ws (k + 1) m1 _ a2 (choice_later hf a6 hws) hfree'
      have hg : groupCells m' (dmName (k + 1)) = [g.length] := by
        unfold groupCells at a5 ⊢
        rw [h6.groups _ (by rintro ⟨j, hj, e⟩; have := dmName_inj e; omega)]
        exact a5
      have hp' : positionsOf m' x.on = [] := by
        rw [positionsOf_kept h6, positionsOf_kept a6 (known_not hk hf), hp]
        rintro n hn ⟨j, hj, rfl⟩
        exact known_not hk (hfree j (by omega)) _ hn rfl
      refine ⟨m', ⟨x.matrix, ⟨x.on.cells, x.on.groups ++ [dmName (k + 1)]⟩⟩ :: xs', c :: new, ?_, by simpa using h2, ?_,
        ⟨rfl, rfl, hg, ?_, by simpa using h4⟩, ?_, ?_⟩
      · unfold makeCells
        simp only [hx, hp, ne_eq, not_true_eq_false, if_false, hne, a1, Outcome.bind_ok, h1]
      · refine .cons a3 (h3.imp ?_)
        rintro d' c' ⟨b1, b2, b3, b4⟩
        exact ⟨b1, b2, by rw [← a6.nodes]; exact b3, b4⟩
      · unfold positionsOf at hp' ⊢
        simp only [List.flatMap_append, List.flatMap_cons, List.flatMap_nil, List.append_nil, hg]
        rw [← List.append_assoc, hp', List.nil_append]
      · intro c' hc'
        rcases List.mem_cons.mp hc' with rfl | hc'
        · exact a4
        · have := h5 c' hc'
          cases hh : m.hasCell c'.id with
          | false => rfl
          | true => rw [a6.has hh] at this; cases this
      · refine (a6.trans h6).mono ?_
        rintro n (rfl | ⟨j, hj, rfl⟩)
        · exact ⟨k + 1, by omega, rfl⟩
        · exact ⟨j, by omega, rfl⟩

/-! ## Properties -/

/-- **C155.** In every mesh and for every list of element sets whose matrices without cells have at most 20 nodes, exactly the
matrices that have coefficients and no cells get a cell, one each, in order: a new cell with a new number, with the nodes of the
matrix and a type of that number of nodes, alone in a new group of its own. The matrix then acts on this cell alone. The other
element sets, the nodes, the cells there were and the groups of other names are as they were. Required: no group of the mesh is
called `DM` and a number. -/
theorem C155_cells_partial {m : Mesh} {g : List Given} (r : Reach m g) (xs : List Item) (ws : List (Option DirectMatrix))
    (hc : Choice m xs ws) (hfree : ∀ j, 0 < j → m.cellGroups.find (dmName j) = none) :
    ∃ m' xs' new, makeCellsFromDirectMatrices m xs = .ok (m', xs') ∧ Reach m' (g ++ new) ∧
      List.Forall₂ (CellOf m) (ws.filterMap id) new ∧ Placed m' 0 g.length ws xs xs' ∧ (∀ c ∈ new, m.hasCell c.id = false) ∧
      m'.nodes = m.nodes ∧ (∀ id, m.hasCell id = true → m'.findCellPosition id = m.findCellPosition id) ∧
      (∀ name, (∀ j, 0 < j → name ≠ dmName j) → m'.cellGroups.find name = m.cellGroups.find name) ∧
      ∀ p c, (g ++ new)[p]? = some c → ∃ v, m'.findCell p = .ok v ∧ v.id = c.id ∧ v.type = c.type ∧ v.nodeIds = c.nodeIds := by
  obtain ⟨m', xs', new, h1, h2, h3, h4, h5, h6⟩ := makeCells_spec xs ws 0 m g r hc hfree
  refine ⟨m', xs', new, h1, h2, h3, h4, h5, h6.nodes, h6.cells, ?_, ?_⟩
  · intro name hn
    exact h6.groups name (by rintro ⟨j, hj, e⟩; exact hn j hj e)
  · intro p c hp
    obtain ⟨v, a, b, c', d, _⟩ := findCell_spec h2.cinv p c hp
    exact ⟨v, a, b, c', d⟩

/-- The hypotheses of `C155_cells_partial`: a mesh with a triangle and a matrix between its third and its first node. -/
example : ∃ m g d, Reach m g ∧ Choice m [⟨none, ⟨[0], []⟩⟩, ⟨some d, ⟨[], []⟩⟩] [none, some d] ∧ m.cellGroups = [] ∧
    d.nodePositions = [0, 2] := by
  refine ⟨_, _, ⟨.SYMMETRIC, [((0, 2), ⟨.FULL, []⟩)]⟩, Reach.add (Reach.empty 1000 0 1000) ⟨7, .tri3, [11, 12, 13], none, 0⟩
    ⟨rfl, by decide⟩ (by decide) rfl rfl, .cons ⟨by simp [Known], fun d hd => by cases hd⟩ (.cons ⟨by simp [Known], ⟨rfl, rfl, ?_⟩, ?_, ?_⟩ .nil),
    rfl, rfl⟩
  · decide
  · decide
  · intro p hp
    have : p = 0 ∨ p = 2 := by simpa [DirectMatrix.nodePositions, DirectMatrix.insertPos] using hp
    rcases this with rfl | rfl
    · exact ⟨11, rfl, by decide⟩
    · exact ⟨13, rfl, by decide⟩

/-- **C155.** In the cell of a matrix the node with the number `n` in the Systus table of coefficients is the `n`-th node of the
cell, and every node of the matrix has such a number, from 1 to the number of nodes. -/
theorem C155_order (m : Mesh) (d : DirectMatrix) (c : Given) (h : CellOf m d c) (p : Nat) (hp : p ∈ d.nodePositions) :
    ∃ n, Systus.numberOf (Systus.number d.nodePositions 1 []) p = n + 1 ∧ n < c.nodeIds.length ∧
      c.nodeIds[n]? = m.nodes.ids[p]? := by
  obtain ⟨n, hn⟩ := List.getElem?_of_mem hp
  have hlt := (List.getElem?_eq_some_iff.mp hn).1
  have hlen : c.nodeIds.length = d.nodePositions.length := by
    have := congrArg List.length h.2.2.1
    simpa using this
  refine ⟨n, SystusMatrixSpec.numberOf_eq _ (DirectSpec.nodePositions_nodup d) n p hn, by omega, ?_⟩
  have := congrArg (fun l : List (Option Int) => l[n]?) h.2.2.1
  simp only [List.getElem?_map, hn, Option.map_some] at this
  rw [List.getElem?_eq_getElem (by omega)] at this ⊢
  simpa using this

theorem split_sizes {sizeMax : Nat} {l kept added : List DirectMatrix} (h : DirectSpec.SplitResult sizeMax l kept added) :
    ∀ d ∈ kept ++ added, d.nodePositions.length ≤ sizeMax := by
  induction h with
  | nil => simp
  | keep m l kept added hm _ ih =>
    intro d hd
    rw [List.cons_append] at hd
    rcases List.mem_cons.mp hd with rfl | hd
    · exact hm
    · exact ih d hd
  | split m l pieces kept added _ _ hp _ ih =>
    intro d hd
    simp only [List.mem_append] at hd
    rcases hd with hd | hd | hd
    · exact ih d (by simp [hd])
    · exact hp d hd
    · exact ih d (by simp [hd])

/-- **C155.** With a size of matrices from 2 to 20, as by default, no matrix of the model has too many nodes for a cell once the
matrices are split, whatever their coefficients. -/
theorem C155_split (sizeMax : Nat) (h2 : 2 ≤ sizeMax) (h20 : sizeMax ≤ 20) (l : List DirectMatrix) (ns : NodeStore)
    (hns : ns.Inv) (hl : ∀ m ∈ l, (∃ hist, DirectSpec.run (DirectMatrix.new .SYMMETRIC) hist = .ok m) ∧ DirectSpec.NodesKnown ns m) :
    ∃ l', MatrixSplit.run sizeMax l ns = .ok (ns, l') ∧ ∀ d ∈ l', d.nodePositions.length ≤ 20 := by
  obtain ⟨kept, added, h, hr⟩ := DirectSpec.C33_all sizeMax h2 l ns hns hl
  exact ⟨_, h, fun d hd => (split_sizes hr d hd).trans h20⟩

/-- **C155.** A matrix without cells on more than 20 nodes stops the translation. -/
theorem C155_large_false (m : Mesh) (k : Nat) (x : Item) (xs : List Item) (d : DirectMatrix) (hx : Wanted m x d)
    (hd : 20 < d.nodePositions.length) : makeCells k m (x :: xs) = .throw := by
  obtain ⟨h1, h2, h3⟩ := hx
  have hc : cellFor m (k + 1) d = .throw := by
    unfold cellFor
    have := (C20_polyType d.nodePositions.length).2 (by omega)
    unfold createCellGroup
    rw [if_neg (dmName_ne _)]
    cases m.cellGroups.find (dmName (k + 1)) with
    | some _ => rfl
    | none => simp only [Outcome.bind_ok, this]; rfl
  unfold makeCells
  simp only [h1, h2, ne_eq, not_true_eq_false, if_false, h3, hc]
  rfl

/-- The hypotheses of `C155_large_false`: a matrix that joins one node to twenty others. -/
example : ∃ m x d, Wanted m x d ∧ 20 < d.nodePositions.length :=
  ⟨Mesh.init NodeStore.init 100, ⟨some ⟨.SYMMETRIC, (List.range 21).map fun i => ((0, i), ⟨.FULL, []⟩)⟩, ⟨[], []⟩⟩, _, ⟨rfl, rfl, by decide⟩,
    by decide⟩

/-- **C155.** A group of cells called `DM1` in the model stops the translation, when there is a matrix without cells. -/
theorem C155_name_false (m : Mesh) (x : Item) (xs : List Item) (d : DirectMatrix) (hx : Wanted m x d) (ps : List Nat)
    (hg : m.cellGroups.find "DM1" = some ps) : makeCellsFromDirectMatrices m (x :: xs) = .throw := by
  obtain ⟨h1, h2, h3⟩ := hx
  have hn : dmName 1 = "DM1" := by decide +kernel
  have hc : cellFor m (0 + 1) d = .throw := by
    unfold cellFor createCellGroup
    rw [if_neg (dmName_ne _), hn, hg]
    rfl
  unfold makeCellsFromDirectMatrices makeCells
  simp only [h1, h2, ne_eq, not_true_eq_false, if_false, h3, hc]
  rfl

end Vega.MatrixCellsSpec
