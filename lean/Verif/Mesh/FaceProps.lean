import Verif.Mesh.Faces
import Mathlib.Tactic.Common
import Mathlib.Data.List.Nodup
import Mathlib.Tactic.FinCases

/-! # C18, C19 -/
namespace Vega.FaceSpec
open Faces

/-! ## Specification -/

/-- A cell: as many nodes as its type requires, all different. -/
def Proper (t : CellType) (ids : List Int) : Prop := ids.length = t.numNodes ∧ ids.Nodup

/-- Solid types whose faces are known. -/
def Solid (t : CellType) : Prop :=
  t = .hexa8 ∨ t = .tetra4 ∨ t = .pyra5 ∨ t = .penta6 ∨ t = .tetra10 ∨ t = .pyra13 ∨ t = .penta15 ∨ t = .hexa20

def Quadratic (t : CellType) : Bool := t.numNodes ≥ 10

/-- The corners of a face: in quadratic cells the first half of its nodes. -/
def cornersOf (t : CellType) (face : List α) : List α :=
  if Quadratic t then face.take (face.length / 2) else face

/-- The midside nodes of a face, in quadratic cells the second half. -/
def midsOf (t : CellType) (face : List α) : List α :=
  if Quadratic t then face.drop (face.length / 2) else []

/-- The directed edges of a polygon. -/
def edges (poly : List α) : List (α × α) := poly.zip (poly.tail ++ poly.take 1)

/-- Directed edges of all faces. -/
def allEdges (t : CellType) (faces : List (List α)) : List (α × α) := faces.flatMap fun f => edges (cornersOf t f)

/-- Directed edges with the node in their middle. -/
def allMids (t : CellType) (faces : List (List α)) : List ((α × α) × α) :=
  faces.flatMap fun f => (edges (cornersOf t f)).zip (midsOf t f)

/-- Closed, consistently oriented surface made of the nodes `ids`. -/
structure ClosedSurface (t : CellType) (ids : List α) (faces : List (List α)) : Prop where
  distinct : ∀ f ∈ faces, f.Nodup
  nodes : ∀ f ∈ faces, ∀ i ∈ f, i ∈ ids
  covers : ∀ i ∈ ids, ∃ f ∈ faces, i ∈ f
  /-- no edge is described twice in the same direction -/
  once : (allEdges t faces).Nodup
  /-- each edge is described in the opposite direction as well -/
  twice : ∀ a b, (a, b) ∈ allEdges t faces → a ≠ b ∧ (b, a) ∈ allEdges t faces
  /-- every face of a quadratic cell has a midside node for each edge, and the two faces sharing an
  edge agree on it -/
  mids : Quadratic t = true → (∀ f ∈ faces, (midsOf t f).length = (cornersOf t f).length) ∧
    ∀ a b m m', ((a, b), m) ∈ allMids t faces → ((b, a), m') ∈ allMids t faces → m = m'

instance [DecidableEq α] (t : CellType) (ids : List α) (faces : List (List α)) :
    Decidable (ClosedSurface t ids faces) :=
  decidable_of_iff
    ((∀ f ∈ faces, f.Nodup) ∧ (∀ f ∈ faces, ∀ i ∈ f, i ∈ ids) ∧ (∀ i ∈ ids, ∃ f ∈ faces, i ∈ f) ∧
      (allEdges t faces).Nodup ∧ (∀ x ∈ allEdges t faces, x.1 ≠ x.2 ∧ (x.2, x.1) ∈ allEdges t faces) ∧
      (Quadratic t = true → (∀ f ∈ faces, (midsOf t f).length = (cornersOf t f).length) ∧
        ∀ x ∈ allMids t faces, ∀ y ∈ allMids t faces, y.1 = (x.1.2, x.1.1) → x.2 = y.2))
    ⟨fun ⟨h1, h2, h3, h4, h5, h6⟩ => ⟨h1, h2, h3, h4, fun a b h => h5 (a, b) h,
        fun q => ⟨(h6 q).1, fun a b m m' h h' => (h6 q).2 ((a, b), m) h ((b, a), m') h' rfl⟩⟩,
     fun ⟨h1, h2, h3, h4, h5, h6⟩ => ⟨h1, h2, h3, h4, fun x h => h5 x.1 x.2 h,
        fun q => ⟨(h6 q).1, by
          rintro ⟨⟨a, b⟩, m⟩ h ⟨⟨c, d⟩, m'⟩ h' e
          simp only [Prod.mk.injEq] at e
          obtain ⟨rfl, rfl⟩ := e
          exact (h6 q).2 _ _ _ _ h h'⟩⟩⟩

/-! ## Transfer from node numbers to node ids -/

/-- The id of node number `k` (from 1). -/
def idOf (ids : List Int) (k : Nat) : Int := ids.getD (k - 1) 0

theorem idOf_get {ids : List Int} {k : Nat} (h : 1 ≤ k ∧ k ≤ ids.length) : ids[k - 1]? = some (idOf ids k) := by
  unfold idOf
  rw [List.getD_eq_getElem?_getD, List.getElem?_eq_getElem (by omega)]
  rfl

theorem idOf_inj {ids : List Int} (hn : ids.Nodup) {j k : Nat} (hj : 1 ≤ j ∧ j ≤ ids.length)
    (hk : 1 ≤ k ∧ k ≤ ids.length) (h : idOf ids j = idOf ids k) : j = k := by
  have h1 := idOf_get hj
  have h2 := idOf_get hk
  rw [h, ← h2] at h1
  have := (List.getElem?_inj (by omega) hn).1 h1
  omega

theorem readNodes_ok {ids : List Int} (f : List Nat) (h : ∀ k ∈ f, 1 ≤ k ∧ k ≤ ids.length) :
    readNodes ids f = .ok (f.map (idOf ids)) := by
  induction f with
  | nil => rfl
  | cons k f ih =>
    simp only [readNodes, idOf_get (h k (by simp)), ih (fun k hk => h k (by simp [hk]))]
    rfl

theorem readFaces_ok {ids : List Int} (fs : List (List Nat)) (h : ∀ f ∈ fs, ∀ k ∈ f, 1 ≤ k ∧ k ≤ ids.length) :
    readFaces ids fs = .ok (fs.map fun f => f.map (idOf ids)) := by
  induction fs with
  | nil => rfl
  | cons f fs ih =>
    simp only [readFaces, readNodes_ok f (h f (by simp)), ih (fun f hf => h f (by simp [hf]))]
    rfl

theorem findPos_ok {ids : List Int} (hn : ids.Nodup) {k : Nat} (hk : 1 ≤ k ∧ k ≤ ids.length) :
    findPos ids (idOf ids k) = .ok (k - 1) := by
  have h1 := idOf_get hk
  have : ids.findIdx? (· = idOf ids k) = some (k - 1) := by
    rw [List.findIdx?_eq_some_iff_getElem]
    have hlt : k - 1 < ids.length := by omega
    rw [List.getElem?_eq_getElem hlt] at h1
    have h2 : ids[k - 1] = idOf ids k := Option.some.inj h1
    refine ⟨hlt, by simpa using h2, ?_⟩
    intro j hj
    simp only [decide_eq_true_eq]
    intro h3
    rw [← h2] at h3
    have := (List.Nodup.getElem_inj_iff hn).1 h3
    omega
  unfold findPos
  rw [this]

/-- Node numbers of a type. -/
def numbers (t : CellType) : List Nat := (List.range t.numNodes).map (· + 1)

theorem mem_numbers {t : CellType} {k : Nat} : k ∈ numbers t ↔ 1 ≤ k ∧ k ≤ t.numNodes := by
  simp only [numbers, List.mem_map, List.mem_range]
  constructor
  · rintro ⟨a, h, rfl⟩; omega
  · rintro ⟨h1, h2⟩; exact ⟨k - 1, by omega, by omega⟩

theorem ids_eq_map {t : CellType} {ids : List Int} (hp : ids.length = t.numNodes) :
    ids = (numbers t).map (idOf ids) := by
  apply List.ext_getElem?
  intro i
  by_cases h : i < ids.length
  · have := idOf_get (ids := ids) (k := i + 1) (by omega)
    rw [show i + 1 - 1 = i from rfl] at this
    rw [this]
    simp [numbers, ← hp, h]
  · rw [List.getElem?_eq_none (by omega), List.getElem?_eq_none (by simp [numbers]; omega)]

theorem edges_map (f : α → β) (l : List α) : edges (l.map f) = (edges l).map (Prod.map f f) := by
  unfold edges
  rw [← List.map_tail, ← List.map_take, ← List.map_append, List.zip_map]

theorem corners_map (t : CellType) (f : α → β) (l : List α) : cornersOf t (l.map f) = (cornersOf t l).map f := by
  unfold cornersOf
  split <;> simp [List.map_take]

theorem mids_map (t : CellType) (f : α → β) (l : List α) : midsOf t (l.map f) = (midsOf t l).map f := by
  unfold midsOf
  split <;> simp [List.map_drop]

theorem allEdges_map (t : CellType) (f : α → β) (fs : List (List α)) :
    allEdges t (fs.map fun x => x.map f) = (allEdges t fs).map (Prod.map f f) := by
  simp only [allEdges, List.flatMap_map, List.map_flatMap, corners_map, edges_map]

theorem allMids_map (t : CellType) (f : α → β) (fs : List (List α)) :
    allMids t (fs.map fun x => x.map f) = (allMids t fs).map (Prod.map (Prod.map f f) f) := by
  simp only [allMids, List.flatMap_map, List.map_flatMap, corners_map, mids_map, edges_map, List.zip_map]

theorem mem_edges {a b : α} {l : List α} (h : (a, b) ∈ edges l) : a ∈ l ∧ b ∈ l := by
  unfold edges at h
  have := List.of_mem_zip h
  refine ⟨this.1, ?_⟩
  rcases List.mem_append.1 this.2 with h | h
  · exact List.mem_of_mem_tail h
  · exact List.mem_of_mem_take h

theorem mem_corners {t : CellType} {a : α} {l : List α} (h : a ∈ cornersOf t l) : a ∈ l := by
  unfold cornersOf at h
  split at h
  · exact List.mem_of_mem_take h
  · exact h

theorem mem_mids {t : CellType} {a : α} {l : List α} (h : a ∈ midsOf t l) : a ∈ l := by
  unfold midsOf at h
  split at h
  · exact List.mem_of_mem_drop h
  · cases h

/-- An injective renaming of the nodes keeps surfaces closed. -/
theorem closed_map {t : CellType} {ids : List α} {fs : List (List α)} (f : α → β)
    (hf : ∀ a ∈ ids, ∀ b ∈ ids, f a = f b → a = b) (h : ClosedSurface t ids fs) :
    ClosedSurface t (ids.map f) (fs.map fun x => x.map f) := by
  have hE : ∀ a b, (a, b) ∈ allEdges t fs → a ∈ ids ∧ b ∈ ids := by
    intro a b hab
    obtain ⟨x, hx, hab⟩ := List.mem_flatMap.1 hab
    have := mem_edges hab
    exact ⟨h.nodes x hx _ (mem_corners this.1), h.nodes x hx _ (mem_corners this.2)⟩
  have hM : ∀ a b m, ((a, b), m) ∈ allMids t fs → (a ∈ ids ∧ b ∈ ids) ∧ m ∈ ids := by
    intro a b m hab
    obtain ⟨x, hx, hab⟩ := List.mem_flatMap.1 hab
    have h1 := List.of_mem_zip hab
    have := mem_edges h1.1
    exact ⟨⟨h.nodes x hx _ (mem_corners this.1), h.nodes x hx _ (mem_corners this.2)⟩,
      h.nodes x hx _ (mem_mids h1.2)⟩
  refine ⟨?_, ?_, ?_, ?_, ?_, ?_⟩
  · intro g hg
    obtain ⟨x, hx, rfl⟩ := List.mem_map.1 hg
    exact List.Nodup.map_on (fun a ha b hb => hf a (h.nodes x hx a ha) b (h.nodes x hx b hb)) (h.distinct x hx)
  · intro g hg i hi
    obtain ⟨x, hx, rfl⟩ := List.mem_map.1 hg
    obtain ⟨a, ha, rfl⟩ := List.mem_map.1 hi
    exact List.mem_map_of_mem (h.nodes x hx a ha)
  · intro i hi
    obtain ⟨a, ha, rfl⟩ := List.mem_map.1 hi
    obtain ⟨x, hx, hax⟩ := h.covers a ha
    exact ⟨x.map f, List.mem_map.2 ⟨x, hx, rfl⟩, List.mem_map_of_mem hax⟩
  · rw [allEdges_map]
    refine List.Nodup.map_on ?_ h.once
    rintro ⟨a, b⟩ hab ⟨c, d⟩ hcd e
    simp only [Prod.map_apply, Prod.mk.injEq] at e
    have h1 := hE _ _ hab
    have h2 := hE _ _ hcd
    rw [hf _ h1.1 _ h2.1 e.1, hf _ h1.2 _ h2.2 e.2]
  · intro a b hab
    rw [allEdges_map] at hab ⊢
    obtain ⟨⟨c, d⟩, hcd, e⟩ := List.mem_map.1 hab
    simp only [Prod.map_apply, Prod.mk.injEq] at e
    obtain ⟨rfl, rfl⟩ := e
    have h1 := h.twice c d hcd
    have h2 := hE _ _ hcd
    exact ⟨fun e => h1.1 (hf _ h2.1 _ h2.2 e), List.mem_map.2 ⟨(d, c), h1.2, rfl⟩⟩
  · intro q
    obtain ⟨h1, h2⟩ := h.mids q
    constructor
    · intro g hg
      obtain ⟨x, hx, rfl⟩ := List.mem_map.1 hg
      simpa [corners_map, mids_map] using h1 x hx
    · intro a b m m' h3 h4
      rw [allMids_map] at h3 h4
      obtain ⟨⟨⟨c, d⟩, n⟩, h5, e⟩ := List.mem_map.1 h3
      obtain ⟨⟨⟨c', d'⟩, n'⟩, h6, e'⟩ := List.mem_map.1 h4
      simp only [Prod.map_apply, Prod.mk.injEq] at e e'
      obtain ⟨⟨rfl, rfl⟩, rfl⟩ := e
      obtain ⟨⟨e1, e2⟩, rfl⟩ := e'
      have h7 := hM _ _ _ h5
      have h8 := hM _ _ _ h6
      have e3 := hf _ h8.1.1 _ h7.1.2 e1
      have e4 := hf _ h8.1.2 _ h7.1.1 e2
      subst e3; subst e4
      rw [h2 _ _ _ _ h5 h6]

/-! ## C18 -/

/-- **C18** for all solid types but HEXA20: for every cell the faces computed make a closed,
consistently oriented surface of the nodes of the cell, midside nodes included. -/
theorem C18_closed_partial (t : CellType) (ht : Solid t) (h20 : t ≠ .hexa20) (ids : List Int) (hp : Proper t ids) :
    ∃ fs, nodeIdsByFaceNum t ids = .ok fs ∧ ClosedSurface t ids fs := by
  have key : ∃ tab, table t = some tab ∧ ClosedSurface t (numbers t) tab := by
    rcases ht with rfl | rfl | rfl | rfl | rfl | rfl | rfl | rfl
    · exact ⟨_, rfl, by decide +kernel⟩
    · exact ⟨_, rfl, by decide +kernel⟩
    · exact ⟨_, rfl, by decide +kernel⟩
    · exact ⟨_, rfl, by decide +kernel⟩
    · exact ⟨_, rfl, by decide +kernel⟩
    · exact ⟨_, rfl, by decide +kernel⟩
    · exact ⟨_, rfl, by decide +kernel⟩
    · exact absurd rfl h20
  obtain ⟨tab, h1, h2⟩ := key
  have hb : ∀ f ∈ tab, ∀ k ∈ f, 1 ≤ k ∧ k ≤ ids.length := by
    intro f hf k hk
    rw [hp.1]
    exact mem_numbers.1 (h2.nodes f hf k hk)
  refine ⟨_, by unfold nodeIdsByFaceNum; rw [h1]; exact readFaces_ok tab hb, ?_⟩
  have h3 := closed_map (idOf ids) (ids := numbers t) (fs := tab) (t := t) (by
    intro a ha b hb' e
    have ha' := mem_numbers.1 ha
    have hb'' := mem_numbers.1 hb'
    rw [← hp.1] at ha' hb''
    exact idOf_inj hp.2 ha' hb'' e) h2
  rwa [← ids_eq_map hp.1] at h3

/-- HEXA20: on every cell the second face lists one node twice and the third face is turned inside
out: the edge from node 1 to node 2 is described twice in the same direction. -/
theorem C18_hexa20_false (ids : List Int) (hp : Proper .hexa20 ids) :
    ∃ fs f2, nodeIdsByFaceNum .hexa20 ids = .ok fs ∧ fs[1]? = some f2 ∧ ¬ f2.Nodup ∧
      ¬ (allEdges .hexa20 fs).Nodup := by
  have hb : ∀ f ∈ (table .hexa20).getD [], ∀ k ∈ f, 1 ≤ k ∧ k ≤ ids.length := by
    rw [hp.1]; decide
  refine ⟨_, _, by unfold nodeIdsByFaceNum; exact readFaces_ok _ hb, rfl, ?_, ?_⟩
  · simp
  · rw [allEdges_map]
    intro hn
    have := List.Nodup.of_map _ hn
    revert this
    decide

/-- What remains true of HEXA20: the faces only have nodes of the cell and every node is on one. -/
theorem C18_hexa20_partial (ids : List Int) (hp : Proper .hexa20 ids) :
    ∃ fs, nodeIdsByFaceNum .hexa20 ids = .ok fs ∧ fs.length = 6 ∧ (∀ f ∈ fs, ∀ i ∈ f, i ∈ ids) ∧
      ∀ i ∈ ids, ∃ f ∈ fs, i ∈ f := by
  have hb : ∀ f ∈ (table .hexa20).getD [], ∀ k ∈ f, 1 ≤ k ∧ k ≤ ids.length := by
    rw [hp.1]; decide
  refine ⟨_, by unfold nodeIdsByFaceNum; exact readFaces_ok _ hb, rfl, ?_, ?_⟩
  · intro f hf i hi
    obtain ⟨x, hx, rfl⟩ := List.mem_map.1 hf
    obtain ⟨k, hk, rfl⟩ := List.mem_map.1 hi
    have hk' := hb x hx k hk
    exact List.mem_of_getElem? (idOf_get hk')
  · intro i hi
    rw [ids_eq_map hp.1] at hi
    obtain ⟨k, hk, rfl⟩ := List.mem_map.1 hi
    have h1 : ∀ k ∈ numbers .hexa20, ∃ f ∈ (table .hexa20).getD [], k ∈ f := by decide
    obtain ⟨f, hf, hkf⟩ := h1 k hk
    exact ⟨_, List.mem_map.2 ⟨f, hf, rfl⟩, List.mem_map_of_mem hkf⟩

/-- A cell in the hypotheses: any order of ids will do. -/
example : Proper .penta6 [31, 12, 7, 4, 100, 5] ∧
    nodeIdsByFaceNum .penta6 [31, 12, 7, 4, 100, 5] =
      .ok [[31, 12, 7], [4, 5, 100], [31, 4, 100, 12], [31, 7, 5, 4], [12, 100, 5, 7]] := by
  exact ⟨⟨rfl, by decide⟩, rfl⟩

/-! ## C19 -/

theorem face_from_numbers {t : CellType} {ids : List Int} (hp : Proper t ids) (hd : t.dim = 3)
    {tab : List (List Nat)} (ht : table t = some tab) {a : Nat} {b : Option Nat} {f : List Nat}
    (ha : a ∈ numbers t) (hb : ∀ k, b = some k → k ∈ numbers t) (hpick : pick t tab a b = .ok f)
    (hf : ∀ k ∈ f, k ∈ numbers t) :
    faceIdsFromTwoNodes t ids (idOf ids a) (b.map (idOf ids)) = .ok (f.map (idOf ids)) := by
  have hn : ∀ k ∈ numbers t, 1 ≤ k ∧ k ≤ ids.length := by
    intro k hk
    rw [hp.1]; exact mem_numbers.1 hk
  have ha' := hn a ha
  have h2 : findPos2 ids (b.map (idOf ids)) = .ok b := by
    cases b with
    | none => rfl
    | some k =>
      have hk := hn k (hb k rfl)
      simp only [Option.map_some, findPos2, findPos_ok hp.2 hk, Outcome.bind_ok]
      rw [Nat.sub_add_cancel hk.1]
  unfold faceIdsFromTwoNodes
  rw [findPos_ok hp.2 ha', Outcome.bind_ok, h2, Outcome.bind_ok, if_neg (by omega), ht,
    Nat.sub_add_cancel ha'.1]
  simp only [hpick, Outcome.bind_ok]
  exact readNodes_ok f (fun k hk => hn k (hf k hk))

/-- A pair of nodes that identifies the face `f` (node numbers) in Nastran's convention for pressure
loads: two opposite corners of a quadrangle; one corner of a triangle of a pentahedron; for a
tetrahedron a corner of the face and the corner off it. -/
def Identifies (t : CellType) (f : List Nat) (a : Nat) (b : Option Nat) : Prop :=
  match t with
  | .tetra4 | .tetra10 => a ∈ cornersOf t f ∧ ∃ k, b = some k ∧ k ∉ f ∧ k ∈ [1, 2, 3, 4]
  | _ => match cornersOf t f with
    | [w, x, y, z] => (a, b) ∈ [(w, some y), (y, some w), (x, some z), (z, some x)]
    | [x, y, z] => (t = .penta6 ∨ t = .penta15) ∧ a ∈ [x, y, z] ∧ b = none
    | _ => False

theorem identifies_pick (t : CellType) (ht : Solid t) (f : List Nat) (a : Nat) (b : Option Nat)
    (tab : List (List Nat)) (htab : table t = some tab) (hf : f ∈ tab) (h : Identifies t f a b) :
    a ∈ numbers t ∧ (∀ k, b = some k → k ∈ numbers t) ∧ pick t tab a b = .ok f ∧ ∀ k ∈ f, k ∈ numbers t := by
  rcases ht with rfl | rfl | rfl | rfl | rfl | rfl | rfl | rfl <;>
    (simp only [table, Option.some.injEq] at htab
     subst htab
     fin_cases hf <;> simp [Identifies, cornersOf, Quadratic, CellType.numNodes] at h)
  all_goals first
    | (rcases h with ⟨rfl, rfl⟩ | ⟨rfl, rfl⟩ | ⟨rfl, rfl⟩ | ⟨rfl, rfl⟩ <;>
        exact ⟨by decide, by rintro k ⟨⟩; decide, rfl, by decide⟩)
    | (obtain ⟨rfl | rfl | rfl, rfl⟩ := h <;>
        exact ⟨by decide, by rintro k ⟨⟩, rfl, by decide⟩)
    | (obtain ⟨h1, k, rfl, h2, h3⟩ := h
       have ha : k = 1 ∨ k = 2 ∨ k = 3 ∨ k = 4 := by omega
       rcases ha with rfl | rfl | rfl | rfl <;>
        first
        | omega
        | (rcases h1 with rfl | rfl | rfl <;>
            exact ⟨by decide, by rintro k ⟨⟩; decide, rfl, by decide⟩))

/-- **C19**, naming: for every solid cell, every face and every pair of nodes that names this face in
the input format, `faceids_from_two_nodes` returns the nodes of that face. -/
theorem C19_named_face (t : CellType) (ht : Solid t) (ids : List Int) (hp : Proper t ids) (tab : List (List Nat))
    (htab : table t = some tab) (f : List Nat) (hf : f ∈ tab) (a : Nat) (b : Option Nat) (h : Identifies t f a b) :
    faceIdsFromTwoNodes t ids (idOf ids a) (b.map (idOf ids)) = .ok (f.map (idOf ids)) := by
  obtain ⟨h1, h2, h3, h4⟩ := identifies_pick t ht f a b tab htab hf h
  exact face_from_numbers hp (by rcases ht with rfl | rfl | rfl | rfl | rfl | rfl | rfl | rfl <;> rfl) htab h1 h2 h3 h4

/-- The round trip: the nodes reported for face number `n` give back the nodes of face number `n`. -/
def RoundTrip (t : CellType) (ids : List Int) (n : Nat) : Prop :=
  ∃ fs f i j, nodeIdsByFaceNum t ids = .ok fs ∧ 1 ≤ n ∧ fs[n - 1]? = some f ∧ twoNodeIds t ids n = .ok (i, j) ∧
    faceIdsFromTwoNodes t ids i j = .ok f

theorem numbers_bound {t : CellType} {ids : List Int} (hp : Proper t ids) {tab : List (List Nat)}
    (h : ∀ f ∈ tab, ∀ k ∈ f, k ∈ numbers t) : ∀ f ∈ tab, ∀ k ∈ f, 1 ≤ k ∧ k ≤ ids.length := by
  intro f hf k hk
  rw [hp.1]
  exact mem_numbers.1 (h f hf k hk)

/-- Round trip from the table, for the types that report two nodes of the face itself. -/
theorem roundTrip_of_pick {t : CellType} {ids : List Int} (hp : Proper t ids) (hd : t.dim = 3) {tab : List (List Nat)}
    (htab : table t = some tab) (hnum : ∀ f ∈ tab, ∀ k ∈ f, k ∈ numbers t) {n : Nat} (h1 : 1 ≤ n) {f : List Nat}
    (hf : tab[n - 1]? = some f) {a : Nat} {b : Option Nat}
    (hab : twoNodeIds t ids n = .ok (idOf ids a, b.map (idOf ids)))
    (ha : a ∈ numbers t) (hb : ∀ k, b = some k → k ∈ numbers t) (hpick : pick t tab a b = .ok f) :
    RoundTrip t ids n := by
  have hB := numbers_bound hp hnum
  refine ⟨_, f.map (idOf ids), _, _, by unfold nodeIdsByFaceNum; rw [htab]; exact readFaces_ok tab hB, h1, ?_, hab, ?_⟩
  · rw [List.getElem?_map, hf]; rfl
  · exact face_from_numbers hp hd htab ha hb hpick (hnum f (List.mem_of_getElem? hf))

theorem twoNodeIds_unfold {t : CellType} {ids : List Int} (hp : Proper t ids) {tab : List (List Nat)}
    (htab : table t = some tab) (hnum : ∀ f ∈ tab, ∀ k ∈ f, k ∈ numbers t) :
    nodeIdsByFaceNum t ids = .ok (tab.map fun f => f.map (idOf ids)) := by
  unfold nodeIdsByFaceNum
  rw [htab]
  exact readFaces_ok tab (numbers_bound hp hnum)

/-- **C19**, round trip on hexahedra: every face of every HEXA8 and HEXA20. -/
theorem C19_hexa (t : CellType) (ht : t = .hexa8 ∨ t = .hexa20) (ids : List Int) (hp : Proper t ids) (n : Nat)
    (hn : 1 ≤ n ∧ n ≤ 6) : RoundTrip t ids n := by
  have hc : n = 1 ∨ n = 2 ∨ n = 3 ∨ n = 4 ∨ n = 5 ∨ n = 6 := by omega
  rcases ht with rfl | rfl <;> rcases hc with rfl | rfl | rfl | rfl | rfl | rfl <;>
    exact roundTrip_of_pick hp rfl rfl (by decide) (by decide) rfl
      (by
        unfold twoNodeIds
        rw [twoNodeIds_unfold hp rfl (by decide)]
        exact rfl) (b := some _) (by decide) (by rintro k ⟨⟩; decide) rfl

/-- Round trip on pentahedra: both triangles and the first quadrangle. -/
theorem C19_penta_partial (t : CellType) (ht : t = .penta6 ∨ t = .penta15) (ids : List Int) (hp : Proper t ids) (n : Nat)
    (hn : 1 ≤ n ∧ n ≤ 3) : RoundTrip t ids n := by
  have hc : n = 1 ∨ n = 2 ∨ n = 3 := by omega
  rcases ht with rfl | rfl <;> rcases hc with rfl | rfl | rfl <;>
    first
    | exact roundTrip_of_pick hp rfl rfl (by decide) (by decide) rfl
        (by
          unfold twoNodeIds
          rw [twoNodeIds_unfold hp rfl (by decide)]
          exact rfl) (b := some _) (by decide) (by rintro k ⟨⟩; decide) rfl
    | exact roundTrip_of_pick hp rfl rfl (by decide) (by decide) rfl
        (by
          unfold twoNodeIds
          rw [twoNodeIds_unfold hp rfl (by decide)]
          exact rfl) (b := none) (by decide) (by rintro k ⟨⟩) rfl

/-- Round trip on pyramids: the base and the first triangle. -/
theorem C19_pyra_partial (t : CellType) (ht : t = .pyra5 ∨ t = .pyra13) (ids : List Int) (hp : Proper t ids) (n : Nat)
    (hn : 1 ≤ n ∧ n ≤ 2) : RoundTrip t ids n := by
  have hc : n = 1 ∨ n = 2 := by omega
  rcases ht with rfl | rfl <;> rcases hc with rfl | rfl <;>
    first
    | exact roundTrip_of_pick hp rfl rfl (by decide) (by decide) rfl
        (by
          unfold twoNodeIds
          rw [twoNodeIds_unfold hp rfl (by decide)]
          exact rfl) (b := some _) (by decide) (by rintro k ⟨⟩; decide) rfl
    | exact roundTrip_of_pick hp rfl rfl (by decide) (by decide) rfl
        (by
          unfold twoNodeIds
          rw [twoNodeIds_unfold hp rfl (by decide)]
          exact rfl) (b := none) (by decide) (by rintro k ⟨⟩) rfl

theorem smallestOutside_spec {t : CellType} {ids : List Int} (hp : Proper t ids) (f : List Nat)
    (hf : ∀ k ∈ f, k ∈ numbers t) (hex : ∃ k ∈ numbers t, k ∉ f) :
    ∃ k ∈ numbers t, k ∉ f ∧ smallestOutside ids (f.map (idOf ids)) = .ok (idOf ids k) ∧
      ∀ j ∈ numbers t, j ∉ f → idOf ids k ≤ idOf ids j := by
  have hb : ∀ k ∈ numbers t, 1 ≤ k ∧ k ≤ ids.length := by
    intro k hk
    rw [hp.1]; exact mem_numbers.1 hk
  have hout : ∀ k ∈ numbers t, (idOf ids k ∈ f.map (idOf ids) ↔ k ∈ f) := by
    intro k hk
    constructor
    · intro h
      obtain ⟨j, hj, e⟩ := List.mem_map.1 h
      rwa [← idOf_inj hp.2 (hb j (hf j hj)) (hb k hk) e]
    · exact fun h => List.mem_map_of_mem h
  have hmem : ∀ i, i ∈ ids.filter (fun i => !(f.map (idOf ids)).contains i) ↔
      ∃ k ∈ numbers t, k ∉ f ∧ idOf ids k = i := by
    intro i
    rw [List.mem_filter]
    constructor
    · rintro ⟨h1, h2⟩
      rw [ids_eq_map hp.1] at h1
      obtain ⟨k, hk, rfl⟩ := List.mem_map.1 h1
      refine ⟨k, hk, ?_, rfl⟩
      rw [← hout k hk]
      simpa using h2
    · rintro ⟨k, hk, h2, rfl⟩
      refine ⟨List.mem_of_getElem? (idOf_get (hb k hk)), ?_⟩
      rw [← hout k hk] at h2
      simpa using h2
  unfold smallestOutside
  cases hm : (ids.filter fun i => !(f.map (idOf ids)).contains i).min? with
  | none =>
    rw [List.min?_eq_none_iff] at hm
    obtain ⟨k, hk, hkf⟩ := hex
    have := (hmem (idOf ids k)).2 ⟨k, hk, hkf, rfl⟩
    rw [hm] at this
    cases this
  | some m =>
    rw [List.min?_eq_some_iff] at hm
    obtain ⟨k, hk, hkf, rfl⟩ := (hmem m).1 hm.1
    exact ⟨k, hk, hkf, rfl, fun j hj hjf => hm.2 _ ((hmem _).2 ⟨j, hj, hjf, rfl⟩)⟩

/-- Round trip on a tetrahedron whose smallest node off the face is the opposite corner. -/
theorem roundTrip_tetra {t : CellType} (ht : t = .tetra4 ∨ t = .tetra10) {ids : List Int} (hp : Proper t ids) {n : Nat}
    (hn : 1 ≤ n ∧ n ≤ 4)
    (hmid : ∀ c ∈ [1, 2, 3, 4], ∀ m ∈ numbers t, 4 < m → idOf ids c < idOf ids m) : RoundTrip t ids n := by
  have hd : t.dim = 3 := by rcases ht with rfl | rfl <;> rfl
  have key : ∃ tab f a c, table t = some tab ∧ (∀ f ∈ tab, ∀ k ∈ f, k ∈ numbers t) ∧ tab[n - 1]? = some f ∧
      f[0]? = some a ∧ (c ∈ [1, 2, 3, 4] ∧ c ∈ numbers t ∧ c ∉ f) ∧
      ∀ k ∈ numbers t, k ≤ 4 → k ∉ f → pick t tab a (some k) = .ok f := by
    have hc : n = 1 ∨ n = 2 ∨ n = 3 ∨ n = 4 := by omega
    rcases ht with rfl | rfl <;> rcases hc with rfl | rfl | rfl | rfl
    · exact ⟨_, _, _, 4, rfl, by decide, rfl, rfl, by decide, by decide⟩
    · exact ⟨_, _, _, 3, rfl, by decide, rfl, rfl, by decide, by decide⟩
    · exact ⟨_, _, _, 2, rfl, by decide, rfl, rfl, by decide, by decide⟩
    · exact ⟨_, _, _, 1, rfl, by decide, rfl, rfl, by decide, by decide⟩
    · exact ⟨_, _, _, 4, rfl, by decide, rfl, rfl, by decide, by decide⟩
    · exact ⟨_, _, _, 3, rfl, by decide, rfl, rfl, by decide, by decide⟩
    · exact ⟨_, _, _, 2, rfl, by decide, rfl, rfl, by decide, by decide⟩
    · exact ⟨_, _, _, 1, rfl, by decide, rfl, rfl, by decide, by decide⟩
  obtain ⟨tab, f, a, c, h1, h2, h3, h4, ⟨h5, h6, h7⟩, h8⟩ := key
  have hfn := h2 f (List.mem_of_getElem? h3)
  obtain ⟨k, k1, k2, k3, k4⟩ := smallestOutside_spec hp f hfn ⟨c, h6, h7⟩
  have k5 : k ≤ 4 := by
    by_contra hk
    have := hmid c h5 k k1 (by omega)
    have := k4 c h6 h7
    omega
  refine roundTrip_of_pick hp hd h1 h2 hn.1 h3 (a := a) (b := some k) ?_
    (hfn a (List.mem_of_getElem? h4)) (by rintro j ⟨⟩; exact k1) (h8 k k1 k5 k2)
  unfold twoNodeIds
  rw [twoNodeIds_unfold hp h1 h2, Outcome.bind_ok]
  have hface : (if n = 0 then [] else ((tab.map fun f => f.map (idOf ids))[n - 1]?).getD []) = f.map (idOf ids) := by
    rw [if_neg (by omega), List.getElem?_map, h3]; rfl
  have hat : at_ (f.map (idOf ids)) 0 = .ok (idOf ids a) := by
    unfold at_
    rw [List.getElem?_map, h4]; rfl
  rw [hface]
  rcases ht with rfl | rfl <;> simp only [hat, k3, Outcome.bind_ok, Option.map_some]

/-- **C19**, round trip on TETRA4: every face, every numbering. -/
theorem C19_tetra4 (ids : List Int) (hp : Proper .tetra4 ids) (n : Nat) (hn : 1 ≤ n ∧ n ≤ 4) :
    RoundTrip .tetra4 ids n := by
  refine roundTrip_tetra (Or.inl rfl) hp hn ?_
  intro c _ m hm h4
  have := (mem_numbers.1 hm).2
  simp only [CellType.numNodes] at this
  omega

/-- Round trip on TETRA10 where the corners are numbered before the midside nodes. -/
theorem C19_tetra10_partial (ids : List Int) (hp : Proper .tetra10 ids) (n : Nat) (hn : 1 ≤ n ∧ n ≤ 4)
    (hmid : ∀ c ∈ [1, 2, 3, 4], ∀ m ∈ numbers .tetra10, 4 < m → idOf ids c < idOf ids m) :
    RoundTrip .tetra10 ids n := roundTrip_tetra (Or.inr rfl) hp hn hmid

/-- On a TETRA10 with other numberings another face is found: here for face 1 the face 4. -/
theorem C19_tetra10_false :
    ∃ ids, Proper .tetra10 ids ∧ ¬ RoundTrip .tetra10 ids 1 := by
  refine ⟨[11, 12, 13, 14, 15, 16, 17, 1, 18, 19], ⟨rfl, by decide⟩, ?_⟩
  rintro ⟨fs, f, i, j, h1, _, h2, h3, h4⟩
  cases h1
  cases h2
  cases h3
  revert h4
  decide

/-- On every pentahedron the quadrangles 4 and 5 do not round-trip: another face is found. -/
theorem C19_penta_false :
    ∃ ids, Proper .penta6 ids ∧ ¬ RoundTrip .penta6 ids 4 ∧ ¬ RoundTrip .penta6 ids 5 := by
  refine ⟨[1, 2, 3, 4, 5, 6], ⟨rfl, by decide⟩, ?_, ?_⟩ <;>
  · rintro ⟨fs, f, i, j, h1, _, h2, h3, h4⟩
    cases h1
    cases h2
    cases h3
    revert h4
    decide

/-- On pyramids the last three triangles do not round-trip. -/
theorem C19_pyra_false :
    ∃ ids, Proper .pyra5 ids ∧ ¬ RoundTrip .pyra5 ids 3 ∧ ¬ RoundTrip .pyra5 ids 4 ∧ ¬ RoundTrip .pyra5 ids 5 := by
  refine ⟨[1, 2, 3, 4, 5], ⟨rfl, by decide⟩, ?_, ?_, ?_⟩ <;>
  · rintro ⟨fs, f, i, j, h1, _, h2, h3, h4⟩
    cases h1
    cases h2
    cases h3
    revert h4
    decide

/-- Hypotheses are satisfiable. -/
example : Proper .hexa8 [8, 7, 6, 5, 4, 3, 2, 1] ∧ Identifies .hexa8 [5, 8, 7, 6] 8 (some 6) ∧
    faceIdsFromTwoNodes .hexa8 [8, 7, 6, 5, 4, 3, 2, 1] 1 (some 3) = .ok [4, 1, 2, 3] :=
  ⟨⟨rfl, by decide⟩, by simp [Identifies, cornersOf, Quadratic, CellType.numNodes], rfl⟩

example : Proper .tetra10 [1, 2, 3, 4, 5, 6, 7, 8, 9, 10] ∧
    ∀ c ∈ [1, 2, 3, 4], ∀ m ∈ numbers .tetra10, 4 < m →
      idOf [1, 2, 3, 4, 5, 6, 7, 8, 9, 10] c < idOf [1, 2, 3, 4, 5, 6, 7, 8, 9, 10] m :=
  ⟨⟨rfl, by decide⟩, by decide⟩

/-- Corner nodes: the corners of the faces are exactly the corner nodes of the cell. -/
theorem C18_corners (t : CellType) (ht : Solid t) (ids : List Int) (hp : Proper t ids) :
    ∃ cs fs, cornerNodeIds t ids = .ok cs ∧ nodeIdsByFaceNum t ids = .ok fs ∧
      ∀ i, i ∈ cs ↔ ∃ f ∈ fs, i ∈ cornersOf t f := by
  have key : ∃ tab ps, table t = some tab ∧ corners t = some ps ∧ (∀ f ∈ tab, ∀ k ∈ f, k ∈ numbers t) ∧
      (∀ p ∈ ps, p + 1 ∈ numbers t) ∧ (∀ p ∈ ps, ∃ f ∈ tab, p + 1 ∈ cornersOf t f) ∧
      (∀ f ∈ tab, ∀ k ∈ cornersOf t f, k - 1 ∈ ps ∧ 1 ≤ k) := by
    rcases ht with rfl | rfl | rfl | rfl | rfl | rfl | rfl | rfl <;>
      exact ⟨_, _, rfl, rfl, by decide, by decide, by decide, by decide⟩
  obtain ⟨tab, ps, h1, h2, h3, h4, h5, h6⟩ := key
  have hb : ∀ k ∈ numbers t, 1 ≤ k ∧ k ≤ ids.length := by
    intro k hk
    rw [hp.1]; exact mem_numbers.1 hk
  refine ⟨(ps.map (· + 1)).map (idOf ids), _, ?_, twoNodeIds_unfold hp h1 h3, ?_⟩
  · unfold cornerNodeIds
    rw [h2]
    exact readNodes_ok _ (fun k hk => by
      obtain ⟨p, hp', rfl⟩ := List.mem_map.1 hk
      exact hb _ (h4 p hp'))
  · intro i
    constructor
    · intro hi
      obtain ⟨k, hk, rfl⟩ := List.mem_map.1 hi
      obtain ⟨p, hp', rfl⟩ := List.mem_map.1 hk
      obtain ⟨f, hf, hpf⟩ := h5 p hp'
      exact ⟨_, List.mem_map.2 ⟨f, hf, rfl⟩, by rw [corners_map]; exact List.mem_map_of_mem hpf⟩
    · rintro ⟨g, hg, hi⟩
      obtain ⟨f, hf, rfl⟩ := List.mem_map.1 hg
      rw [corners_map] at hi
      obtain ⟨k, hk, rfl⟩ := List.mem_map.1 hi
      obtain ⟨h7, h8⟩ := h6 f hf k hk
      exact List.mem_map.2 ⟨k, List.mem_map.2 ⟨k - 1, h7, Nat.sub_add_cancel h8⟩, rfl⟩

end Vega.FaceSpec
