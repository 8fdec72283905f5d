import Verif.Mesh.Under
import Verif.Mesh.FaceProps

/-! # C165 -/
namespace Vega.UnderSpec
open Under FaceSpec Faces

/-! ## Specification -/

/-- The face number `k` of the cell has the nodes of the skin. -/
def Under (skin : List Int) (c : Cell) (k : Nat) : Prop :=
  ∃ fs f, nodeIdsByFaceNum c.type c.nodes = .ok fs ∧ 1 ≤ k ∧ fs[k - 1]? = some f ∧ f.length = skin.length ∧ ∀ i, i ∈ f ↔ i ∈ skin

/-- The solids of the mesh have faces. -/
def Known (cells : List Cell) : Prop := ∀ c ∈ cells, c.type.dim = 3 → Solid c.type ∧ Proper c.type c.nodes

/-! ## Lemmas -/

theorem same_iff {skin f : List Int} (hn : skin.Nodup) : same skin f = true ↔ f.length = skin.length ∧ ∀ i, i ∈ f ↔ i ∈ skin := by
  simp only [same, Bool.and_eq_true, decide_eq_true_eq, List.toFinset_card_of_nodup hn, Finset.ext_iff, List.mem_toFinset]

theorem searchFaces_some {skin : List Int} : ∀ (fs : List (List Int)) (k n : Nat), searchFaces skin fs k = some n →
    k ≤ n ∧ ∃ f, fs[n - k]? = some f ∧ same skin f = true
  | [], _, _, h => by cases h
  | f :: fs, k, n, h => by
    unfold searchFaces at h
    split at h
    · rename_i e
      cases h
      exact ⟨Nat.le_refl _, f, by simp, e⟩
    · obtain ⟨h1, g, h2, h3⟩ := searchFaces_some fs (k + 1) n h
      refine ⟨by omega, g, ?_, h3⟩
      rw [show n - k = (n - (k + 1)) + 1 by omega, List.getElem?_cons_succ]
      exact h2

theorem searchFaces_none {skin : List Int} : ∀ (fs : List (List Int)) (k : Nat), searchFaces skin fs k = none →
    ∀ f ∈ fs, same skin f = false
  | [], _, _, _, h => by cases h
  | f :: fs, k, h, g, hg => by
    unfold searchFaces at h
    split at h
    · cases h
    · rename_i e
      rcases List.mem_cons.mp hg with rfl | hg
      · simpa using e
      · exact searchFaces_none fs (k + 1) h g hg

theorem table_bounds (t : CellType) (ht : Solid t) : ∃ tab, table t = some tab ∧ ∀ f ∈ tab, ∀ k ∈ f, 1 ≤ k ∧ k ≤ t.numNodes := by
  rcases ht with rfl | rfl | rfl | rfl | rfl | rfl | rfl | rfl <;> exact ⟨_, rfl, by decide⟩

theorem faces_ok {c : Cell} (ht : Solid c.type) (hp : Proper c.type c.nodes) :
    ∃ fs, nodeIdsByFaceNum c.type c.nodes = .ok fs ∧ ∀ f ∈ fs, ∀ i ∈ f, i ∈ c.nodes := by
  obtain ⟨tab, h1, h2⟩ := table_bounds _ ht
  have hb : ∀ f ∈ tab, ∀ k ∈ f, 1 ≤ k ∧ k ≤ c.nodes.length := by rw [hp.1]; exact h2
  refine ⟨_, by unfold nodeIdsByFaceNum; rw [h1]; exact readFaces_ok tab hb, ?_⟩
  intro f hf i hi
  obtain ⟨x, hx, rfl⟩ := List.mem_map.1 hf
  obtain ⟨k, hk, rfl⟩ := List.mem_map.1 hi
  exact List.mem_of_getElem? (idOf_get (hb x hx k hk))

/-! ## Properties -/

/-- **C165**, what is found: a solid of the mesh, and the number of a face of it that has exactly the nodes of the skin. -/
theorem C165_sound (skin : List Int) (hn : skin.Nodup) : ∀ (cells : List Cell) (c : Cell) (k : Nat), search skin cells = .ok (c, k) →
    c ∈ cells ∧ c.type.dim = 3 ∧ Under skin c k
  | [], _, _, h => by cases h
  | d :: ds, c, k, h => by
    have rest : search skin ds = .ok (c, k) → c ∈ d :: ds ∧ c.type.dim = 3 ∧ Under skin c k := fun h' => by
      obtain ⟨a, b⟩ := C165_sound skin hn ds c k h'
      exact ⟨List.mem_cons_of_mem _ a, b⟩
    unfold search at h
    split at h
    · rename_i h3
      cases e : nodeIdsByFaceNum d.type d.nodes with
      | throw => rw [e] at h; cases h
      | ub => rw [e] at h; cases h
      | diverges => rw [e] at h; cases h
      | ok fs =>
      rw [e, Outcome.bind_ok] at h
      split at h
      · rename_i n e2
        cases h
        obtain ⟨h1, f, h4, h5⟩ := searchFaces_some fs 1 _ e2
        exact ⟨by simp, h3, fs, f, e, h1, h4, (same_iff hn).mp h5⟩
      · exact rest h
    · exact rest h

/-- **C165**, that it is found: in a mesh whose solids have faces, if a face of a solid has the nodes of the skin, one is found; if no
face has, the search fails and nothing else happens. -/
theorem C165_found (skin : List Int) (hn : skin.Nodup) : ∀ cells : List Cell, Known cells →
    ((∃ c ∈ cells, c.type.dim = 3 ∧ ∃ k, Under skin c k) ∧ ∃ r, search skin cells = .ok r) ∨
      ((¬ ∃ c ∈ cells, c.type.dim = 3 ∧ ∃ k, Under skin c k) ∧ search skin cells = .throw)
  | [], _ => .inr ⟨by simp, rfl⟩
  | d :: ds, hk => by
    have ih := C165_found skin hn ds fun c hc => hk c (List.mem_cons_of_mem _ hc)
    have lift : (¬ (d.type.dim = 3 ∧ ∃ k, Under skin d k)) → search skin (d :: ds) = search skin ds →
        ((∃ c ∈ d :: ds, c.type.dim = 3 ∧ ∃ k, Under skin c k) ∧ ∃ r, search skin (d :: ds) = .ok r) ∨
          ((¬ ∃ c ∈ d :: ds, c.type.dim = 3 ∧ ∃ k, Under skin c k) ∧ search skin (d :: ds) = .throw) := by
      intro h1 h2
      rw [h2]
      rcases ih with ⟨⟨c, hc, h⟩, h'⟩ | ⟨h, h'⟩
      · exact .inl ⟨⟨c, List.mem_cons_of_mem _ hc, h⟩, h'⟩
      · refine .inr ⟨?_, h'⟩
        rintro ⟨c, hc, h4⟩
        rcases List.mem_cons.mp hc with rfl | hc
        · exact h1 h4
        · exact h ⟨c, hc, h4⟩
    by_cases h3 : d.type.dim = 3
    · obtain ⟨h4, h5⟩ := hk d (by simp) h3
      obtain ⟨fs, h6, _⟩ := faces_ok h4 h5
      cases e : searchFaces skin fs 1 with
      | some n =>
        refine .inl ⟨?_, (d, n), by rw [search, if_pos h3, h6, Outcome.bind_ok, e]⟩
        obtain ⟨h7, f, h8, h9⟩ := searchFaces_some fs 1 _ e
        exact ⟨d, by simp, h3, n, fs, f, h6, h7, h8, (same_iff hn).mp h9⟩
      | none =>
        refine lift ?_ (by rw [search, if_pos h3, h6, Outcome.bind_ok, e])
        rintro ⟨_, k, fs', f, h7, h8, h9, h10⟩
        rw [h6] at h7
        cases h7
        have := searchFaces_none fs 1 e f (List.mem_of_getElem? h9)
        rw [(same_iff hn).mpr h10] at this
        cases this
    · exact lift (fun h => h3 h.1) (by rw [search, if_neg h3])

/-- **C165**, which one: if all the nodes of the skin are in only one solid, that solid is found. -/
theorem C165_only (skin : List Int) (hn : skin.Nodup) (cells : List Cell) (hk : Known cells) (c d : Cell) (k : Nat)
    (ho : ∀ c' ∈ cells, c'.type.dim = 3 → (∀ i ∈ skin, i ∈ c'.nodes) → c' = c) (h : search skin cells = .ok (d, k)) : d = c := by
  obtain ⟨h1, h2, fs, f, h3, h4, h5, h6, h7⟩ := C165_sound skin hn cells d k h
  obtain ⟨h8, h9⟩ := hk d h1 h2
  obtain ⟨fs', h10, h11⟩ := faces_ok h8 h9
  rw [h3] at h10
  cases h10
  exact ho d h1 h2 fun i hi => h11 f (List.mem_of_getElem? h5) i ((h7 i).mpr hi)

/-- Two tetrahedra, a shell between them and a hexahedron. -/
def block : List Cell :=
  [⟨1, .tri3, [3, 1, 2]⟩, ⟨2, .tetra4, [1, 2, 3, 9]⟩, ⟨3, .tetra4, [1, 3, 2, 10]⟩, ⟨4, .hexa8, [1, 2, 11, 12, 13, 14, 15, 16]⟩]

example : Known block ∧ search [3, 1, 10] block = .ok (⟨3, .tetra4, [1, 3, 2, 10]⟩, 2) ∧
    search [12, 11, 15, 16] block = .ok (⟨4, .hexa8, [1, 2, 11, 12, 13, 14, 15, 16]⟩, 5) ∧ search [9, 10, 1] block = .throw := by
  refine ⟨?_, by decide +kernel, by decide +kernel, by decide +kernel⟩
  intro c hc h3
  unfold Solid Proper
  simp only [block, List.mem_cons, List.not_mem_nil, or_false] at hc
  rcases hc with rfl | rfl | rfl | rfl
  · cases h3
  all_goals exact ⟨by decide, by decide⟩

/-- C165 is false for quadratic hexahedra: nothing is found under the skin of the second face of any of them. -/
theorem C165_hexa20_false (id : Int) (ids : List Int) (hp : Proper .hexa20 ids) :
    search ([5, 8, 7, 6, 16, 15, 14, 13].map (idOf ids)) [⟨id, .hexa20, ids⟩] = .throw := by
  have hb : ∀ f ∈ (table .hexa20).getD [], ∀ k ∈ f, 1 ≤ k ∧ k ≤ ids.length := by
    rw [hp.1]; decide
  have hbs : ∀ k ∈ [5, 8, 7, 6, 16, 15, 14, 13], 1 ≤ k ∧ k ≤ ids.length := by
    rw [hp.1]; decide
  have hf : nodeIdsByFaceNum .hexa20 ids = .ok (((table .hexa20).getD []).map fun f => f.map (idOf ids)) := by
    unfold nodeIdsByFaceNum
    exact readFaces_ok _ hb
  have hinj : ∀ f ∈ (table .hexa20).getD [], 13 ∈ f → ∃ k ∈ f, k ∉ [5, 8, 7, 6, 16, 15, 14, 13] := by decide
  have hs : ∀ f ∈ (table .hexa20).getD [], same ([5, 8, 7, 6, 16, 15, 14, 13].map (idOf ids)) (f.map (idOf ids)) = false := by
    intro f hff
    cases e : same ([5, 8, 7, 6, 16, 15, 14, 13].map (idOf ids)) (f.map (idOf ids)) with
    | false => rfl
    | true =>
    have e2 : ∀ i, i ∈ f.map (idOf ids) ↔ i ∈ [5, 8, 7, 6, 16, 15, 14, 13].map (idOf ids) := by
      simp only [same, Bool.and_eq_true, decide_eq_true_eq, Finset.ext_iff, List.mem_toFinset] at e
      exact e.2
    have h13 : 13 ∈ f := by
      obtain ⟨k, hk, hk'⟩ := List.mem_map.mp ((e2 (idOf ids 13)).mpr (List.mem_map.mpr ⟨13, by decide, rfl⟩))
      rw [idOf_inj hp.2 (hb f hff k hk) (by rw [hp.1]; decide) hk'] at hk
      exact hk
    obtain ⟨k, hk, hk'⟩ := hinj f hff h13
    obtain ⟨j, hj, hj'⟩ := List.mem_map.mp ((e2 (idOf ids k)).mp (List.mem_map.mpr ⟨k, hk, rfl⟩))
    rw [idOf_inj hp.2 (hbs j hj) (hb f hff k hk) hj'] at hj
    exact absurd hj hk'
  have hnone : ∀ (fs : List (List Nat)) (n : Nat), (∀ f ∈ fs, f ∈ (table .hexa20).getD []) →
      searchFaces ([5, 8, 7, 6, 16, 15, 14, 13].map (idOf ids)) (fs.map fun f => f.map (idOf ids)) n = none := by
    intro fs
    induction fs with
    | nil => intro _ _; rfl
    | cons f fs ih =>
      intro n h
      simp only [List.map_cons (l := fs), searchFaces]
      rw [if_neg (by rw [hs f (h f (by simp))]; decide)]
      exact ih (n + 1) fun g hg => h g (by simp [hg])
  have hd : CellType.hexa20.dim = 3 := rfl
  simp only [search, hd, if_true, hf, Outcome.bind_ok, hnone _ 1 (fun _ h => h)]

/-- C165 is false for meshes with solids that have no table of faces, as hexahedra with 27 nodes: when no solid before it has the face, the
search fails, whatever solids come after. -/
theorem C165_types_false (skin : List Int) (hn : skin.Nodup) (c : Cell) (h3 : c.type.dim = 3) (ht : table c.type = none) (after : List Cell) :
    ∀ before : List Cell, Known before → (∀ d ∈ before, ∀ k, ¬ Under skin d k) → search skin (before ++ c :: after) = .throw
  | [], _, _ => by
    rw [List.nil_append, search, if_pos h3, nodeIdsByFaceNum, ht]
    rfl
  | d :: ds, hk, hu => by
    have ih := C165_types_false skin hn c h3 ht after ds (fun e he => hk e (List.mem_cons_of_mem _ he))
      fun e he => hu e (List.mem_cons_of_mem _ he)
    rw [List.cons_append, search]
    split
    · rename_i h4
      obtain ⟨h5, h6⟩ := hk d (by simp) h4
      obtain ⟨fs, h7, _⟩ := faces_ok h5 h6
      rw [h7, Outcome.bind_ok]
      cases e : searchFaces skin fs 1 with
      | some n =>
        obtain ⟨h8, f, h9, h10⟩ := searchFaces_some fs 1 _ e
        exact absurd ⟨fs, f, h7, h8, h9, (same_iff hn).mp h10⟩ (hu d (by simp) n)
      | none => exact ih
    · exact ih

example : Proper .hexa20 ((List.range 20).map fun k => (k : Int) + 1) ∧ CellType.hexa27.dim = 3 ∧ table .hexa27 = none := by
  refine ⟨⟨by decide, ?_⟩, rfl, rfl⟩
  decide

end Vega.UnderSpec
