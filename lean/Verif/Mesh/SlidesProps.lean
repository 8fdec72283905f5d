import Verif.Mesh.Slides
import Verif.Mesh.SkinsProps
import Verif.Systus.MatrixCellsProps
import Mathlib.Tactic.Linarith
import Mathlib.Tactic.NormNum

/-! # C158: a sliding contact gives each slave node a cell with the nearest master face -/
namespace Vega.SlidesSpec
open Vega.Mesh Skins SkinsSpec CellSpec Slides

/-! ## Specification -/

/-- The query of the tree: one of the nearest values, if there is one. -/
def Nearest (query : Query) : Prop :=
  ∀ tree p, match query tree p with
    | none => tree = []
    | some v => v ∈ tree ∧ ∀ w ∈ tree, boxDist2 v.1 p ≤ boxDist2 w.1 p

/-- The square of the distance of two points. -/
def dist2 (p q : Point) : Dbl := (p.x - q.x) ^ 2 + (p.y - q.y) ^ 2 + (p.z - q.z) ^ 2

/-- The point is in the box around the points: in every coordinate it is between two of them. -/
def Around (ps : List Point) (q : Point) : Prop :=
  (∃ a ∈ ps, ∃ b ∈ ps, a.x ≤ q.x ∧ q.x ≤ b.x) ∧ (∃ a ∈ ps, ∃ b ∈ ps, a.y ≤ q.y ∧ q.y ≤ b.y) ∧
    ∃ a ∈ ps, ∃ b ∈ ps, a.z ≤ q.z ∧ q.z ≤ b.z

/-- The node with the number `id` is at `p`. -/
def Place (m : Mesh) (id : Int) (p : Point) : Prop := ∃ d ∈ m.nodes.nodeDatas, d.id = id ∧ p = ⟨d.x, d.y, d.z⟩

/-- Where the nodes of a face are. -/
def At (m : Mesh) (ids : List Int) (ps : List Point) : Prop := List.Forall₂ (Place m) ids ps

/-- The box around the face `near` is at most as far from the node as that around the face `far`. -/
def Nearer (m : Mesh) (near far : List Int) (id : Int) : Prop :=
  ∃ p ps qs, Place m id p ∧ At m near ps ∧ At m far qs ∧
    ∀ q, Around qs q → ∃ q', Around ps q' ∧ dist2 p q' ≤ dist2 p q

/-- The cell made for the slave node `id`: the nodes of one of the master faces in order, then the node; the box around this face is
the nearest. -/
def SlideCell (m : Mesh) (faces : List (List Int)) (id : Int) (c : Given) : Prop :=
  ∃ face ∈ faces, c.nodeIds = face ++ [id] ∧ (face.length = 3 ∧ c.type = .tetra4 ∨ face.length = 4 ∧ c.type = .pyra5) ∧
    c.elementId = none ∧ c.offset = 0 ∧ ∀ other ∈ faces, Nearer m face other id

/-! ## Boxes -/

theorem gap2_le {lo hi x q : Dbl} (h1 : lo ≤ q) (h2 : q ≤ hi) : gap2 lo hi x ≤ (x - q) ^ 2 := by
  unfold gap2
  rcases le_total (lo - x) 0 with a | a <;> rcases le_total (x - hi) 0 with b | b
  · rw [max_eq_left b, max_eq_right a]
    nlinarith [sq_nonneg (x - q)]
  · rw [max_eq_right b, max_eq_right (by linarith)]
    nlinarith
  · rw [max_eq_left b, max_eq_left a]
    nlinarith
  · rw [max_eq_right b]
    have : lo - x = 0 ∧ x - hi = 0 := ⟨by linarith, by linarith⟩
    rw [this.1, this.2]
    simp
    exact sq_nonneg _

theorem gap2_attained {lo hi : Dbl} (h : lo ≤ hi) (x : Dbl) : ∃ q, lo ≤ q ∧ q ≤ hi ∧ (x - q) ^ 2 = gap2 lo hi x := by
  unfold gap2
  rcases le_total x lo with a | a
  · refine ⟨lo, le_refl _, h, ?_⟩
    rw [max_eq_left (b := x - hi) (by linarith), max_eq_left (by linarith)]
    ring
  · rcases le_total x hi with b | b
    · refine ⟨x, a, b, ?_⟩
      rw [max_eq_left (b := x - hi) (by linarith), max_eq_right (by linarith)]
      ring
    · refine ⟨hi, h, le_refl _, ?_⟩
      rw [max_eq_right (b := x - hi) (by linarith), max_eq_right (by linarith)]

/-- What the envelope is: every bound is that of one of the points, and no point is outside. -/
def Hull (b : Box) (ps : List Point) : Prop :=
  ((∃ a ∈ ps, b.lo.x = a.x) ∧ (∃ a ∈ ps, b.lo.y = a.y) ∧ (∃ a ∈ ps, b.lo.z = a.z) ∧
    (∃ a ∈ ps, b.hi.x = a.x) ∧ (∃ a ∈ ps, b.hi.y = a.y) ∧ ∃ a ∈ ps, b.hi.z = a.z) ∧
  ∀ a ∈ ps, b.lo.x ≤ a.x ∧ a.x ≤ b.hi.x ∧ b.lo.y ≤ a.y ∧ a.y ≤ b.hi.y ∧ b.lo.z ≤ a.z ∧ a.z ≤ b.hi.z

theorem pick_min {ps : List Point} {f : Point → Dbl} {l : Dbl} (q : Point) (h : ∃ a ∈ ps, l = f a) :
    ∃ a ∈ ps ++ [q], min l (f q) = f a := by
  rcases le_total l (f q) with h' | h'
  · obtain ⟨a, ha, e⟩ := h
    exact ⟨a, by simp [ha], by rw [min_eq_left h', e]⟩
  · exact ⟨q, by simp, min_eq_right h'⟩

theorem pick_max {ps : List Point} {f : Point → Dbl} {l : Dbl} (q : Point) (h : ∃ a ∈ ps, l = f a) :
    ∃ a ∈ ps ++ [q], max l (f q) = f a := by
  rcases le_total l (f q) with h' | h'
  · exact ⟨q, by simp, max_eq_right h'⟩
  · obtain ⟨a, ha, e⟩ := h
    exact ⟨a, by simp [ha], by rw [max_eq_left h', e]⟩

theorem hull_fold (qs : List Point) : ∀ (ps : List Point) (b : Box), Hull b ps →
    Hull (qs.foldl (fun b q => ⟨⟨min b.lo.x q.x, min b.lo.y q.y, min b.lo.z q.z⟩,
      ⟨max b.hi.x q.x, max b.hi.y q.y, max b.hi.z q.z⟩⟩) b) (ps ++ qs) := by
  induction qs with
  | nil => intro ps b h; simpa using h
  | cons q qs ih =>
    rintro ps b ⟨⟨h1, h2, h3, h4, h5, h6⟩, h⟩
    rw [List.foldl_cons, show ps ++ q :: qs = (ps ++ [q]) ++ qs by simp]
    apply ih
    refine ⟨⟨pick_min (f := Point.x) q h1, pick_min (f := Point.y) q h2, pick_min (f := Point.z) q h3,
      pick_max (f := Point.x) q h4, pick_max (f := Point.y) q h5, pick_max (f := Point.z) q h6⟩, ?_⟩
    intro a ha
    rcases List.mem_append.mp ha with ha | ha
    · obtain ⟨a1, a2, a3, a4, a5, a6⟩ := h a ha
      exact ⟨min_le_of_left_le a1, le_max_of_le_left a2, min_le_of_left_le a3, le_max_of_le_left a4, min_le_of_left_le a5,
        le_max_of_le_left a6⟩
    · rw [List.mem_singleton.mp ha]
      exact ⟨min_le_right _ _, le_max_right _ _, min_le_right _ _, le_max_right _ _, min_le_right _ _, le_max_right _ _⟩

theorem hull_envelope (p : Point) (ps : List Point) : Hull (envelope p ps) (p :: ps) := by
  unfold envelope
  refine hull_fold ps [p] ⟨p, p⟩ ⟨⟨⟨p, by simp⟩, ⟨p, by simp⟩, ⟨p, by simp⟩, ⟨p, by simp⟩, ⟨p, by simp⟩, ⟨p, by simp⟩⟩, ?_⟩
  intro a ha
  rw [List.mem_singleton.mp ha]
  exact ⟨le_refl _, le_refl _, le_refl _, le_refl _, le_refl _, le_refl _⟩

theorem box_below {b : Box} {ps : List Point} (h : Hull b ps) (p : Point) {q : Point} (hq : Around ps q) :
    boxDist2 b p ≤ dist2 p q := by
  obtain ⟨⟨a1, m1, b1, n1, l1, u1⟩, ⟨a2, m2, b2, n2, l2, u2⟩, ⟨a3, m3, b3, n3, l3, u3⟩⟩ := hq
  unfold boxDist2 dist2
  have x1 := gap2_le (x := p.x) (le_trans (h.2 a1 m1).1 l1) (le_trans u1 (h.2 b1 n1).2.1)
  have x2 := gap2_le (x := p.y) (le_trans (h.2 a2 m2).2.2.1 l2) (le_trans u2 (h.2 b2 n2).2.2.2.1)
  have x3 := gap2_le (x := p.z) (le_trans (h.2 a3 m3).2.2.2.2.1 l3) (le_trans u3 (h.2 b3 n3).2.2.2.2.2)
  linarith

theorem box_attained {b : Box} {ps : List Point} (h : Hull b ps) (p : Point) : ∃ q, Around ps q ∧ dist2 p q = boxDist2 b p := by
  obtain ⟨⟨⟨a1, m1, e1⟩, ⟨a2, m2, e2⟩, ⟨a3, m3, e3⟩, ⟨a4, m4, e4⟩, ⟨a5, m5, e5⟩, ⟨a6, m6, e6⟩⟩, hb⟩ := h
  obtain ⟨x, x1, x2, x3⟩ := gap2_attained (le_trans (hb a1 m1).1 (hb a1 m1).2.1) p.x
  obtain ⟨y, y1, y2, y3⟩ := gap2_attained (le_trans (hb a1 m1).2.2.1 (hb a1 m1).2.2.2.1) p.y
  obtain ⟨z, z1, z2, z3⟩ := gap2_attained (le_trans (hb a1 m1).2.2.2.2.1 (hb a1 m1).2.2.2.2.2) p.z
  refine ⟨⟨x, y, z⟩, ⟨⟨a1, m1, a4, m4, by rw [← e1]; exact x1, by rw [← e4]; exact x2⟩,
    ⟨a2, m2, a5, m5, by rw [← e2]; exact y1, by rw [← e5]; exact y2⟩,
    ⟨a3, m3, a6, m6, by rw [← e3]; exact z1, by rw [← e6]; exact z2⟩⟩, ?_⟩
  unfold dist2 boxDist2
  simp only
  rw [x3, y3, z3]

/-! ## Master faces -/

theorem pointOf_known {m : Mesh} (h : NodeStore.Inv m.nodes) {id : Int} (hi : id ∈ m.nodes.ids) :
    ∃ p, pointOf m id = .ok p ∧ Place m id p := by
  obtain ⟨q, hq⟩ := List.getElem?_of_mem hi
  have hf : m.nodes.findNodePosition id = some q := (h.find id q).mpr hq
  unfold NodeStore.ids at hq
  rw [List.getElem?_map] at hq
  obtain ⟨d, hd, hid⟩ := Option.map_eq_some_iff.mp hq
  refine ⟨⟨d.x, d.y, d.z⟩, ?_, d, List.mem_of_getElem? hd, hid, rfl⟩
  unfold pointOf NodeStore.findNode
  rw [hf]
  simp only [hd, Outcome.bind_ok]

theorem place_nodes {m m' : Mesh} (h : m'.nodes = m.nodes) (id : Int) (p : Point) : Place m' id p ↔ Place m id p := by
  unfold Place; rw [h]

theorem pointsOf_known {m : Mesh} (h : NodeStore.Inv m.nodes) : ∀ (ids : List Int), (∀ id ∈ ids, id ∈ m.nodes.ids) →
    ∃ ps, pointsOf m ids = .ok ps ∧ At m ids ps
  | [], _ => ⟨[], rfl, .nil⟩
  | id :: ids, hk => by
    obtain ⟨p, hp, hpl⟩ := pointOf_known h (hk id (by simp))
    obtain ⟨ps, hps, hat⟩ := pointsOf_known h ids (fun i hi => hk i (by simp [hi]))
    exact ⟨p :: ps, by simp only [pointsOf, hp, hps, Outcome.bind_ok], .cons hpl hat⟩

theorem faceIdsOf_spec {m : Mesh} {g : List Given} (r : Reach m g) {f : FaceInfo} {face : List Int} (hf : SurfaceFace m g f face) :
    faceIdsOf m f = .ok face ∧ face ≠ [] ∧ ∀ k ∈ face, k ∈ m.nodes.ids ∧ k ≠ AUTO_ID := by
  obtain ⟨p, c, hp, hc, hface⟩ := hf
  obtain ⟨hnodes, hne, _, hmem⟩ := faceOf_facts hface
  obtain ⟨v, hv, _, hvt, hvn, _⟩ := findCell_spec r.cinv p c hc
  refine ⟨?_, hne, fun k hk => nodes_of_cell r hc k (hmem k hk)⟩
  unfold faceIdsOf
  rw [hp]
  simp only [hv, Outcome.bind_ok, hvt, hvn, hnodes]

/-- The faces found, with their boxes. -/
def Boxed (m : Mesh) (ids : List Int) (e : List Int × Box) : Prop := e.1 = ids ∧ ∃ ps, At m ids ps ∧ Hull e.2 ps

/-- The tree holds the boxes of the faces, each with its index. -/
def Indexed (a : Masters) : Prop := ∀ v, v ∈ a.tree ↔ ∃ e, a.faces[v.2]? = some e ∧ e.2 = v.1

theorem mem_insertAll (faces : List (List Int × Box)) (v : Box × Nat) :
    v ∈ insertAll faces ↔ ∃ e, faces[v.2]? = some e ∧ e.2 = v.1 := by
  unfold insertAll
  rw [List.mem_map]
  constructor
  · rintro ⟨⟨e, i⟩, he, rfl⟩
    exact ⟨e, List.mem_zipIdx_iff_getElem?.mp he, rfl⟩
  · rintro ⟨e, he, h⟩
    exact ⟨(e, v.2), List.mem_zipIdx_iff_getElem?.mpr he, by rw [h]⟩

theorem indexed_push {a : Masters} (h : Indexed a) (e : List Int × Box) :
    Indexed ⟨a.faces ++ [e], a.tree ++ insertAll (a.faces ++ [e])⟩ := by
  intro v
  simp only
  rw [List.mem_append, mem_insertAll]
  constructor
  · rintro (hv | hv)
    · obtain ⟨e', he', hb⟩ := (h v).mp hv
      exact ⟨e', by rw [List.getElem?_append_left (List.getElem?_eq_some_iff.mp he').1]; exact he', hb⟩
    · exact hv
  · exact .inr

theorem masterLoop_spec {m : Mesh} {g : List Given} (r : Reach m g) :
    ∀ (fs : List FaceInfo) (faces : List (List Int)) (a : Masters), List.Forall₂ (SurfaceFace m g) fs faces → Indexed a →
      ∃ a' more, masterLoop m a fs = .ok a' ∧ a'.faces = a.faces ++ more ∧ List.Forall₂ (Boxed m) faces more ∧ Indexed a'
  | [], _, a, h, hi => by
    cases h
    exact ⟨a, [], rfl, by simp, .nil, hi⟩
  | f :: fs, _, a, .cons (b := face) (l₂ := faces) hf hfs, hi => by
    obtain ⟨h1, h2, h3⟩ := faceIdsOf_spec r hf
    obtain ⟨ps, h4, h5⟩ := pointsOf_known r.cinv.nodes face (fun k hk => (h3 k hk).1)
    cases ps with
    | nil => cases h5; exact absurd rfl h2
    | cons p ps =>
      obtain ⟨a', more, b1, b2, b3, b4⟩ := masterLoop_spec r fs faces
        ⟨a.faces ++ [(face, envelope p ps)], a.tree ++ insertAll (a.faces ++ [(face, envelope p ps)])⟩ hfs (indexed_push hi _)
      refine ⟨a', (face, envelope p ps) :: more, ?_, by rw [b2]; simp, .cons ⟨rfl, _, h5, hull_envelope p ps⟩ b3, b4⟩
      simp only [masterLoop, h1, h4, Outcome.bind_ok, b1]

/-! ## Slave nodes -/

theorem forall2_get {α β : Type} {R : α → β → Prop} {as : List α} {bs : List β} (h : List.Forall₂ R as bs) {i : Nat} {b : β}
    (hb : bs[i]? = some b) : ∃ a, as[i]? = some a ∧ R a b := by
  induction h generalizing i with
  | nil => simp at hb
  | cons hr _ ih =>
    cases i with
    | zero => simp only [List.getElem?_cons_zero, Option.some.injEq] at hb; subst hb; exact ⟨_, rfl, hr⟩
    | succ i => simp only [List.getElem?_cons_succ] at hb ⊢; exact ih hb

theorem forall2_get' {α β : Type} {R : α → β → Prop} {as : List α} {bs : List β} (h : List.Forall₂ R as bs) {a : α}
    (ha : a ∈ as) : ∃ (i : Nat) (b : β), bs[i]? = some b ∧ R a b := by
  induction h with
  | nil => cases ha
  | cons hr _ ih =>
    rcases List.mem_cons.mp ha with rfl | ha
    · exact ⟨0, _, rfl, hr⟩
    · obtain ⟨i, b, hb, hr⟩ := ih ha
      exact ⟨i + 1, b, by simpa using hb, hr⟩

/-- What the tree answers. -/
theorem query_spec {query : Query} (hq : Nearest query) {m : Mesh} {a : Masters} {faces : List (List Int)}
    (hb : List.Forall₂ (Boxed m) faces a.faces) (hi : Indexed a) (hne : faces ≠ []) {id : Int} {p : Point} (hp : Place m id p) :
    ∃ v e, query a.tree p = some v ∧ a.faces[v.2]? = some e ∧ e.1 ∈ faces ∧ ∀ other ∈ faces, Nearer m e.1 other id := by
  have hs := hq a.tree p
  cases hv : query a.tree p with
  | none =>
    rw [hv] at hs
    simp only at hs
    obtain ⟨face, hface⟩ := List.exists_mem_of_ne_nil _ hne
    obtain ⟨i, e, he, _⟩ := forall2_get' hb hface
    have := (hi (e.2, i)).mpr ⟨e, he, rfl⟩
    rw [hs] at this
    cases this
  | some v =>
    rw [hv] at hs
    obtain ⟨hmem, hmin⟩ := hs
    obtain ⟨e, he, hbox⟩ := (hi v).mp hmem
    obtain ⟨face, hface, rfl, ps, hat, hull⟩ := forall2_get hb he
    refine ⟨v, e, rfl, he, List.mem_of_getElem? hface, ?_⟩
    intro other hother
    obtain ⟨j, e', he', hfst, qs, hat', hull'⟩ := forall2_get' hb hother
    have hw := hmin (e'.2, j) ((hi _).mpr ⟨e', he', rfl⟩)
    refine ⟨p, ps, qs, hp, hat, hat', ?_⟩
    intro q hqq
    obtain ⟨q', h1, h2⟩ := box_attained hull p
    refine ⟨q', h1, ?_⟩
    rw [h2, hbox]
    exact le_trans hw (box_below hull' p hqq)

theorem nearer_nodes {m m' : Mesh} (h : m'.nodes = m.nodes) {a b : List Int} {id : Int} (hn : Nearer m' a b id) : Nearer m a b id := by
  obtain ⟨p, ps, qs, h1, h2, h3, h4⟩ := hn
  refine ⟨p, ps, qs, (place_nodes h _ _).mp h1, ?_, ?_, h4⟩
  · exact h2.imp (fun _ _ e => (place_nodes h _ _).mp e)
  · exact h3.imp (fun _ _ e => (place_nodes h _ _).mp e)

theorem boxed_nodes {m m' : Mesh} (h : m'.nodes = m.nodes) {ids : List Int} {e : List Int × Box} (hb : Boxed m ids e) : Boxed m' ids e := by
  obtain ⟨h1, ps, h2, h3⟩ := hb
  exact ⟨h1, ps, h2.imp (fun _ _ e => (place_nodes h _ _).mpr e), h3⟩

theorem slideCell_nodes {m m' : Mesh} (h : m'.nodes = m.nodes) {faces : List (List Int)} {id : Int} {c : Given}
    (hc : SlideCell m' faces id c) : SlideCell m faces id c := by
  obtain ⟨face, h1, h2, h3, h4, h5, h6⟩ := hc
  exact ⟨face, h1, h2, h3, h4, h5, fun o ho => nearer_nodes h (h6 o ho)⟩

theorem slideNode_spec {query : Query} (hq : Nearest query) {group : String} {m : Mesh} {g : List Given} (r : Reach m g)
    (hgr : (m.cellGroups.find group).isSome) {a : Masters} {faces : List (List Int)} (hb : List.Forall₂ (Boxed m) faces a.faces)
    (hi : Indexed a) (hne : faces ≠ []) (hlin : ∀ f ∈ faces, f.length = 3 ∨ f.length = 4)
    (hk : ∀ f ∈ faces, ∀ k ∈ f, k ∈ m.nodes.ids ∧ k ≠ AUTO_ID) {id : Int} (hid : id ∈ m.nodes.ids ∧ id ≠ AUTO_ID) :
    ∃ m' c, slideNode query a group m id = .ok m' ∧ Reach m' (g ++ [c]) ∧ SlideCell m faces id c ∧
      Kept m m' (· = group) ∧ (m'.cellGroups.find group).isSome ∧
      ∀ q, q ∈ groupCells m' group ↔ q = g.length ∨ q ∈ groupCells m group := by
  obtain ⟨p, hp, hpl⟩ := pointOf_known r.cinv.nodes hid.1
  obtain ⟨v, e, q1, q2, q3, q4⟩ := query_spec hq hb hi hne hpl
  obtain ⟨t, ht, htn, hty⟩ : ∃ t, slideType e.1.length = some t ∧ t.numNodes = e.1.length + 1 ∧
      (e.1.length = 3 ∧ t = .tetra4 ∨ e.1.length = 4 ∧ t = .pyra5) := by
    rcases hlin e.1 q3 with h | h <;> rw [h]
    · exact ⟨.tetra4, rfl, rfl, .inl ⟨rfl, rfl⟩⟩
    · exact ⟨.pyra5, rfl, rfl, .inr ⟨rfl, rfl⟩⟩
  obtain ⟨m2, cid, b1, b2, b3, b4, b5, b6⟩ := MatrixCellsSpec.newCell_spec r (t := t) (ids := e.1 ++ [id]) (by simp [htn])
    (by
      intro k hk'
      rcases List.mem_append.mp hk' with h | h
      · exact hk _ q3 k h
      · rw [List.mem_singleton.mp h]; exact hid)
  obtain ⟨m3, d1, ⟨gs, d2⟩, d3, d4, d5⟩ := addToGroup_ok (m := m2) (name := group) (by rw [b4]; exact hgr) g.length
  refine ⟨m3, skinOf cid t (e.1 ++ [id]), ?_, Reach.group b2 group cid b6 d1, ⟨e.1, q3, rfl, hty, rfl, rfl, q4⟩, ⟨?_, ?_, ?_⟩, d4, ?_⟩
  · unfold slideNode
    simp only [hp, Outcome.bind_ok, q1, q2, ht, b1]
    exact d1
  · rw [d2]; exact b3
  · intro i hi'
    rw [d2]
    exact positions_later r b2 b5 i hi'
  · intro n hn
    rw [d5 n hn, b4]
  · intro q
    rw [d3]
    unfold groupCells
    rw [b4]

theorem slideNodes_spec {query : Query} (hq : Nearest query) {group : String} {a : Masters} {faces : List (List Int)}
    (hi : Indexed a) (hne : faces ≠ []) (hlin : ∀ f ∈ faces, f.length = 3 ∨ f.length = 4) :
    ∀ (ids : List Int) (m : Mesh) (g : List Given), Reach m g → (m.cellGroups.find group).isSome →
      List.Forall₂ (Boxed m) faces a.faces → (∀ f ∈ faces, ∀ k ∈ f, k ∈ m.nodes.ids ∧ k ≠ AUTO_ID) →
      (∀ k ∈ ids, k ∈ m.nodes.ids ∧ k ≠ AUTO_ID) →
      ∃ m' new, slideNodes query a group m ids = .ok m' ∧ Reach m' (g ++ new) ∧ List.Forall₂ (SlideCell m faces) ids new ∧
        Kept m m' (· = group) ∧ (m'.cellGroups.find group).isSome ∧
        ∀ q, q ∈ groupCells m' group ↔ (g.length ≤ q ∧ q < g.length + new.length) ∨ q ∈ groupCells m group
  | [], m, g, r, hgr, _, _, _ => by
    refine ⟨m, [], rfl, by simpa using r, .nil, ⟨rfl, fun _ _ => rfl, fun _ _ => rfl⟩, hgr, ?_⟩
    intro q
    constructor
    · exact .inr
    · rintro (⟨h, h'⟩ | h)
      · simp only [List.length_nil] at h'; omega
      · exact h
  | id :: ids, m, g, r, hgr, hb, hk, hids => by
    obtain ⟨m1, c, a1, a2, a3, a4, a5, a6⟩ := slideNode_spec hq r hgr hb hi hne hlin hk (hids id (by simp))
    obtain ⟨m', new, b1, b2, b3, b4, b5, b6⟩ := slideNodes_spec hq hi hne hlin ids m1 _ a2 a5
      (hb.imp (fun _ _ h => boxed_nodes a4.nodes h)) (by rw [a4.nodes]; exact hk)
      (by rw [a4.nodes]; exact fun k hk => hids k (by simp [hk]))
    refine ⟨m', c :: new, ?_, by simpa using b2, .cons a3 (b3.imp (fun _ _ h => slideCell_nodes a4.nodes h)),
      (a4.trans b4).mono (fun n h => h.elim (fun x => x) (fun x => x)), b5, ?_⟩
    · simp only [slideNodes, a1, Outcome.bind_ok, b1]
    · intro q
      rw [b6, a6, List.length_append, List.length_singleton, List.length_cons]
      constructor
      · rintro (h | h | h)
        · exact .inl (by omega)
        · exact .inl (by omega)
        · exact .inr h
      · rintro (h | h)
        · by_cases e : q = g.length
          · exact .inr (.inl e)
          · exact .inl (by omega)
        · exact .inr (.inr h)

theorem slaveLoop_spec {query : Query} (hq : Nearest query) {group : String} {a : Masters} {faces : List (List Int)}
    (hi : Indexed a) (hne : faces ≠ []) (hlin : ∀ f ∈ faces, f.length = 3 ∨ f.length = 4) :
    ∀ (fs : List FaceInfo) (slaves : List (List Int)) (m : Mesh) (g : List Given), Reach m g → (m.cellGroups.find group).isSome →
      List.Forall₂ (Boxed m) faces a.faces → (∀ f ∈ faces, ∀ k ∈ f, k ∈ m.nodes.ids ∧ k ≠ AUTO_ID) →
      List.Forall₂ (SurfaceFace m g) fs slaves →
      ∃ m' new, slaveLoop query a group m fs = .ok m' ∧ Reach m' (g ++ new) ∧
        List.Forall₂ (SlideCell m faces) slaves.flatten new ∧ Kept m m' (· = group) ∧
        ∀ q, q ∈ groupCells m' group ↔ (g.length ≤ q ∧ q < g.length + new.length) ∨ q ∈ groupCells m group
  | [], _, m, g, r, _, _, _, h => by
    cases h
    refine ⟨m, [], rfl, by simpa using r, .nil, ⟨rfl, fun _ _ => rfl, fun _ _ => rfl⟩, ?_⟩
    intro q
    constructor
    · exact .inr
    · rintro (⟨h, h'⟩ | h)
      · simp only [List.length_nil] at h'; omega
      · exact h
  | f :: fs, _, m, g, r, hgr, hb, hk, .cons (b := face) (l₂ := slaves) hf hfs => by
    obtain ⟨h1, _, h3⟩ := faceIdsOf_spec r hf
    obtain ⟨m1, new1, a1, a2, a3, a4, a5, a6⟩ := slideNodes_spec hq hi hne hlin face m g r hgr hb hk h3
    obtain ⟨m', new, b1, b2, b3, b4, b5⟩ := slaveLoop_spec hq hi hne hlin fs slaves m1 _ a2 a5
      (hb.imp (fun _ _ h => boxed_nodes a4.nodes h)) (by rw [a4.nodes]; exact hk)
      (hfs.imp (fun _ _ h => surfaceFace_later a4 h))
    refine ⟨m', new1 ++ new, ?_, by simpa using b2, ?_, (a4.trans b4).mono (fun n h => h.elim (fun x => x) (fun x => x)), ?_⟩
    · simp only [slaveLoop, h1, a1, Outcome.bind_ok, b1]
    · rw [List.flatten_cons]
      exact List.rel_append a3 (b3.imp (fun _ _ h => slideCell_nodes a4.nodes h))
    · intro q
      rw [b5, a6, List.length_append, List.length_append]
      constructor
      · rintro (h | h | h)
        · exact .inl (by omega)
        · exact .inl (by omega)
        · exact .inr h
      · rintro (h | h)
        · by_cases e : q < g.length + new1.length
          · exact .inr (.inl (by omega))
          · exact .inl (by omega)
        · exact .inr (.inr h)

theorem slideName_ne (id : Nat) : slideName id ≠ "" := by
  intro e
  have := String.ofList_injective (e.trans (show "" = String.ofList [] from rfl))
  exact absurd (List.append_eq_nil_iff.mp this).1 (by decide)

theorem kept_group {m : Mesh} (name : String) : Kept m { m with cellGroups := m.cellGroups.set name [] } (· = name) :=
  ⟨rfl, fun _ _ => rfl, fun n hn => by simp only; rw [Map.find_set_ne _ _ (fun e => hn e.symm)]⟩

theorem start {m : Mesh} {g : List Given} (r : Reach m g) (id : Nat) (hfree : m.cellGroups.find (slideName id) = none)
    {master : List FaceInfo} {faces : List (List Int)} (hm : List.Forall₂ (SurfaceFace m g) master faces) :
    ∃ m1 a, m.createCellGroup (slideName id) = .ok m1 ∧ Reach m1 g ∧ Kept m m1 (· = slideName id) ∧
      m1.cellGroups.find (slideName id) = some [] ∧ masterLoop m1 ⟨[], []⟩ master = .ok a ∧
      List.Forall₂ (Boxed m1) faces a.faces ∧ Indexed a ∧ List.Forall₂ (SurfaceFace m1 g) master faces := by
  have c1 := createGroup_ok (slideName_ne id) hfree
  have r1 := Reach.newGroup r _ c1
  have k1 := kept_group (m := m) (slideName id)
  have hm1 : List.Forall₂ (SurfaceFace { m with cellGroups := m.cellGroups.set (slideName id) [] } g) master faces :=
    hm.imp (fun _ _ h => by
      have := surfaceFace_later (new := []) k1 h
      rwa [List.append_nil] at this)
  obtain ⟨a, more, b1, b2, b3, b4⟩ := masterLoop_spec r1 master faces ⟨[], []⟩ hm1 (by intro v; simp)
  rw [List.nil_append] at b2
  exact ⟨_, a, c1, r1, k1, Map.find_set_self _ _ _, b1, by rw [b2]; exact b3, b4, hm1⟩

theorem known_faces {m : Mesh} {g : List Given} (r : Reach m g) {fs : List FaceInfo} {faces : List (List Int)}
    (h : List.Forall₂ (SurfaceFace m g) fs faces) : ∀ f ∈ faces, f ≠ [] ∧ ∀ k ∈ f, k ∈ m.nodes.ids ∧ k ≠ AUTO_ID := by
  induction h with
  | nil => simp
  | cons hf _ ih =>
    intro f hm
    rcases List.mem_cons.mp hm with rfl | hm
    · exact (faceIdsOf_spec r hf).2
    · exact ih f hm

/-! ## Properties -/

/-- **C158.** In every mesh, for every sliding contact between a master surface made of triangles and quadrangles and a slave
surface, both faces of solids named in Nastran's way, and however the tree chooses among boxes that are equally near, the slave faces
are gone through in order and each of their nodes gets a new cell in its turn: the nodes of a master face in order and then the slave
node, a tetrahedron or a pyramid. No box around another master face is nearer to the node. The group of the contact has these cells
alone. The nodes and cells there were, and the other groups, are unchanged. Required: there is a master face, and the name of the
group is free. What is missing: see `C158_box_false` and `C158_repeated_false`. -/
theorem C158_cells_partial {query : Query} (hq : Nearest query) {m : Mesh} {g : List Given} (r : Reach m g) (id : Nat)
    (master slave : List FaceInfo) (faces slaves : List (List Int)) (hm : List.Forall₂ (SurfaceFace m g) master faces)
    (hs : List.Forall₂ (SurfaceFace m g) slave slaves) (hne : master ≠ []) (hlin : ∀ f ∈ faces, f.length = 3 ∨ f.length = 4)
    (hfree : m.cellGroups.find (slideName id) = none) :
    ∃ m' new, makeCells query m id master slave = .ok m' ∧ Reach m' (g ++ new) ∧
      List.Forall₂ (SlideCell m faces) slaves.flatten new ∧
      (∀ q, q ∈ groupCells m' (slideName id) ↔ g.length ≤ q ∧ q < g.length + new.length) ∧
      m'.nodes = m.nodes ∧ (∀ n, n ≠ slideName id → m'.cellGroups.find n = m.cellGroups.find n) ∧
      ∀ p c, (g ++ new)[p]? = some c → ∃ v, m'.findCell p = .ok v ∧ v.id = c.id ∧ v.type = c.type ∧ v.nodeIds = c.nodeIds := by
  obtain ⟨m1, a, c1, r1, k1, hgr, b1, b2, b3, hm1⟩ := start r id hfree hm
  have hne' : faces ≠ [] := by
    rintro rfl
    cases hm
    exact hne rfl
  obtain ⟨m', new, d1, d2, d3, d4, d5⟩ := slaveLoop_spec hq b3 hne' hlin slave slaves m1 g r1 (by rw [hgr]; rfl) b2
    (fun f hf => (known_faces r1 hm1 f hf).2)
    (hs.imp (fun _ _ h => by
      have := surfaceFace_later (new := []) k1 h
      rwa [List.append_nil] at this))
  refine ⟨m', new, ?_, d2, d3.imp (fun _ _ h => slideCell_nodes k1.nodes h), ?_, by rw [d4.nodes, k1.nodes], ?_, ?_⟩
  · unfold makeCells
    simp only [c1, Outcome.bind_ok, b1, d1]
  · intro q
    rw [d5]
    unfold groupCells
    simp [hgr]
  · intro n hn
    rw [d4.groups n hn, k1.groups n hn]
  · intro p c hc
    obtain ⟨v, h1, h2, h3, h4, _⟩ := findCell_spec d2.cinv p c hc
    exact ⟨v, h1, h2, h3, h4⟩

/-- There are searches that find a nearest value. -/
example : ∃ query, Nearest query := by
  have h : ∀ (tree : List (Box × Nat)) (p : Point), ∃ o : Option (Box × Nat), match o with
      | none => tree = []
      | some v => v ∈ tree ∧ ∀ w ∈ tree, boxDist2 v.1 p ≤ boxDist2 w.1 p := by
    intro tree p
    induction tree with
    | nil => exact ⟨none, rfl⟩
    | cons w tree ih =>
      obtain ⟨o, ho⟩ := ih
      cases o with
      | none =>
        simp only at ho
        subst ho
        exact ⟨some w, by simp, by simp⟩
      | some v =>
        rcases le_total (boxDist2 v.1 p) (boxDist2 w.1 p) with h | h
        · exact ⟨some v, by simp [ho.1], by
            intro x hx
            rcases List.mem_cons.mp hx with rfl | hx
            · exact h
            · exact ho.2 x hx⟩
        · exact ⟨some w, by simp, by
            intro x hx
            rcases List.mem_cons.mp hx with rfl | hx
            · exact le_refl _
            · exact le_trans h (ho.2 x hx)⟩
  exact ⟨fun tree p => (h tree p).choose, fun tree p => (h tree p).choose_spec⟩

/-- The hypotheses of the theorems: two faces of a hexahedron that have nodes in common as slaves, another as master. -/
example : ∃ m g, Reach m g ∧
    List.Forall₂ (SurfaceFace m g) [⟨7, 15, some 17, false⟩] [[15, 18, 17, 16]] ∧
    List.Forall₂ (SurfaceFace m g) [⟨7, 11, some 13, false⟩, ⟨7, 11, some 16, false⟩] [[11, 12, 13, 14], [11, 15, 16, 12]] ∧
    m.cellGroups.find (slideName 3) = none := by
  have hv : Given.Valid ⟨7, .hexa8, [11, 12, 13, 14, 15, 16, 17, 18], none, 0⟩ := ⟨rfl, by decide⟩
  have h1 : FaceOf ⟨7, .hexa8, [11, 12, 13, 14, 15, 16, 17, 18], none, 0⟩ 11 (some 13) [11, 12, 13, 14] :=
    ⟨.inl rfl, ⟨rfl, by decide⟩, _, [1, 2, 3, 4], 1, some 3, rfl, by simp,
      by simp [FaceSpec.Identifies, FaceSpec.cornersOf, FaceSpec.Quadratic, CellType.numNodes], rfl, rfl, rfl⟩
  have h2 : FaceOf ⟨7, .hexa8, [11, 12, 13, 14, 15, 16, 17, 18], none, 0⟩ 15 (some 17) [15, 18, 17, 16] :=
    ⟨.inl rfl, ⟨rfl, by decide⟩, _, [5, 8, 7, 6], 5, some 7, rfl, by simp,
      by simp [FaceSpec.Identifies, FaceSpec.cornersOf, FaceSpec.Quadratic, CellType.numNodes], rfl, rfl, rfl⟩
  have h3 : FaceOf ⟨7, .hexa8, [11, 12, 13, 14, 15, 16, 17, 18], none, 0⟩ 11 (some 16) [11, 15, 16, 12] :=
    ⟨.inl rfl, ⟨rfl, by decide⟩, _, [1, 5, 6, 2], 1, some 6, rfl, by simp,
      by simp [FaceSpec.Identifies, FaceSpec.cornersOf, FaceSpec.Quadratic, CellType.numNodes], rfl, rfl, rfl⟩
  exact ⟨_, _, Reach.add (Reach.empty 1000 0 1000) ⟨7, .hexa8, [11, 12, 13, 14, 15, 16, 17, 18], none, 0⟩ hv (by decide) rfl rfl,
    .cons ⟨0, _, rfl, rfl, h2⟩ .nil, .cons ⟨0, _, rfl, rfl, h1⟩ (.cons ⟨0, _, rfl, rfl, h3⟩ .nil), rfl⟩

/-- **C158.** The measure by which the boxes of faces are compared is the square of the smallest distance from the node to a point of
the box around the face. -/
theorem C158_measure (p q : Point) (ps : List Point) :
    (∀ c, Around (q :: ps) c → boxDist2 (envelope q ps) p ≤ dist2 p c) ∧
      ∃ c, Around (q :: ps) c ∧ dist2 p c = boxDist2 (envelope q ps) p :=
  ⟨fun _ hc => box_below (hull_envelope q ps) p hc, box_attained (hull_envelope q ps) p⟩

/-- **C158.** Contacts with different numbers have groups with different names. -/
theorem C158_names (a b : Nat) : slideName a = slideName b ↔ a = b := by
  constructor
  · intro h
    exact Med.decimal_inj (List.append_cancel_left (String.ofList_injective h))
  · rintro rfl; rfl

/-- **C158.** The number of cells made for a slave node is the number of slave faces it is a node of: a node between faces has the
contact several times. -/
theorem C158_repeated_false {query : Query} (hq : Nearest query) {m : Mesh} {g : List Given} (r : Reach m g) (id : Nat)
    (master slave : List FaceInfo) (faces slaves : List (List Int)) (hm : List.Forall₂ (SurfaceFace m g) master faces)
    (hs : List.Forall₂ (SurfaceFace m g) slave slaves) (hne : master ≠ []) (hlin : ∀ f ∈ faces, f.length = 3 ∨ f.length = 4)
    (hfree : m.cellGroups.find (slideName id) = none) :
    ∃ m' new, makeCells query m id master slave = .ok m' ∧ Reach m' (g ++ new) ∧
      ∀ k, (new.filter fun c => c.nodeIds.getLast? == some k).length = slaves.flatten.count k := by
  obtain ⟨m', new, h1, h2, h3, h4⟩ := C158_cells_partial hq r id master slave faces slaves hm hs hne hlin hfree
  refine ⟨m', new, h1, h2, ?_⟩
  intro k
  clear h1 h2 h4
  generalize slaves.flatten = l at h3
  induction h3 with
  | nil => rfl
  | @cons i c l new hc _ ih =>
    obtain ⟨face, _, hn, _⟩ := hc
    have hl : c.nodeIds.getLast? = some i := by rw [hn]; simp
    rw [List.filter_cons, List.count_cons, hl]
    by_cases e : i = k
    · subst e
      simp only [BEq.rfl, if_true, List.length_cons, ih]
    · have e' : (some i == some k) = false := by simpa using e
      have e'' : (i == k) = false := by simpa using e
      simp only [e', e'', Bool.false_eq_true, if_false, ih, Nat.add_zero]

/-- The points of the triangle with the corners `a`, `b`, `c`. -/
def InTriangle (a b c q : Point) : Prop :=
  ∃ s t u : Dbl, 0 ≤ s ∧ 0 ≤ t ∧ 0 ≤ u ∧ s + t + u = 1 ∧ q = ⟨s * a.x + t * b.x + u * c.x, s * a.y + t * b.y + u * c.y,
    s * a.z + t * b.z + u * c.z⟩

/-- **C158.** The face chosen is not always the nearest: a node in the box around an oblique face gets this face, although all its
points are at a distance of more than 9 and another face has a point at distance 1. -/
theorem C158_box_false : ∃ a b c d e f p : Point, ∀ query, Nearest query →
    query (insertAll [([1, 2, 3], envelope a [b, c])] ++ insertAll [([1, 2, 3], envelope a [b, c]), ([4, 5, 6], envelope d [e, f])]) p =
      some (envelope a [b, c], 0) ∧ (∀ q, InTriangle a b c q → 81 < dist2 p q) ∧ ∃ q, InTriangle d e f q ∧ dist2 p q = 1 := by
  refine ⟨⟨0, 0, 0⟩, ⟨10, 0, 10⟩, ⟨0, 10, 10⟩, ⟨9, 9, 0⟩, ⟨10, 9, 0⟩, ⟨9, 10, 0⟩, ⟨9, 9, 1⟩, ?_⟩
  intro query hq
  refine ⟨?_, ?_, ?_⟩
  · have h := hq (insertAll [([1, 2, 3], envelope ⟨0, 0, 0⟩ [⟨10, 0, 10⟩, ⟨0, 10, 10⟩])] ++
      insertAll [([1, 2, 3], envelope ⟨0, 0, 0⟩ [⟨10, 0, 10⟩, ⟨0, 10, 10⟩]), ([4, 5, 6], envelope ⟨9, 9, 0⟩ [⟨10, 9, 0⟩, ⟨9, 10, 0⟩])])
      ⟨9, 9, 1⟩
    revert h
    cases query (insertAll [([1, 2, 3], envelope ⟨0, 0, 0⟩ [⟨10, 0, 10⟩, ⟨0, 10, 10⟩])] ++
      insertAll [([1, 2, 3], envelope ⟨0, 0, 0⟩ [⟨10, 0, 10⟩, ⟨0, 10, 10⟩]), ([4, 5, 6], envelope ⟨9, 9, 0⟩ [⟨10, 9, 0⟩, ⟨9, 10, 0⟩])])
      ⟨9, 9, 1⟩ with
    | none => intro h; simp [insertAll] at h
    | some v =>
      rintro ⟨hm, hmin⟩
      have h0 := hmin (envelope ⟨0, 0, 0⟩ [⟨10, 0, 10⟩, ⟨0, 10, 10⟩], 0) (by simp [insertAll])
      have hA : boxDist2 (envelope ⟨0, 0, 0⟩ [⟨10, 0, 10⟩, ⟨0, 10, 10⟩]) ⟨9, 9, 1⟩ = 0 := by decide +kernel
      have hB : boxDist2 (envelope ⟨9, 9, 0⟩ [⟨10, 9, 0⟩, ⟨9, 10, 0⟩]) ⟨9, 9, 1⟩ = 1 := by decide +kernel
      simp only [hA] at h0
      have : v = (envelope ⟨0, 0, 0⟩ [⟨10, 0, 10⟩, ⟨0, 10, 10⟩], 0) ∨ v = (envelope ⟨9, 9, 0⟩ [⟨10, 9, 0⟩, ⟨9, 10, 0⟩], 1) := by
        simp only [insertAll, List.zipIdx_cons, List.zipIdx_nil, List.map_cons, List.map_nil, List.cons_append, List.nil_append,
          List.mem_cons, List.not_mem_nil, or_false] at hm
        rcases hm with h | h | h
        · exact .inl h
        · exact .inl h
        · exact .inr h
      rcases this with rfl | rfl
      · rfl
      · simp only [hB] at h0
        exact absurd h0 (by norm_num)
  · rintro q ⟨s, t, u, _, _, _, _, rfl⟩
    unfold dist2
    simp only
    nlinarith [sq_nonneg ((9 - 10 * t) - (9 - 10 * u)), sq_nonneg ((9 - 10 * t) + (1 - 10 * t - 10 * u)),
      sq_nonneg ((9 - 10 * u) + (1 - 10 * t - 10 * u))]
  · refine ⟨⟨9, 9, 0⟩, ⟨1, 0, 0, by norm_num, by norm_num, by norm_num, by norm_num, by norm_num⟩, ?_⟩
    unfold dist2
    norm_num

/-- **C158.** A master surface made of faces with nodes on the edges is refused, as soon as there is a slave face. -/
theorem C158_quadratic_false {query : Query} (hq : Nearest query) {m : Mesh} {g : List Given} (r : Reach m g) (id : Nat)
    (master slave : List FaceInfo) (faces slaves : List (List Int)) (hm : List.Forall₂ (SurfaceFace m g) master faces)
    (hs : List.Forall₂ (SurfaceFace m g) slave slaves) (hne : master ≠ []) (hne' : slave ≠ []) (hquad : ∀ f ∈ faces, 4 < f.length)
    (hfree : m.cellGroups.find (slideName id) = none) : makeCells query m id master slave = .throw := by
  obtain ⟨m1, a, c1, r1, k1, hgr, b1, b2, b3, hm1⟩ := start r id hfree hm
  have hnef : faces ≠ [] := by
    rintro rfl
    cases hm
    exact hne rfl
  cases hs with
  | nil => exact absurd rfl hne'
  | @cons f face fs slaves hf hfs =>
    have hf1 : SurfaceFace m1 g f face := by
      have := surfaceFace_later (new := []) k1 hf
      rwa [List.append_nil] at this
    obtain ⟨h1, h2, h3⟩ := faceIdsOf_spec r1 hf1
    cases face with
    | nil => exact absurd rfl h2
    | cons k ks =>
      obtain ⟨p, hp, hpl⟩ := pointOf_known r1.cinv.nodes (h3 k (by simp)).1
      obtain ⟨v, e, q1, q2, q3, _⟩ := query_spec hq b2 b3 hnef hpl
      have ht : slideType e.1.length = none := by
        have := hquad _ q3
        unfold slideType
        split
        · omega
        · omega
        · rfl
      unfold makeCells
      simp only [c1, Outcome.bind_ok, b1, slaveLoop, h1, slideNodes, slideNode, hp, q1, q2, ht]
      rfl

/-- A face of a tetrahedron with ten nodes has six nodes. -/
example : ∃ m g, Reach m g ∧ SurfaceFace m g ⟨7, 11, some 14, false⟩ [11, 12, 13, 15, 16, 17] ∧ m.cellGroups.find (slideName 3) = none := by
  have hv : Given.Valid ⟨7, .tetra10, [11, 12, 13, 14, 15, 16, 17, 18, 19, 20], none, 0⟩ := ⟨rfl, by decide⟩
  have h1 : FaceOf ⟨7, .tetra10, [11, 12, 13, 14, 15, 16, 17, 18, 19, 20], none, 0⟩ 11 (some 14) [11, 12, 13, 15, 16, 17] :=
    ⟨by simp [FaceSpec.Solid], ⟨rfl, by decide⟩, _, [1, 2, 3, 5, 6, 7], 1, some 4, rfl, by simp,
      by simp [FaceSpec.Identifies, FaceSpec.cornersOf, FaceSpec.Quadratic, CellType.numNodes], rfl, rfl, rfl⟩
  exact ⟨_, _, Reach.add (Reach.empty 1000 0 1000) ⟨7, .tetra10, [11, 12, 13, 14, 15, 16, 17, 18, 19, 20], none, 0⟩ hv (by decide) rfl rfl,
    ⟨0, _, rfl, rfl, h1⟩, rfl⟩

/-- **C158.** Without master faces the result of the search, which is empty, is read, as soon as there is a slave face. Contacts
without faces are removed before when they are recognised as ineffective. -/
theorem C158_empty_false {query : Query} (hq : Nearest query) {m : Mesh} {g : List Given} (r : Reach m g) (id : Nat)
    (slave : List FaceInfo) (slaves : List (List Int)) (hs : List.Forall₂ (SurfaceFace m g) slave slaves) (hne' : slave ≠ [])
    (hfree : m.cellGroups.find (slideName id) = none) : makeCells query m id [] slave = .ub := by
  obtain ⟨m1, a, c1, r1, k1, hgr, b1, b2, b3, hm1⟩ := start r id hfree (master := []) (faces := []) .nil
  simp only [masterLoop, Outcome.ok.injEq] at b1
  cases hs with
  | nil => exact absurd rfl hne'
  | @cons f face fs slaves hf hfs =>
    have hf1 : SurfaceFace m1 g f face := by
      have := surfaceFace_later (new := []) k1 hf
      rwa [List.append_nil] at this
    obtain ⟨h1, h2, h3⟩ := faceIdsOf_spec r1 hf1
    cases face with
    | nil => exact absurd rfl h2
    | cons k ks =>
      obtain ⟨p, hp, hpl⟩ := pointOf_known r1.cinv.nodes (h3 k (by simp)).1
      have hs := hq [] p
      have hnone : query [] p = none := by
        cases h : query [] p with
        | none => rfl
        | some v => rw [h] at hs; exact absurd hs.1 (by simp)
      unfold makeCells
      simp only [c1, Outcome.bind_ok, masterLoop, slaveLoop, h1, slideNodes, slideNode, hp, hnone]
      rfl

end Vega.SlidesSpec
