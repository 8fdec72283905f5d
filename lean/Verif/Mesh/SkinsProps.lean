import Verif.Mesh.Skins
import Verif.Mesh.CellProps
import Verif.Mesh.FaceProps
import Verif.Med.FamilyLemmas
import Verif.Aster.CommandLemmas

/-! # C153: loads on faces of solids act on new surface cells made of the nodes of these faces -/
namespace Vega.SkinsSpec
open Vega.Mesh Skins Faces FaceSpec CellSpec

/-! ## Specification -/

/-- The type of a surface cell with so many nodes. -/
def surfaceType : Nat → Option CellType
  | 3 => some .tri3 | 4 => some .quad4 | 6 => some .tri6 | 7 => some .tri7 | 8 => some .quad8 | 9 => some .quad9
  | _ => none

/-- The node `i`, with the node `j` if given, names the face of the solid `c` whose nodes are `face`. -/
def FaceOf (c : Given) (i : Int) (j : Option Int) (face : List Int) : Prop :=
  Solid c.type ∧ Proper c.type c.nodeIds ∧ ∃ tab f a b, table c.type = some tab ∧ f ∈ tab ∧ Identifies c.type f a b ∧
    i = idOf c.nodeIds a ∧ j = b.map (idOf c.nodeIds) ∧ face = f.map (idOf c.nodeIds)

/-- The load acts on the cell `p` alone, directly or by groups of the mesh. -/
def ActsOn (m : Mesh) (on : Container) (p : Nat) : Prop :=
  p ∈ positionsOf m on ∧ (∀ q ∈ positionsOf m on, q = p) ∧ ∀ name ∈ on.groups, (m.cellGroups.find name).isSome

/-- What a load asks for: nothing (`none`), or a face of the solid cell it acts on. -/
def Wants (m : Mesh) (g : List Given) (l : Load) : Option (List Int) → Prop
  | none => l.face = none
  | some face => ∃ p1 p2 p c i j, l.face = some (p1, p2) ∧ ActsOn m l.on p ∧ g[p]? = some c ∧
      m.nodes.findNodeId p1 = .ok i ∧ p2.map m.nodes.findNodeId = j.map .ok ∧ FaceOf c i j face

/-- The cell made for a face. -/
def skinOf (cid : Int) (t : CellType) (face : List Int) : Given := ⟨cid, t, face, none, 0⟩

/-- `new` are the cells made for `faces`, in order: each has the nodes of its face, in order, and the type of that many nodes. -/
def SkinsOf (faces : List (List Int)) (new : List Given) : Prop :=
  List.Forall₂ (fun face (c : Given) => c.nodeIds = face ∧ surfaceType face.length = some c.type ∧ c.elementId = none ∧ c.offset = 0)
    faces new

/-! ## Lemmas -/

theorem skinType_eq (order : List CellType) (h : ∀ t, t ∈ order) (n : Nat) : skinType order n = surfaceType n := by
  unfold skinType
  cases hf : order.find? (fun t => t.dim == 2 && n == t.numNodes) with
  | some t =>
    have := List.find?_some hf
    simp only [Bool.and_eq_true, beq_iff_eq] at this
    obtain ⟨h1, rfl⟩ := this
    cases t <;> simp [CellType.dim] at h1 <;> rfl
  | none =>
    rw [List.find?_eq_none] at hf
    have h3 := hf _ (h .tri3); have h4 := hf _ (h .quad4); have h6 := hf _ (h .tri6)
    have h7 := hf _ (h .tri7); have h8 := hf _ (h .quad8); have h9 := hf _ (h .quad9)
    simp only [CellType.dim, CellType.numNodes, beq_self_eq_true, Bool.true_and, beq_iff_eq] at h3 h4 h6 h7 h8 h9
    unfold surfaceType
    split <;> first | rfl | contradiction

theorem surfaceType_spec {n : Nat} {t : CellType} (h : surfaceType n = some t) : t.numNodes = n ∧ t.dim = 2 := by
  unfold surfaceType at h
  split at h <;> first | cases h; done | (simp only [Option.some.injEq] at h; subst h; exact ⟨rfl, rfl⟩)

theorem reach_valid {m : Mesh} {g : List Given} (r : Reach m g) : ∀ c ∈ g, c.Valid := by
  induction r with
  | empty => simp
  | node _ _ _ _ ih => exact ih
  | elsewhere _ _ ih => exact ih
  | add _ c hv _ _ _ ih | create _ c hv _ _ ih | update _ c hv _ _ ih =>
    intro c' h
    rcases List.mem_append.mp h with h | h
    · exact ih c' h
    · rw [List.mem_singleton.mp h]; exact hv
  | newGroup _ _ _ ih => exact ih
  | group _ _ _ _ _ ih => exact ih

theorem faceOf_facts {c : Given} {i : Int} {j : Option Int} {face : List Int} (h : FaceOf c i j face) :
    faceIdsFromTwoNodes c.type c.nodeIds i j = .ok face ∧ face ≠ [] ∧ (∃ t, surfaceType face.length = some t) ∧
      ∀ k ∈ face, k ∈ c.nodeIds := by
  obtain ⟨hs, hp, tab, f, a, b, htab, hf, hid, rfl, rfl, rfl⟩ := h
  refine ⟨C19_named_face _ hs _ hp tab htab f hf a b hid, ?_, ?_, ?_⟩
  · rcases hs with h | h | h | h | h | h | h | h <;> rw [h] at htab <;>
      (simp only [table, Option.some.injEq] at htab; subst htab; fin_cases hf <;> simp)
  · rcases hs with h | h | h | h | h | h | h | h <;> rw [h] at htab <;>
      (simp only [table, Option.some.injEq] at htab; subst htab; fin_cases hf <;> exact ⟨_, rfl⟩)
  · intro k hk
    obtain ⟨n, hn, rfl⟩ := List.mem_map.mp hk
    have := (identifies_pick _ hs f a b tab htab hf hid).2.2.2 n hn
    have h1 := mem_numbers.1 this
    rw [← hp.1] at h1
    exact List.mem_of_getElem? (idOf_get h1)

theorem reserveAll_known (is : List Int) {n : NodeStore} (h : NodeStore.Inv n) (hk : ∀ i ∈ is, i ∈ n.ids) :
    ∃ ps, reserveAll n none is = .ok (n, ps) := by
  induction is with
  | nil => exact ⟨[], rfl⟩
  | cons i is ih =>
    obtain ⟨ps, hps⟩ := ih (fun k hk' => hk k (by simp [hk']))
    obtain ⟨p, hp⟩ := List.getElem?_of_mem (hk i (by simp))
    have hf : n.findNodePosition i = some p := (h.find i p).mpr hp
    refine ⟨p :: ps, ?_⟩
    simp only [reserveAll, NodeStore.findOrReserveNode, NodeStore.mainPart, hf, Outcome.bind_ok, hps]

theorem nodes_of_cell {m : Mesh} {g : List Given} (r : Reach m g) {p : Nat} {c : Given} (hc : g[p]? = some c) :
    ∀ i ∈ c.nodeIds, i ∈ m.nodes.ids ∧ i ≠ AUTO_ID := by
  intro i hi
  refine ⟨?_, (reach_valid r c (List.mem_of_getElem? hc)).2 i hi⟩
  obtain ⟨v, _, _, _, _, _, _, _, h8⟩ := findCell_spec r.cinv p c hc
  have : some i ∈ c.nodeIds.map some := List.mem_map.mpr ⟨i, hi, rfl⟩
  rw [← h8] at this
  obtain ⟨q, _, hq⟩ := List.mem_map.mp this
  exact List.mem_of_getElem? hq

theorem skinCell_spec {order : List CellType} (ho : ∀ t, t ∈ order) {m : Mesh} {g : List Given} (r : Reach m g)
    {face : List Int} {t : CellType} (ht : surfaceType face.length = some t) (hk : ∀ i ∈ face, i ∈ m.nodes.ids ∧ i ≠ AUTO_ID) :
    ∃ m' cid, generateSkinCell order m face = .ok (m', g.length) ∧ Reach m' (g ++ [skinOf cid t face]) ∧ m'.nodes = m.nodes ∧
      m'.cellGroups = m.cellGroups ∧ m.hasCell cid = false ∧ m'.findCellPosition cid = some g.length ∧
      ∀ id, id ≠ cid → m'.findCellPosition id = m.findCellPosition id := by
  obtain ⟨cid, auto, h1, _, h3⟩ := pickCellId_spec m AUTO_ID
  have hv : (skinOf cid t face).Valid := ⟨(surfaceType_spec ht).1.symm, fun i hi => (hk i hi).2⟩
  obtain ⟨m', h4, h5, h6⟩ := addCell_eq r.cinv AUTO_ID (skinOf cid t face) hv cid auto h1
  have hf := h6.findCellId g.length (skinOf cid t face) (by simp [skinOf])
  obtain ⟨ps, hps⟩ := reserveAll_known face r.cinv.nodes (fun i hi => (hk i hi).1)
  have h4' := h4
  unfold addCell at h4'
  rw [h1] at h4'
  simp only [skinOf, Outcome.bind_ok, hps, Outcome.ok.injEq, Prod.mk.injEq] at h4'
  have hpos : m'.cellPosById = m.cellPosById.set cid m.cellDatas.length := by rw [← h4'.1]
  refine ⟨m', cid, ?_, Reach.create r (skinOf cid t face) hv h4 hf, by rw [← h4'.1], h5, by simp [hasCell, h3 rfl], ?_, ?_⟩
  · unfold generateSkinCell
    rw [skinType_eq order ho, ht]
    exact h4
  · rw [findCellPosition, hpos, Map.find_set_self, r.cinv.size]
  · intro id hid
    rw [findCellPosition, hpos, Map.find_set_ne _ _ (fun h => hid h.symm)]
    rfl

theorem medName_inj {a b : Nat} (h : medName a = medName b) : a = b := by
  unfold medName at h
  have := String.ofList_injective h
  simp only [List.cons.injEq, true_and] at this
  have := Med.decimal_inj this
  omega

theorem viewsOf_same {m : Mesh} {v : CellView} {p : Nat} (hv : m.findCell p = .ok v) :
    ∀ ps : List Nat, (∀ q ∈ ps, q = p) → viewsOf m ps = .ok (List.replicate ps.length v)
  | [], _ => rfl
  | q :: ps, h => by
    have := h q (by simp)
    subst this
    simp only [viewsOf, hv, Outcome.bind_ok, viewsOf_same hv ps (fun x hx => h x (by simp [hx])), List.length_cons,
      List.replicate_succ]

theorem cellSet_replicate (v : CellView) (n : Nat) : cellSet (List.replicate (n + 1) v) = [v] := by
  have : ∀ k, (List.replicate k v).foldl (fun acc (v : CellView) =>
      if acc.any (·.position == v.position) then acc else acc ++ [v]) [v] = [v] := by
    intro k
    induction k with
    | zero => rfl
    | succ k ih => simp only [List.replicate_succ, List.foldl_cons, List.any_cons, beq_self_eq_true, List.any_nil, Bool.or_false, if_true, ih]
  unfold cellSet
  rw [List.replicate_succ, List.foldl_cons]
  simpa using this n

theorem secondNode_spec {m : Mesh} {p2 : Option Nat} {j : Option Int} (h : p2.map m.nodes.findNodeId = j.map .ok) :
    secondNode m p2 = .ok j := by
  cases p2 with
  | none => cases j with
    | none => rfl
    | some _ => cases h
  | some p => cases j with
    | none => cases h
    | some j =>
      simp only [Option.map_some, Option.some.injEq] at h
      simp only [secondNode, h, Outcome.bind_ok]

theorem faceOf_wants {m : Mesh} {g : List Given} (r : Reach m g) {l : Load} {face : List Int} (h : Wants m g l (some face)) :
    faceOf m l = .ok face := by
  obtain ⟨p1, p2, p, c, i, j, hl, ⟨hp, hall, _⟩, hc, hi, hj, hface⟩ := h
  obtain ⟨v, hv, _, ht, hn, _⟩ := findCell_spec r.cinv p c hc
  unfold faceOf
  rw [hl]
  simp only [viewsOf_same hv _ hall, Outcome.bind_ok]
  obtain ⟨k, hk⟩ : ∃ k, (positionsOf m l.on).length = k + 1 :=
    ⟨_, (Nat.succ_pred_eq_of_pos (List.length_pos_of_mem hp)).symm⟩
  rw [hk, cellSet_replicate]
  simp only [hi, Outcome.bind_ok, secondNode_spec hj, ht, hn]
  exact (faceOf_facts hface).1

/-- One load that names a face. -/
theorem createSkin_spec {order : List CellType} (ho : ∀ t, t ∈ order) (u : Bool) {m : Mesh} {g : List Given} (r : Reach m g)
    (sk : List Container) {l : Load} {face : List Int} (h : Wants m g l (some face))
    (hfree : m.cellGroups.find (medName g.length) = none) :
    ∃ m' k cid t, createSkin order u ⟨m, sk⟩ l = .ok (⟨m', sk ++ [k]⟩, { l with on := k }) ∧
      surfaceType face.length = some t ∧ Reach m' (g ++ [skinOf cid t face]) ∧ m.hasCell cid = false ∧ m'.nodes = m.nodes ∧
      positionsOf m' k = [g.length] ∧ (∀ name ∈ k.groups, name = medName g.length) ∧
      (∀ name, name ≠ medName g.length → m'.cellGroups.find name = m.cellGroups.find name) := by
  have hf := faceOf_wants r h
  obtain ⟨p1, p2, p, c, i, j, hl, hon, hc, hi, hj, hface⟩ := h
  obtain ⟨_, hne, ⟨t, ht⟩, hmem⟩ := faceOf_facts hface
  obtain ⟨m', cid, h1, h2, h3, h4, h5, h6, _⟩ := skinCell_spec ho r ht (fun k hk => nodes_of_cell r hc k (hmem k hk))
  unfold createSkin
  simp only [hf, Outcome.bind_ok, if_neg hne, h1]
  cases u with
  | false =>
    exact ⟨m', ⟨[g.length], []⟩, cid, t, rfl, ht, h2, h5, h3, by simp [positionsOf], by simp, fun name _ => by rw [h4]⟩
  | true =>
    have hn : medName g.length ≠ "" := by
      intro e
      have := congrArg String.toList e
      simp [medName] at this
    have c1 : m'.createCellGroup (medName g.length) = .ok { m' with cellGroups := m'.cellGroups.set (medName g.length) [] } := by
      unfold createCellGroup
      rw [if_neg hn, h4, hfree]
    have c2 : Mesh.addToGroup { m' with cellGroups := m'.cellGroups.set (medName g.length) [] } (medName g.length) g.length =
        .ok { m' with cellGroups := (m'.cellGroups.set (medName g.length) []).set (medName g.length) [g.length] } := by
      unfold addToGroup
      simp [Map.find_set_self]
    simp only [if_true, c1, Outcome.bind_ok, c2]
    refine ⟨_, ⟨[], [medName g.length]⟩, cid, t, rfl, ht, Reach.group (Reach.newGroup h2 _ c1) _ cid h6 c2, h5, h3, ?_, by simp, ?_⟩
    · simp [positionsOf, groupCells, Map.find_set_self]
    · intro name hname
      simp only
      rw [Map.find_set_ne _ _ (fun e => hname e.symm), Map.find_set_ne _ _ (fun e => hname e.symm), h4]

/-- What a load asks for does not change when another skin is made. -/
theorem wants_later {m m' : Mesh} {g : List Given} {x : Given} {l : Load} {w : Option (List Int)} (name : String)
    (hfree : m.cellGroups.find name = none) (hn : m'.nodes = m.nodes)
    (hg : ∀ n, n ≠ name → m'.cellGroups.find n = m.cellGroups.find n) (h : Wants m g l w) : Wants m' (g ++ [x]) l w := by
  cases w with
  | none => exact h
  | some face =>
    obtain ⟨p1, p2, p, c, i, j, hl, ⟨hp, hall, hex⟩, hc, hi, hj, hface⟩ := h
    have hne : ∀ n ∈ l.on.groups, n ≠ name := by
      rintro n hn' rfl
      have := hex _ hn'
      rw [hfree] at this
      cases this
    have hpos : positionsOf m' l.on = positionsOf m l.on := by
      unfold positionsOf
      congr 1
      rw [List.flatMap_def, List.flatMap_def]
      congr 1
      apply List.map_congr_left
      intro n hn'
      unfold groupCells
      rw [hg n (hne n hn')]
    refine ⟨p1, p2, p, c, i, j, hl, ⟨by rwa [hpos], by rwa [hpos], fun n hn' => by rw [hg n (hne n hn')]; exact hex n hn'⟩, ?_,
      by rwa [hn], by rwa [hn], hface⟩
    rw [List.getElem?_append_left (List.getElem?_eq_some_iff.mp hc).1]
    exact hc

/-- Each load that named a face acts, in the final mesh, on one cell and on nothing else: the cells from `n` on, in order, directly
or by a group with the name of the cell. The others are as before. -/
def Placed (m : Mesh) : Nat → List (Option (List Int)) → List Load → List Load → Prop
  | _, [], [], [] => True
  | n, none :: ws, l :: ls, l' :: ls' => l' = l ∧ Placed m n ws ls ls'
  | n, some _ :: ws, l :: ls, l' :: ls' => l'.face = l.face ∧ positionsOf m l'.on = [n] ∧
      (∀ name ∈ l'.on.groups, name = medName n) ∧ Placed m (n + 1) ws ls ls'
  | _, _, _, _ => False

/-- What making skins leaves as it is: the nodes, the positions of the cells there were, the groups of other names. -/
structure Kept (m m' : Mesh) (mine : String → Prop) : Prop where
  nodes : m'.nodes = m.nodes
  cells : ∀ id, m.hasCell id = true → m'.findCellPosition id = m.findCellPosition id
  groups : ∀ name, ¬ mine name → m'.cellGroups.find name = m.cellGroups.find name

theorem Kept.has {m m' : Mesh} {mine : String → Prop} (h : Kept m m' mine) {id : Int} (hi : m.hasCell id = true) :
    m'.hasCell id = true := by
  have := h.cells id hi
  unfold hasCell findCellPosition at *
  rw [this]; exact hi

theorem Kept.trans {m m1 m2 : Mesh} {a b : String → Prop} (h : Kept m m1 a) (h' : Kept m1 m2 b) :
    Kept m m2 (fun n => a n ∨ b n) :=
  ⟨h'.nodes.trans h.nodes, fun id hi => (h'.cells id (h.has hi)).trans (h.cells id hi),
    fun n hn => (h'.groups n (fun hb => hn (.inr hb))).trans (h.groups n (fun ha => hn (.inl ha)))⟩

theorem Kept.mono {m m' : Mesh} {a b : String → Prop} (h : Kept m m' a) (hab : ∀ n, a n → b n) : Kept m m' b :=
  ⟨h.nodes, h.cells, fun n hn => h.groups n (fun ha => hn (hab n ha))⟩

/-- Old cells keep their positions when the new cells have new numbers. -/
theorem positions_later {m m' : Mesh} {g : List Given} (r : Reach m g) {c : Given} (r' : Reach m' (g ++ [c]))
    (hnew : m.hasCell c.id = false) : ∀ id, m.hasCell id = true → m'.findCellPosition id = m.findCellPosition id := by
  intro id hi
  have hne : id ≠ c.id := by rintro rfl; rw [hnew] at hi; cases hi
  obtain ⟨p, hp⟩ := Option.isSome_iff_exists.mp hi
  have hp' := hp
  rw [findCellPosition, findCellPosition, hp]
  rw [r.cinv.index] at hp'
  obtain ⟨⟨c0, hc0, hid⟩, hlast⟩ := hp'
  rw [r'.cinv.index]
  have hlt := (List.getElem?_eq_some_iff.mp hc0).1
  refine ⟨⟨c0, by rw [List.getElem?_append_left hlt]; exact hc0, hid⟩, ?_⟩
  intro q c' hq hc' e
  by_cases hql : q < g.length
  · rw [List.getElem?_append_left hql] at hc'
    exact hlast q c' hq hc' e
  · rw [List.getElem?_append_right (by omega)] at hc'
    have : c' ∈ [c] := List.mem_of_getElem? hc'
    rw [List.mem_singleton.mp this] at e
    exact hne e.symm

theorem skinLoads_spec {order : List CellType} (ho : ∀ t, t ∈ order) (u : Bool) :
    ∀ (ls : List Load) (ws : List (Option (List Int))) (m : Mesh) (g : List Given) (sk : List Container), Reach m g →
      List.Forall₂ (Wants m g) ls ws → (∀ k, g.length ≤ k → m.cellGroups.find (medName k) = none) →
      ∃ m' added ls' new, skinLoads order u ⟨m, sk⟩ ls = .ok (⟨m', sk ++ added⟩, ls') ∧ Reach m' (g ++ new) ∧
        SkinsOf (ws.filterMap id) new ∧ Placed m' g.length ws ls ls' ∧
        added.map (positionsOf m') = (List.range' g.length new.length).map ([·]) ∧
        (∀ k ∈ added, ∀ name ∈ k.groups, ∃ q, name = medName q) ∧
        Kept m m' (fun n => ∃ k, g.length ≤ k ∧ n = medName k)
  | [], ws, m, g, sk, r, h, _ => by
    cases h
    exact ⟨m, [], [], [], by simp [skinLoads], by simpa using r, .nil, trivial, rfl, by simp, ⟨rfl, fun _ _ => rfl, fun _ _ => rfl⟩⟩
  | l :: ls, _, m, g, sk, r, .cons (b := w) (l₂ := ws) hw hws, hfree => by
    cases w with
    | none =>
      obtain ⟨m', added, ls', new, h1, h2, h3, h4, h5, h7, h6⟩ := skinLoads_spec ho u ls ws m g sk r hws hfree
      refine ⟨m', added, l :: ls', new, ?_, h2, h3, ⟨rfl, h4⟩, h5, h7, h6⟩
      have hf : faceOf m l = .ok [] := by unfold faceOf; rw [show l.face = none from hw]
      simp only [skinLoads, createSkin, hf, Outcome.bind_ok, if_true, h1]
    | some face =>
      obtain ⟨m1, k, cid, t, c1, c2, c3, c4, c5, c6, c7, c8⟩ := createSkin_spec ho u r sk hw (hfree _ (le_refl _))
      have hfree' : ∀ k, (g ++ [skinOf cid t face]).length ≤ k → m1.cellGroups.find (medName k) = none := by
        intro k hk
        simp only [List.length_append, List.length_singleton] at hk
        rw [c8 _ (fun e => by have := medName_inj e; omega)]
        exact hfree k (by omega)
      have hws' : List.Forall₂ (Wants m1 (g ++ [skinOf cid t face])) ls ws :=
        hws.imp (fun _ _ h => wants_later _ (hfree _ (le_refl _)) c5 c8 h)
      obtain ⟨m', added, ls', new, h1, h2, h3, h4, h5, h7, h6⟩ := skinLoads_spec ho u ls ws m1 _ (sk ++ [k]) c3 hws' hfree'
      simp only [List.length_append, List.length_singleton] at h4 h5 h6
      have hk : positionsOf m' k = [g.length] := by
        rw [← c6]
        unfold positionsOf
        congr 1
        rw [List.flatMap_def, List.flatMap_def]
        congr 1
        apply List.map_congr_left
        intro n hn
        unfold groupCells
        rw [h6.groups n]
        rintro ⟨q, hq, e⟩
        rw [c7 n hn] at e
        have := medName_inj e
        omega
      refine ⟨m', k :: added, { l with on := k } :: ls', skinOf cid t face :: new, ?_, by simpa using h2, ?_, ⟨rfl, hk, c7, h4⟩, ?_, ?_, ?_⟩
      · simp only [skinLoads, c1, Outcome.bind_ok, h1, List.append_assoc, List.singleton_append]
      · exact .cons ⟨rfl, c2, rfl, rfl⟩ h3
      · rw [List.map_cons, hk, h5, List.length_cons, List.range'_succ, List.map_cons]
      · intro x hx name hn
        rcases List.mem_cons.mp hx with rfl | hx
        · exact ⟨_, c7 name hn⟩
        · exact h7 x hx name hn
      · have k1 : Kept m m1 (fun n => n = medName g.length) := ⟨c5, positions_later r c3 c4, c8⟩
        exact (k1.trans h6).mono (by
          rintro n (rfl | ⟨q, hq, rfl⟩)
          · exact ⟨_, le_refl _, rfl⟩
          · exact ⟨q, by omega, rfl⟩)

/-! ## Surfaces -/

/-- What a face of a surface asks for. -/
def SurfaceFace (m : Mesh) (g : List Given) (f : FaceInfo) (face : List Int) : Prop :=
  ∃ p c, m.findCellPosition f.cell = some p ∧ g[p]? = some c ∧ FaceOf c f.node1 f.node2 face

theorem surfaceFace_later {m m' : Mesh} {g new : List Given} {mine : String → Prop} (h : Kept m m' mine) {f : FaceInfo}
    {face : List Int} (hf : SurfaceFace m g f face) : SurfaceFace m' (g ++ new) f face := by
  obtain ⟨p, c, h1, h2, h3⟩ := hf
  refine ⟨p, c, ?_, ?_, h3⟩
  · rw [h.cells _ (by unfold hasCell; rw [show m.cellPosById.find f.cell = some p from h1]; rfl)]; exact h1
  · rw [List.getElem?_append_left (List.getElem?_eq_some_iff.mp h2).1]; exact h2

theorem addToGroup_ok {m : Mesh} {name : String} (h : (m.cellGroups.find name).isSome) (p : Nat) :
    ∃ m', m.addToGroup name p = .ok m' ∧ (∃ gs, m' = { m with cellGroups := gs }) ∧
      (∀ q, q ∈ groupCells m' name ↔ q = p ∨ q ∈ groupCells m name) ∧ (m'.cellGroups.find name).isSome ∧
      ∀ n, n ≠ name → m'.cellGroups.find n = m.cellGroups.find n := by
  obtain ⟨ps, hps⟩ := Option.isSome_iff_exists.mp h
  refine ⟨{ m with cellGroups := m.cellGroups.set name (if p ∈ ps then ps else p :: ps) }, ?_, ⟨_, rfl⟩, ?_, ?_, ?_⟩
  · unfold addToGroup; rw [hps]
  · intro q
    simp only [groupCells, Map.find_set_self, hps]
    split
    · constructor
      · exact .inr
      · rintro (rfl | h)
        · assumption
        · exact h
    · simp
  · simp [Map.find_set_self]
  · intro n hn
    simp only
    rw [Map.find_set_ne _ _ (fun e => hn e.symm)]

theorem surfaceTurn_spec {order : List CellType} (ho : ∀ t, t ∈ order) {surf elem : String} (hse : surf ≠ elem) {m : Mesh}
    {g : List Given} (r : Reach m g) (h1 : (m.cellGroups.find surf).isSome) (h2 : (m.cellGroups.find elem).isSome) {f : FaceInfo}
    {face : List Int} (hf : SurfaceFace m g f face) :
    ∃ m' cid t p, surfaceTurn order surf elem m f = .ok m' ∧ surfaceType face.length = some t ∧
      Reach m' (g ++ [skinOf cid t face]) ∧ m.findCellPosition f.cell = some p ∧ Kept m m' (fun n => n = surf ∨ n = elem) ∧
      (m'.cellGroups.find surf).isSome ∧ (m'.cellGroups.find elem).isSome ∧
      (∀ q, q ∈ groupCells m' surf ↔ q = g.length ∨ q ∈ groupCells m surf) ∧
      (∀ q, q ∈ groupCells m' elem ↔ q = p ∨ q ∈ groupCells m elem) := by
  obtain ⟨p, c, hp, hc, hface⟩ := hf
  obtain ⟨hnodes, hne, ⟨t, ht⟩, hmem⟩ := faceOf_facts hface
  obtain ⟨m1, a1, ⟨gs, a2⟩, a3, a4, a5⟩ := addToGroup_ok h2 p
  have r1 : Reach m1 g := Reach.group r elem f.cell hp a1
  obtain ⟨v, hv, _, hvt, hvn, _⟩ := findCell_spec r1.cinv p c hc
  obtain ⟨m2, cid, b1, b2, b3, b4, b5, b6, _⟩ := skinCell_spec ho r1 ht (fun k hk => nodes_of_cell r1 hc k (hmem k hk))
  have h1' : (m2.cellGroups.find surf).isSome := by rw [b4, a5 _ hse]; exact h1
  obtain ⟨m3, d1, ⟨gs', d2⟩, d3, d4, d5⟩ := addToGroup_ok h1' g.length
  have hg : ∀ n, n ≠ elem → groupCells m2 n = groupCells m n := by
    intro n hn; unfold groupCells; rw [b4, a5 n hn]
  have hcell : m1.hasCell = m.hasCell := by rw [a2]; rfl
  have hpos : m1.findCellPosition = m.findCellPosition := by rw [a2]; rfl
  refine ⟨m3, cid, t, p, ?_, ht, Reach.group b2 surf cid b6 d1, hp, ⟨?_, ?_, ?_⟩, d4, ?_, ?_, ?_⟩
  · unfold surfaceTurn
    rw [hp]
    simp only [a1, Outcome.bind_ok, hv, hvt, hvn, hnodes, if_neg hne, b1]
    exact d1
  · rw [d2]; simp only; rw [b3, a2]
  · intro id hi
    have := positions_later r1 b2 b5 id (by rw [hcell]; exact hi)
    rw [d2]
    show m2.findCellPosition id = _
    rw [this, hpos]
  · intro n hn
    rw [d5 n (fun e => hn (.inl e)), b4, a5 n (fun e => hn (.inr e))]
  · rw [d5 _ hse.symm, b4]; exact a4
  · intro q
    rw [d3, hg _ hse]
  · intro q
    rw [← a3 q]
    unfold groupCells
    rw [d5 _ hse.symm, b4]

theorem surfaceLoop_spec {order : List CellType} (ho : ∀ t, t ∈ order) {surf elem : String} (hse : surf ≠ elem) :
    ∀ (fs : List FaceInfo) (faces : List (List Int)) (m : Mesh) (g : List Given), Reach m g → (m.cellGroups.find surf).isSome →
      (m.cellGroups.find elem).isSome → List.Forall₂ (SurfaceFace m g) fs faces →
      ∃ m' new, surfaceLoop order surf elem m fs = .ok m' ∧ Reach m' (g ++ new) ∧ SkinsOf faces new ∧
        Kept m m' (fun n => n = surf ∨ n = elem) ∧
        (∀ q, q ∈ groupCells m' surf ↔ (g.length ≤ q ∧ q < g.length + new.length) ∨ q ∈ groupCells m surf) ∧
        (∀ q, q ∈ groupCells m' elem ↔ (∃ f ∈ fs, m.findCellPosition f.cell = some q) ∨ q ∈ groupCells m elem)
  | [], faces, m, g, r, _, _, h => by
    cases h
    refine ⟨m, [], rfl, by simpa using r, .nil, ⟨rfl, fun _ _ => rfl, fun _ _ => rfl⟩, ?_, ?_⟩
    · intro q
      constructor
      · exact .inr
      · rintro (⟨h, h'⟩ | h)
        · simp only [List.length_nil] at h'; omega
        · exact h
    · intro q; simp
  | f :: fs, _, m, g, r, h1, h2, .cons (b := face) (l₂ := faces) hf hfs => by
    obtain ⟨m1, cid, t, p, a1, a2, a3, a4, a5, a6, a7, a8, a9⟩ := surfaceTurn_spec ho hse r h1 h2 hf
    obtain ⟨m', new, b1, b2, b3, b4, b5, b6⟩ := surfaceLoop_spec ho hse fs faces m1 _ a3 a6 a7
      (hfs.imp (fun _ _ h => surfaceFace_later a5 h))
    refine ⟨m', skinOf cid t face :: new, ?_, by simpa using b2, .cons ⟨rfl, a2, rfl, rfl⟩ b3,
      (a5.trans b4).mono (fun n h => h.elim (fun x => x) (fun x => x)), ?_, ?_⟩
    · simp only [surfaceLoop, a1, Outcome.bind_ok, b1]
    · intro q
      rw [b5, a8, List.length_append, List.length_singleton, List.length_cons]
      constructor
      · rintro (h | h | h)
        · exact .inl (by omega)
        · exact .inl (by omega)
        · exact .inr h
      · rintro (h | h)
        · by_cases e : q = g.length
          · exact .inr (.inl e)
          · exact .inl (by omega)
        · exact .inr (.inr h)
    · intro q
      rw [b6, a9]
      have hsame : ∀ f' ∈ fs, m1.findCellPosition f'.cell = m.findCellPosition f'.cell := by
        intro f' hf'
        obtain ⟨k, hk⟩ := List.getElem?_of_mem hf'
        obtain ⟨face', _, hs⟩ : ∃ face', face' ∈ faces ∧ SurfaceFace m g f' face' := by
          clear b1 b2 b3 b4 b5 b6 hk
          induction hfs with
          | nil => cases hf'
          | cons h _ ih =>
            rcases List.mem_cons.mp hf' with rfl | h'
            · exact ⟨_, by simp, h⟩
            · obtain ⟨x, hx, hs⟩ := ih h'
              exact ⟨x, by simp [hx], hs⟩
        obtain ⟨p', _, hp', _⟩ := hs
        exact a5.cells _ (by unfold hasCell; rw [show m.cellPosById.find f'.cell = some p' from hp']; rfl)
      constructor
      · rintro (⟨f', hf', h⟩ | h | h)
        · exact .inl ⟨f', by simp [hf'], by rw [← hsame f' hf']; exact h⟩
        · exact .inl ⟨f, by simp, by rw [h]; exact a4⟩
        · exact .inr h
      · rintro (⟨f', hf', h⟩ | h)
        · rcases List.mem_cons.mp hf' with rfl | hf'
          · rw [a4] at h
            simp only [Option.some.injEq] at h
            exact .inr (.inl h.symm)
          · exact .inl ⟨f', hf', by rw [hsame f' hf']; exact h⟩
        · exact .inr (.inr h)

/-! ## Names of the groups -/

theorem surfName_inj {a b : Nat} (h : surfName a = surfName b) : a = b := by
  have := String.ofList_injective h
  exact Med.decimal_inj (List.append_cancel_left this)

theorem elemName_inj {a b : Nat} (h : elemName a = elemName b) : a = b := by
  have := String.ofList_injective h
  exact Med.decimal_inj (List.append_cancel_left this)

theorem surf_ne_elem (a b : Nat) : surfName a ≠ elemName b := by
  intro h
  have := String.ofList_injective h
  rw [show "SURFO".toList = "SURF".toList ++ ['O'] from rfl, List.append_assoc] at this
  have h2 := List.append_cancel_left this
  have : 'O' ∈ Med.decimal a := by rw [h2]; simp
  have := Aster.decimal_digits a 'O' this
  revert this
  decide

theorem surf_ne_med (a b : Nat) : surfName a ≠ medName b := by
  intro h
  have := String.ofList_injective h
  have := congrArg List.head? this
  revert this
  simp

theorem elem_ne_med (a b : Nat) : elemName a ≠ medName b := by
  intro h
  have := String.ofList_injective h
  have := congrArg List.head? this
  revert this
  simp

/-- The names that the skins of a surface take. -/
def Mine (id : Nat) (n : String) : Prop := n = surfName id ∨ n = elemName id

theorem createGroup_ok {m : Mesh} {name : String} (hn : name ≠ "") (h : m.cellGroups.find name = none) :
    m.createCellGroup name = .ok { m with cellGroups := m.cellGroups.set name [] } := by
  unfold createCellGroup; rw [if_neg hn, h]

theorem surfaceSkin_spec {order : List CellType} (ho : ∀ t, t ∈ order) {m : Mesh} {g : List Given} (r : Reach m g)
    (sk : List Container) (id : Nat) {fs : List FaceInfo} {faces : List (List Int)} (h : List.Forall₂ (SurfaceFace m g) fs faces)
    (h1 : m.cellGroups.find (surfName id) = none) (h2 : m.cellGroups.find (elemName id) = none) :
    ∃ m' new, surfaceSkin order ⟨m, sk⟩ id fs = .ok ⟨m', sk ++ [⟨[], [surfName id]⟩]⟩ ∧ Reach m' (g ++ new) ∧ SkinsOf faces new ∧
      Kept m m' (Mine id) ∧ (∀ q, q ∈ groupCells m' (surfName id) ↔ g.length ≤ q ∧ q < g.length + new.length) ∧
      (∀ q, q ∈ groupCells m' (elemName id) ↔ ∃ f ∈ fs, m.findCellPosition f.cell = some q) := by
  have hs : surfName id ≠ "" := by
    intro e
    have := String.ofList_injective (e.trans (show "" = String.ofList [] from rfl))
    exact absurd (List.append_eq_nil_iff.mp this).1 (by decide)
  have he : elemName id ≠ "" := by
    intro e
    have := String.ofList_injective (e.trans (show "" = String.ofList [] from rfl))
    exact absurd (List.append_eq_nil_iff.mp this).1 (by decide)
  have c1 := createGroup_ok hs h1
  have c2 := createGroup_ok (m := { m with cellGroups := m.cellGroups.set (surfName id) [] }) he
    (by simp only; rw [Map.find_set_ne _ _ (surf_ne_elem id id), h2])
  have r2 := Reach.newGroup (Reach.newGroup r _ c1) _ c2
  have k2 : Kept m { m with cellGroups := (m.cellGroups.set (surfName id) []).set (elemName id) [] } (Mine id) := by
    refine ⟨rfl, fun _ _ => rfl, ?_⟩
    intro n hn
    simp only
    rw [Map.find_set_ne _ _ (fun e => hn (.inr e.symm)), Map.find_set_ne _ _ (fun e => hn (.inl e.symm))]
  have e1 : groupCells { m with cellGroups := (m.cellGroups.set (surfName id) []).set (elemName id) [] } (surfName id) = [] := by
    simp only [groupCells]
    rw [Map.find_set_ne _ _ (surf_ne_elem id id).symm, Map.find_set_self]
  have e2 : groupCells { m with cellGroups := (m.cellGroups.set (surfName id) []).set (elemName id) [] } (elemName id) = [] := by
    simp only [groupCells, Map.find_set_self]
  obtain ⟨m', new, b1, b2, b3, b4, b5, b6⟩ := surfaceLoop_spec ho (surf_ne_elem id id) fs faces _ g r2
    (by simp only; rw [Map.find_set_ne _ _ (surf_ne_elem id id).symm, Map.find_set_self]; rfl)
    (by simp only; rw [Map.find_set_self]; rfl)
    (h.imp (fun _ _ hf => by
      have := surfaceFace_later (new := []) k2 hf
      rw [List.append_nil] at this
      exact this))
  refine ⟨m', new, ?_, b2, b3, (k2.trans b4).mono (fun n h => h.elim (fun x => x) (fun x => x)), ?_, ?_⟩
  · unfold surfaceSkin
    simp only [c1, Outcome.bind_ok, c2, b1]
  · intro q; rw [b5, e1]; simp
  · intro q; rw [b6, e2]; simp [findCellPosition]

/-- The groups of the surfaces in the final mesh `m'`: the new cells of the surface, in its turn, and the solids there were in the
mesh `m`. -/
def Surfaces (m m' : Mesh) : Nat → List (Nat × List FaceInfo) → Prop
  | _, [] => True
  | n, t :: ts => (∀ q, q ∈ groupCells m' (surfName t.1) ↔ n ≤ q ∧ q < n + t.2.length) ∧
      (∀ q, q ∈ groupCells m' (elemName t.1) ↔ ∃ f ∈ t.2, m.findCellPosition f.cell = some q) ∧ Surfaces m m' (n + t.2.length) ts

theorem surfaces_start {m m1 m' : Mesh} (ts : List (Nat × List FaceInfo)) (n : Nat)
    (h : ∀ t ∈ ts, ∀ f ∈ t.2, m1.findCellPosition f.cell = m.findCellPosition f.cell) (hs : Surfaces m1 m' n ts) :
    Surfaces m m' n ts := by
  induction ts generalizing n with
  | nil => trivial
  | cons t ts ih =>
    refine ⟨hs.1, ?_, ih _ (fun t' ht' => h t' (by simp [ht'])) hs.2.2⟩
    intro q
    rw [hs.2.1 q]
    constructor
    · rintro ⟨f, hf, e⟩; exact ⟨f, hf, by rw [← h t (by simp) f hf]; exact e⟩
    · rintro ⟨f, hf, e⟩; exact ⟨f, hf, by rw [h t (by simp) f hf]; exact e⟩

theorem forall2_known {m : Mesh} {g : List Given} {fs : List FaceInfo} {faces : List (List Int)}
    (h : List.Forall₂ (SurfaceFace m g) fs faces) : fs.length = faces.length ∧ ∀ f ∈ fs, m.hasCell f.cell = true := by
  refine ⟨h.length_eq, ?_⟩
  induction h with
  | nil => simp
  | cons hf _ ih =>
    intro f h
    rcases List.mem_cons.mp h with rfl | h
    · obtain ⟨p, _, hp, _⟩ := hf
      unfold hasCell
      rw [show m.cellPosById.find f.cell = some p from hp]; rfl
    · exact ih f h

theorem forall2_known' {m : Mesh} {g : List Given} {ts : List (Nat × List FaceInfo)} {facess : List (List (List Int))}
    (h : List.Forall₂ (fun t faces => List.Forall₂ (SurfaceFace m g) t.2 faces) ts facess) :
    ∀ t ∈ ts, ∀ f ∈ t.2, m.hasCell f.cell = true := by
  induction h with
  | nil => simp
  | cons hf _ ih =>
    intro t ht f h
    rcases List.mem_cons.mp ht with rfl | ht
    · exact (forall2_known hf).2 f h
    · exact ih t ht f h

theorem skinsOf_append {a b : List (List Int)} {x y : List Given} (h : SkinsOf a x) (h' : SkinsOf b y) : SkinsOf (a ++ b) (x ++ y) :=
  List.rel_append h h'

theorem skinTargets_spec {order : List CellType} (ho : ∀ t, t ∈ order) :
    ∀ (ts : List (Nat × List FaceInfo)) (facess : List (List (List Int))) (m : Mesh) (g : List Given) (sk : List Container),
      Reach m g → List.Forall₂ (fun t faces => List.Forall₂ (SurfaceFace m g) t.2 faces) ts facess → (ts.map (·.1)).Nodup →
      (∀ t ∈ ts, m.cellGroups.find (surfName t.1) = none ∧ m.cellGroups.find (elemName t.1) = none) →
      ∃ m' new, skinTargets order ⟨m, sk⟩ ts = .ok ⟨m', sk ++ ts.map (fun t => ⟨[], [surfName t.1]⟩)⟩ ∧ Reach m' (g ++ new) ∧
        SkinsOf facess.flatten new ∧ Surfaces m m' g.length ts ∧ Kept m m' (fun n => ∃ t ∈ ts, Mine t.1 n)
  | [], facess, m, g, sk, r, h, _, _ => by
    cases h
    exact ⟨m, [], by simp [skinTargets], by simpa using r, .nil, trivial, ⟨rfl, fun _ _ => rfl, fun _ _ => rfl⟩⟩
  | t :: ts, _, m, g, sk, r, .cons (b := faces) (l₂ := facess) hf hfs, hnd, hfree => by
    obtain ⟨m1, new1, a1, a2, a3, a4, a5, a6⟩ := surfaceSkin_spec ho r sk t.1 hf (hfree t (by simp)).1 (hfree t (by simp)).2
    simp only [List.map_cons, List.nodup_cons] at hnd
    have hother : ∀ t' ∈ ts, ∀ n, Mine t'.1 n → ¬ Mine t.1 n := by
      intro t' ht' n h1 h2
      have hne : t'.1 ≠ t.1 := fun e => hnd.1 (by rw [← e]; exact List.mem_map_of_mem ht')
      rcases h1 with rfl | rfl <;> rcases h2 with h2 | h2
      · exact hne (surfName_inj h2)
      · exact surf_ne_elem _ _ h2
      · exact surf_ne_elem _ _ h2.symm
      · exact hne (elemName_inj h2)
    have hfree' : ∀ t' ∈ ts, m1.cellGroups.find (surfName t'.1) = none ∧ m1.cellGroups.find (elemName t'.1) = none := by
      intro t' ht'
      rw [a4.groups _ (hother t' ht' _ (.inl rfl)), a4.groups _ (hother t' ht' _ (.inr rfl))]
      exact hfree t' (by simp [ht'])
    obtain ⟨m', new, b1, b2, b3, b4, b5⟩ := skinTargets_spec ho ts facess m1 _ (sk ++ [⟨[], [surfName t.1]⟩]) a2
      (hfs.imp (fun _ _ h => h.imp (fun _ _ hf => surfaceFace_later a4 hf))) hnd.2 hfree'
    have hlen : new1.length = t.2.length := by
      have := a3.length_eq
      have h' := (forall2_known hf).1
      omega
    have hmine : ∀ n, Mine t.1 n → groupCells m' n = groupCells m1 n := by
      intro n hn
      unfold groupCells
      rw [b5.groups n (by rintro ⟨t', ht', h⟩; exact hother t' ht' n h hn)]
    refine ⟨m', new1 ++ new, ?_, by simpa using b2, ?_, ⟨?_, ?_, ?_⟩, ?_⟩
    · simp only [skinTargets, a1, Outcome.bind_ok, b1, List.append_assoc, List.singleton_append, List.map_cons]
    · rw [List.flatten_cons]; exact skinsOf_append a3 b3
    · intro q; rw [hmine _ (.inl rfl), a5, hlen]
    · intro q; rw [hmine _ (.inr rfl), a6]
    · rw [List.length_append, hlen] at b4
      exact surfaces_start ts _ (fun t' ht' f hf' => a4.cells _ (forall2_known' hfs t' ht' f hf')) b4
    · refine (a4.trans b5).mono ?_
      rintro n (h | ⟨t', ht', h⟩)
      · exact ⟨t, by simp, h⟩
      · exact ⟨t', by simp [ht'], h⟩

theorem placed_later {m m' : Mesh} (h : ∀ c : Container, (∀ name ∈ c.groups, ∃ k, name = medName k) → positionsOf m' c = positionsOf m c) :
    ∀ (ws : List (Option (List Int))) (ls ls' : List Load) (n : Nat), Placed m n ws ls ls' → Placed m' n ws ls ls'
  | [], [], [], _, _ => trivial
  | none :: ws, _ :: ls, _ :: ls', n, hp => ⟨hp.1, placed_later h ws ls ls' n hp.2⟩
  | some _ :: ws, _ :: ls, _ :: ls', n, hp =>
    ⟨hp.1, by rw [h _ (fun name hn => ⟨n, hp.2.2.1 name hn⟩)]; exact hp.2.1, hp.2.2.1, placed_later h ws ls ls' (n + 1) hp.2.2.2⟩
  | [], [], _ :: _, _, hp | [], _ :: _, _, _, hp => by simp [Placed] at hp
  | none :: _, [], _, _, hp | some _ :: _, [], _, _, hp => by simp [Placed] at hp
  | none :: _, _ :: _, [], _, hp | some _ :: _, _ :: _, [], _, hp => by simp [Placed] at hp

/-! ## Properties -/

/-- **C153.** The type of a new surface cell depends on the number of nodes of the face alone, in whatever order the table of types
is visited; a number of nodes that no surface has is refused. -/
theorem C153_type (order : List CellType) (h : ∀ t, t ∈ order) (n : Nat) : skinType order n = surfaceType n :=
  skinType_eq order h n

/-- **C153.** In every mesh, for every list of loads on cells of which those that name a face act each on one solid cell and name a
face of it in Nastran's way, and for every list of surfaces made of faces of solids, one new cell is made for every face, loads
first, in order, with the nodes of the face in order and the surface type of that number of nodes. Each load that named a face acts
on its new cell alone and the others are as they were. Each surface has a group with its new cells alone and a group with its
solids. All new cells are in element sets of skins. The cells and nodes there were are unchanged. Required: the names of the groups
are free. -/
theorem C153_skins (order : List CellType) (ho : ∀ t, t ∈ order) (u : Bool) {m : Mesh} {g : List Given} (r : Reach m g)
    (sk : List Container) (ls : List Load) (ws : List (Option (List Int))) (hls : List.Forall₂ (Wants m g) ls ws)
    (ts : List (Nat × List FaceInfo)) (facess : List (List (List Int)))
    (hts : List.Forall₂ (fun t faces => List.Forall₂ (SurfaceFace m g) t.2 faces) ts facess) (hnd : (ts.map (·.1)).Nodup)
    (hfreeM : ∀ k, g.length ≤ k → m.cellGroups.find (medName k) = none)
    (hfreeS : ∀ t ∈ ts, m.cellGroups.find (surfName t.1) = none ∧ m.cellGroups.find (elemName t.1) = none) :
    ∃ m' added ls' new new', generateSkin order u ⟨m, sk⟩ ls ts = .ok (⟨m', sk ++ added⟩, ls') ∧
      Reach m' (g ++ new ++ new') ∧ SkinsOf (ws.filterMap id) new ∧ SkinsOf facess.flatten new' ∧
      Placed m' g.length ws ls ls' ∧ Surfaces m m' (g.length + new.length) ts ∧
      (∀ q, (∃ k ∈ added, q ∈ positionsOf m' k) ↔ g.length ≤ q ∧ q < g.length + new.length + new'.length) ∧
      m'.nodes = m.nodes ∧
      ∀ p c, (g ++ new ++ new')[p]? = some c → ∃ v, m'.findCell p = .ok v ∧ v.id = c.id ∧ v.type = c.type ∧ v.nodeIds = c.nodeIds := by
  obtain ⟨m1, added, ls', new, h1, h2, h3, h4, h5, h7, h6⟩ := skinLoads_spec ho u ls ws m g sk r hls hfreeM
  have hnotmed : ∀ t ∈ ts, ∀ n, Mine t.1 n → ¬ ∃ k, g.length ≤ k ∧ n = medName k := by
    rintro t _ n (rfl | rfl) ⟨k, _, e⟩
    · exact surf_ne_med _ _ e
    · exact elem_ne_med _ _ e
  obtain ⟨m', new', b1, b2, b3, b4, b5⟩ := skinTargets_spec ho ts facess m1 (g ++ new) (sk ++ added) h2
    (hts.imp (fun _ _ h => h.imp (fun _ _ hf => surfaceFace_later h6 hf))) hnd
    (fun t ht => by
      rw [h6.groups _ (hnotmed t ht _ (.inl rfl)), h6.groups _ (hnotmed t ht _ (.inr rfl))]
      exact hfreeS t ht)
  have hkeep : ∀ n, (∃ k, n = medName k) → groupCells m' n = groupCells m1 n := by
    rintro n ⟨k, rfl⟩
    unfold groupCells
    rw [b5.groups]
    rintro ⟨t, _, h | h⟩
    · exact surf_ne_med _ _ h.symm
    · exact elem_ne_med _ _ h.symm
  have hpos : ∀ c : Container, (∀ name ∈ c.groups, ∃ k, name = medName k) → positionsOf m' c = positionsOf m1 c := by
    intro c hc
    unfold positionsOf
    congr 1
    rw [List.flatMap_def, List.flatMap_def]
    congr 1
    exact List.map_congr_left (fun n hn => hkeep n (hc n hn))
  refine ⟨m', added ++ ts.map (fun t => ⟨[], [surfName t.1]⟩), ls', new, new', ?_, b2, h3, b3, ?_, ?_, ?_, ?_, ?_⟩
  · unfold generateSkin
    simp only [h1, Outcome.bind_ok, b1, List.append_assoc]
  · exact placed_later hpos ws ls ls' _ h4
  · rw [List.length_append] at b4
    exact surfaces_start ts _ (fun t ht f hf => h6.cells _ (forall2_known' hts t ht f hf)) b4
  · intro q
    have hadd : (∃ k ∈ added, q ∈ positionsOf m' k) ↔ g.length ≤ q ∧ q < g.length + new.length := by
      have : (∃ k ∈ added, q ∈ positionsOf m' k) ↔ q ∈ (added.map (positionsOf m1)).flatten := by
        rw [List.mem_flatten]
        constructor
        · rintro ⟨k, hk, hq⟩
          exact ⟨_, List.mem_map_of_mem hk, by rw [← hpos k (h7 k hk)]; exact hq⟩
        · rintro ⟨l, hl, hq⟩
          obtain ⟨k, hk, rfl⟩ := List.mem_map.mp hl
          exact ⟨k, hk, by rw [hpos k (h7 k hk)]; exact hq⟩
      rw [this, h5, List.mem_flatten]
      simp only [List.mem_map, List.mem_range'_1]
      constructor
      · rintro ⟨l, ⟨x, hx, rfl⟩, hq⟩
        rw [List.mem_singleton.mp hq]; exact hx
      · intro h
        exact ⟨[q], ⟨q, h, rfl⟩, by simp⟩
    have hsurf : ∀ (ts : List (Nat × List FaceInfo)) (n : Nat), Surfaces m1 m' n ts →
        ((∃ k ∈ ts.map (fun t => (⟨[], [surfName t.1]⟩ : Container)), q ∈ positionsOf m' k) ↔
          n ≤ q ∧ q < n + (ts.map (fun t => t.2.length)).sum) := by
      intro ts
      induction ts with
      | nil => intro n _; simp
      | cons t ts ih =>
        intro n hs
        have := ih _ hs.2.2
        have h0 := hs.1 q
        simp only [List.map_cons, List.mem_cons, exists_eq_or_imp, this, List.sum_cons]
        have : q ∈ positionsOf m' ⟨[], [surfName t.1]⟩ ↔ q ∈ groupCells m' (surfName t.1) := by simp [positionsOf]
        rw [this, h0]
        omega
    have hlen : new'.length = (ts.map (fun t => t.2.length)).sum := by
      have e := b3.length_eq
      rw [← e, List.length_flatten]
      congr 1
      clear e b1 b2 b3 b4 b5 hsurf hkeep hpos hnotmed hnd hfreeS
      induction hts with
      | nil => rfl
      | cons h _ ih => simp [ih, h.length_eq]
    have := hsurf ts _ b4
    rw [List.length_append, ← hlen] at this
    simp only [List.mem_append, or_and_right, exists_or, hadd, this]
    omega
  · rw [b5.nodes, h6.nodes]
  · intro p c hc
    obtain ⟨v, h1, h2, h3, h4, _⟩ := findCell_spec b2.cinv p c hc
    exact ⟨v, h1, h2, h3, h4⟩

/-- A hexahedron with a pressure on the face of its nodes 1, 2, 3, 4, named by the corners 1 and 3. -/
example : ∃ m p, (Mesh.init NodeStore.init 100).addCell 7 .hexa8 [11, 12, 13, 14, 15, 16, 17, 18] none 0 = .ok (m, p) ∧
    (∃ s l, createSkin allTypes false ⟨m, []⟩ ⟨some (0, some 2), ⟨[0], []⟩⟩ = .ok (s, l) ∧ l.on = ⟨[1], []⟩ ∧
      (∃ v, s.mesh.findCell 1 = .ok v ∧ v.type = .quad4 ∧ v.nodeIds = [11, 12, 13, 14])) :=
  ⟨_, _, rfl, _, _, rfl, rfl, _, rfl, rfl, rfl⟩

/-- The hypotheses of `C153_skins` for that load. -/
example : ∃ m g, Reach m g ∧ Wants m g ⟨some (0, some 2), ⟨[0], []⟩⟩ (some [11, 12, 13, 14]) ∧
    SurfaceFace m g ⟨7, 11, some 13, false⟩ [11, 12, 13, 14] ∧ m.cellGroups = [] := by
  have hv : Given.Valid ⟨7, .hexa8, [11, 12, 13, 14, 15, 16, 17, 18], none, 0⟩ := ⟨rfl, by decide⟩
  have hface : FaceOf ⟨7, .hexa8, [11, 12, 13, 14, 15, 16, 17, 18], none, 0⟩ 11 (some 13) [11, 12, 13, 14] :=
    ⟨.inl rfl, ⟨rfl, by decide⟩, _, [1, 2, 3, 4], 1, some 3, rfl, by simp, by simp [Identifies, cornersOf, Quadratic, CellType.numNodes],
      rfl, rfl, rfl⟩
  refine ⟨_, _, Reach.add (Reach.empty 1000 0 1000) ⟨7, .hexa8, [11, 12, 13, 14, 15, 16, 17, 18], none, 0⟩ hv (by decide) rfl rfl,
    ⟨0, some 2, 0, _, 11, some 13, rfl, ⟨by simp [positionsOf], by simp [positionsOf], by simp⟩, rfl, rfl, rfl, hface⟩,
    ⟨0, _, rfl, rfl, hface⟩, rfl⟩

/-- The flag of a face that asks for the opposite normal is without effect, for every surface: the surface cell is the same. -/
theorem C153_swap_false (order : List CellType) (s : State) (id : Nat) (fs : List FaceInfo) :
    surfaceSkin order s id (fs.map fun f => { f with swapNormal := !f.swapNormal }) = surfaceSkin order s id fs := by
  have : ∀ (fs : List FaceInfo) (m : Mesh), surfaceLoop order (surfName id) (elemName id) m
      (fs.map fun f => { f with swapNormal := !f.swapNormal }) = surfaceLoop order (surfName id) (elemName id) m fs := by
    intro fs
    induction fs with
    | nil => intro m; rfl
    | cons f fs ih =>
      intro m
      simp only [List.map_cons, surfaceLoop, ih]
      rfl
  simp only [surfaceSkin, this]

/-- The skin of the second face of every HEXA20 has a node twice. -/
theorem C153_twice_false (ids : List Int) (hp : Proper .hexa20 ids) :
    ∃ tab f, table .hexa20 = some tab ∧ tab[1]? = some f ∧ ¬ (f.map (idOf ids)).Nodup ∧
      FaceOf ⟨1, .hexa20, ids, none, 0⟩ (idOf ids 5) (some (idOf ids 7)) (f.map (idOf ids)) := by
  refine ⟨_, _, rfl, rfl, by simp, .inr (.inr (.inr (.inr (.inr (.inr (.inr rfl)))))), hp, _, _, 5, some 7, rfl, ?_, ?_, rfl, rfl, rfl⟩
  · simp
  · simp [Identifies, cornersOf, Quadratic, CellType.numNodes]

/-- A load that names a face and acts on no cell or on two is refused. -/
theorem C153_one_cell (m : Mesh) (p1 : Nat) (p2 : Option Nat) (on : Container) (vs : List CellView)
    (hv : viewsOf m (positionsOf m on) = .ok vs) (h : (cellSet vs).length ≠ 1) (order : List CellType) (u : Bool) (sk : List Container) :
    createSkin order u ⟨m, sk⟩ ⟨some (p1, p2), on⟩ = .throw := by
  unfold createSkin faceOf
  simp only [hv, Outcome.bind_ok]
  rcases hc : cellSet vs with _ | ⟨v, _ | ⟨w, l⟩⟩
  · rfl
  · rw [hc] at h; exact absurd rfl h
  · rfl

end Vega.SkinsSpec
