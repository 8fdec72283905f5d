import Verif.Mesh.NodeProps

/-! # C55, C56: node parts and unused nodes -/
namespace Vega.NodeSpec
open NodeStore

/-- A cell of part `c` mentions node `id` in the history. -/
def Mentioned (ops : List Op) (c id : Int) : Prop := ∃ o ∈ ops, o.act = .refer id (some c)

/-- `findNodePartId` (Mesh.cpp 319-321) of a node id. -/
def partOf (s : NodeStore) (id : Int) : Option Int :=
  match s.findNodePosition id with
  | none => none
  | some p => s.nodeDatas[p]?.map (·.nodePart)

/-! ## Sorted lists as sets -/

theorem mem_insertSorted (a b : Int) (l : List Int) : b ∈ insertSorted a l ↔ b = a ∨ b ∈ l := by
  induction l with
  | nil => simp [insertSorted]
  | cons x l ih =>
    simp only [insertSorted]
    split
    · simp
    · split
      · rename_i h; subst h; simp
      · simp only [List.mem_cons, ih]
        constructor
        · rintro (h | h | h) <;> simp [h]
        · rintro (h | h | h) <;> simp [h]

theorem sorted_insertSorted (a : Int) (l : List Int) (h : l.Pairwise (· < ·)) :
    (insertSorted a l).Pairwise (· < ·) := by
  induction l with
  | nil => simp [insertSorted]
  | cons x l ih =>
    have hx := List.pairwise_cons.mp h
    simp only [insertSorted]
    split
    · rename_i hax
      rw [List.pairwise_cons]
      refine ⟨?_, h⟩
      intro b hb
      rcases List.mem_cons.mp hb with rfl | hb
      · exact hax
      · exact Int.lt_trans hax (hx.1 b hb)
    · split
      · exact h
      · rename_i h1 h2
        rw [List.pairwise_cons]
        refine ⟨?_, ih hx.2⟩
        intro b hb
        rcases (mem_insertSorted a b l).mp hb with rfl | hb
        · omega
        · exact hx.1 b hb

theorem sorted_ext {l l' : List Int} (h : l.Pairwise (· < ·)) (h' : l'.Pairwise (· < ·))
    (hm : ∀ x, x ∈ l ↔ x ∈ l') : l = l' := by
  induction l generalizing l' with
  | nil =>
    cases l' with
    | nil => rfl
    | cons y l' => have := (hm y).mpr (by simp); simp at this
  | cons x l ih =>
    cases l' with
    | nil => have := (hm x).mp (by simp); simp at this
    | cons y l' =>
      have hx := List.pairwise_cons.mp h
      have hy := List.pairwise_cons.mp h'
      have hxy : x = y := by
        rcases List.mem_cons.mp ((hm x).mp (by simp)) with e | e
        · exact e
        · rcases List.mem_cons.mp ((hm y).mpr (by simp)) with e' | e'
          · exact e'.symm
          · have a := hy.1 x e
            have b := hx.1 y e'
            omega
      subst hxy
      congr 1
      apply ih hx.2 hy.2
      intro z
      constructor
      · intro hz
        rcases List.mem_cons.mp ((hm z).mp (by simp [hz])) with e | e
        · subst e; exact absurd (hx.1 z hz) (by omega)
        · exact e
      · intro hz
        rcases List.mem_cons.mp ((hm z).mpr (by simp [hz])) with e | e
        · subst e; exact absurd (hy.1 z hz) (by omega)
        · exact e

theorem insertSorted_of_mem {a : Int} {l : List Int} (h : l.Pairwise (· < ·)) (ha : a ∈ l) :
    insertSorted a l = l := by
  apply sorted_ext (sorted_insertSorted a l h) h
  intro x
  rw [mem_insertSorted]
  constructor
  · rintro (rfl | hx)
    · exact ha
    · exact hx
  · exact Or.inr

/-! ## The invariant -/

/-- `part` is the right part for a node mentioned by the cell parts `S`. -/
def PartOK (s : NodeStore) (S : List Int) (part : Int) : Prop :=
  (S = [] ∧ part = 0) ∨ (S ≠ [] ∧ s.cellPartsByNodePart.find part = some S)

/-- `f id` are the cell parts that mention node `id`. -/
structure PInv (s : NodeStore) (f : Int → List Int) : Prop where
  inv : Inv s
  last : 0 ≤ s.lastNodePart
  nodes : ∀ d ∈ s.nodeDatas, PartOK s (f d.id) d.nodePart
  unknown : ∀ id, id ∉ s.ids → f id = []
  sorted : ∀ id, (f id).Pairwise (· < ·)
  main : ∀ c p, s.mainNodePartByCellPart.find c = some p → s.cellPartsByNodePart.find p = some [c]
  interface : ∀ S p, s.interfaceNodePartByCellParts.find S = some p →
    s.cellPartsByNodePart.find p = some S ∧ 2 ≤ S.length
  parts : ∀ p S, s.cellPartsByNodePart.find p = some S → 0 < p ∧ p ≤ s.lastNodePart ∧
    ((∃ c, S = [c] ∧ s.mainNodePartByCellPart.find c = some p) ∨
     s.interfaceNodePartByCellParts.find S = some p)

theorem PartOK.inj {s : NodeStore} {f : Int → List Int} (h : PInv s f) {S S' : List Int} {p p' : Int}
    (h1 : PartOK s S p) (h2 : PartOK s S' p') : p = p' ↔ S = S' := by
  constructor
  · rintro rfl
    rcases h1 with ⟨rfl, rfl⟩ | ⟨_, h1⟩
    · rcases h2 with ⟨rfl, _⟩ | ⟨_, h2⟩
      · rfl
      · have := (h.parts _ _ h2).1; omega
    · rcases h2 with ⟨rfl, rfl⟩ | ⟨_, h2⟩
      · have := (h.parts _ _ h1).1; omega
      · rw [h1] at h2; exact Option.some.inj h2
  · rintro rfl
    rcases h1 with ⟨rfl, rfl⟩ | ⟨hn, h1⟩
    · rcases h2 with ⟨_, rfl⟩ | ⟨hn, _⟩
      · rfl
      · exact absurd rfl hn
    · rcases h2 with ⟨rfl, _⟩ | ⟨_, h2⟩
      · exact absurd rfl hn
      · obtain ⟨_, _, h1⟩ := h.parts _ _ h1
        obtain ⟨_, _, h2⟩ := h.parts _ _ h2
        rcases h1 with ⟨c, e, h1⟩ | h1
        · rcases h2 with ⟨c', e', h2⟩ | h2
          · have : c = c' := by rw [e] at e'; simpa using e'
            subst this
            rw [h1] at h2; exact Option.some.inj h2
          · have := (h.interface _ _ h2).2
            rw [e] at this; simp at this
        · rcases h2 with ⟨c', e', h2⟩ | h2
          · have := (h.interface _ _ h1).2
            rw [e'] at this; simp at this
          · rw [h1] at h2; exact Option.some.inj h2

/-- `addNode` and the parts. -/
theorem addNode_parts {s s' : NodeStore} {p : Nat} {id : Int} {x y z : Dbl} {cp cd : Nat} {part : Int}
    (h : s.addNode id x y z cp cd part = .ok (s', p)) :
    (∀ d ∈ s'.nodeDatas, (∃ d0 ∈ s.nodeDatas, d0.id = d.id ∧ d0.nodePart = d.nodePart) ∨
      (d.id ∉ Map.keys s.positionById ∧ d.nodePart = part)) ∧
    s'.lastNodePart = s.lastNodePart ∧ s'.mainNodePartByCellPart = s.mainNodePartByCellPart ∧
    s'.cellPartsByNodePart = s.cellPartsByNodePart ∧
    s'.interfaceNodePartByCellParts = s.interfaceNodePartByCellParts ∧
    s'.reservedButUnused = s.reservedButUnused := by
  unfold addNode at h
  generalize s.pickId id = r at h
  cases r with
  | ok r =>
    obtain ⟨aid, auto⟩ := r
    simp only [Outcome.bind_ok] at h
    cases hf : s.positionById.find aid with
    | none =>
      rw [hf] at h
      simp only [Outcome.ok.injEq, Prod.mk.injEq] at h
      obtain ⟨rfl, rfl⟩ := h
      refine ⟨?_, rfl, rfl, rfl, rfl, rfl⟩
      intro d hd
      simp only [List.mem_append, List.mem_singleton] at hd
      rcases hd with hd | rfl
      · exact Or.inl ⟨d, hd, rfl, rfl⟩
      · exact Or.inr ⟨(Map.find_eq_none_iff _ _).mp hf, rfl⟩
    | some q =>
      rw [hf] at h
      cases hd : s.nodeDatas[q]? with
      | none => simp [hd] at h
      | some d =>
        simp only [hd, Outcome.ok.injEq, Prod.mk.injEq] at h
        obtain ⟨rfl, rfl⟩ := h
        refine ⟨?_, rfl, rfl, rfl, rfl, rfl⟩
        intro d' hd'
        simp only at hd'
        rcases List.mem_or_eq_of_mem_set hd' with hd' | rfl
        · exact Or.inl ⟨d', hd', rfl, rfl⟩
        · exact Or.inl ⟨d, List.mem_of_getElem? hd, rfl, rfl⟩
  | _ => simp at h

/-- Registering the main part of a cell part. -/
theorem mainPart_pinv {s : NodeStore} {f : Int → List Int} (h : PInv s f) (c : Int) :
    PInv (s.mainPart (some c)).1 f ∧
    (s.mainPart (some c)).1.mainNodePartByCellPart.find c = some (s.mainPart (some c)).2 := by
  unfold mainPart
  simp only
  cases hf : s.mainNodePartByCellPart.find c with
  | some mp => exact ⟨h, hf⟩
  | none =>
    simp only
    have hnew : ∀ p S, s.cellPartsByNodePart.find p = some S → s.lastNodePart + 1 ≠ p := by
      intro p S hp he
      have := (h.parts p S hp).2.1
      omega
    have hkeep : ∀ p S, s.cellPartsByNodePart.find p = some S →
        (s.cellPartsByNodePart.set (s.lastNodePart + 1) [c]).find p = some S := by
      intro p S hp
      rw [Map.find_set_ne _ _ (hnew p S hp), hp]
    refine ⟨⟨⟨h.inv.index, h.inv.nodup⟩, ?_, ?_, h.unknown, h.sorted, ?_, ?_, ?_⟩, by simp⟩
    · have := h.last; simp only; omega
    · intro d hd
      rcases h.nodes d hd with h1 | ⟨h1, h2⟩
      · exact Or.inl h1
      · exact Or.inr ⟨h1, hkeep _ _ h2⟩
    · intro c' p hp
      simp only [Map.find_set] at hp
      split at hp
      · rename_i e
        subst e
        simp only [Option.some.injEq] at hp
        subst hp
        simp
      · exact hkeep _ _ (h.main c' p hp)
    · intro S p hp
      obtain ⟨h1, h2⟩ := h.interface S p hp
      exact ⟨hkeep _ _ h1, h2⟩
    · intro p S hp
      simp only [Map.find_set] at hp
      split at hp
      · rename_i e
        simp only [Option.some.injEq] at hp
        subst hp
        subst e
        have := h.last
        refine ⟨by omega, Int.le_refl _, Or.inl ⟨c, rfl, by simp⟩⟩
      · obtain ⟨h1, h2, h3⟩ := h.parts p S hp
        refine ⟨h1, by simp only; omega, ?_⟩
        rcases h3 with ⟨c', e, h3⟩ | h3
        · refine Or.inl ⟨c', e, ?_⟩
          simp only
          rw [Map.find_set_ne _ _ (fun e => by subst e; rw [hf] at h3; cases h3)]
          exact h3
        · exact Or.inr h3

/-- The mention map after an action. -/
def upd (f : Int → List Int) : Act → Int → List Int
  | .refer i (some c), id => if i = id then insertSorted c (f id) else f id
  | _, id => f id

theorem mem_set_ids {s : NodeStore} (h : Inv s) {p : Nat} {d e d' : NodeData} (hd : s.nodeDatas[p]? = some d)
    (he : e.id = d.id) (hm : d' ∈ s.nodeDatas.set p e) : (d' ∈ s.nodeDatas ∧ d'.id ≠ d.id) ∨ d' = e := by
  obtain ⟨i, hi⟩ := List.mem_iff_getElem?.mp hm
  rw [List.getElem?_set] at hi
  split at hi
  · split at hi
    · right; exact (Option.some.inj hi).symm
    · cases hi
  · rename_i hpi
    left
    refine ⟨List.mem_of_getElem? hi, ?_⟩
    intro hc
    have h1 : s.ids[i]? = some d.id := by simp [ids, hi, hc]
    have h2 : s.ids[p]? = some d.id := by simp [ids, hd]
    have e1 := (h.find d.id i).mpr h1
    have e2 := (h.find d.id p).mpr h2
    rw [e1] at e2
    exact hpi (Option.some.inj e2).symm

theorem updatePart_pinv {s s' : NodeStore} {f : Int → List Int} (h : PInv s f) {p : Nat} {c mp : Int}
    {d : NodeData} (hd : s.nodeDatas[p]? = some d) (hmain : s.mainNodePartByCellPart.find c = some mp)
    (hs' : s.updatePart p c mp = .ok s') : PInv s' (upd f (.refer d.id (some c))) := by
  have hdm : d ∈ s.nodeDatas := List.mem_of_getElem? hd
  have hdid : d.id ∈ s.ids := List.mem_map.mpr ⟨d, hdm, rfl⟩
  have hupd : ∀ id, id ≠ d.id → upd f (.refer d.id (some c)) id = f id := by
    intro id hid; simp only [upd]; rw [if_neg (fun e => hid e.symm)]
  have hupd' : upd f (.refer d.id (some c)) d.id = insertSorted c (f d.id) := by simp [upd]
  have hinv' : Inv s' := by
    obtain ⟨s'', part, h1, h2, _, h4⟩ := updatePart_frame s p c mp d hd
    rw [h1] at hs'
    simp only [Outcome.ok.injEq] at hs'
    subst hs'
    have hids : s''.ids = s.ids := by
      unfold ids; rw [h4]; exact ids_set s p d _ hd rfl
    exact ⟨by rw [h2, hids]; exact h.inv.index, by rw [hids]; exact h.inv.nodup⟩
  have hids' : s'.ids = s.ids := by
    obtain ⟨s'', part, h1, h2, _, h4⟩ := updatePart_frame s p c mp d hd
    rw [h1] at hs'
    simp only [Outcome.ok.injEq] at hs'
    subst hs'
    unfold ids; rw [h4]; exact ids_set s p d _ hd rfl
  have hunk : ∀ id, id ∉ s'.ids → upd f (.refer d.id (some c)) id = [] := by
    intro id hid
    rw [hids'] at hid
    rw [hupd id (fun e => hid (e ▸ hdid))]
    exact h.unknown id hid
  have hsort : ∀ id, (upd f (.refer d.id (some c)) id).Pairwise (· < ·) := by
    intro id
    by_cases e : id = d.id
    · subst e; rw [hupd']; exact sorted_insertSorted _ _ (h.sorted _)
    · rw [hupd id e]; exact h.sorted id
  have hold := h.nodes d hdm
  have hmp := h.main c mp hmain
  have hnn : insertSorted c (f d.id) ≠ [] := by
    intro e
    have : c ∈ insertSorted c (f d.id) := (mem_insertSorted _ _ _).mpr (Or.inl rfl)
    rw [e] at this; simp at this
  unfold updatePart at hs'
  rw [hd] at hs'
  simp only at hs'
  split at hs'
  · -- first cell mentioning the node
    rename_i h0
    simp only [Outcome.ok.injEq] at hs'
    subst hs'
    have hf0 : f d.id = [] := by
      rcases hold with ⟨e, _⟩ | ⟨_, e⟩
      · exact e
      · have := (h.parts _ _ e).1; omega
    refine ⟨hinv', h.last, ?_, hunk, hsort, h.main, h.interface, h.parts⟩
    intro d' hd'
    rcases mem_set_ids (e := { d with nodePart := mp }) h.inv hd rfl hd' with ⟨h1, h2⟩ | rfl
    · rw [hupd _ h2]; exact h.nodes d' h1
    · simp only [hupd']
      refine Or.inr ⟨hnn, ?_⟩
      rw [hf0]; exact hmp
  · rename_i h0
    have hfS : s.cellPartsByNodePart.find d.nodePart = some (f d.id) := by
      rcases hold with ⟨_, e⟩ | ⟨_, e⟩
      · exact absurd e h0
      · exact e
    have hsame : ∀ q, (s.cellPartsByNodePart.set d.nodePart (f d.id)).find q = s.cellPartsByNodePart.find q := by
      intro q
      rw [Map.find_set]
      split
      · rename_i e; subst e; exact hfS.symm
      · rfl
    have hset : s.cellPartsByNodePart.set d.nodePart (f d.id) = s.cellPartsByNodePart :=
      Map.set_same _ _ _ hfS
    split at hs'
    · simp only [hfS, Option.getD_some, hset] at hs'
      split at hs'
      · rename_i hc
        simp only [Outcome.ok.injEq] at hs'
        subst hs'
        refine ⟨hinv', h.last, ?_, hunk, hsort, h.main, h.interface, h.parts⟩
        intro d' hd'
        by_cases e : d'.id = d.id
        · rw [e, hupd', insertSorted_of_mem (h.sorted _) hc, ← e]
          exact h.nodes d' hd'
        · rw [hupd _ e]; exact h.nodes d' hd'
      · rename_i hc
        have hlen : 2 ≤ (insertSorted c (f d.id)).length := by
          have hne : f d.id ≠ [] := by
            rcases hold with ⟨_, e⟩ | ⟨e, _⟩
            · exact absurd e h0
            · exact e
          match hi : insertSorted c (f d.id) with
          | [] => exact absurd hi hnn
          | [a] =>
            exfalso
            have hca : c = a := by
              have : c ∈ insertSorted c (f d.id) := (mem_insertSorted _ _ _).mpr (Or.inl rfl)
              rw [hi] at this; simpa using this
            obtain ⟨b, hb⟩ := List.exists_mem_of_ne_nil _ hne
            have : b ∈ insertSorted c (f d.id) := (mem_insertSorted _ _ _).mpr (Or.inr hb)
            rw [hi] at this
            simp at this
            subst this; subst hca
            exact hc hb
          | a :: b :: l => simp
        split at hs'
        · rename_i hfind
          simp only [Outcome.ok.injEq] at hs'
          subst hs'
          have hnew : ∀ p S, s.cellPartsByNodePart.find p = some S → s.lastNodePart + 1 ≠ p := by
            intro p S hp he
            have := (h.parts p S hp).2.1
            omega
          have hkeep : ∀ p S, s.cellPartsByNodePart.find p = some S →
              (s.cellPartsByNodePart.set (s.lastNodePart + 1) (insertSorted c (f d.id))).find p = some S := by
            intro p S hp
            rw [Map.find_set_ne _ _ (hnew p S hp), hp]
          refine ⟨hinv', ?_, ?_, hunk, hsort, ?_, ?_, ?_⟩
          · have := h.last; simp only; omega
          · intro d' hd'
            rcases mem_set_ids (e := { d with nodePart := s.lastNodePart + 1 }) h.inv hd rfl hd' with ⟨h1, h2⟩ | rfl
            · rw [hupd _ h2]
              rcases h.nodes d' h1 with g | ⟨g1, g2⟩
              · exact Or.inl g
              · exact Or.inr ⟨g1, hkeep _ _ g2⟩
            · simp only [hupd']
              exact Or.inr ⟨hnn, by simp⟩
          · intro c' q hq
            exact hkeep _ _ (h.main c' q hq)
          · intro S q hq
            simp only [Map.find_set] at hq
            split at hq
            · rename_i e
              simp only [Option.some.injEq] at hq
              subst hq; subst e
              exact ⟨by simp, hlen⟩
            · obtain ⟨g1, g2⟩ := h.interface S q hq
              exact ⟨hkeep _ _ g1, g2⟩
          · intro q S hq
            simp only [Map.find_set] at hq
            split at hq
            · rename_i e
              simp only [Option.some.injEq] at hq
              subst hq; subst e
              have := h.last
              exact ⟨by omega, Int.le_refl _, Or.inr (by simp)⟩
            · obtain ⟨g1, g2, g3⟩ := h.parts q S hq
              refine ⟨g1, by simp only; omega, ?_⟩
              rcases g3 with g3 | g3
              · exact Or.inl g3
              · refine Or.inr ?_
                simp only
                rw [Map.find_set_ne _ _ (fun e => by subst e; rw [hfind] at g3; cases g3)]
                exact g3
        · rename_i ip hfind
          simp only [Outcome.ok.injEq] at hs'
          subst hs'
          refine ⟨hinv', h.last, ?_, hunk, hsort, h.main, h.interface, h.parts⟩
          intro d' hd'
          rcases mem_set_ids (e := { d with nodePart := ip }) h.inv hd rfl hd' with ⟨h1, h2⟩ | rfl
          · rw [hupd _ h2]; exact h.nodes d' h1
          · simp only [hupd']
            exact Or.inr ⟨hnn, (h.interface _ _ hfind).1⟩
    · rename_i hne
      simp only [Outcome.ok.injEq] at hs'
      subst hs'
      have hpm : d.nodePart = mp := by simpa using hne
      have hfc : f d.id = [c] := by
        rw [hpm] at hfS
        rw [hmp] at hfS
        exact (Option.some.inj hfS).symm
      refine ⟨hinv', h.last, ?_, hunk, hsort, h.main, h.interface, h.parts⟩
      intro d' hd'
      by_cases e : d'.id = d.id
      · rw [e, hupd', insertSorted_of_mem (h.sorted _) (by rw [hfc]; simp), ← e]
        exact h.nodes d' hd'
      · rw [hupd _ e]; exact h.nodes d' hd'

theorem perform_pinv {s s' : NodeStore} {f : Int → List Int} {p : Nat} (h : PInv s f) (o : Op)
    (hv : o.act.Valid) (hs' : o.act.perform (shift s o.dn o.dp) = .ok (s', p)) :
    PInv s' (upd f o.act) := by
  have hsh : PInv (shift s o.dn o.dp) f := by
    refine ⟨⟨h.inv.index, h.inv.nodup⟩, ?_, h.nodes, h.unknown, h.sorted, h.main, h.interface, ?_⟩
    · have := h.last; simp only [shift]; omega
    · intro p S hp
      obtain ⟨h1, h2, h3⟩ := h.parts p S hp
      refine ⟨h1, by simp only [shift]; omega, h3⟩
  obtain ⟨s'', p', id, h1, h2, h3, h4, _⟩ := perform_spec h.inv o hv
  rw [h1] at hs'
  simp only [Outcome.ok.injEq, Prod.mk.injEq] at hs'
  obtain ⟨rfl, rfl⟩ := hs'
  have hsub : ∀ id, id ∉ s''.ids → id ∉ s.ids := by
    intro i hi hc
    apply hi
    rw [h4]
    split
    · exact hc
    · simp [hc]
  obtain ⟨dn, dp, act⟩ := o
  simp only at *
  -- definitions, automatic or not
  have hdef : ∀ i x y z cp cd, (shift s dn dp).addNode i x y z cp cd 0 = .ok (s'', p') → PInv s'' f := by
    intro i x y z cp cd hadd
    obtain ⟨g1, g2, g3, g4, g5, _⟩ := addNode_parts hadd
    refine ⟨h2, by rw [g2]; exact hsh.last, ?_, ?_, h.sorted, ?_, ?_, ?_⟩
    · intro d hd
      rcases g1 d hd with ⟨d0, k1, k2, k3⟩ | ⟨k1, k2⟩
      · have := hsh.nodes d0 k1
        rw [k2, k3] at this
        unfold PartOK
        rw [g4]; exact this
      · have : f d.id = [] := by
          apply h.unknown
          have := hsh.inv.index
          rw [this, Map.keys_zipIdx] at k1
          exact k1
        exact Or.inl ⟨this, k2⟩
    · intro i hi; exact h.unknown i (hsub i hi)
    · rw [g3, g4]; exact hsh.main
    · rw [g5, g4]; exact hsh.interface
    · rw [g4, g2, g3, g5]; exact hsh.parts
  cases act with
  | define i d =>
    have : upd f (.define i d) = f := by funext x; rfl
    rw [this]
    exact hdef _ _ _ _ _ _ h1
  | create d =>
    have : upd f (.create d) = f := by funext x; rfl
    rw [this]
    exact hdef AUTO_ID d.x d.y d.z d.cp d.cd h1
  | refer i cellPart =>
    cases cellPart with
    | none =>
      have : upd f (.refer i none) = f := by funext x; rfl
      rw [this]
      simp only [Act.perform, findOrReserveNode, mainPart, findNodePosition] at h1
      cases hf : (shift s dn dp).positionById.find i with
      | none =>
        rw [hf] at h1
        simp only at h1
        cases hadd : (shift s dn dp).addNode i RESERVED RESERVED RESERVED 0 0 0 with
        | ok r =>
          rw [hadd] at h1
          simp only [Outcome.bind_ok, Outcome.ok.injEq, Prod.mk.injEq] at h1
          obtain ⟨h1a, h1b⟩ := h1
          obtain ⟨g1, g2, g3, g4, g5, _⟩ := addNode_parts hadd
          subst h1a
          refine ⟨h2, by simp only; rw [g2]; exact hsh.last, ?_, ?_, h.sorted, ?_, ?_, ?_⟩
          · intro d hd
            rcases g1 d hd with ⟨d0, k1, k2, k3⟩ | ⟨k1, k2⟩
            · have := hsh.nodes d0 k1
              rw [k2, k3] at this
              unfold PartOK
              simp only
              rw [g4]; exact this
            · have : f d.id = [] := by
                apply h.unknown
                have := hsh.inv.index
                rw [this, Map.keys_zipIdx] at k1
                exact k1
              exact Or.inl ⟨this, k2⟩
          · intro i hi; exact h.unknown i (hsub i hi)
          · simp only; rw [g3, g4]; exact hsh.main
          · simp only; rw [g5, g4]; exact hsh.interface
          · simp only; rw [g4, g2, g3, g5]; exact hsh.parts
        | _ => rw [hadd] at h1; simp at h1
      | some q =>
        rw [hf] at h1
        simp only [Outcome.ok.injEq, Prod.mk.injEq] at h1
        obtain ⟨rfl, _⟩ := h1
        exact hsh
    | some c =>
      obtain ⟨hm, hmain⟩ := mainPart_pinv hsh c
      have hids : ((shift s dn dp).mainPart (some c)).1.ids = s.ids := by
        unfold ids; rw [(mainPart_frame _ _).1]; rfl
      simp only [Act.perform, findOrReserveNode] at h1
      generalize (shift s dn dp).mainPart (some c) = r at *
      obtain ⟨s1, mp⟩ := r
      simp only at h1 hm hmain hids
      cases hf : s1.findNodePosition i with
      | none =>
        rw [hf] at h1
        simp only at h1
        cases hadd : s1.addNode i RESERVED RESERVED RESERVED 0 0 mp with
        | ok r =>
          rw [hadd] at h1
          simp only [Outcome.bind_ok, Outcome.ok.injEq, Prod.mk.injEq] at h1
          obtain ⟨h1a, h1b⟩ := h1
          obtain ⟨g1, g2, g3, g4, g5, _⟩ := addNode_parts hadd
          have hi : i ∉ s1.ids := (hm.inv.find_none i).mp hf
          have hfi : f i = [] := hm.unknown i hi
          have hidi : id = i := by
            -- the new node is node `i`
            obtain ⟨s3, p3, q1, q2, q3, _⟩ := addNode_spec hm.inv i hv RESERVED RESERVED RESERVED 0 0 mp
            rw [hadd] at q1
            simp only [Outcome.ok.injEq] at q1
            rw [q1] at h1a h1b
            simp only at h1a h1b
            subst h1a
            subst h1b
            have e3 : s3.ids[p3]? = some id := h3
            rw [q3] at e3
            exact (Option.some.inj e3).symm
          subst hidi
          subst h1a
          have hupdne : ∀ j, j ≠ id → upd f (.refer id (some c)) j = f j := by
            intro j hj; simp only [upd]; rw [if_neg (fun e => hj e.symm)]
          have hupdi : upd f (.refer id (some c)) id = [c] := by simp [upd, hfi, insertSorted]
          refine ⟨h2, by simp only; rw [g2]; exact hm.last, ?_, ?_, ?_, ?_, ?_, ?_⟩
          · intro d hd
            rcases g1 d hd with ⟨d0, k1, k2, k3⟩ | ⟨k1, k2⟩
            · have hne : d.id ≠ id := by
                intro e
                apply hi
                rw [← e, ← k2]
                exact List.mem_map.mpr ⟨d0, k1, rfl⟩
              have := hm.nodes d0 k1
              rw [k2, k3] at this
              rw [hupdne _ hne]
              unfold PartOK
              simp only
              rw [g4]; exact this
            · have hmem : d.id ∈ s.ids ∨ d.id = id := by
                have hx : d.id ∈ r.1.ids := List.mem_map.mpr ⟨d, hd, rfl⟩
                have h4' : r.1.ids = _ := h4
                rw [h4'] at hx
                split at hx
                · exact Or.inl hx
                · simpa using hx
              have hde : d.id = id := by
                rcases hmem with hmem | hmem
                · exfalso
                  apply k1
                  rw [hm.inv.index, Map.keys_zipIdx, hids]
                  exact hmem
                · exact hmem
              rw [hde, hupdi, k2]
              refine Or.inr ⟨by simp, ?_⟩
              simp only
              rw [g4]
              exact hm.main c mp hmain
          · intro j hj
            have hji : j ≠ id := by
              intro e
              subst e
              apply hj
              rw [h4]
              split
              · assumption
              · simp
            rw [hupdne j hji]
            exact h.unknown j (hsub j hj)
          · intro j
            by_cases e : j = id
            · subst e; rw [hupdi]; simp
            · rw [hupdne j e]; exact h.sorted j
          · simp only; rw [g3, g4]; exact hm.main
          · simp only; rw [g5, g4]; exact hm.interface
          · simp only; rw [g4, g2, g3, g5]; exact hm.parts
        | _ => rw [hadd] at h1; simp at h1
      | some q =>
        rw [hf] at h1
        simp only at h1
        cases hup : s1.updatePart q c mp with
        | ok s2 =>
          rw [hup] at h1
          simp only [Outcome.bind_ok, Outcome.ok.injEq, Prod.mk.injEq] at h1
          obtain ⟨rfl, rfl⟩ := h1
          have hq := (hm.inv.find i q).mp hf
          have hd : ∃ d, s1.nodeDatas[q]? = some d ∧ d.id = i := by
            simp only [ids, List.getElem?_map] at hq
            cases hx : s1.nodeDatas[q]? with
            | none => simp [hx] at hq
            | some d => exact ⟨d, rfl, by simpa [hx] using hq⟩
          obtain ⟨d, hd, hdi⟩ := hd
          have := updatePart_pinv hm hd hmain hup
          rw [hdi] at this
          exact this
        | _ => rw [hup] at h1; simp at h1

theorem run_pinv (ops : List Op) (hv : ValidAll ops) {s : NodeStore} {f : Int → List Int} (h : PInv s f) :
    ∃ s' ps f', run s ops = .ok (s', ps) ∧ PInv s' f' ∧
      ∀ c id, c ∈ f' id ↔ c ∈ f id ∨ Mentioned ops c id := by
  induction ops generalizing s f with
  | nil => exact ⟨s, [], f, rfl, h, by simp [Mentioned]⟩
  | cons o os ih =>
    obtain ⟨s1, p, id, h1, _⟩ := perform_spec h.inv o (hv o (by simp))
    have h2 := perform_pinv h o (hv o (by simp)) h1
    obtain ⟨s', ps, f', h3, h4, h5⟩ := ih (fun o ho => hv o (by simp [ho])) h2
    refine ⟨s', p :: ps, f', by simp only [run, h1, Outcome.bind_ok, h3], h4, ?_⟩
    intro c i
    rw [h5]
    have hu : c ∈ upd f o.act i ↔ c ∈ f i ∨ o.act = .refer i (some c) := by
      cases ha : o.act with
      | define j d => simp [upd]
      | create d => simp [upd]
      | refer j cp =>
        cases cp with
        | none => simp [upd]
        | some c' =>
          simp only [upd, Act.refer.injEq, Option.some.injEq]
          split
          · rename_i e; subst e
            rw [mem_insertSorted]
            constructor
            · rintro (e | e)
              · right; exact ⟨rfl, e.symm⟩
              · exact Or.inl e
            · rintro (e | ⟨_, e⟩)
              · exact Or.inr e
              · exact Or.inl e.symm
          · rename_i e
            simp [e]
    rw [hu]
    simp [Mentioned, or_assoc]

/-- **C55.** Two nodes of the mesh are in the same node part exactly when they are mentioned by
cells of the same parts, and the registered cell parts of a node part are those parts. -/
theorem C55_same_part_iff (auto part : Int) (hp : 0 ≤ part) (ops : List Op) (hv : ValidAll ops) :
    ∃ s ps, run (empty auto part) ops = .ok (s, ps) ∧
      (∀ id, s.findNodePosition id ≠ none → ∃ q, partOf s id = some q ∧
        ((∃ c, Mentioned ops c id) → ∃ S, s.cellPartsByNodePart.find q = some S ∧
          ∀ c, c ∈ S ↔ Mentioned ops c id)) ∧
      ∀ id id', s.findNodePosition id ≠ none → s.findNodePosition id' ≠ none →
        (partOf s id = partOf s id' ↔ ∀ c, Mentioned ops c id ↔ Mentioned ops c id') := by
  have h0 : PInv (empty auto part) (fun _ => []) := by
    refine ⟨inv_empty _ _, hp, ?_, ?_, ?_, ?_, ?_, ?_⟩
    · intro d hd; simp [empty, init] at hd
    · intro _ _; rfl
    · intro _; simp
    · intro c p h; simp [empty, init] at h
    · intro c p h; simp [empty, init] at h
    · intro c p h; simp [empty, init] at h
  obtain ⟨s, ps, f, h1, h2, h3⟩ := run_pinv ops hv h0
  have key : ∀ id, s.findNodePosition id ≠ none → ∃ q, partOf s id = some q ∧ PartOK s (f id) q := by
    intro id hid
    obtain ⟨p, hp⟩ := Option.ne_none_iff_exists'.mp hid
    have := (h2.inv.find id p).mp hp
    simp only [ids, List.getElem?_map] at this
    cases hx : s.nodeDatas[p]? with
    | none => simp [hx] at this
    | some d =>
      have hdi : d.id = id := by simpa [hx] using this
      refine ⟨d.nodePart, ?_, ?_⟩
      · simp [partOf, hp, hx]
      · have := h2.nodes d (List.mem_of_getElem? hx)
        rwa [hdi] at this
  have hm : ∀ c id, c ∈ f id ↔ Mentioned ops c id := by
    intro c id; rw [h3]; simp
  refine ⟨s, ps, h1, ?_, ?_⟩
  · intro id hid
    obtain ⟨q, hq, hok⟩ := key id hid
    refine ⟨q, hq, ?_⟩
    rintro ⟨c, hc⟩
    rcases hok with ⟨e, _⟩ | ⟨_, e⟩
    · have := (hm c id).mpr hc
      rw [e] at this; simp at this
    · exact ⟨_, e, fun c => hm c id⟩
  · intro id id' hid hid'
    obtain ⟨q, hq, hok⟩ := key id hid
    obtain ⟨q', hq', hok'⟩ := key id' hid'
    rw [hq, hq', Option.some.injEq, PartOK.inj h2 hok hok']
    constructor
    · intro e c; rw [← hm, ← hm, e]
    · intro e
      apply sorted_ext (h2.sorted id) (h2.sorted id')
      intro c; rw [hm, hm]; exact e c

/-- Nodes 1 and 2 share the parts 10 and 20, node 3 is in part 10 only, node 4 in none. -/
example : ∃ s ps, run (empty 9999999 0)
    [⟨0, 0, .refer 1 (some 10)⟩, ⟨0, 0, .refer 2 (some 20)⟩, ⟨0, 0, .refer 3 (some 10)⟩,
     ⟨0, 0, .refer 1 (some 20)⟩, ⟨0, 5, .refer 2 (some 10)⟩, ⟨0, 0, .refer 4 none⟩] = .ok (s, ps) ∧
    partOf s 1 = partOf s 2 ∧ partOf s 1 ≠ partOf s 3 ∧ partOf s 4 = some 0 :=
  ⟨_, _, rfl, by decide, by decide, by decide⟩

/-- **C56** is false of the code: a node that a cell mentions, and that is defined later, is
still listed among the "reserved but unused" nodes, which `Model::removeIneffectives`
(Model.cpp 1069-1075) takes out of every node group. -/
theorem C56_unused_nodes_false :
    ∃ ops s ps, ValidAll ops ∧ run (empty 9999999 0) ops = .ok (s, ps) ∧
      Mentioned ops 10 1 ∧ described s 1 = .ok ⟨1, 2, 3, 0, 0⟩ ∧
      s.findNodePosition 1 = some 0 ∧ 0 ∈ s.reservedButUnused := by
  refine ⟨[⟨0, 0, .refer 1 (some 10)⟩, ⟨0, 0, .define 1 ⟨1, 2, 3, 0, 0⟩⟩], _, _, ?_, rfl, ?_, rfl, rfl, by decide⟩
  · intro o ho
    simp at ho
    rcases ho with rfl | rfl <;> simp [Act.Valid, AUTO_ID]
  · exact ⟨_, List.mem_cons_self, rfl⟩

end Vega.NodeSpec
