import Verif.Mesh.Nodes
import Mathlib.Data.List.Nodup
import Mathlib.Data.List.Perm.Subperm

namespace Vega

theorem Map.set_same {κ : Type} {α : Type} [DecidableEq κ] (m : Map κ α) (k : κ) (a : α)
    (h : m.find k = some a) : m.set k a = m := by
  induction m with
  | nil => simp at h
  | cons x m ih =>
    obtain ⟨kx, ax⟩ := x
    simp only [Map.find] at h
    simp only [Map.set]
    split at h
    · rename_i hk; subst hk; simp at h; subst h; simp
    · rename_i hk; rw [if_neg hk, ih h]

theorem Map.find_zipIdx {κ : Type} [DecidableEq κ] (l : List κ) (n : Nat) (hn : l.Nodup) (k : κ) (p : Nat) :
    Map.find (l.zipIdx n) k = some p ↔ n ≤ p ∧ l[p - n]? = some k := by
  induction l generalizing n with
  | nil => simp
  | cons x l ih =>
    simp only [List.zipIdx_cons, Map.find]
    by_cases h : x = k
    · subst h
      rw [if_pos rfl]
      simp only [Option.some.injEq]
      constructor
      · rintro rfl; simp
      · rintro ⟨h1, h2⟩
        rcases Nat.eq_or_lt_of_le h1 with h3 | h3
        · exact h3
        · exfalso
          have : p - n = (p - n - 1) + 1 := by omega
          rw [this, List.getElem?_cons_succ] at h2
          exact (List.nodup_cons.mp hn).1 (List.mem_of_getElem? h2)
    · rw [if_neg h, ih (n + 1) (List.nodup_cons.mp hn).2]
      constructor
      · rintro ⟨h1, h2⟩
        refine ⟨by omega, ?_⟩
        have : p - n = (p - (n + 1)) + 1 := by omega
        rw [this, List.getElem?_cons_succ]
        exact h2
      · rintro ⟨h1, h2⟩
        rcases Nat.eq_or_lt_of_le h1 with h3 | h3
        · subst h3; simp at h2; exact absurd h2 h
        · refine ⟨by omega, ?_⟩
          have : p - n = (p - (n + 1)) + 1 := by omega
          rw [this, List.getElem?_cons_succ] at h2
          exact h2

theorem Map.set_zipIdx {κ : Type} [DecidableEq κ] (l : List κ) (n : Nat) (k : κ) (h : k ∉ l) :
    Map.set (l.zipIdx n) k (n + l.length) = (l ++ [k]).zipIdx n := by
  induction l generalizing n with
  | nil => simp [Map.set]
  | cons x l ih =>
    simp only [List.zipIdx_cons, Map.set, List.cons_append, List.length_cons]
    simp only [List.mem_cons, not_or] at h
    rw [if_neg (fun e => h.1 e.symm)]
    have : n + (l.length + 1) = (n + 1) + l.length := by omega
    rw [this, ih (n + 1) h.2]

theorem Map.keys_zipIdx {κ : Type} (l : List κ) (n : Nat) : Map.keys (l.zipIdx n) = l := by
  simp [Map.keys]

/-- The search of an automatic id ends, with an unused id. -/
theorem searchAuto_spec (known : Map Int Nat) (auto : Int) :
    ∃ id, searchAuto known (known.length + 1) auto = .ok (id, id - 1) ∧ known.find id = none ∧ id ≤ auto := by
  have H : ∀ fuel : Nat, ∀ a : Int,
      (∃ id, searchAuto known fuel a = .ok (id, id - 1) ∧ known.find id = none ∧ id ≤ a) ∨
      (∀ i : Nat, i < fuel → a - i ∈ Map.keys known) := by
    intro fuel
    induction fuel with
    | zero => intro a; right; intro i hi; omega
    | succ n ih =>
      intro a
      simp only [searchAuto]
      by_cases h : (known.find a).isSome = true
      · rw [if_pos h]
        rcases ih (a - 1) with ⟨id, h1, h2, h3⟩ | h1
        · left; exact ⟨id, h1, h2, by omega⟩
        · right
          intro i hi
          cases i with
          | zero =>
            rw [Map.mem_keys_iff]
            obtain ⟨p, hp⟩ := Option.isSome_iff_exists.mp h
            exact ⟨p, by simpa using hp⟩
          | succ j =>
            have := h1 j (by omega)
            have e : a - 1 - (j : Int) = a - ((j + 1 : Nat) : Int) := by omega
            rwa [e] at this
      · rw [if_neg h]
        left
        refine ⟨a, rfl, ?_, by omega⟩
        simpa using h
  rcases H (known.length + 1) auto with h | h
  · exact h
  · exfalso
    let l : List Int := (List.range (known.length + 1)).map fun i : Nat => auto - (i : Int)
    have hl : l.Nodup := by
      apply List.Nodup.map _ List.nodup_range
      intro i j hij
      simp only at hij
      omega
    have hsub : l ⊆ Map.keys known := by
      intro x hx
      obtain ⟨i, hi, rfl⟩ := List.mem_map.mp hx
      exact h i (List.mem_range.mp hi)
    have := (hl.subperm hsub).length_le
    simp [l, Map.keys] at this

namespace NodeStore

/-- The node ids in the order of their positions. -/
def ids (s : NodeStore) : List Int := s.nodeDatas.map (·.id)

/-- Invariant: the index is the list of ids with their positions. -/
structure Inv (s : NodeStore) : Prop where
  index : s.positionById = s.ids.zipIdx
  nodup : s.ids.Nodup

theorem inv_init : Inv init := ⟨rfl, by simp [ids, init]⟩

theorem Inv.find {s : NodeStore} (h : Inv s) (id : Int) (p : Nat) :
    s.positionById.find id = some p ↔ s.ids[p]? = some id := by
  rw [h.index, Map.find_zipIdx _ _ h.nodup]
  simp

theorem Inv.find_none {s : NodeStore} (h : Inv s) (id : Int) :
    s.positionById.find id = none ↔ id ∉ s.ids := by
  rw [Map.find_eq_none_iff, h.index, Map.keys_zipIdx]

theorem ids_set (s : NodeStore) (p : Nat) (d d' : NodeData) (h : s.nodeDatas[p]? = some d)
    (hd : d'.id = d.id) : (s.nodeDatas.set p d').map (·.id) = s.ids := by
  unfold ids
  apply List.ext_getElem?
  intro i
  simp only [List.getElem?_map, List.getElem?_set]
  by_cases hi : p = i
  · subst hi
    have hlt : p < s.nodeDatas.length := by
      by_contra hc
      rw [List.getElem?_eq_none (by omega)] at h
      cases h
    rw [h, if_pos rfl, if_pos hlt]
    simp [hd]
  · simp [hi]

/-- Effect of `addNode` with a given id. -/
theorem addNode_spec {s : NodeStore} (h : Inv s) (id : Int) (hid : id ≠ AUTO_ID)
    (x y z : Dbl) (cp cd : Nat) (part : Int) :
    ∃ s' p, s.addNode id x y z cp cd part = .ok (s', p) ∧ Inv s' ∧
      s'.ids[p]? = some id ∧
      s'.ids = (if id ∈ s.ids then s.ids else s.ids ++ [id]) ∧
      (∃ np, s'.nodeDatas[p]? = some ⟨id, x, y, z, cp, cd, np⟩) ∧
      (∀ q, q ≠ p → s'.nodeDatas[q]? = s.nodeDatas[q]?) := by
  unfold addNode pickId
  rw [if_neg hid]
  simp only [Outcome.bind_ok]
  cases hf : s.positionById.find id with
  | none =>
    have hnot := (h.find_none id).mp hf
    refine ⟨_, _, rfl, ?_, ?_, ?_, ?_, ?_⟩
    · constructor
      · simp only [ids, List.map_append, List.map_cons, List.map_nil]
        have := Map.set_zipIdx s.ids 0 id hnot
        rw [← h.index] at this
        simpa [ids] using this
      · simp only [ids, List.map_append, List.map_cons, List.map_nil]
        rw [List.nodup_append]
        refine ⟨h.nodup, by simp, ?_⟩
        intro a ha b hb hab
        simp at hb
        subst hb; subst hab
        exact hnot ha
    · simp [ids]
    · rw [if_neg hnot]; simp [ids]
    · exact ⟨part, by simp⟩
    · intro q hq
      simp only [List.getElem?_append]
      split
      · rfl
      · rename_i hlt
        rw [List.getElem?_eq_none (by simp; omega), List.getElem?_eq_none (by omega)]
  | some p =>
    have hp := (h.find id p).mp hf
    simp only [ids, List.getElem?_map] at hp
    cases hd : s.nodeDatas[p]? with
    | none => simp [hd] at hp
    | some d =>
      rw [hd] at hp
      simp at hp
      simp only [hd]
      have hids : (s.nodeDatas.set p { d with x := x, y := y, z := z, cpPos := cp, cdPos := cd }).map (·.id) = s.ids :=
        ids_set s p d _ hd rfl
      have hlt : p < s.nodeDatas.length := by
        by_contra hc
        rw [List.getElem?_eq_none (by omega)] at hd
        cases hd
      have hmem : id ∈ s.ids := by
        rw [← hp]; exact List.mem_map.mpr ⟨d, List.mem_of_getElem? hd, rfl⟩
      refine ⟨_, _, rfl, ?_, ?_, ?_, ?_, ?_⟩
      · constructor
        · show s.positionById = List.zipIdx (List.map _ _)
          rw [hids]; exact h.index
        · show (List.map _ _).Nodup
          rw [hids]; exact h.nodup
      · show (List.map _ _)[p]? = _
        rw [hids]
        simp [ids, hd, hp]
      · show List.map _ _ = _
        rw [hids, if_pos hmem]
      · refine ⟨d.nodePart, ?_⟩
        simp [List.getElem?_set, hlt, hp]
      · intro q hq
        simp only [List.getElem?_set]
        rw [if_neg (Ne.symm hq)]

/-- Effect of `addNode` with an automatic id. -/
theorem addNode_auto {s : NodeStore} (h : Inv s) (x y z : Dbl) (cp cd : Nat) (part : Int) :
    ∃ s' id, s.addNode AUTO_ID x y z cp cd part = .ok (s', s.nodeDatas.length) ∧ Inv s' ∧
      id ∉ s.ids ∧ s'.ids = s.ids ++ [id] ∧
      s'.nodeDatas = s.nodeDatas ++ [⟨id, x, y, z, cp, cd, part⟩] := by
  obtain ⟨id, h1, h2, _⟩ := searchAuto_spec s.positionById s.autoNodeId
  have hnot := (h.find_none id).mp h2
  unfold addNode pickId
  rw [if_pos rfl, h1]
  simp only [Outcome.bind_ok, h2]
  refine ⟨_, id, rfl, ?_, hnot, ?_, rfl⟩
  · constructor
    · simp only [ids, List.map_append, List.map_cons, List.map_nil]
      have := Map.set_zipIdx s.ids 0 id hnot
      rw [← h.index] at this
      simpa [ids] using this
    · simp only [ids, List.map_append, List.map_cons, List.map_nil]
      rw [List.nodup_append]
      refine ⟨h.nodup, by simp, ?_⟩
      intro a ha b hb hab
      simp at hb
      subst hb; subst hab
      exact hnot ha
  · simp [ids]

theorem mainPart_frame (s : NodeStore) (cp : Option Int) :
    (s.mainPart cp).1.nodeDatas = s.nodeDatas ∧ (s.mainPart cp).1.positionById = s.positionById ∧
    (s.mainPart cp).1.autoNodeId = s.autoNodeId := by
  unfold mainPart
  cases cp with
  | none => exact ⟨rfl, rfl, rfl⟩
  | some c => simp only; split <;> exact ⟨rfl, rfl, rfl⟩

/-- `updatePart` only changes the part of one node. -/
theorem updatePart_frame (s : NodeStore) (p : Nat) (cp mp : Int) (d : NodeData)
    (h : s.nodeDatas[p]? = some d) :
    ∃ s' part, s.updatePart p cp mp = .ok s' ∧ s'.positionById = s.positionById ∧
      s'.autoNodeId = s.autoNodeId ∧
      s'.nodeDatas = s.nodeDatas.set p { d with nodePart := part } := by
  have hself : s.nodeDatas = s.nodeDatas.set p { d with nodePart := d.nodePart } := by
    apply List.ext_getElem?
    intro i
    rw [List.getElem?_set]
    split
    · rename_i hi
      subst hi
      have hlt : p < s.nodeDatas.length := by
        by_contra hc
        rw [List.getElem?_eq_none (by omega)] at h
        cases h
      rw [if_pos hlt, h]
    · rfl
  unfold updatePart
  rw [h]
  simp only
  split
  · exact ⟨_, mp, rfl, rfl, rfl, rfl⟩
  · split
    · split
      · exact ⟨_, d.nodePart, rfl, rfl, rfl, hself⟩
      · split
        · exact ⟨_, _, rfl, rfl, rfl, rfl⟩
        · exact ⟨_, _, rfl, rfl, rfl, rfl⟩
    · exact ⟨_, d.nodePart, rfl, rfl, rfl, hself⟩

/-- Effect of `findOrReserveNode`. -/
theorem reserve_spec {s : NodeStore} (h : Inv s) (id : Int) (hid : id ≠ AUTO_ID)
    (cellPart : Option Int) :
    ∃ s' p, s.findOrReserveNode id cellPart = .ok (s', p) ∧ Inv s' ∧
      s'.ids[p]? = some id ∧
      s'.ids = (if id ∈ s.ids then s.ids else s.ids ++ [id]) ∧
      (id ∉ s.ids → ∃ np, s'.nodeDatas[p]? = some ⟨id, RESERVED, RESERVED, RESERVED, 0, 0, np⟩) ∧
      (id ∈ s.ids → ∃ d np, s.nodeDatas[p]? = some d ∧
        s'.nodeDatas[p]? = some { d with nodePart := np }) ∧
      (∀ q, q ≠ p → s'.nodeDatas[q]? = s.nodeDatas[q]?) := by
  obtain ⟨hm1, hm2, _⟩ := mainPart_frame s cellPart
  have hi : Inv (s.mainPart cellPart).1 := by
    constructor
    · show (s.mainPart cellPart).1.positionById = List.zipIdx (List.map _ (s.mainPart cellPart).1.nodeDatas)
      rw [hm1, hm2]; exact h.index
    · show (List.map _ (s.mainPart cellPart).1.nodeDatas).Nodup
      rw [hm1]; exact h.nodup
  have hids : (s.mainPart cellPart).1.ids = s.ids := by unfold ids; rw [hm1]
  unfold findOrReserveNode
  generalize hmp : s.mainPart cellPart = r at *
  obtain ⟨s1, mp⟩ := r
  simp only at hm1 hm2 hi hids ⊢
  unfold findNodePosition
  cases hf : s1.positionById.find id with
  | none =>
    have hnot : id ∉ s.ids := by rw [← hids]; exact (hi.find_none id).mp hf
    obtain ⟨s', p, ha, hi', hp, hids', hdata, hframe⟩ :=
      addNode_spec hi id hid RESERVED RESERVED RESERVED 0 0 mp
    simp only [ha, Outcome.bind_ok]
    have hset : s'.positionById.set id p = s'.positionById :=
      Map.set_same _ _ _ ((hi'.find id p).mpr hp)
    refine ⟨_, _, rfl, ?_, hp, ?_, ?_, ?_, ?_⟩
    · constructor
      · show s'.positionById.set id p = _
        rw [hset]; exact hi'.index
      · exact hi'.nodup
    · show s'.ids = _
      rw [hids', hids]
    · intro _; exact hdata
    · intro hc; exact absurd hc hnot
    · intro q hq; rw [← hm1]; exact hframe q hq
  | some p =>
    have hp := (hi.find id p).mp hf
    have hmem : id ∈ s.ids := by rw [← hids]; exact List.mem_of_getElem? hp
    have hd : ∃ d, s1.nodeDatas[p]? = some d := by
      simp only [ids, List.getElem?_map] at hp
      cases hx : s1.nodeDatas[p]? with
      | none => simp [hx] at hp
      | some d => exact ⟨d, rfl⟩
    obtain ⟨d, hd⟩ := hd
    cases cellPart with
    | none =>
      refine ⟨_, _, rfl, hi, hp, ?_, ?_, ?_, ?_⟩
      · rw [hids, if_pos hmem]
      · intro hc; exact absurd hmem hc
      · intro _; exact ⟨d, d.nodePart, by rw [← hm1]; exact hd, hd⟩
      · intro q _; rw [hm1]
    | some cp =>
      obtain ⟨s', part, h1, h2, h3, h4⟩ := updatePart_frame s1 p cp mp d hd
      simp only [h1, Outcome.bind_ok]
      have hids' : s'.ids = s1.ids := by
        unfold ids
        rw [h4]
        exact ids_set s1 p d _ hd rfl
      have hlt : p < s1.nodeDatas.length := by
        by_contra hc
        rw [List.getElem?_eq_none (by omega)] at hd
        cases hd
      refine ⟨_, _, rfl, ?_, ?_, ?_, ?_, ?_, ?_⟩
      · exact ⟨by rw [h2, hids']; exact hi.index, by rw [hids']; exact hi.nodup⟩
      · rw [hids']; exact hp
      · rw [hids', hids, if_pos hmem]
      · intro hc; exact absurd hmem hc
      · intro _
        exact ⟨d, part, by rw [← hm1]; exact hd, by rw [h4]; simp [List.getElem?_set, hlt]⟩
      · intro q hq
        rw [h4, List.getElem?_set, if_neg (Ne.symm hq), hm1]

end NodeStore
end Vega
