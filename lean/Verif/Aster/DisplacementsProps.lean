import Verif.Aster.Displacements
import Verif.Case.Kept
import Verif.Case.WriteProps
import Verif.Mesh.NodeLemmas
import Verif.Mesh.PartProps

/-! # What is proved of the displacements asked for -/
namespace Vega
namespace DisplacementsSpec
open Nastran (Line)
open Case (Deck Analysis OSet SetValue)
open Displacements

/-- The analysis asks for the displacements of the list `n`. -/
def Asks (a : Analysis) (n : Int) : Prop := (OSet.disp, n) ∈ a.outputs

/-- The group of this name is the nodes of the mesh whose numbers are in the list. -/
def GroupIs (m : Mesh) (name : Line) (l : List Int) : Prop :=
  ∃ ps, Map.find m.groups name = some (.nodes ps) ∧ ∀ i, (∃ p ∈ ps, (m.nodes.nodeDatas[p]?).map (·.id) = some i) ↔ i ∈ l

end DisplacementsSpec

namespace Displacements
open Nastran (Line)
open NastranWrite (showNat natOf_showNat showNat_plain)
open Case (Deck Analysis OSet SetValue AType showInt bind_eq_ok)
open DisplacementsSpec

theorem showInt_inj {a b : Int} (h : showInt a = showInt b) : a = b := by
  have nat : ∀ {x y : Nat}, showNat x = showNat y → x = y := by
    intro x y h
    rw [← natOf_showNat x, ← natOf_showNat y, h]
  have sign : ∀ x y : Nat, '-' :: showNat x ≠ showNat y := by
    intro x y h
    have : '-' ∈ showNat y := by rw [← h]; simp
    exact absurd (showNat_plain this).2.2.2 (by decide)
  unfold showInt at h
  split at h <;> split at h
  · have := nat (List.cons_inj_right _ |>.mp h)
    omega
  · exact absurd h (sign _ _)
  · exact absurd h.symm (sign _ _)
  · have := nat h
    omega

theorem groupName_inj {a b : Int} (h : groupName a = groupName b) : a = b := by
  unfold groupName at h
  exact showInt_inj (List.append_cancel_left h)

theorem mem_sorted (l : List Int) (i : Int) : i ∈ sorted l ↔ i ∈ l := by
  have : ∀ (l s : List Int), i ∈ l.foldl (fun s i => insertSorted i s) s ↔ i ∈ s ∨ i ∈ l := by
    intro l
    induction l with
    | nil => simp
    | cons a l ih =>
      intro s
      rw [List.foldl_cons, ih, NodeSpec.mem_insertSorted]
      simp only [List.mem_cons]
      tauto
  unfold sorted
  simpa using this l []

theorem mem_asked (a : Analysis) (n : Int) : n ∈ asked a ↔ Asks a n := by
  unfold asked Asks
  rw [mem_sorted]
  simp

theorem mem_outputsOf (d : Deck) (a : Analysis) (o : Nat × Int) :
    o ∈ outputsOf d a ↔ Asks a o.2 ∧ ∃ p, d.phases[o.1]? = some (o.2, p) := by
  unfold outputsOf
  rw [List.mem_flatMap]
  constructor
  · rintro ⟨n, hn, h⟩
    obtain ⟨e, he, rfl⟩ := List.mem_map.mp h
    obtain ⟨h1, h2⟩ := List.mem_filter.mp he
    have h2 : e.1.1 = n := by simpa using h2
    refine ⟨(mem_asked a n).mp hn, e.1.2, ?_⟩
    have := List.mem_zipIdx_iff_getElem?.mp h1
    rw [this, ← h2]
  · rintro ⟨h1, p, h2⟩
    refine ⟨o.2, (mem_asked a _).mpr h1, List.mem_map.mpr ⟨((o.2, p), o.1), ?_, rfl⟩⟩
    exact List.mem_filter.mpr ⟨List.mem_zipIdx_iff_getElem?.mpr h2, by simp⟩

/-! ## Nodes -/

/-- What a list does to the nodes: those that are not there are added, far away. -/
theorem addNodeIds_spec : ∀ (l : List Int) {s : NodeStore} (ps : List Nat), NodeStore.Inv s → (∀ i ∈ l, i ≠ AUTO_ID) →
    (∀ p ∈ ps, p < s.nodeDatas.length) →
    ∃ s' ps' more, addNodeIds s ps l = .ok (s', ps') ∧ NodeStore.Inv s' ∧ s'.nodeDatas = s.nodeDatas ++ more ∧
      (∀ x ∈ more, x.id ∈ l ∧ x.id ∉ s.ids ∧ x.x = NodeStore.RESERVED ∧ x.y = NodeStore.RESERVED ∧ x.z = NodeStore.RESERVED) ∧
      (∀ i ∈ l, i ∈ s'.ids) ∧
      (∀ i, (∃ p ∈ ps', s'.ids[p]? = some i) ↔ (∃ p ∈ ps, s.ids[p]? = some i) ∨ i ∈ l) ∧
      ((∀ i ∈ l, i ∈ s.ids) → s' = s) := by
  intro l
  induction l with
  | nil =>
    intro s ps h _ _
    exact ⟨s, ps, [], rfl, h, by simp, by simp, by simp, by simp, fun _ => rfl⟩
  | cons i l ih =>
    intro s ps h hl hps
    by_cases hi : i ∈ s.ids
    · obtain ⟨p, hp⟩ : ∃ p, s.positionById.find i = some p := by
        cases hf : s.positionById.find i with
        | none => exact absurd hi ((h.find_none i).mp hf)
        | some p => exact ⟨p, rfl⟩
      have hp' := (h.find i p).mp hp
      have hlt : p < s.nodeDatas.length := by
        have := (List.getElem?_eq_some_iff.mp hp').1
        simpa [NodeStore.ids] using this
      have hr : s.findOrReserveNode i none = .ok (s, p) := by
        simp [NodeStore.findOrReserveNode, NodeStore.mainPart, NodeStore.findNodePosition, hp]
      obtain ⟨s', ps', more, e, h1, h2, h3, h4, h5, h6⟩ := ih (if p ∈ ps then ps else ps ++ [p]) h (fun j hj => hl j (by simp [hj]))
        (by
          intro q hq
          split at hq
          · exact hps q hq
          · rcases List.mem_append.mp hq with hq | hq
            · exact hps q hq
            · rw [List.mem_singleton] at hq; rw [hq]; exact hlt)
      refine ⟨s', ps', more, ?_, h1, h2, fun x hx => ⟨by simp [(h3 x hx).1], (h3 x hx).2⟩, ?_, ?_, fun hall => h6 fun j hj => hall j (by simp [hj])⟩
      · rw [addNodeIds, hr]; exact e
      · intro j hj
        rcases List.mem_cons.mp hj with rfl | hj
        · have : s'.ids = s.ids ++ more.map (·.id) := by simp [NodeStore.ids, h2]
          rw [this]; exact List.mem_append_left _ hi
        · exact h4 j hj
      · intro j
        rw [h5 j]
        constructor
        · rintro (⟨q, hq, hj⟩ | hj)
          · split at hq
            · exact Or.inl ⟨q, hq, hj⟩
            · rcases List.mem_append.mp hq with hq | hq
              · exact Or.inl ⟨q, hq, hj⟩
              · rw [List.mem_singleton] at hq
                subst hq
                rw [hp'] at hj
                exact Or.inr (by simp [Option.some.inj hj])
          · exact Or.inr (by simp [hj])
        · rintro (⟨q, hq, hj⟩ | hj)
          · refine Or.inl ⟨q, ?_, hj⟩
            split
            · exact hq
            · exact List.mem_append_left _ hq
          · rcases List.mem_cons.mp hj with rfl | hj
            · refine Or.inl ⟨p, ?_, hp'⟩
              split
              · assumption
              · simp
            · exact Or.inr hj
    · have hn := (h.find_none i).mpr hi
      have hauto := hl i (by simp)
      obtain ⟨s1, hr, g1, g2⟩ : ∃ s1, s.findOrReserveNode i none = .ok (s1, s.nodeDatas.length) ∧ NodeStore.Inv s1 ∧
          s1.nodeDatas = s.nodeDatas ++ [⟨i, NodeStore.RESERVED, NodeStore.RESERVED, NodeStore.RESERVED, 0, 0, 0⟩] := by
        obtain ⟨s1, p, r1, r2, r3, r4, r5, r6, r7⟩ := NodeStore.reserve_spec h i hauto none
        have hdef : ∃ s1, s.findOrReserveNode i none = .ok (s1, s.nodeDatas.length) ∧
            s1.nodeDatas = s.nodeDatas ++ [⟨i, NodeStore.RESERVED, NodeStore.RESERVED, NodeStore.RESERVED, 0, 0, 0⟩] := by
          rw [NodeStore.findOrReserveNode]
          simp only [NodeStore.mainPart, NodeStore.findNodePosition, hn, NodeStore.addNode, NodeStore.pickId, hauto, if_false, Outcome.bind_ok]
          exact ⟨_, rfl, rfl⟩
        obtain ⟨s2, e1, e2⟩ := hdef
        rw [e1] at r1
        cases r1
        exact ⟨s1, e1, r2, e2⟩
      have hids : s1.ids = s.ids ++ [i] := by simp [NodeStore.ids, g2]
      have hlen : s.ids.length = s.nodeDatas.length := by simp [NodeStore.ids]
      have hat : s1.ids[s.nodeDatas.length]? = some i := by
        rw [hids, ← hlen]; simp
      have hold : ∀ q < s.nodeDatas.length, s1.ids[q]? = s.ids[q]? := by
        intro q hq
        rw [hids, List.getElem?_append_left (by omega)]
      have hnew : s.nodeDatas.length ∉ ps := fun hm => absurd (hps _ hm) (by omega)
      obtain ⟨s', ps', more, e, h1, h2, h3, h4, h5, _⟩ := ih (ps ++ [s.nodeDatas.length]) g1 (fun j hj => hl j (by simp [hj]))
        (by
          intro q hq
          rw [g2, List.length_append]
          rcases List.mem_append.mp hq with hq | hq
          · have := hps q hq; simp; omega
          · rw [List.mem_singleton] at hq; rw [hq]; simp)
      refine ⟨s', ps', ⟨i, NodeStore.RESERVED, NodeStore.RESERVED, NodeStore.RESERVED, 0, 0, 0⟩ :: more, ?_, h1, by rw [h2, g2]; simp, ?_, ?_, ?_,
        fun hall => absurd (hall i (by simp)) hi⟩
      · rw [addNodeIds, hr, Outcome.bind_ok]
        simp only [if_neg hnew]
        exact e
      · intro x hx
        rcases List.mem_cons.mp hx with rfl | hx
        · exact ⟨by simp, hi, rfl, rfl, rfl⟩
        · obtain ⟨a1, a2, a3⟩ := h3 x hx
          refine ⟨by simp [a1], fun hm => a2 ?_, a3⟩
          rw [hids]; exact List.mem_append_left _ hm
      · intro j hj
        rcases List.mem_cons.mp hj with rfl | hj
        · have : s'.ids = s1.ids ++ more.map (·.id) := by simp [NodeStore.ids, h2]
          rw [this, hids]; simp
        · exact h4 j hj
      · intro j
        rw [h5 j]
        constructor
        · rintro (⟨q, hq, hj⟩ | hj)
          · rcases List.mem_append.mp hq with hq | hq
            · exact Or.inl ⟨q, hq, (hold q (hps q hq)) ▸ hj⟩
            · rw [List.mem_singleton] at hq
              subst hq
              rw [hat] at hj
              exact Or.inr (by simp [Option.some.inj hj])
          · exact Or.inr (by simp [hj])
        · rintro (⟨q, hq, hj⟩ | hj)
          · exact Or.inl ⟨q, List.mem_append_left _ hq, (hold q (hps q hq)).trans hj⟩
          · rcases List.mem_cons.mp hj with rfl | hj
            · exact Or.inl ⟨_, by simp, hat⟩
            · exact Or.inr hj

/-! ## Groups -/

/-- `GroupIs`, with positions that are there. -/
def Right (m : Mesh) (name : Line) (l : List Int) : Prop :=
  ∃ ps, Map.find m.groups name = some (.nodes ps) ∧ (∀ p ∈ ps, p < m.nodes.nodeDatas.length) ∧
    ∀ i, (∃ p ∈ ps, m.nodes.ids[p]? = some i) ↔ i ∈ l

theorem Right.is {m : Mesh} {name : Line} {l : List Int} (h : Right m name l) : GroupIs m name l := by
  obtain ⟨ps, h1, _, h3⟩ := h
  refine ⟨ps, h1, fun i => ?_⟩
  rw [← h3 i]
  simp [NodeStore.ids]

/-- What is known of the mesh `m` while the lists of `A` are written, when it was `m0` at first. -/
structure State (sets : List (Int × SetValue)) (A : Int → Prop) (m0 m : Mesh) : Prop where
  inv : NodeStore.Inv m.nodes
  nodes : ∃ more, m.nodes.nodeDatas = m0.nodes.nodeDatas ++ more ∧
    ∀ x ∈ more, x.id ∉ m0.nodes.ids ∧ x.x = NodeStore.RESERVED ∧ x.y = NodeStore.RESERVED ∧ x.z = NodeStore.RESERVED ∧
      ∃ n l, A n ∧ Map.find sets n = some (.list l) ∧ x.id ∈ l
  old : ∀ k g, Map.find m0.groups k = some g → Map.find m.groups k = some g
  new : ∀ n l, Map.find sets n = some (.list l) → Map.find m0.groups (groupName n) = none →
    Map.find m.groups (groupName n) = none ∨ Right m (groupName n) l
  other : ∀ k, (∀ n, A n → k ≠ groupName n) → Map.find m.groups k = Map.find m0.groups k

theorem State.start {sets : List (Int × SetValue)} {A : Int → Prop} {m : Mesh} (h : NodeStore.Inv m.nodes) : State sets A m m :=
  ⟨h, ⟨[], by simp, by simp⟩, fun _ _ h => h, fun _ _ _ h => Or.inl h, fun _ _ => rfl⟩

/-- The names that are written for a list, read from the groups at the end. -/
def names (m : Mesh) (n : Int) : List Line :=
  match Map.find m.groups (groupName n) with
  | some (.nodes ps) => if ps.isEmpty then [] else [groupName n]
  | _ => []

/-- Groups stay as they are. -/
def Stays (m m' : Mesh) : Prop := ∀ k g, Map.find m.groups k = some g → Map.find m'.groups k = some g

theorem names_stay {m m' : Mesh} (h : Stays m m') {n : Int} (hn : Map.find m.groups (groupName n) ≠ none) : names m' n = names m n := by
  unfold names
  cases hg : Map.find m.groups (groupName n) with
  | none => exact absurd hg hn
  | some g => rw [h _ _ hg]

theorem groupNo_keeps {sets : List (Int × SetValue)} {A : Int → Prop} (hs : ∀ n l, Map.find sets n = some (.list l) → ∀ i ∈ l, i ≠ AUTO_ID)
    {m0 m : Mesh} (st : State sets A m0 m) {n : Int} (ha : A n) {l : List Int} (hl : Map.find sets n = some (.list l))
    (hg : Map.find m0.groups (groupName n) ≠ some .cells) :
    ∃ m', groupNo sets m n = .ok (m', names m' n) ∧ State sets A m0 m' ∧ Stays m m' ∧ Map.find m'.groups (groupName n) ≠ none := by
  unfold groupNo nodeGroup
  rw [hl]
  simp only
  cases hm : Map.find m.groups (groupName n) with
  | some g =>
    cases g with
    | nodes ps =>
      refine ⟨m, ?_, st, fun _ _ h => h, by rw [hm]; simp⟩
      simp only [Outcome.bind_ok, names, hm]
    | cells =>
      exfalso
      cases h0 : Map.find m0.groups (groupName n) with
      | some g =>
        rw [st.old _ _ h0] at hm
        exact hg (h0.trans hm)
      | none =>
        rcases st.new n l hl h0 with h | ⟨ps, h, _⟩
        · rw [hm] at h; exact nomatch h
        · rw [hm] at h; exact nomatch h
  | none =>
    simp only
    obtain ⟨s', ps', more, e, h1, h2, h3, h4, h5, _⟩ := addNodeIds_spec (sorted l) [] st.inv
      (fun i hi => hs n l hl i ((mem_sorted l i).mp hi)) (by simp)
    have hids : s'.ids = m.nodes.ids ++ more.map (·.id) := by simp [NodeStore.ids, h2]
    have hlen : m.nodes.ids.length = m.nodes.nodeDatas.length := by simp [NodeStore.ids]
    have hstays : Stays m ⟨s', Map.set m.groups (groupName n) (.nodes ps')⟩ := by
      intro k g hk
      change Map.find (Map.set m.groups _ _) k = some g
      rw [Map.find_set_ne _ _ (by rintro rfl; rw [hm] at hk; exact nomatch hk), hk]
    have hps : ∀ p ∈ ps', p < s'.nodeDatas.length := by
      -- positions come from the search of nodes
      have key : ∀ (l : List Int) {s s' : NodeStore} {ps ps' : List Nat}, NodeStore.Inv s → (∀ i ∈ l, i ≠ AUTO_ID) →
          addNodeIds s ps l = .ok (s', ps') → (∀ p ∈ ps, p < s.nodeDatas.length) → ∀ p ∈ ps', p < s'.nodeDatas.length := by
        intro l
        induction l with
        | nil => intro s s' ps ps' _ _ h hp; cases h; exact hp
        | cons i l ih =>
          intro s s' ps ps' hinv hl h hp
          rw [addNodeIds] at h
          obtain ⟨⟨s1, p⟩, r1, r2⟩ := bind_eq_ok h
          obtain ⟨s2, p2, q1, q2, q3, q4, _⟩ := NodeStore.reserve_spec hinv i (hl i (by simp)) none
          rw [r1] at q1
          cases q1
          have hle : s.nodeDatas.length ≤ s1.nodeDatas.length := by
            have : s.ids.length ≤ s1.ids.length := by
              rw [q4]
              split <;> simp
            simpa [NodeStore.ids] using this
          have hlt : p < s1.nodeDatas.length := by
            have := (List.getElem?_eq_some_iff.mp q3).1
            simpa [NodeStore.ids] using this
          refine ih q2 (fun j hj => hl j (by simp [hj])) r2 ?_
          intro q hq
          split at hq
          · exact lt_of_lt_of_le (hp q hq) hle
          · rcases List.mem_append.mp hq with hq | hq
            · exact lt_of_lt_of_le (hp q hq) hle
            · rw [List.mem_singleton] at hq; rw [hq]; exact hlt
      exact key _ st.inv (fun i hi => hs n l hl i ((mem_sorted l i).mp hi)) e (by simp)
    refine ⟨⟨s', Map.set m.groups (groupName n) (.nodes ps')⟩, ?_, ?_, hstays, by simp⟩
    · rw [e]
      simp only [Outcome.bind_ok, names, Map.find_set_self]
    · obtain ⟨more0, g1, g2⟩ := st.nodes
      refine ⟨h1, ⟨more0 ++ more, by change s'.nodeDatas = _; rw [h2, g1, List.append_assoc], ?_⟩, fun k g hk => hstays k g (st.old k g hk), ?_, ?_⟩
      · intro x hx
        rcases List.mem_append.mp hx with hx | hx
        · exact g2 x hx
        · obtain ⟨a1, a2, a3, a4, a5⟩ := h3 x hx
          refine ⟨fun h => a2 ?_, a3, a4, a5, n, l, ha, hl, (mem_sorted l _).mp a1⟩
          simp only [NodeStore.ids, g1, List.map_append]
          exact List.mem_append_left _ h
      · intro k l' hk h0
        by_cases hkn : k = n
        · subst hkn
          rw [hl] at hk
          cases hk
          refine Or.inr ⟨ps', Map.find_set_self _ _ _, hps, fun i => ?_⟩
          rw [h5 i, mem_sorted]
          simp
        · have hne : groupName n ≠ groupName k := fun h => hkn (groupName_inj h).symm
          rcases st.new k l' hk h0 with h | ⟨ps, a1, a2, a3⟩
          · exact Or.inl ((Map.find_set_ne _ _ hne).trans h)
          · refine Or.inr ⟨ps, (Map.find_set_ne _ _ hne).trans a1, fun p hp => ?_, fun i => ?_⟩
            · change p < s'.nodeDatas.length
              rw [h2, List.length_append]
              exact Nat.lt_add_right _ (a2 p hp)
            · rw [← a3 i]
              constructor
              · rintro ⟨p, hp, h⟩
                refine ⟨p, hp, ?_⟩
                rwa [hids, List.getElem?_append_left (by rw [hlen]; exact a2 p hp)] at h
              · rintro ⟨p, hp, h⟩
                refine ⟨p, hp, ?_⟩
                rw [hids, List.getElem?_append_left (by rw [hlen]; exact a2 p hp)]
                exact h
      · intro k hk
        exact (Map.find_set_ne _ _ (hk n ha).symm).trans (st.other k hk)

theorem writeActions_keeps {sets : List (Int × SetValue)} {A : Int → Prop}
    (hs : ∀ n l, Map.find sets n = some (.list l) → ∀ i ∈ l, i ≠ AUTO_ID) {m0 : Mesh}
    (hA : ∀ n, A n → (∃ l, Map.find sets n = some (.list l)) ∧ Map.find m0.groups (groupName n) ≠ some .cells) :
    ∀ (outs : List (Nat × Int)) {m : Mesh}, State sets A m0 m → (∀ o ∈ outs, A o.2) →
    ∃ m', writeActions sets m outs = .ok (m', outs.flatMap fun o => [⟨o.1, true, names m' o.2⟩, ⟨o.1, false, names m' o.2⟩]) ∧
      State sets A m0 m' ∧ Stays m m' ∧ ∀ o ∈ outs, Map.find m'.groups (groupName o.2) ≠ none := by
  intro outs
  induction outs with
  | nil => intro m st _; exact ⟨m, rfl, st, fun _ _ h => h, by simp⟩
  | cons o outs ih =>
    intro m st ho
    have hAo := ho o (by simp)
    obtain ⟨⟨l, hl⟩, hg⟩ := hA _ hAo
    obtain ⟨m1, e1, s1, t1, n1⟩ := groupNo_keeps hs st hAo hl hg
    obtain ⟨m2, e2, s2, t2, n2⟩ := groupNo_keeps hs s1 hAo hl hg
    obtain ⟨m3, e3, s3, t3, n3⟩ := ih s2 (fun o ho' => ho o (by simp [ho']))
    have n31 : Map.find m3.groups (groupName o.2) ≠ none := by
      cases h : Map.find m2.groups (groupName o.2) with
      | none => exact absurd h n2
      | some g => rw [t3 _ _ h]; simp
    refine ⟨m3, ?_, s3, fun k g h => t3 _ _ (t2 _ _ (t1 _ _ h)), ?_⟩
    · rw [writeActions, e1, Outcome.bind_ok]
      simp only
      rw [e2, Outcome.bind_ok]
      simp only
      rw [e3, Outcome.bind_ok]
      simp only [List.flatMap_cons, List.cons_append, List.nil_append]
      rw [names_stay t3 n2, names_stay t2 n1]
    · intro o' ho'
      rcases List.mem_cons.mp ho' with rfl | ho'
      · exact n31
      · exact n3 o' ho'

/-- The table of an analysis, read from the groups at the end. -/
def tableAt (d : Deck) (m : Mesh) (x : Analysis × Bool) : Table :=
  if (outputsOf d x.1).isEmpty then wholeTable x.2 x.1.kind.type
  else .extraction ((outputsOf d x.1).flatMap fun o => [⟨o.1, true, names m o.2⟩, ⟨o.1, false, names m o.2⟩])

theorem writeTables_keeps {d : Deck} {A : Int → Prop}
    (hs : ∀ n l, Map.find d.sets n = some (.list l) → ∀ i ∈ l, i ≠ AUTO_ID) {m0 : Mesh}
    (hA : ∀ n, A n → (∃ l, Map.find d.sets n = some (.list l)) ∧ Map.find m0.groups (groupName n) ≠ some .cells) :
    ∀ (as : List (Analysis × Bool)) {m : Mesh}, State d.sets A m0 m → (∀ x ∈ as, ∀ o ∈ outputsOf d x.1, A o.2) →
    ∃ m', writeTables d m as = .ok (m', as.map (tableAt d m')) ∧ State d.sets A m0 m' ∧ Stays m m' ∧
      ∀ x ∈ as, ∀ o ∈ outputsOf d x.1, Map.find m'.groups (groupName o.2) ≠ none := by
  intro as
  induction as with
  | nil => intro m st _; exact ⟨m, rfl, st, fun _ _ h => h, by simp⟩
  | cons x as ih =>
    intro m st ho
    obtain ⟨m1, e1, s1, t1, n1⟩ : ∃ m1, writeTable d x.2 m x.1 = .ok (m1, tableAt d m1 x) ∧ State d.sets A m0 m1 ∧ Stays m m1 ∧
        ∀ o ∈ outputsOf d x.1, Map.find m1.groups (groupName o.2) ≠ none := by
      unfold writeTable tableAt
      by_cases he : (outputsOf d x.1).isEmpty = true
      · refine ⟨m, by rw [if_pos he, if_pos he], st, fun _ _ h => h, ?_⟩
        rw [List.isEmpty_iff.mp he]; simp
      · obtain ⟨m1, a1, a2, a3, a4⟩ := writeActions_keeps hs hA (outputsOf d x.1) st (ho x (by simp))
        refine ⟨m1, ?_, a2, a3, a4⟩
        rw [if_neg he, if_neg he, a1]
        rfl
    obtain ⟨m2, e2, s2, t2, n2⟩ := ih s1 (fun y hy => ho y (by simp [hy]))
    have hstay : tableAt d m2 x = tableAt d m1 x := by
      unfold tableAt
      split
      · rfl
      · congr 1
        refine List.flatMap_congr fun o ho => ?_
        rw [names_stay t2 (n1 o ho)]
    refine ⟨m2, ?_, s2, fun k g h => t2 _ _ (t1 _ _ h), ?_⟩
    · rw [writeTables, e1, Outcome.bind_ok]
      simp only
      rw [e2, Outcome.bind_ok, List.map_cons, hstay]
    · intro y hy o ho'
      rcases List.mem_cons.mp hy with rfl | hy
      · have := n1 o ho'
        cases h : Map.find m1.groups (groupName o.2) with
        | none => exact absurd h this
        | some g => rw [t2 _ _ h]; simp
      · exact n2 y hy o ho'

end Displacements

namespace DisplacementsSpec
open Nastran (Line)
open Case (Deck Analysis OSet SetValue AType Config readSection read_numbers gnu)
open Displacements

/-- A file read, and a mesh: the lists asked for are lists of numbers, and no group has their names yet. -/
structure Ready (cfg : Config) (lines : List Line) (d : Deck) (m : Mesh) : Prop where
  read : readSection cfg lines = .ok d
  mesh : NodeStore.Inv m.nodes
  numbers : ∀ n l, (n, SetValue.list l) ∈ d.sets → ∀ i ∈ l, 0 ≤ i
  lists : ∀ a ∈ d.analyses, ∀ n, Asks a n → ∃ l, (n, SetValue.list l) ∈ d.sets
  names : ∀ a ∈ d.analyses, ∀ n, Asks a n → Map.find m.groups (groupName n) = none

/-- The tables of the analyses are those asked for: for each list asked for in an analysis, the real and the imaginary parts of the
displacements of its group, and nothing else; the displacements of all nodes when an analysis that is not in frequency asks for none. -/
def TableIs (a : Analysis) (t : Table) : Prop :=
  ((∃ n, Asks a n) → ∃ actions, t = .extraction actions ∧
    ∀ (real : Bool) (g : Line), (∃ x ∈ actions, x.real = real ∧ g ∈ x.groups) ↔ ∃ n, Asks a n ∧ g = groupName n) ∧
  ((∀ n, ¬ Asks a n) → a.kind.type ≠ .directFreq → a.kind.type ≠ .modalFreq → a.kind.type ≠ .modalComplex → t = .displacements)

theorem find_list {d : Deck} (hn : (d.sets.map (·.1)).Nodup) {n : Int} {v : SetValue} (h : (n, v) ∈ d.sets) : Map.find d.sets n = some v :=
  Map.find_of_mem d.sets hn h

/-- What is written, whatever the lists. -/
theorem written {cfg : Config} {lines : List Line} {d : Deck} {m : Mesh} (h : Ready cfg lines d m) (reused : List (Analysis × Bool))
    (hr : reused.map (·.1) = d.analyses) :
    ∃ m', writeTables d m reused = .ok (m', reused.map (tableAt d m')) ∧
      State d.sets (fun n => ∃ a ∈ d.analyses, Asks a n) m m' ∧
      ∀ a ∈ d.analyses, ∀ n, Asks a n → ∀ l, (n, SetValue.list l) ∈ d.sets → Right m' (groupName n) l := by
  obtain ⟨hnum, hreq⟩ := read_numbers h.read
  have hmem : ∀ x ∈ reused, x.1 ∈ d.analyses := fun x hx => hr ▸ List.mem_map_of_mem hx
  obtain ⟨m', e, st, _, hg⟩ := writeTables_keeps (d := d) (A := fun n => ∃ a ∈ d.analyses, Asks a n) (m0 := m)
    (fun n l hl i hi he => by
      have := h.numbers n l (Map.mem_of_find _ hl) i hi
      rw [he] at this
      exact absurd this (by decide))
    (fun n ⟨a, ha, hn⟩ => by
      obtain ⟨l, hl⟩ := h.lists a ha n hn
      refine ⟨⟨l, find_list hnum.sets hl⟩, ?_⟩
      rw [h.names a ha n hn]; simp)
    reused (State.start h.mesh) (fun x hx o ho => ⟨x.1, hmem x hx, ((mem_outputsOf d x.1 o).mp ho).1⟩)
  refine ⟨m', e, st, ?_⟩
  intro a ha n hn l hl
  obtain ⟨x, hx, rfl⟩ := List.mem_map.mp (hr ▸ ha : a ∈ reused.map (·.1))
  obtain ⟨p, hp⟩ := hreq.made x.1 ha n hn
  obtain ⟨k, hk⟩ := List.mem_iff_getElem?.mp hp
  have ho : (k, n) ∈ outputsOf d x.1 := (mem_outputsOf d x.1 (k, n)).mpr ⟨hn, p, hk⟩
  rcases st.new n l (find_list hnum.sets hl) (h.names x.1 ha n hn) with h1 | h1
  · exact absurd h1 (hg x hx _ ho)
  · exact h1

/-- C144, in part: a file whose lists asked for are not empty and name nodes of the mesh only, when no group has the names of the
lists. Everything is written; the table of each analysis has the displacements asked for; each group is the nodes of its list; the
nodes and the other groups of the mesh are as they were. -/
theorem C144_requested_partial (cfg : Config) (lines : List Line) (d : Deck) (m : Mesh) (h : Ready cfg lines d m)
    (nodes : ∀ a ∈ d.analyses, ∀ n, Asks a n → ∀ l, (n, SetValue.list l) ∈ d.sets → l ≠ [] ∧ ∀ i ∈ l, i ∈ m.nodes.ids)
    (reused : List (Analysis × Bool)) (hr : reused.map (·.1) = d.analyses) :
    ∃ m' ts, writeTables d m reused = .ok (m', ts) ∧ ts.length = d.analyses.length ∧
      (∀ (i : Nat) a t, d.analyses[i]? = some a → ts[i]? = some t → TableIs a t) ∧
      (∀ a ∈ d.analyses, ∀ n, Asks a n → ∀ l, (n, SetValue.list l) ∈ d.sets → GroupIs m' (groupName n) l) ∧
      m'.nodes.nodeDatas = m.nodes.nodeDatas ∧
      ∀ k, (∀ a ∈ d.analyses, ∀ n, Asks a n → k ≠ groupName n) → Map.find m'.groups k = Map.find m.groups k := by
  obtain ⟨hnum, hreq⟩ := read_numbers h.read
  obtain ⟨m', e, st, hright⟩ := written h reused hr
  refine ⟨m', _, e, by rw [List.length_map, ← hr, List.length_map], ?_, fun a ha n hn l hl => (hright a ha n hn l hl).is, ?_, ?_⟩
  · intro i a t hai hti
    rw [← hr, List.getElem?_map] at hai
    rw [List.getElem?_map] at hti
    cases hx : reused[i]? with
    | none => rw [hx] at hai; exact nomatch hai
    | some x =>
      rw [hx] at hai hti
      cases hai
      cases hti
      have ha : x.1 ∈ d.analyses := hr ▸ List.mem_map_of_mem (List.mem_of_getElem? hx)
      have hnames : ∀ n, Asks x.1 n → names m' n = [groupName n] := by
        intro n hn
        obtain ⟨l, hl⟩ := h.lists x.1 ha n hn
        obtain ⟨ps, h1, _, h3⟩ := hright x.1 ha n hn l hl
        have hne : ps ≠ [] := by
          rintro rfl
          obtain ⟨hl0, _⟩ := nodes x.1 ha n hn l hl
          cases l with
          | nil => exact hl0 rfl
          | cons i l =>
            have := (h3 i).mpr (by simp)
            simp at this
        unfold names
        rw [h1]
        simp [hne]
      have hout : ∀ n, Asks x.1 n → ∃ k, (k, n) ∈ outputsOf d x.1 := by
        intro n hn
        obtain ⟨p, hp⟩ := hreq.made x.1 ha n hn
        obtain ⟨k, hk⟩ := List.mem_iff_getElem?.mp hp
        exact ⟨k, (mem_outputsOf d x.1 (k, n)).mpr ⟨hn, p, hk⟩⟩
      refine ⟨?_, ?_⟩
      · rintro ⟨n, hn⟩
        obtain ⟨k, hk⟩ := hout n hn
        have hne : (outputsOf d x.1).isEmpty = false := by
          cases hl : outputsOf d x.1 with
          | nil => rw [hl] at hk; exact nomatch hk
          | cons o l => rfl
        refine ⟨_, by rw [tableAt, if_neg (by simp [hne])], ?_⟩
        intro real g
        constructor
        · rintro ⟨y, hy, rfl, hg⟩
          obtain ⟨o, ho, hy⟩ := List.mem_flatMap.mp hy
          have hao := ((mem_outputsOf d x.1 o).mp ho).1
          simp only [hnames o.2 hao, List.mem_cons, List.not_mem_nil, or_false] at hy
          rcases hy with rfl | rfl <;> exact ⟨o.2, hao, List.mem_singleton.mp hg⟩
        · rintro ⟨n, hn, rfl⟩
          obtain ⟨k, hk⟩ := hout n hn
          refine ⟨⟨k, real, [groupName n]⟩, List.mem_flatMap.mpr ⟨(k, n), hk, ?_⟩, rfl, by simp⟩
          cases real <;> simp [hnames n hn]
      · intro hno h1 h2 h3
        have hemp : (outputsOf d x.1).isEmpty = true := by
          cases hl : outputsOf d x.1 with
          | nil => rfl
          | cons o l => exact absurd ((mem_outputsOf d x.1 o).mp (by rw [hl]; simp)).1 (hno o.2)
        rw [tableAt, if_pos hemp]
        generalize x.1.kind.type = ty at h1 h2 h3
        cases ty <;> first | rfl | contradiction
  · obtain ⟨more, h1, h2⟩ := st.nodes
    cases more with
    | nil => simpa using h1
    | cons x more =>
      obtain ⟨a1, _, _, _, n, l, ⟨a, ha, hn⟩, hl, hx⟩ := h2 x (by simp)
      exact absurd ((nodes a ha n hn l (Map.mem_of_find _ hl)).2 _ hx) a1
  · intro k hk
    exact st.other k fun n ⟨a, ha, hn⟩ => hk a ha n hn

/-- C144 is false of lists with numbers that are not nodes, as is usual with `THRU`: whatever the file, each such number of a list
asked for becomes a node of the mesh that is written, and it is in the group: its three coordinates are `-DBL_MAX`. -/
theorem C144_missing_node_false (cfg : Config) (lines : List Line) (d : Deck) (m : Mesh) (h : Ready cfg lines d m)
    (reused : List (Analysis × Bool)) (hr : reused.map (·.1) = d.analyses)
    (a : Analysis) (ha : a ∈ d.analyses) (n : Int) (hn : Asks a n) (l : List Int) (hl : (n, SetValue.list l) ∈ d.sets) (i : Int) (hi : i ∈ l)
    (missing : i ∉ m.nodes.ids) :
    ∃ m' ts, writeTables d m reused = .ok (m', ts) ∧ m.nodes.countNodes < m'.nodes.countNodes ∧ GroupIs m' (groupName n) l ∧
      ∃ x ∈ m'.nodes.nodeDatas, x.id = i ∧ x.x = -dblMax ∧ x.y = -dblMax ∧ x.z = -dblMax := by
  obtain ⟨m', e, st, hright⟩ := written h reused hr
  obtain ⟨more, h1, h2⟩ := st.nodes
  have hg := hright a ha n hn l hl
  obtain ⟨ps, g1, g2, g3⟩ := hg
  obtain ⟨p, hp, hpi⟩ := (g3 i).mpr hi
  have hmem : i ∈ m'.nodes.ids := List.mem_of_getElem? hpi
  have hids : m'.nodes.ids = m.nodes.ids ++ more.map (·.id) := by simp [NodeStore.ids, h1]
  rw [hids] at hmem
  rcases List.mem_append.mp hmem with hm | hm
  · exact absurd hm missing
  · obtain ⟨x, hx, rfl⟩ := List.mem_map.mp hm
    obtain ⟨_, b1, b2, b3, _⟩ := h2 x hx
    refine ⟨m', _, e, ?_, (hright a ha n hn l hl).is, x, by rw [h1]; exact List.mem_append_right _ hx, rfl, b1, b2, b3⟩
    unfold NodeStore.countNodes
    rw [h1, List.length_append]
    have := List.length_pos_of_mem hx
    omega

/-- C144 is false of lists that are not there, or are `ALL`: when an analysis asks for one, whatever the file, nothing is written. -/
theorem C144_all_false (cfg : Config) (lines : List Line) (d : Deck) (m : Mesh) (read : readSection cfg lines = .ok d)
    (reused : List (Analysis × Bool)) (hr : reused.map (·.1) = d.analyses)
    (a : Analysis) (ha : a ∈ d.analyses) (n : Int) (hn : Asks a n) (hl : ∀ l, (n, SetValue.list l) ∉ d.sets) :
    ∀ r, writeTables d m reused ≠ .ok r := by
  obtain ⟨hnum, hreq⟩ := read_numbers read
  have hgroup : ∀ m, groupNo d.sets m n = .throw := by
    intro m
    unfold groupNo nodeGroup
    cases hf : Map.find d.sets n with
    | none => rfl
    | some v =>
      cases v with
      | all => rfl
      | list l => exact absurd (Map.mem_of_find _ hf) (hl l)
  have hactions : ∀ (outs : List (Nat × Int)) (m : Mesh) r, (∃ o ∈ outs, o.2 = n) → writeActions d.sets m outs ≠ .ok r := by
    intro outs
    induction outs with
    | nil => rintro m r ⟨o, ho, _⟩; exact nomatch ho
    | cons o outs ih =>
      rintro m r ⟨o', ho, hon⟩ hw
      rw [writeActions] at hw
      obtain ⟨r1, e1, hw⟩ := Case.bind_eq_ok hw
      by_cases he : o.2 = n
      · rw [he, hgroup] at e1; exact nomatch e1
      · obtain ⟨r2, e2, hw⟩ := Case.bind_eq_ok hw
        obtain ⟨r3, e3, hw⟩ := Case.bind_eq_ok hw
        refine ih _ _ ⟨o', ?_, hon⟩ e3
        rcases List.mem_cons.mp ho with rfl | ho
        · exact absurd hon he
        · exact ho
  obtain ⟨x, hx, rfl⟩ := List.mem_map.mp (hr ▸ ha : a ∈ reused.map (·.1))
  obtain ⟨p, hp⟩ := hreq.made x.1 ha n hn
  obtain ⟨k, hk⟩ := List.mem_iff_getElem?.mp hp
  have ho : (k, n) ∈ outputsOf d x.1 := (mem_outputsOf d x.1 (k, n)).mpr ⟨hn, p, hk⟩
  have htable : ∀ m r, writeTable d x.2 m x.1 ≠ .ok r := by
    intro m r hw
    unfold writeTable at hw
    split at hw
    · rename_i he
      rw [List.isEmpty_iff.mp he] at ho
      exact nomatch ho
    · obtain ⟨r1, e1, _⟩ := Case.bind_eq_ok hw
      exact hactions _ _ _ ⟨_, ho, rfl⟩ e1
  clear hr hk
  induction reused generalizing m with
  | nil => exact nomatch hx
  | cons y l ih =>
    intro r hw
    rw [writeTables] at hw
    obtain ⟨r1, e1, hw⟩ := Case.bind_eq_ok hw
    obtain ⟨r2, e2, _⟩ := Case.bind_eq_ok hw
    rcases List.mem_cons.mp hx with rfl | hx
    · exact htable _ _ e1
    · exact ih _ hx _ e2

/-- C144 is false of `PHASE`: whatever the file, what is written does not depend on it. -/
theorem C144_phase_false (d : Deck) (m : Mesh) (phases : List (Int × Bool)) (h : phases.map (·.1) = d.phases.map (·.1))
    (reused : List (Analysis × Bool)) : writeTables { d with phases := phases } m reused = writeTables d m reused := by
  have hz : ∀ (l l' : List (Int × Bool)) (k : Nat) (n : Int), l.map (·.1) = l'.map (·.1) →
      ((l.zipIdx k).filter fun e => decide (e.1.1 = n)).map (fun e => (e.2, n)) =
      ((l'.zipIdx k).filter fun e => decide (e.1.1 = n)).map (fun e => (e.2, n)) := by
    intro l
    induction l with
    | nil =>
      intro l' k n h
      rw [List.map_eq_nil_iff.mp h.symm]
    | cons x l ih =>
      intro l' k n h
      cases l' with
      | nil => exact nomatch h
      | cons y l' =>
        rw [List.map_cons, List.map_cons, List.cons.injEq] at h
        rw [List.zipIdx_cons, List.zipIdx_cons, List.filter_cons, List.filter_cons]
        simp only [h.1]
        split
        · rw [List.map_cons, List.map_cons, ih l' (k + 1) n h.2]
        · exact ih l' (k + 1) n h.2
  have ho : ∀ a, outputsOf { d with phases := phases } a = outputsOf d a := by
    intro a
    unfold outputsOf
    refine List.flatMap_congr fun n _ => ?_
    exact hz _ _ 0 n h
  have ht : ∀ b m a, writeTable { d with phases := phases } b m a = writeTable d b m a := by
    intro b m a
    unfold writeTable
    rw [ho a]
  induction reused generalizing m with
  | nil => rfl
  | cons x l ih =>
    rw [writeTables, writeTables, ht]
    congr 1
    funext r
    obtain ⟨m1, t⟩ := r
    simp only
    rw [ih]

/-- C144 is false of analyses in frequency that ask for no list (`DISP = ALL` asks for none): their tables never have the
displacements of the response. -/
theorem C144_frequency_all_false (d : Deck) (m : Mesh) (a : Analysis) (reused : Bool) (h : ∀ n, ¬ Asks a n)
    (hf : a.kind.type = .directFreq ∨ a.kind.type = .modalFreq) :
    ∃ t, writeTable d reused m a = .ok (m, t) ∧ t ≠ .displacements ∧ ∀ l, t ≠ .extraction l := by
  have hemp : (outputsOf d a).isEmpty = true := by
    cases hl : outputsOf d a with
    | nil => rfl
    | cons o l => exact absurd ((mem_outputsOf d a o).mp (by rw [hl]; simp)).1 (h o.2)
  refine ⟨_, by rw [writeTable, if_pos hemp], ?_, ?_⟩ <;>
    rcases hf with hf | hf <;> rw [hf] <;> cases reused <;> simp [wholeTable]

/-! ## Files -/

/-- Three nodes, 1, 2 and 4, and a group of cells. -/
def small : Mesh :=
  ⟨⟨[⟨1, 0, 0, 0, 0, 0, 0⟩, ⟨2, 1, 0, 0, 0, 0, 0⟩, ⟨4, 2, 0, 0, 0, 0, 0⟩], [(1, 0), (2, 1), (4, 2)], 9999999, 0, [], [], [], []⟩,
    [("PSHELL_1".toList, .cells)]⟩

theorem small_inv : NodeStore.Inv small.nodes := ⟨rfl, by decide +kernel⟩

/-- Lines of a file with two static subcases; the second asks for nothing. -/
def twoCases : List Line := ["SOL 101".toList, "SET 5 = 1, 4".toList, "SUBCASE 1".toList, "DISP = 5".toList, "SUBCASE 2".toList,
  "LOAD = 4".toList, "BEGIN BULK".toList]

/-- What is read from `twoCases`. -/
def twoDeck : Deck := match readSection gnu twoCases with
  | .ok d => d
  | _ => Deck.empty

theorem two_analyses : twoDeck.analyses.map (fun a => (a.kind, a.outputs)) = [(.linearStatic, [(.disp, 5)]), (.linearStatic, [])] ∧
    twoDeck.sets = [(5, .list [1, 4])] := by decide +kernel

theorem two_ready : Ready gnu twoCases twoDeck small := by
  obtain ⟨h1, h2⟩ := two_analyses
  have hask : ∀ a ∈ twoDeck.analyses, ∀ n, Asks a n → n = 5 := by
    intro a ha n hn
    have : (a.kind, a.outputs) ∈ twoDeck.analyses.map (fun a => (a.kind, a.outputs)) := List.mem_map_of_mem ha
    rw [h1] at this
    unfold Asks at hn
    simp only [List.mem_cons, Prod.mk.injEq, List.not_mem_nil, or_false] at this
    rcases this with h | h <;> rw [h.2] at hn <;> simp at hn
    exact hn
  refine ⟨by decide +kernel, small_inv, ?_, ?_, ?_⟩
  · intro n l hl i hi
    rw [h2, List.mem_singleton] at hl
    cases hl
    simp at hi
    omega
  · intro a ha n hn
    rw [hask a ha n hn, h2]
    exact ⟨[1, 4], by simp⟩
  · intro a ha n hn
    rw [hask a ha n hn]
    decide +kernel

/-- `C144_requested_partial` on this file. -/
example : (∀ a ∈ twoDeck.analyses, ∀ n, Asks a n → ∀ l, (n, SetValue.list l) ∈ twoDeck.sets → l ≠ [] ∧ ∀ i ∈ l, i ∈ small.nodes.ids) ∧
    (writeTables twoDeck small (twoDeck.analyses.map fun a => (a, false))).toOption.map (·.2) =
      some [.extraction [⟨0, true, ["SET_5".toList]⟩, ⟨0, false, ["SET_5".toList]⟩], .displacements] := by
  refine ⟨?_, by decide +kernel⟩
  intro a _ n _ l hl
  rw [two_analyses.2, List.mem_singleton] at hl
  cases hl
  refine ⟨by simp, fun i hi => ?_⟩
  simp at hi
  rcases hi with rfl | rfl <;> decide +kernel

/-- The tables of a file. -/
def tablesOf (lines : List Line) : Option (List Table) :=
  match readSection gnu lines with
  | .ok d => (writeTables d small (d.analyses.map fun a => (a, false))).toOption.map (·.2)
  | _ => none

/-- The nodes of the mesh that is written with a file. -/
def nodesOf (lines : List Line) : Option (List (Int × Dbl)) :=
  match readSection gnu lines with
  | .ok d => (writeTables d small (d.analyses.map fun a => (a, false))).toOption.map fun r => r.1.nodes.nodeDatas.map fun x => (x.id, x.x)
  | _ => none

/-- C144 is false of two subcases that ask for the same list: each of them gets the requests of both. For any file: an analysis that
asks for a list has all the outputs of this list, whichever subcase they come from. -/
theorem C144_twice_false :
    (∀ (d : Deck) (a : Analysis) (n : Int) (k : Nat) (p : Bool), Asks a n → d.phases[k]? = some (n, p) → (k, n) ∈ outputsOf d a) ∧
    tablesOf ["SOL 101".toList, "SET 5 = 1, 4".toList, "SUBCASE 1".toList, "DISP = 5".toList, "SUBCASE 2".toList, "DISP = 5".toList,
      "BEGIN BULK".toList] =
      some (List.replicate 2 (.extraction [⟨0, true, ["SET_5".toList]⟩, ⟨0, false, ["SET_5".toList]⟩, ⟨1, true, ["SET_5".toList]⟩,
        ⟨1, false, ["SET_5".toList]⟩])) :=
  ⟨fun d a n k p h1 h2 => (mem_outputsOf d a (k, n)).mpr ⟨h1, p, h2⟩, by decide +kernel⟩

/-- C144, whole files: a range with a number that is no node, a list that is `ALL` or not there, an empty list (`GROUP_NO=()`), and
`DISP = ALL` in an analysis in frequency. -/
theorem C144_files_false :
    nodesOf ["SOL 101".toList, "SET 5 = 1 THRU 4".toList, "SUBCASE 1".toList, "DISP = 5".toList, "BEGIN BULK".toList] =
      some [(1, 0), (2, 1), (4, 2), (3, -dblMax)] ∧
    nodesOf ["SOL 101".toList, "SET 5 = 1, 2, 4".toList, "SUBCASE 1".toList, "DISP = 5".toList, "BEGIN BULK".toList] =
      some [(1, 0), (2, 1), (4, 2)] ∧
    tablesOf ["SOL 101".toList, "SET 5 = ALL".toList, "SUBCASE 1".toList, "DISP = 5".toList, "BEGIN BULK".toList] = none ∧
    tablesOf ["SOL 101".toList, "SUBCASE 1".toList, "DISP = 5".toList, "BEGIN BULK".toList] = none ∧
    tablesOf ["SOL 101".toList, "SUBCASE 1".toList, "DISP = ALL".toList, "BEGIN BULK".toList] = some [.displacements] ∧
    tablesOf ["SOL 101".toList, "SET 5 = 4 THRU 1".toList, "SUBCASE 1".toList, "DISP = 5".toList, "BEGIN BULK".toList] =
      some [.extraction [⟨0, true, []⟩, ⟨0, false, []⟩]] ∧
    tablesOf ["SOL 108".toList, "SUBCASE 1".toList, "FREQ = 7".toList, "DISP = ALL".toList, "BEGIN BULK".toList] = some [.nothing] := by
  decide +kernel

/-- Why `Ready` asks for names that are free: the nodes of a group that has the name of the list are taken, whatever the list. -/
theorem nodeGroup_found (sets : List (Int × SetValue)) (m : Mesh) (n : Int) (l : List Int) (ps : List Nat)
    (hl : Map.find sets n = some (.list l)) (hg : Map.find m.groups (groupName n) = some (.nodes ps)) :
    nodeGroup sets m n = .ok (m, groupName n, ps) := by
  unfold nodeGroup
  rw [hl, hg]

example : (nodeGroup [(5, .list [1, 4])] { small with groups := [("SET_5".toList, .nodes [1])] } 5).toOption.map (·.2) =
    some ("SET_5".toList, [1]) := by decide +kernel

end DisplacementsSpec
end Vega
