import Verif.Mesh.PartProps

/-! # C56: exactly which nodes are told unused; C11: the check of the nodes -/
namespace Vega.NodeSpec
open NodeStore

/-- The node `id` is mentioned before it is known to the mesh, and no cell mentions it afterwards. -/
def OnlyReserved (auto part : Int) (ops : List Op) (id : Int) : Prop :=
  ∃ pre o post s1 ps1, ops = pre ++ o :: post ∧ run (empty auto part) pre = .ok (s1, ps1) ∧
    s1.findNodePosition id = none ∧ (∃ c, o.act = .refer id c) ∧
    ∀ o' ∈ post, ∀ c, o'.act ≠ .refer id (some c)

/-! ### helper lemmas -/

theorem mainPart_reserved (s : NodeStore) (c : Option Int) :
    (s.mainPart c).1.reservedButUnused = s.reservedButUnused := by
  unfold mainPart
  cases c with
  | none => rfl
  | some cp =>
    simp only
    cases s.mainNodePartByCellPart.find cp <;> rfl

theorem updatePart_reserved {s s' : NodeStore} {p : Nat} {cp mp : Int} (h : s.updatePart p cp mp = .ok s') :
    s'.reservedButUnused = s.reservedButUnused.filter (· ≠ p) := by
  unfold updatePart at h
  split at h
  · cases h
  · simp only at h
    split at h
    · simp only [Outcome.ok.injEq] at h
      rw [← h]
    · split at h
      · split at h
        · simp only [Outcome.ok.injEq] at h
          rw [← h]
        · split at h <;>
          · simp only [Outcome.ok.injEq] at h
            rw [← h]
      · simp only [Outcome.ok.injEq] at h
        rw [← h]

theorem reserve_reserved {s s' : NodeStore} {id : Int} {c : Option Int} {p : Nat}
    (h : s.findOrReserveNode id c = .ok (s', p)) :
    (s.findNodePosition id = none → s'.reservedButUnused = p :: s.reservedButUnused) ∧
    (s.findNodePosition id ≠ none → c = none → s'.reservedButUnused = s.reservedButUnused) ∧
    (s.findNodePosition id ≠ none → c ≠ none →
      s'.reservedButUnused = s.reservedButUnused.filter (· ≠ p)) := by
  unfold findOrReserveNode at h
  have hf : (s.mainPart c).1.findNodePosition id = s.findNodePosition id := by
    unfold findNodePosition
    rw [(mainPart_frame s c).2.1]
  have hr := mainPart_reserved s c
  generalize s.mainPart c = r at h hf hr
  obtain ⟨s1, mp⟩ := r
  simp only at h hf hr
  rw [hf] at h
  cases hp : s.findNodePosition id with
  | none =>
    rw [hp] at h
    simp only at h
    cases ha : s1.addNode id RESERVED RESERVED RESERVED 0 0 mp with
    | ok x =>
      obtain ⟨s2, q⟩ := x
      rw [ha] at h
      simp only [Outcome.bind_ok, Outcome.ok.injEq, Prod.mk.injEq] at h
      obtain ⟨rfl, rfl⟩ := h
      have := (addNode_parts ha).2.2.2.2.2
      simp [this, hr]
    | _ => rw [ha] at h; cases h
  | some q =>
    rw [hp] at h
    simp only at h
    cases c with
    | none =>
      simp only [Outcome.ok.injEq, Prod.mk.injEq] at h
      obtain ⟨rfl, rfl⟩ := h
      simp [hr]
    | some cp =>
      simp only at h
      cases hu : s1.updatePart q cp mp with
      | ok s2 =>
        rw [hu] at h
        simp only [Outcome.bind_ok, Outcome.ok.injEq, Prod.mk.injEq] at h
        obtain ⟨rfl, rfl⟩ := h
        have := updatePart_reserved hu
        simp [this, hr]
      | _ => rw [hu] at h; cases h

theorem onlyReserved_snoc {auto part : Int} {ops : List Op} {o : Op} {s1 : NodeStore} {ps1 : List Nat}
    (hr : run (empty auto part) ops = .ok (s1, ps1)) (id : Int) :
    OnlyReserved auto part (ops ++ [o]) id ↔
      (OnlyReserved auto part ops id ∧ ∀ c, o.act ≠ .refer id (some c)) ∨
      (s1.findNodePosition id = none ∧ ∃ c, o.act = .refer id c) := by
  constructor
  · rintro ⟨pre, x, post, s2, ps2, he, h2, h3, h4, h5⟩
    rcases List.eq_nil_or_concat post with rfl | ⟨post', y, rfl⟩
    · obtain ⟨rfl, e⟩ := List.append_inj' he rfl
      cases e
      rw [hr] at h2
      cases h2
      exact .inr ⟨h3, h4⟩
    · have he' : ops ++ [o] = (pre ++ x :: post') ++ [y] := by simpa using he
      obtain ⟨rfl, e⟩ := List.append_inj' he' rfl
      cases e
      exact .inl ⟨⟨pre, x, post', s2, ps2, rfl, h2, h3, h4, fun o' ho' => h5 o' (by simp [ho'])⟩,
        h5 o (by simp)⟩
  · rintro (⟨⟨pre, x, post, s2, ps2, rfl, h2, h3, h4, h5⟩, h6⟩ | ⟨h3, h4⟩)
    · refine ⟨pre, x, post ++ [o], s2, ps2, by simp, h2, h3, h4, ?_⟩
      intro o' ho'
      rcases List.mem_append.mp ho' with h | h
      · exact h5 o' h
      · rw [List.mem_singleton.mp h]; exact h6
    · exact ⟨ops, o, [], s1, ps1, rfl, hr, h3, h4, by simp⟩

/-- What holds after every history. -/
structure Told (auto part : Int) (ops : List Op) (s : NodeStore) : Prop where
  inv : Inv s
  bound : ∀ q ∈ s.reservedButUnused, q < s.ids.length
  known : ∀ id, OnlyReserved auto part ops id → id ∈ s.ids
  told : ∀ q id, s.ids[q]? = some id → (q ∈ s.reservedButUnused ↔ OnlyReserved auto part ops id)

theorem told_run (auto part : Int) (ops : List Op) (hv : ValidAll ops) :
    ∃ s ps, run (empty auto part) ops = .ok (s, ps) ∧ Told auto part ops s := by
  induction ops using List.reverseRecOn with
  | nil =>
    refine ⟨_, _, rfl, inv_empty auto part, by simp [empty, init], ?_, by simp [empty, init, ids]⟩
    rintro id ⟨pre, o, post, s1, ps1, he, _⟩
    simp at he
  | append_singleton ops o ih =>
    obtain ⟨s, ps, hr, hinv, hb, hk, ht⟩ := ih (fun x hx => hv x (by simp [hx]))
    obtain ⟨s', p, id0, h1, h2, h3, h4, _, h6⟩ := perform_spec hinv o (hv o (by simp))
    refine ⟨s', ps ++ [p], by rw [run_append, hr]; simp [run, h1], ?_⟩
    have hsnoc := fun id => onlyReserved_snoc (o := o) hr id
    have hnone : ∀ id, s.findNodePosition id = none ↔ id ∉ s.ids := fun id => hinv.find_none id
    -- the node an action refers to is the one of its position
    have href : ∀ i c, o.act = .refer i c → i = id0 := by
      intro i c e
      rw [e] at h6
      exact h6.1
    have hlen : s.ids.length ≤ s'.ids.length := by
      rw [h4]; split <;> simp
    have hmono : ∀ i, i ∈ s.ids → i ∈ s'.ids := by
      intro i hi
      rw [h4]; split <;> simp [hi]
    have hplt : p < s'.ids.length := by
      by_contra hc
      rw [List.getElem?_eq_none (by omega)] at h3
      cases h3
    have hnew : id0 ∉ s.ids → p = s.ids.length := by
      intro hn
      rw [h4, if_neg hn, List.getElem?_append] at h3
      split at h3
      · exact absurd (List.mem_of_getElem? h3) hn
      · rw [h4, if_neg hn] at hplt
        simp at hplt
        omega
    have hold : id0 ∈ s.ids → s.ids[p]? = some id0 := by
      intro hn
      rw [h4, if_pos hn] at h3
      exact h3
    -- what becomes of the list
    have hres : (s'.reservedButUnused = s.reservedButUnused ∧ (∀ c, o.act ≠ .refer id0 (some c)) ∧
          (id0 ∈ s.ids ∨ ∀ c, o.act ≠ .refer id0 c)) ∨
        (s'.reservedButUnused = p :: s.reservedButUnused ∧ id0 ∉ s.ids ∧ ∃ c, o.act = .refer id0 c) ∨
        (s'.reservedButUnused = s.reservedButUnused.filter (· ≠ p) ∧ id0 ∈ s.ids ∧
          ∃ c, o.act = .refer id0 (some c)) := by
      obtain ⟨dn, dp, act⟩ := o
      cases act with
      | define i d => exact .inl ⟨(addNode_parts h1).2.2.2.2.2, by simp, .inr (by simp)⟩
      | create d => exact .inl ⟨(addNode_parts h1).2.2.2.2.2, by simp, .inr (by simp)⟩
      | refer i c =>
        obtain rfl : i = id0 := h6.1
        obtain ⟨r1, r2, r3⟩ := reserve_reserved h1
        have hsh : (shift s dn dp).findNodePosition i = s.findNodePosition i := rfl
        rw [hsh] at r1 r2 r3
        by_cases hi : i ∈ s.ids
        · have hne : s.findNodePosition i ≠ none := fun h => (hnone i).mp h hi
          cases c with
          | none => exact .inl ⟨r2 hne rfl, by simp, .inl hi⟩
          | some cp => exact .inr (.inr ⟨r3 hne (by simp), hi, cp, rfl⟩)
        · exact .inr (.inl ⟨r1 ((hnone i).mpr hi), hi, c, rfl⟩)
    refine ⟨h2, ?_, ?_, ?_⟩
    · intro q hq
      rcases hres with ⟨e, _⟩ | ⟨e, _⟩ | ⟨e, _⟩
      · rw [e] at hq
        exact lt_of_lt_of_le (hb q hq) hlen
      · rw [e] at hq
        rcases List.mem_cons.mp hq with rfl | hq
        · exact hplt
        · exact lt_of_lt_of_le (hb q hq) hlen
      · rw [e] at hq
        exact lt_of_lt_of_le (hb q (List.mem_filter.mp hq).1) hlen
    · intro id hid
      rcases (hsnoc id).mp hid with ⟨h, _⟩ | ⟨_, c, h⟩
      · exact hmono id (hk id h)
      · rw [href id c h]
        exact List.mem_of_getElem? h3
    · intro q id hq
      rw [hsnoc id, hnone id]
      by_cases hid : id = id0
      · subst hid
        have hqp : q = p := by
          have := (h2.find id q).mpr hq
          rw [(h2.find id p).mpr h3] at this
          exact (Option.some.inj this).symm
        subst hqp
        rcases hres with ⟨e, e1, e2⟩ | ⟨e, e1, e2⟩ | ⟨e, e1, c, e2⟩
        · rw [e]
          by_cases hi : id ∈ s.ids
          · rw [ht q id (hold hi)]
            simp [hi, e1]
          · have hno : q ∉ s.reservedButUnused := fun h => by
              have := hb q h
              have := hnew hi
              omega
            have hno' : ¬ OnlyReserved auto part ops id := fun h => hi (hk id h)
            rcases e2 with e2 | e2
            · exact absurd e2 hi
            · simp [hno, hno', e2]
        · rw [e]
          simp [e1, e2]
        · rw [e]
          simp [e1, e2]
      · have hq' : s.ids[q]? = some id := by
          rw [h4] at hq
          split at hq
          · exact hq
          · rw [List.getElem?_append] at hq
            split at hq
            · exact hq
            · exact absurd (List.mem_singleton.mp (List.mem_of_getElem? hq)) hid
        have hqp : q ≠ p := by
          rintro rfl
          rw [hq] at h3
          exact hid (Option.some.inj h3)
        have hact : ∀ c, o.act ≠ .refer id c := fun c e => hid (href id c e)
        rw [show (q ∈ s'.reservedButUnused) = (q ∈ s.reservedButUnused) by
          rcases hres with ⟨e, _⟩ | ⟨e, _⟩ | ⟨e, _⟩ <;> rw [e] <;> simp [hqp]]
        rw [ht q id hq']
        simp [hact]

/-! ### properties -/

/-- **C56** exactly which nodes are told unused: those mentioned before they are known, if no cell
mentions them again. -/
theorem C56_exactly (auto part : Int) (ops : List Op) (hv : ValidAll ops) :
    ∃ s ps, run (empty auto part) ops = .ok (s, ps) ∧
      (∀ q ∈ s.reservedButUnused, q < s.countNodes) ∧
      ∀ id q, s.findNodePosition id = some q →
        (q ∈ s.reservedButUnused ↔ OnlyReserved auto part ops id) := by
  obtain ⟨s, ps, hr, ht⟩ := told_run auto part ops hv
  refine ⟨s, ps, hr, ?_, fun id q hq => ht.told q id ((ht.inv.find id q).mp hq)⟩
  intro q hq
  have := ht.bound q hq
  simpa [ids, countNodes] using this

/-- **C56** a node of a cell is not told unused if it was known to the mesh, by its definition or by
an earlier mention, when the cell was added. Missing: nodes that are known by a single cell first,
for which it is false (`C56_unused_nodes_false`). -/
theorem C56_partial (auto part : Int) (pre post : List Op) (o : Op) (hv : ValidAll (pre ++ o :: post))
    (id c : Int) (ho : o.act = .refer id (some c))
    (s1 : NodeStore) (ps1 : List Nat) (h1 : run (empty auto part) pre = .ok (s1, ps1))
    (hk : s1.findNodePosition id ≠ none) :
    ∃ s ps q, run (empty auto part) (pre ++ o :: post) = .ok (s, ps) ∧
      s.findNodePosition id = some q ∧ q ∉ s.reservedButUnused := by
  obtain ⟨s, ps, hr, ht⟩ := told_run auto part (pre ++ o :: post) hv
  obtain ⟨s1', ps1', h1', ht1⟩ := told_run auto part pre (fun x hx => hv x (by simp [hx]))
  rw [h1] at h1'
  cases h1'
  obtain ⟨s2, ps2, h2, _, hpre⟩ := run_inv ht1.inv (o :: post) (fun x hx => hv x (by simp [hx]))
  have hs : s2 = s := by
    rw [run_append, h1] at hr
    simp only [Outcome.bind_ok, h2, Outcome.ok.injEq, Prod.mk.injEq] at hr
    exact hr.1
  subst hs
  obtain ⟨q, hq⟩ := Option.ne_none_iff_exists'.mp hk
  have hq1 := (ht1.inv.find id q).mp hq
  have hq2 := prefix_get hpre hq1
  refine ⟨s2, ps, q, hr, (ht.inv.find id q).mpr hq2, ?_⟩
  rw [ht.told q id hq2]
  rintro ⟨pre', x, post', s3, ps3, he, h3, h4, h5, h6⟩
  -- the first mention of the node comes before `o`
  rcases List.append_eq_append_iff.mp he with ⟨t, e1, e2⟩ | ⟨t, e1, e2⟩
  · -- `pre` is a beginning of `pre'`: the node is already known
    subst e1
    obtain ⟨s4, ps4, h7, _, hpre'⟩ := run_inv ht1.inv t (fun y hy => hv y (by rw [he]; simp [hy]))
    have hs : s4 = s3 := by
      rw [run_append, h1] at h3
      simp only [Outcome.bind_ok, h7, Outcome.ok.injEq, Prod.mk.injEq] at h3
      exact h3.1
    subst hs
    have hinv : Inv s4 := by
      obtain ⟨s5, ps5, h8, ht5⟩ := told_run auto part (pre ++ t) (fun y hy => hv y (by rw [he]; simp only [List.mem_append] at hy ⊢; tauto))
      rw [h3] at h8
      cases h8
      exact ht5.inv
    exact (hinv.find_none id).mp h4 (List.mem_of_getElem? (prefix_get hpre' hq1))
  · cases t with
    | nil =>
      simp only [List.append_nil] at e1
      subst e1
      rw [h1] at h3
      cases h3
      exact hk h4
    | cons y t =>
      simp only [List.cons_append, List.cons.injEq] at e2
      obtain ⟨rfl, rfl⟩ := e2
      exact h6 o (by simp) c ho

/-- **C11** after every history the check of the nodes succeeds, whichever nodes were never defined,
unless there is a node with the number of an unavailable node. -/
theorem C11_never_reported_false (auto part : Int) (ops : List Op) (hv : ValidAll ops) :
    ∃ s ps, run (empty auto part) ops = .ok (s, ps) ∧
      (s.validate = true ↔ s.findNodePosition 2147483647 = none) := by
  obtain ⟨s, ps, hr, hi, _⟩ := run_inv (inv_empty auto part) ops hv
  refine ⟨s, ps, hr, ?_⟩
  have h := hi.find_none 2147483647
  unfold findNodePosition
  rw [h]
  simp only [validate, List.all_eq_true, Bool.not_eq_true', decide_eq_false_iff_not, ids, List.mem_map, not_exists,
    not_and]

/-- Node 1 is defined before its cell, node 2 is in two cells, node 3 is only named by a constraint:
only node 3 is told unused. -/
example : ∃ s ps, run (empty 9999999 0)
    [⟨0, 0, .define 1 ⟨1, 2, 3, 0, 0⟩⟩, ⟨0, 0, .refer 2 (some 10)⟩, ⟨0, 0, .refer 1 (some 10)⟩,
     ⟨0, 0, .refer 3 none⟩, ⟨0, 0, .refer 2 (some 10)⟩] = .ok (s, ps) ∧
    s.reservedButUnused = [2] ∧ s.findNodePosition 3 = some 2 := ⟨_, _, rfl, rfl, rfl⟩

end Vega.NodeSpec
