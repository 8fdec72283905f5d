import Verif.Mesh.SetGroups
import Verif.Med.FamilyLemmas
import Verif.Aster.CommandNeeds

/-! # C156: each load set and constraint set of the study has a group of nodes of its own, with exactly the nodes it acts on -/
namespace Vega.SetGroupsSpec
open SetGroups

/-! ## Specification -/

/-- The sets of the original study: their types and numbers. -/
def keys (xs : List SetItem) : List (Kind × Int) := xs.filterMap fun x => x.originalId.map fun i => (x.kind, i)

/-- In `s` there is a group of nodes called `name` with exactly these nodes. -/
def HasGroup (s : State) (name : String) (nodes : List Nat → Prop) : Prop :=
  ∃ h o ns, s.groups.findByName name = some h ∧ s.groups.heap[h]? = some o ∧ o.name = name ∧ o.isCell = false ∧
    s.nodes[h]? = some ns ∧ nodes ns

/-- The nodes of a set: those of one of its loads or constraints, each once. -/
def NodesOf (x : SetItem) (ns : List Nat) : Prop := ns.Nodup ∧ ∀ p, p ∈ ns ↔ ∃ l ∈ x.members, p ∈ l

/-! ## Lemmas -/

theorem addNodes_spec (ps acc : List Nat) (h : acc.Nodup) : (addNodes acc ps).Nodup ∧ ∀ p, p ∈ addNodes acc ps ↔ p ∈ acc ∨ p ∈ ps := by
  unfold addNodes
  induction ps generalizing acc with
  | nil => simp [h]
  | cons q ps ih =>
    simp only [List.foldl_cons]
    by_cases hq : q ∈ acc
    · rw [if_pos hq]
      refine ⟨(ih acc h).1, fun p => ?_⟩
      rw [(ih acc h).2 p]
      simp only [List.mem_cons]
      constructor
      · rintro (h | h) <;> simp [h]
      · rintro (h | rfl | h) <;> simp [*]
    · rw [if_neg hq]
      have := ih (q :: acc) (List.nodup_cons.mpr ⟨hq, h⟩)
      refine ⟨this.1, fun p => ?_⟩
      rw [this.2 p]
      simp only [List.mem_cons]
      tauto

theorem members_spec (ls : List (List Nat)) (acc : List Nat) (h : acc.Nodup) :
    (ls.foldl addNodes acc).Nodup ∧ ∀ p, p ∈ ls.foldl addNodes acc ↔ p ∈ acc ∨ ∃ l ∈ ls, p ∈ l := by
  induction ls generalizing acc with
  | nil => simp [h]
  | cons l ls ih =>
    have h1 := addNodes_spec l acc h
    have := ih _ h1.1
    refine ⟨this.1, fun p => ?_⟩
    rw [List.foldl_cons, this.2 p, h1.2 p]
    simp only [List.mem_cons, exists_eq_or_imp, or_assoc]

theorem split_bar {a b a' b' : List Char} (ha : '_' ∉ a) (ha' : '_' ∉ a') (h : a ++ '_' :: b = a' ++ '_' :: b') : a = a' ∧ b = b' := by
  induction a generalizing a' with
  | nil =>
    cases a' with
    | nil => simpa using h
    | cons c a' =>
      simp only [List.nil_append, List.cons_append, List.cons.injEq] at h
      rw [← h.1] at ha'
      simp at ha'
  | cons c a ih =>
    cases a' with
    | nil =>
      simp only [List.nil_append, List.cons_append, List.cons.injEq] at h
      rw [h.1] at ha
      simp at ha
    | cons c' a' =>
      simp only [List.cons_append, List.cons.injEq] at h
      obtain ⟨h1, h2⟩ := ih (a' := a') (fun hm => ha (by simp [hm])) (fun hm => ha' (by simp [hm])) h.2
      exact ⟨by rw [h.1, h1], h2⟩

theorem shortName_eq (k : Kind) : shortName k = typeName k := by cases k <;> decide +kernel

theorem decimal_minus (n : Nat) : '-' ∉ Med.decimal n := by
  intro h
  have e : Med.decimal n = Nat.toDigits 10 n := by simp [Med.decimal, Nat.repr]
  rw [e] at h
  have := Nat.isDigit_of_mem_toDigits (by omega) (by omega) h
  revert this
  decide

theorem intText_inj {i j : Int} (h : intText i = intText j) : i = j := by
  unfold intText at h
  split at h <;> split at h
  · simp only [List.cons.injEq, true_and] at h
    have := Med.decimal_inj h
    omega
  · have : '-' ∈ Med.decimal j.natAbs := by rw [← h]; simp
    exact absurd this (decimal_minus _)
  · have : '-' ∈ Med.decimal i.natAbs := by rw [h]; simp
    exact absurd this (decimal_minus _)
  · have := Med.decimal_inj h
    omega

theorem groupName_inj {k k' : Kind} {i i' : Int} (h : groupName k i = groupName k' i') : k = k' ∧ i = i' := by
  unfold groupName at h
  have h := String.ofList_injective h
  rw [shortName_eq, shortName_eq] at h
  have hp : ∀ k : Kind, (if k.isLoad then "LS_".toList else "CS_".toList) = (if k.isLoad then 'L' else 'C') :: 'S' :: '_' :: [] := by
    intro k; cases k <;> decide +kernel
  rw [hp, hp] at h
  simp only [List.cons_append, List.nil_append, List.cons.injEq, true_and] at h
  obtain ⟨h1, h2⟩ := h
  have hb : ∀ k, '_' ∉ typeName k := by intro k; cases k <;> decide +kernel
  obtain ⟨h3, h4⟩ := split_bar (hb k) (hb k') h2
  refine ⟨?_, intText_inj h4⟩
  revert h1 h3
  cases k <;> cases k' <;> decide +kernel

theorem groupName_ne (k : Kind) (i : Int) : groupName k i ≠ "" := by
  intro e
  have := congrArg String.toList e
  simp [groupName] at this

theorem groupOf_spec (s : State) (hl : s.nodes.length = s.groups.heap.length) (x : SetItem) (i : Int) (hx : x.originalId = some i)
    (hfree : s.groups.findByName (groupName x.kind i) = none) :
    ∃ s', groupOf s x = .ok s' ∧ s'.nodes.length = s'.groups.heap.length ∧ HasGroup s' (groupName x.kind i) (NodesOf x) ∧
      (∀ name, name ≠ groupName x.kind i → s'.groups.findByName name = s.groups.findByName name) ∧
      s'.groups.heap = s.groups.heap ++ [⟨groupName x.kind i, false, none, s.groups.nextId⟩] ∧
      (∃ ns, s'.nodes = s.nodes ++ [ns]) ∧ s'.groups.byId = s.groups.byId := by
  have hf : s.groups.byName.find (groupName x.kind i) = none := hfree
  have hm := members_spec x.members [] (by simp)
  unfold groupOf Groups.create
  simp only [hx, if_neg (groupName_ne x.kind i), hf, Option.isSome_none, Bool.false_eq_true, if_false, Outcome.bind_ok]
  refine ⟨_, rfl, by simp [hl], ⟨s.groups.heap.length, ⟨groupName x.kind i, false, none, s.groups.nextId⟩, x.members.foldl addNodes [],
    Map.find_set_self _ _ _, by simp, rfl, rfl, by simp [← hl], hm.1, by simpa using hm.2⟩, ?_, rfl, ⟨_, rfl⟩, rfl⟩
  intro name hn
  exact Map.find_set_ne _ _ (fun e => hn e.symm)

theorem hasGroup_later {s s' : State} {name : String} {P : List Nat → Prop} (h : HasGroup s name P)
    (hn : s'.groups.findByName name = s.groups.findByName name) (hh : ∃ l, s'.groups.heap = s.groups.heap ++ l)
    (hm : ∃ l, s'.nodes = s.nodes ++ l) : HasGroup s' name P := by
  obtain ⟨a, o, ns, h1, h2, h3, h4, h5, h6⟩ := h
  obtain ⟨l, hl⟩ := hh
  obtain ⟨l', hl'⟩ := hm
  refine ⟨a, o, ns, by rw [hn, h1], ?_, h3, h4, ?_, h6⟩
  · rw [hl, List.getElem?_append_left (List.getElem?_eq_some_iff.mp h2).1, h2]
  · rw [hl', List.getElem?_append_left (List.getElem?_eq_some_iff.mp h5).1, h5]

theorem groupsOf_spec : ∀ (xs : List SetItem) (s : State), s.nodes.length = s.groups.heap.length → (keys xs).Nodup →
    (∀ k ∈ keys xs, s.groups.findByName (groupName k.1 k.2) = none) →
    ∃ s', groupsOf s xs = .ok s' ∧ s'.nodes.length = s'.groups.heap.length ∧
      (∀ x ∈ xs, ∀ i, x.originalId = some i → HasGroup s' (groupName x.kind i) (NodesOf x)) ∧
      (∀ name, (∀ k ∈ keys xs, name ≠ groupName k.1 k.2) → s'.groups.findByName name = s.groups.findByName name) ∧
      (∃ l, s'.groups.heap = s.groups.heap ++ l ∧ l.map (·.name) = (keys xs).map fun k => groupName k.1 k.2) ∧
      (∃ l, s'.nodes = s.nodes ++ l) ∧ s'.groups.byId = s.groups.byId
  | [], s, hl, _, _ => ⟨s, rfl, hl, by simp, fun _ _ => rfl, ⟨[], by simp [keys]⟩, ⟨[], by simp⟩, rfl⟩
  | x :: xs, s, hl, hnd, hfree => by
    cases hx : x.originalId with
    | none =>
      have hk : keys (x :: xs) = keys xs := by simp [keys, hx]
      rw [hk] at hnd hfree ⊢
      obtain ⟨s', h1, h2, h3, h4⟩ := groupsOf_spec xs s hl hnd hfree
      refine ⟨s', ?_, h2, ?_, h4⟩
      · simp only [groupsOf, groupOf, hx, Outcome.bind_ok, h1]
      · intro y hy i hi
        rcases List.mem_cons.mp hy with rfl | hy
        · rw [hx] at hi; cases hi
        · exact h3 y hy i hi
    | some i =>
      have hk : keys (x :: xs) = (x.kind, i) :: keys xs := by simp [keys, hx]
      rw [hk] at hnd hfree ⊢
      simp only [List.nodup_cons] at hnd
      obtain ⟨s1, a1, a2, a3, a4, a5, ⟨ns, a6⟩, a7⟩ := groupOf_spec s hl x i hx (hfree (x.kind, i) (by simp))
      have hne : ∀ k ∈ keys xs, groupName k.1 k.2 ≠ groupName x.kind i := by
        intro k hk e
        obtain ⟨e1, e2⟩ := groupName_inj e
        exact hnd.1 (by rw [← e1, ← e2]; exact hk)
      obtain ⟨s', h1, h2, h3, h4, ⟨l, h5, h5'⟩, ⟨l', h6⟩, h7⟩ := groupsOf_spec xs s1 a2 hnd.2
        (fun k hk => by rw [a4 _ (hne k hk)]; exact hfree k (by simp [hk]))
      refine ⟨s', ?_, h2, ?_, ?_, ⟨_, by rw [h5, a5, List.append_assoc], by simp [h5']⟩, ⟨_, by rw [h6, a6, List.append_assoc]⟩, by rw [h7, a7]⟩
      · simp only [groupsOf, a1, Outcome.bind_ok, h1]
      · intro y hy j hj
        rcases List.mem_cons.mp hy with rfl | hy
        · rw [hx] at hj
          cases hj
          exact hasGroup_later a3 (h4 _ (fun k hk e => hne k hk e.symm)) ⟨l, h5⟩ ⟨l', h6⟩
        · exact h3 y hy j hj
      · intro name hn
        rw [h4 name (fun k hk => hn k (by simp [hk])), a4 name (hn (x.kind, i) (by simp))]

theorem keys_append (a b : List SetItem) : keys (a ++ b) = keys a ++ keys b := by simp [keys, List.filterMap_append]

theorem groupsOf_append (a b : List SetItem) (s : State) :
    groupsOf s (a ++ b) = (do let s ← groupsOf s a; groupsOf s b) := by
  induction a generalizing s with
  | nil => rfl
  | cons x a ih =>
    simp only [List.cons_append, groupsOf]
    cases groupOf s x with
    | ok s1 => simp only [Outcome.bind_ok, ih]
    | throw => rfl
    | ub => rfl
    | diverges => rfl

/-! ## Properties -/

/-- **C156.** Two load sets or constraint sets that differ in type or number have groups with different names. -/
theorem C156_names (k k' : Kind) (i i' : Int) : groupName k i = groupName k' i' ↔ k = k' ∧ i = i' :=
  ⟨groupName_inj, by rintro ⟨rfl, rfl⟩; rfl⟩

/-- **C156.** The name of such a group has at most 24 characters, the most that Code_Aster reads, whatever the type and the number. -/
theorem C156_length (k : Kind) (i : Int) (h : -2147483648 ≤ i ∧ i ≤ 2147483647) : (groupName k i).length ≤ 24 := by
  have hi : (intText i).length ≤ 11 := by
    unfold intText
    have h1 := Aster.decimal_length (k := 9) (n := i.natAbs) (by omega)
    split
    · simp only [List.length_cons]; omega
    · omega
  have hk : ((if k.isLoad then "LS_".toList else "CS_".toList) ++ shortName k).length ≤ 11 := by cases k <;> decide +kernel
  unfold groupName
  rw [String.length_ofList, List.length_append, List.length_cons]
  omega

/-- **C156.** For every list of load sets and of constraint sets in which no two of a type have the same original number, and in every
mesh without groups of these names, each set with an original number gets a group of nodes with exactly the nodes of its loads or
constraints. Sets without such a number get none. The groups there were keep their names, their numbers and their nodes. -/
theorem C156_groups (s : State) (hl : s.nodes.length = s.groups.heap.length) (ls cs : List SetItem) (hnd : (keys (ls ++ cs)).Nodup)
    (hfree : ∀ k ∈ keys (ls ++ cs), s.groups.findByName (groupName k.1 k.2) = none) :
    ∃ s', createSetGroups s ls cs = .ok s' ∧
      (∀ x ∈ ls ++ cs, ∀ i, x.originalId = some i → HasGroup s' (groupName x.kind i) (NodesOf x)) ∧
      (∀ name, (∀ k ∈ keys (ls ++ cs), name ≠ groupName k.1 k.2) → s'.groups.findByName name = s.groups.findByName name) ∧
      (∃ l, s'.groups.heap = s.groups.heap ++ l ∧ l.map (·.name) = (keys (ls ++ cs)).map fun k => groupName k.1 k.2) ∧
      (∃ l, s'.nodes = s.nodes ++ l) ∧ s'.groups.byId = s.groups.byId := by
  obtain ⟨s', h1, _, h3⟩ := groupsOf_spec (ls ++ cs) s hl hnd hfree
  rw [groupsOf_append] at h1
  exact ⟨s', h1, h3⟩

/-- The hypotheses of `C156_groups`: a load set 1 with two forces that share a node, a load set without number, a set of supports 1. -/
example : (keys ([⟨.load, some 1, [[4], [4, 5]]⟩, ⟨.load, none, [[7]]⟩] ++ [⟨.spc, some 1, [[0, 1]]⟩])).Nodup ∧
    ∃ s', createSetGroups ⟨Groups.init, []⟩ [⟨.load, some 1, [[4], [4, 5]]⟩, ⟨.load, none, [[7]]⟩] [⟨.spc, some 1, [[0, 1]]⟩] = .ok s' ∧
      s'.nodes = [[5, 4], [1, 0]] ∧ s'.groups.heap.map (·.name) = ["LS_LOAD_1", "CS_SPC_1"] := by
  refine ⟨by decide, _, rfl, rfl, ?_⟩
  decide +kernel

/-- **C156.** A group of the model that already has the name of the group of a set stops the translation. -/
theorem C156_taken_false (s : State) (x : SetItem) (xs cs : List SetItem) (i : Int) (hx : x.originalId = some i)
    (h : (s.groups.findByName (groupName x.kind i)).isSome) : createSetGroups s (x :: xs) cs = .throw := by
  have h' : (s.groups.byName.find (groupName x.kind i)).isSome := h
  unfold createSetGroups groupsOf groupOf Groups.create
  simp only [hx, if_neg (groupName_ne x.kind i), h', if_true]
  rfl

end Vega.SetGroupsSpec
