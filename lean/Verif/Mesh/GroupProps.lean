import Verif.Mesh.Groups
import Mathlib.Tactic.Common

/-! # C16 -/
namespace Vega.GroupSpec
open Groups

/-- What callers may ask. -/
inductive Op where
  | create (isCell : Bool) (name : String) (oid : Option Int)
  | findOrCreate (name : String) (oid : Option Int)
  | rename (old new : String)
  | remove (name : String)
  /-- groups created in another mesh -/
  | elsewhere (n : Nat)

/-- A refused operation (exception) leaves the registries as they were. -/
def perform (s : Groups) : Op → Outcome Groups
  | .create c n i => s.create c n i >>= fun r => .ok r.1
  | .findOrCreate n i => s.findOrCreateNodeGroup n i >>= fun r => .ok r.1
  | .rename o n => s.rename o n
  | .remove n => s.remove n
  | .elsewhere n => .ok { s with nextId := s.nextId + n }

/-- Operations of the histories considered: renaming is towards a name that is free (or the same
name), the group removals are allowed or not. -/
def Allowed (removals : Bool) (s : Groups) : Op → Prop
  | .rename o n => s.byName.find n = none ∨ n = o
  | .remove _ => removals = true
  | _ => True

/-- Histories. -/
inductive Reach (removals : Bool) : Groups → Prop
  | init : Reach removals Groups.init
  | step {s s'} (r : Reach removals s) (o : Op) (ha : Allowed removals s o) (h : perform s o = .ok s') :
      Reach removals s'

/-- Every name registered is that of the group found under it. -/
def NameInv (s : Groups) : Prop :=
  Map.WF s.byName ∧ ∀ n g, s.byName.find n = some g → ∃ o, s.heap[g]? = some o ∧ o.name = n

theorem find_push (s : Groups) {g : Nat} {o x : GroupObj} (h : s.heap[g]? = some o) :
    (s.heap ++ [x])[g]? = some o := by
  have hlt : g < s.heap.length := by
    by_contra hc
    rw [List.getElem?_eq_none (by omega)] at h
    cases h
  rw [List.getElem?_append_left hlt, h]

theorem create_cases {s s' : Groups} {c : Bool} {n : String} {i : Option Int} {g : Nat}
    (h : s.create c n i = .ok (s', g)) :
    n ≠ "" ∧ s.byName.find n = none ∧ g = s.heap.length ∧ (∀ j, i = some j → s.byId.find j = none) ∧
    s'.heap = s.heap ++ [⟨n, c, i, s.nextId⟩] ∧ s'.byName = s.byName.set n s.heap.length ∧
    s'.byId = (match i with | none => s.byId | some j => s.byId.set j s.heap.length) := by
  unfold create at h
  split at h
  · cases h
  · rename_i hn
    split at h
    · cases h
    · rename_i hf
      have hf' : s.byName.find n = none := by simpa using hf
      cases i with
      | none =>
        simp only [Outcome.ok.injEq, Prod.mk.injEq] at h
        obtain ⟨rfl, rfl⟩ := h
        exact ⟨hn, hf', rfl, by simp, rfl, rfl, rfl⟩
      | some j =>
        simp only at h
        split at h
        · cases h
        · rename_i hj
          simp only [Outcome.ok.injEq, Prod.mk.injEq] at h
          obtain ⟨rfl, rfl⟩ := h
          refine ⟨hn, hf', rfl, ?_, rfl, rfl, rfl⟩
          rintro k hk
          cases hk
          simpa using hj

theorem findOrCreate_cases {s s' : Groups} {n : String} {i : Option Int} {g : Nat}
    (h : s.findOrCreateNodeGroup n i = .ok (s', g)) :
    (s' = s ∧ s.byName.find n = some g ∧ ∃ o, s.heap[g]? = some o ∧ o.isCell = false) ∨
    s.create false n i = .ok (s', g) := by
  unfold findOrCreateNodeGroup at h
  split at h
  · cases h
  · split at h
    · exact Or.inr h
    · rename_i g' hg
      split at h
      · cases h
      · rename_i o ho
        split at h
        · exact Or.inr h
        · rename_i hc
          simp only [Outcome.ok.injEq, Prod.mk.injEq] at h
          obtain ⟨rfl, rfl⟩ := h
          exact Or.inl ⟨rfl, hg, o, ho, by simpa using hc⟩

theorem create_nameInv {s s' : Groups} {c : Bool} {n : String} {i : Option Int} {g : Nat}
    (hI : NameInv s) (h : s.create c n i = .ok (s', g)) : NameInv s' := by
  obtain ⟨_, _, _, _, h1, h2, _⟩ := create_cases h
  refine ⟨by rw [h2]; exact Map.wf_set _ _ _ hI.1, ?_⟩
  intro m k hk
  rw [h2, Map.find_set] at hk
  rw [h1]
  split at hk
  · rename_i e
    simp only [Option.some.injEq] at hk
    subst hk; subst e
    exact ⟨⟨n, c, i, s.nextId⟩, by simp, rfl⟩
  · obtain ⟨o, h3, h4⟩ := hI.2 m k hk
    exact ⟨o, find_push s h3, h4⟩

theorem rename_cases {s s' : Groups} {old new : String} (h : s.rename old new = .ok s') :
    ∃ g o, s.byName.find old = some g ∧ s.heap[g]? = some o ∧ new ≠ "" ∧
      s'.heap = s.heap.set g { o with name := new } ∧ s'.byName = (s.byName.erase old).set new g ∧ s'.byId = s.byId := by
  unfold rename at h
  split at h
  · cases h
  · split at h
    · cases h
    · rename_i hn
      split at h
      · cases h
      · rename_i g hg
        split at h
        · cases h
        · rename_i o ho
          simp only [Outcome.ok.injEq] at h
          subst h
          exact ⟨g, o, hg, ho, hn, rfl, rfl, rfl⟩

theorem get_set {s : Groups} {g k : Nat} {o o' x : GroupObj} (hg : s.heap[g]? = some o) (h : s.heap[k]? = some o') :
    (s.heap.set g x)[k]? = some (if g = k then x else o') := by
  have hlt : g < s.heap.length := by
    by_contra hc
    rw [List.getElem?_eq_none (by omega)] at hg
    cases hg
  rw [List.getElem?_set]
  split
  · simp [hlt]
  · exact h

theorem rename_nameInv {s s' : Groups} {old new : String} (hI : NameInv s)
    (ha : s.byName.find new = none ∨ new = old) (h : s.rename old new = .ok s') : NameInv s' := by
  obtain ⟨g, o, h1, h2, h3, h4, h5, _⟩ := rename_cases h
  refine ⟨by rw [h5]; exact Map.wf_set _ _ _ (Map.wf_erase _ _ hI.1), ?_⟩
  intro m k hk
  rw [h5, Map.find_set] at hk
  rw [h4]
  split at hk
  · rename_i e
    simp only [Option.some.injEq] at hk
    subst hk; subst e
    exact ⟨_, get_set h2 h2, by simp⟩
  · rename_i hne
    rw [Map.find_erase _ hI.1] at hk
    split at hk
    · cases hk
    · rename_i hne2
      obtain ⟨o', h6, h7⟩ := hI.2 m k hk
      refine ⟨_, get_set h2 h6, ?_⟩
      have hgk : g ≠ k := by
        rintro rfl
        rw [h2] at h6
        have := Option.some.inj h6
        subst this
        obtain ⟨o2, h8, h9⟩ := hI.2 old g h1
        rw [h2] at h8
        have := Option.some.inj h8
        subst this
        exact hne2 (h9.symm.trans h7)
      rw [if_neg hgk]
      exact h7

theorem remove_cases {s s' : Groups} {n : String} (h : s.remove n = .ok s') :
    (s.byName.find n = none ∧ s' = s) ∨
    ∃ g o, s.byName.find n = some g ∧ s.heap[g]? = some o ∧ s'.heap = s.heap ∧ s'.byName = s.byName.erase n ∧
      s'.byId = s.byId.erase o.autoId := by
  unfold remove at h
  split at h
  · rename_i hn
    simp only [Outcome.ok.injEq] at h
    exact Or.inl ⟨hn, h.symm⟩
  · rename_i g hg
    split at h
    · cases h
    · rename_i o ho
      simp only [Outcome.ok.injEq] at h
      subst h
      exact Or.inr ⟨g, o, hg, ho, rfl, rfl, rfl⟩

theorem Reach.nameInv {b : Bool} {s : Groups} (r : Reach b s) : NameInv s := by
  induction r with
  | init => exact ⟨by simp [Groups.init, Map.WF, Map.keys], by intro n g h; simp [Groups.init] at h⟩
  | step r o ha h ih =>
    rename_i s s'
    cases o with
    | create c n i =>
      simp only [perform] at h
      cases hc : s.create c n i with
      | ok x =>
        rw [hc] at h
        simp only [Outcome.bind_ok, Outcome.ok.injEq] at h
        subst h
        exact create_nameInv ih (g := x.2) hc
      | _ => rw [hc] at h; cases h
    | findOrCreate n i =>
      simp only [perform] at h
      cases hc : s.findOrCreateNodeGroup n i with
      | ok x =>
        rw [hc] at h
        simp only [Outcome.bind_ok, Outcome.ok.injEq] at h
        subst h
        rcases findOrCreate_cases (g := x.2) hc with ⟨e, _⟩ | e
        · rw [e]; exact ih
        · exact create_nameInv ih e
      | _ => rw [hc] at h; cases h
    | rename o n => exact rename_nameInv ih ha h
    | remove n =>
      rcases remove_cases h with ⟨_, rfl⟩ | ⟨g, o, h1, h2, h3, h4, h5⟩
      · exact ih
      · refine ⟨by rw [h4]; exact Map.wf_erase _ _ ih.1, ?_⟩
        intro m k hk
        rw [h4, Map.find_erase _ ih.1] at hk
        rw [h3]
        split at hk
        · cases hk
        · exact ih.2 m k hk
    | elsewhere n =>
      simp only [perform, Outcome.ok.injEq] at h
      subst h
      exact ih

/-- **C16**, names: in every history of creations, renamings towards free names and removals, the
group found under a name has that name, and two names never give the same group. -/
theorem C16_by_name {s : Groups} (r : Reach true s) (n : String) (g : Nat) (h : s.findByName n = some g) :
    (∃ o, s.heap[g]? = some o ∧ o.name = n) ∧ ∀ m, s.findByName m = some g → m = n := by
  obtain ⟨o, h1, h2⟩ := r.nameInv.2 n g h
  refine ⟨⟨o, h1, h2⟩, ?_⟩
  intro m hm
  obtain ⟨o', h3, h4⟩ := r.nameInv.2 m g hm
  rw [h1] at h3
  have := Option.some.inj h3
  subst this
  rw [← h4, h2]

/-- A creation is refused exactly when the name is empty or taken, or the id taken; a created
group is found under its name and id, and the other entries do not change. -/
theorem C16_create {s : Groups} (c : Bool) (n : String) (i : Option Int) :
    (s.create c n i = .throw ↔ n = "" ∨ s.findByName n ≠ none ∨ ∃ j, i = some j ∧ s.findById j ≠ none) ∧
    (s.create c n i ≠ .throw → ∃ s' g, s.create c n i = .ok (s', g) ∧ s'.findByName n = some g ∧
      (∃ o, s'.heap[g]? = some o ∧ o.name = n ∧ o.isCell = c ∧ o.originalId = i) ∧
      (∀ j, i = some j → s'.findById j = some g) ∧
      (∀ m, m ≠ n → s'.findByName m = s.findByName m) ∧
      (∀ j, i ≠ some j → s'.findById j = s.findById j)) := by
  have hiff : s.create c n i = .throw ↔ n = "" ∨ s.findByName n ≠ none ∨ ∃ j, i = some j ∧ s.findById j ≠ none := by
    unfold create findByName findById
    by_cases h1 : n = ""
    · simp [h1]
    · rw [if_neg h1]
      cases h2 : s.byName.find n with
      | some g => simp
      | none =>
        cases i with
        | none => simp [h1]
        | some j => cases h3 : s.byId.find j <;> simp [h1, h3]
  refine ⟨hiff, ?_⟩
  intro hne
  have hok : ∃ r, s.create c n i = .ok r := by
    unfold create at hne ⊢
    by_cases h1 : n = ""
    · simp [h1] at hne
    · rw [if_neg h1] at hne ⊢
      cases h2 : s.byName.find n with
      | some g => simp [h2] at hne
      | none =>
        cases i with
        | none => simp
        | some j =>
          cases h3 : s.byId.find j with
          | none => simp [h3]
          | some k => simp [h2, h3] at hne
  obtain ⟨⟨s', g⟩, hr⟩ := hok
  obtain ⟨_, h2, h3, h4, h5, h6, h7⟩ := create_cases hr
  refine ⟨s', g, hr, ?_, ?_, ?_, ?_, ?_⟩
  · rw [findByName, h6, h3]; simp
  · refine ⟨⟨n, c, i, s.nextId⟩, by rw [h5, h3]; simp, rfl, rfl, rfl⟩
  · rintro j rfl
    subst h3
    rw [findById, h7]; simp
  · intro m hm
    rw [findByName, h6, Map.find_set_ne _ _ (Ne.symm hm)]; rfl
  · intro j hj
    rw [findById, h7]
    cases i with
    | none => rfl
    | some k => simp only; rw [Map.find_set_ne _ _ (fun e => hj (by rw [e]))]; rfl

/-- Renaming towards a free name moves the group: it is found under the new name, no more under
the old one, and no other name changes. -/
theorem C16_rename {b : Bool} {s : Groups} (r : Reach b s) (old new : String) (g : Nat)
    (hold : s.findByName old = some g) (hne : new ≠ "") (ho : old ≠ "") (hfree : s.findByName new = none) :
    ∃ s', s.rename old new = .ok s' ∧ s'.findByName new = some g ∧ s'.findByName old = none ∧
      (∀ m, m ≠ old → m ≠ new → s'.findByName m = s.findByName m) ∧
      (∀ i, s'.findById i = s.findById i) := by
  obtain ⟨o, h1, h2⟩ := r.nameInv.2 old g hold
  have hon : old ≠ new := by
    rintro rfl
    rw [hold] at hfree; cases hfree
  have hold' : s.byName.find old = some g := hold
  refine ⟨_, by unfold rename; rw [if_neg ho, if_neg hne]; simp only [hold', h1]; rfl, ?_, ?_, ?_, ?_⟩
  · simp [findByName]
  · simp only [findByName]
    rw [Map.find_set_ne _ _ (Ne.symm hon), Map.find_erase _ r.nameInv.1]
    simp
  · intro m h3 h4
    simp only [findByName]
    rw [Map.find_set_ne _ _ (Ne.symm h4), Map.find_erase _ r.nameInv.1, if_neg (Ne.symm h3)]
  · intro i; rfl

/-- A removed group is not found under its name, and no other name changes. -/
theorem C16_remove_name {b : Bool} {s : Groups} (r : Reach b s) (n : String) :
    ∃ s', s.remove n = .ok s' ∧ s'.findByName n = none ∧ ∀ m, m ≠ n → s'.findByName m = s.findByName m := by
  unfold remove
  cases h : s.byName.find n with
  | none => exact ⟨s, rfl, h, fun _ _ => rfl⟩
  | some g =>
    obtain ⟨o, h1, h2⟩ := r.nameInv.2 n g h
    simp only [h1]
    refine ⟨_, rfl, ?_, ?_⟩
    · simp only [findByName]; rw [Map.find_erase _ r.nameInv.1]; simp
    · intro m hm
      simp only [findByName]
      rw [Map.find_erase _ r.nameInv.1, if_neg (Ne.symm hm)]

/-- Ids, without removals: found groups are live, carry the id, and every live group with an id is
found by it. -/
def IdInv (s : Groups) : Prop :=
  (∀ i g, s.byId.find i = some g → ∃ o, s.heap[g]? = some o ∧ o.originalId = some i ∧ s.byName.find o.name = some g) ∧
  (∀ n g o i, s.byName.find n = some g → s.heap[g]? = some o → o.originalId = some i → s.byId.find i = some g)

theorem create_idInv {s s' : Groups} {c : Bool} {n : String} {i : Option Int} {g : Nat}
    (hN : NameInv s) (hI : IdInv s) (h : s.create c n i = .ok (s', g)) : IdInv s' := by
  obtain ⟨_, h2, h3, h4, h5, h6, h7⟩ := create_cases h
  have hlt : ∀ {k : Nat} {o : GroupObj}, s.heap[k]? = some o → k < s.heap.length := by
    intro k o hk
    by_contra hc
    rw [List.getElem?_eq_none (by omega)] at hk
    cases hk
  have old : ∀ j k, s.byId.find j = some k →
      ∃ o, s'.heap[k]? = some o ∧ o.originalId = some j ∧ s'.byName.find o.name = some k := by
    intro j k hk
    obtain ⟨o, g1, g2, g3⟩ := hI.1 j k hk
    refine ⟨o, by rw [h5]; exact find_push s g1, g2, ?_⟩
    rw [h6, Map.find_set_ne _ _ (fun e => by rw [← e, h2] at g3; cases g3)]
    exact g3
  constructor
  · intro j k hk
    rw [h7] at hk
    cases i with
    | none => exact old j k hk
    | some i =>
      simp only [Map.find_set] at hk
      split at hk
      · rename_i e
        simp only [Option.some.injEq] at hk
        subst hk; subst e
        refine ⟨⟨n, c, some i, s.nextId⟩, by rw [h5]; simp, rfl, by rw [h6]; simp⟩
      · exact old j k hk
  · intro m k o j hk ho hj
    rw [h6, Map.find_set] at hk
    split at hk
    · simp only [Option.some.injEq] at hk
      subst hk
      rw [h5] at ho
      simp at ho
      subst ho
      simp only at hj
      subst hj
      rw [h7]; simp
    · obtain ⟨o1, g1, g2⟩ := hN.2 m k hk
      rw [h5, List.getElem?_append_left (hlt g1), g1] at ho
      have := Option.some.inj ho
      subst this
      have g3 := hI.2 m k o1 j hk g1 hj
      rw [h7]
      cases i with
      | none => exact g3
      | some i =>
        simp only
        rw [Map.find_set_ne _ _ (fun e => by subst e; rw [h4 _ rfl] at g3; cases g3)]
        exact g3

theorem Reach.idInv {s : Groups} (r : Reach false s) : IdInv s := by
  induction r with
  | init => exact ⟨by intro i g h; simp [Groups.init] at h, by intro n g o i h; simp [Groups.init] at h⟩
  | step r o ha h ih =>
    rename_i s s'
    have hN := r.nameInv
    cases o with
    | create c n i =>
      simp only [perform] at h
      cases hc : s.create c n i with
      | ok x =>
        rw [hc] at h
        simp only [Outcome.bind_ok, Outcome.ok.injEq] at h
        subst h
        exact create_idInv hN ih (g := x.2) hc
      | _ => rw [hc] at h; cases h
    | findOrCreate n i =>
      simp only [perform] at h
      cases hc : s.findOrCreateNodeGroup n i with
      | ok x =>
        rw [hc] at h
        simp only [Outcome.bind_ok, Outcome.ok.injEq] at h
        subst h
        rcases findOrCreate_cases (g := x.2) hc with ⟨e, _⟩ | e
        · rw [e]; exact ih
        · exact create_idInv hN ih e
      | _ => rw [hc] at h; cases h
    | rename old new =>
      obtain ⟨g, o, h1, h2, h3, h4, h5, h6⟩ := rename_cases h
      have hname : o.name = old := by
        obtain ⟨o', k1, k2⟩ := hN.2 old g h1
        rw [h2] at k1
        rw [Option.some.inj k1]; exact k2
      have hfind : ∀ m k, s.byName.find m = some k → m ≠ old → k ≠ g := by
        rintro m k hk hm rfl
        obtain ⟨o', k1, k2⟩ := hN.2 m k hk
        rw [h2] at k1
        have := Option.some.inj k1
        subst this
        exact hm (k2.symm.trans hname)
      have hnewfree : new ≠ old → s.byName.find new = none := by
        intro hne
        rcases ha with ha | ha
        · exact ha
        · exact absurd ha hne
      constructor
      · intro i k hk
        rw [h6] at hk
        obtain ⟨o', g1, g2, g3⟩ := ih.1 i k hk
        rw [h4]
        refine ⟨_, get_set h2 g1, ?_⟩
        by_cases hgk : g = k
        · subst hgk
          rw [h2] at g1
          have := Option.some.inj g1
          subst this
          rw [if_pos rfl]
          exact ⟨g2, by rw [h5]; simp⟩
        · rw [if_neg hgk]
          refine ⟨g2, ?_⟩
          have hno : o'.name ≠ old := by
            intro e
            rw [e, h1] at g3
            exact hgk (Option.some.inj g3)
          rw [h5]
          have hnn : new ≠ o'.name := by
            intro e
            by_cases hh : new = old
            · exact hno (e.symm.trans hh)
            · rw [← e, hnewfree hh] at g3; cases g3
          rw [Map.find_set_ne _ _ hnn, Map.find_erase _ hN.1, if_neg (Ne.symm hno)]
          exact g3
      · intro m k o' i hk ho hi
        rw [h6]
        rw [h5, Map.find_set] at hk
        rw [h4] at ho
        split at hk
        · simp only [Option.some.injEq] at hk
          subst hk
          rw [get_set h2 h2, if_pos rfl] at ho
          have := Option.some.inj ho
          subst this
          exact ih.2 old g o i h1 h2 hi
        · rw [Map.find_erase _ hN.1] at hk
          split at hk
          · cases hk
          · rename_i hne2
            have hkg := hfind m k hk (Ne.symm hne2)
            obtain ⟨o2, k1, k2⟩ := hN.2 m k hk
            rw [get_set h2 k1, if_neg (Ne.symm hkg)] at ho
            have := Option.some.inj ho
            subst this
            exact ih.2 m k o2 i hk k1 hi
    | remove n => cases ha
    | elsewhere n =>
      simp only [perform, Outcome.ok.injEq] at h
      subst h
      exact ih

/-- **C16**, ids, for histories without removal: `findGroup(id)` gives the group registered under
the name it has, with this original id, and every registered group with an original id is
found by it. Missing: removals, see `C16_removed_group_by_id_false`. -/
theorem C16_by_id_partial {s : Groups} (r : Reach false s) :
    (∀ i g, s.findById i = some g → ∃ o, s.heap[g]? = some o ∧ o.originalId = some i ∧ s.findByName o.name = some g) ∧
    (∀ n g o i, s.findByName n = some g → s.heap[g]? = some o → o.originalId = some i → s.findById i = some g) :=
  r.idInv

/-- Renaming onto a taken name loses the other group: it is found no more under any name, and two
groups carry the same name. -/
theorem C16_rename_taken_false :
    ∃ s1 g1 s2 g2 s3, Groups.init.create true "A" none = .ok (s1, g1) ∧ s1.create true "B" none = .ok (s2, g2) ∧
      s2.rename "A" "B" = .ok s3 ∧ (∀ n, s3.findByName n ≠ some g2) ∧
      s3.heap.map (·.name) = ["B", "B"] := by
  refine ⟨_, _, _, _, _, rfl, rfl, rfl, ?_, rfl⟩
  intro n h
  have h' : Map.find [("B", 0)] n = some 1 := h
  by_cases e : "B" = n <;> simp [Map.find, e] at h'

/-- A removed group is still found by its original id: what is erased is the entry of the automatic
id. -/
theorem C16_removed_group_by_id_false :
    ∃ s1 g1 s2, Groups.init.create true "A" (some 7) = .ok (s1, g1) ∧ s1.remove "A" = .ok s2 ∧
      s2.findByName "A" = none ∧ s2.findById 7 = some g1 := ⟨_, _, _, rfl, rfl, rfl, rfl⟩

/-- Removing a group can make another, live, group unreachable by its original id. -/
theorem C16_remove_hides_other_false :
    ∃ s1 g1 s2 g2 s3, Groups.init.create true "A" none = .ok (s1, g1) ∧ s1.create true "B" (some 1) = .ok (s2, g2) ∧
      s2.findById 1 = some g2 ∧ s2.remove "A" = .ok s3 ∧ s3.findByName "B" = some g2 ∧ s3.findById 1 = none :=
  ⟨_, _, _, _, _, rfl, rfl, rfl, rfl, rfl, rfl⟩

/-- A history in the hypotheses. -/
example : ∃ s, Reach false s ∧ s.findByName "C" = some 0 ∧ s.findById 3 = some 0 ∧ s.findByName "B" = some 1 := by
  have r1 := (Reach.init (removals := false)).step (.create true "A" (some 3)) trivial rfl
  have r2 := r1.step (.findOrCreate "B" none) trivial rfl
  have r3 := r2.step (.rename "A" "C") (Or.inl rfl) rfl
  exact ⟨_, r3, rfl, rfl, rfl⟩

end Vega.GroupSpec
