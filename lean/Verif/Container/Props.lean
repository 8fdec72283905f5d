import Verif.Container.Model
import Mathlib.Data.List.Nodup

/-!
# Containers of objects (C07, C08) and automatic ids (C09)
-/
namespace Vega.ContainerSpec
open Container

/-! ## Specification -/

/-- Two objects stand for the same thing: same type and original id if they have one, same
automatic id otherwise. -/
def taken (live : List Obj) (o : Obj) : Prop :=
  if o.isOriginal then ∃ x ∈ live, x.isOriginal ∧ x.type = o.type ∧ x.originalId = o.originalId
  else ∃ x ∈ live, x.id = o.id

/-- What a client does with a container. -/
inductive Op where
  | add (o : Obj)
  | eraseObj (o : Obj)

/-- The abstract container is the list of live objects. -/
inductive Live : List Op → List Obj → Prop where
  | nil : Live [] []
  | addFresh : Live ops live → ¬ taken live o → Live (ops ++ [.add o]) (live ++ [o])
  | addTaken : Live ops live → taken live o → Live (ops ++ [.add o]) live
  | erase : Live ops live → o ∈ live → Live (ops ++ [.eraseObj o]) (live.filter (· ≠ o))

/-- The container after the same operations; a rejected `add` is caught. -/
def step (c : Container) : Op → Container
  | .add o => match c.add o with
    | .ok c' => c'
    | _ => c
  | .eraseObj o => c.erase o.ref

def run (ops : List Op) : Container := ops.foldl step empty

/-- Objects added in a history. -/
def added : List Op → List Obj
  | [] => []
  | .add o :: ops => o :: added ops
  | _ :: ops => added ops

/-- Ids are automatic ids: no two different objects share one (C09), and they are not the
sentinel. -/
def IdsUnique (l : List Obj) : Prop :=
  (∀ a ∈ l, ∀ b ∈ l, a.id = b.id → a = b) ∧ ∀ a ∈ l, a.id ≠ Ref.NO_ID

/-! ## Refinement -/

/-- The container represents the list of live objects. -/
structure Rep (c : Container) (live : List Obj) : Prop where
  byId : c.byId = live.map fun o => (o.id, o)
  byOrig : c.byOrig = (live.filter (·.isOriginal)).map fun o => ((o.type, o.originalId), o)
  idsNodup : (live.map (·.id)).Nodup
  origNodup : ((live.filter (·.isOriginal)).map fun o => (o.type, o.originalId)).Nodup

theorem find_map_key {κ : Type} [DecidableEq κ] (f : Obj → κ) (l : List Obj) (k : κ) :
    Map.find (l.map fun o => (f o, o)) k = l.find? (fun o => f o = k) := by
  induction l with
  | nil => rfl
  | cons x l ih =>
    simp only [List.map_cons, Map.find, List.find?_cons, ih]
    by_cases h : f x = k <;> simp [h]

theorem set_map_key {κ : Type} [DecidableEq κ] (f : Obj → κ) (l : List Obj) (o : Obj)
    (h : ∀ x ∈ l, f x ≠ f o) :
    Map.set (l.map fun o => (f o, o)) (f o) o = (l ++ [o]).map fun o => (f o, o) := by
  induction l with
  | nil => rfl
  | cons x l ih =>
    simp only [List.map_cons, Map.set, List.cons_append]
    rw [if_neg (h x (by simp)), ih (fun y hy => h y (by simp [hy]))]

theorem erase_map_key {κ : Type} [DecidableEq κ] (f : Obj → κ) (l : List Obj) (o : Obj)
    (hn : (l.map f).Nodup) (ho : o ∈ l) :
    Map.erase (l.map fun o => (f o, o)) (f o) = (l.filter (· ≠ o)).map fun o => (f o, o) := by
  induction l with
  | nil => simp at ho
  | cons x l ih =>
    simp only [List.map_cons, List.nodup_cons, List.mem_map, not_exists, not_and] at hn
    simp only [List.map_cons, Map.erase]
    by_cases h : x = o
    · subst h
      rw [if_pos rfl]
      simp only [List.filter_cons, ne_eq, not_true_eq_false, decide_false, Bool.false_eq_true, if_false]
      rw [List.filter_eq_self.mpr]
      intro y hy
      simp only [decide_eq_true_eq]
      intro hyx
      exact hn.1 y hy (by rw [hyx])
    · have hol : o ∈ l := by
        rcases List.mem_cons.mp ho with h2 | h2
        · exact absurd h2.symm h
        · exact h2
      rw [if_neg (fun he => hn.1 o hol he.symm), ih hn.2 hol]
      simp [List.filter_cons, h]

theorem rep_empty : Rep empty [] := ⟨rfl, rfl, by simp, by simp⟩

/-- In a represented container, `find` looks the reference up among the live objects. -/
theorem rep_find {c : Container} {live : List Obj} (h : Rep c live) (r : Ref) :
    c.find r =
      if r.hasOriginalId then
        .ok (live.find? fun o => o.isOriginal ∧ o.type = r.type ∧ o.originalId = r.originalId)
      else if r.hasId then .ok (live.find? fun o => o.id = r.id)
      else .throw := by
  unfold find
  rw [h.byId, h.byOrig, find_map_key (fun o => (o.type, o.originalId)), find_map_key (·.id),
    List.find?_filter]
  simp only [Prod.mk.injEq, Bool.decide_and, Bool.decide_eq_true]

theorem isOriginal_ref (o : Obj) : o.ref.hasOriginalId = o.isOriginal := by
  unfold Obj.ref Ref.hasOriginalId Obj.isOriginal
  by_cases h : o.originalId = Ref.NO_ID <;> simp [h]

theorem taken_iff {c : Container} {live : List Obj} (h : Rep c live) (o : Obj)
    (hid : o.id ≠ Ref.NO_ID) :
    (taken live o → ∃ x, c.find o.ref = .ok (some x)) ∧
    (¬ taken live o → c.find o.ref = .ok none) := by
  rw [rep_find h, isOriginal_ref]
  unfold taken
  by_cases ho : o.isOriginal = true
  · have hr : o.ref.type = o.type ∧ o.ref.originalId = o.originalId := by
      simp [Obj.ref, ho]
    simp only [ho, if_true, hr.1, hr.2]
    constructor
    · rintro ⟨x, hx, hx2⟩
      cases hf : live.find? fun x => x.isOriginal ∧ x.type = o.type ∧ x.originalId = o.originalId with
      | some y => exact ⟨y, rfl⟩
      | none =>
        rw [List.find?_eq_none] at hf
        exact absurd hx2 (by simpa using hf x hx)
    · intro hn
      congr 1
      rw [List.find?_eq_none]
      intro x hx hc
      exact hn ⟨x, hx, by simpa using hc⟩
  · have hr : o.ref.id = o.id := rfl
    have hh : o.ref.hasId = true := by simp [Ref.hasId, hr, hid]
    simp only [ho, if_false, hr, hh, if_true]
    constructor
    · rintro ⟨x, hx, hx2⟩
      cases hf : live.find? fun x => x.id = o.id with
      | some y => exact ⟨y, rfl⟩
      | none =>
        rw [List.find?_eq_none] at hf
        exact absurd hx2 (by simpa using hf x hx)
    · intro hn
      simp only [Bool.false_eq_true, if_false]
      congr 1
      rw [List.find?_eq_none]
      intro x hx hc
      exact hn ⟨x, hx, by simpa using hc⟩

theorem rep_add {c : Container} {live : List Obj} (h : Rep c live) (o : Obj)
    (hid : o.id ≠ Ref.NO_ID) (hu : ∀ x ∈ live, x.id = o.id → x = o) :
    (taken live o → c.add o = .throw) ∧
    (¬ taken live o → ∃ c', c.add o = .ok c' ∧ Rep c' (live ++ [o])) := by
  obtain ⟨h1, h2⟩ := taken_iff h o hid
  unfold add
  constructor
  · intro ht
    obtain ⟨x, hx⟩ := h1 ht
    simp [hx]
  · intro ht
    rw [h2 ht]
    refine ⟨_, rfl, ?_⟩
    -- no live object has this id
    have hfresh : ∀ x ∈ live, x.id ≠ o.id := by
      intro x hx he
      have := hu x hx he
      subst this
      apply ht
      unfold taken
      split
      · rename_i hO; exact ⟨x, hx, hO, rfl, rfl⟩
      · exact ⟨x, hx, rfl⟩
    have hfreshO : o.isOriginal = true →
        ∀ x ∈ live.filter (·.isOriginal), (x.type, x.originalId) ≠ (o.type, o.originalId) := by
      intro hO x hx he
      simp only [List.mem_filter] at hx
      simp only [Prod.mk.injEq] at he
      apply ht
      unfold taken
      rw [if_pos hO]
      exact ⟨x, hx.1, hx.2, he.1, he.2⟩
    refine ⟨?_, ?_, ?_, ?_⟩
    · simp only
      rw [h.byId, set_map_key (·.id) live o hfresh]
    · simp only
      rw [h.byOrig, List.filter_append]
      by_cases hO : o.isOriginal = true
      · rw [if_pos hO, set_map_key (fun o => (o.type, o.originalId)) _ o (hfreshO hO)]
        simp [hO]
      · simp [hO]
    · rw [List.map_append, List.nodup_append]
      refine ⟨h.idsNodup, by simp, ?_⟩
      intro a ha b hb hab
      obtain ⟨x, hx, rfl⟩ := List.mem_map.mp ha
      simp at hb
      exact hfresh x hx (hab.trans hb)
    · rw [List.filter_append, List.map_append, List.nodup_append]
      refine ⟨h.origNodup, ?_, ?_⟩
      · by_cases hO : o.isOriginal = true <;> simp [hO]
      · intro a ha b hb hab
        by_cases hO : o.isOriginal = true
        · obtain ⟨x, hx, rfl⟩ := List.mem_map.mp ha
          simp [hO] at hb
          exact hfreshO hO x hx (hab.trans hb)
        · simp [hO] at hb

theorem rep_erase {c : Container} {live : List Obj} (h : Rep c live) (o : Obj) (ho : o ∈ live) :
    Rep (c.erase o.ref) (live.filter (· ≠ o)) := by
  refine ⟨?_, ?_, ?_, ?_⟩
  · unfold erase
    simp only
    rw [h.byId]
    exact erase_map_key (·.id) live o h.idsNodup ho
  · unfold erase
    simp only [isOriginal_ref]
    rw [h.byOrig]
    by_cases hO : o.isOriginal = true
    · have hr : (o.ref.type, o.ref.originalId) = (o.type, o.originalId) := by
        simp [Obj.ref, hO]
      rw [if_pos hO, hr, erase_map_key (fun o => (o.type, o.originalId)) _ o h.origNodup
        (by simp [ho, hO])]
      rw [List.filter_filter, List.filter_filter]
      congr 1
      apply List.filter_congr
      intro x _
      exact Bool.and_comm _ _
    · rw [if_neg hO, List.filter_filter]
      congr 1
      apply List.filter_congr
      intro x _
      by_cases hx : x = o
      · subst hx; simp [hO]
      · simp [hx]
  · exact List.Nodup.sublist (List.Sublist.map _ List.filter_sublist) h.idsNodup
  · apply List.Nodup.sublist _ h.origNodup
    apply List.Sublist.map
    rw [List.filter_filter]
    have : (fun a : Obj => a.isOriginal && decide (a ≠ o)) = fun a : Obj => decide (a ≠ o) && a.isOriginal := by
      funext a; exact Bool.and_comm _ _
    rw [this, ← List.filter_filter]
    exact List.filter_sublist

theorem added_append (a b : List Op) : added (a ++ b) = added a ++ added b := by
  induction a with
  | nil => rfl
  | cons x a ih => cases x <;> simp [added, ih]

theorem live_subset {ops : List Op} {live : List Obj} (h : Live ops live) :
    ∀ x ∈ live, x ∈ added ops := by
  induction h with
  | nil => simp
  | addFresh _ _ ih =>
    intro x hx
    rw [added_append]
    simp only [List.mem_append, List.mem_singleton] at hx ⊢
    rcases hx with hx | hx
    · exact Or.inl (ih x hx)
    · subst hx; exact Or.inr (by simp [added])
  | addTaken _ _ ih =>
    intro x hx
    rw [added_append]
    exact List.mem_append.mpr (Or.inl (ih x hx))
  | erase _ _ ih =>
    intro x hx
    rw [added_append]
    exact List.mem_append.mpr (Or.inl (ih x (List.mem_filter.mp hx).1))

theorem rep_run {ops : List Op} {live : List Obj} (h : Live ops live)
    (hu : IdsUnique (added ops)) : Rep (run ops) live := by
  induction h with
  | nil => exact rep_empty
  | @addFresh ops live o hl hn ih =>
    have hu' : IdsUnique (added ops) := ⟨fun a ha b hb => hu.1 a (by rw [added_append]; exact List.mem_append.mpr (Or.inl ha)) b (by rw [added_append]; exact List.mem_append.mpr (Or.inl hb)), fun a ha => hu.2 a (by rw [added_append]; exact List.mem_append.mpr (Or.inl ha))⟩
    have hmem : o ∈ added (ops ++ [.add o]) := by rw [added_append]; simp [added]
    obtain ⟨c', hc, hr⟩ := (rep_add (ih hu') o (hu.2 o hmem) (fun x hx => hu.1 x (by
      rw [added_append]; exact List.mem_append.mpr (Or.inl (live_subset hl x hx))) o hmem)).2 hn
    unfold run
    rw [List.foldl_append]
    simp only [List.foldl_cons, List.foldl_nil, step]
    rw [← run, hc]
    exact hr
  | @addTaken ops live o hl ht ih =>
    have hu' : IdsUnique (added ops) := ⟨fun a ha b hb => hu.1 a (by rw [added_append]; exact List.mem_append.mpr (Or.inl ha)) b (by rw [added_append]; exact List.mem_append.mpr (Or.inl hb)), fun a ha => hu.2 a (by rw [added_append]; exact List.mem_append.mpr (Or.inl ha))⟩
    have hmem : o ∈ added (ops ++ [.add o]) := by rw [added_append]; simp [added]
    have hc := (rep_add (ih hu') o (hu.2 o hmem) (fun x hx => hu.1 x (by
      rw [added_append]; exact List.mem_append.mpr (Or.inl (live_subset hl x hx))) o hmem)).1 ht
    unfold run
    rw [List.foldl_append]
    simp only [List.foldl_cons, List.foldl_nil, step]
    rw [← run, hc]
    exact ih hu'
  | @erase ops live o hl ho ih =>
    have hu' : IdsUnique (added ops) := ⟨fun a ha b hb => hu.1 a (by rw [added_append]; exact List.mem_append.mpr (Or.inl ha)) b (by rw [added_append]; exact List.mem_append.mpr (Or.inl hb)), fun a ha => hu.2 a (by rw [added_append]; exact List.mem_append.mpr (Or.inl ha))⟩
    unfold run
    rw [List.foldl_append]
    simp only [List.foldl_cons, List.foldl_nil, step]
    rw [← run]
    exact rep_erase (ih hu') o ho

/-! ## C07 -/

/-- **C07** a reference finds the live object it denotes, and nothing else. The histories are
those where `erase` is called with the reference of an object in the container; see the two
`_false` theorems for the others. -/
theorem C07_find_partial {ops : List Op} {live : List Obj} (h : Live ops live)
    (hu : IdsUnique (added ops)) (r : Ref) :
    (r.hasOriginalId = true → ∃ res, (run ops).find r = .ok res ∧
      ∀ o, res = some o ↔
        (o ∈ live ∧ o.isOriginal = true ∧ o.type = r.type ∧ o.originalId = r.originalId)) ∧
    (r.hasOriginalId = false → r.hasId = true → ∃ res, (run ops).find r = .ok res ∧
      ∀ o, res = some o ↔ (o ∈ live ∧ o.id = r.id)) ∧
    (r.hasOriginalId = false → r.hasId = false → (run ops).find r = .throw) := by
  have hr := rep_run h hu
  rw [rep_find hr]
  refine ⟨?_, ?_, ?_⟩
  · intro ho
    rw [if_pos ho]
    refine ⟨_, rfl, ?_⟩
    intro o
    constructor
    · intro hf
      have := List.find?_some hf
      exact ⟨List.mem_of_find?_eq_some hf, by simpa using this⟩
    · rintro ⟨hm, hp⟩
      cases hf : live.find? fun o => o.isOriginal ∧ o.type = r.type ∧ o.originalId = r.originalId with
      | none =>
        rw [List.find?_eq_none] at hf
        exact absurd hp (by simpa using hf o hm)
      | some y =>
        have hy := List.find?_some hf
        have hym := List.mem_of_find?_eq_some hf
        simp only [Bool.decide_eq_true, Bool.decide_and, Bool.and_eq_true, decide_eq_true_eq] at hy
        have hinj := List.inj_on_of_nodup_map hr.origNodup
        have := hinj (by simp [hym, hy.1] : y ∈ live.filter (·.isOriginal))
          (by simp [hm, hp.1] : o ∈ live.filter (·.isOriginal))
          (by simp [hy.2.1, hy.2.2, hp.2.1, hp.2.2])
        rw [this]
  · intro ho hi
    rw [if_neg (by simp [ho]), if_pos hi]
    refine ⟨_, rfl, ?_⟩
    intro o
    constructor
    · intro hf
      have := List.find?_some hf
      exact ⟨List.mem_of_find?_eq_some hf, by simpa using this⟩
    · rintro ⟨hm, hp⟩
      cases hf : live.find? fun o => o.id = r.id with
      | none =>
        rw [List.find?_eq_none] at hf
        exact absurd hp (by simpa using hf o hm)
      | some y =>
        have hy := List.find?_some hf
        have hym := List.mem_of_find?_eq_some hf
        simp only [decide_eq_true_eq] at hy
        have := List.inj_on_of_nodup_map hr.idsNodup hym hm (hy.trans hp.symm)
        rw [this]
  · intro ho hi
    rw [if_neg (by simp [ho]), if_neg (by simp [hi])]

/-- **C07** adding an object whose place is taken is refused (the container keeps its content
since `add` throws before touching it); any other addition succeeds. -/
theorem C07_add {ops : List Op} {live : List Obj} (h : Live ops live) (o : Obj)
    (hu : IdsUnique (added (ops ++ [.add o]))) :
    (taken live o → (run ops).add o = .throw) ∧
    (¬ taken live o → ∃ c', (run ops).add o = .ok c' ∧ c'.objects = (run ops).objects ++ [o]) := by
  have hu' : IdsUnique (added ops) := ⟨fun a ha b hb => hu.1 a (by rw [added_append]; exact List.mem_append.mpr (Or.inl ha)) b (by rw [added_append]; exact List.mem_append.mpr (Or.inl hb)), fun a ha => hu.2 a (by rw [added_append]; exact List.mem_append.mpr (Or.inl ha))⟩
  have hmem : o ∈ added (ops ++ [.add o]) := by rw [added_append]; simp [added]
  have hr := rep_run h hu'
  have ha := rep_add hr o (hu.2 o hmem) (fun x hx => hu.1 x (by
      rw [added_append]; exact List.mem_append.mpr (Or.inl (live_subset h x hx))) o hmem)
  refine ⟨ha.1, fun hn => ?_⟩
  obtain ⟨c', hc, hr'⟩ := ha.2 hn
  refine ⟨c', hc, ?_⟩
  unfold objects
  rw [hr'.byId, hr.byId]
  simp

/-- **C07** iterating, counting and filtering see exactly the live objects. -/
theorem C07_objects_size {ops : List Op} {live : List Obj} (h : Live ops live)
    (hu : IdsUnique (added ops)) :
    (run ops).objects = live ∧ (run ops).size = live.length ∧
    (∀ t, (run ops).filter t = live.filter fun o => o.type = t) ∧
    (∀ t, (run ops).contains t = true ↔ ∃ o ∈ live, o.type = t) ∧
    (∀ i o, (run ops).get i = some o ↔ o ∈ live ∧ o.id = i) := by
  have hr := rep_run h hu
  refine ⟨?_, ?_, ?_, ?_, ?_⟩
  · unfold objects; rw [hr.byId]; simp [Function.comp_def]
  · unfold size; rw [hr.byId]; simp
  · intro t
    unfold Container.filter
    rw [hr.byId, List.filter_map, List.map_map]
    simp [Function.comp_def]
  · intro t
    unfold Container.contains
    rw [hr.byId]
    simp
  · intro i o
    unfold Container.get
    rw [hr.byId, find_map_key (·.id)]
    constructor
    · intro hf
      exact ⟨List.mem_of_find?_eq_some hf, by simpa using List.find?_some hf⟩
    · rintro ⟨hm, hp⟩
      cases hf : live.find? fun o => o.id = i with
      | none =>
        rw [List.find?_eq_none] at hf
        exact absurd hp (by simpa using hf o hm)
      | some y =>
        have hy := List.find?_some hf
        simp only [decide_eq_true_eq] at hy
        rw [List.inj_on_of_nodup_map hr.idsNodup (List.mem_of_find?_eq_some hf) hm (hy.trans hp.symm)]

-- a history with a rejected duplicate, an erasure and a re-addition
example : ∃ live, Live [.add ⟨1, 10, 1, 0⟩, .add ⟨1, 10, 2, 0⟩, .add ⟨1, Ref.NO_ID, 3, 0⟩,
      .eraseObj ⟨1, 10, 1, 0⟩, .add ⟨1, 10, 4, 0⟩] live ∧
    live = [⟨1, Ref.NO_ID, 3, 0⟩, ⟨1, 10, 4, 0⟩] ∧
    IdsUnique (added [.add ⟨1, 10, 1, 0⟩, .add ⟨1, 10, 2, 0⟩, .add ⟨1, Ref.NO_ID, 3, 0⟩,
      .eraseObj ⟨1, 10, 1, 0⟩, .add ⟨1, 10, 4, 0⟩]) := by
  refine ⟨_, ?_, rfl, ?_⟩
  · refine Live.addFresh (ops := [.add _, .add _, .add _, .eraseObj _]) (live := [⟨1, Ref.NO_ID, 3, 0⟩]) ?_ (by unfold taken; decide)
    refine Live.erase (ops := [.add _, .add _, .add _]) (live := [⟨1, 10, 1, 0⟩, ⟨1, Ref.NO_ID, 3, 0⟩]) ?_ (by decide)
    refine Live.addFresh (ops := [.add _, .add _]) (live := [⟨1, 10, 1, 0⟩]) ?_ (by unfold taken; decide)
    refine Live.addTaken (ops := [.add _]) ?_ (by unfold taken; decide)
    exact Live.addFresh (ops := []) (live := []) Live.nil (by unfold taken; decide)
  · unfold IdsUnique; decide

/-- Refutation beyond those histories, 1: erasing by a reference that only has an original id
(which `==` equates with the object's reference) leaves the object in the container. -/
theorem C07_erase_by_original_id_false :
    let o : Obj := ⟨1, 10, 1, 0⟩
    let r : Ref := ⟨1, 10, Ref.NO_ID⟩
    r.beq o.ref = true ∧ ((run [.add o]).erase r).find r = .ok none ∧
      ((run [.add o]).erase r).objects = [o] ∧ ((run [.add o]).erase r).size = 1 := by
  decide

/-- Refutation beyond those histories, 2: erasing with the reference of a rejected duplicate
hides the live object from `find` but keeps it in the container. -/
theorem C07_erase_duplicate_false :
    let o : Obj := ⟨1, 10, 1, 0⟩
    let dup : Obj := ⟨1, 10, 2, 0⟩
    ((run [.add o, .add dup]).erase dup.ref).find o.ref = .ok none ∧
      ((run [.add o, .add dup]).erase dup.ref).objects = [o] := by
  decide

/-! ## C08 -/

theorem rep_erase_list {c : Container} {live : List Obj} (h : Rep c live) (l : List Obj)
    (hl : ∀ o ∈ l, o ∈ live) (hn : l.Nodup) :
    Rep (l.foldl (fun c o => c.erase o.ref) c) (live.filter (· ∉ l)) := by
  induction l generalizing c live with
  | nil =>
    have : live.filter (· ∉ ([] : List Obj)) = live := by simp
    rw [this]; exact h
  | cons x l ih =>
    simp only [List.foldl_cons]
    have h1 := rep_erase h x (hl x (by simp))
    have h2 := ih h1 (fun o ho => by
      simp only [List.mem_filter, ne_eq, decide_eq_true_eq]
      refine ⟨hl o (by simp [ho]), ?_⟩
      rintro rfl
      exact (List.nodup_cons.mp hn).1 ho) (List.nodup_cons.mp hn).2
    rw [List.filter_filter] at h2
    have : (live.filter fun a => decide (a ∉ x :: l)) =
        live.filter (fun a => decide (a ∉ l) && decide (a ≠ x)) := by
      apply List.filter_congr
      intro a _
      by_cases ha : a = x <;> by_cases hb : a ∈ l <;> simp [ha, hb]
    rw [this]
    exact h2

/-- **C08** the answer of `validate` is that every stored object is valid; in STRICT mode the
container is unchanged, in the other modes exactly the valid objects remain (and are found
as before, since the result is again the container of a list of live objects). -/
theorem C08_validate {ops : List Op} {live : List Obj} (h : Live ops live)
    (hu : IdsUnique (added ops)) (mode : TranslationMode) (valid : Obj → Bool) :
    (((run ops).validate mode valid).1 = true ↔ ∀ o ∈ live, valid o = true) ∧
    (mode = .MODE_STRICT → ((run ops).validate mode valid).2 = run ops) ∧
    (mode ≠ .MODE_STRICT →
      ((run ops).validate mode valid).2.objects = live.filter valid ∧
      Rep ((run ops).validate mode valid).2 (live.filter valid)) := by
  have hr := rep_run h hu
  have hobj : (run ops).objects = live := (C07_objects_size h hu).1
  refine ⟨?_, ?_, ?_⟩
  · unfold validate
    simp only [hobj, List.isEmpty_iff, List.filter_eq_nil_iff, Bool.not_eq_true', Bool.not_eq_false]
  · rintro rfl
    rfl
  · intro hm
    have hl : ((run ops).validate mode valid).2 =
        (live.filter fun o => !valid o).foldl (fun c o => c.erase o.ref) (run ops) := by
      unfold validate
      rw [hobj]
      cases mode with
      | MODE_STRICT => exact absurd rfl hm
      | _ => rfl
    have hnod : live.Nodup := List.Nodup.of_map _ hr.idsNodup
    have h1 := rep_erase_list hr (live.filter fun o => !valid o)
      (fun o ho => (List.mem_filter.mp ho).1) (hnod.sublist List.filter_sublist)
    have heq : (live.filter fun a => decide (a ∉ live.filter fun o => !valid o)) = live.filter valid := by
      apply List.filter_congr
      intro a ha
      cases hv : valid a <;> simp [ha, hv]
    rw [heq] at h1
    rw [hl]
    refine ⟨?_, h1⟩
    unfold objects
    rw [h1.byId]
    simp [Function.comp_def]

-- two invalid neighbours: both are removed
example :
    let a : Obj := ⟨0, 1, 1, 0⟩
    let b : Obj := ⟨0, 2, 2, 0⟩
    let d : Obj := ⟨0, 3, 3, 7⟩
    ((run [.add a, .add b, .add d]).validate .BEST_EFFORT (fun o => o.payload = 7)).2.objects = [d] := by
  decide

/-! ## C09 -/

/-- Creations and id resets of one class of objects. -/
inductive IdOp where
  | create (originalId : Int)
  | reset (k : Nat)
  | cloneReset (k : Nat)

def idStep (w : IdWorld) : IdOp → IdWorld
  | .create o => w.create o
  | .reset k => w.reset k
  | .cloneReset k => w.cloneReset k

def idRun (ops : List IdOp) : IdWorld := ops.foldl idStep IdWorld.init

theorem id_inv (ops : List IdOp) :
    ((idRun ops).objs.map (·.2)).Nodup ∧ ∀ x ∈ (idRun ops).objs, x.2 ≤ (idRun ops).autoId := by
  unfold idRun
  suffices H : ∀ w : IdWorld, ((w.objs.map (·.2)).Nodup ∧ ∀ x ∈ w.objs, x.2 ≤ w.autoId) →
      (((ops.foldl idStep w).objs.map (·.2)).Nodup ∧
        ∀ x ∈ (ops.foldl idStep w).objs, x.2 ≤ (ops.foldl idStep w).autoId) from
    H _ ⟨by simp [IdWorld.init], by simp [IdWorld.init]⟩
  induction ops with
  | nil => intro w h; exact h
  | cons op ops ih =>
    intro w ⟨h1, h2⟩
    simp only [List.foldl_cons]
    apply ih
    have happ : ∀ o : Int, (((w.objs ++ [(o, w.autoId + 1)]).map (·.2)).Nodup ∧
        ∀ x ∈ w.objs ++ [(o, w.autoId + 1)], x.2 ≤ w.autoId + 1) := by
      intro o
      constructor
      · rw [List.map_append, List.nodup_append]
        refine ⟨h1, by simp, ?_⟩
        intro a ha b hb hab
        obtain ⟨x, hx, rfl⟩ := List.mem_map.mp ha
        simp at hb
        have := h2 x hx
        omega
      · intro x hx
        rcases List.mem_append.mp hx with hx | hx
        · have := h2 x hx; omega
        · simp at hx; subst hx; simp
    cases op with
    | create o => exact happ o
    | reset k =>
      simp only [idStep, IdWorld.reset]
      constructor
      · rw [List.nodup_iff_pairwise_ne, List.pairwise_map]
        rw [List.nodup_iff_pairwise_ne, List.pairwise_map] at h1
        rw [List.pairwise_iff_getElem] at h1 ⊢
        intro i j hi hj hij
        simp only [List.length_modify] at hi hj
        rw [List.getElem_modify, List.getElem_modify]
        have hI := h2 _ (List.getElem_mem hi)
        have hJ := h2 _ (List.getElem_mem hj)
        have := h1 i j hi hj hij
        split <;> split <;> omega
      · intro x hx
        obtain ⟨i, hi, rfl⟩ := List.getElem_of_mem hx
        simp only [List.length_modify] at hi
        rw [List.getElem_modify]
        have hI := h2 _ (List.getElem_mem hi)
        split <;> omega
    | cloneReset k =>
      simp only [idStep, IdWorld.cloneReset]
      split
      · exact happ _
      · exact ⟨h1, h2⟩

/-- **C09** in every history, no two objects have the same automatic id. -/
theorem C09_ids_distinct (ops : List IdOp) : ((idRun ops).objs.map (·.2)).Nodup := (id_inv ops).1

/-- **C09** a creation draws an id greater than all ids in use or ever drawn (the counter),
and keeps the original id it is given. -/
theorem C09_create_fresh (ops : List IdOp) (o : Int) :
    ∃ i, (idRun (ops ++ [.create o])).objs = (idRun ops).objs ++ [(o, i)] ∧
      i = (idRun (ops ++ [.create o])).autoId ∧ i > (idRun ops).autoId ∧
      ∀ x ∈ (idRun ops).objs, x.2 < i := by
  refine ⟨(idRun ops).autoId + 1, ?_, ?_, by omega, ?_⟩
  · simp [idRun, idStep, IdWorld.create]
  · simp [idRun, idStep, IdWorld.create]
  · intro x hx
    have := (id_inv ops).2 x hx
    omega

/-- **C09** `resetId` draws a new id for that object only, and forgets its original id. -/
theorem C09_reset (ops : List IdOp) (k : Nat) (hk : k < (idRun ops).objs.length) :
    (idRun (ops ++ [.reset k])).objs[k]? = some (Ref.NO_ID, (idRun (ops ++ [.reset k])).autoId) ∧
    (idRun (ops ++ [.reset k])).autoId > (idRun ops).autoId ∧
    ∀ j, j ≠ k → (idRun (ops ++ [.reset k])).objs[j]? = (idRun ops).objs[j]? := by
  have h : idRun (ops ++ [.reset k]) = (idRun ops).reset k := by simp [idRun, idStep]
  rw [h]
  unfold IdWorld.reset
  refine ⟨?_, by simp only; omega, ?_⟩
  · simp [List.getElem?_modify, hk]
  · intro j hj
    simp only [List.getElem?_modify]
    cases (idRun ops).objs[j]? <;> simp [Ne.symm hj]

/-- **C09** the counter never goes back, so an id freed by a reset is not drawn again. -/
theorem C09_counter_monotone (ops ops' : List IdOp) :
    (idRun ops).autoId ≤ (idRun (ops ++ ops')).autoId := by
  have h : idRun (ops ++ ops') = ops'.foldl idStep (idRun ops) := by simp [idRun]
  rw [h]
  clear h
  generalize idRun ops = w
  induction ops' generalizing w with
  | nil => simp
  | cons op ops' ih =>
    simp only [List.foldl_cons]
    refine Int.le_trans ?_ (ih _)
    cases op with
    | create o => simp only [idStep, IdWorld.create]; omega
    | reset k => simp only [idStep, IdWorld.reset]; omega
    | cloneReset k => simp only [idStep, IdWorld.cloneReset]; split <;> (try simp only) <;> omega

/-- **C09** the best id is the original id if there is one, the automatic id otherwise. -/
theorem C09_bestId (o : Obj) :
    (o.isOriginal = true → o.bestId = o.originalId) ∧ (o.isOriginal = false → o.bestId = o.id) := by
  unfold Obj.isOriginal Obj.bestId
  constructor <;> intro h <;> simp at h <;> simp [h]

end Vega.ContainerSpec
