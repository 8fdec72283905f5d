/-!
# Finite maps as association lists

Model of `std::map` / `std::unordered_map`: `find`, `operator[] =` (insert or
overwrite) and `erase(key)`. The order of the list stands for the iteration order,
about which no theorem assumes anything.
-/
namespace Vega

/-- An association list with (intended) unique keys. -/
abbrev Map (κ : Type u) (α : Type v) := List (κ × α)

namespace Map
variable {κ : Type u} {α : Type v} [DecidableEq κ]

/-- `m.find(k)`. -/
def find (m : Map κ α) (k : κ) : Option α :=
  match m with
  | [] => none
  | (k', a) :: m => if k' = k then some a else find m k

/-- `m[k] = a`. -/
def set (m : Map κ α) (k : κ) (a : α) : Map κ α :=
  match m with
  | [] => [(k, a)]
  | (k', a') :: m => if k' = k then (k, a) :: m else (k', a') :: set m k a

/-- `m.erase(k)`. -/
def erase (m : Map κ α) (k : κ) : Map κ α :=
  match m with
  | [] => []
  | (k', a') :: m => if k' = k then m else (k', a') :: erase m k

/-- The keys, in iteration order. -/
def keys (m : Map κ α) : List κ := m.map (·.1)

/-- Keys are unique. -/
def WF (m : Map κ α) : Prop := (keys m).Nodup

@[simp] theorem find_nil (k : κ) : find ([] : Map κ α) k = none := rfl

theorem find_set (m : Map κ α) (k k' : κ) (a : α) :
    find (set m k a) k' = if k = k' then some a else find m k' := by
  induction m with
  | nil => simp [set, find]
  | cons x m ih =>
    obtain ⟨kx, ax⟩ := x
    simp only [set]
    split
    · rename_i h
      subst h
      simp only [find]
      split <;> rfl
    · rename_i h
      simp only [find, ih]
      split
      · rename_i h2
        subst h2
        rw [if_neg (fun h3 => h h3.symm)]
      · rfl

@[simp] theorem find_set_self (m : Map κ α) (k : κ) (a : α) : find (set m k a) k = some a := by
  simp [find_set]

theorem find_set_ne (m : Map κ α) {k k' : κ} (a : α) (h : k ≠ k') :
    find (set m k a) k' = find m k' := by
  simp [find_set, h]

theorem mem_keys_iff (m : Map κ α) (k : κ) : k ∈ keys m ↔ ∃ a, find m k = some a := by
  induction m with
  | nil => simp [keys]
  | cons x m ih =>
    obtain ⟨kx, ax⟩ := x
    simp only [keys, List.map_cons, List.mem_cons, find] at *
    by_cases h : kx = k
    · simp [h]
    · simp only [h, if_false]
      rw [← ih]
      constructor
      · rintro (h2 | h2)
        · exact absurd h2.symm h
        · exact h2
      · exact Or.inr

theorem find_eq_none_iff (m : Map κ α) (k : κ) : find m k = none ↔ k ∉ keys m := by
  rw [mem_keys_iff]
  cases find m k <;> simp

theorem find_of_mem (m : Map κ α) (h : WF m) {k : κ} {a : α} (hm : (k, a) ∈ m) :
    find m k = some a := by
  induction m with
  | nil => simp at hm
  | cons x m ih =>
    obtain ⟨kx, ax⟩ := x
    simp only [WF, keys, List.map_cons, List.nodup_cons] at h
    simp only [List.mem_cons, Prod.mk.injEq] at hm
    simp only [find]
    rcases hm with ⟨rfl, rfl⟩ | hm
    · simp
    · have : k ∈ keys m := List.mem_map.mpr ⟨_, hm, rfl⟩
      rw [if_neg (fun he => h.1 (by subst he; exact this))]
      exact ih h.2 hm

theorem mem_of_find (m : Map κ α) {k : κ} {a : α} (h : find m k = some a) : (k, a) ∈ m := by
  induction m with
  | nil => simp at h
  | cons x m ih =>
    obtain ⟨kx, ax⟩ := x
    simp only [find] at h
    split at h
    · rename_i hk
      subst hk
      simp at h
      simp [h]
    · exact List.mem_cons_of_mem _ (ih h)

theorem mem_iff_find (m : Map κ α) (h : WF m) (k : κ) (a : α) :
    (k, a) ∈ m ↔ find m k = some a :=
  ⟨find_of_mem m h, mem_of_find m⟩

omit [DecidableEq κ] in
@[simp] theorem keys_cons (x : κ × α) (m : Map κ α) : keys (x :: m) = x.1 :: keys m := rfl

omit [DecidableEq κ] in
@[simp] theorem keys_nil : keys ([] : Map κ α) = [] := rfl

theorem keys_set (m : Map κ α) (k : κ) (a : α) :
    keys (set m k a) = if k ∈ keys m then keys m else keys m ++ [k] := by
  induction m with
  | nil => simp [set]
  | cons x m ih =>
    obtain ⟨kx, ax⟩ := x
    simp only [set]
    by_cases h : kx = k
    · subst h
      simp
    · have h' : ¬ k = kx := fun e => h e.symm
      simp only [h, if_false, keys_cons, List.mem_cons, h', false_or]
      rw [ih]
      by_cases hk : k ∈ keys m
      · rw [if_pos hk, if_pos hk]
      · rw [if_neg hk, if_neg hk]; rfl

omit [DecidableEq κ] in
theorem wf_nil : WF ([] : Map κ α) := List.nodup_nil

theorem wf_set (m : Map κ α) (k : κ) (a : α) (h : WF m) : WF (set m k a) := by
  unfold WF at *
  rw [keys_set]
  split
  · exact h
  · rename_i hk
    rw [List.nodup_append]
    refine ⟨h, by simp, ?_⟩
    intro x hx y hy
    simp only [List.mem_singleton] at hy
    subst hy
    rintro rfl
    exact hk hx

theorem find_erase (m : Map κ α) (h : WF m) (k k' : κ) :
    find (erase m k) k' = if k = k' then none else find m k' := by
  induction m with
  | nil => simp [erase]
  | cons x m ih =>
    obtain ⟨kx, ax⟩ := x
    simp only [WF, keys, List.map_cons, List.nodup_cons] at h
    simp only [erase]
    by_cases hx : kx = k
    · subst hx
      simp only [if_true, find]
      by_cases hk : kx = k'
      · subst hk
        simp only [if_true]
        exact (find_eq_none_iff m kx).mpr h.1
      · simp [hk]
    · simp only [hx, if_false, find]
      rw [ih h.2]
      by_cases hk : kx = k'
      · subst hk
        have h2 : ¬ k = kx := fun e => hx e.symm
        simp [h2]
      · simp [hk]

theorem keys_erase (m : Map κ α) (k : κ) (h : WF m) :
    keys (erase m k) = (keys m).filter (fun x => !decide (x = k)) := by
  induction m with
  | nil => simp [erase, keys]
  | cons x m ih =>
    obtain ⟨kx, ax⟩ := x
    simp only [WF, keys, List.map_cons, List.nodup_cons] at h
    simp only [erase]
    by_cases hx : kx = k
    · subst hx
      simp only [if_true]
      simp only [keys, List.map_cons, List.filter_cons]
      simp only [decide_true, Bool.not_true, Bool.false_eq_true, if_false]
      symm
      rw [List.filter_eq_self]
      intro y hy
      simp only [Bool.not_eq_eq_eq_not, Bool.not_true, decide_eq_false_iff_not]
      rintro rfl
      exact h.1 hy
    · simp only [hx, if_false]
      have := ih h.2
      simp only [keys, List.map_cons, List.filter_cons] at *
      simp [hx, this]

theorem wf_erase (m : Map κ α) (k : κ) (h : WF m) : WF (erase m k) := by
  unfold WF
  rw [keys_erase m k h]
  exact List.Nodup.sublist List.filter_sublist h

theorem length_set_new (m : Map κ α) (k : κ) (a : α) (h : k ∉ keys m) :
    (set m k a).length = m.length + 1 := by
  have := congrArg List.length (keys_set m k a)
  rw [if_neg h] at this
  simpa [keys] using this

theorem length_set_old (m : Map κ α) (k : κ) (a : α) (h : k ∈ keys m) :
    (set m k a).length = m.length := by
  have := congrArg List.length (keys_set m k a)
  rw [if_pos h] at this
  simpa [keys] using this

/-- Two well-formed maps with the same lookups have the same entries. -/
theorem mem_congr (m n : Map κ α) (hm : WF m) (hn : WF n) (h : ∀ k, find m k = find n k)
    (x : κ × α) : x ∈ m ↔ x ∈ n := by
  obtain ⟨k, a⟩ := x
  rw [mem_iff_find m hm, mem_iff_find n hn, h]

end Map
end Vega
