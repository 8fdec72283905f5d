import Verif.Element.Springs
import Mathlib.Data.Nat.Digits.Lemmas
import Mathlib.Data.List.Perm.Basic
import Mathlib.Data.List.Basic

/-! # Splitting scalar springs keeps the springs (C70) -/
namespace Vega.SpringSpec
open SpringSplit

/-- Specification: a spring is a cell, the dofs it connects and its stiffness, damping and mass. -/
def springs (l : List SpringSet) : List (Nat × (Dof × Dof) × Dbl × Dbl × Dbl) :=
  l.flatMap fun s => s.cells.flatMap fun p => p.2.map fun c => (c, p.1, s.stiffness, s.damping, s.mass)

/-- A set that connects several pairs of dofs. -/
def mixed (s : SpringSet) : Bool := decide (1 < s.cells.length)

/-! ## helper lemmas -/

theorem digitChar_inj : ∀ a < 10, ∀ b < 10, Nat.digitChar a = Nat.digitChar b → a = b := by decide

theorem map_inj {f : Nat → Char} : ∀ (l m : List Nat), (∀ a ∈ l, a < 10) → (∀ a ∈ m, a < 10) →
    (∀ a < 10, ∀ b < 10, f a = f b → a = b) → l.map f = m.map f → l = m
  | [], [], _, _, _, _ => rfl
  | [], _ :: _, _, _, _, h => by simp at h
  | _ :: _, [], _, _, _, h => by simp at h
  | a :: l, b :: m, h1, h2, h3, h => by
    simp only [List.map_cons, List.cons.injEq] at h
    rw [h3 a (h1 a (by simp)) b (h2 b (by simp)) h.1,
      map_inj l m (fun x hx => h1 x (by simp [hx])) (fun x hx => h2 x (by simp [hx])) h3 h.2]

theorem decimal_inj {a b : Nat} (h : decimal a = decimal b) : a = b := by
  have h' := congrArg String.toList h
  simp only [decimal, String.toList_ofList] at h'
  have := map_inj _ _ (fun x hx => Nat.digits_lt_base (by norm_num) (List.mem_reverse.mp hx))
    (fun x hx => Nat.digits_lt_base (by norm_num) (List.mem_reverse.mp hx)) digitChar_inj h'
  exact Nat.digits_inj_iff.mp (List.reverse_injective this)

theorem groupName_inj {a b : Nat} (h : groupName a = groupName b) : a = b := by
  have h' := congrArg String.toList h
  simp only [groupName, String.toList_append, List.append_cancel_left_eq] at h'
  exact decimal_inj (String.toList_inj.mp h')

theorem find_erase_ne (m : Map String (List Nat)) {k k' : String} (h : k ≠ k') :
    (m.erase k).find k' = m.find k' := by
  induction m with
  | nil => rfl
  | cons x m ih =>
    obtain ⟨a, b⟩ := x
    simp only [Map.erase, Map.find]
    by_cases ha : a = k
    · subst ha; simp [h]
    · simp only [ha, if_false, Map.find, ih]

theorem springs_append (l m : List SpringSet) : springs (l ++ m) = springs l ++ springs m := by
  simp [springs]

theorem pairs_spec (k b : Dbl) (cs : List ((Dof × Dof) × List Nat)) :
    ∀ (i : Nat) (g : Map String (List Nat)) (new : List SpringSet),
    (∀ j, i ≤ j → g.find (groupName j) = none) →
    ∃ g' add, pairs k b cs i g new = .ok (g', new ++ add) ∧
      springs add = springs [⟨k, b, 0, cs, []⟩] ∧
      (∀ s ∈ add, s.cells.length = 1 ∧ ∃ j d c, i ≤ j ∧ s.groups = [groupName j] ∧ s.cells = [(d, c)] ∧
        g'.find (groupName j) = some c) ∧
      (∀ n, (∀ j, i ≤ j → n ≠ groupName j) → g'.find n = g.find n) ∧
      (cs ≠ [] → g'.find (groupName i) ≠ none) := by
  induction cs with
  | nil =>
    intro i g new _
    exact ⟨g, [], by simp [pairs], by simp [springs], by simp, by simp, by simp⟩
  | cons c cs ih =>
    intro i g new hg
    obtain ⟨d, c⟩ := c
    have h1 : ∀ j, i + 1 ≤ j → (g.set (groupName i) c).find (groupName j) = none := by
      intro j hj
      rw [Map.find_set, if_neg (fun h => by have := groupName_inj h; omega)]
      exact hg j (by omega)
    obtain ⟨g', add, h2, h3, h4, h5, _⟩ := ih (i + 1) (g.set (groupName i) c)
      (new ++ [⟨k, b, 0, [(d, c)], [groupName i]⟩]) h1
    have h6 : g'.find (groupName i) = some c := by
      rw [h5 _ (fun j hj h => by have := groupName_inj h; omega), Map.find_set_self]
    refine ⟨g', ⟨k, b, 0, [(d, c)], [groupName i]⟩ :: add, ?_, ?_, ?_, ?_, ?_⟩
    · unfold pairs
      rw [hg i (Nat.le_refl i)]
      simp only [Option.isSome_none, Bool.false_eq_true, if_false]
      rw [h2]
      simp
    · have : springs ((⟨k, b, 0, [(d, c)], [groupName i]⟩ : SpringSet) :: add) =
          springs [⟨k, b, 0, [(d, c)], [groupName i]⟩] ++ springs add := by
        rw [← springs_append]; rfl
      rw [this, h3]
      simp [springs]
    · intro s hs
      rcases List.mem_cons.mp hs with rfl | hs
      · exact ⟨rfl, i, d, c, Nat.le_refl i, rfl, rfl, h6⟩
      · obtain ⟨hl, j, d', c', hj, h⟩ := h4 s hs
        exact ⟨hl, j, d', c', by omega, h⟩
    · intro n hn
      rw [h5 n (fun j hj => hn j (by omega)), Map.find_set, if_neg (Ne.symm (hn i (Nat.le_refl i)))]
    · intro _
      rw [h6]
      simp

theorem sets_none (name : String) (l : List SpringSet) (h : ∀ s ∈ l, mixed s = false) :
    ∀ g new, sets name l g new = .ok (g, new) := by
  induction l with
  | nil => intro g new; rfl
  | cons s l ih =>
    intro g new
    have hs := h s (by simp)
    simp only [mixed, decide_eq_false_iff_not] at hs
    unfold sets
    rw [if_neg hs]
    exact ih (fun s hs => h s (List.mem_cons_of_mem _ hs)) g new

theorem pairs_throw (k b : Dbl) (cs : List ((Dof × Dof) × List Nat)) (hc : cs ≠ [])
    (g : Map String (List Nat)) (new : List SpringSet) (i : Nat) (h : g.find (groupName i) ≠ none) :
    pairs k b cs i g new = .throw := by
  cases cs with
  | nil => exact absurd rfl hc
  | cons c cs =>
    obtain ⟨d, c⟩ := c
    unfold pairs
    rw [if_pos (Option.isSome_iff_ne_none.mpr h)]

theorem sets_cons_false (name : String) (s : SpringSet) (l : List SpringSet)
    (hs : mixed s = false) (g : Map String (List Nat)) (new : List SpringSet) :
    sets name (s :: l) g new = sets name l g new := by
  simp only [mixed, decide_eq_false_iff_not] at hs
  conv => lhs; unfold sets
  rw [if_neg hs]

theorem sets_append_false (name : String) (l m : List SpringSet) (h : ∀ s ∈ l, mixed s = false)
    (g : Map String (List Nat)) (new : List SpringSet) :
    sets name (l ++ m) g new = sets name m g new := by
  induction l with
  | nil => rfl
  | cons s l ih =>
    rw [List.cons_append, sets_cons_false name s _ (h s (by simp))]
    exact ih (fun s hs => h s (List.mem_cons_of_mem _ hs))

/-! ## C70 -/

/-- **C70 (partial)** If only one set connects several pairs of dofs, this set has no mass, and neither
the groups of the mesh nor the model have one of the names `ElementSet_1`, `ElementSet_2`, ...: then
splitting succeeds, keeps exactly the springs of the model with their cells, dofs, stiffness, damping
and mass, leaves sets of at most one pair of dofs, keeps the other sets, gives each new set a group of
exactly its cells, and keeps the other groups, except a group with the name of the model. -/
theorem C70_partial (name : String) (g : Map String (List Nat)) (pre post : List SpringSet)
    (s : SpringSet) (hpre : ∀ s ∈ pre, mixed s = false) (hpost : ∀ s ∈ post, mixed s = false)
    (hs : mixed s = true) (hm : s.mass = 0) (hg : ∀ i, 1 ≤ i → g.find (groupName i) = none)
    (hn : ∀ i, 1 ≤ i → name ≠ groupName i) :
    ∃ g' l', run name g (pre ++ s :: post) = .ok (g', l') ∧
      (springs l').Perm (springs (pre ++ s :: post)) ∧
      (∀ s' ∈ l', mixed s' = false) ∧
      (∀ s' ∈ pre ++ post, s' ∈ l') ∧
      (∀ s' ∈ l', s' ∈ pre ++ post ∨ ∃ n d c, s'.groups = [n] ∧ s'.cells = [(d, c)] ∧ g'.find n = some c) ∧
      (∀ n, n ≠ name → (∀ i, 1 ≤ i → n ≠ groupName i) → g'.find n = g.find n) := by
  obtain ⟨g', add, h1, h2, h3, h4, _⟩ := pairs_spec s.stiffness s.damping s.cells 1 g [] hg
  have hs' : 1 < s.cells.length := by simpa [mixed] using hs
  have hrun : sets name (pre ++ s :: post) g [] = .ok (g'.erase name, add) := by
    rw [sets_append_false name pre _ hpre]
    unfold sets
    rw [if_pos hs', h1, Outcome.bind_ok]
    simp only [List.nil_append]
    exact sets_none name post hpost _ _
  have hfilter : (pre ++ s :: post).filter (fun s => !decide (1 < s.cells.length)) = pre ++ post := by
    rw [List.filter_append, List.filter_cons, if_neg (by simp [hs'])]
    congr 1
    · rw [List.filter_eq_self]; intro x hx; have := hpre x hx; simpa [mixed] using this
    · rw [List.filter_eq_self]; intro x hx; have := hpost x hx; simpa [mixed] using this
  refine ⟨g'.erase name, pre ++ post ++ add, ?_, ?_, ?_, ?_, ?_, ?_⟩
  · unfold run
    rw [hrun, Outcome.bind_ok]
    simp only [hfilter]
  · have e : springs (pre ++ s :: post) = springs pre ++ (springs [s] ++ springs post) := by
      rw [← springs_append, ← springs_append]; rfl
    have e2 : springs [s] = springs add := by
      rw [h2]; simp [springs, hm]
    rw [springs_append, springs_append, e, e2, List.append_assoc]
    exact List.Perm.append_left _ List.perm_append_comm
  · intro s' hs'
    rcases List.mem_append.mp hs' with h | h
    · rcases List.mem_append.mp h with h | h
      · exact hpre s' h
      · exact hpost s' h
    · simp [mixed, (h3 s' h).1]
  · intro s' hs'
    exact List.mem_append_left _ hs'
  · intro s' hs'
    rcases List.mem_append.mp hs' with h | h
    · exact Or.inl h
    · obtain ⟨_, j, d, c, hj, h5, h6, h7⟩ := h3 s' h
      refine Or.inr ⟨groupName j, d, c, h5, h6, ?_⟩
      rw [find_erase_ne _ (hn j hj), h7]
  · intro n hne h
    rw [find_erase_ne _ (Ne.symm hne), h4 n h]

/-- **C70** nothing is changed when no set connects several pairs of dofs. -/
theorem C70_unchanged (name : String) (g : Map String (List Nat)) (l : List SpringSet)
    (h : ∀ s ∈ l, mixed s = false) : run name g l = .ok (g, l) := by
  unfold run
  rw [sets_none name l h, Outcome.bind_ok]
  have : l.filter (fun s => !decide (1 < s.cells.length)) = l := by
    rw [List.filter_eq_self]; intro x hx; have := h x hx; simpa [mixed] using this
  simp [this]

/-- **C70 is false of the code** as soon as two sets connect several pairs of dofs: the names of the
groups of the second are those of the first, and the translation ends with an exception. -/
theorem C70_two_false (name : String) (g : Map String (List Nat)) (pre mid post : List SpringSet)
    (s t : SpringSet) (hpre : ∀ s ∈ pre, mixed s = false) (hmid : ∀ s ∈ mid, mixed s = false)
    (hs : mixed s = true) (ht : mixed t = true) (hn : name ≠ groupName 1) :
    run name g (pre ++ s :: (mid ++ t :: post)) = .throw := by
  have hs' : 1 < s.cells.length := by simpa [mixed] using hs
  have ht' : 1 < t.cells.length := by simpa [mixed] using ht
  have key : sets name (pre ++ s :: (mid ++ t :: post)) g [] = .throw := by
    rw [sets_append_false name pre _ hpre]
    unfold sets
    rw [if_pos hs']
    have hcase : pairs s.stiffness s.damping s.cells 1 g [] = .throw ∨
        ∃ g' new, pairs s.stiffness s.damping s.cells 1 g [] = .ok (g', new) ∧
          g'.find (groupName 1) ≠ none := by
      have gen : ∀ (cs : List ((Dof × Dof) × List Nat)) (i : Nat) (g : Map String (List Nat))
          (new : List SpringSet), pairs s.stiffness s.damping cs i g new = .throw ∨
          ∃ g' new', pairs s.stiffness s.damping cs i g new = .ok (g', new') ∧
            ∀ n, g.find n ≠ none → g'.find n ≠ none := by
        intro cs
        induction cs with
        | nil => intro i g new; exact Or.inr ⟨g, new, rfl, fun _ h => h⟩
        | cons c cs ih =>
          intro i g new
          obtain ⟨d, c⟩ := c
          unfold pairs
          by_cases h : (g.find (groupName i)).isSome = true
          · rw [if_pos h]; exact Or.inl rfl
          · rw [if_neg h]
            rcases ih (i + 1) (g.set (groupName i) c) (new ++ [⟨s.stiffness, s.damping, 0, [(d, c)],
              [groupName i]⟩]) with h' | ⟨g', new', h', h''⟩
            · exact Or.inl h'
            · refine Or.inr ⟨g', new', h', fun n hne => h'' n ?_⟩
              rw [Map.find_set]
              split
              · simp
              · exact hne
      cases hc : s.cells with
      | nil => rw [hc] at hs'; simp at hs'
      | cons c cs =>
        obtain ⟨d, c⟩ := c
        unfold pairs
        by_cases h : (g.find (groupName 1)).isSome = true
        · rw [if_pos h]; exact Or.inl rfl
        · rw [if_neg h]
          rcases gen cs (1 + 1) (g.set (groupName 1) c) ([] ++ [⟨s.stiffness, s.damping, 0, [(d, c)],
            [groupName 1]⟩]) with h' | ⟨g', new', h', h''⟩
          · exact Or.inl h'
          · refine Or.inr ⟨g', new', h', h'' _ ?_⟩
            rw [Map.find_set_self]
            simp
    rcases hcase with h | ⟨g', new, h, h1⟩
    · rw [h]; rfl
    · rw [h, Outcome.bind_ok]
      simp only
      rw [sets_append_false name mid _ hmid]
      unfold sets
      rw [if_pos ht', pairs_throw]
      · rfl
      · intro hc; rw [hc] at ht'; simp at ht'
      · rw [find_erase_ne _ hn]; exact h1
  unfold run
  rw [key]
  rfl

/-- **C70 is false of the code** for masses: the springs made by splitting a set have none. -/
theorem C70_mass_false (name : String) (g : Map String (List Nat)) (s : SpringSet)
    (hs : mixed s = true) (hg : ∀ i, 1 ≤ i → g.find (groupName i) = none) :
    ∃ g' l', run name g [s] = .ok (g', l') ∧ ∀ x ∈ springs l', x.2.2.2.2 = 0 := by
  obtain ⟨g', add, h1, h2, _⟩ := pairs_spec s.stiffness s.damping s.cells 1 g [] hg
  have hs' : 1 < s.cells.length := by simpa [mixed] using hs
  refine ⟨g'.erase name, add, ?_, ?_⟩
  · unfold run sets
    rw [if_pos hs', h1, Outcome.bind_ok]
    simp [sets, hs']
  · rw [h2]
    intro x hx
    simp only [springs, List.flatMap_cons, List.flatMap_nil, List.append_nil, List.mem_flatMap,
      List.mem_map] at hx
    obtain ⟨p, _, c, _, rfl⟩ := hx
    rfl

-- two springs along X and one along Y with the same property, and a set with one direction
example : ∃ g' l', run "model" [] ([⟨1, 0, 0, [((.DZ, .DZ), [7])], []⟩] ++
    ⟨5, 2, 0, [((.DX, .DX), [1, 2]), ((.DY, .DY), [3])], []⟩ :: []) = .ok (g', l') ∧ l'.length = 3 :=
  ⟨_, _, rfl, rfl⟩

example : mixed ⟨5, 2, 0, [((.DX, .DX), [1, 2]), ((.DY, .DY), [3])], []⟩ = true := rfl

end Vega.SpringSpec
