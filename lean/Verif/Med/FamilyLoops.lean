import Verif.Med.FamilyLemmas
import Verif.Mesh.CellProps
import Mathlib.Data.List.Perm.Basic

/-! # Lemmas for C94: the loops over groups -/
namespace Vega.Med

section Generic
variable {κ : Type} [DecidableEq κ]

/-- A loop over the members of a group, the numbers being a function. -/
def memberLoop (σ : Int) (label group : Text) : List κ → (κ → Int) → Numbering → (κ → Int) × Numbering
  | [], F, s => (F, s)
  | k :: ks, F, s =>
    let r := newFamily σ label group (F k) s
    memberLoop σ label group ks (Function.update F k r.1) r.2

/-- A loop over the groups. -/
def groupLoop (σ : Int) (label : Text) : List (Text × List κ) → (κ → Int) → Numbering → (κ → Int) × Numbering
  | [], F, s => (F, s)
  | (name, ks) :: gs, F, s =>
    let r := memberLoop σ label name ks F { s with byOld := [] }
    groupLoop σ label gs r.1 r.2

theorem memberLoop_spec {σ : Int} (hσ : σ = 1 ∨ σ = -1) {label : Text} {past : List Text} {g : Text} (ks : List κ) :
    ∀ (F : κ → Int) (s : Numbering), ks.Nodup → Good σ label past g s → (∀ k, Known s (F k)) →
    Good σ label past g (memberLoop σ label g ks F s).2 ∧
    (∀ k, Known (memberLoop σ label g ks F s).2 ((memberLoop σ label g ks F s).1 k)) ∧
    (∀ n, Known s n → groupsOf (memberLoop σ label g ks F s).2 n = groupsOf s n) ∧
    (∀ k, groupsOf (memberLoop σ label g ks F s).2 ((memberLoop σ label g ks F s).1 k) =
      groupsOf s (F k) ++ if k ∈ ks then [g] else []) := by
  induction ks with
  | nil =>
    intro F s _ h hF
    exact ⟨h, hF, fun _ _ => rfl, fun k => by simp [memberLoop]⟩
  | cons k ks ih =>
    intro F s hnd h hF
    obtain ⟨h1, h2, h3, h4⟩ := newFamily_spec hσ h (hF k)
    have hnd' := List.nodup_cons.mp hnd
    have hF' : ∀ j, Known (newFamily σ label g (F k) s).2 (Function.update F k (newFamily σ label g (F k) s).1 j) := by
      intro j
      by_cases hj : j = k
      · subst hj; simpa using h2
      · rw [Function.update_of_ne hj]
        exact (h4 _ (hF j)).1
    obtain ⟨i1, i2, i3, i4⟩ := ih _ _ hnd'.2 h1 hF'
    refine ⟨i1, i2, ?_, ?_⟩
    · intro n hn
      simp only [memberLoop]
      rw [i3 n (h4 n hn).1, (h4 n hn).2]
    · intro j
      simp only [memberLoop]
      rw [i4 j]
      by_cases hj : j = k
      · subst hj
        simp [hnd'.1, h3]
      · rw [Function.update_of_ne hj, (h4 _ (hF j)).2]
        simp [hj]

/-- What `groupLoop` keeps, for the groups of `past` and the ones to come. -/
theorem groupLoop_spec {σ : Int} (hσ : σ = 1 ∨ σ = -1) {label : Text} (gs : List (Text × List κ)) :
    ∀ (past : List Text) (g : Text) (F : κ → Int) (s : Numbering), (past ++ [g] ++ gs.map (·.1)).Nodup →
    (∀ e ∈ gs, e.2.Nodup) → Good σ label past g s → (∀ k, Known s (F k)) →
    (∃ past' g', past' ++ [g'] = past ++ [g] ++ gs.map (·.1) ∧
      Good σ label past' g' (groupLoop σ label gs F s).2) ∧
    (∀ k, Known (groupLoop σ label gs F s).2 ((groupLoop σ label gs F s).1 k)) ∧
    (∀ k, groupsOf (groupLoop σ label gs F s).2 ((groupLoop σ label gs F s).1 k) =
      groupsOf s (F k) ++ (gs.filter fun e => k ∈ e.2).map (·.1)) := by
  induction gs with
  | nil =>
    intro past g F s _ _ h hF
    exact ⟨⟨past, g, by simp, h⟩, hF, fun k => by simp [groupLoop]⟩
  | cons e gs ih =>
    intro past g F s hnd hks h hF
    obtain ⟨name, ks⟩ := e
    have hnew : name ∉ past ++ [g] := by
      intro hc
      rw [List.nodup_append] at hnd
      exact hnd.2.2 name hc name (by simp) rfl
    have h0 := good_next h hnew
    have hF0 : ∀ k, Known { s with byOld := [] } (F k) := hF
    obtain ⟨m1, m2, _, m4⟩ := memberLoop_spec hσ ks F _ (hks (name, ks) (by simp)) h0 hF0
    obtain ⟨i1, i2, i3⟩ := ih (past ++ [g]) name _ _ (by simpa using hnd) (fun e he => hks e (by simp [he])) m1 m2
    refine ⟨?_, i2, ?_⟩
    · obtain ⟨p, g', e1, e2⟩ := i1
      exact ⟨p, g', by rw [e1]; simp, e2⟩
    · intro k
      simp only [groupLoop]
      rw [i3 k, m4 k, List.append_assoc]
      congr 1
      by_cases hk : k ∈ ks <;> simp [hk]

/-- The same from the beginning. -/
theorem groupLoop_init {σ : Int} (hσ : σ = 1 ∨ σ = -1) {label : Text} (gs : List (Text × List κ))
    (hne : gs ≠ []) (hnd : (gs.map (·.1)).Nodup) (hks : ∀ e ∈ gs, e.2.Nodup) :
    (∃ past' g', past' ++ [g'] = gs.map (·.1) ∧
      Good σ label past' g' (groupLoop σ label gs (fun _ => 0) Numbering.init).2) ∧
    (∀ k, Known (groupLoop σ label gs (fun _ => 0) Numbering.init).2
      ((groupLoop σ label gs (fun _ => 0) Numbering.init).1 k)) ∧
    (∀ k, groupsOf (groupLoop σ label gs (fun _ => 0) Numbering.init).2
      ((groupLoop σ label gs (fun _ => 0) Numbering.init).1 k) = (gs.filter fun e => k ∈ e.2).map (·.1)) := by
  cases gs with
  | nil => exact absurd rfl hne
  | cons e gs =>
    obtain ⟨name, ks⟩ := e
    have hF : ∀ k : κ, Known Numbering.init ((fun _ => 0 : κ → Int) k) := fun _ => .inl rfl
    obtain ⟨m1, m2, _, m4⟩ := memberLoop_spec hσ ks (fun _ => 0) _ (hks (name, ks) (by simp))
      (good_init σ label name) hF
    obtain ⟨i1, i2, i3⟩ := groupLoop_spec hσ (label := label) gs [] name _ _ (by simpa using hnd)
      (fun e he => hks e (by simp [he])) m1 m2
    have e0 : groupLoop σ label ((name, ks) :: gs) (fun _ => 0) Numbering.init =
        groupLoop σ label gs (memberLoop σ label name ks (fun _ => 0) Numbering.init).1
          (memberLoop σ label name ks (fun _ => 0) Numbering.init).2 := rfl
    rw [e0]
    refine ⟨?_, i2, ?_⟩
    · obtain ⟨p, g', e1, e2⟩ := i1
      exact ⟨p, g', by rw [e1]; simp, e2⟩
    · intro k
      rw [i3 k, m4 k]
      have : groupsOf Numbering.init 0 = [] := rfl
      rw [this]
      by_cases hk : k ∈ ks <;> simp [hk]

end Generic

/-! ## The families -/

theorem mem_familiesInUse {byId : Map Int Family} {ids : List Int} {f : Family}
    (hk : ∀ n ∈ ids, n = 0 ∨ ∃ f, byId.find n = some f) :
    f ∈ familiesInUse byId ids ↔ ∃ n ∈ ids, n ≠ 0 ∧ byId.find n = some f := by
  unfold familiesInUse
  simp only [List.mem_map, List.mem_filter, List.mem_insertionSort, List.mem_dedup, decide_eq_true_eq]
  constructor
  · rintro ⟨n, ⟨h1, h2⟩, h3⟩
    refine ⟨n, h1, h2, ?_⟩
    rcases hk n h1 with h | ⟨f', h⟩
    · exact absurd h h2
    · simp only [familyOf, h] at h3
      rw [h, h3]
  · rintro ⟨n, h1, h2, h3⟩
    exact ⟨n, ⟨h1, h2⟩, by simp [familyOf, h3]⟩

theorem nums_familiesInUse {byId : Map Int Family} {ids : List Int}
    (hk : ∀ n ∈ ids, n = 0 ∨ ∃ f, byId.find n = some f) (hnum : ∀ n f, byId.find n = some f → f.num = n) :
    ((familiesInUse byId ids).map (·.num)).Nodup := by
  unfold familiesInUse
  rw [List.map_map]
  have e : ∀ n ∈ (ids.dedup.insertionSort (· ≤ ·)).filter (· ≠ 0), ((·.num) ∘ familyOf byId) n = n := by
    intro n hn
    simp only [List.mem_filter, List.mem_insertionSort, List.mem_dedup, decide_eq_true_eq] at hn
    rcases hk n hn.1 with h | ⟨f', h⟩
    · exact absurd h hn.2
    · simp only [Function.comp, familyOf, h]
      exact hnum n f' h
  have := List.map_congr_left e
  simp only [List.map_id'] at this
  rw [this]
  exact ((List.perm_insertionSort _ _).nodup_iff.mpr (List.nodup_dedup ids)).filter _

theorem names_familiesInUse {byId : Map Int Family} {ids : List Int}
    (hk : ∀ n ∈ ids, n = 0 ∨ ∃ f, byId.find n = some f)
    (hinj : ∀ i j f f', byId.find i = some f → byId.find j = some f' → f.name = f'.name → i = j) :
    ((familiesInUse byId ids).map (·.name)).Nodup := by
  unfold familiesInUse
  rw [List.map_map]
  refine List.Nodup.map_on ?_ (((List.perm_insertionSort _ _).nodup_iff.mpr (List.nodup_dedup ids)).filter _)
  intro i hi j hj hij
  simp only [List.mem_filter, List.mem_insertionSort, List.mem_dedup, decide_eq_true_eq] at hi hj
  rcases hk i hi.1 with h | ⟨f, h⟩
  · exact absurd h hi.2
  rcases hk j hj.1 with h' | ⟨f', h'⟩
  · exact absurd h' hj.2
  simp only [Function.comp, familyOf, h, h'] at hij
  exact hinj i j f f' h h' hij

/-! ## Nodes -/

theorem nodeLoop_eq (g : Text) (ps : List Nat) : ∀ (nodes : List Int) (F : Nat → Int) (s : Numbering),
    (∀ p ∈ ps, p < nodes.length) → (∀ p, p < nodes.length → nodes[p]? = some (F p)) →
    ∃ nodes', nodeLoop g ps nodes s = .ok (nodes', (memberLoop 1 "Family".toList g ps F s).2) ∧
      nodes'.length = nodes.length ∧
      ∀ p, p < nodes.length → nodes'[p]? = some ((memberLoop 1 "Family".toList g ps F s).1 p) := by
  induction ps with
  | nil =>
    intro nodes F s _ h
    exact ⟨nodes, rfl, rfl, h⟩
  | cons p ps ih =>
    intro nodes F s hlt h
    have hp := hlt p (by simp)
    have hF : ∀ q, q < (nodes.set p (newFamily 1 "Family".toList g (F p) s).1).length →
        (nodes.set p (newFamily 1 "Family".toList g (F p) s).1)[q]? =
          some (Function.update F p (newFamily 1 "Family".toList g (F p) s).1 q) := by
      intro q hq
      rw [List.length_set] at hq
      by_cases hqp : q = p
      · subst hqp
        simp [hp]
      · rw [List.getElem?_set_ne (Ne.symm hqp), Function.update_of_ne hqp]
        exact h q hq
    obtain ⟨nodes', e1, e2, e3⟩ := ih _ _ (newFamily 1 "Family".toList g (F p) s).2
      (fun q hq => by rw [List.length_set]; exact hlt q (by simp [hq])) hF
    rw [List.length_set] at e2 e3
    refine ⟨nodes', ?_, e2, e3⟩
    simp only [nodeLoop, h p hp]
    exact e1

theorem nodeGroupsLoop_eq (gs : List (Text × List Nat)) : ∀ (nodes : List Int) (F : Nat → Int) (s : Numbering),
    (∀ e ∈ gs, ∀ p ∈ e.2, p < nodes.length) → (∀ p, p < nodes.length → nodes[p]? = some (F p)) →
    ∃ nodes', nodeGroupsLoop gs nodes s = .ok (nodes', (groupLoop 1 "Family".toList gs F s).2) ∧
      nodes'.length = nodes.length ∧
      ∀ p, p < nodes.length → nodes'[p]? = some ((groupLoop 1 "Family".toList gs F s).1 p) := by
  induction gs with
  | nil =>
    intro nodes F s _ h
    exact ⟨nodes, rfl, rfl, h⟩
  | cons e gs ih =>
    intro nodes F s hlt h
    obtain ⟨name, ps⟩ := e
    obtain ⟨n1, e1, e2, e3⟩ := nodeLoop_eq name ps nodes F { s with byOld := [] } (hlt _ List.mem_cons_self) h
    obtain ⟨n2, f1, f2, f3⟩ := ih n1 _ (memberLoop 1 "Family".toList name ps F { s with byOld := [] }).2
      (fun e he p hp => by rw [e2]; exact hlt e (List.mem_cons_of_mem _ he) p hp) (by rw [e2]; exact e3)
    rw [e2] at f2 f3
    refine ⟨n2, ?_, f2, f3⟩
    simp only [nodeGroupsLoop, e1, Outcome.bind_ok]
    exact f1

end Vega.Med
