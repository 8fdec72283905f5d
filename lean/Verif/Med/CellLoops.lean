import Verif.Med.FamilyLoops

/-! # Lemmas for C94: cells -/
namespace Vega.Med
open Vega.CellSpec

/-- The place of a cell among the cells of its type. -/
def place (g : List Given) (p : Nat) (t : CellType) : Nat := (ofType (g.take p) t).length

theorem place_lt {g : List Given} {p q : Nat} {c : Given} (hc : g[p]? = some c) (h : p < q) :
    place g p c.type < place g q c.type := by
  have hlt : p < g.length := by
    by_contra hn
    rw [List.getElem?_eq_none (by omega)] at hc
    cases hc
  have e : g.take (p + 1) = g.take p ++ [c] := by
    rw [List.take_succ, hc]
    rfl
  have h1 : place g (p + 1) c.type = place g p c.type + 1 := by
    unfold place
    rw [e, ofType_append, if_pos rfl]
    simp
  have h2 : g.take q = g.take (p + 1) ++ (g.take q).drop (p + 1) := by
    conv_lhs => rw [← List.take_append_drop (p + 1) (g.take q)]
    rw [List.take_take, Nat.min_eq_left (by omega)]
  have h3 : place g (p + 1) c.type ≤ place g q c.type := by
    unfold place
    rw [h2]
    simp [ofType]
  omega

theorem place_inj {g : List Given} {p q : Nat} {c d : Given} (hc : g[p]? = some c) (hd : g[q]? = some d)
    (ht : c.type = d.type) (h : place g p c.type = place g q d.type) : p = q := by
  rcases Nat.lt_trichotomy p q with hlt | rfl | hlt
  · have := place_lt hc hlt
    rw [h, ht] at this
    omega
  · rfl
  · have := place_lt hd hlt
    rw [← h, ht] at this
    omega

theorem place_surj (g : List Given) (t : CellType) : ∀ i, i < (ofType g t).length →
    ∃ p c, g[p]? = some c ∧ c.type = t ∧ place g p t = i := by
  induction g using List.reverseRecOn with
  | nil => intro i h; simp [ofType] at h
  | append_singleton g c ih =>
    intro i h
    rw [ofType_append] at h
    by_cases ht : c.type = t
    · rw [if_pos ht] at h
      simp only [List.length_append, List.length_singleton] at h
      by_cases hi : i < (ofType g t).length
      · obtain ⟨p, d, h1, h2, h3⟩ := ih i hi
        have hp : p < g.length := by
          by_contra hn
          rw [List.getElem?_eq_none (by omega)] at h1
          cases h1
        refine ⟨p, d, ?_, h2, ?_⟩
        · rw [List.getElem?_append_left hp, h1]
        · unfold place at h3 ⊢
          rw [List.take_append_of_le_length (by omega), h3]
      · refine ⟨g.length, c, by simp, ht, ?_⟩
        unfold place
        rw [List.take_left]
        omega
    · rw [if_neg ht] at h
      obtain ⟨p, d, h1, h2, h3⟩ := ih i h
      have hp : p < g.length := by
        by_contra hn
        rw [List.getElem?_eq_none (by omega)] at h1
        cases h1
      refine ⟨p, d, ?_, h2, ?_⟩
      · rw [List.getElem?_append_left hp, h1]
      · unfold place at h3 ⊢
        rw [List.take_append_of_le_length (by omega), h3]

/-- The families by type stand for a function of the positions. -/
structure Stands (g : List Given) (fams : CellFamilies) (F : Nat → Int) : Prop where
  at_ : ∀ (p : Nat) (c : Given), g[p]? = some c → ∃ l, fams c.type = some l ∧ l[place g p c.type]? = some (F p)
  size : ∀ t l, fams t = some l → l.length = (ofType g t).length

theorem stands_init {m : Mesh} {g : List Given} (h : CInv m g) : Stands g (initialFamilies m) fun _ => 0 := by
  refine ⟨?_, ?_⟩
  · intro p c hc
    have hk := ofType_get g p c hc
    have hlt : place g p c.type < (ofType g c.type).length := by
      by_contra hn
      rw [List.getElem?_eq_none (by unfold place at hn; omega)] at hk
      cases hk
    have hn : m.countCellsOfType c.type = (ofType g c.type).length := h.countType c.type
    refine ⟨List.replicate (m.countCellsOfType c.type) 0, ?_, ?_⟩
    · unfold initialFamilies
      rw [if_pos (by omega)]
    · rw [hn]
      simp [hlt]
  · intro t l hl
    unfold initialFamilies at hl
    split at hl
    · simp only [Option.some.injEq] at hl
      rw [← hl, List.length_replicate]
      exact h.countType t
    · cases hl

/-- `findCell` gives the place. -/
theorem findCell_place {m : Mesh} {g : List Given} (h : CInv m g) (p : Nat) (c : Given) (hc : g[p]? = some c) :
    ∃ v, m.findCell p = .ok v ∧ v.type = c.type ∧ v.typePos = place g p c.type := by
  obtain ⟨v, hv, _, ht, _⟩ := findCell_spec h p c hc
  refine ⟨v, hv, ht, ?_⟩
  unfold Mesh.findCell at hv
  rw [h.datas p c hc] at hv
  simp only at hv
  split at hv
  · cases hv
  · split at hv
    · cases hv
    · rename_i l _ _
      cases e1 : Mesh.readIds m.nodes ((l.drop ((ofType (g.take p) c.type).length * c.type.numNodes)).take c.type.numNodes) with
      | ok is =>
        rw [e1] at hv
        simp only [Outcome.bind_ok] at hv
        cases e2 : m.readOffset c.type (ofType (g.take p) c.type).length with
        | ok o =>
          rw [e2] at hv
          simp only [Outcome.bind_ok, Outcome.ok.injEq] at hv
          rw [← hv]
          rfl
        | _ => rw [e2] at hv; simp at hv
      | _ => rw [e1] at hv; simp at hv

/-- The family of a cell is changed. -/
theorem stands_set {g : List Given} {fams : CellFamilies} {F : Nat → Int} (hs : Stands g fams F) {p : Nat} {c : Given}
    (hc : g[p]? = some c) {l : List Int} (hl : fams c.type = some l) (hlp : l[place g p c.type]? = some (F p)) (n : Int) :
    Stands g (Mesh.upd fams c.type (some (l.set (place g p c.type) n))) (Function.update F p n) := by
  refine ⟨?_, ?_⟩
  · intro q d hd
    by_cases ht : d.type = c.type
    · refine ⟨l.set (place g p c.type) n, ?_, ?_⟩
      · simp [Mesh.upd, ht]
      · have hplt : place g p c.type < l.length := by
          by_contra hn
          rw [List.getElem?_eq_none (by omega)] at hlp
          cases hlp
        by_cases hqp : q = p
        · subst hqp
          have hdc : d = c := Option.some.inj (hd.symm.trans hc)
          subst hdc
          simp [hplt]
        · have hne : place g p c.type ≠ place g q d.type := by
            intro he
            exact hqp (place_inj hc hd ht.symm he).symm
          rw [List.getElem?_set_ne hne, Function.update_of_ne hqp]
          obtain ⟨l', hl', hlp'⟩ := hs.at_ q d hd
          rw [ht, hl] at hl'
          rw [Option.some.inj hl']
          exact hlp'
    · obtain ⟨l', hl', hlp'⟩ := hs.at_ q d hd
      refine ⟨l', ?_, ?_⟩
      · simp only [Mesh.upd, if_neg ht]
        exact hl'
      · rw [Function.update_of_ne]
        · exact hlp'
        · rintro rfl
          exact ht (by rw [Option.some.inj (hd.symm.trans hc)])
  · intro t l' hl'
    by_cases ht : t = c.type
    · subst ht
      simp only [Mesh.upd, if_true, Option.some.injEq] at hl'
      rw [← hl', List.length_set]
      exact hs.size _ l hl
    · simp only [Mesh.upd, if_neg ht] at hl'
      exact hs.size t l' hl'

theorem cellLoop_eq {m : Mesh} {g : List Given} (h : CInv m g) (name : Text) (ps : List (Option Nat)) :
    ∀ (fams : CellFamilies) (F : Nat → Int) (s : Numbering),
    (∀ p, some p ∈ ps → p < g.length) → Stands g fams F →
    ∃ fams', cellLoop m name ps fams s =
        .ok (fams', (memberLoop (-1) "CELLFamily".toList name (ps.filterMap id) F s).2) ∧
      Stands g fams' (memberLoop (-1) "CELLFamily".toList name (ps.filterMap id) F s).1 := by
  induction ps with
  | nil =>
    intro fams F s _ hs
    exact ⟨fams, rfl, hs⟩
  | cons p ps ih =>
    intro fams F s hlt hs
    cases p with
    | none =>
      obtain ⟨f', e1, e2⟩ := ih fams F s (fun p hp => hlt p (by simp [hp])) hs
      exact ⟨f', by simpa [cellLoop] using e1, by simpa using e2⟩
    | some p =>
      have hp := hlt p (by simp)
      obtain ⟨c, hc⟩ : ∃ c, g[p]? = some c := ⟨g[p], List.getElem?_eq_getElem hp⟩
      obtain ⟨v, hv, hvt, hvp⟩ := findCell_place h p c hc
      obtain ⟨l, hl, hlp⟩ := hs.at_ p c hc
      have hs' := stands_set hs hc hl hlp (newFamily (-1) "CELLFamily".toList name (F p) s).1
      obtain ⟨f', e1, e2⟩ := ih _ _ (newFamily (-1) "CELLFamily".toList name (F p) s).2
        (fun q hq => hlt q (by simp [hq])) hs'
      refine ⟨f', ?_, e2⟩
      simp only [cellLoop, hv, Outcome.bind_ok, hvt, hl, hvp, hlp]
      exact e1

/-- The available positions of the groups. -/
def available (gs : List (Text × List (Option Nat))) : List (Text × List Nat) :=
  gs.map fun e => (e.1, e.2.filterMap id)

theorem cellGroupsLoop_eq {m : Mesh} {g : List Given} (h : CInv m g) (gs : List (Text × List (Option Nat))) :
    ∀ (fams : CellFamilies) (F : Nat → Int) (s : Numbering),
    (∀ e ∈ gs, ∀ p, some p ∈ e.2 → p < g.length) → Stands g fams F →
    ∃ fams', cellGroupsLoop m gs fams s =
        .ok (fams', (groupLoop (-1) "CELLFamily".toList (available gs) F s).2) ∧
      Stands g fams' (groupLoop (-1) "CELLFamily".toList (available gs) F s).1 := by
  induction gs with
  | nil =>
    intro fams F s _ hs
    exact ⟨fams, rfl, hs⟩
  | cons e gs ih =>
    intro fams F s hlt hs
    obtain ⟨name, ps⟩ := e
    obtain ⟨f1, e1, e2⟩ := cellLoop_eq h name ps fams F { s with byOld := [] }
      (fun p hp => hlt (name, ps) List.mem_cons_self p hp) hs
    obtain ⟨f2, e3, e4⟩ := ih f1 _ (memberLoop (-1) "CELLFamily".toList name (ps.filterMap id) F { s with byOld := [] }).2
      (fun e he p hp => hlt e (List.mem_cons_of_mem _ he) p hp) e2
    refine ⟨f2, ?_, e4⟩
    simp only [cellGroupsLoop, e1, Outcome.bind_ok]
    exact e3

/-- The numbers in use are those of the cells. -/
theorem mem_usedNumbers {g : List Given} {fams : CellFamilies} {F : Nat → Int} (hs : Stands g fams F) (n : Int)
    (hn : n ∈ usedNumbers fams) : ∃ p < g.length, F p = n := by
  unfold usedNumbers at hn
  obtain ⟨t, _, ht⟩ := List.mem_flatMap.mp hn
  split at ht
  · rename_i l hl
    obtain ⟨i, hi, hil⟩ := List.mem_iff_getElem.mp ht
    have hi' : i < (ofType g t).length := by rw [← hs.size t l hl]; exact hi
    obtain ⟨p, c, h1, h2, h3⟩ := place_surj g t i hi'
    have hp : p < g.length := by
      by_contra hc
      rw [List.getElem?_eq_none (by omega)] at h1
      cases h1
    subst h2
    obtain ⟨l', e1, e2⟩ := hs.at_ p c h1
    rw [hl] at e1
    rw [← Option.some.inj e1, h3, List.getElem?_eq_getElem hi, hil] at e2
    exact ⟨p, hp, (Option.some.inj e2).symm⟩
  · simp at ht

theorem allTypes_complete (t : CellType) : t ∈ allTypes := by
  cases t with
  | poly n => simp [allTypes]
  | _ => simp [allTypes]

theorem usedNumbers_mem {g : List Given} {fams : CellFamilies} {F : Nat → Int} (hs : Stands g fams F) {p : Nat}
    (hp : p < g.length) : F p ∈ usedNumbers fams := by
  obtain ⟨l, h1, h2⟩ := hs.at_ p g[p] (List.getElem?_eq_getElem hp)
  unfold usedNumbers
  refine List.mem_flatMap.mpr ⟨g[p].type, allTypes_complete _, ?_⟩
  rw [h1]
  exact List.mem_of_getElem? h2

end Vega.Med
