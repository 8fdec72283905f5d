import Verif.Aster.Gaps
import Verif.Aster.ConstraintProps
import Mathlib.Tactic.Linarith

/-! # Gaps between nodes (C103) -/
namespace Vega.AsterSpec
open Aster Med
open NastranWrite (V3)

/-! ## Specification -/

/-- The scalar product of a displacement with a direction. -/
def along (u : Dof → Dbl) (v : V3) : Dbl := v.x * u .DX + v.y * u .DY + v.z * u .DZ

/-- The opening that a card gives to a property. -/
def given (pid : Int) : GapCard → Option Dbl
  | .pgap q u0 => if q = pid then some u0 else none
  | .cgap _ _ _ => none

/-- The opening that the cards give to a property: the last one, 0 without a card PGAP. -/
def openingOf (pid : Int) (cards : List GapCard) : Dbl :=
  match (cards.filterMap (given pid)).getLast? with
  | some u0 => u0
  | none => 0

/-- What the cards demand of a field: along the line from `ga` to `gb`, the first node comes no closer to the second
than the opening allows. -/
def GapsHold (dir : Nat → Nat → V3) (cards : List GapCard) (u : Field) : Prop :=
  ∀ pid ga gb, .cgap pid ga gb ∈ cards →
    along (u ga) (dir ga gb) - along (u gb) (dir ga gb) ≤ openingOf pid cards

/-- The value of a name in the command file: the last assignment counts, and without one there is none. -/
def valueOf (consts : List (Text × Dbl)) (name : Text) : Option Dbl :=
  (consts.reverse.find? fun a => a.1 = name).map fun a => a.2

/-- What a zone demands of a field: the combination of the displacements of the node is at most the given value. Names
without a value and lists that do not fit together demand the impossible. -/
def ZoneHolds (consts : List (Text × Dbl)) (u : Field) (z : Zone) : Prop :=
  ∃ (n : Nat) (b : Dbl) (l : List (Dof × Dbl)), z.noeud = medName 'N' n ∧ valueOf consts z.coefImpo = some b ∧
    z.coefMult.mapM (valueOf consts) = some (l.map fun t => t.2) ∧ z.nomCmp.mapM ddl? = some (l.map fun t => t.1) ∧
    (l.map fun t => t.2 * u n t.1).sum ≤ b

/-! ## Names and values -/

theorem constName_inj {s : Nat} {t t' : Text} {k k' : Nat} (h : constName s t k = constName s t' k') :
    t ++ decimal k = t' ++ decimal k' := by
  unfold constName at h
  simpa using h

theorem digit_head (k : Nat) (c : Char) (hc : c.isDigit = false) (l : List Char) : decimal k ≠ c :: l := by
  intro h
  have hm : c ∈ decimal k := by rw [h]; simp
  have e : decimal k = Nat.toDigits 10 k := by simp [decimal, Nat.repr]
  rw [e] at hm
  rw [Nat.isDigit_of_mem_toDigits (by omega) (by omega) hm] at hc
  cases hc

/-- The tags of the four constants. -/
def tags : List Text := [['I'], ['M', 'X'], ['M', 'Y'], ['M', 'Z']]

theorem constName_eq {s : Nat} {t t' : Text} {k k' : Nat} (ht : t ∈ tags) (ht' : t' ∈ tags)
    (h : constName s t k = constName s t' k') : t = t' ∧ k = k' := by
  have h := constName_inj h
  simp only [tags, List.mem_cons, List.not_mem_nil, or_false] at ht ht'
  rcases ht with rfl | rfl | rfl | rfl <;> rcases ht' with rfl | rfl | rfl | rfl <;>
    simp only [List.cons_append, List.nil_append, List.cons.injEq, and_false, false_and, true_and,
      Char.reduceEq] at h ⊢ <;> exact decimal_inj h

/-- The constants of a gap are under names of its number. -/
theorem gapConsts_names (s : Nat) (o : Dbl) (k : Nat) (v : V3) (a : Text × Dbl) (h : a ∈ gapConsts s o k v) :
    ∃ t ∈ tags, a.1 = constName s t k := by
  unfold gapConsts at h
  simp only [List.mem_append, List.mem_singleton] at h
  rcases h with ((rfl | h) | h) | h
  · exact ⟨['I'], by simp [tags], rfl⟩
  all_goals
    split at h
    · cases List.mem_singleton.mp h
      first
        | exact ⟨['M', 'X'], by simp [tags], rfl⟩
        | exact ⟨['M', 'Y'], by simp [tags], rfl⟩
        | exact ⟨['M', 'Z'], by simp [tags], rfl⟩
    · cases h

theorem constsFrom_names (s : Nat) (o : Dbl) (ps : List (Nat × V3)) : ∀ (k : Nat) (a : Text × Dbl),
    a ∈ constsFrom s o k ps → ∃ t ∈ tags, ∃ j, k < j ∧ a.1 = constName s t j := by
  induction ps with
  | nil => intro k a h; cases h
  | cons p ps ih =>
    intro k a h
    rcases List.mem_append.mp h with h | h
    · obtain ⟨t, ht, e⟩ := gapConsts_names s o (k + 1) p.2 a h
      exact ⟨t, ht, k + 1, by omega, e⟩
    · obtain ⟨t, ht, j, hj, e⟩ := ih (k + 1) a h
      exact ⟨t, ht, j, by omega, e⟩

theorem valueOf_append_of_not (a b : List (Text × Dbl)) (n : Text) (h : ∀ x ∈ b, x.1 ≠ n) :
    valueOf (a ++ b) n = valueOf a n := by
  unfold valueOf
  rw [List.reverse_append, List.find?_append]
  have : (b.reverse.find? fun x => x.1 = n) = none := by
    rw [List.find?_eq_none]
    intro x hx
    simpa using h x (by simpa using hx)
  rw [this]
  rfl

theorem valueOf_append (a b : List (Text × Dbl)) (n : Text) (x : Dbl) (h : valueOf b n = some x) :
    valueOf (a ++ b) n = some x := by
  unfold valueOf at h ⊢
  rw [List.reverse_append, List.find?_append]
  cases hf : b.reverse.find? (fun x => x.1 = n) with
  | none => rw [hf] at h; cases h
  | some y => rw [hf] at h; exact h

theorem valueOf_single (n m : Text) (x : Dbl) : valueOf [(n, x)] m = if n = m then some x else none := by
  unfold valueOf
  by_cases h : n = m <;> simp [h]

theorem name_ne {s : Nat} {t t' : Text} {k : Nat} (ht : t ∈ tags) (ht' : t' ∈ tags) (h : t ≠ t') :
    constName s t k ≠ constName s t' k := fun e => h (constName_eq ht ht' e).1

/-- The constants of a gap have their values. -/
theorem gapConsts_values (s : Nat) (o : Dbl) (k : Nat) (v : V3) :
    valueOf (gapConsts s o k v) (constName s ['I'] k) = some o ∧
    (isZero v.x = false → valueOf (gapConsts s o k v) (constName s ['M', 'X'] k) = some v.x) ∧
    (isZero v.y = false → valueOf (gapConsts s o k v) (constName s ['M', 'Y'] k) = some v.y) ∧
    (isZero v.y = false → valueOf (gapConsts s o k v) (constName s ['M', 'Z'] k) = some v.z) := by
  have tI : (['I'] : Text) ∈ tags := by decide
  have tX : (['M', 'X'] : Text) ∈ tags := by decide
  have tY : (['M', 'Y'] : Text) ∈ tags := by decide
  have tZ : (['M', 'Z'] : Text) ∈ tags := by decide
  have nXI := name_ne (s := s) (k := k) tX tI (by decide)
  have nYI := name_ne (s := s) (k := k) tY tI (by decide)
  have nZI := name_ne (s := s) (k := k) tZ tI (by decide)
  have nYX := name_ne (s := s) (k := k) tY tX (by decide)
  have nZX := name_ne (s := s) (k := k) tZ tX (by decide)
  have nZY := name_ne (s := s) (k := k) tZ tY (by decide)
  unfold gapConsts
  refine ⟨?_, fun hx => ?_, fun hy => ?_, fun hy => ?_⟩
  · rw [valueOf_append_of_not, valueOf_append_of_not, valueOf_append_of_not, valueOf_single, if_pos rfl]
    all_goals
      intro x hx
      split at hx
      · cases List.mem_singleton.mp hx; assumption
      · cases hx
  · rw [valueOf_append_of_not, valueOf_append_of_not]
    · apply valueOf_append
      rw [hx, if_pos (by rfl), valueOf_single, if_pos rfl]
    all_goals
      intro x hx
      split at hx
      · cases List.mem_singleton.mp hx; assumption
      · cases hx
  · rw [valueOf_append_of_not]
    · apply valueOf_append
      rw [hy, if_pos (by rfl), valueOf_single, if_pos rfl]
    · intro x hx
      split at hx
      · cases List.mem_singleton.mp hx; assumption
      · cases hx
  · apply valueOf_append
    rw [hy, if_pos (by rfl), valueOf_single, if_pos rfl]

/-! ## Zones -/

/-- The directions that the command can express: components vanish or are above the tolerance, and one along `z` comes
with one along `y`. -/
def Expressible (v : V3) : Prop :=
  (isZero v.x = true → v.x = 0) ∧ (isZero v.y = true → v.y = 0) ∧ (isZero v.z = true → v.z = 0) ∧
    (isZero v.z = false → isZero v.y = false)

/-- The terms of a direction. -/
def dirTerms (v : V3) : List (Dof × Dbl) :=
  (if !isZero v.x then [(Dof.DX, v.x)] else []) ++ (if !isZero v.y then [(Dof.DY, v.y)] else []) ++
  (if !isZero v.z then [(Dof.DZ, v.z)] else [])

theorem pair_ext {β γ : Type} : ∀ {l m : List (β × γ)}, l.map (fun t => t.1) = m.map (fun t => t.1) →
    l.map (fun t => t.2) = m.map (fun t => t.2) → l = m
  | [], [], _, _ => rfl
  | [], _ :: _, h, _ => by simp at h
  | _ :: _, [], h, _ => by simp at h
  | (a, b) :: l, (a', b') :: m, h1, h2 => by
    simp only [List.map_cons, List.cons.injEq] at h1 h2
    rw [h1.1, h2.1, pair_ext h1.2 h2.2]

theorem zone_spec (consts : List (Text × Dbl)) (s k : Nat) (o : Dbl) (p : Nat × V3) (u : Field) (he : Expressible p.2)
    (hI : valueOf consts (constName s ['I'] k) = some o)
    (hX : isZero p.2.x = false → valueOf consts (constName s ['M', 'X'] k) = some p.2.x)
    (hY : isZero p.2.y = false → valueOf consts (constName s ['M', 'Y'] k) = some p.2.y)
    (hZ : isZero p.2.z = false → valueOf consts (constName s ['M', 'Z'] k) = some p.2.z) :
    ZoneHolds consts u (gapZone s k p) ↔ along (u p.1) p.2 ≤ o := by
  have hm : (gapZone s k p).coefMult.mapM (valueOf consts) = some ((dirTerms p.2).map fun t => t.2) := by
    unfold gapZone dirTerms
    cases hx : isZero p.2.x <;> cases hy : isZero p.2.y <;> cases hz : isZero p.2.z <;>
      simp [hx, hy, hz, hX, hY, hZ]
  have hc : (gapZone s k p).nomCmp.mapM ddl? = some ((dirTerms p.2).map fun t => t.1) := by
    unfold gapZone dirTerms
    have dx : ddl? "DX" = some .DX := by decide
    have dy : ddl? "DY" = some .DY := by decide
    have dz : ddl? "DZ" = some .DZ := by decide
    cases isZero p.2.x <;> cases isZero p.2.y <;> cases isZero p.2.z <;> simp [dx, dy, dz]
  have hsum : ((dirTerms p.2).map fun t => t.2 * u p.1 t.1).sum = along (u p.1) p.2 := by
    obtain ⟨h1, h2, h3, _⟩ := he
    unfold dirTerms along
    cases hx : isZero p.2.x <;> cases hy : isZero p.2.y <;> cases hz : isZero p.2.z <;>
      simp [hx, hy, hz] at h1 h2 h3 <;> simp [*] <;> ring
  unfold ZoneHolds
  rw [hm, hc]
  constructor
  · rintro ⟨n, b, l, h1, h2, h3, h4, h5⟩
    have : n = p.1 := name_inj h1.symm
    subst this
    have hb : o = b := Option.some.inj (hI.symm.trans h2)
    subst hb
    rw [← pair_ext (Option.some.inj h4) (Option.some.inj h3), hsum] at h5
    exact h5
  · intro h
    exact ⟨p.1, o, dirTerms p.2, rfl, hI, rfl, rfl, by rw [hsum]; exact h⟩

theorem zones_spec (s : Nat) (o : Dbl) (u : Field) (ps : List (Nat × V3)) : ∀ (k : Nat) (pre : List (Text × Dbl)),
    (∀ p ∈ ps, Expressible p.2) →
    ((∀ z ∈ zonesFrom s k ps, ZoneHolds (pre ++ constsFrom s o k ps) u z) ↔
      ∀ p ∈ ps, along (u p.1) p.2 ≤ o) := by
  induction ps with
  | nil => intro k pre _; simp [zonesFrom]
  | cons p ps ih =>
    intro k pre he
    have hlater : ∀ t ∈ tags, ∀ x ∈ constsFrom s o (k + 1) ps, x.1 ≠ constName s t (k + 1) := by
      intro t ht x hx e
      obtain ⟨t', ht', j, hj, e'⟩ := constsFrom_names s o ps (k + 1) x hx
      have := (constName_eq ht' ht (e'.symm.trans e)).2
      omega
    have hval : ∀ t ∈ tags, ∀ y, valueOf (gapConsts s o (k + 1) p.2) (constName s t (k + 1)) = some y →
        valueOf (pre ++ constsFrom s o k (p :: ps)) (constName s t (k + 1)) = some y := by
      intro t ht y hy
      show valueOf (pre ++ (gapConsts s o (k + 1) p.2 ++ constsFrom s o (k + 1) ps)) _ = _
      rw [← List.append_assoc, valueOf_append_of_not _ _ _ (hlater t ht)]
      exact valueOf_append _ _ _ _ hy
    obtain ⟨vI, vX, vY, vZ⟩ := gapConsts_values s o (k + 1) p.2
    have hz := zone_spec (pre ++ constsFrom s o k (p :: ps)) s (k + 1) o p u (he p (by simp))
      (hval _ (by decide) _ vI) (fun h => hval _ (by decide) _ (vX h)) (fun h => hval _ (by decide) _ (vY h))
      (fun h => hval _ (by decide) _ (vZ ((he p (by simp)).2.2.2 h)))
    have hr := ih (k + 1) (pre ++ gapConsts s o (k + 1) p.2) (fun q hq => he q (List.mem_cons_of_mem _ hq))
    rw [List.append_assoc] at hr
    rw [zonesFrom, List.forall_mem_cons, List.forall_mem_cons, hz]
    exact and_congr_right fun _ => hr

/-! ## The cards -/

/-- What the gaps of the model know of the cards. -/
structure GapInv (cards : List GapCard) (g : Gaps) : Prop where
  wf : g.WF
  absent : ∀ pid, g.find pid = none → cards.filterMap (given pid) = []
  opening : ∀ pid x, g.find pid = some x → x.opening = openingOf pid cards
  sound : ∀ pid x, g.find pid = some x → ∀ ab ∈ x.nodes, GapCard.cgap pid ab.1 ab.2 ∈ cards
  complete : ∀ pid ga gb, GapCard.cgap pid ga gb ∈ cards → ∃ x gb', g.find pid = some x ∧ x.nodes.find ga = some gb'

theorem openingOf_concat (pid : Int) (cards : List GapCard) (c : GapCard) :
    openingOf pid (cards ++ [c]) = (given pid c).getD (openingOf pid cards) := by
  unfold openingOf
  rw [List.filterMap_append]
  cases h : given pid c <;> simp [h]

theorem mem_set {α β : Type} [DecidableEq α] (m : Map α β) (k : α) (v : β) (ab : α × β) (h : ab ∈ m.set k v) :
    ab = (k, v) ∨ ab ∈ m := by
  induction m with
  | nil => exact Or.inl (by simpa [Map.set] using h)
  | cons a m ih =>
    obtain ⟨k', v'⟩ := a
    unfold Map.set at h
    split at h
    · rcases List.mem_cons.mp h with h | h
      · exact Or.inl h
      · exact Or.inr (List.mem_cons_of_mem _ h)
    · rcases List.mem_cons.mp h with h | h
      · exact Or.inr (by rw [h]; simp)
      · rcases ih h with h | h
        · exact Or.inl h
        · exact Or.inr (List.mem_cons_of_mem _ h)

theorem gapInv (cards : List GapCard) : GapInv cards (readGaps cards) := by
  induction cards using List.reverseRecOn with
  | nil =>
    exact ⟨List.nodup_nil, by simp, (by intro pid x h; cases h), (by intro pid x h; cases h), by simp⟩
  | append_singleton cards c ih =>
    have hr : readGaps (cards ++ [c]) = addGapCard (readGaps cards) c := by simp [readGaps]
    rw [hr]
    cases c with
    | cgap pid ga gb =>
      unfold addGapCard
      have hgiven : ∀ q, given q (.cgap pid ga gb) = none := fun q => rfl
      cases hf : (readGaps cards).find pid with
      | none =>
        simp only [hf]
        refine ⟨Map.wf_set _ _ _ ih.wf, ?_, ?_, ?_, ?_⟩
        · intro q hq
          rw [Map.find_set] at hq
          split at hq
          · cases hq
          · simp [List.filterMap_append, ih.absent q hq, hgiven]
        · intro q x hx
          rw [Map.find_set] at hx
          rw [openingOf_concat, hgiven, Option.getD_none]
          split at hx
          · rename_i e
            cases hx
            subst e
            simp [openingOf, ih.absent _ hf]
          · exact ih.opening q x hx
        · intro q x hx ab hab
          rw [Map.find_set] at hx
          split at hx
          · rename_i e
            cases hx
            subst e
            simp only [Map.set, List.mem_singleton] at hab
            rw [hab]
            simp
          · exact List.mem_append_left _ (ih.sound q x hx ab hab)
        · intro q a b hm
          rw [Map.find_set]
          rcases List.mem_append.mp hm with hm | hm
          · obtain ⟨x, gb', h1, h2⟩ := ih.complete q a b hm
            have : pid ≠ q := by intro e; rw [e] at hf; rw [hf] at h1; cases h1
            exact ⟨x, gb', by simp [this, h1], h2⟩
          · cases List.mem_singleton.mp hm
            exact ⟨_, gb, if_pos rfl, Map.find_set_self _ _ _⟩
      | some y =>
        simp only [hf]
        refine ⟨Map.wf_set _ _ _ ih.wf, ?_, ?_, ?_, ?_⟩
        · intro q hq
          rw [Map.find_set] at hq
          split at hq
          · cases hq
          · simp [List.filterMap_append, ih.absent q hq, hgiven]
        · intro q x hx
          rw [Map.find_set] at hx
          rw [openingOf_concat, hgiven, Option.getD_none]
          split at hx
          · rename_i e
            cases hx
            subst e
            exact ih.opening _ y hf
          · exact ih.opening q x hx
        · intro q x hx ab hab
          rw [Map.find_set] at hx
          split at hx
          · rename_i e
            cases hx
            subst e
            rcases mem_set _ _ _ _ hab with h | h
            · rw [h]; simp
            · exact List.mem_append_left _ (ih.sound _ y hf ab h)
          · exact List.mem_append_left _ (ih.sound q x hx ab hab)
        · intro q a b hm
          rw [Map.find_set]
          rcases List.mem_append.mp hm with hm | hm
          · obtain ⟨x, gb', h1, h2⟩ := ih.complete q a b hm
            by_cases e : pid = q
            · subst e
              rw [hf] at h1
              cases h1
              rw [if_pos rfl]
              by_cases e2 : ga = a
              · subst e2
                exact ⟨_, gb, rfl, Map.find_set_self _ _ _⟩
              · exact ⟨_, gb', rfl, by rw [Map.find_set_ne _ _ e2]; exact h2⟩
            · exact ⟨x, gb', by simp [e, h1], h2⟩
          · cases List.mem_singleton.mp hm
            exact ⟨_, gb, if_pos rfl, Map.find_set_self _ _ _⟩
    | pgap pid u0 =>
      unfold addGapCard
      have hgiven : ∀ q, given q (.pgap pid u0) = if pid = q then some u0 else none := fun q => rfl
      cases hf : (readGaps cards).find pid with
      | none =>
        simp only [hf]
        refine ⟨Map.wf_set _ _ _ ih.wf, ?_, ?_, ?_, ?_⟩
        · intro q hq
          rw [Map.find_set] at hq
          split at hq
          · cases hq
          · rename_i e
            simp [List.filterMap_append, ih.absent q hq, hgiven, e]
        · intro q x hx
          rw [Map.find_set] at hx
          rw [openingOf_concat, hgiven]
          split at hx
          · rename_i e
            cases hx
            simp [e]
          · rename_i e
            simpa [e] using ih.opening q x hx
        · intro q x hx ab hab
          rw [Map.find_set] at hx
          split at hx
          · cases hx
            cases hab
          · exact List.mem_append_left _ (ih.sound q x hx ab hab)
        · intro q a b hm
          rw [Map.find_set]
          rcases List.mem_append.mp hm with hm | hm
          · obtain ⟨x, gb', h1, h2⟩ := ih.complete q a b hm
            have : pid ≠ q := by intro e; rw [e] at hf; rw [hf] at h1; cases h1
            exact ⟨x, gb', by simp [this, h1], h2⟩
          · cases List.mem_singleton.mp hm
      | some y =>
        simp only [hf]
        refine ⟨Map.wf_set _ _ _ ih.wf, ?_, ?_, ?_, ?_⟩
        · intro q hq
          rw [Map.find_set] at hq
          split at hq
          · cases hq
          · rename_i e
            simp [List.filterMap_append, ih.absent q hq, hgiven, e]
        · intro q x hx
          rw [Map.find_set] at hx
          rw [openingOf_concat, hgiven]
          split at hx
          · rename_i e
            cases hx
            simp [e]
          · rename_i e
            simpa [e] using ih.opening q x hx
        · intro q x hx ab hab
          rw [Map.find_set] at hx
          split at hx
          · rename_i e
            cases hx
            subst e
            exact List.mem_append_left _ (ih.sound _ y hf ab hab)
          · exact List.mem_append_left _ (ih.sound q x hx ab hab)
        · intro q a b hm
          rw [Map.find_set]
          rcases List.mem_append.mp hm with hm | hm
          · obtain ⟨x, gb', h1, h2⟩ := ih.complete q a b hm
            by_cases e : pid = q
            · subst e
              rw [hf] at h1
              cases h1
              exact ⟨_, gb', if_pos rfl, h2⟩
            · exact ⟨x, gb', by simp [e, h1], h2⟩
          · cases List.mem_singleton.mp hm

/-- **C103**: the contact written for the gaps demands of a field what the cards demand. Partial: the cards belong to one
property, no two of them constrain the same node towards different ones, a direction along `z` comes with one along `y`,
the second node of a gap is held, and numbers are exact. Without each of these the property is false, see below. -/
theorem C103_gaps_partial (dir : Nat → Nat → V3) (s : Nat) (cards : List GapCard) (pid : Int)
    (hone : ∀ q ga gb, .cgap q ga gb ∈ cards → q = pid) (hone' : ∀ q x, .pgap q x ∈ cards → q = pid)
    (huniq : ∀ ga gb gb', .cgap pid ga gb ∈ cards → .cgap pid ga gb' ∈ cards → gb = gb')
    (hdir : ∀ ga gb, .cgap pid ga gb ∈ cards → Expressible (dir ga gb))
    (u : Field) (hheld : ∀ ga gb, .cgap pid ga gb ∈ cards → ∀ d, u gb d = 0) :
    (∀ z ∈ (writeGaps dir s (readGaps cards)).2, ZoneHolds (writeGaps dir s (readGaps cards)).1 u z) ↔
      GapsHold dir cards u := by
  have inv := gapInv cards
  have hkeys : ∀ k ∈ (readGaps cards).keys, k = pid := by
    have aux : ∀ cs : List GapCard, (∀ q ga gb, .cgap q ga gb ∈ cs → q = pid) → (∀ q x, .pgap q x ∈ cs → q = pid) →
        ∀ k ∈ (readGaps cs).keys, k = pid := by
      intro cs
      induction cs using List.reverseRecOn with
      | nil => intro _ _ k hk; cases hk
      | append_singleton cs c ih =>
        intro h1 h2 k hk
        have ih := ih (fun q a b h => h1 q a b (List.mem_append_left _ h))
          (fun q x h => h2 q x (List.mem_append_left _ h)) k
        have hr : readGaps (cs ++ [c]) = addGapCard (readGaps cs) c := by simp [readGaps]
        rw [hr] at hk
        have hset : ∀ (q : Int) (x : Gap), k ∈ ((readGaps cs).set q x).keys → k = q ∨ k ∈ (readGaps cs).keys := by
          intro q x h
          rw [Map.mem_keys_iff, ] at h
          obtain ⟨y, hy⟩ := h
          rw [Map.find_set] at hy
          split at hy
          · rename_i e; exact Or.inl e.symm
          · exact Or.inr ((Map.mem_keys_iff _ _).mpr ⟨y, hy⟩)
        cases c with
        | cgap q a b =>
          have hq := h1 q a b (by simp)
          unfold addGapCard at hk
          cases hf : (readGaps cs).find q <;> simp only [hf] at hk <;> rcases hset _ _ hk with h | h
          · exact h.trans hq
          · exact ih h
          · exact h.trans hq
          · exact ih h
        | pgap q x =>
          have hq := h2 q x (by simp)
          unfold addGapCard at hk
          cases hf : (readGaps cs).find q <;> simp only [hf] at hk <;> rcases hset _ _ hk with h | h
          · exact h.trans hq
          · exact ih h
          · exact h.trans hq
          · exact ih h
    exact aux cards hone hone'
  have hzero : ∀ ga gb, .cgap pid ga gb ∈ cards → along (u gb) (dir ga gb) = 0 := by
    intro ga gb h
    simp [along, hheld ga gb h]
  cases hg : readGaps cards with
  | nil =>
    have hno : ∀ q ga gb, .cgap q ga gb ∉ cards := by
      intro q ga gb h
      obtain ⟨x, _, h1, _⟩ := inv.complete q ga gb h
      rw [hg] at h1
      cases h1
    simp [writeGaps, GapsHold, hno]
  | cons g gs =>
    obtain ⟨k, x⟩ := g
    have hk : k = pid := hkeys k (by rw [hg]; simp)
    have hgs : gs = [] := by
      cases gs with
      | nil => rfl
      | cons g' gs =>
        have hwf := inv.wf
        rw [hg] at hwf
        have := hkeys g'.1 (by rw [hg]; simp)
        simp only [Map.WF, Map.keys_cons, List.nodup_cons, List.mem_cons, not_or] at hwf
        exact absurd (hk.trans this.symm) hwf.1.1
    subst hk
    subst hgs
    have hfind : (readGaps cards).find k = some x := by rw [hg]; simp [Map.find]
    have hex : ∀ p ∈ getGaps dir x, Expressible p.2 := by
      intro p hp
      obtain ⟨ab, hab, rfl⟩ := List.mem_map.mp hp
      exact hdir _ _ (inv.sound k x hfind ab hab)
    have hw : writeGaps dir s [(k, x)] = (constsFrom s x.opening 0 (getGaps dir x), zonesFrom s 0 (getGaps dir x)) := by
      simp [writeGaps]
    rw [hw]
    have := zones_spec s x.opening u (getGaps dir x) 0 [] hex
    rw [List.nil_append] at this
    rw [this, inv.opening k x hfind]
    constructor
    · intro h q ga gb hc
      cases hone q ga gb hc
      obtain ⟨y, gb', h1, h2⟩ := inv.complete _ ga gb hc
      rw [hfind] at h1
      cases h1
      have hm := Map.mem_of_find _ h2
      have hgb : gb = gb' := huniq ga gb gb' hc (inv.sound _ x hfind _ hm)
      subst hgb
      have := h (ga, dir ga gb) (List.mem_map.mpr ⟨(ga, gb), hm, rfl⟩)
      rw [hzero ga gb hc, sub_zero]
      exact this
    · intro h p hp
      obtain ⟨ab, hab, rfl⟩ := List.mem_map.mp hp
      have hc := inv.sound k x hfind ab hab
      have := h k ab.1 ab.2 hc
      rw [hzero _ _ hc, sub_zero] at this
      exact this

/-! ## What is not kept -/

/-- A gap along `z` names a constant that is not defined: no field satisfies what is written. -/
theorem C103_along_z_false (dir : Nat → Nat → V3) (s : Nat) (pid : Int) (ga gb : Nat) (u0 : Dbl)
    (hy : isZero (dir ga gb).y = true) (hz : isZero (dir ga gb).z = false) (u : Field) :
    ¬ ∀ z ∈ (writeGaps dir s (readGaps [.cgap pid ga gb, .pgap pid u0])).2,
      ZoneHolds (writeGaps dir s (readGaps [.cgap pid ga gb, .pgap pid u0])).1 u z := by
  have hr : readGaps [.cgap pid ga gb, .pgap pid u0] = [(pid, ⟨u0, [(ga, gb)]⟩)] := by
    simp [readGaps, addGapCard, Map.find, Map.set]
  rw [hr]
  simp only [writeGaps, getGaps, List.map_cons, List.map_nil, List.flatMap_cons, List.flatMap_nil, List.append_nil,
    zonesFrom, constsFrom, List.mem_singleton, forall_eq]
  rintro ⟨n, b, l, _, _, h3, _, _⟩
  have hno : valueOf (gapConsts s u0 (0 + 1) (dir ga gb)) (constName s ['M', 'Z'] (0 + 1)) = none := by
    unfold valueOf
    rw [Option.map_eq_none_iff, List.find?_eq_none]
    intro a ha
    simp only [List.mem_reverse] at ha
    unfold gapConsts at ha
    simp only [hy, Bool.not_true, Bool.false_eq_true, if_false, List.append_nil, List.mem_append,
      List.mem_singleton] at ha
    rcases ha with rfl | ha
    · simpa using name_ne (s := s) (k := 0 + 1) (t := ['I']) (t' := ['M', 'Z']) (by decide) (by decide) (by decide)
    · split at ha
      · cases List.mem_singleton.mp ha
        simpa using name_ne (s := s) (k := 0 + 1) (t := ['M', 'X']) (t' := ['M', 'Z']) (by decide) (by decide) (by decide)
      · cases ha
  simp only [gapZone, hy, hz, Bool.not_true, Bool.not_false, Bool.false_eq_true, if_false, if_true,
    List.append_nil] at h3
  cases hx : isZero (dir ga gb).x <;> simp [hx, hno] at h3

/-- The direction along `x`. -/
def alongX : Nat → Nat → V3 := fun _ _ => ⟨1, 0, 0⟩

theorem zone_x (consts : List (Text × Dbl)) (s k n : Nat) (o : Dbl) (u : Field)
    (hI : valueOf consts (constName s ['I'] k) = some o) (hX : valueOf consts (constName s ['M', 'X'] k) = some 1) :
    ZoneHolds consts u (gapZone s k (n, ⟨1, 0, 0⟩)) ↔ u n .DX ≤ o := by
  have h0 : isZero 0 = true := by decide +kernel
  have h1 : isZero 1 = false := by decide +kernel
  have he : Expressible ⟨1, 0, 0⟩ := by simp [Expressible, h0, h1]
  have hno : ∀ P : Prop, isZero (0 : Dbl) = false → P := fun P h => by rw [h0] at h; cases h
  refine (zone_spec consts s k o (n, ⟨1, 0, 0⟩) u he hI (fun _ => hX) (hno _) (hno _)).trans ?_
  simp [along]

/-- Gaps of two properties use the same names for their constants: the opening of the second one is used for both. -/
theorem C103_two_properties_false :
    let cards := [GapCard.cgap 1 0 1, .pgap 1 5, .cgap 2 2 3, .pgap 2 9]
    let u : Field := fun n d => if n = 0 ∧ d = .DX then 7 else 0
    (∀ z ∈ (writeGaps alongX 4 (readGaps cards)).2, ZoneHolds (writeGaps alongX 4 (readGaps cards)).1 u z) ∧
    ¬ GapsHold alongX cards u := by
  intro cards u
  refine ⟨?_, fun h => ?_⟩
  · have hw : (writeGaps alongX 4 (readGaps cards)).2 = [gapZone 4 1 (0, ⟨1, 0, 0⟩), gapZone 4 1 (2, ⟨1, 0, 0⟩)] := by
      rfl
    have hI : valueOf (writeGaps alongX 4 (readGaps cards)).1 (constName 4 ['I'] 1) = some 9 := by decide +kernel
    have hX : valueOf (writeGaps alongX 4 (readGaps cards)).1 (constName 4 ['M', 'X'] 1) = some 1 := by decide +kernel
    rw [hw]
    intro z hz
    simp only [List.mem_cons, List.not_mem_nil, or_false] at hz
    rcases hz with rfl | rfl
    · exact (zone_x _ 4 1 0 9 u hI hX).mpr (by norm_num [u])
    · exact (zone_x _ 4 1 2 9 u hI hX).mpr (by norm_num [u])
  · have := h 1 0 1 (by simp [cards])
    have ho : openingOf 1 cards = 5 := by decide +kernel
    rw [ho] at this
    norm_num [along, u, alongX] at this

/-- A second gap of a node towards another one replaces the first. -/
theorem C103_same_node_false (pid : Int) (ga gb gb' : Nat) :
    readGaps [.cgap pid ga gb, .cgap pid ga gb'] = readGaps [.cgap pid ga gb'] := by
  simp [readGaps, addGapCard, Map.find, Map.set]

/-- The displacement of the second node of a gap is not looked at: two nodes that move together are stopped. -/
theorem C103_second_node_false :
    let cards := [GapCard.cgap 1 0 1, .pgap 1 5]
    let u : Field := fun _ d => if d = .DX then 7 else 0
    GapsHold alongX cards u ∧
    ¬ ∀ z ∈ (writeGaps alongX 4 (readGaps cards)).2, ZoneHolds (writeGaps alongX 4 (readGaps cards)).1 u z := by
  intro cards u
  refine ⟨?_, fun h => ?_⟩
  · intro pid ga gb hc
    simp only [cards, List.mem_cons, List.not_mem_nil, or_false, reduceCtorEq, GapCard.cgap.injEq] at hc
    obtain ⟨rfl, rfl, rfl⟩ := hc
    have ho : openingOf 1 cards = 5 := by decide +kernel
    rw [ho]
    norm_num [along, u, alongX]
  · have hw : (writeGaps alongX 4 (readGaps cards)).2 = [gapZone 4 1 (0, ⟨1, 0, 0⟩)] := by rfl
    have hI : valueOf (writeGaps alongX 4 (readGaps cards)).1 (constName 4 ['I'] 1) = some 5 := by decide +kernel
    have hX : valueOf (writeGaps alongX 4 (readGaps cards)).1 (constName 4 ['M', 'X'] 1) = some 1 := by decide +kernel
    rw [hw] at h
    have := (zone_x _ 4 1 0 5 u hI hX).mp (h _ (List.mem_singleton.mpr rfl))
    norm_num [u] at this

/-- The hypotheses are met by two gaps of one property, one of them oblique. -/
example :
    let cards := [GapCard.cgap 1 0 1, .cgap 1 2 3, .pgap 1 5]
    let dir : Nat → Nat → V3 := fun a _ => if a = 0 then ⟨1, 0, 0⟩ else ⟨0, 3 / 5, 4 / 5⟩
    (∀ q ga gb, GapCard.cgap q ga gb ∈ cards → q = 1) ∧ (∀ q x, GapCard.pgap q x ∈ cards → q = 1) ∧
    (∀ ga gb gb', GapCard.cgap 1 ga gb ∈ cards → .cgap 1 ga gb' ∈ cards → gb = gb') ∧
    (∀ ga gb, GapCard.cgap 1 ga gb ∈ cards → Expressible (dir ga gb)) ∧
    GapsHold dir cards (fun n d => if n = 2 ∧ d = .DZ then 6 else 0) := by
  intro cards dir
  have h0 : isZero 0 = true := by decide +kernel
  have h1 : isZero 1 = false := by decide +kernel
  have h2 : isZero (3 / 5) = false := by decide +kernel
  have h3 : isZero (4 / 5) = false := by decide +kernel
  refine ⟨?_, ?_, ?_, ?_, ?_⟩
  · intro q ga gb h
    simp [cards] at h
    omega
  · intro q x h
    simp [cards] at h
    exact h.1
  · intro ga gb gb' h h'
    simp [cards] at h h'
    omega
  · intro ga gb h
    simp only [cards, List.mem_cons, List.not_mem_nil, or_false, reduceCtorEq, GapCard.cgap.injEq] at h
    rcases h with ⟨_, rfl, rfl⟩ | ⟨_, rfl, rfl⟩
    · simp [Expressible, dir, h0, h1]
    · simp [Expressible, dir, h0, h2, h3]
  · intro q ga gb h
    have ho : openingOf 1 cards = 5 := by decide +kernel
    simp only [cards, List.mem_cons, List.not_mem_nil, or_false, reduceCtorEq, GapCard.cgap.injEq] at h
    rcases h with ⟨rfl, rfl, rfl⟩ | ⟨rfl, rfl, rfl⟩
    · rw [ho]; norm_num [along, dir]
    · have : Dof.DY ≠ Dof.DZ := by decide
      rw [ho]; norm_num [along, dir, this]

end Vega.AsterSpec
