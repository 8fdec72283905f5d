import Verif.Geom.Storage
import Verif.Ref.Props

/-!
# Coordinate systems referenced before their definition (C45)
-/
namespace Vega.CsStoreSpec
open CSys CsStore RefSpec
variable {δ : Type}

/-- The reference an operation hands out a position for. -/
def asks : Op δ → Option Ref
  | .define c => some c.ref
  | .reserve r => some r
  | .ask r => some r
  | .other => none

/-- The last definition given in a history for a reference. -/
def lastDefinition (r : Ref) : List (Op δ) → Option (CSys δ)
  | [] => none
  | .define c :: ops => (lastDefinition r ops).or (if c.ref.beq r then some c else none)
  | _ :: ops => lastDefinition r ops

/-! ## Lemmas -/

theorem beq_refl (a : Ref) : a.beq a = true := C06_equivalence.1 a
theorem beq_symm {a b : Ref} (h : a.beq b = true) : b.beq a = true := C06_equivalence.2.1 a b h
theorem beq_trans {a b c : Ref} (h : a.beq b = true) (h2 : b.beq c = true) : a.beq c = true :=
  C06_equivalence.2.2 a b c h h2
theorem beq_congr_left {a b : Ref} (h : a.beq b = true) (c : Ref) : a.beq c = b.beq c := by
  cases hb : b.beq c with
  | true => exact beq_trans h hb
  | false =>
    cases ha : a.beq c with
    | false => rfl
    | true => rw [beq_trans (beq_symm h) ha] at hb; exact hb

/-- Positions given are below the next one, positive and in ascending order. -/
structure Inv (s : CsStore δ) : Prop where
  pos : 0 < s.next
  below : ∀ it ∈ s.refs, 0 < it.1 ∧ it.1 < s.next
  ascending : s.refs.Pairwise fun a b => a.1 < b.1

theorem insertRef_append (p : Nat) (r : Ref) (l : List (Nat × Ref)) (h : ∀ it ∈ l, it.1 < p) :
    insertRef p r l = l ++ [(p, r)] := by
  induction l with
  | nil => rfl
  | cons it l ih =>
    have h1 := h it List.mem_cons_self
    rw [insertRef, if_neg (by omega), if_neg (by omega), ih fun x hx => h x (List.mem_cons_of_mem _ hx)]
    rfl

theorem refAt_append (p : Nat) (l k : List (Nat × Ref)) :
    refAt p (l ++ k) = (refAt p l).or (refAt p k) := by
  induction l with
  | nil => simp [refAt]
  | cons it l ih =>
    simp only [List.cons_append, refAt]
    split
    · rfl
    · exact ih

theorem refAt_none {p : Nat} {l : List (Nat × Ref)} (h : ∀ it ∈ l, it.1 < p) : refAt p l = none := by
  induction l with
  | nil => rfl
  | cons it l ih =>
    have h1 := h it List.mem_cons_self
    rw [refAt, if_neg (by omega)]
    exact ih fun x hx => h x (List.mem_cons_of_mem _ hx)

theorem refAt_of_mem {it : Nat × Ref} {l : List (Nat × Ref)} (h : l.Pairwise fun a b => a.1 < b.1)
    (hm : it ∈ l) : refAt it.1 l = some it.2 := by
  induction l with
  | nil => cases hm
  | cons x l ih =>
    rw [List.pairwise_cons] at h
    rcases List.mem_cons.mp hm with rfl | hm
    · simp [refAt]
    · have := h.1 it hm
      rw [refAt, if_neg (by omega)]
      exact ih h.2 hm

theorem mem_of_refAt {p : Nat} {r : Ref} {l : List (Nat × Ref)} (h : refAt p l = some r) :
    (p, r) ∈ l := by
  induction l with
  | nil => cases h
  | cons x l ih =>
    rw [refAt] at h
    split at h
    · rename_i hx
      cases h
      subst hx
      exact List.mem_cons_self
    · exact List.mem_cons_of_mem _ (ih h)

theorem systemAt_insert (c : CSys δ) (r : Ref) (l : List (Ref × CSys δ)) :
    systemAt r (insertSystem c l) = if c.ref.beq r then some c else systemAt r l := by
  induction l with
  | nil => simp only [insertSystem, systemAt]
  | cons it l ih =>
    simp only [insertSystem]
    rcases C06_trichotomy c.ref it.1 with ⟨h1, h2, h3⟩ | ⟨h1, h2, h3⟩ | ⟨h1, h2, h3⟩
    · rw [if_pos h1]
      simp only [systemAt]
    · rw [if_neg (by rw [h1]; simp), if_pos h2]
      simp only [systemAt, ih]
      by_cases hi : it.1.beq r = true
      · rw [if_pos hi]
        by_cases hc : c.ref.beq r = true
        · rw [beq_trans hc (beq_symm hi)] at h3
          cases h3
        · rw [if_neg hc, if_pos hi]
      · rw [if_neg hi, if_neg hi]
    · rw [if_neg (by rw [h1]; simp), if_neg (by rw [h2]; simp)]
      simp only [systemAt, ← beq_congr_left h3 r]
      split <;> rfl

theorem systemAt_congr {r r' : Ref} (h : r.beq r' = true) (l : List (Ref × CSys δ)) :
    systemAt r l = systemAt r' l := by
  induction l with
  | nil => rfl
  | cons it l ih =>
    have : it.1.beq r = it.1.beq r' := by
      cases hb : it.1.beq r' with
      | true => exact beq_trans hb (beq_symm h)
      | false =>
        cases ha : it.1.beq r with
        | false => rfl
        | true => rw [beq_trans ha h] at hb; cases hb
    simp only [systemAt, this, ih]

/-- Every operation leaves the references as they are or appends one at the position it hands out. -/
theorem step_cases {s s' : CsStore δ} {op : Op δ} {p : Nat} (hi : Inv s) (h : s.step op = .ok (s', p)) :
    (∃ r, asks op = some r ∧ p = s.next ∧ s'.next = s.next + 1 ∧ s'.refs = s.refs ++ [(p, r)]) ∨
    (s'.refs = s.refs ∧ s.next ≤ s'.next ∧
      ∀ r, asks op = some r → r.beq globalRef = false → s'.next = s.next ∧ p = s.findPosition r ∧
        p ≠ UNAVAILABLE) := by
  have hl : ∀ it ∈ s.refs, it.1 < s.next := fun it h => (hi.below it h).2
  cases op with
  | define c =>
    simp only [step, add, refAt_none hl, Outcome.ok.injEq, Prod.mk.injEq] at h
    obtain ⟨rfl, rfl⟩ := h
    exact .inl ⟨c.ref, rfl, rfl, rfl, insertRef_append _ _ _ hl⟩
  | reserve r =>
    simp only [step, CsStore.reserve] at h
    split at h
    · cases h
    · simp only [Outcome.ok.injEq, Prod.mk.injEq] at h
      obtain ⟨rfl, rfl⟩ := h
      exact .inl ⟨r, rfl, rfl, rfl, insertRef_append _ _ _ hl⟩
  | ask r =>
    simp only [step, findOrReserve] at h
    split at h
    · simp only [Outcome.ok.injEq, Prod.mk.injEq] at h
      obtain ⟨rfl, rfl⟩ := h
      refine .inr ⟨rfl, Nat.le_refl _, ?_⟩
      intro r' hr' hg
      rename_i hb
      cases hr'
      rw [hb] at hg
      cases hg
    · split at h
      · simp only [CsStore.reserve] at h
        split at h
        · cases h
        · simp only [Outcome.ok.injEq, Prod.mk.injEq] at h
          obtain ⟨rfl, rfl⟩ := h
          exact .inl ⟨r, rfl, rfl, rfl, insertRef_append _ _ _ hl⟩
      · rename_i hb hu
        simp only [Outcome.ok.injEq, Prod.mk.injEq] at h
        obtain ⟨rfl, rfl⟩ := h
        refine .inr ⟨rfl, Nat.le_refl _, ?_⟩
        intro r' hr' _
        cases hr'
        exact ⟨rfl, rfl, hu⟩
  | other =>
    simp only [step, Outcome.ok.injEq, Prod.mk.injEq] at h
    obtain ⟨rfl, rfl⟩ := h
    exact .inr ⟨rfl, Nat.le_succ _, fun r hr => by cases hr⟩

theorem step_inv {s s' : CsStore δ} {op : Op δ} {p : Nat} (hi : Inv s) (h : s.step op = .ok (s', p)) :
    Inv s' := by
  rcases step_cases hi h with ⟨r, _, rfl, hn, hr⟩ | ⟨hr, hn, _⟩
  · refine ⟨by omega, ?_, ?_⟩
    · intro it hm
      rw [hr] at hm
      rcases List.mem_append.mp hm with hm | hm
      · have := hi.below it hm
        omega
      · cases List.mem_singleton.mp hm
        have := hi.pos
        exact ⟨this, by omega⟩
    · rw [hr, List.pairwise_append]
      refine ⟨hi.ascending, List.pairwise_singleton _ _, ?_⟩
      intro a ha b hb
      cases List.mem_singleton.mp hb
      exact (hi.below a ha).2
  · refine ⟨by have := hi.pos; omega, ?_, by rw [hr]; exact hi.ascending⟩
    intro it hm
    rw [hr] at hm
    have := hi.below it hm
    omega

theorem run_inv {s s' : CsStore δ} {ops : List (Op δ)} (hi : Inv s) (h : s.run ops = .ok s') : Inv s' := by
  induction ops generalizing s with
  | nil => cases h; exact hi
  | cons op ops ih =>
    simp only [run] at h
    cases hs : s.step op with
    | ok r => rw [hs, Outcome.bind_ok] at h; exact ih (step_inv hi hs) h
    | throw => rw [hs] at h; cases h
    | ub => rw [hs] at h; cases h
    | diverges => rw [hs] at h; cases h

theorem init_inv (n : Nat) : Inv (init n : CsStore δ) :=
  ⟨Nat.succ_pos n, fun _ h => (by cases h), List.Pairwise.nil⟩

/-- References are only appended. -/
theorem run_append {s s' : CsStore δ} {ops : List (Op δ)} (hi : Inv s) (h : s.run ops = .ok s') :
    s.next ≤ s'.next ∧ ∃ l, s'.refs = s.refs ++ l := by
  induction ops generalizing s with
  | nil => cases h; exact ⟨Nat.le_refl _, [], by simp⟩
  | cons op ops ih =>
    simp only [run] at h
    cases hs : s.step op with
    | ok r =>
      rw [hs, Outcome.bind_ok] at h
      obtain ⟨hn, l, hl⟩ := ih (step_inv hi hs) h
      rcases step_cases (s' := r.1) (p := r.2) hi hs with ⟨x, _, _, hn', hr⟩ | ⟨hr, hn', _⟩
      · exact ⟨by omega, (r.2, x) :: l, by rw [hl, hr]; simp⟩
      · exact ⟨by omega, l, by rw [hl, hr]⟩
    | throw => rw [hs] at h; cases h
    | ub => rw [hs] at h; cases h
    | diverges => rw [hs] at h; cases h

theorem find_first {s : CsStore δ} {r : Ref} (hg : r.beq globalRef = false)
    (h : s.findPosition r ≠ UNAVAILABLE) :
    ∃ r', (s.findPosition r, r') ∈ s.refs ∧ r'.beq r = true := by
  simp only [findPosition, hg] at h ⊢
  cases hf : s.refs.find? fun it => it.2.beq r with
  | none => simp [hf] at h
  | some it =>
    have h1 := List.mem_of_find?_eq_some hf
    have h2 := List.find?_some hf
    exact ⟨it.2, by simpa using h1, h2⟩

/-- The position an operation hands out carries the reference it was asked for. -/
theorem step_refAt {s s' : CsStore δ} {op : Op δ} {p : Nat} {r : Ref} (hi : Inv s)
    (h : s.step op = .ok (s', p)) (ha : asks op = some r) (hg : r.beq globalRef = false) :
    ∃ r', (p, r') ∈ s'.refs ∧ r'.beq r = true := by
  rcases step_cases hi h with ⟨r', hr', _, _, hr⟩ | ⟨hr, _, hf⟩
  · rw [ha] at hr'
    cases hr'
    exact ⟨r, by rw [hr]; simp, beq_refl r⟩
  · obtain ⟨_, rfl, hu⟩ := hf r ha hg
    rw [hr]
    exact find_first hg hu

theorem step_systems {s s' : CsStore δ} {op : Op δ} {p : Nat} (h : s.step op = .ok (s', p)) (r : Ref) :
    systemAt r s'.systems = (lastDefinition r [op]).or (systemAt r s.systems) := by
  cases op with
  | define c =>
    have : s'.systems = insertSystem c s.systems := by
      simp only [step, add] at h
      split at h
      · split at h
        · cases h
        · simp only [Outcome.ok.injEq, Prod.mk.injEq] at h
          rw [← h.1]
      · simp only [Outcome.ok.injEq, Prod.mk.injEq] at h
        rw [← h.1]
    rw [this, systemAt_insert]
    simp only [lastDefinition]
    split <;> simp
  | reserve q =>
    simp only [step, CsStore.reserve] at h
    split at h
    · cases h
    · simp only [Outcome.ok.injEq, Prod.mk.injEq] at h
      rw [← h.1]; rfl
  | ask q =>
    simp only [step, findOrReserve, CsStore.reserve] at h
    split at h
    · simp only [Outcome.ok.injEq, Prod.mk.injEq] at h
      rw [← h.1]; rfl
    · split at h
      · simp only [Outcome.ok.injEq, Prod.mk.injEq] at h
        rw [← h.1]; rfl
      · simp only [Outcome.ok.injEq, Prod.mk.injEq] at h
        rw [← h.1]; rfl
  | other =>
    simp only [step, Outcome.ok.injEq, Prod.mk.injEq] at h
    rw [← h.1]; rfl

theorem lastDefinition_append (r : Ref) (a b : List (Op δ)) :
    lastDefinition r (a ++ b) = (lastDefinition r b).or (lastDefinition r a) := by
  induction a with
  | nil => simp [lastDefinition]
  | cons op a ih =>
    cases op <;> simp only [List.cons_append, lastDefinition, ih, Option.or_assoc]

theorem run_systems {s s' : CsStore δ} {ops : List (Op δ)} (h : s.run ops = .ok s') (r : Ref) :
    systemAt r s'.systems = (lastDefinition r ops).or (systemAt r s.systems) := by
  induction ops generalizing s with
  | nil => cases h; rfl
  | cons op ops ih =>
    simp only [run] at h
    cases hs : s.step op with
    | ok x =>
      rw [hs, Outcome.bind_ok] at h
      have e : op :: ops = [op] ++ ops := rfl
      rw [ih h, step_systems (s' := x.1) (p := x.2) hs, e, lastDefinition_append, Option.or_assoc]
    | throw => rw [hs] at h; cases h
    | ub => rw [hs] at h; cases h
    | diverges => rw [hs] at h; cases h

/-! ## Properties -/

/-- **C45** a position handed out for a system, before or after it is defined, leads at any later
time to the last definition given for that system (to nothing if there is none). -/
theorem C45_position (n : Nat) (before after : List (Op δ)) (op : Op δ) (s s' s'' : CsStore δ) (p : Nat)
    (r : Ref) (hb : (init n).run before = .ok s) (hop : s.step op = .ok (s', p))
    (hr : asks op = some r) (hg : r.beq globalRef = false) (ha : s'.run after = .ok s'') :
    s''.findByPosition p = .ok (lastDefinition r (before ++ op :: after)) := by
  have hi := run_inv (init_inv n) hb
  have hi' := step_inv hi hop
  have hi'' := run_inv hi' ha
  obtain ⟨r', hm, hbeq⟩ := step_refAt hi hop hr hg
  obtain ⟨_, l, hl⟩ := run_append hi' ha
  have hm'' : (p, r') ∈ s''.refs := by rw [hl]; exact List.mem_append_left _ hm
  have hat := refAt_of_mem hi''.ascending hm''
  have hp := (hi''.below _ hm'').1
  have hsys : systemAt r s''.systems = lastDefinition r (before ++ op :: after) := by
    have e : before ++ op :: after = before ++ ([op] ++ after) := rfl
    rw [run_systems ha, step_systems hop, run_systems hb, e, lastDefinition_append,
      lastDefinition_append]
    simp [init, systemAt, Option.or_assoc]
  rw [findByPosition, if_neg (by simp only at hp; omega), hat]
  simp only [systemAt_congr hbeq, hsys]

/-- **C45** a system is found by its number once it is defined, as it was last defined. -/
theorem C45_find (n : Nat) (ops : List (Op δ)) (s : CsStore δ) (h : (init n).run ops = .ok s) (r : Ref)
    (hg : r.beq globalRef = false) : s.find r = .ok (lastDefinition r ops) := by
  rw [find, if_neg (by rw [hg]; simp), run_systems h]
  simp [init, systemAt]

/-- **C45** two different systems never share a position. -/
theorem C45_distinct (n : Nat) (before after : List (Op δ)) (op op' : Op δ) (s s' t t' : CsStore δ)
    (p : Nat) (r r' : Ref) (hb : (init n).run before = .ok s) (hop : s.step op = .ok (s', p))
    (ha : s'.run after = .ok t) (hop' : t.step op' = .ok (t', p)) (hr : asks op = some r)
    (hr' : asks op' = some r') (hg : r.beq globalRef = false) (hg' : r'.beq globalRef = false) :
    r.beq r' = true := by
  have hi := run_inv (init_inv n) hb
  have hi' := step_inv hi hop
  have ht := run_inv hi' ha
  have ht' := step_inv ht hop'
  obtain ⟨a, hm, ha1⟩ := step_refAt hi hop hr hg
  obtain ⟨_, l, hl⟩ := run_append hi' ha
  obtain ⟨b, hm', hb1⟩ := step_refAt ht hop' hr' hg'
  have hstep : ∃ k, t'.refs = t.refs ++ k := by
    rcases step_cases ht hop' with ⟨x, _, _, _, h⟩ | ⟨h, _⟩
    · exact ⟨_, h⟩
    · exact ⟨[], by rw [h]; simp⟩
  obtain ⟨k, hk⟩ := hstep
  have hm2 : (p, a) ∈ t'.refs := by
    rw [hk, hl]
    exact List.mem_append_left _ (List.mem_append_left _ hm)
  have e1 := refAt_of_mem ht'.ascending hm2
  have e2 := refAt_of_mem ht'.ascending hm'
  simp only at e1 e2
  rw [e1] at e2
  cases e2
  exact beq_trans (beq_symm ha1) hb1

/-- **C45** whoever asks for the position of a system gets the same one at any time (as long as
fewer positions than `INT_MAX` were handed out). -/
theorem C45_stable (n : Nat) (before after : List (Op δ)) (s s' t t' : CsStore δ) (p q : Nat)
    (r r' : Ref) (hb : (init n).run before = .ok s) (hop : s.step (.ask r) = .ok (s', p))
    (ha : s'.run after = .ok t) (hop' : t.step (.ask r') = .ok (t', q)) (hrr : r.beq r' = true)
    (hbound : t.next ≤ UNAVAILABLE) : p = q ∧ t' = t := by
  by_cases hg : r.beq globalRef = true
  · have hg' : r'.beq globalRef = true := beq_trans (beq_symm hrr) hg
    simp only [step, findOrReserve, hg, hg', if_true, Outcome.ok.injEq, Prod.mk.injEq] at hop hop'
    exact ⟨by rw [← hop.2, ← hop'.2], hop'.1.symm⟩
  · have hg0 : r.beq globalRef = false := by simpa using hg
    have hg' : r'.beq globalRef = false := by
      cases h : r'.beq globalRef with
      | false => rfl
      | true => exact absurd (beq_trans hrr h) hg
    have hi := run_inv (init_inv n) hb
    have hi' := step_inv hi hop
    have ht := run_inv hi' ha
    obtain ⟨hn, l, hl⟩ := run_append hi' ha
    -- the entry found right after the first question is found by the second one
    have hfirst : ∃ x, s'.refs.find? (fun it => it.2.beq r) = some (p, x) := by
      rcases step_cases hi hop with ⟨x, hx, rfl, _, hr⟩ | ⟨hr, _, hf⟩
      · cases hx
        -- nothing was found before
        have hu : s.findPosition r = UNAVAILABLE := by
          apply Classical.byContradiction
          intro hu
          simp only [step, findOrReserve, hg0, if_neg hu, Bool.false_eq_true, if_false,
            Outcome.ok.injEq, Prod.mk.injEq] at hop
          have := hop.1
          subst this
          have := congrArg List.length hr
          simp at this
        have hnone : s.refs.find? (fun it => it.2.beq r) = none := by
          simp only [findPosition, hg0] at hu
          cases hf : s.refs.find? fun it => it.2.beq r with
          | none => rfl
          | some it =>
            simp only [hf] at hu
            have h1 := (hi.below it (List.mem_of_find?_eq_some hf)).2
            have h2 : s.next ≤ s'.next := by
              rcases step_cases hi hop with ⟨_, _, _, h, _⟩ | ⟨_, h, _⟩ <;> omega
            simp only [Bool.false_eq_true, if_false] at hu
            omega
        refine ⟨r, ?_⟩
        rw [hr, List.find?_append, hnone]
        simp [beq_refl]
      · obtain ⟨_, hp, hu⟩ := hf r rfl hg0
        rw [hr]
        cases hff : s.refs.find? fun it => it.2.beq r with
        | none => simp [findPosition, hg0, hff] at hp; exact absurd hp hu
        | some it =>
          simp only [findPosition, hg0, hff, Bool.false_eq_true, if_false] at hp
          exact ⟨it.2, by rw [hp]⟩
    obtain ⟨x, hx⟩ := hfirst
    have hfun : (fun it : Nat × Ref => it.2.beq r) = fun it => it.2.beq r' := by
      funext it
      cases h : it.2.beq r' with
      | true => exact beq_trans h (beq_symm hrr)
      | false =>
        cases h2 : it.2.beq r with
        | false => rfl
        | true => rw [beq_trans h2 hrr] at h; exact h
    have hx' : t.refs.find? (fun it => it.2.beq r') = some (p, x) := by
      rw [← hfun, hl, List.find?_append, hx]; rfl
    have hpos : t.findPosition r' = p := by
      simp only [findPosition, hg', hx', Bool.false_eq_true, if_false]
    have hlt := (ht.below _ (List.mem_of_find?_eq_some hx')).2
    simp only [step, findOrReserve, hg', hpos, Bool.false_eq_true, if_false] at hop'
    rw [if_neg (by simp only at hlt; omega)] at hop'
    simp only [Outcome.ok.injEq, Prod.mk.injEq] at hop'
    exact ⟨hop'.2, hop'.1.symm⟩

/-- **C45** defining a system never fails: the conflict it checks for cannot arise. Reserving fails
exactly for the global system, asking never fails. -/
theorem C45_succeeds (n : Nat) (ops : List (Op δ)) (s : CsStore δ) (h : (init n).run ops = .ok s)
    (op : Op δ) : (∃ s' p, s.step op = .ok (s', p)) ∨
      ∃ r, op = .reserve r ∧ r.beq globalRef = true ∧ s.step op = .throw := by
  have hi := run_inv (init_inv n) h
  have hl : ∀ it ∈ s.refs, it.1 < s.next := fun it h => (hi.below it h).2
  cases op with
  | define c => exact .inl ⟨⟨s.next + 1, insertRef s.next c.ref s.refs, insertSystem c s.systems⟩, s.next,
      by simp only [step, add, refAt_none hl]⟩
  | reserve r =>
    by_cases hg : r.beq globalRef = true
    · exact .inr ⟨r, rfl, hg, by simp only [step, CsStore.reserve, if_pos hg]⟩
    · exact .inl ⟨⟨s.next + 1, insertRef s.next r s.refs, s.systems⟩, s.next,
        by simp only [step, CsStore.reserve, if_neg hg]⟩
  | ask r =>
    left
    simp only [step, findOrReserve]
    split
    · exact ⟨_, _, rfl⟩
    · split
      · rename_i hg _
        exact ⟨⟨s.next + 1, insertRef s.next r s.refs, s.systems⟩, s.next,
          by rw [CsStore.reserve, if_neg hg]⟩
      · exact ⟨_, _, rfl⟩
  | other => exact .inl ⟨_, _, rfl⟩

-- reserved before it is defined, another system in between, then found
example : ∃ s : CsStore Nat, (init 0).run [.ask ⟨0, 5, Ref.NO_ID⟩, .define ⟨⟨0, 7, 1⟩, 70⟩, .other,
    .define ⟨⟨0, 5, 2⟩, 50⟩] = .ok s ∧ (s.findByPosition 1).toOption = some (some ⟨⟨0, 5, 2⟩, 50⟩) ∧
    (s.findByPosition 2).toOption = some (some ⟨⟨0, 7, 1⟩, 70⟩) :=
  ⟨_, rfl, rfl, rfl⟩

/-! ## Orientations -/

theorem mem_insertSystem {c : CSys δ} {it : Ref × CSys δ} {l : List (Ref × CSys δ)}
    (h : it ∈ insertSystem c l) : it.2 = c ∨ it ∈ l := by
  induction l with
  | nil => simp only [insertSystem, List.mem_singleton] at h; exact .inl (by rw [h])
  | cons x l ih =>
    simp only [insertSystem] at h
    split at h
    · rcases List.mem_cons.mp h with rfl | h
      · exact .inl rfl
      · exact .inr h
    · split at h
      · rcases List.mem_cons.mp h with rfl | h
        · exact .inr List.mem_cons_self
        · rcases ih h with h | h
          · exact .inl h
          · exact .inr (List.mem_cons_of_mem _ h)
      · rcases List.mem_cons.mp h with rfl | h
        · exact .inl rfl
        · exact .inr (List.mem_cons_of_mem _ h)

/-- Keys are the references of the systems, up to equality, in ascending order; every system defined
has a position. -/
structure SysInv (s : CsStore δ) : Prop where
  key : ∀ it ∈ s.systems, it.1.beq it.2.ref = true
  placed : ∀ it ∈ s.systems, ∃ e ∈ s.refs, e.2.beq it.2.ref = true
  ascending : s.systems.Pairwise fun a b => a.1.lt b.1 = true

theorem insertSystem_key {c : CSys δ} {x : Ref × CSys δ} {l : List (Ref × CSys δ)}
    (h : x ∈ insertSystem c l) : x.1 = c.ref ∨ ∃ y ∈ l, y.1 = x.1 := by
  induction l with
  | nil => simp only [insertSystem, List.mem_singleton] at h; exact .inl (by rw [h])
  | cons z l ih =>
    simp only [insertSystem] at h
    split at h
    · rcases List.mem_cons.mp h with rfl | h
      · exact .inl rfl
      · exact .inr ⟨x, h, rfl⟩
    · split at h
      · rcases List.mem_cons.mp h with rfl | h
        · exact .inr ⟨_, List.mem_cons_self, rfl⟩
        · rcases ih h with h | ⟨y, hy, e⟩
          · exact .inl h
          · exact .inr ⟨y, List.mem_cons_of_mem _ hy, e⟩
      · rcases List.mem_cons.mp h with rfl | h
        · exact .inr ⟨z, List.mem_cons_self, rfl⟩
        · exact .inr ⟨x, List.mem_cons_of_mem _ h, rfl⟩

theorem insertSystem_ascending (c : CSys δ) {l : List (Ref × CSys δ)}
    (h : l.Pairwise fun a b => a.1.lt b.1 = true) :
    (insertSystem c l).Pairwise fun a b => a.1.lt b.1 = true := by
  induction l with
  | nil => simp [insertSystem]
  | cons x l ih =>
    rw [List.pairwise_cons] at h
    simp only [insertSystem]
    split
    · rename_i hlt
      rw [List.pairwise_cons]
      refine ⟨?_, List.pairwise_cons.mpr h⟩
      intro y hy
      rcases List.mem_cons.mp hy with rfl | hy
      · exact hlt
      · exact C06_trans _ _ _ hlt (h.1 y hy)
    · split
      · rename_i hlt
        rw [List.pairwise_cons]
        refine ⟨?_, ih h.2⟩
        intro y hy
        rcases insertSystem_key hy with e | ⟨z, hz, e⟩
        · rw [e]; exact hlt
        · rw [← e]; exact h.1 z hz
      · rw [List.pairwise_cons]
        exact ⟨h.1, h.2⟩

theorem insertSystem_keys (c : CSys δ) {l : List (Ref × CSys δ)} (h : ∀ it ∈ l, it.1.beq it.2.ref = true) :
    ∀ it ∈ insertSystem c l, it.1.beq it.2.ref = true := by
  induction l with
  | nil =>
    intro it hm
    simp only [insertSystem, List.mem_singleton] at hm
    rw [hm]; exact beq_refl _
  | cons x l ih =>
    intro it hm
    simp only [insertSystem] at hm
    split at hm
    · rcases List.mem_cons.mp hm with rfl | hm
      · exact beq_refl _
      · exact h it hm
    · split at hm
      · rcases List.mem_cons.mp hm with rfl | hm
        · exact h _ List.mem_cons_self
        · exact ih (fun y hy => h y (List.mem_cons_of_mem _ hy)) it hm
      · rename_i h1 h2
        rcases List.mem_cons.mp hm with rfl | hm
        · rcases C06_trichotomy c.ref x.1 with ⟨h3, _, _⟩ | ⟨_, h3, _⟩ | ⟨_, _, h3⟩
          · exact absurd h3 h1
          · exact absurd h3 h2
          · exact beq_symm h3
        · exact h it (List.mem_cons_of_mem _ hm)

theorem step_sysInv {s s' : CsStore δ} {op : Op δ} {p : Nat} (hi : Inv s) (hs : SysInv s)
    (h : s.step op = .ok (s', p)) : SysInv s' := by
  have hrefs : ∃ k, s'.refs = s.refs ++ k := by
    rcases step_cases hi h with ⟨x, _, _, _, h⟩ | ⟨h, _⟩
    · exact ⟨_, h⟩
    · exact ⟨[], by rw [h]; simp⟩
  obtain ⟨k, hk⟩ := hrefs
  have hsame : s'.systems = s.systems → SysInv s' := by
    intro e
    refine ⟨by rw [e]; exact hs.key, ?_, by rw [e]; exact hs.ascending⟩
    intro it hm
    rw [e] at hm
    obtain ⟨x, hx, hb⟩ := hs.placed it hm
    exact ⟨x, by rw [hk]; exact List.mem_append_left _ hx, hb⟩
  have hl : ∀ it ∈ s.refs, it.1 < s.next := fun it h => (hi.below it h).2
  cases op with
  | define c =>
    simp only [step, add, refAt_none hl, Outcome.ok.injEq, Prod.mk.injEq] at h
    obtain ⟨rfl, rfl⟩ := h
    refine ⟨insertSystem_keys c hs.key, ?_, insertSystem_ascending c hs.ascending⟩
    intro it hm
    rcases mem_insertSystem hm with e | hm
    · refine ⟨(s.next, c.ref), ?_, by rw [e]; exact beq_refl _⟩
      simp only [insertRef_append _ _ _ hl]
      simp
    · obtain ⟨x, hx, hb⟩ := hs.placed it hm
      exact ⟨x, by rw [hk]; exact List.mem_append_left _ hx, hb⟩
  | reserve r =>
    simp only [step, CsStore.reserve] at h
    split at h
    · cases h
    · simp only [Outcome.ok.injEq, Prod.mk.injEq] at h
      exact hsame (by rw [← h.1])
  | ask r =>
    simp only [step, findOrReserve, CsStore.reserve] at h
    split at h
    · simp only [Outcome.ok.injEq, Prod.mk.injEq] at h
      exact hsame (by rw [← h.1])
    · split at h
      · simp only [Outcome.ok.injEq, Prod.mk.injEq] at h
        exact hsame (by rw [← h.1])
      · simp only [Outcome.ok.injEq, Prod.mk.injEq] at h
        exact hsame (by rw [← h.1])
  | other =>
    simp only [step, Outcome.ok.injEq, Prod.mk.injEq] at h
    exact hsame (by rw [← h.1])

theorem run_sysInv {s s' : CsStore δ} {ops : List (Op δ)} (hi : Inv s) (hs : SysInv s)
    (h : s.run ops = .ok s') : SysInv s' := by
  induction ops generalizing s with
  | nil => cases h; exact hs
  | cons op ops ih =>
    simp only [run] at h
    cases hst : s.step op with
    | ok r => rw [hst, Outcome.bind_ok] at h; exact ih (step_inv hi hst) (step_sysInv hi hs hst) h
    | throw => rw [hst] at h; cases h
    | ub => rw [hst] at h; cases h
    | diverges => rw [hst] at h; cases h

theorem systemAt_of_mem {it : Ref × CSys δ} {l : List (Ref × CSys δ)}
    (h : l.Pairwise fun a b => a.1.lt b.1 = true) (hm : it ∈ l) : systemAt it.1 l = some it.2 := by
  induction l with
  | nil => cases hm
  | cons x l ih =>
    rw [List.pairwise_cons] at h
    rcases List.mem_cons.mp hm with rfl | hm
    · simp [systemAt, beq_refl]
    · have hlt := h.1 it hm
      have : x.1.beq it.1 = false := by
        rcases C06_trichotomy x.1 it.1 with ⟨_, _, h3⟩ | ⟨h3, _, _⟩ | ⟨h3, _, _⟩
        · exact h3
        · rw [hlt] at h3; cases h3
        · rw [hlt] at h3; cases h3
      rw [systemAt, if_neg (by rw [this]; simp)]
      exact ih h.2 hm

theorem relative_not_global {r : Ref} (h : r.type = RELATIVE) : r.beq globalRef = false :=
  C06_types _ _ (by rw [h]; decide)

theorem loop_cases (same : δ → δ → Bool) (s : CsStore δ) (o : CSys δ) (l : List (Ref × CSys δ)) :
    (orientationLoop same s o l = 0 ∧ ∀ it ∈ l, it.2.ref.type = RELATIVE →
      same o.data it.2.data = false) ∨
    ∃ it ∈ l, it.2.ref.type = RELATIVE ∧ same o.data it.2.data = true ∧
      orientationLoop same s o l = s.findPosition it.2.ref := by
  induction l with
  | nil => exact .inl ⟨rfl, fun _ h => by cases h⟩
  | cons x l ih =>
    simp only [orientationLoop]
    by_cases ht : x.2.ref.type = RELATIVE
    · rw [if_pos ht]
      by_cases hs : same o.data x.2.data = true
      · rw [if_pos hs]
        exact .inr ⟨x, List.mem_cons_self, ht, hs, rfl⟩
      · rw [if_neg hs]
        rcases ih with ⟨h, h2⟩ | ⟨it, hm, h⟩
        · refine .inl ⟨h, fun it hm => ?_⟩
          rcases List.mem_cons.mp hm with rfl | hm
          · intro _; simpa using hs
          · exact h2 it hm
        · exact .inr ⟨it, List.mem_cons_of_mem _ hm, h⟩
    · rw [if_neg ht]
      rcases ih with ⟨h, h2⟩ | ⟨it, hm, h⟩
      · refine .inl ⟨h, fun it hm => ?_⟩
        rcases List.mem_cons.mp hm with rfl | hm
        · exact fun h => absurd h ht
        · exact h2 it hm
      · exact .inr ⟨it, List.mem_cons_of_mem _ hm, h⟩

theorem findPosition_placed {s : CsStore δ} (hi : Inv s) (hb : s.next ≤ UNAVAILABLE) {r : Ref}
    (hg : r.beq globalRef = false) (h : ∃ e ∈ s.refs, e.2.beq r = true) :
    s.findPosition r ≠ 0 ∧ ∃ r', refAt (s.findPosition r) s.refs = some r' ∧ r'.beq r = true := by
  have hu : s.findPosition r ≠ UNAVAILABLE := by
    simp only [findPosition, hg, Bool.false_eq_true, if_false]
    cases hf : s.refs.find? fun it => it.2.beq r with
    | none =>
      obtain ⟨e, he, hb⟩ := h
      have := List.find?_eq_none.mp hf e he
      exact absurd hb this
    | some it =>
      have := (hi.below it (List.mem_of_find?_eq_some hf)).2
      simp only
      omega
  obtain ⟨r', hm, hbq⟩ := find_first hg hu
  have h1 := refAt_of_mem hi.ascending hm
  have h2 := (hi.below _ hm).1
  simp only at h1 h2
  exact ⟨by omega, r', h1, hbq⟩

/-- **C45** the position given to the orientation of an element leads to that orientation or to one
that is the same; a new one is stored exactly when there was none. -/
theorem C45_orientation (same : δ → δ → Bool) (n : Nat) (ops : List (Op δ)) (s : CsStore δ)
    (h : (init n).run ops = .ok s) (o : CSys δ) (ho : o.ref.type = RELATIVE)
    (hb : s.next + 1 ≤ UNAVAILABLE) :
    ∃ s' p c, s.addOrFindOrientation same o = .ok (s', p) ∧ s'.findByPosition p = .ok (some c) ∧
      c.ref.type = RELATIVE ∧
      ((c = o ∧ (∀ it ∈ s.systems, it.2.ref.type = RELATIVE → same o.data it.2.data = false) ∧
          s.step (.define o) = .ok (s', s.next)) ∨
        (same o.data c.data = true ∧ s' = s)) := by
  have hi := run_inv (init_inv n) h
  have hs := run_sysInv (init_inv n) ⟨fun _ h => (by cases h), fun _ h => (by cases h), List.Pairwise.nil⟩ h
  have hl : ∀ it ∈ s.refs, it.1 < s.next := fun it h => (hi.below it h).2
  rcases loop_cases same s o s.systems with ⟨h0, hno⟩ | ⟨it, hm, ht, hsame, hp⟩
  · have hadd : s.add o = .ok (⟨s.next + 1, insertRef s.next o.ref s.refs, insertSystem o s.systems⟩,
        s.next) := by simp only [add, refAt_none hl]
    have hst : s.step (.define o) = .ok (⟨s.next + 1, insertRef s.next o.ref s.refs,
        insertSystem o s.systems⟩, s.next) := hadd
    have hi' := step_inv hi hst
    have hpl := findPosition_placed (r := o.ref) hi' hb (relative_not_global ho)
      ⟨(s.next, o.ref), by rw [insertRef_append _ _ _ hl]; simp, beq_refl _⟩
    obtain ⟨hp0, r', hr', hbq⟩ := hpl
    refine ⟨_, findPosition ⟨s.next + 1, insertRef s.next o.ref s.refs, insertSystem o s.systems⟩ o.ref,
      o, ?_, ?_, ho, .inl ⟨rfl, hno, hst⟩⟩
    · rw [addOrFindOrientation, if_pos h0, hadd, Outcome.bind_ok]
    · rw [findByPosition, if_neg hp0, hr']
      simp only [systemAt_insert]
      rw [if_pos (beq_symm hbq)]
  · have hpl := findPosition_placed (r := it.2.ref) hi (by omega) (relative_not_global ht)
      (hs.placed it hm)
    obtain ⟨hp0, r', hr', hbq⟩ := hpl
    refine ⟨s, orientationLoop same s o s.systems, it.2, ?_, ?_, ht, .inr ⟨hsame, rfl⟩⟩
    · rw [addOrFindOrientation, if_neg (by rw [hp]; exact hp0)]
    · rw [hp, findByPosition, if_neg hp0, hr']
      simp only [Outcome.ok.injEq]
      rw [systemAt_congr (beq_trans hbq (beq_symm (hs.key it hm))), systemAt_of_mem hs.ascending hm]

end Vega.CsStoreSpec
