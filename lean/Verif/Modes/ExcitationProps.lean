import Verif.Modes.Excitation
import Mathlib.Tactic.Ring
import Mathlib.Tactic.FieldSimp
import Mathlib.Tactic.Linarith

/-! # C109: dynamic excitations have the loads, amplitudes and phases that are given -/
namespace Vega

/-! ## Specification -/
namespace ExcitationSpec

/-- The phase in degrees of an excitation at the frequency `f` (Nastran, as generally known):
`P(f) = A B(f) exp(i (φ(f) + θ - 2 π f τ))`. -/
def phaseAt (theta tau : Dbl) (phi : Dbl → Dbl) (f : Dbl) : Dbl := phi f + theta - 360 * f * tau

/-- Two phases in degrees are the same up to whole turns. -/
def Same (a b : Dbl) : Prop := ∃ k : Int, a - b = 360 * k

end ExcitationSpec

namespace Excitation
open ExcitationSpec

/-! ## Lemmas on the reading -/

theorem run_append (strict : Bool) (a b : List Card) (s : State) :
    run strict (a ++ b) s = (run strict a s).bind (run strict b) := by
  induction a generalizing s with
  | nil => rfl
  | cons c a ih =>
    simp only [List.cons_append, run]
    cases step strict s c <;> simp [Outcome.bind, ih]

/-- Nothing is lost by a card. -/
theorem step_keeps {strict : Bool} {s s' : State} {c : Card} (h : step strict s c = .ok s') :
    s.loads ⊆ s'.loads ∧ s.excites ⊆ s'.excites ∧ (∃ l, s'.phases = s.phases ++ l) ∧ ∃ l, s'.excits = s.excits ++ l := by
  cases c with
  | load i => simp only [step, Outcome.ok.injEq] at h; subst h; exact ⟨List.subset_cons_self _ _, fun _ h => h, ⟨[], by simp⟩, ⟨[], by simp⟩⟩
  | darea i => simp only [step, Outcome.ok.injEq] at h; subst h; exact ⟨fun _ h => h, List.subset_cons_self _ _, ⟨[], by simp⟩, ⟨[], by simp⟩⟩
  | lseq a b l => simp only [step, Outcome.ok.injEq] at h; subst h; exact ⟨fun _ h => h, fun _ h => h, ⟨[], by simp⟩, ⟨[], by simp⟩⟩
  | delay i t =>
    simp only [step, addPhase] at h
    split at h
    · cases h
    · cases h; exact ⟨fun _ h => h, fun _ h => h, ⟨_, rfl⟩, ⟨[], by simp⟩⟩
  | dphase i t =>
    simp only [step, addPhase] at h
    split at h
    · cases h
    · cases h; exact ⟨fun _ h => h, fun _ h => h, ⟨_, rfl⟩, ⟨[], by simp⟩⟩
  | rload1 r =>
    simp only [step] at h
    split at h
    · split at h
      · cases h
      · cases h; exact ⟨fun _ h => h, fun _ h => h, ⟨[], by simp⟩, ⟨[], by simp⟩⟩
    · cases h; exact ⟨fun _ h => h, List.subset_cons_self _ _, ⟨[], by simp⟩, ⟨_, rfl⟩⟩
  | rload2 r =>
    simp only [step] at h
    cases hr : resolve s r.excite <;> simp only [hr, Outcome.bind, reduceCtorEq, Outcome.ok.injEq] at h
    subst h
    exact ⟨fun _ h => h, fun _ h => h, ⟨[], by simp⟩, ⟨_, rfl⟩⟩

theorem run_keeps {strict : Bool} {cs : List Card} {s s' : State} (h : run strict cs s = .ok s') :
    s.loads ⊆ s'.loads ∧ s.excites ⊆ s'.excites ∧ (∃ l, s'.phases = s.phases ++ l) ∧ ∃ l, s'.excits = s.excits ++ l := by
  induction cs generalizing s with
  | nil => cases h; exact ⟨fun _ h => h, fun _ h => h, ⟨[], by simp⟩, ⟨[], by simp⟩⟩
  | cons c cs ih =>
    simp only [run] at h
    cases hc : step strict s c <;> simp only [hc, Outcome.bind, reduceCtorEq] at h
    obtain ⟨a1, a2, ⟨l1, a3⟩, ⟨l2, a4⟩⟩ := step_keeps hc
    obtain ⟨b1, b2, ⟨l3, b3⟩, ⟨l4, b4⟩⟩ := ih h
    exact ⟨fun _ h => b1 (a1 h), fun _ h => b2 (a2 h), ⟨l1 ++ l3, by rw [b3, a3, List.append_assoc]⟩, ⟨l2 ++ l4, by rw [b4, a4, List.append_assoc]⟩⟩

/-- The run up to a card, the card and the run after it. -/
theorem run_split {strict : Bool} {a b : List Card} {c : Card} {s s' : State} (h : run strict (a ++ c :: b) s = .ok s') :
    ∃ s1 s2, run strict a s = .ok s1 ∧ step strict s1 c = .ok s2 ∧ run strict b s2 = .ok s' := by
  rw [run_append] at h
  cases h1 : run strict a s <;> simp only [h1, Outcome.bind, reduceCtorEq] at h
  simp only [run] at h
  rename_i s1
  cases h2 : step strict s1 c <;> simp only [h2, Outcome.bind, reduceCtorEq] at h
  exact ⟨s1, _, rfl, h2, h⟩

/-- A card creates the set `LOAD` of a number only if it is a load of that number. -/
theorem run_loads {strict : Bool} {cs : List Card} {s s' : State} (h : run strict cs s = .ok s') (i : Int) :
    i ∈ s'.loads ↔ i ∈ s.loads ∨ Card.load i ∈ cs := by
  induction cs generalizing s with
  | nil => cases h; simp
  | cons c cs ih =>
    simp only [run] at h
    cases hc : step strict s c <;> simp only [hc, Outcome.bind, reduceCtorEq] at h
    rw [ih h]
    rename_i s1
    have : i ∈ s1.loads ↔ i ∈ s.loads ∨ Card.load i = c := by
      cases c with
      | load j => simp only [step, Outcome.ok.injEq] at hc; subst hc; simp [or_comm]
      | darea j => simp only [step, Outcome.ok.injEq] at hc; subst hc; simp
      | lseq a b l => simp only [step, Outcome.ok.injEq] at hc; subst hc; simp
      | delay j t => simp only [step, addPhase] at hc; split at hc <;> cases hc; simp
      | dphase j t => simp only [step, addPhase] at hc; split at hc <;> cases hc; simp
      | rload1 r =>
        simp only [step] at hc
        split at hc
        · split at hc <;> cases hc; simp
        · cases hc; simp
      | rload2 r =>
        simp only [step] at hc
        cases hr : resolve s r.excite <;> simp only [hr, Outcome.bind, reduceCtorEq, Outcome.ok.injEq] at hc
        subst hc; simp
    rw [this, List.mem_cons, or_assoc]

/-- A card that creates the set `EXCITEID` of a number. -/
def Creates (i : Int) : Card → Prop
  | .darea j => j = i
  | .rload1 r => r.tableP = 0 ∧ r.excite = i
  | _ => False

theorem run_excites {strict : Bool} {cs : List Card} {s s' : State} (h : run strict cs s = .ok s') (i : Int) :
    i ∈ s'.excites ↔ i ∈ s.excites ∨ ∃ c ∈ cs, Creates i c := by
  induction cs generalizing s with
  | nil => cases h; simp
  | cons c cs ih =>
    simp only [run] at h
    cases hc : step strict s c <;> simp only [hc, Outcome.bind, reduceCtorEq] at h
    rw [ih h]
    rename_i s1
    have : i ∈ s1.excites ↔ i ∈ s.excites ∨ Creates i c := by
      cases c with
      | load j => simp only [step, Outcome.ok.injEq] at hc; subst hc; simp [Creates]
      | darea j => simp only [step, Outcome.ok.injEq] at hc; subst hc; simp only [List.mem_cons, Creates]; rw [or_comm, eq_comm]
      | lseq a b l => simp only [step, Outcome.ok.injEq] at hc; subst hc; simp [Creates]
      | delay j t => simp only [step, addPhase] at hc; split at hc <;> cases hc; simp [Creates]
      | dphase j t => simp only [step, addPhase] at hc; split at hc <;> cases hc; simp [Creates]
      | rload1 r =>
        simp only [step] at hc
        split at hc
        · rename_i hp
          split at hc <;> cases hc; simp [Creates, hp]
        · rename_i hp
          cases hc
          simp only [List.mem_cons, Creates, not_not.mp hp, true_and]; rw [or_comm, eq_comm]
      | rload2 r =>
        simp only [step] at hc
        cases hr : resolve s r.excite <;> simp only [hr, Outcome.bind, reduceCtorEq, Outcome.ok.injEq] at hc
        subst hc; simp [Creates]
    rw [this, or_assoc]
    simp

/-- Without `LOADSET` and `LSEQ` there is no set `LOADSET`. -/
theorem run_loadsets {strict : Bool} {cs : List Card} {s s' : State} (h : run strict cs s = .ok s')
    (hc : ∀ a b l, Card.lseq a b l ∉ cs) : s'.loadsets = s.loadsets := by
  induction cs generalizing s with
  | nil => cases h; rfl
  | cons c cs ih =>
    simp only [run] at h
    cases hs : step strict s c <;> simp only [hs, Outcome.bind, reduceCtorEq] at h
    rw [ih h fun a b l hm => hc a b l (List.mem_cons_of_mem _ hm)]
    rename_i s1
    cases c with
    | load j => simp only [step, Outcome.ok.injEq] at hs; subst hs; rfl
    | darea j => simp only [step, Outcome.ok.injEq] at hs; subst hs; rfl
    | lseq a b l => exact absurd List.mem_cons_self (hc a b l)
    | delay j t => simp only [step, addPhase] at hs; split at hs <;> cases hs; rfl
    | dphase j t => simp only [step, addPhase] at hs; split at hs <;> cases hs; rfl
    | rload1 r =>
      simp only [step] at hs
      split at hs
      · split at hs <;> cases hs; rfl
      · cases hs; rfl
    | rload2 r =>
      simp only [step] at hs
      cases hr : resolve s r.excite <;> simp only [hr, Outcome.bind, reduceCtorEq, Outcome.ok.injEq] at hs
      subst hs; rfl

/-- The number of a `DELAY` or `DPHASE`, with its value. -/
def phaseCard : Card → Option (Int × Phase)
  | .delay i t => some (i, .delay t)
  | .dphase i t => some (i, .degrees t)
  | _ => none

/-- The `DynaPhase` are those of the cards; their numbers are different if the reading succeeds. -/
theorem run_phases {strict : Bool} {cs : List Card} {s s' : State} (h : run strict cs s = .ok s')
    (hn : (s.phases.map Prod.fst).Nodup) :
    s'.phases = s.phases ++ cs.filterMap phaseCard ∧ (s'.phases.map Prod.fst).Nodup := by
  induction cs generalizing s with
  | nil => cases h; exact ⟨by simp, hn⟩
  | cons c cs ih =>
    simp only [run] at h
    cases hs : step strict s c <;> simp only [hs, Outcome.bind, reduceCtorEq] at h
    rename_i s1
    have key : s1.phases = s.phases ++ (phaseCard c).toList ∧ (s1.phases.map Prod.fst).Nodup := by
      have add : ∀ i p, addPhase i p s = .ok s1 → s1.phases = s.phases ++ [(i, p)] ∧ (s1.phases.map Prod.fst).Nodup := by
        intro i p ha
        unfold addPhase at ha
        split at ha
        · cases ha
        · rename_i hi
          cases ha
          refine ⟨rfl, ?_⟩
          rw [List.map_append, List.nodup_append]
          refine ⟨hn, by simp, ?_⟩
          intro a ha b hb
          simp only [List.map_cons, List.map_nil, List.mem_singleton] at hb
          subst hb
          rintro rfl
          exact hi ha
      cases c with
      | load j => simp only [step, Outcome.ok.injEq] at hs; subst hs; exact ⟨by simp [phaseCard], hn⟩
      | darea j => simp only [step, Outcome.ok.injEq] at hs; subst hs; exact ⟨by simp [phaseCard], hn⟩
      | lseq a b l => simp only [step, Outcome.ok.injEq] at hs; subst hs; exact ⟨by simp [phaseCard], hn⟩
      | delay j t => exact add _ _ hs
      | dphase j t => exact add _ _ hs
      | rload1 r =>
        simp only [step] at hs
        split at hs
        · split at hs <;> cases hs; exact ⟨by simp [phaseCard], hn⟩
        · cases hs; exact ⟨by simp [phaseCard], hn⟩
      | rload2 r =>
        simp only [step] at hs
        cases hr : resolve s r.excite <;> simp only [hr, Outcome.bind, reduceCtorEq, Outcome.ok.injEq] at hs
        subst hs; exact ⟨by simp [phaseCard], hn⟩
    obtain ⟨h1, h2⟩ := ih h key.2
    refine ⟨?_, h2⟩
    rw [h1, key.1, List.append_assoc, List.filterMap_cons]
    cases phaseCard c <;> rfl

theorem find_nodup {l : List (Int × Phase)} (hn : (l.map Prod.fst).Nodup) {i : Int} {p : Phase} (hm : (i, p) ∈ l) :
    l.find? (fun q => q.1 = i) = some (i, p) := by
  induction l with
  | nil => exact nomatch hm
  | cons q l ih =>
    rw [List.map_cons, List.nodup_cons] at hn
    rcases List.mem_cons.mp hm with rfl | hm
    · simp
    · have : q.1 ≠ i := fun e => hn.1 (List.mem_map.mpr ⟨(i, p), hm, e.symm⟩)
      simp [this, ih hn.2 hm]

/-! ## Code_Aster -/

/-- C109, phases: a phase given by the number of a `DPHASE` is the one of that card, wherever the card stands in the file. -/
theorem C109_phase (strict : Bool) (sel : List Int) (cs : List Card) (s : State) (h : run strict cs (init sel) = .ok s)
    (i : Int) (theta : Dbl) (hm : Card.dphase i theta ∈ cs) : phaseOf s (.card i) = some (.degrees theta) := by
  obtain ⟨h1, h2⟩ := run_phases h (by simp [init])
  have : (i, Phase.degrees theta) ∈ s.phases := by
    rw [h1]
    exact List.mem_append_right _ (List.mem_filterMap.mpr ⟨_, hm, rfl⟩)
  simp [phaseOf, find_nodup h2 this]

/-- C109 for Code_Aster, without delay and phase table, without `LSEQ`, when the loads stand before the `RLOAD2`: the excitation is
that of the load with its number, with the phase of Nastran at every frequency. -/
theorem C109_aster_partial (strict modal : Bool) (before after : List Card) (r : RLoad) (s : State) (theta : Dbl)
    (h : run strict (before ++ .rload2 r :: after) (init []) = .ok s) (hl : Card.load r.excite ∈ before)
    (hq : ∀ a b l, Card.lseq a b l ∉ before)
    (hp : r.phase = .own (.degrees theta) ∨ ∃ i, r.phase = .card i ∧ Card.dphase i theta ∈ before ++ .rload2 r :: after) :
    ∃ e ∈ s.excits, targetExists s e = true ∧
      writeAster modal s e = .ok ⟨(.load, r.excite), r.tableB, .degrees theta, if modal then some r.motion else none⟩ ∧
      ∀ f, Same theta (phaseAt theta 0 (fun _ => 0) f) := by
  obtain ⟨s1, s2, h1, h2, h3⟩ := run_split h
  have hload : r.excite ∈ s1.loads := (run_loads h1 _).mpr (.inr hl)
  have hset : s1.loadsets = [] := by rw [run_loadsets h1 hq]; rfl
  have hr : resolve s1 r.excite = .ok (.load, r.excite) := by simp [resolve, hset, plain, hload]
  simp only [step, hr, Outcome.bind, Outcome.ok.injEq] at h2
  subst h2
  obtain ⟨k1, -, -, l, k4⟩ := run_keeps h3
  refine ⟨⟨r.delay, r.phase, r.tableB, r.tableP, (.load, r.excite), r.motion⟩, by rw [k4]; simp, ?_, ?_, ?_⟩
  · simp only [targetExists, decide_eq_true_eq]; exact k1 hload
  · have : phaseOf s r.phase = some (.degrees theta) := by
      rcases hp with e | ⟨i, e, hm⟩
      · rw [e]; rfl
      · rw [e]; exact C109_phase strict [] _ s h i theta hm
    simp only [writeAster, this]
  · intro f
    exact ⟨0, by simp [phaseAt]⟩

/-- C109 is false for delays: they are not written. Whatever the phase, there is a frequency at which the excitation has the
opposite sign. -/
theorem C109_delay_false (modal : Bool) (s : State) (e : Excit) (theta tau : Dbl) (hp : phaseOf s e.phase = some (.degrees theta))
    (ht : 0 < tau) : (∃ w, writeAster modal s e = .ok w ∧ w.phasDeg = .degrees theta ∧
      ∀ d, writeAster modal s { e with delay := d } = .ok w) ∧
    ∃ f, 0 < f ∧ phaseAt theta tau (fun _ => 0) f = theta - 180 ∧ ¬ Same theta (phaseAt theta tau (fun _ => 0) f) := by
  refine ⟨⟨_, by simp only [writeAster, hp]; rfl, rfl, fun d => by simp only [writeAster, hp]⟩, 1 / (2 * tau), div_pos one_pos (mul_pos two_pos ht), ?_, ?_⟩
  · simp only [phaseAt]
    field_simp
    ring
  · have : phaseAt theta tau (fun _ => 0) (1 / (2 * tau)) = theta - 180 := by
      simp only [phaseAt]
      field_simp
      ring
    rw [this]
    rintro ⟨k, hk⟩
    have h2 : (180 : Dbl) = 360 * k := by linarith
    have h3 : (180 : Int) = 360 * k := by exact_mod_cast h2
    omega

/-- C109 is false for phase tables: they are not written. -/
theorem C109_table_false (modal : Bool) (s : State) (e : Excit) (theta : Dbl) (phi : Dbl → Dbl) (f : Dbl)
    (hp : phaseOf s e.phase = some (.degrees theta)) (hf : ¬ Same 0 (phi f)) :
    (∃ w, writeAster modal s e = .ok w ∧ w.phasDeg = .degrees theta ∧
      ∀ t, writeAster modal s { e with tableP := t } = .ok w) ∧ ¬ Same theta (phaseAt theta 0 phi f) := by
  refine ⟨⟨_, by simp only [writeAster, hp]; rfl, rfl, fun t => by simp only [writeAster, hp]⟩, ?_⟩
  rintro ⟨k, hk⟩
  exact hf ⟨k, by simp only [phaseAt] at hk; linarith⟩

/-- C109 is false for imposed motions in direct responses: what is written does not depend on the kind of motion. -/
theorem C109_motion_false (s : State) (e : Excit) (m : Motion) :
    writeAster false s { e with motion := m } = writeAster false s e := by
  simp [writeAster]

/-- C109 is false when the loads stand after the `RLOAD2`: the excitation refers to a set that does not exist. -/
theorem C109_order_false (strict : Bool) (before after : List Card) (r : RLoad) (s : State)
    (h : run strict (before ++ .rload2 r :: after) (init []) = .ok s) (hb : Card.load r.excite ∉ before)
    (hq : ∀ a b l, Card.lseq a b l ∉ before) (hc : ∀ c ∈ before ++ after, ¬ Creates r.excite c)
    (ha : Card.load r.excite ∈ after) :
    r.excite ∈ s.loads ∧ ∃ e ∈ s.excits, e.target = (.excite, r.excite) ∧ valid s e = false := by
  refine ⟨(run_loads h _).mpr (.inr (by simp [ha])), ?_⟩
  obtain ⟨s1, s2, h1, h2, h3⟩ := run_split h
  have hload : r.excite ∉ s1.loads := fun hm => by
    rcases (run_loads h1 _).mp hm with h | h
    · exact nomatch h
    · exact hb h
  have hset : s1.loadsets = [] := by rw [run_loadsets h1 hq]; rfl
  have hr : resolve s1 r.excite = .ok (.excite, r.excite) := by simp [resolve, hset, plain, hload]
  simp only [step, hr, Outcome.bind, Outcome.ok.injEq] at h2
  subst h2
  obtain ⟨-, -, -, l, k4⟩ := run_keeps h3
  refine ⟨⟨r.delay, r.phase, r.tableB, r.tableP, (.excite, r.excite), r.motion⟩, by rw [k4]; simp, rfl, ?_⟩
  have hex : r.excite ∉ s.excites := fun hm => by
    rcases (run_excites h _).mp hm with h | ⟨c, hcm, hcr⟩
    · exact nomatch h
    · rcases List.mem_append.mp hcm with hm | hm
      · exact hc c (List.mem_append_left _ hm) hcr
      · rcases List.mem_cons.mp hm with rfl | hm
        · exact hcr
        · exact hc c (List.mem_append_right _ hm) hcr
  simp [valid, targetExists, hex]

/-- C109 is false with `LOADSET` in the case control section when an `RLOAD2` stands before the `LSEQ`: the behaviour is undefined. -/
theorem C109_lseq_order_false (strict : Bool) (n : Int) (sel : List Int) (before after : List Card) (r : RLoad) (s1 : State)
    (h : run strict before (init (n :: sel)) = .ok s1) (hq : ∀ a b l, Card.lseq a b l ∉ before)
    (hc : ∀ c ∈ before, ¬ Creates r.excite c) : run strict (before ++ .rload2 r :: after) (init (n :: sel)) = .ub := by
  have hset : s1.loadsets = (n, []) :: sel.map fun i => (i, []) := by rw [run_loadsets h hq]; rfl
  have hex : r.excite ∉ s1.excites := fun hm => by
    rcases (run_excites h _).mp hm with h | ⟨c, hcm, hcr⟩
    · exact nomatch h
    · exact hc c hcm hcr
  rw [run_append, h]
  simp [Outcome.bind, run, step, resolve, hset, hex]

/-- C109 is false with several `LSEQ`: the load of the first one is taken, whatever the numbers of the `DAREA`. -/
theorem C109_lseq_false (strict : Bool) (n d1 d2 l1 l2 : Int) (r : RLoad) :
    ∃ s, run strict [.lseq n d1 l1, .lseq n d2 l2, .rload2 { r with excite := d2 }] (init [n]) = .ok s ∧
      s.excits.map (·.target) = [(.load, l1)] := by
  refine ⟨_, by simp [run, step, init, addLseq, resolve, Outcome.bind]; rfl, ?_⟩
  simp

/-- C109 is false for `RLOAD1` with static loads: the set `LOAD` of the number is never used. -/
theorem C109_rload1_false (strict : Bool) (s s' : State) (r : RLoad) (hp : r.tableP = 0) (h : step strict s (.rload1 r) = .ok s') :
    s'.excits.getLast? = some ⟨r.delay, r.phase, r.tableB, 0, (.excite, r.excite), r.motion⟩ := by
  simp only [step, hp, ne_eq, not_true_eq_false, if_false, Outcome.ok.injEq] at h
  subst h
  simp

/-- C109 is false when a `DELAY` and a `DPHASE` have the same number, which Nastran allows: the reading fails. -/
theorem C109_shared_false (strict : Bool) (sel : List Int) (cs : List Card) (i : Int) (tau theta : Dbl)
    (h1 : Card.delay i tau ∈ cs) (h2 : Card.dphase i theta ∈ cs) : ∀ s, run strict cs (init sel) ≠ .ok s := by
  intro s h
  obtain ⟨e, hn⟩ := run_phases h (by simp [init])
  have m1 : (i, Phase.delay tau) ∈ s.phases := by
    rw [e]; exact List.mem_append_right _ (List.mem_filterMap.mpr ⟨_, h1, rfl⟩)
  have m2 : (i, Phase.degrees theta) ∈ s.phases := by
    rw [e]; exact List.mem_append_right _ (List.mem_filterMap.mpr ⟨_, h2, rfl⟩)
  have f1 := find_nodup hn m1
  rw [find_nodup hn m2] at f1
  simp at f1

/-- C109 is false for an `RLOAD1` with a table `TD`: in strict mode the reading fails, otherwise the excitation is left out. -/
theorem C109_td_false (s : State) (r : RLoad) (hp : r.tableP ≠ 0) :
    step true s (.rload1 r) = .throw ∧ step false s (.rload1 r) = .ok s := by
  simp [step, hp]

/-! ## Systus -/

/-- C109 for Systus in the modal method, without delay and phase: the forces of the set are written. The table is written
elsewhere. -/
theorem C109_systus_modal_partial (forces table : List Dbl) (e : Excit) (he : e.target.1 = .excite) :
    writeSystus false forces table e = .ok forces := by simp [writeSystus, he]

/-- C109 is false for Systus in the direct method with an empty table: the behaviour is undefined. -/
theorem C109_systus_empty_false (forces : List Dbl) (e : Excit) (he : e.target.1 = .excite) :
    writeSystus true forces [] e = .ub := by simp [writeSystus, he]

/-- C109 is false for Systus in the direct method: the amplitude of the table has no effect. A force `a` with the constant amplitude
`b` is written as `a`. -/
theorem C109_systus_direct_false (a b : Dbl) (table : List Dbl) (e : Excit) (he : e.target.1 = .excite) (ha : a ≠ 0) (hb : b ≠ 1) :
    writeSystus true [a] (b :: table) e = .ok [a] ∧ a ≠ a * b := by
  refine ⟨by simp [writeSystus, he], fun h => hb ?_⟩
  have : a * b = a * 1 := by rw [mul_one]; exact h.symm
  exact mul_left_cancel₀ ha this

/-- C109 is false for Systus when the excitation refers to static loads: nothing is written. -/
theorem C109_systus_static_false (direct : Bool) (forces table : List Dbl) (e : Excit) (he : e.target.1 = .load) :
    writeSystus direct forces table e = .ok [] := by simp [writeSystus, he]

/-! ## Examples -/

/-- A file that meets the hypotheses of `C109_aster_partial`, with the `DPHASE` after the `RLOAD2`. -/
example : ∃ s, run true ([.load 5] ++ .rload2 ⟨5, .own (.delay 0), .card 7, 3, 0, .load⟩ :: [.dphase 7 90]) (init []) = .ok s ∧
    s.excits.map (writeAster true s) = [.ok ⟨(.load, 5), 3, .degrees 90, some .load⟩] := ⟨_, rfl, by decide +kernel⟩

/-- A file that meets the hypotheses of `C109_order_false`. -/
example : ∃ s, run true ([] ++ .rload2 ⟨5, .own (.delay 0), .own (.degrees 0), 3, 0, .load⟩ :: [.load 5]) (init []) = .ok s ∧
    s.excits.map (valid s) = [false] := ⟨_, rfl, by decide +kernel⟩

end Excitation
end Vega
