import Verif.Load.Kinds
import Verif.Load.PressureProps
import Verif.Dof.CoefsProps
import Mathlib.Data.Rat.Cast.Order

/-!
# Scaling loadings (C41) and discarding ineffective ones (C42)
-/
namespace Vega.KindsSpec
open Vec Load

/-- Where a loading is observed: the coordinates of the nodes, the named values, and a point at which
the accelerations of volumic loadings are looked at. -/
structure World where
  pos : Nat → Vec
  heap : Heap
  point : Vec

/-- The coordinates of a vector. -/
def comps (v : Vec) : List (Option ℝ) := [some v.x, some v.y, some v.z]

/-- The coordinates of a vector that may be NaN. -/
def compsOpt : Option Vec → List (Option ℝ)
  | some v => comps v
  | none => [none, none, none]

/-- Acceleration of a body turning with angular velocity `w` about `c`, at `p`. -/
def centrifugal (w c p : Vec) : Vec := cross w (cross (sub p c) w)

/-- The displacements a `DOFCoefs` imposes. -/
noncomputable def displacements (c : DofCoefs) : List (Option ℝ) :=
  (Dof.all.filter fun d => isEqual (c.coefs d) unavailable = false).map fun d => some (c.coefs d : ℝ)

/-- The ordinates of a function. -/
noncomputable def ordinates (h : Heap) (i : Nat) : List (Option ℝ) :=
  match h i with
  | some (.constant v) => [some (v : ℝ)]
  | some (.table xy) => xy.map fun p => some (p.2 : ℝ)
  | _ => []

/-- The force of a loading directed from node 1 to node 2. -/
noncomputable def along (pos : Nat → Vec) (n1 n2 : Nat) (m : ℝ) : Option Vec :=
  ((sub (pos n2) (pos n1)).normalized).map (smul m)

/-- The force of a loading normal to the directions 1-2 and 3-4. -/
noncomputable def normalTo (pos : Nat → Vec) (n1 n2 n3 n4 : Nat) (m : ℝ) : Option Vec :=
  ((cross (sub (pos n2) (pos n1)) (sub (pos n4) (pos n3))).normalized).map (smul m)

/-- The force a static pressure applies to one of its nodes. -/
noncomputable def pressureAt (pos : Nat → Vec) (p : Pressure) (n : Nat) : List (Option ℝ) :=
  match p.force pos n with
  | .ok f => compsOpt f
  | _ => []

/-- Everything a loading applies: forces, moments, pressures, accelerations, displacements,
temperatures. `none` is a NaN. -/
noncomputable def effects (w : World) : Load → List (Option ℝ)
  | gravity f g => comps (smul f g.toVec)
  | rotation s a c => comps (centrifugal (smul s a.toVec) c.toVec w.point)
  | imposed ns d => ns.flatMap fun _ => displacements d
  | nodalForce ns f m => ns.flatMap fun _ => comps f.toVec ++ comps m.toVec
  | twoNodes ns n1 n2 m => ns.flatMap fun _ => compsOpt (along w.pos n1 n2 m)
  | fourNodes ns n1 n2 n3 n4 m => ns.flatMap fun _ => compsOpt (normalTo w.pos n1 n2 n3 n4 m)
  | pressure n1 n2 n3 n4 m =>
    (Pressure.mk n1 n2 n3 n4 m).nodes.flatMap (pressureAt w.pos ⟨n1, n2, n3, n4, m⟩)
  | surface f m => comps f.toVec ++ comps m.toVec
  | line i => ordinates w.heap i
  | normalPressure i => [some (i : ℝ)]
  | excitation b => match b with
    | some i => ordinates w.heap i
    | none => []
  | temperature t => [some (t : ℝ)]

/-- Multiply every effect. -/
noncomputable def times (k : ℝ) (l : List (Option ℝ)) : List (Option ℝ) := l.map (Option.map (k * ·))

/-! ## C41 -/

/-- The kinds whose effect is proportional to what `scale` changes. -/
def Proportional : Load → Prop
  | rotation .. => False
  | imposed .. => False
  | _ => True

theorem times_append (k : ℝ) (a b : List (Option ℝ)) : times k (a ++ b) = times k a ++ times k b := by
  simp [times]

theorem times_flatMap {α : Type} (k : ℝ) (l : List α) (f : α → List (Option ℝ)) :
    times k (l.flatMap f) = l.flatMap fun a => times k (f a) := by
  simp [times, List.map_flatMap]

theorem times_comps (k : ℝ) (v : Vec) : times k (comps v) = comps (smul k v) := by
  simp [times, comps, smul]

theorem times_compsOpt (k : ℝ) (v : Option Vec) : times k (compsOpt v) = compsOpt (v.map (smul k)) := by
  cases v with
  | none => rfl
  | some v => exact times_comps k v

theorem toVec_scale (v : QVec) (k : Dbl) : (v.scale k).toVec = smul k v.toVec := by
  ext <;> simp [QVec.scale, QVec.toVec, smul, mul_comm]

theorem triForce_mul (m k : ℝ) (c : Vec) :
    Pressure.triForce (m * k) c = (Pressure.triForce m c).map (smul k) := by
  unfold Pressure.triForce
  cases c.normalized with
  | none => rfl
  | some d =>
    simp only [Option.map_some, Option.some.injEq]
    ext <;> simp only [smul] <;> ring

theorem addOpt_map (k : ℝ) (a b : Option Vec) :
    addOpt (a.map (smul k)) (b.map (smul k)) = (addOpt a b).map (smul k) := by
  cases a <;> cases b <;> simp [addOpt]
  ext <;> simp only [add, smul] <;> ring

theorem map_smul_comm (a b : ℝ) (v : Option Vec) :
    (v.map (smul a)).map (smul b) = (v.map (smul b)).map (smul a) := by
  cases v <;> simp
  ext <;> simp only [smul] <;> ring

theorem pressureAt_scale (pos : Nat → Vec) (n1 n2 n3 : Nat) (n4 : Option Nat) (m k : ℝ) (n : Nat) :
    pressureAt pos ⟨n1, n2, n3, n4, m * k⟩ n = times k (pressureAt pos ⟨n1, n2, n3, n4, m⟩ n) := by
  have e : ∀ d : ℝ, m * k / d = m / d * k := by intro d; ring
  unfold pressureAt Pressure.force
  have hn : (⟨n1, n2, n3, n4, m * k⟩ : Pressure).nodes = (⟨n1, n2, n3, n4, m⟩ : Pressure).nodes := rfl
  rw [hn]
  by_cases h : n ∉ (⟨n1, n2, n3, n4, m⟩ : Pressure).nodes
  · rw [if_pos h, if_pos h]; rfl
  · rw [if_neg h, if_neg h]
    cases n4 with
    | none =>
      simp only [e, triForce_mul, times_compsOpt]
    | some n4 =>
      simp only
      split_ifs
      · simp only [Pressure.force13, e, triForce_mul]
        split_ifs <;> simp only [addOpt_map, times_compsOpt, map_smul_comm k 2] <;> rfl
      · simp only [Pressure.force24, e, triForce_mul]
        split_ifs <;> simp only [addOpt_map, times_compsOpt, map_smul_comm k 2] <;> rfl

theorem scaleFn_ordinates {h h' : Heap} {i : Nat} {k : Dbl} (e : scaleFn h (some i) k = .ok h') :
    ordinates h' i = times k (ordinates h i) := by
  unfold scaleFn at e
  cases hv : h i with
  | none => simp [hv] at e
  | some v =>
    simp only [hv] at e
    cases v with
    | constant v =>
      simp only [FnVal.scale, Outcome.bind_ok, Outcome.ok.injEq] at e
      subst e
      simp [ordinates, Heap.set, hv, times, mul_comm]
    | table xy =>
      simp only [FnVal.scale, Outcome.bind_ok, Outcome.ok.injEq] at e
      subst e
      simp [ordinates, Heap.set, hv, times, mul_comm]
    | placeholder => simp [FnVal.scale] at e

/-- **C41** for every loading but rotations and imposed displacements (see below): scaling by `k`
multiplies everything the loading applies by `k`. -/
theorem C41_scale_partial (w : World) (l : Load) (k : Dbl) (hl : Proportional l) {h' : Heap} {l' : Load}
    (e : scale w.heap l k = .ok (h', l')) :
    effects { w with heap := h' } l' = times k (effects w l) := by
  cases l with
  | rotation => exact hl.elim
  | imposed => exact hl.elim
  | gravity f g =>
    cases e
    simp only [effects, times_comps]
    congr 1
    ext <;> simp [smul] <;> ring
  | nodalForce ns f m =>
    cases e
    simp only [effects, times_flatMap, times_append, times_comps, toVec_scale]
  | twoNodes ns n1 n2 m =>
    cases e
    simp only [effects, times_flatMap, times_compsOpt, along, Option.map_map]
    congr 1; funext _; congr 2; funext v
    ext <;> simp [smul] <;> ring
  | fourNodes ns n1 n2 n3 n4 m =>
    cases e
    simp only [effects, times_flatMap, times_compsOpt, normalTo, Option.map_map]
    congr 1; funext _; congr 2; funext v
    ext <;> simp [smul] <;> ring
  | pressure n1 n2 n3 n4 m =>
    cases e
    simp only [effects, times_flatMap, ← pressureAt_scale, Rat.cast_mul]
    rfl
  | surface f m =>
    cases e
    simp only [effects, times_append, times_comps, toVec_scale]
  | line i =>
    simp only [scale] at e
    cases hs : scaleFn w.heap (some i) k with
    | ok h2 =>
      rw [hs] at e
      simp only [Outcome.bind_ok, Outcome.ok.injEq, Prod.mk.injEq] at e
      obtain ⟨rfl, rfl⟩ := e
      exact scaleFn_ordinates hs
    | _ => rw [hs] at e; cases e
  | normalPressure i =>
    cases e
    simp [effects, times, mul_comm]
  | excitation b =>
    simp only [scale] at e
    cases b with
    | none => simp [scaleFn] at e
    | some i =>
      cases hs : scaleFn w.heap (some i) k with
      | ok h2 =>
        rw [hs] at e
        simp only [Outcome.bind_ok, Outcome.ok.injEq, Prod.mk.injEq] at e
        obtain ⟨rfl, rfl⟩ := e
        exact scaleFn_ordinates hs
      | _ => rw [hs] at e; cases e
  | temperature t =>
    cases e
    simp [effects, times, mul_comm]

/-- The function a loading points to, if any. -/
def functionOf : Load → Option (Option Nat)
  | line i => some (some i)
  | excitation b => some b
  | _ => none

/-- **C41** scaling succeeds, except for a loading given by a function that is missing or not yet
defined. -/
theorem C41_succeeds (h : Heap) (l : Load) (k : Dbl) :
    (∃ r, scale h l k = .ok r) ↔
      ∀ f, functionOf l = some f → ∃ i v, f = some i ∧ h i = some v ∧ v ≠ .placeholder := by
  have key : ∀ f, (∃ r, scaleFn h f k = .ok r) ↔ ∃ i v, f = some i ∧ h i = some v ∧ v ≠ .placeholder := by
    intro f
    cases f with
    | none => simp [scaleFn]
    | some i =>
      cases hv : h i with
      | none => simp [scaleFn, hv]
      | some v => cases v <;> simp [scaleFn, hv, FnVal.scale]
  cases l with
  | line i =>
    have ki := key (some i)
    simp only [functionOf, Option.some.injEq, forall_eq'] at ki ⊢
    rw [← ki]
    simp only [scale]
    cases scaleFn h (some i) k <;> simp
  | excitation b =>
    simp only [functionOf, Option.some.injEq, forall_eq']
    rw [← key]
    simp only [scale]
    cases scaleFn h b k <;> simp
  | _ => simp [scale, functionOf]

/-- **C41** scaling by `k` then by `m` is scaling by `k * m`, imposed displacements excepted. -/
theorem C41_compose (h h' : Heap) (l l' : Load) (k m : Dbl) (hl : ∀ ns d, l ≠ imposed ns d)
    (e : scale h l k = .ok (h', l')) : scale h' l' m = scale h l (k * m) := by
  have hset : ∀ (i : Nat) (a b : FnVal), (h.set i a).set i b = h.set i b := by
    intro i a b; funext j; unfold Heap.set; split <;> simp_all
  have key : ∀ f h1, scaleFn h f k = .ok h1 → scaleFn h1 f m = scaleFn h f (k * m) := by
    intro f h1 e
    cases f with
    | none => cases e
    | some i =>
      unfold scaleFn at e ⊢
      cases hv : h i with
      | none => simp [hv] at e
      | some v =>
        simp only [hv] at e ⊢
        cases v with
        | placeholder => cases e
        | constant v =>
          simp only [FnVal.scale, Outcome.bind_ok, Outcome.ok.injEq] at e
          subst e
          have : (h.set i (.constant (v * k))) i = some (.constant (v * k)) := by simp [Heap.set]
          rw [this]
          simp only [FnVal.scale, Outcome.bind_ok, hset, mul_assoc]
        | table xy =>
          simp only [FnVal.scale, Outcome.bind_ok, Outcome.ok.injEq] at e
          subst e
          have : (h.set i (.table (xy.map fun p => (p.1, p.2 * k)))) i =
            some (.table (xy.map fun p => (p.1, p.2 * k))) := by simp [Heap.set]
          rw [this]
          simp only [FnVal.scale, Outcome.bind_ok, hset, List.map_map]
          congr 3
          apply List.map_congr_left
          intro p _
          simp [mul_assoc]
  cases l with
  | imposed ns d => exact absurd rfl (hl ns d)
  | line i =>
    simp only [scale] at e ⊢
    cases hs : scaleFn h (some i) k with
    | ok h2 =>
      rw [hs] at e
      simp only [Outcome.bind_ok, Outcome.ok.injEq, Prod.mk.injEq] at e
      obtain ⟨rfl, rfl⟩ := e
      simp only [key _ _ hs]
    | _ => rw [hs] at e; cases e
  | excitation b =>
    simp only [scale] at e ⊢
    cases hs : scaleFn h b k with
    | ok h2 =>
      rw [hs] at e
      simp only [Outcome.bind_ok, Outcome.ok.injEq, Prod.mk.injEq] at e
      obtain ⟨rfl, rfl⟩ := e
      simp only [key _ _ hs]
    | _ => rw [hs] at e; cases e
  | _ => cases e; simp [scale, QVec.scale, mul_assoc]

/-- **C41** scaling a loading that is not given by a function changes no other loading. -/
theorem C41_others (w : World) (l : Load) (k : Dbl) (hf : functionOf l = none) {h' : Heap} {l' : Load}
    (e : scale w.heap l k = .ok (h', l')) (other : Load) :
    effects { w with heap := h' } other = effects w other := by
  have : h' = w.heap := by
    cases l <;> simp [functionOf] at hf <;> · cases e; rfl
  rw [this]

/-! ### Imposed displacements -/

/-- Whether a dof has a value. -/
def available (c : DofCoefs) (d : Dof) : Prop := isEqual (c.coefs d) unavailable = false

instance (c : DofCoefs) : DecidablePred (available c) := fun _ => inferInstanceAs (Decidable (_ = _))

/-- The values stay away from the marker of unavailable values while they are multiplied. -/
def StaysOrdinary (c : DofCoefs) (k : Dbl) : Prop :=
  ∀ d, available c d → ∀ j ≤ 6, |c.coefs d * k ^ j| ≤ dblMax / 2

/-- `c` with its available values multiplied by `k ^ j`. -/
def powered (c : DofCoefs) (k : Dbl) (j : Nat) : DofCoefs :=
  ⟨fun d => if available c d then c.coefs d * k ^ j else c.coefs d⟩

theorem powered_available {c : DofCoefs} {k : Dbl} (h : StaysOrdinary c k) {j : Nat} (hj : j ≤ 6)
    (d : Dof) : available (powered c k j) d ↔ available c d := by
  by_cases hd : available c d
  · have : (powered c k j).coefs d = c.coefs d * k ^ j := by simp [powered, hd]
    constructor
    · intro _; exact hd
    · intro _
      unfold available
      rw [this]
      exact isEqual_unavailable_of_le_half _ (h d hd j hj)
  · have : (powered c k j).coefs d = c.coefs d := by simp [powered, hd]
    unfold available at hd ⊢
    rw [this]

theorem powered_scale {c : DofCoefs} {k : Dbl} (h : StaysOrdinary c k) {j : Nat} (hj : j ≤ 6) :
    (powered c k j).scale k = powered c k (j + 1) := by
  unfold DofCoefs.scale
  congr 1
  funext d
  have := powered_available h hj d
  unfold available at this
  by_cases hd : available c d
  · rw [if_pos (this.mpr hd)]
    simp [powered, hd, pow_succ, mul_assoc]
  · rw [if_neg (fun e => hd (this.mp e))]
    simp [powered, hd]

theorem imposed_fold {c : DofCoefs} {k : Dbl} (h : StaysOrdinary c k) (l : List Dof) (j : Nat)
    (hj : j + l.length ≤ 6) :
    l.foldl (imposedRound k) (powered c k j) =
      powered c k (j + (l.filter fun d => available c d).length) := by
  induction l generalizing j with
  | nil => rfl
  | cons d l ih =>
    rw [List.length_cons] at hj
    rw [List.foldl_cons]
    have hd := powered_available h (by omega : j ≤ 6) d
    by_cases ha : available c d
    · have e : imposedRound k (powered c k j) d = powered c k (j + 1) := by
        have hp := hd.mpr ha
        unfold available at hp
        unfold imposedRound
        rw [if_pos hp, powered_scale h (by omega)]
      rw [e, ih _ (by omega), List.filter_cons_of_pos (by simpa using ha), List.length_cons]
      congr 1
      omega
    · have e : imposedRound k (powered c k j) d = powered c k j := by
        have hp : ¬ isEqual ((powered c k j).coefs d) unavailable = false := fun x => ha (hd.mp x)
        unfold imposedRound
        rw [if_neg hp]
      rw [e, ih _ (by omega), List.filter_cons_of_neg (by simpa using ha)]

/-- The number of dofs on which a displacement is imposed. -/
def countAvailable (c : DofCoefs) : Nat := (Dof.all.filter fun d => available c d).length

theorem scaleImposed_eq {c : DofCoefs} {k : Dbl} (h : StaysOrdinary c k) :
    scaleImposed c k = powered c k (countAvailable c) := by
  have h0 : powered c k 0 = c := by simp [powered]
  have := imposed_fold h Dof.all 0 (by decide)
  rw [h0, Nat.zero_add] at this
  unfold scaleImposed countAvailable
  rw [DofCoefsSpec.allDofs_toList]
  exact this

theorem displacements_powered {c : DofCoefs} {k : Dbl} (h : StaysOrdinary c k) {j : Nat} (hj : j ≤ 6) :
    displacements (powered c k j) = times ((k : ℝ) ^ j) (displacements c) := by
  unfold displacements times
  have e : (Dof.all.filter fun d => isEqual ((powered c k j).coefs d) unavailable = false) =
      Dof.all.filter fun d => isEqual (c.coefs d) unavailable = false := by
    apply List.filter_congr
    intro d _
    have := powered_available h hj d
    unfold available at this
    simp only [decide_eq_decide]
    exact this
  rw [e, List.map_map]
  apply List.map_congr_left
  intro d hd
  have hd : available c d := by simpa [available] using (List.mem_filter.mp hd).2
  simp [powered, hd, mul_comm]

theorem countAvailable_le (c : DofCoefs) : countAvailable c ≤ 6 :=
  (List.length_filter_le _ _).trans (by decide)

/-- What `scale(k)` does to imposed displacements: it multiplies them by `k` to the number of dofs on
which a displacement is imposed. -/
theorem imposed_power (w : World) (ns : List Nat) (c : DofCoefs) (k : Dbl) (h : StaysOrdinary c k)
    {h' : Heap} {l' : Load} (e : scale w.heap (imposed ns c) k = .ok (h', l')) :
    effects { w with heap := h' } l' = times ((k : ℝ) ^ countAvailable c) (effects w (imposed ns c)) := by
  cases e
  simp only [effects, times_flatMap, scaleImposed_eq h,
    displacements_powered h (countAvailable_le c)]

/-- **C41** imposed displacements on one dof: as asked. Missing: more dofs, see
`C41_imposed_false`. -/
theorem C41_imposed_partial (w : World) (ns : List Nat) (c : DofCoefs) (k : Dbl)
    (h : StaysOrdinary c k) (h1 : countAvailable c = 1)
    {h' : Heap} {l' : Load} (e : scale w.heap (imposed ns c) k = .ok (h', l')) :
    effects { w with heap := h' } l' = times k (effects w (imposed ns c)) := by
  rw [imposed_power w ns c k h e, h1, pow_one]

/-- A displacement of 1 along x and along y. -/
def oneXY : DofCoefs := ⟨fun d => if d = .DX ∨ d = .DY then 1 else unavailable⟩

theorem one_available : isEqual 1 unavailable = false :=
  isEqual_unavailable_of_le_half _ (by have := four_le_dblMax; rw [abs_one]; linarith)

theorem oneXY_available (d : Dof) : available oneXY d ↔ d = .DX ∨ d = .DY := by
  unfold available oneXY
  by_cases h : d = .DX ∨ d = .DY
  · simp [h, one_available]
  · simp [h, isEqual_self]

theorem oneXY_ordinary : StaysOrdinary oneXY 2 := by
  intro d hd j hj
  have h1 : oneXY.coefs d = 1 := by
    simp only [oneXY, if_pos ((oneXY_available d).mp hd)]
  have h2 : (2 : Dbl) ^ j ≤ 2 ^ 6 := pow_le_pow_right₀ (by norm_num) hj
  have h3 : (128 : Dbl) ≤ dblMax := by decide +kernel
  rw [h1, one_mul, abs_of_nonneg (by positivity)]
  linarith

theorem oneXY_count : Dof.all.filter (fun d => available oneXY d) = [.DX, .DY] := by
  have : (fun d => decide (available oneXY d)) = fun d => decide (d = Dof.DX ∨ d = Dof.DY) := by
    funext d
    exact decide_eq_decide.mpr (oneXY_available d)
  rw [this]
  decide

/-- Refutation: a displacement of 1 imposed along x and y and scaled by 2 becomes 4. -/
theorem C41_imposed_false (w : World) :
    ∃ (c : DofCoefs) (h' : Heap) (l' : Load), scale w.heap (imposed [7] c) 2 = .ok (h', l') ∧
      effects w (imposed [7] c) = [some 1, some 1] ∧
      effects { w with heap := h' } l' = [some 4, some 4] := by
  have e0 : effects w (imposed [7] oneXY) = [some 1, some 1] := by
    have : (Dof.all.filter fun d => decide (isEqual (oneXY.coefs d) unavailable = false)) =
        [.DX, .DY] := oneXY_count
    simp only [effects, displacements, List.flatMap_cons, List.flatMap_nil, this]
    simp [oneXY]
  refine ⟨oneXY, _, _, rfl, e0, ?_⟩
  rw [imposed_power w [7] oneXY 2 oneXY_ordinary rfl, e0]
  have : countAvailable oneXY = 2 := by unfold countAvailable; rw [oneXY_count]; rfl
  rw [this]
  norm_num [times]

-- one dof: the hypotheses of `C41_imposed_partial` are met
example : ∃ c : DofCoefs, StaysOrdinary c 2 ∧ countAvailable c = 1 := by
  refine ⟨⟨fun d => if d = .DX then 1 else unavailable⟩, ?_, ?_⟩
  · intro d hd j hj
    have h2 : (2 : Dbl) ^ j ≤ 2 ^ 6 := pow_le_pow_right₀ (by norm_num) hj
    have h3 : (128 : Dbl) ≤ dblMax := by decide +kernel
    by_cases h : d = .DX
    · simp only [h, if_true, one_mul]
      rw [abs_of_nonneg (by positivity)]
      linarith
    · simp [available, h, isEqual_self] at hd
  · unfold countAvailable
    have : (fun d => decide (available ⟨fun d => if d = .DX then 1 else unavailable⟩ d)) =
        fun d => decide (d = Dof.DX) := by
      funext d
      apply decide_eq_decide.mpr
      unfold available
      by_cases h : d = .DX
      · simp [h, one_available]
      · simp [h, isEqual_self]
    rw [this]
    decide

/-! ### Rotations -/

/-- Refutation for rotations: `scale(k)` multiplies the speed, hence the accelerations by the square
of `k`. -/
theorem C41_rotation_false (w : World) (s : Dbl) (a c : QVec) (k : Dbl) {h' : Heap} {l' : Load}
    (e : scale w.heap (rotation s a c) k = .ok (h', l')) :
    effects { w with heap := h' } l' = times ((k : ℝ) ^ 2) (effects w (rotation s a c)) := by
  cases e
  simp only [effects, times_comps]
  congr 1
  ext <;> simp [smul, centrifugal, cross, sub] <;> ring

-- the square matters: a rotation about z seen at distance 1
example : ∃ w : World, effects w (rotation 1 ⟨0, 0, 1⟩ ⟨0, 0, 0⟩) = [some 1, some 0, some 0] ∧
    effects w (rotation 2 ⟨0, 0, 1⟩ ⟨0, 0, 0⟩) = [some 4, some 0, some 0] := by
  refine ⟨⟨fun _ => zero, fun _ => none, ⟨1, 0, 0⟩⟩, ?_, ?_⟩ <;>
    norm_num [effects, comps, centrifugal, cross, sub, smul, QVec.toVec]

/-! ### Shared functions -/

/-- Refutation of "of the loading": a clone of a loading given by a function shares the function, so
scaling the clone scales the original (combined load sets clone and scale, Model.cpp 1113-1115). -/
theorem C41_shared_false :
    ∃ (w : World) (l : Load) (h' : Heap) (l' : Load), scale w.heap l.clone 3 = .ok (h', l') ∧
      effects w l = [some 5] ∧ effects { w with heap := h' } l = [some 15] := by
  refine ⟨⟨fun _ => zero, fun i => if i = 1 then some (.table [(0, 5)]) else none, zero⟩, line 1, _, _,
    rfl, ?_, ?_⟩
  · simp [effects, ordinates]
  · norm_num [effects, ordinates, Heap.set]

/-! ## C42 -/

/-- Nothing is applied (values that are not numbers aside). -/
def NoEffect (w : World) (l : Load) : Prop := ∀ x : ℝ, some x ∈ effects w l → x = 0

/-- Null, or above the tolerance of comparisons. -/
def Clear (x : Dbl) : Prop := x = 0 ∨ isZero x = false

def ClearVec (v : QVec) : Prop := Clear v.x ∧ Clear v.y ∧ Clear v.z

/-- The numbers stored in a loading are null or above the tolerance. -/
def ClearLoad (h : Heap) : Load → Prop
  | gravity f g => Clear f ∧ ClearVec g
  | rotation s a _ => Clear s ∧ ClearVec a
  | imposed .. => True
  | nodalForce _ f m => ClearVec f ∧ ClearVec m
  | twoNodes _ _ _ m => Clear m
  | fourNodes _ _ _ _ _ m => Clear m
  | pressure _ _ _ _ m => Clear m
  | surface f m => ClearVec f ∧ ClearVec m
  | line i => match h i with
    | some (.constant v) => Clear v
    | some (.table xy) => ∀ p ∈ xy, Clear p.2
    | _ => True
  | normalPressure i => Clear i
  | excitation _ => True
  | temperature t => Clear t

theorem clear_zero {x : Dbl} (h : Clear x) (hz : isZero x = true) : x = 0 := by
  rcases h with h | h
  · exact h
  · rw [h] at hz; cases hz

theorem clear_vec_zero {v : QVec} (h : ClearVec v) (hz : v.isZero = true) : v = ⟨0, 0, 0⟩ := by
  obtain ⟨h1, h2, h3⟩ := h
  simp only [QVec.isZero, Bool.and_eq_true] at hz
  obtain ⟨⟨a, b⟩, c⟩ := hz
  cases v
  simp only [QVec.mk.injEq]
  exact ⟨clear_zero h1 a, clear_zero h2 b, clear_zero h3 c⟩

theorem effects_zero_mul {k : ℝ} (hk : k = 0) {l : List (Option ℝ)} {x : ℝ} (h : some x ∈ times k l) :
    x = 0 := by
  simp only [times, List.mem_map, Option.map_eq_some_iff] at h
  obtain ⟨a, _, y, _, rfl⟩ := h
  rw [hk, zero_mul]

theorem comps_zero {x : ℝ} (h : some x ∈ comps zero) : x = 0 := by
  simpa [comps, zero] using h

theorem compsOpt_smul_zero {x : ℝ} {v : Option Vec} (h : some x ∈ compsOpt (v.map (smul 0))) : x = 0 := by
  cases v with
  | none => simp [compsOpt] at h
  | some v => simpa [compsOpt, comps, smul] using h

theorem toVec_zero : (⟨0, 0, 0⟩ : QVec).toVec = zero := by simp [QVec.toVec, zero]

theorem pressureAt_zero (pos : Nat → Vec) (n1 n2 n3 : Nat) (n4 : Option Nat) (n : Nat) {x : ℝ}
    (h : some x ∈ pressureAt pos ⟨n1, n2, n3, n4, 0⟩ n) : x = 0 := by
  have := pressureAt_scale pos n1 n2 n3 n4 0 0 n
  rw [zero_mul] at this
  rw [this] at h
  exact effects_zero_mul rfl h

/-- **C42** a loading reported as ineffective applies nothing, when the numbers it is made of are
null or above the tolerance of comparisons. Missing: FORCE1 (`C42_two_nodes_false`) and numbers
below the tolerance (`C42_gravity_false`, `C42_pressure_false`). -/
theorem C42_partial (w : World) (l : Load) (hc : ClearLoad w.heap l)
    (hk : ∀ ns n1 n2 m, l ≠ twoNodes ns n1 n2 m) (h : ineffective w.heap l = .ok true) :
    NoEffect w l := by
  intro x hx
  cases l with
  | gravity f g =>
    obtain ⟨h1, h2⟩ := hc
    simp only [ineffective, Outcome.ok.injEq, Bool.or_eq_true] at h
    simp only [effects] at hx
    rcases h with h | h
    · rw [clear_zero h1 h, ← times_comps] at hx
      exact effects_zero_mul (by simp) hx
    · rw [clear_vec_zero h2 h, toVec_zero] at hx
      apply comps_zero
      simpa [smul, zero] using hx
  | rotation s a c =>
    obtain ⟨h1, h2⟩ := hc
    simp only [ineffective, Outcome.ok.injEq, Bool.or_eq_true] at h
    simp only [effects] at hx
    apply comps_zero
    rcases h with h | h
    · rw [clear_zero h1 h] at hx
      simpa [smul, zero, centrifugal, cross] using hx
    · rw [clear_vec_zero h2 h, toVec_zero] at hx
      simpa [smul, zero, centrifugal, cross] using hx
  | imposed ns d =>
    simp only [ineffective, Outcome.ok.injEq, Bool.or_eq_true] at h
    simp only [effects] at hx
    rcases h with h | h
    · rw [List.isEmpty_iff.mp h] at hx
      simp at hx
    · rw [DofCoefsSpec.C05_isEmpty] at h
      simp only [displacements, List.mem_flatMap, List.mem_map, List.mem_filter] at hx
      obtain ⟨_, _, d', ⟨_, hd⟩, _⟩ := hx
      have := h d'
      have ht : isEqual (d.coefs d') unavailable = true := by
        by_contra hn
        have e : DofCoefsSpec.value d d' = some (d.getValue d') := if_neg hn
        rw [e] at this
        cases this
      exact absurd (ht.symm.trans (of_decide_eq_true hd)) (by decide)
  | nodalForce ns f m =>
    obtain ⟨h1, h2⟩ := hc
    simp only [ineffective, Outcome.ok.injEq, Bool.and_eq_true] at h
    simp only [effects, List.mem_flatMap, List.mem_append] at hx
    rw [clear_vec_zero h1 h.1, clear_vec_zero h2 h.2, toVec_zero] at hx
    obtain ⟨_, _, hx | hx⟩ := hx <;> exact comps_zero hx
  | twoNodes ns n1 n2 m => exact absurd rfl (hk ns n1 n2 m)
  | fourNodes ns n1 n2 n3 n4 m =>
    simp only [ineffective, Outcome.ok.injEq] at h
    rw [clear_zero hc h] at hx
    simp only [effects, List.mem_flatMap, normalTo, Rat.cast_zero] at hx
    obtain ⟨_, _, hx⟩ := hx
    exact compsOpt_smul_zero hx
  | pressure n1 n2 n3 n4 m =>
    simp only [ineffective, Outcome.ok.injEq] at h
    rw [clear_zero hc h] at hx
    simp only [effects, List.mem_flatMap, Rat.cast_zero] at hx
    obtain ⟨n, _, hx⟩ := hx
    exact pressureAt_zero _ _ _ _ _ _ hx
  | surface f m =>
    obtain ⟨h1, h2⟩ := hc
    simp only [ineffective, Outcome.ok.injEq, Bool.and_eq_true] at h
    simp only [effects, List.mem_append] at hx
    rw [clear_vec_zero h1 h.1, clear_vec_zero h2 h.2, toVec_zero] at hx
    obtain hx | hx := hx <;> exact comps_zero hx
  | line i =>
    simp only [ineffective, fnIsZero] at h
    simp only [effects, ordinates] at hx
    simp only [ClearLoad] at hc
    cases hv : w.heap i with
    | none => rw [hv] at h; cases h
    | some v =>
      rw [hv] at h hx hc
      cases v with
      | constant v =>
        simp only [FnVal.isZero, Outcome.ok.injEq] at h
        simp only [List.mem_singleton, Option.some.injEq] at hx
        rw [hx, clear_zero hc h, Rat.cast_zero]
      | table xy =>
        simp only [FnVal.isZero, Outcome.ok.injEq, List.all_eq_true] at h
        simp only [List.mem_map, Option.some.injEq] at hx
        obtain ⟨p, hp, rfl⟩ := hx
        rw [clear_zero (hc p hp) (h p hp), Rat.cast_zero]
      | placeholder => simp [FnVal.isZero] at h
  | normalPressure i =>
    simp only [ineffective, Outcome.ok.injEq] at h
    simp only [effects, List.mem_singleton, Option.some.injEq] at hx
    rw [hx, clear_zero hc h, Rat.cast_zero]
  | excitation b => simp [ineffective] at h
  | temperature t =>
    simp only [ineffective, Outcome.ok.injEq] at h
    simp only [effects, List.mem_singleton, Option.some.injEq] at hx
    rw [hx, clear_zero hc h, Rat.cast_zero]

-- ineffective loadings with clear numbers: a null nodal force, a function null everywhere
example : ClearLoad (fun _ => none) (nodalForce [1] ⟨0, 0, 0⟩ ⟨0, 0, 0⟩) ∧
    ineffective (fun _ => none) (nodalForce [1] ⟨0, 0, 0⟩ ⟨0, 0, 0⟩) = .ok true := by
  constructor
  · simp [ClearLoad, ClearVec, Clear]
  · decide +kernel

theorem C42_collect (h : Heap) (ls : List (Nat × Load)) (r : List Nat) (e : collect h ls = .ok r) :
    (∀ p ∈ ls, ∃ b, ineffective h p.2 = .ok b) ∧
      ∀ i, i ∈ r ↔ ∃ l, (i, l) ∈ ls ∧ ineffective h l = .ok true := by
  induction ls generalizing r with
  | nil => cases e; simp
  | cons p ls ih =>
    obtain ⟨i, l⟩ := p
    simp only [collect] at e
    cases hb : ineffective h l with
    | ok b =>
      rw [hb, Outcome.bind_ok] at e
      cases hr : collect h ls with
      | ok r' =>
        rw [hr, Outcome.bind_ok] at e
        obtain ⟨i1, i2⟩ := ih r' hr
        cases e
        refine ⟨?_, ?_⟩
        · intro p hp
          rcases List.mem_cons.mp hp with rfl | hp
          · exact ⟨b, hb⟩
          · exact i1 p hp
        · intro j
          cases b with
          | true =>
            simp only [if_true, List.mem_cons, i2]
            constructor
            · rintro (rfl | ⟨l', h1, h2⟩)
              · exact ⟨l, Or.inl rfl, hb⟩
              · exact ⟨l', Or.inr h1, h2⟩
            · rintro ⟨l', h1 | h1, h2⟩
              · cases h1; exact Or.inl rfl
              · exact Or.inr ⟨l', h1, h2⟩
          | false =>
            simp only [Bool.false_eq_true, if_false, i2, List.mem_cons]
            constructor
            · rintro ⟨l', h1, h2⟩
              exact ⟨l', Or.inr h1, h2⟩
            · rintro ⟨l', h1 | h1, h2⟩
              · cases h1; rw [hb] at h2; cases h2
              · exact ⟨l', h1, h2⟩
      | throw => rw [hr] at e; cases e
      | ub => rw [hr] at e; cases e
      | diverges => rw [hr] at e; cases e
    | throw => rw [hb] at e; cases e
    | ub => rw [hb] at e; cases e
    | diverges => rw [hb] at e; cases e

/-- **C42** the clean-up keeps, in their order, exactly the loadings that are not reported as
ineffective (their numbers in the model being distinct). -/
theorem C42_cleanup (h : Heap) (ls r : List (Nat × Load)) (hn : (ls.map Prod.fst).Nodup)
    (e : removeIneffectives h ls = .ok r) :
    r.Sublist ls ∧ ∀ p ∈ ls, (p ∈ r ↔ ineffective h p.2 = .ok false) := by
  unfold removeIneffectives at e
  cases hc : collect h ls with
  | ok c =>
    rw [hc, Outcome.bind_ok] at e
    cases e
    obtain ⟨h1, h2⟩ := C42_collect h ls c hc
    refine ⟨List.filter_sublist, ?_⟩
    intro p hp
    obtain ⟨b, hb⟩ := h1 p hp
    have hm : p.1 ∈ c ↔ ineffective h p.2 = .ok true := by
      rw [h2]
      constructor
      · rintro ⟨l, hl, hi⟩
        have := List.inj_on_of_nodup_map hn hl hp rfl
        rw [← this]; exact hi
      · intro hi; exact ⟨p.2, hp, hi⟩
    simp only [List.mem_filter, hp, true_and, Bool.not_eq_true', List.contains_eq_mem,
      decide_eq_false_iff_not, hm]
    rw [hb]
    cases b <;> simp
  | throw => rw [hc] at e; cases e
  | ub => rw [hc] at e; cases e
  | diverges => rw [hc] at e; cases e

/-- **C42** the clean-up fails only on a loading given by a function that is not defined. -/
theorem C42_cleanup_succeeds (h : Heap) (ls : List (Nat × Load))
    (hf : ∀ i j, (i, line j) ∈ ls → ∃ v, h j = some v ∧ v ≠ .placeholder) :
    ∃ r, removeIneffectives h ls = .ok r := by
  have key : ∃ c, collect h ls = .ok c := by
    induction ls with
    | nil => exact ⟨[], rfl⟩
    | cons p ls ih =>
      obtain ⟨i, l⟩ := p
      obtain ⟨c, hc⟩ := ih fun i j hm => hf i j (List.mem_cons_of_mem _ hm)
      have : ∃ b, ineffective h l = .ok b := by
        cases l with
        | line j =>
          obtain ⟨v, hv, hp⟩ := hf i j List.mem_cons_self
          cases v with
          | placeholder => exact absurd rfl hp
          | constant v => exact ⟨_, by simp only [ineffective, fnIsZero, hv, FnVal.isZero]; rfl⟩
          | table xy => exact ⟨_, by simp only [ineffective, fnIsZero, hv, FnVal.isZero]; rfl⟩
        | _ => exact ⟨_, rfl⟩
      obtain ⟨b, hb⟩ := this
      exact ⟨_, by simp only [collect, hb, hc, Outcome.bind_ok]; rfl⟩
  obtain ⟨c, hc⟩ := key
  exact ⟨_, by simp only [removeIneffectives, hc, Outcome.bind_ok]; rfl⟩

theorem ne_zero_of_isZero {x : Dbl} (h : isZero x = false) : x ≠ 0 := by
  rintro rfl
  have : isZero 0 = true := by decide +kernel
  rw [this] at h; cases h

theorem vec_ne_zero {v : QVec} (h : v.isZero = false) : v.x ≠ 0 ∨ v.y ≠ 0 ∨ v.z ≠ 0 := by
  simp only [QVec.isZero, Bool.and_eq_false_iff] at h
  rcases h with (h | h) | h
  · exact Or.inl (ne_zero_of_isZero h)
  · exact Or.inr (Or.inl (ne_zero_of_isZero h))
  · exact Or.inr (Or.inr (ne_zero_of_isZero h))

/-- A component of a vector that is not null. -/
theorem comps_ne {v : QVec} (h : v.isZero = false) {k : Dbl} (hk : k ≠ 0) :
    ∃ x ≠ 0, some x ∈ comps (smul k v.toVec) := by
  have hk' : (k : ℝ) ≠ 0 := by exact_mod_cast hk
  rcases vec_ne_zero h with h | h | h
  · exact ⟨k * v.x, mul_ne_zero hk' (by exact_mod_cast h), by simp [comps, smul, QVec.toVec]⟩
  · exact ⟨k * v.y, mul_ne_zero hk' (by exact_mod_cast h), by simp [comps, smul, QVec.toVec]⟩
  · exact ⟨k * v.z, mul_ne_zero hk' (by exact_mod_cast h), by simp [comps, smul, QVec.toVec]⟩

/-- The kinds whose effect does not depend on nodes or points. -/
def SelfContained : Load → Prop
  | gravity .. | surface .. | line .. | normalPressure .. | temperature .. => True
  | _ => False

/-- **C42** the other direction: a loading that is kept applies something. -/
theorem C42_kept (w : World) (l : Load) (hs : SelfContained l)
    (hk : ineffective w.heap l = .ok false) : ¬ NoEffect w l := by
  have fin : (∃ x : ℝ, x ≠ 0 ∧ some x ∈ effects w l) → ¬ NoEffect w l :=
    fun ⟨x, h0, hx⟩ hn => h0 (hn x hx)
  apply fin
  have one : ∀ v : QVec, smul ((1 : Dbl) : ℝ) v.toVec = v.toVec := by
    intro v; ext <;> simp [smul]
  cases l with
  | gravity f g =>
    simp only [ineffective, Outcome.ok.injEq, Bool.or_eq_false_iff] at hk
    exact comps_ne hk.2 (ne_zero_of_isZero hk.1)
  | surface f m =>
    simp only [ineffective, Outcome.ok.injEq, Bool.and_eq_false_iff] at hk
    simp only [effects, List.mem_append]
    rcases hk with hk | hk
    · obtain ⟨x, h0, hx⟩ := comps_ne hk (one_ne_zero)
      rw [one] at hx
      exact ⟨x, h0, Or.inl hx⟩
    · obtain ⟨x, h0, hx⟩ := comps_ne hk (one_ne_zero)
      rw [one] at hx
      exact ⟨x, h0, Or.inr hx⟩
  | line i =>
    simp only [ineffective, fnIsZero] at hk
    simp only [effects, ordinates]
    cases hv : w.heap i with
    | none => rw [hv] at hk; cases hk
    | some v =>
      rw [hv] at hk
      cases v with
      | constant v =>
        simp only [FnVal.isZero, Outcome.ok.injEq] at hk
        exact ⟨v, by exact_mod_cast ne_zero_of_isZero hk, by simp⟩
      | table xy =>
        simp only [FnVal.isZero, Outcome.ok.injEq, List.all_eq_false, Bool.not_eq_true] at hk
        obtain ⟨p, hp, hz⟩ := hk
        exact ⟨p.2, by exact_mod_cast ne_zero_of_isZero hz, by simpa using ⟨p.1, hp⟩⟩
      | placeholder => simp [FnVal.isZero] at hk
  | normalPressure i =>
    simp only [ineffective, Outcome.ok.injEq] at hk
    exact ⟨i, by exact_mod_cast ne_zero_of_isZero hk, by simp [effects]⟩
  | temperature t =>
    simp only [ineffective, Outcome.ok.injEq] at hk
    exact ⟨t, by exact_mod_cast ne_zero_of_isZero hk, by simp [effects]⟩
  | _ => exact absurd hs id

/-! ### What fails -/

/-- Refutation: a FORCE1, a force directed from one node to another, is always discarded. -/
theorem C42_two_nodes_false (h : Heap) (ns : List Nat) (n1 n2 : Nat) (m : Dbl) :
    ineffective h (twoNodes ns n1 n2 m) = .ok true := by
  have : QVec.isZero ⟨0, 0, 0⟩ = true := by decide +kernel
  simp only [ineffective, this, Bool.or_true]

-- ... though it applies a force
example : ∃ w : World, ∃ l : List (Option ℝ), effects w (twoNodes [1] 1 2 100) = some 100 :: l := by
  have hd : (sub ⟨1, 0, 0⟩ zero : Vec) = ⟨1, 0, 0⟩ := by ext <;> norm_num [sub, zero]
  have h1 : (⟨1, 0, 0⟩ : Vec).normalized = some ⟨1, 0, 0⟩ := by
    rw [normalized_eq (by intro e; have := congrArg Vec.x e; norm_num [zero] at this)]
    norm_num [Vec.norm, dot, smul]
  refine ⟨⟨fun n => if n = 2 then ⟨1, 0, 0⟩ else zero, fun _ => none, zero⟩, [some 0, some 0], ?_⟩
  simp only [effects, along, if_true, Nat.reduceEqDiff, if_false, hd, h1]
  norm_num [compsOpt, comps, smul]

/-- Refutation for small numbers: a gravity given as a tiny factor of a huge vector is discarded
although the acceleration is about a million. -/
theorem C42_gravity_false : ∃ (w : World) (l : Load), ineffective w.heap l = .ok true ∧
    effects w l = [some (2 ^ 20), some 0, some 0] := by
  refine ⟨⟨fun _ => zero, fun _ => none, zero⟩, gravity (1 / 2 ^ 60) ⟨2 ^ 80, 0, 0⟩, ?_, ?_⟩
  · simp only [ineffective]
    decide +kernel
  · norm_num [effects, comps, smul, QVec.toVec]

/-- The three corners of a triangle of area 2^59. -/
noncomputable def big : Nat → Vec
  | 1 => ⟨0, 0, 0⟩
  | 2 => ⟨2 ^ 30, 0, 0⟩
  | _ => ⟨0, 2 ^ 30, 0⟩

/-- Refutation for small numbers: a pressure below the tolerance on a large face is discarded
although it applies a force of 42 to each corner. -/
theorem C42_pressure_false : ∃ (w : World) (l : Load), ineffective w.heap l = .ok true ∧
    some (128 / 3) ∈ effects w l := by
  refine ⟨⟨big, fun _ => none, zero⟩, pressure 1 2 3 none (1 / 2 ^ 52), ?_, ?_⟩
  · simp only [ineffective]
    decide +kernel
  · obtain ⟨f, hf, ht⟩ := PressureSpec.C40_triangle big ⟨1, 2, 3, none, ((1 / 2 ^ 52 : Dbl) : ℝ)⟩ rfl (by
      intro e
      have := congrArg Vec.z e
      norm_num [PressureSpec.triArea, cross, sub, smul, big, zero] at this)
    have h1 : (⟨1, 2, 3, none, ((1 / 2 ^ 52 : Dbl) : ℝ)⟩ : Pressure).force big 1 = .ok (some f) := by
      simpa [PressureSpec.Forces, Pressure.nodes] using And.left (by simpa [PressureSpec.Forces, Pressure.nodes] using hf)
    have hz : f.z = 128 / 3 := by
      have := congrArg Vec.z ht
      norm_num [PressureSpec.total, PressureSpec.triArea, cross, sub, smul, add, big, zero] at this
      linarith
    simp only [effects, List.mem_flatMap]
    refine ⟨1, by simp [Pressure.nodes], ?_⟩
    simp only [pressureAt, h1, compsOpt, comps, hz]
    simp

end Vega.KindsSpec
