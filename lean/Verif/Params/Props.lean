import Verif.Params.Cards
import Verif.NastranWrite.RealLemmas
import Verif.NastranWrite.LineProps
import Mathlib.Tactic.FieldSimp
import Mathlib.Tactic.Positivity

/-! # C112: a parameter has the value of its last card, and has its effect -/
namespace Vega

/-! ## Specification: what the cards of a file say -/
namespace ParamSpec
open Params

/-- The value of the last card of a kind. -/
def last (f : Card → Option α) (cs : List Card) : Option α := (cs.filterMap f).getLast?

/-- The values of the cards, with the value of a blank field. -/
def wtmass : Card → Option Dbl
  | .wtmass x => some (x.getD 1)
  | _ => none
/-- See `wtmass`. -/
def k6rot : Card → Option Dbl
  | .k6rot x => some (x.getD 100)
  | _ => none
/-- See `wtmass`: the factor of the mass. -/
def alpha1 : Card → Option (Dbl × Dbl)
  | .alpha1 re im => some (re.getD 0, im.getD 0)
  | _ => none
/-- See `wtmass`: the factor of the stiffness. -/
def alpha2 : Card → Option (Dbl × Dbl)
  | .alpha2 re im => some (re.getD 0, im.getD 0)
  | _ => none
/-- See `wtmass`. -/
def g : Card → Option Dbl
  | .g x => some (x.getD 0)
  | _ => none
/-- See `wtmass`. -/
def w3 : Card → Option Dbl
  | .w3 x => some (x.getD 0)
  | _ => none
/-- See `wtmass`. -/
def lfreq : Card → Option Dbl
  | .lfreq x => some (x.getD 0)
  | _ => none
/-- See `wtmass`. -/
def hfreq : Card → Option Dbl
  | .hfreq x => some (x.getD (10 ^ 30))
  | _ => none
/-- See `wtmass`. -/
def lgdisp : Card → Option Int
  | .lgdisp n => some (n.getD (-1))
  | _ => none
/-- See `wtmass`. -/
def checkel : Card → Option Word
  | .checkel w => some (w.getD .yes)
  | _ => none

/-- Cards that are errors: a parameter that is not known, and another version of Patran than 3. -/
def wrong : Card → Bool
  | .unknown => true
  | .patver x => !isEqual (x.getD 3) 3
  | _ => false

/-- Cards that ask for something that the program does not do: besides the wrong ones, singularities constrained automatically, the
weights of the model, a stiffness of the normal rotation of shells, inertia relief, results of plies. -/
def refused : Card → Bool
  | .autospc w => decide (w = some .yes)
  | .grdpnt n => decide (n ≠ none ∧ n ≠ some (-1))
  | .k6rot x => !isZero (x.getD 100)
  | .inrel w => decide (w ≠ none ∧ w ≠ some .no)
  | .nocomps n => decide (n ≠ some (-1) ∧ n ≠ some 0)
  | c => wrong c

end ParamSpec

namespace Params
open NastranWrite ParamSpec

/-! ## Lemmas -/

theorem run_field {β : Type} (π : Store → Option β) (u : Card → Option β)
    (h : ∀ s c s' w, card s c = some (s', w) → π s' = (u c).or (π s)) (h0 : ∀ s c, card s c = none → u c = none) (strict : Bool) :
    ∀ (cs : List Card) (r r' : Store × Nat), run strict cs r = .ok r' → π r'.1 = ((cs.filterMap u).getLast?).or (π r.1)
  | [], r, r', e => by
    have : r = r' := by simpa [run] using e
    subst this; simp
  | c :: cs, (s, n), r', e => by
    unfold run at e
    cases hc : card s c with
    | none =>
      rw [hc] at e
      cases strict with
      | true => simp at e
      | false =>
        have ih := run_field π u h h0 false cs _ _ (by simpa using e)
        rw [ih, List.filterMap_cons_none (h0 s c hc)]
    | some q =>
      obtain ⟨s', w⟩ := q
      rw [hc] at e
      have ih := run_field π u h h0 strict cs _ _ e
      rw [ih, h s c s' w hc]
      cases hu : u c with
      | none => simp [List.filterMap_cons_none hu]
      | some b =>
        rw [List.filterMap_cons_some hu]
        rw [List.getLast?_cons]
        cases (cs.filterMap u).getLast? <;> simp

theorem read_field {β : Type} (π : Store → Option β) (u : Card → Option β)
    (h : ∀ s c s' w, card s c = some (s', w) → π s' = (u c).or (π s)) (h0 : ∀ s c, card s c = none → u c = none)
    (hi : π {} = none) (strict : Bool) (cs : List Card) (s : Store) (n : Nat) (e : read strict cs = .ok (s, n)) :
    π s = (cs.filterMap u).getLast? := by
  have := run_field π u h h0 strict cs _ _ e
  simpa [hi] using this

theorem filterMap_map_last {α β : Type} (f : Card → Option α) (k : α → β) (cs : List Card) :
    (cs.filterMap fun c => (f c).map k).getLast? = (last f cs).map k := by
  have : (cs.filterMap fun c => (f c).map k) = (cs.filterMap f).map k := by
    rw [List.map_filterMap]
  rw [this, List.getLast?_map]; rfl

theorem filterMap_some {α β : Type} (f : Card → Option α) (d : α → Bool) (k : α → β) (cs : List Card) :
    (cs.filterMap fun c => (f c).bind fun x => if d x then none else some (k x)).getLast? =
      (((cs.filterMap f).filter fun x => !d x).getLast?).map k := by
  have : (cs.filterMap fun c => (f c).bind fun x => if d x then none else some (k x)) =
      ((cs.filterMap f).filter fun x => !d x).map k := by
    induction cs with
    | nil => rfl
    | cons c cs ih =>
      cases hf : f c with
      | none => rw [List.filterMap_cons_none (by simp [hf]), List.filterMap_cons_none hf, ih]
      | some x =>
        cases hd : d x with
        | true => rw [List.filterMap_cons_none (by simp [hf, hd]), List.filterMap_cons_some hf, List.filter_cons, ih]; simp [hd]
        | false =>
          rw [List.filterMap_cons_some (b := k x) (by simp [hf, hd]), List.filterMap_cons_some hf, List.filter_cons, ih]
          simp [hd]
  rw [this, List.getLast?_map]

/-- The value kept: the last one that is not a default. -/
def kept {α β : Type} (f : Card → Option α) (d : α → Bool) (k : α → β) (cs : List Card) : Option β :=
  (((cs.filterMap f).filter fun x => !d x).getLast?).map k

theorem kept_last {α β : Type} (f : Card → Option α) (d : α → Bool) (k : α → β) (cs : List Card)
    (h : ∀ c ∈ cs, ∀ x, f c = some x → d x = false) : kept f d k cs = (last f cs).map k := by
  have : (cs.filterMap f).filter (fun x => !d x) = cs.filterMap f := by
    rw [List.filter_eq_self]
    intro x hx
    obtain ⟨c, hc, hf⟩ := List.mem_filterMap.1 hx
    simp [h c hc x hf]
  unfold kept last
  rw [this]

macro "card_cases" : tactic => `(tactic| (
  intro s c s' w hc
  cases c <;>
    (simp only [card] at hc
     try (split at hc)
     all_goals first
       | (simp only [Option.some.injEq, Prod.mk.injEq] at hc
          have hs := hc.1
          subst hs
          simp_all [ParamSpec.wtmass, ParamSpec.k6rot, ParamSpec.alpha1, ParamSpec.alpha2, ParamSpec.g, ParamSpec.w3, ParamSpec.lfreq,
            ParamSpec.hfreq, ParamSpec.lgdisp, ParamSpec.checkel])
       | simp at hc)))

macro "card_none" : tactic => `(tactic| (
  intro s c hc
  cases c <;> simp_all [card, ParamSpec.wtmass, ParamSpec.k6rot, ParamSpec.alpha1, ParamSpec.alpha2, ParamSpec.g, ParamSpec.w3,
    ParamSpec.lfreq, ParamSpec.hfreq, ParamSpec.lgdisp, ParamSpec.checkel]))

theorem mass_eq {strict : Bool} {cs : List Card} {s : Store} {n : Nat} (e : read strict cs = .ok (s, n)) :
    s.massMultiplier = (last ParamSpec.wtmass cs).map printed := by
  rw [← filterMap_map_last]
  exact read_field Store.massMultiplier _ (by card_cases) (by card_none) rfl strict cs s n e

theorem normal_eq {strict : Bool} {cs : List Card} {s : Store} {n : Nat} (e : read strict cs = .ok (s, n)) :
    s.normal = (last ParamSpec.k6rot cs).map printed := by
  rw [← filterMap_map_last]
  exact read_field Store.normal _ (by card_cases) (by card_none) rfl strict cs s n e

theorem alpha1_eq {strict : Bool} {cs : List Card} {s : Store} {n : Nat} (e : read strict cs = .ok (s, n)) :
    s.rayleighMass = (last ParamSpec.alpha1 cs).map printedC := by
  rw [← filterMap_map_last]
  exact read_field Store.rayleighMass _ (by card_cases) (by card_none) rfl strict cs s n e

theorem alpha2_eq {strict : Bool} {cs : List Card} {s : Store} {n : Nat} (e : read strict cs = .ok (s, n)) :
    s.rayleighStiffness = (last ParamSpec.alpha2 cs).map printedC := by
  rw [← filterMap_map_last]
  exact read_field Store.rayleighStiffness _ (by card_cases) (by card_none) rfl strict cs s n e

theorem g_eq {strict : Bool} {cs : List Card} {s : Store} {n : Nat} (e : read strict cs = .ok (s, n)) :
    s.damping = kept ParamSpec.g (fun x => isEqual x 0) printed cs := by
  unfold kept; rw [← filterMap_some]
  exact read_field Store.damping _ (by card_cases) (by card_none) rfl strict cs s n e

theorem w3_eq {strict : Bool} {cs : List Card} {s : Store} {n : Nat} (e : read strict cs = .ok (s, n)) :
    s.radians = kept ParamSpec.w3 (fun x => isEqual x 0) printed cs := by
  unfold kept; rw [← filterMap_some]
  exact read_field Store.radians _ (by card_cases) (by card_none) rfl strict cs s n e

theorem lfreq_eq {strict : Bool} {cs : List Card} {s : Store} {n : Nat} (e : read strict cs = .ok (s, n)) :
    s.lower = kept ParamSpec.lfreq (fun x => isEqual x 0) printed cs := by
  unfold kept; rw [← filterMap_some]
  exact read_field Store.lower _ (by card_cases) (by card_none) rfl strict cs s n e

theorem hfreq_eq {strict : Bool} {cs : List Card} {s : Store} {n : Nat} (e : read strict cs = .ok (s, n)) :
    s.upper = kept ParamSpec.hfreq (fun x => isEqual x (10 ^ 30)) printed cs := by
  unfold kept; rw [← filterMap_some]
  exact read_field Store.upper _ (by card_cases) (by card_none) rfl strict cs s n e

theorem lgdisp_eq {strict : Bool} {cs : List Card} {s : Store} {n : Nat} (e : read strict cs = .ok (s, n)) :
    s.large = kept ParamSpec.lgdisp (fun x => decide (x = -1)) id cs := by
  unfold kept; rw [← filterMap_some]
  exact read_field Store.large _ (by card_cases) (by card_none) rfl strict cs s n e

theorem run_append (strict : Bool) : ∀ (a b : List Card) (r : Store × Nat),
    run strict (a ++ b) r = (run strict a r).bind fun r' => run strict b r'
  | [], b, r => rfl
  | c :: a, b, (s, n) => by
    simp only [List.cons_append, run]
    cases card s c with
    | none => cases strict <;> simp [run_append _ a b, Outcome.bind]
    | some q => obtain ⟨s', w⟩ := q; exact run_append strict a b _

theorem printed_close (x : Dbl) : |printed x - x| ≤ 1 / (2 * 10 ^ 15) := by
  have h := roundEven_close (x * 10 ^ 15)
  have hp : (0 : ℚ) < 10 ^ 15 := by positivity
  have e : printed x - x = ((roundEven (x * 10 ^ 15) : Dbl) - x * 10 ^ 15) / 10 ^ 15 := by
    unfold printed; field_simp
  rw [e, abs_div, abs_of_pos hp, div_le_div_iff₀ hp (by positivity)]
  calc |(roundEven (x * 10 ^ 15) : Dbl) - x * 10 ^ 15| * (2 * 10 ^ 15) ≤ 1 / 2 * (2 * 10 ^ 15) :=
        mul_le_mul_of_nonneg_right h (by positivity)
    _ = 1 * 10 ^ 15 := by ring

theorem printed_int (k : Int) : printed ((k : Dbl) / 10 ^ 15) = (k : Dbl) / 10 ^ 15 := by
  unfold printed
  rw [div_mul_cancel₀ _ (by positivity), roundEven_int]

theorem printed_small {x : Dbl} (h : |x| < 1 / (2 * 10 ^ 15)) : printed x = 0 := by
  have hp : (0 : ℚ) < 10 ^ 15 := by positivity
  have h1 : |x * 10 ^ 15| < 1 / 2 := by
    rw [abs_mul, abs_of_pos hp]
    calc |x| * 10 ^ 15 < 1 / (2 * 10 ^ 15) * 10 ^ 15 := mul_lt_mul_of_pos_right h hp
      _ = 1 / 2 := by field_simp
  have h2 := roundEven_close (x * 10 ^ 15)
  have h3 : |(roundEven (x * 10 ^ 15) : Dbl)| < 1 := by
    calc |(roundEven (x * 10 ^ 15) : Dbl)| = |((roundEven (x * 10 ^ 15) : Dbl) - x * 10 ^ 15) + x * 10 ^ 15| := by ring_nf
      _ ≤ |(roundEven (x * 10 ^ 15) : Dbl) - x * 10 ^ 15| + |x * 10 ^ 15| := abs_add_le _ _
      _ < 1 / 2 + 1 / 2 := add_lt_add_of_le_of_lt h2 h1
      _ = 1 := by norm_num
  have h4 : roundEven (x * 10 ^ 15) = 0 := by
    rw [← Int.abs_lt_one_iff]
    exact_mod_cast h3
  simp [printed, h4]

/-! ## C112 -/

/-- **C112** WTMASS, K6ROT, ALPHA1 and ALPHA2 have the value of the last card, up to the fifteen decimals kept. -/
theorem C112_last (strict : Bool) (cs : List Card) (s : Store) (n : Nat) (e : read strict cs = .ok (s, n)) :
    s.massMultiplier = (last ParamSpec.wtmass cs).map printed ∧ s.normal = (last ParamSpec.k6rot cs).map printed ∧
    s.rayleighMass = (last ParamSpec.alpha1 cs).map printedC ∧ s.rayleighStiffness = (last ParamSpec.alpha2 cs).map printedC :=
  ⟨mass_eq e, normal_eq e, alpha1_eq e, alpha2_eq e⟩

example : ∃ s n, read true [.wtmass (some (1 / 1000)), .unknown] = .throw ∧
    read true [.wtmass (some (1 / 1000)), .alpha2 (some (1 / 100)) none, .wtmass (some (1 / 386))] = .ok (s, n) ∧
    last ParamSpec.wtmass [.wtmass (some (1 / 1000)), .alpha2 (some (1 / 100)) none, .wtmass (some (1 / 386))] = some (1 / 386) :=
  ⟨_, _, rfl, rfl, rfl⟩

/-- **C112** (part) G, W3, LFREQ, HFREQ and LGDISP have the value of the last card if no card gives the default value.
Missing: a card with the default value after another card (C112_reset_false). -/
theorem C112_last_partial (strict : Bool) (cs : List Card) (s : Store) (n : Nat) (e : read strict cs = .ok (s, n)) :
    ((∀ c ∈ cs, ∀ x, ParamSpec.g c = some x → isEqual x 0 = false) → s.damping = (last ParamSpec.g cs).map printed) ∧
    ((∀ c ∈ cs, ∀ x, ParamSpec.w3 c = some x → isEqual x 0 = false) → s.radians = (last ParamSpec.w3 cs).map printed) ∧
    ((∀ c ∈ cs, ∀ x, ParamSpec.lfreq c = some x → isEqual x 0 = false) →
      (cutoffs s).lower = (last ParamSpec.lfreq cs).map printed) ∧
    ((∀ c ∈ cs, ∀ x, ParamSpec.hfreq c = some x → isEqual x (10 ^ 30) = false) →
      (cutoffs s).upper = (last ParamSpec.hfreq cs).map printed) ∧
    ((∀ c ∈ cs, ∀ x, ParamSpec.lgdisp c = some x → x ≠ -1) → s.large = last ParamSpec.lgdisp cs) := by
  refine ⟨fun h => ?_, fun h => ?_, fun h => ?_, fun h => ?_, fun h => ?_⟩
  · rw [g_eq e, kept_last _ _ _ _ h]
  · rw [w3_eq e, kept_last _ _ _ _ h]
  · show s.lower = _
    rw [lfreq_eq e, kept_last _ _ _ _ h]
  · show s.upper = _
    rw [hfreq_eq e, kept_last _ _ _ _ h]
  · rw [lgdisp_eq e, kept_last _ _ _ _ (fun c hc x hx => by simp [h c hc x hx])]
    simp

example : ∃ s n, read false [.g (some (1 / 50)), .unknown, .lgdisp (some 1), .lgdisp (some 2)] = .ok (s, n) ∧
    s.large = some 2 := ⟨_, _, rfl, rfl⟩

/-- **C112** (negation, for all files) a last card with the default value, or blank, changes nothing: the value of an earlier card
remains. -/
theorem C112_reset_false (strict : Bool) (cs : List Card) (s : Store) (n : Nat) (e : read strict cs = .ok (s, n)) (c : Card)
    (hc : c ∈ [.g none, .g (some 0), .w3 none, .w3 (some 0), .lfreq none, .lfreq (some 0), .hfreq none, .hfreq (some (10 ^ 30)),
      .lgdisp none, .lgdisp (some (-1)), .checkel (some .no), .prtmaxim none, .prtmaxim (some .no)]) :
    read strict (cs ++ [c]) = .ok (s, n) := by
  unfold read at e ⊢
  rw [run_append, e]
  simp only [List.mem_cons, List.not_mem_nil, or_false] at hc
  rcases hc with rfl | rfl | rfl | rfl | rfl | rfl | rfl | rfl | rfl | rfl | rfl | rfl | rfl <;>
    simp [Outcome.bind, run, card]

/-- The instance of large displacements: `LGDISP` 1, then -1. -/
example : ∃ s n, read true [.lgdisp (some 1), .lgdisp (some (-1))] = .ok (s, n) ∧ needsLarge s = true := ⟨_, _, rfl, rfl⟩

/-- **C112** large displacements are used if some card asks for them and none of the later cards has the value 0. -/
theorem C112_large (strict : Bool) (cs : List Card) (s : Store) (n : Nat) (e : read strict cs = .ok (s, n)) :
    needsLarge s = true ↔ ∃ k, ((cs.filterMap ParamSpec.lgdisp).filter fun x => x ≠ -1).getLast? = some k ∧ k ≠ 0 := by
  have h := lgdisp_eq e
  unfold needsLarge
  rw [h]
  unfold kept
  simp only [Option.map_id_fun, id, decide_eq_true_eq]
  have hf : (fun x : Int => !decide (x = -1)) = fun x => decide (x ≠ -1) := by funext x; simp
  rw [hf]
  cases ((cs.filterMap ParamSpec.lgdisp).filter fun x => x ≠ -1).getLast? <;> simp

/-- **C112** (part) the number kept is within half a unit of the fifteenth decimal, and is the number given if that has at most
fifteen decimals. Missing: numbers with more decimals (C112_digits_false). -/
theorem C112_digits_partial (x : Dbl) :
    |printed x - x| ≤ 1 / (2 * 10 ^ 15) ∧ ∀ k : Int, x = (k : Dbl) / 10 ^ 15 → printed x = x :=
  ⟨printed_close x, fun k h => by rw [h]; exact printed_int k⟩

example : printed (1 / 1000) = 1 / 1000 := by
  have h := printed_int (10 ^ 12)
  have e : ((10 ^ 12 : Int) : Dbl) / 10 ^ 15 = 1 / 1000 := by norm_num
  rwa [e] at h

/-- **C112** (negation) numbers below half a unit of the fifteenth decimal are lost, and with WTMASS the assertion of the program
fails; a Rayleigh factor 1.2345678e-9 is written as 1.234568e-9. -/
theorem C112_digits_false :
    (∀ x : Dbl, |x| < 1 / (2 * 10 ^ 15) → ∀ strict, ∃ s n, read strict [.wtmass (some x)] = .ok (s, n) ∧ multiplier s = .ub) ∧
    ∃ s n, read true [.alpha2 (some (12345678 / 10 ^ 16)) none] = .ok (s, n) ∧
      amor true s .elastic = .ok (some (1234568 / 10 ^ 15), none) := by
  refine ⟨fun x h strict => ⟨_, _, rfl, ?_⟩, _, _, rfl, ?_⟩
  · show multiplier { massMultiplier := some (printed x) } = .ub
    simp [multiplier, printed_small h]
  · have h0 : printed 0 = 0 := printed_small (by norm_num)
    have hr : roundEven (12345678 / 10 ^ 16 * 10 ^ 15) = 1234568 := by
      have hfl : ⌊(12345678 / 10 ^ 16 * 10 ^ 15 : ℚ)⌋ = 1234567 := by rw [Int.floor_eq_iff]; norm_num
      unfold roundEven
      rw [hfl]
      norm_num
    have h1 : printed (12345678 / 10 ^ 16) = 1234568 / 10 ^ 15 := by
      unfold printed
      rw [hr]; norm_num
    have hz : isZero (1234568 / 10 ^ 15) = false := by
      unfold isZero tol
      rw [abs_of_pos (by norm_num)]
      norm_num
    show amor true { rayleighStiffness := some (printedC (12345678 / 10 ^ 16, 0)) } .elastic = _
    simp [amor, rayleigh, Outcome.bind, printedC, h0, h1, hz]

/-- **C112** (part) densities of isotropic and orthotropic materials and masses of points are multiplied by WTMASS.
Missing: the other masses (C112_masses_false). -/
theorem C112_masses_partial (strict : Bool) (cs : List Card) (s : Store) (n : Nat) (e : read strict cs = .ok (s, n)) (k x : Dbl)
    (hk : k = ((last ParamSpec.wtmass cs).map printed).getD 1) (hz : isZero k = false) (hx : isEqual x unavailable = false) :
    (Mass.isotropic x).written s = .ok (x * k) ∧ (Mass.orthotropic x).written s = .ok (x * k) ∧
    (Mass.point x).written s = .ok (x * k) := by
  have hm : multiplier s = .ok k := by
    unfold multiplier
    rw [mass_eq e]
    cases hl : last ParamSpec.wtmass cs with
    | none => simp [hk, hl]
    | some y =>
      have : k = printed y := by simp [hk, hl]
      subst this
      simp [hz]
  simp [Mass.written, hm, Outcome.bind, hx]

/-- **C112** (negation, for all files) densities of hyperelastic materials, inertias of points and scalar masses are not multiplied. -/
theorem C112_masses_false (s : Store) (k x : Dbl) (_ : s.massMultiplier = some k) (hk : k ≠ 1) (hx : x ≠ 0) (m : Mass)
    (hm : m ∈ [.hyperelastic x, .inertia x, .scalar x]) : m.written s = .ok m.given ∧ m.given ≠ m.given * k := by
  have hne : x ≠ x * k := fun h => hk (by
    have : x * (k - 1) = 0 := by linarith
    rcases mul_eq_zero.1 this with h | h
    · exact absurd h hx
    · linarith)
  simp only [List.mem_cons, List.not_mem_nil, or_false] at hm
  rcases hm with rfl | rfl | rfl <;> exact ⟨rfl, hne⟩

example : ∃ s n, read true [.wtmass (some 2)] = .ok (s, n) ∧ s.massMultiplier = some (printed 2) ∧ printed 2 = 2 := by
  refine ⟨_, _, rfl, rfl, ?_⟩
  have h := printed_int (2 * 10 ^ 15)
  have e : ((2 * 10 ^ 15 : Int) : Dbl) / 10 ^ 15 = 2 := by norm_num
  rwa [e] at h

/-- **C112** (part) an elastic law has ALPHA2 as the factor of its stiffness and ALPHA1 as the factor of its mass, with fifteen
decimals; factors below the tolerance are left out. Missing: other laws (C112_rayleigh_false), complex factors (refused). -/
theorem C112_rayleigh_partial (strict : Bool) (cs : List Card) (s : Store) (n : Nat) (e : read strict cs = .ok (s, n)) (a1 a2 : Dbl)
    (h1 : last ParamSpec.alpha1 cs = some (a1, 0)) (h2 : last ParamSpec.alpha2 cs = some (a2, 0)) :
    amor strict s .elastic = .ok (if isZero (printed a2) then none else some (printed a2),
      if isZero (printed a1) then none else some (printed a1)) := by
  have h0 : printed 0 = 0 := printed_small (by norm_num)
  simp [amor, rayleigh, alpha1_eq e, alpha2_eq e, h1, h2, printedC, h0, Outcome.bind]

example : ∃ s n, read true [.alpha1 (some 3) none, .alpha2 (some (1 / 100)) (some 0), .alpha1 (some 5) none] = .ok (s, n) ∧
    last ParamSpec.alpha1 [.alpha1 (some 3) none, .alpha2 (some (1 / 100)) (some 0), .alpha1 (some 5) none] = some (5, 0) ∧
    last ParamSpec.alpha2 [.alpha1 (some 3) none, .alpha2 (some (1 / 100)) (some 0), .alpha1 (some 5) none] = some (1 / 100, 0) :=
  ⟨_, _, rfl, rfl, rfl⟩

/-- **C112** a complex factor is refused in strict mode. -/
theorem C112_complex (cs : List Card) (s : Store) (n : Nat) (e : read true cs = .ok (s, n)) (re im : Dbl)
    (h : last ParamSpec.alpha2 cs = some (re, im)) (hi : isZero (printed im) = false) : amor true s .elastic = .throw := by
  simp [amor, rayleigh, alpha2_eq e, h, printedC, hi, Outcome.bind]

example : ∃ s n, read true [.alpha2 (some 1) (some 2)] = .ok (s, n) ∧
    last ParamSpec.alpha2 [.alpha2 (some 1) (some 2)] = some (1, 2) := ⟨_, _, rfl, rfl⟩

/-- **C112** (negation, for all files) hyperelastic and orthotropic laws have no Rayleigh damping whatever ALPHA1 and ALPHA2. -/
theorem C112_rayleigh_false (strict : Bool) (s : Store) (l : Law) (h : l ≠ .elastic) : amor strict s l = .ok (none, none) := by
  cases l <;> first | rfl | exact absurd rfl h

/-- **C112** (part) with G and W3 the damping matrix of a direct frequency response times W3 is G times the stiffness. Missing: G
without W3 (C112_structural_false). -/
theorem C112_structural_partial (strict : Bool) (cs : List Card) (s : Store) (n : Nat) (e : read strict cs = .ok (s, n)) (x w : Dbl)
    (hg : last ParamSpec.g cs = some x) (hw : last ParamSpec.w3 cs = some w)
    (h1 : ∀ c ∈ cs, ∀ x, ParamSpec.g c = some x → isEqual x 0 = false)
    (h2 : ∀ c ∈ cs, ∀ x, ParamSpec.w3 c = some x → isEqual x 0 = false) (hp : 0 < printed w) :
    ∃ k, structural s = some k ∧ k * printed w = printed x := by
  obtain ⟨a, b, _⟩ := C112_last_partial strict cs s n e
  have a := a h1
  have b := b h2
  rw [hg] at a
  rw [hw] at b
  refine ⟨printed x / printed w, ?_, div_mul_cancel₀ _ hp.ne'⟩
  simp [structural, a, b, hp]

example : ∃ s n, read true [.g (some (1 / 50)), .w3 (some 100)] = .ok (s, n) ∧
    last ParamSpec.g [.g (some (1 / 50)), .w3 (some 100)] = some (1 / 50) ∧
    last ParamSpec.w3 [.g (some (1 / 50)), .w3 (some 100)] = some 100 := ⟨_, _, rfl, rfl, rfl⟩

/-- **C112** (negation, for all files) without a card W3 there is no structural damping, whatever G. -/
theorem C112_structural_false (strict : Bool) (cs : List Card) (s : Store) (n : Nat) (e : read strict cs = .ok (s, n))
    (h : ∀ c ∈ cs, ParamSpec.w3 c = none) : structural s = none := by
  have hw := w3_eq e
  have : cs.filterMap ParamSpec.w3 = [] := List.filterMap_eq_nil_iff.2 h
  rw [kept, this] at hw
  unfold structural
  rw [hw]
  cases s.damping <;> rfl

example : ∃ s n, read true [.g (some (1 / 50))] = .ok (s, n) ∧ s.damping = some (printed (1 / 50)) := by
  refine ⟨_, _, rfl, ?_⟩
  have h : isEqual (1 / 50) 0 = false := by
    rw [isEqual_zero_right]; unfold isZero tol
    rw [abs_of_pos (by norm_num)]; norm_num
  show (if isEqual (1 / 50) 0 = true then ({} : Store) else { damping := some (printed (1 / 50)) }).damping = _
  rw [h]; rfl

/-- **C112** the mesh is verified, without debugging, exactly if some card CHECKEL asks for it. -/
theorem C112_checkel (strict : Bool) (cs : List Card) (s : Store) (n : Nat) (e : read strict cs = .ok (s, n)) :
    verifyMesh false s = true ↔ ∃ c ∈ cs, ParamSpec.checkel c = some .yes ∨ ParamSpec.checkel c = some .full := by
  have h := read_field Store.qualityCheck
    (fun c => (ParamSpec.checkel c).bind fun w => if w = .yes ∨ w = .full then some w else none)
    (by card_cases) (by card_none) rfl strict cs s n e
  unfold verifyMesh
  rw [h]
  have hmem : ∀ w, w ∈ cs.filterMap (fun c => (ParamSpec.checkel c).bind fun w => if w = .yes ∨ w = .full then some w else none) ↔
      (w = .yes ∨ w = .full) ∧ ∃ c ∈ cs, ParamSpec.checkel c = some w := by
    intro w
    rw [List.mem_filterMap]
    constructor
    · rintro ⟨c, hc, hb⟩
      obtain ⟨v, hv, hi⟩ := Option.bind_eq_some_iff.1 hb
      by_cases hy : v = .yes ∨ v = .full
      · rw [if_pos hy] at hi
        have : v = w := by simpa using hi
        subst this
        exact ⟨hy, c, hc, hv⟩
      · rw [if_neg hy] at hi; simp at hi
    · rintro ⟨hy, c, hc, hv⟩
      exact ⟨c, hc, by simp [hv, hy]⟩
  cases hl : (cs.filterMap fun c => (ParamSpec.checkel c).bind fun w => if w = .yes ∨ w = .full then some w else none).getLast? with
  | none =>
    rw [List.getLast?_eq_none_iff] at hl
    simp only [Bool.false_eq_true, false_iff]
    rintro ⟨c, hc, hy | hy⟩
    · have := (hmem .yes).2 ⟨Or.inl rfl, c, hc, hy⟩
      rw [hl] at this; simp at this
    · have := (hmem .full).2 ⟨Or.inr rfl, c, hc, hy⟩
      rw [hl] at this; simp at this
  | some w =>
    have hw := (hmem w).1 (List.mem_of_getLast? hl)
    obtain ⟨hy, c, hc, hv⟩ := hw
    constructor
    · intro _
      rcases hy with rfl | rfl
      · exact ⟨c, hc, Or.inl hv⟩
      · exact ⟨c, hc, Or.inr hv⟩
    · intro _
      rcases hy with rfl | rfl <;> rfl

example : ∃ s n, read true [.checkel (some .no), .checkel none] = .ok (s, n) ∧ verifyMesh false s = true := ⟨_, _, rfl, rfl⟩

/-- **C112** (negation) with CHECKEL NO a small mesh is verified in debugging. -/
theorem C112_checkel_false (strict : Bool) : ∃ s n, read strict [.checkel (some .no)] = .ok (s, n) ∧ verifyMesh true s = true :=
  ⟨_, _, rfl, rfl⟩

/-- **C112** (negation, for all files) PRTMAXIM has no effect: the extreme displacements are always printed. -/
theorem C112_prtmaxim_false (strict : Bool) (cs : List Card) (s : Store) (n : Nat) (e : read strict cs = .ok (s, n)) :
    printsExtremes s = true := by
  have h := read_field Store.printMaxim
    (fun | .prtmaxim w => if w.getD .no = .yes then some .yes else none | _ => none)
    (by card_cases) (by card_none) rfl strict cs s n e
  unfold printsExtremes
  rw [h]
  simp only [decide_eq_true_eq]
  intro hl
  have := List.mem_of_getLast? hl
  rw [List.mem_filterMap] at this
  obtain ⟨c, _, hc⟩ := this
  cases c <;> simp at hc

/-- **C112** the cards that cannot be followed are reported, one message for each; wrong cards stop the translation in strict mode,
and only these. -/
theorem C112_reported (strict : Bool) (cs : List Card) :
    (strict = true → (read strict cs = .throw ↔ ∃ c ∈ cs, wrong c = true)) ∧
    ((∀ c ∈ cs, wrong c = false) ∨ strict = false → ∃ s, read strict cs = .ok (s, (cs.filter refused).length)) := by
  have hc0 : ∀ s c, card s c = none ↔ wrong c = true := by
    intro s c
    cases c <;> simp [card, wrong]
  have hw : ∀ s c s' w, card s c = some (s', w) → w = refused c := by
    intro s c s' w hc
    cases c with
    | patver x =>
      simp only [card] at hc
      split at hc
      · rename_i hx
        simp only [Option.some.injEq, Prod.mk.injEq] at hc
        simp [← hc.2, refused, wrong, hx]
      · simp at hc
    | autospc v => cases v <;> simp_all [card, refused]
    | grdpnt v => cases v <;> simp_all [card, refused]
    | inrel v => cases v <;> simp_all [card, refused]
    | nocomps v => cases v <;> simp_all [card, refused]
    | unknown => simp [card] at hc
    | k6rot x => simp only [card, Option.some.injEq, Prod.mk.injEq] at hc; simp [← hc.2, refused]
    | _ => simp only [card, Option.some.injEq, Prod.mk.injEq] at hc; simp [← hc.2, refused, wrong]
  have hr : ∀ c, wrong c = true → refused c = true := by intro c; cases c <;> simp [wrong, refused]
  have hthrow : ∀ (cs : List Card) r, run true cs r = .throw ↔ ∃ c ∈ cs, wrong c = true := by
    intro cs
    induction cs with
    | nil => intro r; simp [run]
    | cons c cs ih =>
      rintro ⟨s, n⟩
      unfold run
      cases h : card s c with
      | none => simpa using Or.inl ((hc0 s c).1 h)
      | some q =>
        obtain ⟨s', w⟩ := q
        have hn : wrong c = false := by
          cases hb : wrong c with
          | false => rfl
          | true => rw [(hc0 s c).2 hb] at h; simp at h
        simp only [ih, List.mem_cons, exists_eq_or_imp, hn, Bool.false_eq_true, false_or]
  have hok : ∀ (cs : List Card) s n, ((∀ c ∈ cs, wrong c = false) ∨ strict = false) →
      ∃ s', run strict cs (s, n) = .ok (s', n + (cs.filter refused).length) := by
    intro cs
    induction cs with
    | nil => intro s n _; exact ⟨s, rfl⟩
    | cons c cs ih =>
      intro s n h
      have h' : (∀ c ∈ cs, wrong c = false) ∨ strict = false := h.imp (fun h c hc => h c (List.mem_cons_of_mem _ hc)) id
      unfold run
      cases hcc : card s c with
      | none =>
        have hwr := (hc0 s c).1 hcc
        have hs : strict = false := by
          rcases h with h | h
          · rw [h c List.mem_cons_self] at hwr; simp at hwr
          · exact h
        obtain ⟨s', e⟩ := ih s (n + 1) h'
        subst hs
        refine ⟨s', ?_⟩
        simp only [Bool.false_eq_true, if_false]
        rw [e, List.filter_cons_of_pos (hr c hwr), List.length_cons]
        congr 2; omega
      | some q =>
        obtain ⟨s1, w⟩ := q
        have hwc := hw s c s1 w hcc
        subst hwc
        cases hrc : refused c with
        | true =>
          obtain ⟨s', e⟩ := ih s1 (n + 1) h'
          refine ⟨s', ?_⟩
          simp only [if_true]
          rw [e, List.filter_cons_of_pos hrc, List.length_cons]
          congr 2; omega
        | false =>
          obtain ⟨s', e⟩ := ih s1 n h'
          refine ⟨s', ?_⟩
          simp only [Bool.false_eq_true, if_false]
          rw [e, List.filter_cons_of_neg (by simp [hrc])]
  refine ⟨?_, ?_⟩
  · rintro rfl
    exact hthrow cs _
  · intro h
    obtain ⟨s, e⟩ := hok cs {} 0 h
    exact ⟨s, by simpa [read] using e⟩

example : ([.autospc (some .yes), .wtmass none, .unknown, .k6rot none] : List Card).filter refused =
    [.autospc (some .yes), .unknown, .k6rot none] := by
  have h : isZero 100 = false := by unfold isZero tol; norm_num
  simp [List.filter, refused, wrong, h]

end Params
end Vega
