import Verif.Modes.Search
import Mathlib.Tactic.Linarith
import Mathlib.Tactic.Ring
import Mathlib.Tactic.NormNum

/-! # C106: the modes searched by the solvers are those asked for -/
namespace Vega

/-! ## Specification

The frequencies of a structure are a list in ascending order. -/
namespace ModeSpec

/-- A frequency between two bounds, either of which may be missing. -/
def Between (l u : Option Dbl) (f : Dbl) : Prop := (∀ x ∈ l, x ≤ f) ∧ ∀ x ∈ u, f ≤ x

instance (l u : Option Dbl) (f : Dbl) : Decidable (Between l u f) := by
  unfold Between; infer_instance

/-- The modes that `EIGRL` asks for (Nastran, as generally known): with `ND`, the `ND` lowest ones between `V1` and `V2`;
without it all of them, or the lowest one when `V2` is missing. -/
def asked (v1 v2 : Option Dbl) (nd : Option Nat) (fs : List Dbl) : List Dbl :=
  let band := fs.filter fun f => decide (Between v1 v2 f)
  match nd with
  | some n => band.take n
  | none => if v2 = none then band.take 1 else band

/-- The modes that Code_Aster computes (`CALC_MODES`, as generally known): the smallest (10 of them unless a number is given),
or those of an interval. `none`: the command is not complete, or the option is not described here. -/
def computed : Modes.CalcModes → List Dbl → Option (List Dbl)
  | ⟨.plusPetite, none, none⟩, fs => some (fs.take 10)
  | ⟨.plusPetite, some n, none⟩, fs => if 0 < n then some (fs.take n.toNat) else none
  | ⟨.bande, none, some (a, some b)⟩, fs => if a < b then some (fs.filter fun f => decide (a ≤ f ∧ f ≤ b)) else none
  | ⟨.separe, none, some (a, some b)⟩, fs => if a < b then some (fs.filter fun f => decide (a ≤ f ∧ f ≤ b)) else none
  | _, _ => none

/-- `EXTR_MODE` with `FREQ_MIN` and `FREQ_MAX`. -/
def extracted (b : Dbl × Dbl) (fs : List Dbl) : List Dbl := fs.filter fun f => decide (b.1 ≤ f ∧ f ≤ b.2)

/-- The modes that Systus computes: the lowest ones, of those at most `STURM` away from `FREQUENCY`. -/
def subspace (s : Modes.Subspace) (fs : List Dbl) : List Dbl :=
  match s.sturm with
  | none => fs.take s.vectors.toNat
  | some (c, h) => (fs.filter fun f => decide (|f - c| ≤ h)).take s.vectors.toNat

/-- The modes of a response: those between the limits `LFREQ` and `HFREQ` (0 and 1.+30 by default). -/
def retained (c : Modes.Cutoffs) (fs : List Dbl) : List Dbl :=
  fs.filter fun f => decide (c.lower.getD 0 ≤ f ∧ f ≤ c.upper.getD (10 ^ 30))

end ModeSpec

namespace Modes
open ModeSpec

/-- The `n` lowest modes are the `n` lowest ones of a band exactly if they are in the band. -/
theorem take_filter_iff {p : Dbl → Bool} (n : Nat) (fs : List Dbl) :
    fs.take n = (fs.filter p).take n ↔ ∀ f ∈ fs.take n, p f = true := by
  constructor
  · intro h f hf
    rw [h] at hf
    exact (List.mem_filter.mp (List.mem_of_mem_take hf)).2
  · intro h
    induction n generalizing fs with
    | zero => simp
    | succ n ih =>
      cases fs with
      | nil => simp
      | cons f fs =>
        have hf : p f = true := h f (by simp)
        rw [List.filter_cons_of_pos hf, List.take_succ_cons, List.take_succ_cons, ih fs]
        intro g hg
        exact h g (by simp [hg])

/-- The number of modes that `EIGRL` asks for, if it is limited. -/
def limit (v2 : Option Dbl) (nd : Option Nat) : Option Nat :=
  match nd with
  | some n => some n
  | none => if v2 = none then some 1 else none

theorem asked_limit (v1 v2 : Option Dbl) (nd : Option Nat) (fs : List Dbl) : asked v1 v2 nd fs =
    match limit v2 nd with
    | some n => (fs.filter fun f => decide (Between v1 v2 f)).take n
    | none => fs.filter fun f => decide (Between v1 v2 f) := by
  unfold asked limit
  cases nd with
  | some n => rfl
  | none => by_cases h : v2 = none <;> simp [h]

theorem parse_limit (v1 v2 : Option Dbl) (nd : Option Nat) :
    (parseBand v1 v2 (nd.map fun n : Nat => (n : Int))).maxsearch = (limit v2 nd).map fun n : Nat => (n : Int) := by
  unfold parseBand limit
  cases nd <;> cases v2 <;> simp

/-! ## C106, Code_Aster -/

/-- What the commands of Code_Aster give: with a limit, the lowest modes whatever the band; without a limit, those of the
band. Cut off by `LFREQ` and `HFREQ`. -/
theorem aster_modes (c : Cutoffs) (v1 v2 : Option Dbl) (nd : Option Nat) (hn : nd ≠ some 0) (fs : List Dbl)
    (hlt : ∀ u ∈ v2, asterStart c (parseBand v1 v2 (nd.map fun n : Nat => (n : Int))) < u) :
    (computed (writeBand false false c (parseBand v1 v2 (nd.map fun n : Nat => (n : Int)))) fs).map (extracted (extrMode c)) =
    match limit v2 nd with
    | some n => some (retained c (fs.take n))
    | none => some (retained c (fs.filter fun f =>
        decide (Between (some (asterStart c (parseBand v1 v2 none))) v2 f))) := by
  have hp := parse_limit v1 v2 nd
  cases hl : limit v2 nd with
  | some n =>
    rw [hl] at hp
    have hpos : 0 < n := by
      rcases Nat.eq_zero_or_pos n with h | h
      · subst h
        unfold limit at hl
        cases nd with
        | some k => simp only [Option.some.injEq] at hl; subst hl; exact absurd rfl hn
        | none => by_cases h : v2 = none <;> simp [h] at hl
      · exact h
    have : writeBand false false c (parseBand v1 v2 (nd.map fun n : Nat => (n : Int))) = ⟨.plusPetite, some (n : Int), none⟩ := by
      simp [writeBand, hp]
    rw [this]
    simp only [computed]
    rw [if_pos (by exact_mod_cast hpos)]
    rfl
  | none =>
    have hnd : nd = none ∧ v2 ≠ none := by
      unfold limit at hl
      cases nd with
      | some k => cases hl
      | none => by_cases h : v2 = none <;> simp_all
    obtain ⟨rfl, h2⟩ := hnd
    obtain ⟨u, rfl⟩ := Option.ne_none_iff_exists'.mp h2
    have hb : parseBand v1 (some u) none = ⟨v1, none, some u⟩ := by simp [parseBand]
    simp only [Option.map_none, hb, Option.mem_def, Option.some.injEq, forall_eq'] at hlt ⊢
    have : writeBand false false c ⟨v1, none, some u⟩ = ⟨.bande, none, some (asterStart c ⟨v1, none, some u⟩, some u)⟩ := by
      simp [writeBand]
    rw [this]
    simp only [computed, if_pos hlt, Option.map_some, Between, Option.mem_def, Option.some.injEq, forall_eq']
    rfl

/-- C106 for Code_Aster: the modes computed and retained are those asked for, for every `EIGRL` with a band and no number of
modes, and for those with a number of modes (also the default one) if that many lowest modes lie in the band. Frequencies are
not negative. -/
theorem C106_aster_partial (c : Cutoffs) (v1 v2 : Option Dbl) (nd : Option Nat) (hn : nd ≠ some 0) (fs : List Dbl)
    (hpos : ∀ f ∈ fs, 0 ≤ f) (hlt : ∀ u ∈ v2, asterStart c (parseBand v1 v2 (nd.map fun n : Nat => (n : Int))) < u)
    (hb : ∀ n ∈ limit v2 nd, ∀ f ∈ fs.take n, Between v1 v2 f) :
    (computed (writeBand false false c (parseBand v1 v2 (nd.map fun n : Nat => (n : Int)))) fs).map (extracted (extrMode c)) =
      some (retained c (asked v1 v2 nd fs)) := by
  rw [aster_modes c v1 v2 nd hn fs hlt, asked_limit]
  cases hl : limit v2 nd with
  | some n =>
    have : fs.take n = (fs.filter fun f => decide (Between v1 v2 f)).take n :=
      (take_filter_iff n fs).mpr fun f hf => by simpa using hb n hl f hf
    simp only [this]
  | none =>
    simp only [Option.some.injEq]
    simp only [retained, List.filter_filter]
    refine List.filter_congr fun f hf => ?_
    rw [Bool.eq_iff_iff]
    simp only [Bool.and_eq_true, decide_eq_true_eq]
    refine and_congr_right fun hr => ?_
    simp only [Between, asterStart, parseBand]
    cases v1 with
    | some x => simp
    | none =>
      cases hc : c.lower with
      | none => simp [hpos f hf]
      | some x => simp [hc] at hr; simp [hr.1]

/-- Exactly when a number of modes is given to Code_Aster without limits of the response: the modes are those asked for if
and only if the lowest ones are all in the band. -/
theorem C106_aster_number (v1 v2 : Option Dbl) (n : Nat) (hn : 0 < n) (fs : List Dbl)
    (hr : ∀ f ∈ fs, 0 ≤ f ∧ f ≤ 10 ^ 30)
    (hlt : ∀ u ∈ v2, asterStart ⟨none, none⟩ (parseBand v1 v2 (some (n : Int))) < u) :
    (computed (writeBand false false ⟨none, none⟩ (parseBand v1 v2 (some (n : Int)))) fs).map
        (extracted (extrMode ⟨none, none⟩)) = some (asked v1 v2 (some n) fs) ↔
      ∀ f ∈ fs.take n, Between v1 v2 f := by
  have h := aster_modes ⟨none, none⟩ v1 v2 (some n) (by simp; omega) fs hlt
  simp only [Option.map_some, limit] at h
  have hk : ∀ l : List Dbl, (∀ f ∈ l, f ∈ fs) → retained ⟨none, none⟩ l = l := by
    intro l hl
    simp only [retained, Option.getD_none]
    rw [List.filter_eq_self]
    intro f hf
    simpa using hr f (hl f hf)
  rw [h, hk _ fun f hf => List.mem_of_mem_take hf, asked_limit]
  simp only [limit, Option.some.injEq]
  rw [take_filter_iff]
  simp

/-- C106 is false for Code_Aster: a lower bound is lost as soon as a number of modes is given, or when the upper bound is
missing. Every structure whose lowest frequency is below `V1` gets a mode that was not asked for. -/
theorem C106_aster_lower_false (v1 : Dbl) (v2 : Option Dbl) (n : Nat) (hn : 0 < n) (f : Dbl) (fs : List Dbl) (hf : 0 ≤ f)
    (hf' : f ≤ 10 ^ 30) (hlow : f < v1) :
    ∃ l, (computed (writeBand false false ⟨none, none⟩ (parseBand (some v1) v2 (some (n : Int)))) (f :: fs)).map
        (extracted (extrMode ⟨none, none⟩)) = some l ∧ f ∈ l ∧ f ∉ asked (some v1) v2 (some n) (f :: fs) := by
  obtain ⟨k, rfl⟩ : ∃ k, n = k + 1 := ⟨n - 1, by omega⟩
  refine ⟨retained ⟨none, none⟩ ((f :: fs).take (k + 1)), ?_, ?_, ?_⟩
  · have : writeBand false false ⟨none, none⟩ (parseBand (some v1) v2 (some ((k + 1 : Nat) : Int))) =
        ⟨.plusPetite, some ((k + 1 : Nat) : Int), none⟩ := by simp [writeBand, parseBand]
    rw [this]
    simp only [computed]
    rw [if_pos (by omega)]
    rfl
  · simp [retained, hf, hf']
  · intro h
    have := (List.mem_filter.mp (List.mem_of_mem_take h)).2
    simp [Between] at this
    linarith

/-- C106 is false for a buckling analysis with a band and no number: the band is not written, and ten modes are computed. -/
theorem C106_buckling_false (c : Cutoffs) (v1 : Option Dbl) (v2 : Dbl) :
    ∀ fs, computed (writeBand true false c (parseBand v1 (some v2) none)) fs = some (fs.take 10) := by
  intro fs
  simp [writeBand, parseBand, computed]

/-- C106 is false with the power method and a number of modes: the command is not complete. -/
theorem C106_power_false (c : Cutoffs) (v1 v2 : Option Dbl) (n : Nat) (fs : List Dbl) :
    computed (writeBand false true c (parseBand v1 v2 (some (n : Int)))) fs = none := by
  simp [writeBand, parseBand, computed]

/-! ## C106, Systus -/

theorem systus_band (l u f : Dbl) : |f - 1/2 * (l + u)| ≤ 1/2 * (u - l) ↔ l ≤ f ∧ f ≤ u := by
  rw [abs_le]
  constructor
  · rintro ⟨h1, h2⟩; constructor <;> linarith
  · rintro ⟨h1, h2⟩; constructor <;> linarith

/-- C106 for Systus from version 2017 on, without `LFREQ`: the modes computed are those asked for if an upper bound is given
and, when the number of modes is missing, no more than 100 modes are in the band; or if neither bound is given. Frequencies
are not negative. -/
theorem C106_systus_partial (strict : Bool) (version : Int) (hv : 2017 ≤ version) (hi : Option Dbl) (v1 v2 : Option Dbl)
    (nd : Option Nat) (fs : List Dbl) (hpos : ∀ f ∈ fs, 0 ≤ f)
    (h1 : v2 = none → ∀ n ∈ limit v2 nd, ∀ f ∈ fs.take n, Between v1 none f)
    (h2 : nd = none → v2 ≠ none → (fs.filter fun f => decide (Between v1 v2 f)).length ≤ 100) :
    ∃ s, writeSubspace strict version ⟨none, hi⟩ (.band (parseBand v1 v2 (nd.map fun n : Nat => (n : Int)))) = .ok s ∧
      subspace s fs = asked v1 v2 nd fs := by
  refine ⟨_, rfl, ?_⟩
  have hp := parse_limit v1 v2 nd
  rw [asked_limit]
  cases v2 with
  | none =>
    have hl : ∃ n, limit none nd = some n := by unfold limit; cases nd <;> simp
    obtain ⟨n, hl⟩ := hl
    rw [hl] at hp
    simp only [hl, subspace, systusBounds, parseBand, Option.map_none, systusRoots]
    simp only [parseBand] at hp
    rw [hp]
    simp only [Option.map_some, Int.toNat_natCast]
    exact (take_filter_iff n fs).mpr fun f hf => by simpa using h1 rfl n hl f hf
  | some u =>
    have hbounds : systusBounds version ⟨none, hi⟩ (parseBand v1 (some u) (nd.map fun n : Nat => (n : Int))) =
        some (v1.getD 0, u) := by
      simp only [systusBounds, parseBand, systusLower]
      rw [if_neg (by omega)]
      cases v1 <;> rfl
    have hband : (fs.filter fun f => decide (|f - 1/2 * (v1.getD 0 + u)| ≤ 1/2 * (u - v1.getD 0))) =
        fs.filter fun f => decide (Between v1 (some u) f) := by
      refine List.filter_congr fun f hf => ?_
      rw [Bool.eq_iff_iff]
      simp only [decide_eq_true_eq, systus_band]
      cases v1 <;> simp [Between, hpos f hf]
    simp only [subspace, hbounds, Option.map_some, hband]
    cases nd with
    | some n =>
      simp [limit, systusRoots, parseBand]
    | none =>
      simp only [limit, systusRoots, parseBand]
      simp only [Option.map_none, Option.isNone_none, Option.isNone_some, Bool.and_false, Bool.false_eq_true, if_false,
        reduceCtorEq]
      rw [List.take_of_length_le]
      exact le_trans (h2 rfl (by simp)) (by decide)

/-- C106 is false for Systus when more than 100 modes are in the band and no number is given: the others are not computed. -/
theorem C106_systus_number_false (strict : Bool) (version : Int) (hv : 2017 ≤ version) (hi : Option Dbl) (l u : Dbl)
    (fs : List Dbl) (h : 100 < (fs.filter fun f => decide (Between (some l) (some u) f)).length) :
    ∃ s, writeSubspace strict version ⟨none, hi⟩ (.band (parseBand (some l) (some u) none)) = .ok s ∧
      (subspace s fs).length < (asked (some l) (some u) none fs).length := by
  refine ⟨_, rfl, ?_⟩
  have hbounds : systusBounds version ⟨none, hi⟩ (parseBand (some l) (some u) none) = some (l, u) := by
    simp only [systusBounds, parseBand, systusLower]
    rw [if_neg (by omega)]
  have hband : (fs.filter fun f => decide (|f - 1/2 * (l + u)| ≤ 1/2 * (u - l))) =
      fs.filter fun f => decide (Between (some l) (some u) f) := by
    refine List.filter_congr fun f _ => ?_
    rw [Bool.eq_iff_iff]
    simp only [decide_eq_true_eq, systus_band]
    simp [Between]
  have hroots : (systusRoots (parseBand (some l) (some u) none)).toNat = 100 := by
    simp [systusRoots, parseBand, defaultRoots]
  simp only [subspace, hbounds, Option.map_some, asked, hband, List.length_take, hroots, reduceCtorEq, if_false]
  omega

/-- C106 is false for Systus before version 2017: both bounds are dropped, and a mode outside of them is computed. -/
theorem C106_systus_version_false (strict : Bool) (version : Int) (hv : version < 2017) (c : Cutoffs) (v1 : Option Dbl)
    (v2 : Dbl) (nd : Option Nat) (hn : nd ≠ some 0) (f : Dbl) (fs : List Dbl) (hout : ¬ Between v1 (some v2) f) :
    ∃ s, writeSubspace strict version c (.band (parseBand v1 (some v2) (nd.map fun n : Nat => (n : Int)))) = .ok s ∧
      f ∈ subspace s (f :: fs) ∧ f ∉ asked v1 (some v2) nd (f :: fs) := by
  refine ⟨_, rfl, ?_, ?_⟩
  · have hb : systusBounds version c (parseBand v1 (some v2) (nd.map fun n : Nat => (n : Int))) = none := by
      simp [systusBounds, parseBand, hv]
    have hr : ∃ k, (systusRoots (parseBand v1 (some v2) (nd.map fun n : Nat => (n : Int)))).toNat = k + 1 := by
      cases nd with
      | none => exact ⟨99, by simp [systusRoots, parseBand, defaultRoots]⟩
      | some n =>
        have : n ≠ 0 := fun h => hn (by rw [h])
        exact ⟨n - 1, by simp [systusRoots, parseBand]; omega⟩
    obtain ⟨k, hk⟩ := hr
    simp only [subspace, hb, Option.map_none, hk, List.take_succ_cons]
    exact List.mem_cons_self
  · intro h
    have hm : f ∈ (f :: fs).filter fun g => decide (Between v1 (some v2) g) := by
      cases nd with
      | none => simpa [asked] using h
      | some n => exact List.mem_of_mem_take h
    exact hout (by simpa using (List.mem_filter.mp hm).2)

/-- C106 is false for Systus with a lower bound only: a mode below it is computed. -/
theorem C106_systus_lower_false (strict : Bool) (version : Int) (c : Cutoffs) (v1 : Dbl) (n : Nat) (hn : 0 < n) (f : Dbl)
    (fs : List Dbl) (hlow : f < v1) :
    ∃ s, writeSubspace strict version c (.band (parseBand (some v1) none (some (n : Int)))) = .ok s ∧
      f ∈ subspace s (f :: fs) ∧ f ∉ asked (some v1) none (some n) (f :: fs) := by
  obtain ⟨k, rfl⟩ : ∃ k, n = k + 1 := ⟨n - 1, by omega⟩
  refine ⟨_, rfl, ?_, ?_⟩
  · simp [subspace, systusBounds, parseBand, systusRoots]
  · intro h
    have := (List.mem_filter.mp (List.mem_of_mem_take h)).2
    simp [Between] at this
    linarith

/-- C106 is false for Systus with a list of frequencies (`SET` of type `FREQ` of Optistruct): outside of strict mode the
bounds are read before they are given a value. -/
theorem C106_systus_list_false (version : Int) (c : Cutoffs) (fs : List Dbl) :
    writeSubspace false version c (.list fs) = .ub ∧ writeSubspace true version c (.list fs) = .throw := ⟨rfl, rfl⟩

/-! ## Examples -/

/-- A band with two of four frequencies. -/
example : asked (some 5) (some 20) none [1, 10, 20, 30] = [10, 20] ∧
    (computed (writeBand false false ⟨none, none⟩ (parseBand (some 5) (some 20) none)) [1, 10, 20, 30]).map
      (extracted (extrMode ⟨none, none⟩)) = some [10, 20] := by decide +kernel

/-- The same with `ND` = 3. -/
example : asked (some 5) (some 20) (some 3) [1, 10, 20, 30] = [10, 20] ∧
    (computed (writeBand false false ⟨none, none⟩ (parseBand (some 5) (some 20) (some 3))) [1, 10, 20, 30]).map
      (extracted (extrMode ⟨none, none⟩)) = some [1, 10, 20] := by decide +kernel

/-- The hypotheses of C106_aster_partial and C106_systus_partial are met. -/
example : (∀ n ∈ limit (some 40) (some 3), ∀ f ∈ ([1, 10, 20, 30] : List Dbl).take n, Between none (some 40) f) ∧
    (∀ f ∈ ([1, 10, 20, 30] : List Dbl), (0 : Dbl) ≤ f) := by decide +kernel

end Modes
end Vega
