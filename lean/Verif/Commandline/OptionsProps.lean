import Verif.Commandline.Options
import Verif.Commandline.TranslationProps
import Verif.Results.F06Props
import Verif.Mesh.BarsProps
import Mathlib.Tactic.Tauto

/-! # C149: the options of a translation, from the command line, the configuration file and the documentation -/
namespace Vega
namespace OptionsSpec
open Nastran Cli
open F06Spec (Digits)

/-! ## Specification -/

/-- The values that a source gives to an option. -/
def occurs (src : Source) (o : Opt) : List Val := (src.filter (fun p => decide (p.1 = o))).map (·.2)

/-- The texts of a value that is a list. -/
def lists : Val → List Line
  | .texts l => l
  | _ => []

/-- What values given together mean: the value, or all the lists. -/
def together : List Val → Option Val
  | [] => none
  | .texts l :: r => some (.texts (l ++ r.flatMap lists))
  | v :: _ => some v

/-- What the help text says of options that are not given. -/
def documented : Opt → Option Val
  | .config => some (.text "~/vegamain.cfg".toList)
  | .outputDir => some (.text ".".toList)
  | .solverServer => some (.text "localhost".toList)
  | .dialect => some (.text "cosmic95".toList)
  | .dynamicMethod | .optionAnalysis => some (.text "auto".toList)
  | .rbe2Mode => some (.text "penalty".toList)
  | .outputProduct => some (.text "systus".toList)
  | .outputMatrix => some (.text "table".toList)
  | .inputFormat => some (.text "NASTRAN".toList)
  | .outputFormat => some (.text "ASTER".toList)
  | _ => none

/-- The value of an option: that of the command line, else that of the configuration file, else the documented one. -/
def asked (cmd file : Source) (o : Opt) : Option Val :=
  match together (occurs cmd o) with
  | some v => some v
  | none => match together (occurs file o) with
    | some v => some v
    | none => documented o

/-- Sources that can be understood: known options, with values of their kind, given once unless they are lists. What the file says of
options of the command line does not matter, but they must be known. -/
structure Understood (cmd file : Source) : Prop where
  line : ∀ o, occurs cmd o ≠ [] → ∃ k, onLine o = some k ∧ (∀ v ∈ occurs cmd o, v.kind = k) ∧
    (k ≠ .texts → (occurs cmd o).length = 1)
  known : ∀ o, occurs file o ≠ [] → inFile o ≠ none
  rest : ∀ o, occurs cmd o = [] → occurs file o ≠ [] → ∃ k, inFile o = some k ∧ (∀ v ∈ occurs file o, v.kind = k) ∧
    (k ≠ .texts → (occurs file o).length = 1)

/-- The path that a text names: itself, or when it begins with a quote, what is between this quote and the last character. -/
inductive Path : Line → Line → Prop
  | plain {c t} : c ≠ '"' → c ≠ '\'' → Path (c :: t) (c :: t)
  | quoted {q s z} : q = '"' ∨ q = '\'' → Path (q :: (s ++ [z])) s

/-- The names of levels. -/
def levelName : LogLevel → Line
  | .ERROR => "ERROR".toList
  | .WARN => "WARN".toList
  | .INFO => "INFO".toList
  | .DEBUG => "DEBUG".toList
  | .TRACE => "TRACE".toList

/-- The level: the one named, in any case, else `INFO`; at least `DEBUG` when debugging. -/
inductive Level (verbosity : Option Val) (debug : Prop) : LogLevel → Prop
  | named {s l} : verbosity = some (.text s) → s.map Char.toUpper = levelName l → ¬ debug → Level verbosity debug l
  | unknown {s} : verbosity = some (.text s) → (∀ l, s.map Char.toUpper ≠ levelName l) → ¬ debug → Level verbosity debug .INFO
  | missing : verbosity = none → ¬ debug → Level verbosity debug .INFO
  | trace {s} : verbosity = some (.text s) → s.map Char.toUpper = levelName .TRACE → debug → Level verbosity debug .TRACE
  | debug : (∀ s, verbosity = some (.text s) → s.map Char.toUpper ≠ levelName .TRACE) → debug → Level verbosity debug .DEBUG

/-- The modes. -/
inductive Modes (best mesh strict : Prop) : Mode → Prop
  | best : ¬ mesh → ¬ strict → Modes best mesh strict .BEST_EFFORT
  | mesh : ¬ best → mesh → ¬ strict → Modes best mesh strict .MESH_AT_LEAST
  | strict : ¬ best → strict → Modes best mesh strict .STRICT

/-- What the options that are not of one solver mean. -/
structure Generic (a : Opt → Option Val) (p : Params) : Prop where
  level : Level (a .verbosity) (a .debug ≠ none) p.level
  input : ∃ s, a .inputFile = some (.text s) ∧ Path s p.input
  dir : ∃ s, a .outputDir = some (.text s) ∧ Path s p.dir
  test : (a .testFile = none ∧ p.test = []) ∨ ∃ s, a .testFile = some (.text s) ∧ Path s p.test
  tolerance : (a .tolerance = none ∧ p.tolerance = 2 / 100) ∨ a .tolerance = some (.real p.tolerance)
  mode : Modes (a .bestEffort ≠ none) (a .meshAtLeast ≠ none) (a .strict ≠ none) p.mode
  graph : p.graph = true ↔ a .graph ≠ none ∧ p.level = .TRACE
  solver : ∃ s, a .outputFormat = some (.text s) ∧ CliSpec.Spells s p.solver
  rigids : (a .convertRigids = none ∧ (p.rigids = true ↔ p.solver = .CODE_ASTER)) ∨ a .convertRigids = some (.truth p.rigids)
  run : p.run = true ↔ a .runSolver ≠ none
  command : (a .solverCommand = none ∧ p.command = []) ∨ ∃ s, a .solverCommand = some (.text s) ∧ p.command = trim s
  server : ∃ s, a .solverServer = some (.text s) ∧ p.server = trim s
  version : a .solverVersion = some (.text p.solverVersion) ∨
    (a .solverVersion = none ∧ p.solver = .SYSTUS ∧ p.solverVersion = "2016".toList) ∨
    (a .solverVersion = none ∧ p.solver ≠ .SYSTUS ∧ p.solverVersion = [])

/-- The stiffness of rigid elements; `none` is an automatic one. -/
inductive Stiffness (a : Opt → Option Val) (penalty : Prop) : Option Dbl → Prop
  | given {x} : a .rbeStiffness = some (.real x) → Stiffness a penalty (some x)
  | rigidity {x} : a .rbeStiffness = none → penalty → a .rbe2Rigidity = some (.real x) → Stiffness a penalty (some x)
  | lagrangian {x} : a .rbeStiffness = none → ¬ (penalty ∧ a .rbe2Rigidity ≠ none) → a .rbeLagrangian = some (.real x) →
    Stiffness a penalty (some 1)
  | automatic : a .rbeStiffness = none → ¬ (penalty ∧ a .rbe2Rigidity ≠ none) → a .rbeLagrangian = none →
    Stiffness a penalty none

/-- The coefficient of rigid elements. -/
inductive Coefficient (a : Opt → Option Val) (penalty : Prop) : Dbl → Prop
  | given {x} : a .rbeCoefficient = some (.real x) → Coefficient a penalty x
  | rigidity {x} : a .rbeCoefficient = none → penalty → a .rbe2Rigidity = some (.real x) → Coefficient a penalty 1
  | lagrangian {x} : a .rbeCoefficient = none → ¬ (penalty ∧ a .rbe2Rigidity ≠ none) → a .rbeLagrangian = some (.real x) →
    Coefficient a penalty x
  | penalty : a .rbeCoefficient = none → a .rbe2Rigidity = none → a .rbeLagrangian = none → penalty → Coefficient a penalty 10
  | multiplier : a .rbeCoefficient = none → a .rbeLagrangian = none → ¬ penalty → Coefficient a penalty 1000

/-- Numbers with commas between them. -/
inductive Listed : Line → List Int → Prop
  | one {w : Line} {n : Nat} : Digits w n → Listed w [(n : Int)]
  | more {w : Line} {n : Nat} {r l} : Digits w n → Listed r l → Listed (w ++ ',' :: r) ((n : Int) :: l)

/-- The groups of analyses that texts ask for: lists of numbers, up to a text `single` (every analysis alone, told by -1) or `auto` (no
group). -/
inductive Groups : List Line → List (List Int) → Prop
  | lists {ls gs} : List.Forall₂ Listed ls gs → Groups ls gs
  | single {ls gs rest} : List.Forall₂ Listed ls gs → Groups (ls ++ "single".toList :: rest) [[-1]]
  | auto {ls gs rest} : List.Forall₂ Listed ls gs → Groups (ls ++ "auto".toList :: rest) []

/-- What the options of solvers mean. -/
structure Specific (a : Opt → Option Val) (p : Params) : Prop where
  dialect : a .dialect = some (.text p.dialect) ∧ p.dialect ∈ ["cosmic95".toList, "modern".toList]
  rbe2 : a .rbe2Mode = some (.text p.rbe2) ∧ p.rbe2 ∈ ["penalty".toList, "lagrangian".toList]
  stiffness : Stiffness a (p.rbe2 = "penalty".toList) p.stiffness
  coefficient : Coefficient a (p.rbe2 = "penalty".toList) p.coefficient
  analysis : a .optionAnalysis = some (.text p.analysis) ∧
    p.analysis ∈ ["auto".toList, "3D".toList, "shell".toList, "shell-multi".toList]
  product : a .outputProduct = some (.text p.product) ∧ p.product ∈ ["systus".toList, "topaze".toList]
  dynamic : a .dynamicMethod = some (.text p.dynamic) ∧ p.dynamic ∈ ["auto".toList, "direct".toList, "modal".toList]
  matrix : a .outputMatrix = some (.text p.matrix) ∧ p.matrix ∈ ["table".toList, "file".toList]
  size : (a .sizeMatrix = some (.whole p.size) ∧ 2 ≤ p.size) ∨
    (a .sizeMatrix = none ∧ p.matrix = "file".toList ∧ p.size = 20) ∨
    (a .sizeMatrix = none ∧ p.matrix ≠ "file".toList ∧ p.size = 9)
  subcases : (a .subcase = none ∧ p.subcases = []) ∨ ∃ l, a .subcase = some (.texts l) ∧ Groups l p.subcases

end OptionsSpec

namespace Cli
open Nastran OptionsSpec
open F06 (stoi)
open Bars (bind_ok_iff)

/-! ## Sources -/

/-- One option of one source. -/
def put (k : Kind) : Option (Val × Bool) → List Val → Outcome (Option (Val × Bool))
  | old, [] => .ok old
  | old, v :: r =>
    if v.kind ≠ k then .throw
    else do
      let w ← parseInto old v
      put k (some (w, false)) r

theorem storeLoop_ok (declared : Opt → Option Kind) (final : Opt → Bool) (src : Source) (m m' : Opt → Option (Val × Bool)) :
    storeLoop declared final src m = .ok m' ↔
      (∀ o, occurs src o ≠ [] → declared o ≠ none) ∧
      ∀ o, if final o then m' o = m o else
        match declared o with
        | none => m' o = m o
        | some k => put k (m o) (occurs src o) = .ok (m' o) := by
  induction src generalizing m with
  | nil =>
    simp only [storeLoop, occurs, List.filter_nil, List.map_nil, put, Outcome.ok.injEq]
    constructor
    · rintro rfl
      refine ⟨fun _ h => absurd rfl h, fun o => ?_⟩
      split
      · rfl
      · split <;> rfl
    · rintro ⟨-, h⟩
      funext o
      have := h o
      split at this
      · exact this.symm
      · split at this
        · exact this.symm
        · exact this
  | cons q rest ih =>
    obtain ⟨o, v⟩ := q
    have hocc : ∀ o', occurs ((o, v) :: rest) o' = if o' = o then v :: occurs rest o' else occurs rest o' := by
      intro o'
      by_cases e : o' = o
      · subst e; simp [occurs]
      · simp [occurs, e, Ne.symm e]
    rw [storeLoop]
    cases hd : declared o with
    | none =>
      simp only
      refine ⟨fun h => (by cases h), fun h => absurd hd (h.1 o ?_)⟩
      rw [hocc]; simp
    | some k =>
      simp only
      have hknown : (∀ o', occurs ((o, v) :: rest) o' ≠ [] → declared o' ≠ none) ↔
          (∀ o', occurs rest o' ≠ [] → declared o' ≠ none) := by
        constructor
        · intro h o' ho'
          apply h; rw [hocc]; split
          · simp
          · exact ho'
        · intro h o' ho'
          by_cases e : o' = o
          · subst e; rw [hd]; simp
          · rw [hocc, if_neg e] at ho'; exact h o' ho'
      by_cases hf : final o = true
      · rw [if_pos hf, ih, hknown]
        refine and_congr_right fun _ => forall_congr' fun o' => ?_
        by_cases e : o' = o
        · subst e; simp [hf]
        · rw [hocc, if_neg e]
      · rw [if_neg hf]
        by_cases hk : v.kind ≠ k
        · rw [if_pos hk]
          refine ⟨fun h => (by cases h), fun h => ?_⟩
          have := h.2 o
          rw [if_neg hf, hd, hocc, if_pos rfl] at this
          simp only [put, if_pos hk] at this
          cases this
        · rw [if_neg hk]
          rw [bind_ok_iff]
          constructor
          · rintro ⟨w, hw, h⟩
            rw [ih] at h
            refine ⟨hknown.mpr h.1, fun o' => ?_⟩
            have := h.2 o'
            by_cases e : o' = o
            · subst e
              rw [if_neg hf, hd] at this ⊢
              rw [hocc, if_pos rfl]
              simp only [put, if_neg hk, hw, Outcome.bind_ok]
              simpa using this
            · rw [hocc, if_neg e]
              simpa [e] using this
          · rintro ⟨h1, h2⟩
            have ho := h2 o
            rw [if_neg hf, hd, hocc, if_pos rfl] at ho
            simp only [put, if_neg hk] at ho
            rw [bind_ok_iff] at ho
            obtain ⟨w, hw, ho⟩ := ho
            refine ⟨w, hw, ?_⟩
            rw [ih]
            refine ⟨hknown.mp h1, fun o' => ?_⟩
            by_cases e : o' = o
            · subst e
              rw [if_neg hf, hd]
              simpa using ho
            · have := h2 o'
              rw [hocc, if_neg e] at this
              simpa [e] using this

/-- Lists after a list. -/
theorem put_texts (l : List Line) (vs : List Val) (x : Option (Val × Bool)) :
    put .texts (some (.texts l, false)) vs = .ok x ↔
      (∀ v ∈ vs, v.kind = .texts) ∧ x = some (.texts (l ++ vs.flatMap lists), false) := by
  induction vs generalizing l with
  | nil => simp [put, eq_comm]
  | cons v r ih =>
    cases v <;> simp [put, Val.kind, parseInto, ih, lists, List.append_assoc]

/-- The options of a source are put on top of what is not final. -/
theorem put_ok (k : Kind) (old : Option (Val × Bool)) (vs : List Val) (x : Option (Val × Bool))
    (hold : ∀ w, old ≠ some (w, false)) :
    put k old vs = .ok x ↔ (∀ v ∈ vs, v.kind = k) ∧ (k ≠ .texts → vs.length ≤ 1) ∧
      x = (match together vs with
        | some v => some (v, false)
        | none => old) := by
  cases vs with
  | nil => simp [put, together, eq_comm]
  | cons v r =>
    have hp : parseInto old v = .ok v := by
      cases old with
      | none => rfl
      | some q =>
        obtain ⟨w, b⟩ := q
        cases b with
        | true => simp [parseInto]
        | false => exact absurd rfl (hold w)
    simp only [put, hp, Outcome.bind_ok]
    by_cases hk : v.kind = k
    · rw [if_neg (fun h => h hk)]
      by_cases ht : k = .texts
      · subst ht
        cases v <;> simp only [Val.kind] at hk <;> try (exact absurd hk (by decide))
        simp [put_texts, together, Val.kind]
      · cases r with
        | nil =>
          have : together [v] = some v := by cases v <;> simp [together, List.flatMap]
          simp [put, this, hk, eq_comm]
        | cons v' r' =>
          have : put k (some (v, false)) (v' :: r') ≠ .ok x := by
            intro h
            simp only [put] at h
            split at h
            · cases h
            · rename_i hk'
              rw [bind_ok_iff] at h
              obtain ⟨w, hw, -⟩ := h
              cases v <;> simp [Val.kind] at hk <;> first | (subst hk; exact absurd rfl ht) | (cases v' <;> simp [parseInto] at hw)
          refine ⟨fun h => absurd h this, fun h => ?_⟩
          have := h.2.1 ht
          simp at this
    · rw [if_pos hk]
      exact ⟨fun h => (by cases h), fun h => absurd (h.1 v (by simp)) hk⟩

theorem dflt_documented : dflt = documented := by
  funext o; cases o <;> rfl

theorem together_none {vs : List Val} : together vs = none ↔ vs = [] := by
  cases vs with
  | nil => simp [together]
  | cons v r => cases v <;> simp [together]

theorem any_occurs (src : Source) (o : Opt) : src.any (fun p => decide (p.1 = o)) = true ↔ occurs src o ≠ [] := by
  simp [occurs, List.any_eq_true, List.filter_eq_nil_iff]

/-- The command line in the store. -/
theorem store_line (cmd : Source) (vm : Vm) : store onLine cmd Vm.empty = .ok vm ↔
    (∀ o, occurs cmd o ≠ [] → ∃ k, onLine o = some k ∧ (∀ v ∈ occurs cmd o, v.kind = k) ∧
      (k ≠ .texts → (occurs cmd o).length = 1)) ∧
    vm = ⟨fun o => match together (occurs cmd o) with
      | some v => some (v, false)
      | none => (documented o).map (fun v => (v, true)), fun o => decide (occurs cmd o ≠ [])⟩ := by
  have hfinal : (fun o => Vm.empty.final o || cmd.any (fun p => decide (p.1 = o))) = fun o => decide (occurs cmd o ≠ []) := by
    funext o
    rw [Bool.eq_iff_iff]
    simp only [Vm.empty, Bool.false_or, any_occurs, decide_eq_true_eq]
  have hdoc : ∀ o, (if (onLine o).isSome then (dflt o).map (fun v => (v, true)) else none) =
      (documented o).map (fun v => (v, true)) := by
    intro o; rw [dflt_documented]; cases o <;> rfl
  unfold store
  rw [bind_ok_iff, hfinal]
  constructor
  · rintro ⟨m, hm, h⟩
    rw [storeLoop_ok] at hm
    injection h with h
    have key : ∀ o, (match together (occurs cmd o) with
      | some v => some (v, false)
      | none => none) = m o ∧ (occurs cmd o ≠ [] → ∃ k, onLine o = some k ∧ (∀ v ∈ occurs cmd o, v.kind = k) ∧
      (k ≠ .texts → (occurs cmd o).length = 1)) := by
      intro o
      have h2 := hm.2 o
      simp only [Vm.empty, Bool.false_eq_true, if_false] at h2
      cases hk : onLine o with
      | none =>
        rw [hk] at h2
        simp only at h2
        have : occurs cmd o = [] := by
          by_contra hne
          exact hm.1 o hne hk
        rw [this, h2]
        exact ⟨rfl, fun h => absurd rfl h⟩
      | some k =>
        rw [hk] at h2
        simp only at h2
        rw [put_ok _ _ _ _ (by simp)] at h2
        refine ⟨h2.2.2.symm, fun hne => ⟨k, rfl, h2.1, fun ht => ?_⟩⟩
        have h3 := h2.2.1 ht
        have h4 := List.length_pos_iff.mpr hne
        omega
    refine ⟨fun o => (key o).2, ?_⟩
    rw [← h]
    congr 1
    funext o
    rw [← (key o).1]
    cases together (occurs cmd o) with
    | some v => rfl
    | none => simp only [hdoc]
  · rintro ⟨h1, rfl⟩
    refine ⟨fun o => match together (occurs cmd o) with
      | some v => some (v, false)
      | none => none, ?_, ?_⟩
    · rw [storeLoop_ok]
      refine ⟨fun o ho => ?_, fun o => ?_⟩
      · obtain ⟨k, hk, -⟩ := h1 o ho
        rw [hk]; simp
      · simp only [Vm.empty, Bool.false_eq_true, if_false]
        by_cases hne : occurs cmd o = []
        · rw [hne]
          cases onLine o <;> rfl
        · obtain ⟨k, hk, h2, h3⟩ := h1 o hne
          rw [hk]
          simp only
          rw [put_ok _ _ _ _ (by simp)]
          exact ⟨h2, fun ht => (h3 ht).le, rfl⟩
    · congr 1
      congr 1
      funext o
      cases hv : together (occurs cmd o) with
      | some v => simp only [hv]
      | none => simp only [hv, hdoc]

theorem inFile_onLine {o : Opt} {k : Kind} (h : inFile o = some k) : onLine o = some k := by
  cases o <;> first | exact h | cases h

/-- The file in the store, after the command line. -/
theorem store_file (cmd file : Source) (vm0 vm : Vm) (h0 : store onLine cmd Vm.empty = .ok vm0) :
    (∃ vm, store inFile file vm0 = .ok vm ∧ (fun o => (vm.values o).map (·.1)) = asked cmd file) ↔ Understood cmd file := by
  rw [store_line] at h0
  obtain ⟨hc, rfl⟩ := h0
  unfold store
  constructor
  · rintro ⟨vm, hv, hasked⟩
    rw [bind_ok_iff] at hv
    obtain ⟨m, hm, h⟩ := hv
    rw [storeLoop_ok] at hm
    refine ⟨hc, hm.1, fun o hno hne => ?_⟩
    have h2 := hm.2 o
    simp only [hno, ne_eq, not_true_eq_false, decide_false, Bool.false_eq_true, if_false, together] at h2
    cases hk : inFile o with
    | none => exact absurd hk (hm.1 o hne)
    | some k =>
      rw [hk] at h2
      simp only at h2
      rw [put_ok _ _ _ _ (by cases documented o <;> simp)] at h2
      refine ⟨k, rfl, h2.1, fun ht => ?_⟩
      have h3 := h2.2.1 ht
      have h4 := List.length_pos_iff.mpr hne
      omega
  · intro hu
    refine ⟨_, bind_ok_iff.mpr ⟨fun o => match together (occurs cmd o) with
      | some v => some (v, false)
      | none => match together (occurs file o) with
        | some v => some (v, false)
        | none => (documented o).map (fun v => (v, true)), ?_, rfl⟩, ?_⟩
    · rw [storeLoop_ok]
      refine ⟨hu.known, fun o => ?_⟩
      by_cases hno : occurs cmd o = []
      · simp only [hno, ne_eq, not_true_eq_false, decide_false, Bool.false_eq_true, if_false, together]
        by_cases hne : occurs file o = []
        · rw [hne]
          cases inFile o <;> rfl
        · obtain ⟨k, hk, h2, h3⟩ := hu.rest o hno hne
          rw [hk]
          simp only
          rw [put_ok _ _ _ _ (by cases documented o <;> simp)]
          exact ⟨h2, fun ht => (h3 ht).le, rfl⟩
      · have : ∃ v, together (occurs cmd o) = some v := by
          cases h : together (occurs cmd o) with
          | none => exact absurd (together_none.mp h) hno
          | some v => exact ⟨v, rfl⟩
        obtain ⟨v, hv⟩ := this
        simp only [hno, hv, ne_eq, not_false_eq_true, decide_true, if_true]
    · funext o
      simp only [asked]
      cases hv : together (occurs cmd o) with
      | some v => rfl
      | none =>
        cases hw : together (occurs file o) with
        | some v => rfl
        | none =>
          cases hd : documented o with
          | some v => rfl
          | none =>
            rw [dflt_documented, hd]
            simp

/-! ## Values -/

theorem text_ok {vm : Vm} {o : Opt} {t : Option Line} :
    vm.text o = .ok t ↔ (vm.values o).map (·.1) = t.map Val.text := by
  unfold Vm.text
  rcases vm.values o with _ | ⟨v, b⟩
  · cases t <;> simp
  · cases v <;> cases t <;> simp

theorem real_ok {vm : Vm} {o : Opt} {t : Option Dbl} :
    vm.real o = .ok t ↔ (vm.values o).map (·.1) = t.map Val.real := by
  unfold Vm.real
  rcases vm.values o with _ | ⟨v, b⟩
  · cases t <;> simp
  · cases v <;> cases t <;> simp

theorem whole_ok {vm : Vm} {o : Opt} {t : Option Int} :
    vm.whole o = .ok t ↔ (vm.values o).map (·.1) = t.map Val.whole := by
  unfold Vm.whole
  rcases vm.values o with _ | ⟨v, b⟩
  · cases t <;> simp
  · cases v <;> cases t <;> simp

theorem truth_ok {vm : Vm} {o : Opt} {t : Option Bool} :
    vm.truth o = .ok t ↔ (vm.values o).map (·.1) = t.map Val.truth := by
  unfold Vm.truth
  rcases vm.values o with _ | ⟨v, b⟩
  · cases t <;> simp
  · cases v <;> cases t <;> simp

theorem texts_ok {vm : Vm} {o : Opt} {t : Option (List Line)} :
    vm.texts o = .ok t ↔ (vm.values o).map (·.1) = t.map Val.texts := by
  unfold Vm.texts
  rcases vm.values o with _ | ⟨v, b⟩
  · cases t <;> simp
  · cases v <;> cases t <;> simp

theorem has_iff (vm : Vm) (o : Opt) : vm.has o = true ↔ (vm.values o).map (·.1) ≠ none := by
  unfold Vm.has
  cases vm.values o <;> simp

theorem path_ok (s p : Line) : normalizePath s = .ok p ↔ Path s p := by
  cases s with
  | nil =>
    refine ⟨fun h => (by cases h), fun h => ?_⟩
    cases h
  | cons c t =>
    simp only [normalizePath]
    by_cases hq : c = '"' ∨ c = '\''
    · rw [if_pos hq]
      cases t with
      | nil =>
        simp only
        refine ⟨fun h => (by cases h), fun h => ?_⟩
        generalize hx : ([c] : Line) = x at h
        cases h with
        | plain h1 h2 =>
          injection hx with e _
          subst e
          exact absurd hq (by tauto)
        | quoted _ =>
          injection hx with _ e
          simp at e
      | cons d t =>
        simp only [Outcome.ok.injEq]
        constructor
        · intro h
          have h1 := List.dropLast_append_getLast (l := d :: t) (by simp)
          rw [h] at h1
          rw [← h1]
          exact .quoted hq
        · intro h
          generalize hx : (c :: d :: t : Line) = x at h
          cases h with
          | plain h1 h2 =>
            injection hx with e _
            subst e
            exact absurd hq (by tauto)
          | quoted _ =>
            injection hx with _ e
            rw [e]; simp
    · rw [if_neg hq]
      push Not at hq
      constructor
      · intro h
        injection h with h
        rw [← h]
        exact .plain hq.1 hq.2
      · intro h
        cases h with
        | plain _ _ => rfl
        | quoted h => exact absurd h (by tauto)

theorem mode_ok (best mesh strict : Bool) (B M S : Prop) (hb : best = true ↔ B) (hm : mesh = true ↔ M) (hs : strict = true ↔ S)
    (m : Mode) : readMode best mesh strict = .ok m ↔ Modes B M S m := by
  constructor
  · intro h
    cases best <;> cases mesh <;> cases strict <;> simp [readMode] at h <;> subst h <;> constructor <;> simp_all
  · intro h
    cases h <;> cases best <;> cases mesh <;> cases strict <;> simp_all [readMode]

theorem level_ok (v : Option Line) (debug : Bool) (D : Prop) (hd : debug = true ↔ D) (l : LogLevel) :
    readLevel v debug = l ↔ Level (v.map Val.text) D l := by
  have h5 : ∀ s : Line, (∃ l, s.map Char.toUpper = levelName l) ∨ ∀ l, s.map Char.toUpper ≠ levelName l := by
    intro s
    by_cases h : ∃ l, s.map Char.toUpper = levelName l
    · exact .inl h
    · push Not at h; exact .inr h
  have hinj : ∀ a b : LogLevel, levelName a = levelName b → a = b := by
    intro a b; cases a <;> cases b <;> decide +kernel
  have hlev : ∀ (s : Line) (l : LogLevel), s.map Char.toUpper = levelName l → readLevel (some s) debug =
      if debug then (match l with
        | .TRACE => .TRACE
        | _ => .DEBUG) else l := by
    intro s l hl
    simp only [readLevel, toUpper, hl]
    cases l <;> cases debug <;> decide +kernel
  have hunk : ∀ s : Line, (∀ l, s.map Char.toUpper ≠ levelName l) → readLevel (some s) debug = if debug then .DEBUG else .INFO := by
    intro s hs
    have h1 := hs .TRACE
    have h2 := hs .DEBUG
    have h3 := hs .INFO
    have h4 := hs .WARN
    have h5 := hs .ERROR
    simp only [levelName] at h1 h2 h3 h4 h5
    simp only [readLevel, toUpper, h1, h2, h3, h4, h5, if_false]
  constructor
  · rintro rfl
    cases v with
    | none =>
      cases debug with
      | false => exact .missing rfl (by simp [← hd])
      | true => exact .debug (by simp) (by simp [← hd])
    | some s =>
      rcases h5 s with ⟨l, hl⟩ | hs
      · rw [hlev s l hl]
        cases debug with
        | false => exact .named rfl hl (by simp [← hd])
        | true =>
          cases l
          case TRACE => exact .trace rfl hl (by simp [← hd])
          all_goals
            refine .debug (fun s' hs' hu => ?_) (by simp [← hd])
            simp only [Option.map_some, Option.some.injEq, Val.text.injEq] at hs'
            subst hs'
            rw [hl] at hu
            exact absurd (hinj _ _ hu) (by decide)
      · rw [hunk s hs]
        cases debug with
        | false => exact .unknown rfl hs (by simp [← hd])
        | true =>
          refine .debug (fun s' hs' hu => ?_) (by simp [← hd])
          simp only [Option.map_some, Option.some.injEq, Val.text.injEq] at hs'
          subst hs'
          exact hs _ hu
  · intro h
    cases h with
    | named hv hl hn =>
      rename_i s
      cases v with
      | none => simp at hv
      | some s' =>
        simp only [Option.map_some, Option.some.injEq, Val.text.injEq] at hv
        subst hv
        rw [hlev _ l hl]
        have : debug = false := by
          cases debug
          · rfl
          · exact absurd (hd.mp rfl) hn
        rw [this]; rfl
    | unknown hv hs hn =>
      cases v with
      | none => simp at hv
      | some s' =>
        simp only [Option.map_some, Option.some.injEq, Val.text.injEq] at hv
        subst hv
        rw [hunk _ hs]
        have : debug = false := by
          cases debug
          · rfl
          · exact absurd (hd.mp rfl) hn
        rw [this]; rfl
    | missing hv hn =>
      cases v with
      | some s => simp at hv
      | none =>
        have : debug = false := by
          cases debug
          · rfl
          · exact absurd (hd.mp rfl) hn
        rw [this]; rfl
    | trace hv hl hD =>
      cases v with
      | none => simp at hv
      | some s' =>
        simp only [Option.map_some, Option.some.injEq, Val.text.injEq] at hv
        subst hv
        rw [hlev _ _ hl, hd.mpr hD]; rfl
    | debug hv hD =>
      rw [hd.mpr hD] at hlev hunk ⊢
      cases v with
      | none => rfl
      | some s =>
        rcases h5 s with ⟨l, hl⟩ | hs
        · rw [hlev s l hl]
          cases l
          case TRACE => exact absurd hl (hv s rfl)
          all_goals rfl
        · rw [hunk s hs]; rfl

/-! ## Groups of analyses -/

open F06Spec (Digits)

theorem number_ok {w : Line} (hw : ∀ c ∈ w, c.isDigit = true) (i : Int) :
    number w = .ok i ↔ ∃ n, Digits w n ∧ i = (n : Int) := by
  have hs : signed w = (false, w) := by
    cases w with
    | nil => rfl
    | cons c t =>
      have hc := hw c (by simp)
      unfold signed
      split
      · rename_i h; injection h with h _; subst h; simp at hc
      · rename_i h; injection h with h _; subst h; simp at hc
      · rfl
  have ht : w.takeWhile Char.isDigit = w := List.takeWhile_eq_self_iff.mpr hw
  unfold number stoi
  rw [hs]
  simp only [ht, Bool.false_eq_true, if_false]
  by_cases he : w = []
  · subst he
    simp only [List.isEmpty_nil, if_true]
    exact ⟨fun h => (by cases h), fun ⟨n, h, _⟩ => absurd rfl h.1⟩
  · have : w.isEmpty = false := by cases w <;> simp_all
    rw [this]
    simp only [Bool.false_eq_true, if_false]
    have hmin : intMin ≤ (natOf w : Int) := by
      have : intMin ≤ 0 := by decide
      omega
    by_cases hm : (natOf w : Int) ≤ intMax
    · rw [if_pos ⟨hmin, hm⟩]
      simp only [Outcome.ok.injEq]
      constructor
      · rintro rfl
        exact ⟨natOf w, ⟨he, hw, rfl, hm⟩, rfl⟩
      · rintro ⟨n, h, rfl⟩
        rw [h.2.2.1]
    · rw [if_neg (fun h => hm h.2)]
      simp only
      refine ⟨fun h => (by cases h), fun ⟨n, h, _⟩ => ?_⟩
      have h1 := h.2.2.1
      have h2 := h.2.2.2
      rw [← h1] at h2
      exact absurd h2 hm

theorem cut_unique {a b r s : Line} (ha : ',' ∉ a) (hb : ',' ∉ b) (h : a ++ ',' :: r = b ++ ',' :: s) : a = b ∧ r = s := by
  induction a generalizing b with
  | nil =>
    cases b with
    | nil => simpa using h
    | cons d b =>
      simp only [List.nil_append, List.cons_append, List.cons.injEq] at h
      exact absurd (h.1 ▸ List.mem_cons_self) hb
  | cons c a ih =>
    cases b with
    | nil =>
      simp only [List.nil_append, List.cons_append, List.cons.injEq] at h
      exact absurd (h.1 ▸ List.mem_cons_self) ha
    | cons d b =>
      simp only [List.cons_append, List.cons.injEq] at h
      obtain ⟨h1, h2⟩ := ih (fun x => ha (List.mem_cons_of_mem _ x)) (fun x => hb (List.mem_cons_of_mem _ x)) h.2
      exact ⟨by rw [h.1, h1], h2⟩

theorem no_comma {w : Line} (hw : ∀ c ∈ w, c.isDigit = true) : ',' ∉ w := fun h => absurd (hw _ h) (by decide)

theorem listed_chars {s : Line} {l : List Int} (h : Listed s l) : ∀ c ∈ s, c.isDigit = true ∨ c = ',' := by
  induction h with
  | one h => exact fun c hc => .inl (h.2.1 c hc)
  | more h _ ih =>
    intro c hc
    rw [List.mem_append, List.mem_cons] at hc
    rcases hc with hc | hc | hc
    · exact .inl (h.2.1 c hc)
    · exact .inr hc
    · exact ih c hc

theorem listed_one {w : Line} (hw : ∀ c ∈ w, c.isDigit = true) (l : List Int) : Listed w l ↔ ∃ n : Nat, Digits w n ∧ l = [(n : Int)] := by
  constructor
  · intro h
    cases h with
    | one h => exact ⟨_, h, rfl⟩
    | more h h' => exact absurd (List.mem_append_right _ List.mem_cons_self) (no_comma hw)
  · rintro ⟨n, h, rfl⟩
    exact .one h

theorem listed_more {w r : Line} (hw : ∀ c ∈ w, c.isDigit = true) (l : List Int) :
    Listed (w ++ ',' :: r) l ↔ ∃ n : Nat, ∃ l', Digits w n ∧ Listed r l' ∧ l = (n : Int) :: l' := by
  constructor
  · intro h
    generalize hx : w ++ ',' :: r = x at h
    cases h with
    | one h =>
      subst hx
      exact absurd (List.mem_append_right _ List.mem_cons_self) (no_comma h.2.1)
    | more h h' =>
      obtain ⟨rfl, rfl⟩ := cut_unique (no_comma hw) (no_comma h.2.1) hx
      exact ⟨_, _, h, h', rfl⟩
  · rintro ⟨n, l', h, h', rfl⟩
    exact .more h h'

theorem numbers_ok (s : Line) : ∀ (cur : Line) (l : List Int), (∀ c ∈ cur, c.isDigit = true) →
    (∀ c ∈ s, c.isDigit = true ∨ c = ',') → (readNumbers cur s = .ok l ↔ Listed (cur ++ s) l) := by
  induction s with
  | nil =>
    intro cur l hc _
    rw [readNumbers, bind_ok_iff, List.append_nil, listed_one hc]
    constructor
    · rintro ⟨i, hi, h⟩
      obtain ⟨n, hn, rfl⟩ := (number_ok hc i).mp hi
      injection h with h
      exact ⟨n, hn, h.symm⟩
    · rintro ⟨n, hn, rfl⟩
      exact ⟨n, (number_ok hc _).mpr ⟨n, hn, rfl⟩, rfl⟩
  | cons c t ih =>
    intro cur l hc hs
    have ht : ∀ d ∈ t, d.isDigit = true ∨ d = ',' := fun d hd => hs d (List.mem_cons_of_mem _ hd)
    rw [readNumbers]
    by_cases e : c = ','
    · subst e
      rw [if_pos rfl, bind_ok_iff, listed_more hc]
      constructor
      · rintro ⟨i, hi, h⟩
        obtain ⟨n, hn, rfl⟩ := (number_ok hc i).mp hi
        rw [bind_ok_iff] at h
        obtain ⟨l', hl, h⟩ := h
        injection h with h
        exact ⟨n, l', hn, by simpa using (ih [] l' (by simp) ht).mp hl, h.symm⟩
      · rintro ⟨n, l', hn, hl, rfl⟩
        refine ⟨n, (number_ok hc _).mpr ⟨n, hn, rfl⟩, ?_⟩
        rw [bind_ok_iff]
        exact ⟨l', (ih [] l' (by simp) ht).mpr (by simpa using hl), rfl⟩
    · rw [if_neg e, ih (cur ++ [c]) l ?_ ht, List.append_assoc, List.singleton_append]
      intro d hd
      rw [List.mem_append, List.mem_singleton] at hd
      rcases hd with hd | rfl
      · exact hc d hd
      · exact (hs d List.mem_cons_self).resolve_right e

theorem listed_not_word {s : Line} {l : List Int} (h : Listed s l) : s ≠ "single".toList ∧ s ≠ "auto".toList := by
  constructor
  · rintro rfl
    have := listed_chars h 's' (by decide)
    exact absurd this (by decide)
  · rintro rfl
    have := listed_chars h 'a' (by decide)
    exact absurd this (by decide)

theorem subcases_ok (ls : List Line) (acc g : List (List Int)) : readSubcases ls acc = .ok g ↔
    (∃ gs, List.Forall₂ Listed ls gs ∧ g = acc ++ gs) ∨
    (∃ pre gs rest, ls = pre ++ "single".toList :: rest ∧ List.Forall₂ Listed pre gs ∧ g = [[-1]]) ∨
    (∃ pre gs rest, ls = pre ++ "auto".toList :: rest ∧ List.Forall₂ Listed pre gs ∧ g = []) := by
  induction ls generalizing acc with
  | nil =>
    simp only [readSubcases, Outcome.ok.injEq, List.forall₂_nil_left_iff]
    constructor
    · rintro rfl
      exact .inl ⟨[], rfl, by simp⟩
    · rintro (⟨gs, rfl, rfl⟩ | ⟨pre, _, _, h, _⟩ | ⟨pre, _, _, h, _⟩)
      · simp
      · simp at h
      · simp at h
  | cons s rest ih =>
    rw [readSubcases]
    by_cases h1 : s = "single".toList
    · rw [if_pos h1]
      constructor
      · intro h
        injection h with h
        exact .inr (.inl ⟨[], [], rest, by rw [h1]; rfl, .nil, h.symm⟩)
      · rintro (⟨gs, h, _⟩ | ⟨_, _, _, _, _, rfl⟩ | ⟨pre, gs, r, h, hp, _⟩)
        · cases h with
          | cons h _ => exact absurd h1 (listed_not_word h).1
        · rfl
        · cases pre with
          | nil =>
            simp only [List.nil_append, List.cons.injEq] at h
            rw [h1] at h
            exact absurd h.1 (by decide)
          | cons w pre =>
            simp only [List.cons_append, List.cons.injEq] at h
            cases hp with
            | cons hw _ => exact absurd (h.1 ▸ h1) (listed_not_word hw).1
    · rw [if_neg h1]
      by_cases h2 : s = "auto".toList
      · rw [if_pos h2]
        constructor
        · intro h
          injection h with h
          exact .inr (.inr ⟨[], [], rest, by rw [h2]; rfl, .nil, h.symm⟩)
        · rintro (⟨gs, h, _⟩ | ⟨pre, gs, r, h, hp, _⟩ | ⟨_, _, _, _, _, rfl⟩)
          · cases h with
            | cons h _ => exact absurd h2 (listed_not_word h).2
          · cases pre with
            | nil =>
              simp only [List.nil_append, List.cons.injEq] at h
              exact absurd h.1 h1
            | cons w pre =>
              simp only [List.cons_append, List.cons.injEq] at h
              cases hp with
              | cons hw _ => exact absurd (h.1 ▸ h2) (listed_not_word hw).2
          · rfl
      · rw [if_neg h2]
        by_cases hall : s.all (fun c => c.isDigit || c == ',') = true
        · rw [if_pos hall]
          have hch : ∀ c ∈ s, c.isDigit = true ∨ c = ',' := by
            intro c hc
            have := List.all_eq_true.mp hall c hc
            simpa using this
          have hn : ∀ v, readNumbers [] s = .ok v ↔ Listed s v := by
            intro v
            simpa using numbers_ok s [] v (by simp) hch
          rw [bind_ok_iff]
          simp only [hn, ih]
          constructor
          · rintro ⟨v, hv, ⟨gs, hg, rfl⟩ | ⟨pre, gs, r, rfl, hg, rfl⟩ | ⟨pre, gs, r, rfl, hg, rfl⟩⟩
            · exact .inl ⟨v :: gs, .cons hv hg, by simp⟩
            · exact .inr (.inl ⟨s :: pre, v :: gs, r, rfl, .cons hv hg, rfl⟩)
            · exact .inr (.inr ⟨s :: pre, v :: gs, r, rfl, .cons hv hg, rfl⟩)
          · rintro (⟨gs, h, rfl⟩ | ⟨pre, gs, r, h, hp, rfl⟩ | ⟨pre, gs, r, h, hp, rfl⟩)
            · cases h with
              | cons hv hg => exact ⟨_, hv, .inl ⟨_, hg, by simp⟩⟩
            · cases pre with
              | nil =>
                simp only [List.nil_append, List.cons.injEq] at h
                exact absurd h.1 h1
              | cons w pre =>
                simp only [List.cons_append, List.cons.injEq] at h
                obtain ⟨rfl, rfl⟩ := h
                cases hp with
                | cons hv hg => exact ⟨_, hv, .inr (.inl ⟨_, _, _, rfl, hg, rfl⟩)⟩
            · cases pre with
              | nil =>
                simp only [List.nil_append, List.cons.injEq] at h
                exact absurd h.1 h2
              | cons w pre =>
                simp only [List.cons_append, List.cons.injEq] at h
                obtain ⟨rfl, rfl⟩ := h
                cases hp with
                | cons hv hg => exact ⟨_, hv, .inr (.inr ⟨_, _, _, rfl, hg, rfl⟩)⟩
        · rw [if_neg hall]
          refine ⟨fun h => (by cases h), fun h => ?_⟩
          have hnot : ∀ v, ¬ Listed s v := by
            intro v hv
            apply hall
            rw [List.all_eq_true]
            intro c hc
            have := listed_chars hv c hc
            simpa using this
          rcases h with ⟨gs, h, _⟩ | ⟨pre, gs, r, h, hp, _⟩ | ⟨pre, gs, r, h, hp, _⟩
          · cases h with
            | cons h _ => exact absurd h (hnot _)
          · cases pre with
            | nil =>
              simp only [List.nil_append, List.cons.injEq] at h
              exact absurd h.1 h1
            | cons w pre =>
              simp only [List.cons_append, List.cons.injEq] at h
              obtain ⟨rfl, rfl⟩ := h
              cases hp with
              | cons hv _ => exact absurd hv (hnot _)
          · cases pre with
            | nil =>
              simp only [List.nil_append, List.cons.injEq] at h
              exact absurd h.1 h2
            | cons w pre =>
              simp only [List.cons_append, List.cons.injEq] at h
              obtain ⟨rfl, rfl⟩ := h
              cases hp with
              | cons hv _ => exact absurd hv (hnot _)

theorem groups_ok (ls : List Line) (g : List (List Int)) : readSubcases ls [] = .ok g ↔ Groups ls g := by
  rw [subcases_ok]
  constructor
  · rintro (⟨gs, h, rfl⟩ | ⟨pre, gs, r, rfl, h, rfl⟩ | ⟨pre, gs, r, rfl, h, rfl⟩)
    · exact .lists (by simpa using h)
    · exact .single h
    · exact .auto h
  · intro h
    cases h with
    | lists h => exact .inl ⟨g, h, by simp⟩
    | single h => exact .inr (.inl ⟨_, _, _, rfl, h, rfl⟩)
    | auto h => exact .inr (.inr ⟨_, _, _, rfl, h, rfl⟩)

/-! ## Parameters -/

/-- What is read of the values: they are of their kinds, and documented ones are there. -/
structure Sound (vm : Vm) (a : Opt → Option Val) : Prop where
  eq : ∀ o, (vm.values o).map (·.1) = a o
  kinds : ∀ o v, a o = some v → onLine o = some v.kind
  there : ∀ o, documented o ≠ none → a o ≠ none

theorem Sound.text {vm : Vm} {a : Opt → Option Val} (h : Sound vm a) {o : Opt} (ho : onLine o = some .text) :
    ∃ t : Option Line, vm.text o = .ok t ∧ a o = t.map Val.text := by
  cases hv : a o with
  | none => exact ⟨none, by rw [text_ok, h.eq, hv]; rfl, rfl⟩
  | some v =>
    have := h.kinds o v hv
    rw [ho] at this
    cases v <;> simp [Val.kind] at this
    exact ⟨some _, by rw [text_ok, h.eq, hv]; rfl, rfl⟩

theorem Sound.textThere {vm : Vm} {a : Opt → Option Val} (h : Sound vm a) {o : Opt} (ho : onLine o = some .text)
    (hd : documented o ≠ none) : ∃ s : Line, vm.text o = .ok (some s) ∧ a o = some (.text s) := by
  obtain ⟨t, h1, h2⟩ := h.text ho
  cases t with
  | none => exact absurd h2 (h.there o hd)
  | some s => exact ⟨s, h1, h2⟩

theorem Sound.real {vm : Vm} {a : Opt → Option Val} (h : Sound vm a) {o : Opt} (ho : onLine o = some .real) :
    ∃ t : Option Dbl, vm.real o = .ok t ∧ a o = t.map Val.real := by
  cases hv : a o with
  | none => exact ⟨none, by rw [real_ok, h.eq, hv]; rfl, rfl⟩
  | some v =>
    have := h.kinds o v hv
    rw [ho] at this
    cases v <;> simp [Val.kind] at this
    exact ⟨some _, by rw [real_ok, h.eq, hv]; rfl, rfl⟩

theorem Sound.has {vm : Vm} {a : Opt → Option Val} (h : Sound vm a) (o : Opt) : vm.has o = true ↔ a o ≠ none := by
  rw [has_iff, h.eq]

theorem generic_ok {vm : Vm} {a : Opt → Option Val} (h : Sound vm a) (p : Params) :
    (∃ q, readGeneric vm = .ok q ∧ p = { q with
      dialect := p.dialect, rbe2 := p.rbe2, stiffness := p.stiffness, coefficient := p.coefficient, analysis := p.analysis,
      product := p.product, dynamic := p.dynamic, matrix := p.matrix, size := p.size, subcases := p.subcases }) ↔ Generic a p := by
  obtain ⟨tv, hv1, hv2⟩ := h.text (o := .verbosity) rfl
  obtain ⟨ti, hi1, hi2⟩ := h.text (o := .inputFile) rfl
  obtain ⟨td, hd1, hd2⟩ := h.textThere (o := .outputDir) rfl (by simp [documented])
  obtain ⟨tt, ht1, ht2⟩ := h.text (o := .testFile) rfl
  obtain ⟨tr, hr1, hr2⟩ := h.real (o := .tolerance) rfl
  obtain ⟨tf, hf1, hf2⟩ := h.textThere (o := .outputFormat) rfl (by simp [documented])
  obtain ⟨tc, hc1, hc2⟩ := h.text (o := .solverCommand) rfl
  obtain ⟨ts, hs1, hs2⟩ := h.textThere (o := .solverServer) rfl (by simp [documented])
  obtain ⟨te, he1, he2⟩ := h.text (o := .solverVersion) rfl
  obtain ⟨tg, hg1, hg2⟩ : ∃ t : Option Bool, vm.truth .convertRigids = .ok t ∧ a .convertRigids = t.map Val.truth := by
    cases hv : a .convertRigids with
    | none => exact ⟨none, by rw [truth_ok, h.eq, hv]; rfl, rfl⟩
    | some v =>
      have := h.kinds _ v hv
      cases v <;> simp [Val.kind, onLine] at this
      exact ⟨some _, by rw [truth_ok, h.eq, hv]; rfl, rfl⟩
  have hlevel := level_ok tv (vm.has .debug) (a .debug ≠ none) (h.has _)
  have hmode := mode_ok (vm.has .bestEffort) (vm.has .meshAtLeast) (vm.has .strict) _ _ _ (h.has _) (h.has _) (h.has _)
  have hversion : ∀ (sv : SolverName) (v : Line), readVersion te sv = v ↔ (a .solverVersion = some (.text v) ∨
    (a .solverVersion = none ∧ sv = .SYSTUS ∧ v = "2016".toList) ∨ (a .solverVersion = none ∧ sv ≠ .SYSTUS ∧ v = [])) := by
    intro sv v
    rw [he2]
    cases te with
    | some x => simp [readVersion]
    | none =>
      by_cases e : sv = .SYSTUS
      · simp [readVersion, e, eq_comm]
      · simp [readVersion, e, eq_comm]
  simp only [readGeneric, hv1, hi1, hd1, ht1, hr1, hf1, hc1, hs1, he1, hg1, Outcome.bind_ok]
  cases ti with
  | none =>
    refine ⟨fun ⟨q, hq, _⟩ => (by cases hq), fun hg => ?_⟩
    obtain ⟨s, hs, _⟩ := hg.input
    rw [hi2] at hs; cases hs
  | some si =>
    simp only
    constructor
    · rintro ⟨q, hq, hp⟩
      rw [bind_ok_iff] at hq
      obtain ⟨input, hin, hq⟩ := hq
      rw [bind_ok_iff] at hq
      obtain ⟨dir, hdir, hq⟩ := hq
      rw [bind_ok_iff] at hq
      obtain ⟨test, htest, hq⟩ := hq
      rw [bind_ok_iff] at hq
      obtain ⟨mode, hmo, hq⟩ := hq
      rw [bind_ok_iff] at hq
      obtain ⟨solver, hso, hq⟩ := hq
      injection hq with hq
      subst hq
      rw [hp]
      refine ⟨?_, ⟨si, hi2, (path_ok _ _).mp hin⟩, ⟨td, hd2, (path_ok _ _).mp hdir⟩, ?_, ?_, (hmode mode).mp hmo, ?_,
        ⟨tf, hf2, (CliSpec.C52_reads _ _).mp hso⟩, ?_, h.has _, ?_, ⟨ts, hs2, rfl⟩, (hversion solver _).mp rfl⟩
      · show Level _ _ (readLevel tv (vm.has .debug))
        rw [hv2]
        exact (hlevel _).mp rfl
      · cases tt with
        | none =>
          simp only [pathOr, Outcome.ok.injEq] at htest
          exact .inl ⟨ht2, htest.symm⟩
        | some s => exact .inr ⟨s, ht2, (path_ok _ _).mp htest⟩
      · cases tr with
        | none => exact .inl ⟨hr2, rfl⟩
        | some x => exact .inr hr2
      · simp only [Bool.and_eq_true, decide_eq_true_eq, h.has]
      · cases tg with
        | none => exact .inl ⟨hg2, by simp⟩
        | some b => exact .inr hg2
      · cases tc with
        | none => exact .inl ⟨hc2, rfl⟩
        | some b => exact .inr ⟨b, hc2, rfl⟩
    · intro hg
      have hin : normalizePath si = .ok p.input := by
        obtain ⟨s, h1, h2⟩ := hg.input
        rw [hi2] at h1
        injection h1 with h1; injection h1 with h1; subst h1
        exact (path_ok _ _).mpr h2
      have hdir : pathOr (some td) ".".toList = .ok p.dir := by
        obtain ⟨s, h1, h2⟩ := hg.dir
        rw [hd2] at h1
        injection h1 with h1; injection h1 with h1; subst h1
        exact (path_ok _ _).mpr h2
      have htest : pathOr tt [] = .ok p.test := by
        rcases hg.test with ⟨h1, h2⟩ | ⟨s, h1, h2⟩
        · rw [ht2] at h1
          cases tt with
          | none => rw [h2]; rfl
          | some x => cases h1
        · rw [ht2] at h1
          cases tt with
          | none => cases h1
          | some x =>
            injection h1 with h1; injection h1 with h1; subst h1
            exact (path_ok _ _).mpr h2
      have hmo := (hmode p.mode).mpr hg.mode
      have hso : readSolver (some tf) = .ok p.solver := by
        obtain ⟨s, h1, h2⟩ := hg.solver
        rw [hf2] at h1
        injection h1 with h1; injection h1 with h1; subst h1
        exact (CliSpec.C52_reads _ _).mpr h2
      have hlev : readLevel tv (vm.has .debug) = p.level := (hlevel _).mpr (hv2 ▸ hg.level)
      have htol : tr.getD (2 / 100) = p.tolerance := by
        rcases hg.tolerance with ⟨h1, h2⟩ | h1
        · rw [hr2] at h1
          cases tr with
          | none => rw [h2]; rfl
          | some x => cases h1
        · rw [hr2] at h1
          cases tr with
          | none => cases h1
          | some x => injection h1 with h1; injection h1
      have hgr : (vm.has .graph && decide (p.level = .TRACE)) = p.graph := by
        rw [Bool.eq_iff_iff, hg.graph]
        simp only [Bool.and_eq_true, decide_eq_true_eq, h.has]
      have hri : tg.getD (decide (p.solver = .CODE_ASTER)) = p.rigids := by
        rcases hg.rigids with ⟨h1, h2⟩ | h1
        · rw [hg2] at h1
          cases tg with
          | none =>
            show decide _ = _
            rw [Bool.eq_iff_iff, h2]; simp
          | some x => cases h1
        · rw [hg2] at h1
          cases tg with
          | none => cases h1
          | some x => injection h1 with h1; injection h1
      have hrun : vm.has .runSolver = p.run := by
        rw [Bool.eq_iff_iff, hg.run, h.has]
      have hco : trim (tc.getD []) = p.command := by
        rcases hg.command with ⟨h1, h2⟩ | ⟨s, h1, h2⟩
        · rw [hc2] at h1
          cases tc with
          | none => rw [h2]; rfl
          | some x => cases h1
        · rw [hc2] at h1
          cases tc with
          | none => cases h1
          | some x =>
            injection h1 with h1; injection h1 with h1; subst h1
            exact h2.symm
      have hse : trim ((some ts).getD []) = p.server := by
        obtain ⟨s, h1, h2⟩ := hg.server
        rw [hs2] at h1
        injection h1 with h1; injection h1 with h1; subst h1
        exact h2.symm
      have hve := (hversion p.solver p.solverVersion).mpr hg.version
      rw [hin, hdir, htest, hmo, hso]
      simp only [Outcome.bind_ok, hlev, htol, hgr, hri, hrun, hco, hse, hve]
      exact ⟨_, rfl, rfl⟩

theorem rigid_ok {a : Opt → Option Val} {tl tr ts tc : Option Dbl} (penalty : Prop) [Decidable penalty]
    (hl : a .rbeLagrangian = tl.map Val.real) (hr : a .rbe2Rigidity = tr.map Val.real) (hs : a .rbeStiffness = ts.map Val.real)
    (hc : a .rbeCoefficient = tc.map Val.real) (s : Option Dbl) (c : Dbl) :
    readRigid (decide penalty) tl tr ts tc = (s, c) ↔ Stiffness a penalty s ∧ Coefficient a penalty c := by
  have fwd : Stiffness a penalty (readRigid (decide penalty) tl tr ts tc).1 ∧
      Coefficient a penalty (readRigid (decide penalty) tl tr ts tc).2 := by
    by_cases hp : penalty
    · constructor
      · cases ts with
        | some x => exact .given hs
        | none =>
          cases tr with
          | some r =>
            have := Stiffness.rigidity (a := a) (penalty := penalty) hs hp hr
            simpa [readRigid, hp] using this
          | none =>
            cases tl with
            | some l => exact .lagrangian hs (fun h => h.2 hr) hl
            | none => exact .automatic hs (fun h => h.2 hr) hl
      · cases tc with
        | some x =>
          have := Coefficient.given (a := a) (penalty := penalty) hc
          simpa [readRigid] using this
        | none =>
          cases tr with
          | some r =>
            have := Coefficient.rigidity (a := a) (penalty := penalty) hc hp hr
            simpa [readRigid, hp] using this
          | none =>
            cases tl with
            | some l => exact .lagrangian hc (fun h => h.2 hr) hl
            | none =>
              have := Coefficient.penalty (a := a) (penalty := penalty) hc hr hl hp
              simpa [readRigid, hp] using this
    · constructor
      · cases ts with
        | some x => exact .given hs
        | none =>
          cases tl with
          | some l =>
            have := Stiffness.lagrangian (a := a) (penalty := penalty) hs (fun h => hp h.1) hl
            cases tr <;> simpa [readRigid, hp] using this
          | none =>
            have := Stiffness.automatic (a := a) (penalty := penalty) hs (fun h => hp h.1) hl
            cases tr <;> simpa [readRigid, hp] using this
      · cases tc with
        | some x =>
          have := Coefficient.given (a := a) (penalty := penalty) hc
          simpa [readRigid] using this
        | none =>
          cases tl with
          | some l =>
            have := Coefficient.lagrangian (a := a) (penalty := penalty) hc (fun h => hp h.1) hl
            cases tr <;> simpa [readRigid, hp] using this
          | none =>
            have := Coefficient.multiplier (a := a) (penalty := penalty) hc hl hp
            cases tr <;> simpa [readRigid, hp] using this
  have us : ∀ s', Stiffness a penalty s → Stiffness a penalty s' → s = s' := by
    intro s' h h'
    cases h <;> cases h' <;> simp_all
  have uc : ∀ c', Coefficient a penalty c → Coefficient a penalty c' → c = c' := by
    intro c' h h'
    cases h <;> cases h' <;> simp_all
  constructor
  · intro h
    rw [h] at fwd
    exact fwd
  · rintro ⟨h1, h2⟩
    rw [Prod.ext_iff]
    exact ⟨(us _ h1 fwd.1).symm, (uc _ h2 fwd.2).symm⟩

theorem oneOf_ok {a : Opt → Option Val} {o : Opt} {t : Line} (h : a o = some (.text t)) (l : List Line) (d s : Line) :
    oneOf (some t) l d = .ok s ↔ a o = some (.text s) ∧ s ∈ l := by
  simp only [oneOf]
  by_cases hm : t ∈ l
  · rw [if_pos hm, h]
    simp only [Outcome.ok.injEq, Option.some.injEq, Val.text.injEq]
    exact ⟨fun e => ⟨e, e ▸ hm⟩, fun e => e.1⟩
  · rw [if_neg hm, h]
    simp only [Option.some.injEq, Val.text.injEq]
    exact ⟨fun e => (by cases e), fun e => absurd (e.1 ▸ e.2) hm⟩

theorem size_ok {a : Opt → Option Val} {t : Option Int} (h : a .sizeMatrix = t.map Val.whole) (m : Line) (n : Int) :
    readSize (decide (m = "file".toList)) t = .ok n ↔ (a .sizeMatrix = some (.whole n) ∧ 2 ≤ n) ∨
      (a .sizeMatrix = none ∧ m = "file".toList ∧ n = 20) ∨ (a .sizeMatrix = none ∧ m ≠ "file".toList ∧ n = 9) := by
  rw [h]
  cases t with
  | none =>
    by_cases e : m = "file".toList
    · simp [readSize, e, eq_comm]
    · simp only [readSize, e, decide_false, Bool.false_eq_true, if_false, Outcome.ok.injEq, Option.map_none, reduceCtorEq, false_and,
        and_false, or_false, false_or, true_and, ne_eq, not_false_eq_true]
      exact eq_comm
  | some x =>
    by_cases e : x < 2
    · simp only [readSize, e, if_true, Option.map_some, Option.some.injEq, Val.whole.injEq, reduceCtorEq, false_and, or_false]
      exact ⟨fun h => (by cases h), fun h => by omega⟩
    · simp only [readSize, e, if_false, Option.map_some, Option.some.injEq, Val.whole.injEq, reduceCtorEq, false_and, or_false,
        Outcome.ok.injEq]
      exact ⟨fun h => ⟨h, by omega⟩, fun h => h.1⟩

theorem specific_ok {vm : Vm} {a : Opt → Option Val} (h : Sound vm a) (q p : Params) :
    readSpecific vm q = .ok p ↔ Specific a p ∧ p = { q with
      dialect := p.dialect, rbe2 := p.rbe2, stiffness := p.stiffness, coefficient := p.coefficient, analysis := p.analysis,
      product := p.product, dynamic := p.dynamic, matrix := p.matrix, size := p.size, subcases := p.subcases } := by
  obtain ⟨td, hd1, hd2⟩ := h.textThere (o := .dialect) rfl (by simp [documented])
  obtain ⟨tr, hr1, hr2⟩ := h.textThere (o := .rbe2Mode) rfl (by simp [documented])
  obtain ⟨ta, ha1, ha2⟩ := h.textThere (o := .optionAnalysis) rfl (by simp [documented])
  obtain ⟨tp, hp1, hp2⟩ := h.textThere (o := .outputProduct) rfl (by simp [documented])
  obtain ⟨ty, hy1, hy2⟩ := h.textThere (o := .dynamicMethod) rfl (by simp [documented])
  obtain ⟨tm, hm1, hm2⟩ := h.textThere (o := .outputMatrix) rfl (by simp [documented])
  obtain ⟨xl, hl1, hl2⟩ := h.real (o := .rbeLagrangian) rfl
  obtain ⟨xr, hx1, hx2⟩ := h.real (o := .rbe2Rigidity) rfl
  obtain ⟨xs, hs1, hs2⟩ := h.real (o := .rbeStiffness) rfl
  obtain ⟨xc, hc1, hc2⟩ := h.real (o := .rbeCoefficient) rfl
  obtain ⟨tz, hz1, hz2⟩ : ∃ t : Option Int, vm.whole .sizeMatrix = .ok t ∧ a .sizeMatrix = t.map Val.whole := by
    cases hv : a .sizeMatrix with
    | none => exact ⟨none, by rw [whole_ok, h.eq, hv]; rfl, rfl⟩
    | some v =>
      have := h.kinds _ v hv
      cases v <;> simp [Val.kind, onLine] at this
      exact ⟨some _, by rw [whole_ok, h.eq, hv]; rfl, rfl⟩
  obtain ⟨tu, hu1, hu2⟩ : ∃ t : Option (List Line), vm.texts .subcase = .ok t ∧ a .subcase = t.map Val.texts := by
    cases hv : a .subcase with
    | none => exact ⟨none, by rw [texts_ok, h.eq, hv]; rfl, rfl⟩
    | some v =>
      have := h.kinds _ v hv
      cases v <;> simp [Val.kind, onLine] at this
      exact ⟨some _, by rw [texts_ok, h.eq, hv]; rfl, rfl⟩
  have hsub : ∀ g, groupsOf tu = Outcome.ok g ↔
      (a .subcase = none ∧ g = []) ∨ ∃ l, a .subcase = some (.texts l) ∧ Groups l g := by
    intro g
    rw [hu2]
    cases tu with
    | none => simp [groupsOf, eq_comm]
    | some l => simp [groupsOf, groups_ok]
  have hperm : ∀ s : Line, s ∈ ["lagrangian".toList, "penalty".toList] ↔ s ∈ ["penalty".toList, "lagrangian".toList] := by
    intro s; simp only [List.mem_cons, List.not_mem_nil, or_false]; tauto
  have hperm' : ∀ s : Line, s ∈ ["direct".toList, "modal".toList, "auto".toList] ↔
      s ∈ ["auto".toList, "direct".toList, "modal".toList] := by
    intro s; simp only [List.mem_cons, List.not_mem_nil, or_false]; tauto
  simp only [readSpecific, hd1, hr1, ha1, hp1, hy1, hm1, hl1, hx1, hs1, hc1, hz1, hu1, Outcome.bind_ok]
  constructor
  · intro hq
    rw [bind_ok_iff] at hq
    obtain ⟨dialect, h1, hq⟩ := hq
    rw [bind_ok_iff] at hq
    obtain ⟨rbe2, h2, hq⟩ := hq
    rw [bind_ok_iff] at hq
    obtain ⟨analysis, h3, hq⟩ := hq
    rw [bind_ok_iff] at hq
    obtain ⟨product, h4, hq⟩ := hq
    rw [bind_ok_iff] at hq
    obtain ⟨dynamic, h5, hq⟩ := hq
    rw [bind_ok_iff] at hq
    obtain ⟨matrix, h6, hq⟩ := hq
    rw [bind_ok_iff] at hq
    obtain ⟨size, h7, hq⟩ := hq
    rw [bind_ok_iff] at hq
    obtain ⟨sub, h8, hq⟩ := hq
    injection hq with hq
    subst hq
    have hrig := (rigid_ok (a := a) (rbe2 = "penalty".toList) hl2 hx2 hs2 hc2 _ _).mp rfl
    rw [oneOf_ok hd2] at h1
    rw [oneOf_ok hr2, hperm] at h2
    rw [oneOf_ok ha2] at h3
    rw [oneOf_ok hp2] at h4
    rw [oneOf_ok hy2, hperm'] at h5
    rw [oneOf_ok hm2] at h6
    exact ⟨⟨h1, h2, hrig.1, hrig.2, h3, h4, h5, h6, (size_ok hz2 _ _).mp h7, (hsub _).mp h8⟩, rfl⟩
  · rintro ⟨hs, hp⟩
    have h1 := (oneOf_ok hd2 _ "cosmic95".toList _).mpr hs.dialect
    have h2 := (oneOf_ok hr2 ["lagrangian".toList, "penalty".toList] "penalty".toList _).mpr ⟨hs.rbe2.1, (hperm _).mpr hs.rbe2.2⟩
    have h3 := (oneOf_ok ha2 _ "auto".toList _).mpr hs.analysis
    have h4 := (oneOf_ok hp2 _ "systus".toList _).mpr hs.product
    have h5 := (oneOf_ok hy2 ["direct".toList, "modal".toList, "auto".toList] "auto".toList _).mpr
      ⟨hs.dynamic.1, (hperm' _).mpr hs.dynamic.2⟩
    have h6 := (oneOf_ok hm2 _ "table".toList _).mpr hs.matrix
    have h7 := (size_ok hz2 _ _).mpr hs.size
    have h8 := (hsub _).mpr hs.subcases
    have h9 := (rigid_ok (a := a) (p.rbe2 = "penalty".toList) hl2 hx2 hs2 hc2 _ _).mpr ⟨hs.stiffness, hs.coefficient⟩
    rw [h1, Outcome.bind_ok, h2, Outcome.bind_ok, h3, Outcome.bind_ok, h4, Outcome.bind_ok, h5, Outcome.bind_ok, h6, Outcome.bind_ok, h7,
      Outcome.bind_ok, h8, Outcome.bind_ok, h9]
    rw [← hp]

theorem params_ok {vm : Vm} {a : Opt → Option Val} (h : Sound vm a) (p : Params) :
    readParams vm = .ok p ↔ Generic a p ∧ Specific a p := by
  rw [readParams, bind_ok_iff, ← generic_ok h]
  simp only [specific_ok h]
  constructor
  · rintro ⟨q, hq, hs, hp⟩
    exact ⟨⟨q, hq, hp⟩, hs⟩
  · rintro ⟨⟨q, hq, hp⟩, hs⟩
    exact ⟨q, hq, hs, hp⟩

/-! ## Property theorems -/

theorem asked_kinds {cmd file : Source} (hu : Understood cmd file) (o : Opt) (v : Val) (h : asked cmd file o = some v) :
    onLine o = some v.kind := by
  have htog : ∀ vs w k, together vs = some w → (∀ v ∈ vs, v.kind = k) → w.kind = k := by
    intro vs w k h1 h2
    cases vs with
    | nil => cases h1
    | cons x r =>
      have := h2 x (by simp)
      cases x <;> simp only [together, Option.some.injEq] at h1 <;> subst h1 <;> exact this
  unfold asked at h
  cases h1 : together (occurs cmd o) with
  | some w =>
    rw [h1] at h
    injection h with h
    subst h
    obtain ⟨k, hk, h2, _⟩ := hu.line o (by intro e; rw [e] at h1; cases h1)
    rw [hk, htog _ _ _ h1 h2]
  | none =>
    rw [h1] at h
    simp only at h
    cases h3 : together (occurs file o) with
    | some w =>
      rw [h3] at h
      injection h with h
      subst h
      obtain ⟨k, hk, h2, _⟩ := hu.rest o (together_none.mp h1) (by intro e; rw [e] at h3; cases h3)
      rw [inFile_onLine hk, htog _ _ _ h3 h2]
    | none =>
      rw [h3] at h
      simp only at h
      cases o <;> simp only [documented, Option.some.injEq, reduceCtorEq] at h <;> subst h <;> rfl

/-- **C149, parameters.** A translation begins, with some parameters, exactly when its options can be understood, none asks for the version
or the help only, and the parameters are what the options mean: those of the command line first, then those of the configuration file,
then the documented values. A file that cannot be opened counts as an empty one. -/
theorem C149_parameters (cmd : Source) (file : Option Source) (p : Params) :
    begin_ cmd file = .params p ↔ Understood cmd (file.getD []) ∧ occurs cmd .version = [] ∧ occurs cmd .help = [] ∧
      Generic (asked cmd (file.getD [])) p ∧ Specific (asked cmd (file.getD [])) p := by
  unfold begin_
  cases h0 : store onLine cmd Vm.empty with
  | throw =>
    simp only
    refine ⟨fun h => (by cases h), fun h => ?_⟩
    have := (store_line cmd _).mpr ⟨h.1.line, rfl⟩
    rw [h0] at this; cases this
  | ub =>
    simp only
    refine ⟨fun h => (by cases h), fun h => ?_⟩
    have := (store_line cmd _).mpr ⟨h.1.line, rfl⟩
    rw [h0] at this; cases this
  | diverges =>
    simp only
    refine ⟨fun h => (by cases h), fun h => ?_⟩
    have := (store_line cmd _).mpr ⟨h.1.line, rfl⟩
    rw [h0] at this; cases this
  | ok vm0 =>
    simp only
    have hline := (store_line cmd vm0).mp h0
    have hflag : ∀ o, documented o = none → (vm0.has o = true ↔ occurs cmd o ≠ []) := by
      intro o ho
      rw [has_iff, hline.2]
      simp only [ho, Option.map_none]
      cases h : together (occurs cmd o) with
      | none => simp [together_none.mp h]
      | some v =>
        simp only [Option.map_some, ne_eq, reduceCtorEq, not_false_eq_true, true_iff]
        intro e; rw [e] at h; cases h
    by_cases hver : vm0.has .version = true
    · rw [if_pos hver]
      refine ⟨fun h => (by cases h), fun h => absurd h.2.1 ((hflag _ rfl).mp hver)⟩
    · rw [if_neg hver]
      by_cases hhelp : vm0.has .help = true
      · rw [if_pos hhelp]
        refine ⟨fun h => (by cases h), fun h => absurd h.2.2.1 ((hflag _ rfl).mp hhelp)⟩
      · rw [if_neg hhelp]
        have hv' : occurs cmd .version = [] := by
          by_contra h; exact hver ((hflag _ rfl).mpr h)
        have hh' : occurs cmd .help = [] := by
          by_contra h; exact hhelp ((hflag _ rfl).mpr h)
        have key : ∀ vm : Vm, Understood cmd (file.getD []) → (fun o => (vm.values o).map (·.1)) = asked cmd (file.getD []) →
            (begun vm = .params p ↔ Generic (asked cmd (file.getD [])) p ∧ Specific (asked cmd (file.getD [])) p) := by
          intro vm hu hvm
          have hsound : Sound vm (asked cmd (file.getD [])) := by
            refine ⟨fun o => congrFun hvm o, asked_kinds hu, fun o ho => ?_⟩
            unfold asked
            cases together (occurs cmd o) with
            | some v => simp
            | none =>
              simp only
              cases together (occurs (file.getD []) o) with
              | some v => simp
              | none => exact ho
          rw [← params_ok hsound, begun]
          by_cases hi : vm.has .inputFile = true
          · rw [hi]
            simp only [Bool.not_true, Bool.false_eq_true, if_false]
            cases readParams vm <;> simp
          · simp only [hi, Bool.not_false, if_true]
            refine ⟨fun h => (by cases h), fun h => ?_⟩
            obtain ⟨s, hs, _⟩ := ((params_ok hsound p).mp h).1.input
            exact absurd ((hsound.has _).mpr (by rw [hs]; simp)) hi
        cases file with
        | none =>
          simp only [Option.getD_none] at key ⊢
          have hu : Understood cmd [] := ⟨hline.1, fun o h => absurd rfl h, fun o _ h => absurd rfl h⟩
          have hvm : (fun o => (vm0.values o).map (·.1)) = asked cmd [] := by
            funext o
            rw [hline.2]
            simp only [asked, occurs, List.filter_nil, List.map_nil]
            cases together (List.map (fun x => x.2) (List.filter (fun p => decide (p.1 = o)) cmd)) with
            | some v => rfl
            | none => cases documented o <;> rfl
          rw [key vm0 hu hvm]
          exact ⟨fun h => ⟨hu, hv', hh', h⟩, fun h => h.2.2.2⟩
        | some src =>
          simp only [Option.getD_some] at key ⊢
          cases h1 : store inFile src vm0 with
          | ok vm =>
            simp only
            have hex : (fun o => (vm.values o).map (·.1)) = asked cmd src ∧ Understood cmd src := by
              have h2 := h1
              unfold store at h2
              rw [bind_ok_iff] at h2
              obtain ⟨m, hm, _⟩ := h2
              rw [storeLoop_ok] at hm
              have hu : Understood cmd src := by
                refine ⟨hline.1, hm.1, fun o hno hne => ?_⟩
                have h2 := hm.2 o
                rw [hline.2] at h2
                simp only [hno, ne_eq, not_true_eq_false, decide_false, Bool.false_eq_true, if_false, together] at h2
                cases hk : inFile o with
                | none => exact absurd hk (hm.1 o hne)
                | some k =>
                  rw [hk] at h2
                  simp only at h2
                  rw [put_ok _ _ _ _ (by cases documented o <;> simp)] at h2
                  refine ⟨k, rfl, h2.1, fun ht => ?_⟩
                  have h3 := h2.2.1 ht
                  have h4 := List.length_pos_iff.mpr hne
                  omega
              obtain ⟨vm', hv1, hv2⟩ := (store_file cmd src vm0 vm h0).mpr hu
              rw [h1] at hv1
              injection hv1 with hv1
              subst hv1
              exact ⟨hv2, hu⟩
            rw [key vm hex.2 hex.1]
            exact ⟨fun h => ⟨hex.2, hv', hh', h⟩, fun h => h.2.2.2⟩
          | throw =>
            simp only
            refine ⟨fun h => (by cases h), fun h => ?_⟩
            obtain ⟨vm', hv1, _⟩ := (store_file cmd src vm0 vm0 h0).mpr h.1
            rw [h1] at hv1; cases hv1
          | ub =>
            simp only
            refine ⟨fun h => (by cases h), fun h => ?_⟩
            obtain ⟨vm', hv1, _⟩ := (store_file cmd src vm0 vm0 h0).mpr h.1
            rw [h1] at hv1; cases hv1
          | diverges =>
            simp only
            refine ⟨fun h => (by cases h), fun h => ?_⟩
            obtain ⟨vm', hv1, _⟩ := (store_file cmd src vm0 vm0 h0).mpr h.1
            rw [h1] at hv1; cases hv1

theorem line_flag {cmd : Source} {vm0 : Vm} (h0 : store onLine cmd Vm.empty = .ok vm0) (o : Opt) (ho : documented o = none) :
    vm0.has o = true ↔ occurs cmd o ≠ [] := by
  rw [has_iff, ((store_line cmd vm0).mp h0).2]
  simp only [ho, Option.map_none]
  cases h : together (occurs cmd o) with
  | none => simp [together_none.mp h]
  | some v =>
    simp only [Option.map_some, ne_eq, reduceCtorEq, not_false_eq_true, true_iff]
    intro e; rw [e] at h; cases h

/-- **C149, version and help.** Asked for the version or the help, the program ends well, whatever the configuration file is. -/
theorem C149_version (cmd : Source) (file : Option Source) (hu : Understood cmd [])
    (h : occurs cmd .version ≠ [] ∨ occurs cmd .help ≠ []) : begin_ cmd file = .exit 0 := by
  unfold begin_
  rw [(store_line cmd _).mpr ⟨hu.line, rfl⟩]
  have h0 := (store_line cmd _).mpr ⟨hu.line, rfl⟩
  simp only
  by_cases hv : occurs cmd .version ≠ []
  · rw [if_pos ((line_flag h0 .version rfl).mpr hv)]
  · rw [if_neg (fun e => hv ((line_flag h0 .version rfl).mp e)), if_pos ((line_flag h0 .help rfl).mpr (h.resolve_left hv))]

/-- **C149, no input.** Without an input file, in the command line or in the configuration file, the status is that of a missing file. -/
theorem C149_no_input (cmd : Source) (file : Option Source) (hu : Understood cmd (file.getD [])) (hv : occurs cmd .version = [])
    (hh : occurs cmd .help = []) (hi : asked cmd (file.getD []) .inputFile = none) : begin_ cmd file = .exit 2 := by
  have h0 := (store_line cmd _).mpr ⟨hu.line, rfl⟩
  have hbegun : ∀ vm : Vm, (vm.values .inputFile).map (·.1) = none → begun vm = .exit 2 := by
    intro vm h
    have : vm.has .inputFile = false := by
      rw [← Bool.not_eq_true, has_iff, h]; simp
    simp [begun, this]
  unfold begin_
  rw [h0]
  simp only
  rw [if_neg (fun e => (line_flag h0 .version rfl).mp e hv), if_neg (fun e => (line_flag h0 .help rfl).mp e hh)]
  cases file with
  | none =>
    simp only
    apply hbegun
    simp only [Option.getD_none, asked] at hi
    cases h : together (occurs cmd .inputFile) with
    | none => simp only [h]; rfl
    | some v => rw [h] at hi; cases hi
  | some src =>
    obtain ⟨vm, h1, h2⟩ := (store_file cmd src _ Vm.empty h0).mpr hu
    simp only [h1]
    apply hbegun
    have := congrFun h2 .inputFile
    rw [this]
    exact hi

example : begin_ [(.version, .flag [])] none = .exit 0 ∧ begin_ [(.tolerance, .real 1)] (some [(.debug, .flag [])]) = .exit 2 ∧
    begin_ [(.tolerance, .real 1), (.tolerance, .real 2)] none = .thrown ∧ begin_ [(.inputFile, .text [])] none = .ub := by decide +kernel

/-- What several options ask for. -/
example : (match begin_ [(.inputFile, .text "'model.nas'".toList), (.outputFormat, .text "systus".toList), (.subcase, .texts ["1,2".toList]),
      (.subcase, .texts ["30".toList]), (.rbe2Rigidity, .real 7)]
    (some [(.outputFormat, .text "nastran".toList), (.outputMatrix, .text "file".toList), (.tolerance, .real 1)]) with
  | .params p => decide (p.input = "model.nas".toList ∧ p.solver = .SYSTUS ∧ p.subcases = [[1, 2], [30]] ∧ p.stiffness = some 7 ∧
      p.coefficient = 1 ∧ p.size = 20 ∧ p.tolerance = 1 ∧ p.solverVersion = "2016".toList ∧ p.mode = .BEST_EFFORT)
  | _ => false) = true := by decide +kernel

/-- **C149 is false of the dialect of Nastran in a configuration file**: the options of this group are not declared for it, and the
translation does not begin. -/
theorem C149_dialect_false (cmd src : Source) (v : Val) (h : (Opt.dialect, v) ∈ src) (p : Params) : begin_ cmd (some src) ≠ .params p := by
  intro hp
  have hu := ((C149_parameters cmd (some src) p).mp hp).1
  refine hu.known .dialect ?_ rfl
  rw [← any_occurs, List.any_eq_true]
  exact ⟨_, h, by simp⟩

example : begin_ [(.inputFile, .text "model.nas".toList)] (some [(.dialect, .text "modern".toList)]) = .thrown := by decide +kernel

/-- **C149 is false of options without value in a configuration file**: whatever is written after `strict =` asks for the strict mode. -/
theorem C149_flag_false (cmd src : Source) (w : Line) (h : (Opt.strict, Val.flag w) ∈ src) (p : Params)
    (hp : begin_ cmd (some src) = .params p) : p.mode = .STRICT := by
  have hg := ((C149_parameters cmd (some src) p).mp hp).2.2.2.1.mode
  have hne : asked cmd src .strict ≠ none := by
    have : occurs src .strict ≠ [] := by
      rw [← any_occurs, List.any_eq_true]
      exact ⟨_, h, by simp⟩
    unfold asked
    cases together (occurs cmd .strict) with
    | some v => simp
    | none =>
      simp only
      cases h2 : together (occurs src .strict) with
      | some v => simp
      | none => exact absurd (together_none.mp h2) this
  generalize p.mode = m at hg
  cases hg with
  | best _ h => exact absurd hne h
  | mesh _ _ h => exact absurd hne h
  | strict _ _ => rfl

example : (match begin_ [(.inputFile, .text "model.nas".toList)] (some [(.strict, .flag "false".toList)]) with
  | .params p => decide (p.mode = .STRICT)
  | _ => false) = true := by decide +kernel

/-- **C149 is false of paths with one quote**: the last character of a path that begins with a quote is dropped, quote or not. -/
theorem C149_quote_false (cmd : Source) (file : Option Source) (q z : Char) (s : Line) (hq : q = '"' ∨ q = '\'')
    (h : asked cmd (file.getD []) .inputFile = some (.text (q :: (s ++ [z])))) (p : Params) (hp : begin_ cmd file = .params p) :
    p.input = s := by
  obtain ⟨t, h1, h2⟩ := ((C149_parameters cmd file p).mp hp).2.2.2.1.input
  rw [h] at h1
  injection h1 with h1; injection h1 with h1; subst h1
  have := (path_ok _ _).mpr h2
  have h3 := (path_ok _ _).mpr (Path.quoted (s := s) (z := z) hq)
  rw [this] at h3
  injection h3

example : (match begin_ [(.inputFile, .text "'model.nas".toList)] none with
  | .params p => decide (p.input = "model.na".toList)
  | _ => false) = true := by decide +kernel

/-- **C149 is false of levels**: a name that is none of them is not refused, and means `INFO`. -/
theorem C149_level_false (cmd : Source) (file : Option Source) (s : Line) (hs : ∀ l, s.map Char.toUpper ≠ levelName l)
    (h : asked cmd (file.getD []) .verbosity = some (.text s)) (hd : asked cmd (file.getD []) .debug = none) (p : Params)
    (hp : begin_ cmd file = .params p) : p.level = .INFO := by
  have hl := ((C149_parameters cmd file p).mp hp).2.2.2.1.level
  generalize p.level = l at hl
  cases hl with
  | named h1 h2 _ =>
    rw [h] at h1
    injection h1 with h1; injection h1 with h1; subst h1
    exact absurd h2 (hs _)
  | unknown _ _ _ => rfl
  | missing _ _ => rfl
  | trace _ _ h3 => exact absurd hd h3
  | debug _ h3 => exact absurd hd h3

example : (match begin_ [(.inputFile, .text "model.nas".toList), (.verbosity, .text "loud".toList)] none with
  | .params p => decide (p.level = .INFO)
  | _ => false) = true := by decide +kernel

/-- **C149 is false of lists of analyses after `single`**: they are neither read nor refused. -/
theorem C149_single_false (rest : List Line) : groupsOf (some ("single".toList :: rest)) = .ok [[-1]] := rfl

example : (match begin_ [(.inputFile, .text "model.nas".toList), (.subcase, .texts ["single".toList, "no list".toList])] none with
  | .params p => decide (p.subcases = [[-1]])
  | _ => false) = true := by decide +kernel

/-- **C149 is false of the rigidity of rigid elements with multipliers**: it is neither used nor refused. -/
theorem C149_rigidity_false (cmd : Source) (file : Option Source) (x : Dbl)
    (h : asked cmd (file.getD []) .rbe2Mode = some (.text "lagrangian".toList))
    (_hx : asked cmd (file.getD []) .rbe2Rigidity = some (.real x)) (hl : asked cmd (file.getD []) .rbeLagrangian = none)
    (hs : asked cmd (file.getD []) .rbeStiffness = none) (hc : asked cmd (file.getD []) .rbeCoefficient = none) (p : Params)
    (hp : begin_ cmd file = .params p) : p.stiffness = none ∧ p.coefficient = 1000 := by
  have hsp := ((C149_parameters cmd file p).mp hp).2.2.2.2
  have hm : p.rbe2 = "lagrangian".toList := by
    have := hsp.rbe2.1
    rw [h] at this
    injection this with this; injection this with this; exact this.symm
  have hn : ¬ p.rbe2 = "penalty".toList := by rw [hm]; decide
  have h1 := hsp.stiffness
  have h2 := hsp.coefficient
  constructor
  · generalize p.stiffness = t at h1
    cases h1 with
    | given e => rw [hs] at e; cases e
    | rigidity _ e _ => exact absurd e hn
    | lagrangian _ _ e => rw [hl] at e; cases e
    | automatic => rfl
  · generalize p.coefficient = t at h2
    cases h2 with
    | given e => rw [hc] at e; cases e
    | rigidity _ e _ => exact absurd e hn
    | lagrangian _ _ e => rw [hl] at e; cases e
    | penalty _ _ _ e => exact absurd e hn
    | multiplier => rfl

example : (match begin_ [(.inputFile, .text "model.nas".toList), (.rbe2Mode, .text "lagrangian".toList), (.rbe2Rigidity, .real 5)] none with
  | .params p => decide (p.stiffness = none ∧ p.coefficient = 1000)
  | _ => false) = true := by decide +kernel

/-- **C149 is false of the status of refused values**: what is thrown before the level is known is thrown again, and the program ends with
the status of a crash, 8. -/
theorem C149_status_false (cmd : Source) (file : Option Source) (h : begin_ cmd file = .thrown) :
    ∃ e, (begin_ cmd file).ends = some e ∧ status e = 8 := ⟨.aborts, by rw [h]; rfl, rfl⟩

example : begin_ [(.inputFile, .text "model.nas".toList), (.outputProduct, .text "perl".toList)] none = .thrown := by decide +kernel

end Cli
end Vega
