import Verif.Commandline.Solver
import Mathlib.Tactic.SplitIfs
import Mathlib.Tactic.ByContra

/-! # Solver names, exit statuses and runners: properties C52, C54, C75 -/
namespace Vega
namespace CliSpec
open Nastran Cli

/-! ## Specification -/

/-- The name of a solver on the command line. -/
def nameOf : SolverName → Line
  | .CODE_ASTER => "ASTER".toList
  | .NASTRAN => "NASTRAN".toList
  | .OPTISTRUCT => "OPTISTRUCT".toList
  | .SYSTUS => "SYSTUS".toList

/-- The text is the name, in any case, with blanks around. -/
def Spells (s : Line) (n : SolverName) : Prop :=
  ∃ pre w post, s = pre ++ w ++ post ∧ (∀ c ∈ pre, isSpace c = true) ∧ (∀ c ∈ post, isSpace c = true) ∧
    w.map Char.toUpper = nameOf n

/-- The exit code of the shell in the status given by `system`. -/
def shellCode (x : BitVec 32) : Nat := x.toNat / 256 % 256

/-- The status given by `system` for a shell that ends with an exit code. -/
def statusOf (code : Nat) : BitVec 32 := BitVec.ofNat 32 (code * 256)

/-! ## Lemmas -/

theorem mem_of_rightFind (l : List (SolverName × Line)) (s : Line) (n : SolverName)
    (h : rightFind l s = some n) : (n, s) ∈ l := by
  induction l with
  | nil => cases h
  | cons e l ih =>
    obtain ⟨m, w⟩ := e
    unfold rightFind at h
    split at h
    · rename_i e; injection h with h; subst h; subst e; exact List.mem_cons_self ..
    · exact List.mem_cons_of_mem _ (ih h)

theorem rightFind_iff (s : Line) (n : SolverName) : rightFind names s = some n ↔ s = nameOf n := by
  constructor
  · intro h
    have := mem_of_rightFind _ _ _ h
    unfold names at this
    rw [List.mem_cons, List.mem_cons, List.mem_cons, List.mem_singleton] at this
    rcases this with h | h | h | h <;> (injection h with h1 h2; subst h1; exact h2)
  · rintro rfl
    cases n <;> decide +kernel

theorem dropWhile_blank (pre l : Line) (h : ∀ c ∈ pre, isSpace c = true) :
    (pre ++ l).dropWhile isSpace = l.dropWhile isSpace := by
  induction pre with
  | nil => rfl
  | cons c pre ih =>
    rw [List.cons_append, List.dropWhile_cons_of_pos (h c (List.mem_cons_self ..))]
    exact ih (fun d hd => h d (List.mem_cons_of_mem _ hd))

theorem takeWhile_blank (l : Line) (c : Char) (h : c ∈ l.takeWhile isSpace) : isSpace c = true := by
  induction l with
  | nil => simp at h
  | cons d l ih =>
    rw [List.takeWhile_cons] at h
    split at h
    · rename_i hd
      rcases List.mem_cons.mp h with rfl | h
      · exact hd
      · exact ih h
    · simp at h

/-- What `dropWhile` removes. -/
theorem dropWhile_split (l : Line) : ∃ pre, l = pre ++ l.dropWhile isSpace ∧ ∀ c ∈ pre, isSpace c = true :=
  ⟨l.takeWhile isSpace, (List.takeWhile_append_dropWhile).symm, fun _ hc => takeWhile_blank l _ hc⟩

theorem trim_split (s : Line) : ∃ pre post, s = pre ++ trim s ++ post ∧
    (∀ c ∈ pre, isSpace c = true) ∧ (∀ c ∈ post, isSpace c = true) := by
  obtain ⟨pre, h1, h2⟩ := dropWhile_split s
  obtain ⟨post, h3, h4⟩ := dropWhile_split (s.dropWhile isSpace).reverse
  refine ⟨pre, post.reverse, ?_, h2, fun c hc => h4 c (List.mem_reverse.mp hc)⟩
  have h5 : s.dropWhile isSpace = trim s ++ post.reverse := by
    unfold trim trimRight
    rw [← List.reverse_append, ← h3, List.reverse_reverse]
  rw [List.append_assoc, ← h5]
  exact h1

theorem dropWhile_solid (l : Line) (h : ∀ c ∈ l, isSpace c = false) : l.dropWhile isSpace = l := by
  cases l with
  | nil => rfl
  | cons c l => rw [List.dropWhile_cons_of_neg]; simp [h c (List.mem_cons_self ..)]

theorem trim_around (pre w post : Line) (h1 : ∀ c ∈ pre, isSpace c = true)
    (h2 : ∀ c ∈ post, isSpace c = true) (hw : ∀ c ∈ w, isSpace c = false) :
    trim (pre ++ w ++ post) = w := by
  unfold trim trimRight
  rw [List.append_assoc, dropWhile_blank _ _ h1]
  cases w with
  | nil =>
    rw [List.nil_append]
    have : post.dropWhile isSpace = [] := by
      have := dropWhile_blank post [] h2
      rw [List.append_nil] at this
      rw [this]; rfl
    rw [this]; rfl
  | cons c w =>
    have : (c :: w ++ post).dropWhile isSpace = c :: w ++ post := by
      rw [List.cons_append, List.dropWhile_cons_of_neg]
      simp [hw c (List.mem_cons_self ..)]
    rw [this, List.reverse_append, dropWhile_blank _ _ (fun d hd => h2 d (List.mem_reverse.mp hd)),
      dropWhile_solid _ (fun d hd => hw d (List.mem_reverse.mp hd)), List.reverse_reverse]

/-- A letter whose capital is not blank is not blank. -/
theorem not_space_of_upper (c : Char) (h : isSpace c.toUpper = false) : isSpace c = false := by
  cases hs : isSpace c with
  | false => rfl
  | true =>
    exfalso
    unfold isSpace at hs
    simp only [Bool.or_eq_true, decide_eq_true_eq] at hs
    rcases hs with ((((rfl | rfl) | rfl) | rfl) | rfl) | rfl <;> revert h <;> decide

theorem name_solid (n : SolverName) : ∀ c ∈ nameOf n, isSpace c = false := by
  cases n <;> decide +kernel

/-! ## C52 -/

/-- **C52** the name printed for a solver is read back as this solver. -/
theorem C52_round_trip (n : SolverName) : ∃ w, toStr n = .ok w ∧ w = nameOf n ∧ fromString w = .ok n := by
  refine ⟨nameOf n, ?_, rfl, ?_⟩ <;> cases n <;> decide +kernel

/-- **C52** a text is read as a solver exactly when it is its name in some case, with blanks around. -/
theorem C52_reads (s : Line) (n : SolverName) : fromString s = .ok n ↔ Spells s n := by
  constructor
  · intro h
    unfold fromString at h
    simp only at h
    split at h
    · cases h
    · split at h
      · cases h
      · rename_i m hm
        injection h with h
        subst h
        obtain ⟨pre, post, e, h1, h2⟩ := trim_split s
        exact ⟨pre, trim s, post, e, h1, h2, (rightFind_iff _ _).mp hm⟩
  · rintro ⟨pre, w, post, rfl, h1, h2, h3⟩
    have hw : ∀ c ∈ w, isSpace c = false := by
      intro c hc
      apply not_space_of_upper
      apply name_solid n
      rw [← h3]
      exact List.mem_map_of_mem hc
    unfold fromString
    simp only
    rw [trim_around pre w post h1 h2 hw]
    have hu : toUpper w = nameOf n := h3
    rw [hu, (rightFind_iff _ _).mpr rfl]
    cases n <;> rfl

/-- **C52** every other text is refused. -/
theorem C52_refused (s : Line) (h : ∀ n, ¬ Spells s n) : fromString s = .throw := by
  cases hf : fromString s with
  | ok n => exact absurd ((C52_reads s n).mp hf) (h n)
  | throw => rfl
  | ub =>
    unfold fromString at hf
    simp only at hf
    split at hf
    · cases hf
    · split at hf <;> cases hf
  | diverges =>
    unfold fromString at hf
    simp only at hf
    split at hf
    · cases hf
    · split at hf <;> cases hf

example : Spells " Aster\t".toList .CODE_ASTER := ⟨[' '], "Aster".toList, ['\t'], by decide, by decide, by decide, by decide⟩

example : ∀ n, ¬ Spells "ABAQUS".toList n := by
  intro n h
  have := (C52_reads _ n).mpr h
  revert this; cases n <;> decide +kernel

/-! ## C54 -/

theorem highByte_toNat (x : BitVec 32) : (highByte x).toNat = shellCode x := by
  unfold highByte shellCode
  have h : (x &&& 0xFF00#32) >>> 8 = (x >>> 8) &&& 0xFF#32 := by
    apply BitVec.eq_of_getLsbD_eq
    intro i hi
    simp only [BitVec.getLsbD_ushiftRight, BitVec.getLsbD_and]
    congr 1
    revert i; decide
  rw [h, BitVec.toNat_and, BitVec.toNat_ushiftRight, Nat.shiftRight_eq_div_pow]
  exact Nat.and_two_pow_sub_one_eq_mod _ 8

theorem slt_small (a b : BitVec 32) (ha : a.toNat < 256) (hb : b.toNat < 256) :
    a.slt b = decide (a.toNat < b.toNat) := by
  rw [BitVec.slt_eq_decide, BitVec.toInt_eq_toNat_of_lt (by omega), BitVec.toInt_eq_toNat_of_lt (by omega)]
  simp

theorem sle_small (a b : BitVec 32) (ha : a.toNat < 256) (hb : b.toNat < 256) :
    a.sle b = decide (a.toNat ≤ b.toNat) := by
  rw [BitVec.sle_eq_decide, BitVec.toInt_eq_toNat_of_lt (by omega), BitVec.toInt_eq_toNat_of_lt (by omega)]
  simp

theorem shellCode_lt (x : BitVec 32) : shellCode x < 256 := Nat.mod_lt _ (by decide)

/-- The classification in terms of the code of the shell. -/
theorem convert_eq (x : BitVec 32) : convertExecResult x =
    if x = 0#32 then .OK else if shellCode x = 127 then .SOLVER_NOT_FOUND
    else if 129 ≤ shellCode x ∧ shellCode x ≤ 165 then .SOLVER_KILLED
    else if x = BitVec.ofInt 32 (-1) then .SOLVER_NOT_FOUND else .SOLVER_EXIT_NOT_ZERO := by
  have hlt := shellCode_lt x
  have ht := highByte_toNat x
  have e1 : (highByte x = 127#32) ↔ shellCode x = 127 := by
    rw [← BitVec.toNat_inj, ht]; rfl
  have e2 : ((128#32).slt (highByte x) = true ∧ (highByte x).sle 165#32 = true) ↔
      129 ≤ shellCode x ∧ shellCode x ≤ 165 := by
    rw [slt_small _ _ (by decide) (by omega), sle_small _ _ (by omega) (by decide), ht]
    simp only [decide_eq_true_eq, BitVec.toNat_ofNat]
    omega
  have e3 : (-1 : BitVec 32) = BitVec.ofInt 32 (-1) := by decide
  unfold convertExecResult
  rw [e3]
  simp only [e1, e2]

theorem classify (A B C D : Prop) [Decidable A] [Decidable B] [Decidable C] [Decidable D] (r : RunnerCode)
    (hr : r = if A then .OK else if B then .SOLVER_NOT_FOUND else if C then .SOLVER_KILLED
      else if D then .SOLVER_NOT_FOUND else .SOLVER_EXIT_NOT_ZERO)
    (h1 : A → ¬ B) (h2 : A → ¬ C) (h3 : A → ¬ D) (h4 : D → ¬ C) (h5 : C → ¬ B) :
    (r = .OK ↔ A) ∧ (r = .SOLVER_NOT_FOUND ↔ B ∨ D) ∧ (r = .SOLVER_KILLED ↔ C) ∧
      (r = .SOLVER_EXIT_NOT_ZERO ↔ ¬ A ∧ ¬ D ∧ ¬ B ∧ ¬ C) := by
  subst hr
  by_cases A <;> by_cases B <;> by_cases C <;> by_cases D <;> simp_all

/-- **C54** every status is classified: success for 0 only, not found for the code 127 of the shell or a
failed launch, killed for the codes 129 to 165, failure for the others. -/
theorem C54_classified (x : BitVec 32) :
    (convertExecResult x = .OK ↔ x.toInt = 0) ∧
    (convertExecResult x = .SOLVER_NOT_FOUND ↔ shellCode x = 127 ∨ x.toInt = -1) ∧
    (convertExecResult x = .SOLVER_KILLED ↔ 129 ≤ shellCode x ∧ shellCode x ≤ 165) ∧
    (convertExecResult x = .SOLVER_EXIT_NOT_ZERO ↔ x.toInt ≠ 0 ∧ x.toInt ≠ -1 ∧ shellCode x ≠ 127 ∧
      ¬ (129 ≤ shellCode x ∧ shellCode x ≤ 165)) := by
  have z : x.toInt = 0 ↔ x = 0#32 := by
    rw [← BitVec.toInt_inj]; rfl
  have m1 : x.toInt = -1 ↔ x = BitVec.ofInt 32 (-1) := by
    rw [← BitVec.toInt_inj]; rfl
  have s0 : x = 0#32 → shellCode x = 0 := by rintro rfl; rfl
  have s1 : x = BitVec.ofInt 32 (-1) → shellCode x = 255 := by rintro rfl; decide
  have s01 : x = 0#32 → x ≠ BitVec.ofInt 32 (-1) := by rintro rfl; decide
  simp only [ne_eq, z, m1]
  refine classify _ _ _ _ _ (convert_eq x) ?_ ?_ s01 ?_ ?_
  · intro h; have := s0 h; omega
  · intro h; have := s0 h; omega
  · intro h; have := s1 h; omega
  · intro h; omega

example : convertExecResult (statusOf 127) = .SOLVER_NOT_FOUND ∧
    convertExecResult (statusOf 137) = .SOLVER_KILLED ∧ convertExecResult (statusOf 1) = .SOLVER_EXIT_NOT_ZERO := by
  decide

/-! ## C75 -/

theorem nook_eq (l : List Line) (c : RunnerCode) :
    nook l c = if ∃ x ∈ l, "NOOK".toList <:+: x then .TEST_FAIL else c := by
  induction l generalizing c with
  | nil => simp [nook]
  | cons x l ih =>
    unfold nook
    rw [ih]
    unfold has
    by_cases h1 : "NOOK".toList <:+: x
    · have : ∃ y ∈ x :: l, "NOOK".toList <:+: y := ⟨x, List.mem_cons_self .., h1⟩
      rw [if_pos this, decide_eq_true h1, if_pos rfl]
      split <;> rfl
    · have e : (∃ y ∈ x :: l, "NOOK".toList <:+: y) ↔ ∃ y ∈ l, "NOOK".toList <:+: y := by
        constructor
        · rintro ⟨y, hy, h⟩
          rcases List.mem_cons.mp hy with rfl | hy
          · exact absurd h h1
          · exact ⟨y, hy, h⟩
        · rintro ⟨y, hy, h⟩; exact ⟨y, List.mem_cons_of_mem _ hy, h⟩
      simp only [e, decide_eq_false h1]
      rfl

/-- **C75, Code_Aster.** The run is a success exactly when the command succeeds and leaves a result file
where no line has NOOK. -/
theorem C75_aster (i : BitVec 32) (resu : Option (List Line)) :
    asterRun i resu = .OK ↔ i.toInt = 0 ∧ ∃ lines, resu = some lines ∧ ∀ l ∈ lines, ¬ "NOOK".toList <:+: l := by
  have hc := (C54_classified i).1
  unfold asterRun
  cases hr : convertExecResult i with
  | OK =>
    rw [hr] at hc
    have h0 := hc.mp rfl
    cases resu with
    | none => simp
    | some lines =>
      simp only [nook_eq]
      constructor
      · intro h
        refine ⟨h0, lines, rfl, ?_⟩
        intro l hl hn
        rw [if_pos ⟨l, hl, hn⟩] at h
        cases h
      · rintro ⟨_, l, e, h⟩
        injection e with e
        subst e
        rw [if_neg]
        rintro ⟨x, hx, hn⟩
        exact h x hx hn
  | _ =>
    rw [hr] at hc
    simp only
    constructor
    · intro h; split at h <;> cases h
    · rintro ⟨h, _⟩; have := hc.mpr h; cases this

/-- **C75, refused.** The exit code 4 of Code_Aster stands for a syntax error, but it comes as a plain
failure, because the status of `system` has the exit code in its second byte; a shell killed by the
signal 4 comes as a syntax error. -/
theorem C75_syntax_false (resu : Option (List Line)) :
    asterRun (statusOf 4) resu = .SOLVER_EXIT_NOT_ZERO ∧ asterRun 4#32 resu = .TRANSLATION_SYNTAX_ERROR ∧
    ∀ code, code < 256 → asterRun (statusOf code) resu ≠ .TRANSLATION_SYNTAX_ERROR := by
  have h1 : convertExecResult (statusOf 4) = .SOLVER_EXIT_NOT_ZERO := by decide
  have h2 : convertExecResult 4#32 = .SOLVER_EXIT_NOT_ZERO := by decide
  refine ⟨?_, ?_, ?_⟩
  · unfold asterRun; rw [h1]; simp only; rw [if_neg (by decide)]
  · unfold asterRun; rw [h2]; simp
  · intro code hlt
    have hne : statusOf code ≠ 4#32 := by
      intro h
      have := congrArg BitVec.toNat h
      unfold statusOf at this
      simp only [BitVec.toNat_ofNat] at this
      omega
    have hs : ∀ x, convertExecResult x ≠ .TRANSLATION_SYNTAX_ERROR := by
      intro x; rw [convert_eq]; split_ifs <;> decide
    unfold asterRun
    have := hs (statusOf code)
    split
    · split
      · decide
      · rw [nook_eq]; split <;> decide
    · rw [if_neg hne]; exact this

/-- A line of the standard output of Systus that tells an error. -/
def TellsError (l : Line) : Prop := "ERROR".toList <:+: l ∧ ¬ "NO ERROR".toList <:+: l

theorem errors_ok (l : List Line) (c : RunnerCode) : errors l c = .OK ↔ c = .OK ∧ ∀ x ∈ l, ¬ TellsError x := by
  induction l generalizing c with
  | nil => simp [errors]
  | cons x l ih =>
    unfold errors
    rw [ih]
    have hx : (has "ERROR" x && !has "NO ERROR" x) = true ↔ TellsError x := by
      unfold has TellsError
      rw [Bool.and_eq_true, Bool.not_eq_true', decide_eq_true_eq, decide_eq_false_iff_not]
    rw [List.forall_mem_cons]
    by_cases h : TellsError x
    · rw [if_pos (hx.mpr h)]
      constructor
      · rintro ⟨h', _⟩; cases h'
      · rintro ⟨_, h', _⟩; exact absurd h h'
    · rw [if_neg (fun h' => h (hx.mp h'))]
      constructor
      · rintro ⟨h1, h2⟩; exact ⟨h1, h, h2⟩
      · rintro ⟨h1, _, h2⟩; exact ⟨h1, h2⟩

theorem nooks_ok (fs : List (List Line)) (c : RunnerCode) :
    nooks fs c = .OK ↔ c = .OK ∧ ∀ f ∈ fs, ∀ x ∈ f, ¬ "NOOK".toList <:+: x := by
  induction fs generalizing c with
  | nil => simp [nooks]
  | cons f fs ih =>
    unfold nooks
    rw [ih, nook_eq]
    constructor
    · rintro ⟨h1, h2⟩
      split at h1
      · cases h1
      · rename_i hn
        refine ⟨h1, ?_⟩
        intro g hg x hx hk
        rcases List.mem_cons.mp hg with rfl | hg
        · exact hn ⟨x, hx, hk⟩
        · exact h2 g hg x hx hk
    · rintro ⟨h1, h2⟩
      refine ⟨?_, fun g hg => h2 g (List.mem_cons_of_mem _ hg)⟩
      rw [if_neg, h1]
      rintro ⟨x, hx, hk⟩
      exact h2 f (List.mem_cons_self ..) x hx hk

theorem results_ok (systus : Bool) (f : SystusFiles) (c : RunnerCode) :
    systusResults systus f c = .OK ↔ c = .OK ∧ (∀ l ∈ f.stdout, ¬ TellsError l) ∧
      (systus = true → f.tit = true ∨ f.fdb = true) ∧ ∀ r ∈ f.resu, ∀ l ∈ r, ¬ "NOOK".toList <:+: l := by
  unfold systusResults
  simp only
  by_cases he : errors f.stdout c = .OK
  · rw [if_pos he, he]
    obtain ⟨h1, h2⟩ := (errors_ok _ _).mp he
    cases systus <;> cases ht : f.tit <;> cases hf : f.fdb <;> simp [nooks_ok, h1] <;> exact fun _ => h2
  · rw [if_neg he]
    constructor
    · intro h; exact absurd h he
    · rintro ⟨h1, h2, _⟩; exact absurd ((errors_ok _ _).mpr ⟨h1, h2⟩) he

/-- **C75, Systus.** The run is a success exactly when the command succeeds, its output tells no error,
a result file is found and no test has NOOK. -/
theorem C75_systus (i : BitVec 32) (f : SystusFiles) :
    systusRun i f = .OK ↔ i.toInt = 0 ∧ (∀ l ∈ f.stdout, ¬ TellsError l) ∧
      (f.tit = true ∨ f.fdb = true) ∧ ∀ r ∈ f.resu, ∀ l ∈ r, ¬ "NOOK".toList <:+: l := by
  unfold systusRun
  rw [results_ok, (C54_classified i).1]
  simp

example : systusRun 0#32 ⟨["NO ERROR".toList], true, false, [["OK".toList]]⟩ = .OK := by decide +kernel

theorem topazeRuns_eq (is : List (BitVec 32)) (c : Option RunnerCode) :
    ((∀ i ∈ is, i.toInt = 0) → topazeRuns is c = (if is = [] then c else some .OK, false)) ∧
    ((∃ i ∈ is, i.toInt ≠ 0) → ∃ d, d ≠ .OK ∧ topazeRuns is c = (some d, true)) := by
  induction is generalizing c with
  | nil => exact ⟨fun _ => rfl, by simp⟩
  | cons i is ih =>
    unfold topazeRuns
    by_cases hi : i.toInt = 0
    · rw [if_pos ((C54_classified i).1.mpr hi)]
      refine ⟨?_, ?_⟩
      · intro h
        rw [(ih (some .OK)).1 (fun j hj => h j (List.mem_cons_of_mem _ hj))]
        split <;> rfl
      · rintro ⟨j, hj, hne⟩
        rcases List.mem_cons.mp hj with rfl | hj
        · exact absurd hi hne
        · exact (ih _).2 ⟨j, hj, hne⟩
    · rw [if_neg (fun h => hi ((C54_classified i).1.mp h))]
      exact ⟨fun h => absurd (h i (List.mem_cons_self ..)) hi,
        fun _ => ⟨_, fun h => hi ((C54_classified i).1.mp h), rfl⟩⟩

/-- **C75, topaze, partial.** When there is a data file, the run is a success exactly when every command
succeeds, the output tells no error and no test has NOOK. Partial: see `C75_topaze_false`. -/
theorem C75_topaze_partial (is : List (BitVec 32)) (f : SystusFiles) (hne : is ≠ []) :
    topazeRun is f = .ok .OK ↔ (∀ i ∈ is, i.toInt = 0) ∧ (∀ l ∈ f.stdout, ¬ TellsError l) ∧
      ∀ r ∈ f.resu, ∀ l ∈ r, ¬ "NOOK".toList <:+: l := by
  unfold topazeRun
  by_cases h : ∀ i ∈ is, i.toInt = 0
  · rw [(topazeRuns_eq is none).1 h, if_neg hne]
    simp only [Outcome.ok.injEq, results_ok]
    constructor
    · rintro ⟨_, h1, _, h2⟩; exact ⟨h, h1, h2⟩
    · rintro ⟨_, h1, h2⟩; exact ⟨trivial, h1, fun h => (by cases h), h2⟩
  · have hx : ∃ i ∈ is, i.toInt ≠ 0 := by
      by_contra hc
      exact h (fun i hi => by by_contra hn; exact hc ⟨i, hi, hn⟩)
    obtain ⟨d, hd, e⟩ := (topazeRuns_eq is none).2 hx
    rw [e]
    simp only [Outcome.ok.injEq, h, false_and, iff_false]
    exact hd

example : topazeRun [0#32, 0#32] ⟨[], false, false, []⟩ = .ok .OK := by decide +kernel

/-- **C75, refused for topaze without data file**: no command is run and the exit code is read without a
value. -/
theorem C75_topaze_false (f : SystusFiles) : topazeRun [] f = .ub := rfl

end CliSpec
end Vega
