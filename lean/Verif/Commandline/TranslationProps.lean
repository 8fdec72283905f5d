import Verif.Commandline.Translation
import Verif.Commandline.SolverProps

/-! # Translation modes and exit status: properties C53, C76, C77 -/
namespace Vega
namespace CliSpec
open Nastran Cli

/-! ## Specification -/

/-- The model after a list of commands, each keeping what it did before its error. -/
inductive Reaches {M : Type} : M → List (M → Parsed M) → M → Prop
  | nil (m : M) : Reaches m [] m
  | done {m m' m'' : M} {c : M → Parsed M} {l : List (M → Parsed M)} :
      c m = .done m' → Reaches m' l m'' → Reaches m (c :: l) m''
  | parserError {m m' m'' : M} {c : M → Parsed M} {l : List (M → Parsed M)} :
      c m = .parserError m' → Reaches m' l m'' → Reaches m (c :: l) m''
  | tokenizerError {m m' m'' : M} {c : M → Parsed M} {l : List (M → Parsed M)} :
      c m = .tokenizerError m' → Reaches m' l m'' → Reaches m (c :: l) m''

/-- All the commands are read without any error. -/
inductive Clean {M : Type} : M → List (M → Parsed M) → M → Prop
  | nil (m : M) : Clean m [] m
  | done {m m' m'' : M} {c : M → Parsed M} {l : List (M → Parsed M)} :
      c m = .done m' → Clean m' l m'' → Clean m (c :: l) m''

/-- The first error met is told by the parser (`true`) or by the tokenizer (`false`). -/
inductive FirstError {M : Type} : M → List (M → Parsed M) → Bool → Prop
  | parser {m m' : M} {c : M → Parsed M} {l : List (M → Parsed M)} :
      c m = .parserError m' → FirstError m (c :: l) true
  | tokenizer {m m' : M} {c : M → Parsed M} {l : List (M → Parsed M)} :
      c m = .tokenizerError m' → FirstError m (c :: l) false
  | later {m m' : M} {c : M → Parsed M} {l : List (M → Parsed M)} {b : Bool} :
      c m = .done m' → FirstError m' l b → FirstError m (c :: l) b

/-- What a writer writes when nothing stops it. -/
def emitted {O : Type} : List (Write O) → List O
  | [] => []
  | .emit o :: l => o :: emitted l
  | .error :: l => emitted l

/-- A writer meets no error. -/
def NoError {O : Type} (l : List (Write O)) : Prop := ∀ w ∈ l, ∃ o, w = Write.emit o

/-! ## Lemmas -/

theorem parse_lenient {M : Type} (mode : Mode) (hm : mode ≠ .STRICT) (l : List (M → Parsed M)) (m m' : M)
    (h : Reaches m l m') : ∀ b, ∃ b', parse mode l ⟨m, b⟩ = .model ⟨m', b'⟩ := by
  induction h with
  | nil m => exact fun b => ⟨b, rfl⟩
  | done h _ ih => intro b; unfold parse; simp only [h]; exact ih b
  | parserError h _ ih =>
    intro b
    unfold parse
    simp only [h]
    cases mode with
    | STRICT => exact absurd rfl hm
    | MESH_AT_LEAST => exact ih true
    | BEST_EFFORT => exact ih b
  | tokenizerError h _ ih =>
    intro b
    unfold parse
    simp only [h]
    cases mode with
    | STRICT => exact absurd rfl hm
    | MESH_AT_LEAST => exact ih b
    | BEST_EFFORT => exact ih b

theorem parse_strict_clean {M : Type} (l : List (M → Parsed M)) (m : M) (b : Bool) (r : Flagged M)
    (h : parse .STRICT l ⟨m, b⟩ = .model r) : Clean m l r.model ∧ r.onlyMesh = b := by
  induction l generalizing m with
  | nil => unfold parse at h; injection h with h; subst h; exact ⟨.nil _, rfl⟩
  | cons c l ih =>
    unfold parse at h
    cases hc : c m with
    | done m' =>
      simp only [hc] at h
      obtain ⟨h1, h2⟩ := ih m' h
      exact ⟨.done hc h1, h2⟩
    | parserError m' => simp [hc] at h
    | tokenizerError m' => simp [hc] at h
    | raised t => simp [hc] at h

theorem parse_strict_error {M : Type} (l : List (M → Parsed M)) (m : M) (b e : Bool) (h : FirstError m l e) :
    parse .STRICT l ⟨m, b⟩ = if e then .raised .parsing else .exited 2 := by
  induction h with
  | parser h => unfold parse; simp [h]
  | tokenizer h => unfold parse; simp [h]
  | later h _ ih => unfold parse; simp only [h]; exact ih

/-- The two lenient modes differ by the flag only. -/
theorem parse_mesh {M : Type} (l : List (M → Parsed M)) (m : M) (b b' : Bool) :
    (∃ r r' : Flagged M, parse .MESH_AT_LEAST l ⟨m, b⟩ = .model r ∧ parse .BEST_EFFORT l ⟨m, b'⟩ = .model r' ∧
      r.model = r'.model) ∨
    (∃ t, parse .MESH_AT_LEAST l ⟨m, b⟩ = .raised t ∧ parse .BEST_EFFORT l ⟨m, b'⟩ = .raised t) := by
  induction l generalizing m b b' with
  | nil => exact .inl ⟨_, _, rfl, rfl, rfl⟩
  | cons c l ih =>
    unfold parse
    cases hc : c m with
    | done m' => simp only [hc]; exact ih m' b b'
    | parserError m' => simp only [hc]; exact ih m' true b'
    | tokenizerError m' => simp only [hc]; exact ih m' b b'
    | raised t => exact .inr ⟨t, by simp only [hc], by simp only [hc]⟩

theorem write_lenient {O : Type} (mode : Mode) (hm : mode ≠ .STRICT) (l : List (Write O)) :
    write mode l = (emitted l, true) := by
  induction l with
  | nil => rfl
  | cons w l ih =>
    cases w with
    | emit o => simp [write, emitted, ih]
    | error =>
      cases mode with
      | STRICT => exact absurd rfl hm
      | _ => simp [write, emitted, ih]

theorem write_strict {O : Type} (l : List (Write O)) : (write .STRICT l).2 = true ↔ NoError l := by
  induction l with
  | nil => simp [write, NoError]
  | cons w l ih =>
    cases w with
    | emit o =>
      simp only [write, ih]
      unfold NoError
      rw [List.forall_mem_cons]
      exact ⟨fun h => ⟨⟨o, rfl⟩, h⟩, fun h => h.2⟩
    | error =>
      simp only [write]
      constructor
      · intro h; cases h
      · intro h
        obtain ⟨o, ho⟩ := h .error (List.mem_cons_self ..)
        cases ho

theorem writerMode_lenient (out : SolverName) (mode : Mode) (h : mode ≠ .STRICT ∨ out ≠ .SYSTUS) :
    writerMode out mode ≠ .STRICT := by
  cases out <;> simp [writerMode] at h ⊢
  exact h

/-! ## C53 -/

theorem status_exit (c : Nat) (h : c % 256 ≠ 0) : status (.exit c) ≠ 0 := h

theorem status_handler (level : LogLevel) (t : Thrown) : status (handler level t) ≠ 0 := by
  cases level <;> cases t <;> decide

/-- **C53, strict mode, parsing.** An error ends the translation with a failure, and nothing is
written. -/
theorem C53_strict_parsing {M O : Type} (input output : SolverName) (level : LogLevel) (s : Study M O)
    (e : Bool) (h : FirstError s.start s.commands e) :
    (translate input output .STRICT level s).1 = [] ∧
      status (translate input output .STRICT level s).2 ≠ 0 := by
  unfold translate
  split
  · exact ⟨rfl, status_exit 4 (by decide)⟩
  · split
    · exact ⟨rfl, status_exit 4 (by decide)⟩
    · rw [parse_strict_error _ _ _ _ h]
      cases e
      · exact ⟨rfl, status_exit 2 (by decide)⟩
      · exact ⟨rfl, status_handler level .parsing⟩

/-- **C53, strict mode, partial.** A translation to Systus that ends with success met no error, in reading
or in writing. Partial: for the other outputs, see `C53_writing_false`. -/
theorem C53_strict_partial {M O : Type} (input : SolverName) (level : LogLevel) (s : Study M O)
    (h : status (translate input .SYSTUS .STRICT level s).2 = 0) :
    ∃ m m', Clean s.start s.commands m ∧ s.finish m = .ok m' ∧ s.valid m' = true ∧ NoError (s.steps m') ∧
      s.allWritten m' = true ∧ (translate input .SYSTUS .STRICT level s).1 = emitted (s.steps m') := by
  have hh := status_handler level
  have hem : ∀ l : List (Write O), NoError l → (write .STRICT l).1 = emitted l := by
    intro l
    induction l with
    | nil => intro _; rfl
    | cons w l ih =>
      intro hn
      cases w with
      | emit o => simp only [write, emitted]; rw [ih (fun w hw => hn w (List.mem_cons_of_mem _ hw))]
      | error => obtain ⟨o, ho⟩ := hn .error (List.mem_cons_self ..); cases ho
  unfold translate at h ⊢
  split at h
  · exact absurd h (status_exit 4 (by decide))
  · rename_i h1
    rw [if_neg h1]
    split at h
    · exact absurd h (status_exit 4 (by decide))
    · rename_i h2
      rw [if_neg h2]
      cases hp : parse .STRICT s.commands ⟨s.start, false⟩ with
      | raised t => rw [hp] at h; exact absurd h (hh t)
      | exited c =>
        exfalso
        have key : ∀ (l : List (M → Parsed M)) (m : M) (b : Bool) (c : Nat),
            parse .STRICT l ⟨m, b⟩ = .exited c → c = 2 := by
          intro l
          induction l with
          | nil => intro m b c h; simp [parse] at h
          | cons f l ih =>
            intro m b c h
            unfold parse at h
            cases hc : f m with
            | done m' => simp only [hc] at h; exact ih m' b c h
            | parserError m' => simp [hc] at h
            | tokenizerError m' => simp [hc] at h; exact h.symm
            | raised t => simp [hc] at h
        have := key _ _ _ _ hp
        subst this
        rw [hp] at h
        exact absurd h (status_exit 2 (by decide))
      | model r =>
        rw [hp] at h
        simp only at h ⊢
        obtain ⟨hcl, _⟩ := parse_strict_clean _ _ _ _ hp
        cases hf : s.finish r.model with
        | error t => rw [hf] at h; exact absurd h (hh t)
        | ok m' =>
          rw [hf] at h
          simp only at h ⊢
          split at h
          · exact absurd h (status_exit 5 (by decide))
          · rename_i h3
            split at h
            · exact absurd h (hh .writing)
            · rename_i h4
              split at h
              · exact absurd h (status_exit 10 (by decide))
              · rename_i h5
                have hn : NoError (s.steps m') := by
                  apply (write_strict _).mp
                  simpa [writerMode] using h4
                refine ⟨r.model, m', hcl, hf, by simpa using h3, hn, by simpa using h5, ?_⟩
                rw [if_neg h3, if_neg h4, if_neg h5]
                exact hem _ hn

/-- **C53, best effort.** Errors do not end the translation: every command is read, and everything the
writer can write is written. -/
theorem C53_best_effort {M O : Type} (input output : SolverName) (level : LogLevel) (s : Study M O)
    (hi : hasParser input = true) (ho : hasWriter output = true) (m m' : M)
    (h : Reaches s.start s.commands m) (hf : s.finish m = .ok m') :
    translate input output .BEST_EFFORT level s = (emitted (s.steps m'), .exit 0) := by
  obtain ⟨b, hp⟩ := parse_lenient .BEST_EFFORT (by decide) _ _ _ h false
  unfold translate
  rw [ho, hi, hp]
  simp only [Bool.not_true, Bool.false_eq_true, if_false, hf]
  rw [write_lenient _ (writerMode_lenient _ _ (.inl (by decide)))]
  simp

/-- **C53 is false of MESH_AT_LEAST**: the translation is the same as with BEST_EFFORT, whatever the
errors, and is not restricted to the mesh. -/
theorem C53_mesh_false {M O : Type} (input output : SolverName) (level : LogLevel) (s : Study M O) :
    translate input output .MESH_AT_LEAST level s = translate input output .BEST_EFFORT level s := by
  unfold translate
  have hw : ∀ l : List (Write O), write (writerMode output .MESH_AT_LEAST) l
      = write (writerMode output .BEST_EFFORT) l := by
    intro l
    rw [write_lenient _ (writerMode_lenient _ _ (.inl (by decide))),
      write_lenient _ (writerMode_lenient _ _ (.inl (by decide)))]
  rcases parse_mesh s.commands s.start false false with ⟨r, r', h1, h2, h3⟩ | ⟨t, h1, h2⟩
  · rw [h1, h2]
    simp only [h3, hw, reduceCtorEq, decide_false, Bool.and_false]
  · rw [h1, h2]

/-- **C53 is false of writing errors in strict mode, but for Systus**: with another output they do not
end the translation. -/
theorem C53_writing_false {M O : Type} (input output : SolverName) (level : LogLevel) (s : Study M O)
    (hi : hasParser input = true) (ho : hasWriter output = true) (hs : output ≠ .SYSTUS) (m m' : M)
    (h : parse .STRICT s.commands ⟨s.start, false⟩ = .model ⟨m, false⟩) (hf : s.finish m = .ok m')
    (hv : s.valid m' = true) (hw : s.allWritten m' = true) :
    translate input output .STRICT level s = (emitted (s.steps m'), .exit 0) := by
  unfold translate
  rw [ho, hi, h]
  simp only [Bool.not_true, Bool.false_eq_true, if_false, hf, hv, Bool.false_and, hw]
  rw [write_lenient _ (writerMode_lenient _ _ (.inr hs))]
  simp

/-- A study of two commands, the first with an error, and a writer with an error. -/
def sample (c : Nat → Parsed Nat) : Study Nat Nat :=
  ⟨0, [c, fun n => .done (n + 2)], .ok, fun _ => true, fun n => [.emit n, .error, .emit (n + 1)], fun _ => true⟩

example : FirstError (sample (fun n => .parserError (n + 1))).start
    (sample (fun n => .parserError (n + 1))).commands true := .parser rfl

example : Reaches (sample (fun n => .parserError (n + 1))).start
    (sample (fun n => .parserError (n + 1))).commands 3 := .parserError rfl (.done rfl (.nil _))

example : translate .NASTRAN .CODE_ASTER .STRICT .INFO (sample (fun n => .done (n + 1))) = ([3, 4], .exit 0) ∧
    translate .NASTRAN .SYSTUS .STRICT .INFO (sample (fun n => .done (n + 1))) = ([3], .exit 7) := by decide

example : status (translate .NASTRAN .SYSTUS .STRICT .INFO
    (⟨0, [fun n => .done (n + 1)], .ok, fun _ => true, fun n => [.emit n], fun _ => true⟩ : Study Nat Nat)).2
      = 0 := by decide

/-! ## C76: the mode asked for -/

/-- **C76, partial.** A single option, or none, gives its mode, and best effort with another option is
refused. Partial: see `C76_mesh_strict_false`. -/
theorem C76_partial : readMode false false false = .ok .BEST_EFFORT ∧ readMode true false false = .ok .BEST_EFFORT ∧
    readMode false true false = .ok .MESH_AT_LEAST ∧ readMode false false true = .ok .STRICT ∧
    ∀ mesh strict, mesh = true ∨ strict = true → readMode true mesh strict = .throw := by
  refine ⟨rfl, rfl, rfl, rfl, ?_⟩
  decide

/-- **C76 is false of the two options mesh at least and strict**: they are accepted together. -/
theorem C76_mesh_strict_false : readMode false true true = .ok .STRICT := rfl

/-! ## C77: the status of the program -/

/-- The status 4 of an invalid command line. -/
def invalidStatus : Nat := 4

/-- **C77, partial.** An unknown input format, or formats with no parser or writer, give the status of an
invalid command line when the level is below DEBUG. -/
theorem C77_partial {M O : Type} (best mesh strict : Bool) (level : LogLevel) (input output : Line)
    (s : Study M O) (mode : Mode) (out : SolverName) (hl : level.debug = false)
    (hm : readMode best mesh strict = .ok mode) (ho : Spells output out)
    (h : (∀ n, ¬ Spells input n) ∨ out = .OPTISTRUCT ∨ Spells input .CODE_ASTER ∨ Spells input .SYSTUS) :
    status (process best mesh strict level input output s).2 = invalidStatus := by
  unfold process
  rw [hm, (C52_reads output out).mpr ho]
  simp only
  by_cases hi : ∀ n, ¬ Spells input n
  · rw [C52_refused input hi]
    simp only [handler, hl]
    decide
  · push Not at hi
    obtain ⟨n, hn⟩ := hi
    rw [(C52_reads input n).mpr hn]
    simp only
    have uniq : ∀ k, Spells input k → k = n := by
      intro k hk
      have h1 := (C52_reads input k).mpr hk
      rw [(C52_reads input n).mpr hn] at h1
      injection h1 with h1
      exact h1.symm
    unfold translate
    rcases h with h | h | h | h
    · exact absurd hn (h n)
    · subst h; rfl
    · have := uniq _ h; subst this
      split <;> rfl
    · have := uniq _ h; subst this
      split <;> rfl

example : readMode false false true = .ok .STRICT ∧ Spells "optistruct".toList .OPTISTRUCT :=
  ⟨rfl, [], "optistruct".toList, [], by decide, by decide, by decide, by decide⟩

/-- **C77 is false of options refused and of unknown output formats**: they are met before the level is
known, the exception is thrown again, and the status is that of a crash. -/
theorem C77_crash_false {M O : Type} (best mesh strict : Bool) (level : LogLevel) (input output : Line)
    (s : Study M O) (h : readMode best mesh strict = .throw ∨ ∀ n, ¬ Spells output n) :
    (process best mesh strict level input output s).2 = .aborts ∧
      status (process best mesh strict level input output s).2 = 8 := by
  have : (process best mesh strict level input output s).2 = .aborts := by
    unfold process
    rcases h with h | h
    · rw [h]; rfl
    · rw [C52_refused output h]
      split <;> rfl
  exact ⟨this, by rw [this]; rfl⟩

example : readMode true true false = .throw := rfl

/-- **C77 is false of errors of the tokenizer in strict mode**: the status is the one of a missing input
file, 2, and not the one of a parsing error, 6. -/
theorem C77_tokenizer_false {M O : Type} (input output : SolverName) (level : LogLevel) (s : Study M O)
    (hi : hasParser input = true) (ho : hasWriter output = true) (h : FirstError s.start s.commands false) :
    status (translate input output .STRICT level s).2 = 2 := by
  unfold translate
  rw [ho, hi, parse_strict_error _ _ _ _ h]
  rfl

/-- **C77, parsing.** An error told by the parser in strict mode gives the status of a parsing error, when
the level is below DEBUG. -/
theorem C77_parser {M O : Type} (input output : SolverName) (level : LogLevel) (s : Study M O)
    (hl : level.debug = false) (hi : hasParser input = true) (ho : hasWriter output = true)
    (h : FirstError s.start s.commands true) : status (translate input output .STRICT level s).2 = 6 := by
  unfold translate
  rw [ho, hi, parse_strict_error _ _ _ _ h]
  simp only [Bool.not_true, Bool.false_eq_true, if_false, if_true, handler, hl]
  rfl

end CliSpec
end Vega
