import Verif.Commandline.Runs
import Verif.Commandline.SolverProps

/-! # C152: the files of a translation are those that are run, and a run is judged by its own results -/
namespace Vega
namespace RunsSpec
open Nastran (Line)
open Runs (File Dir Solver)

/-- The name of a file without its extension, that is what follows the last point. -/
def Stem (name stem : Line) : Prop :=
  name ≠ [] ∧ (('.' ∉ name ∧ stem = name) ∨ ∃ ext, '.' ∉ ext ∧ name = stem ++ '.' :: ext)

/-- Words with a blank between them. -/
def sentence : List Line → Line
  | [] => []
  | [w] => w
  | w :: v :: r => w ++ ' ' :: sentence (v :: r)

/-- A word of a command. -/
def Word (w : Line) : Prop := w ≠ [] ∧ ' ' ∉ w

instance (w : Line) : Decidable (Word w) := inferInstanceAs (Decidable (_ ∧ _))

/-- The results of a run of Code_Aster on the study of a name. -/
def AsterResult (stem name : Line) : Prop :=
  ∃ e ∈ [".mess".toList, ".resu".toList, ".rmed".toList, ".stdout".toList, ".stderr".toList], name = stem ++ e

instance (stem name : Line) : Decidable (AsterResult stem name) := inferInstanceAs (Decidable (∃ e ∈ _, _))

/-- A result of Systus whose name begins so. -/
def SystusResult (pre name : Line) : Prop :=
  pre <+: name ∧ (".TIT".toList <:+ name ∨ ".fdb".toList <:+ name ∨ ".RESU".toList <:+ name)

instance (pre name : Line) : Decidable (SystusResult pre name) := inferInstanceAs (Decidable (_ ∧ _))

/-- The solver leaves a file as it is. -/
def Leaves (solver : Solver) (name : Line) : Prop := ∀ cmd d, Runs.lookup (solver cmd d).2 name = Runs.lookup d name

end RunsSpec

namespace Runs
open Nastran (Line)
open RunsSpec
open Cli (RunnerCode asterRun systusResults convertExecResult)
open CliSpec (C75_aster results_ok)

/-! ## Names -/

theorem strip_ext (stem ext : Line) (h : '.' ∉ ext) : strip (stem ++ '.' :: ext) = stem := by
  rw [strip, if_pos (by simp)]
  have h1 : (stem ++ '.' :: ext).reverse = ext.reverse ++ ('.' :: stem.reverse) := by simp
  rw [h1, List.dropWhile_append_of_pos (by
    intro x hx
    rw [List.mem_reverse] at hx
    simpa using fun e : x = '.' => h (e ▸ hx))]
  simp

theorem strip_stem {name stem : Line} (h : Stem name stem) : strip name = stem := by
  obtain ⟨_, ⟨h1, rfl⟩ | ⟨ext, h1, rfl⟩⟩ := h
  · rw [strip, if_neg h1]
  · exact strip_ext stem ext h1

theorem base_stem {name stem other : Line} (h : Stem name stem) : baseName other name = stem := by
  rw [baseName, if_neg (by simpa using h.1), strip_stem h]

/-- C152: the files written for Code_Aster have the name of the model without its extension; the commands and the mesh that the export
file asks for are those that are written, and the result that is judged after the run is the one the export file asks for. -/
theorem C152_aster_names {name stem : Line} (h : Stem name stem) :
    asterWrites name = [stem ++ ".export".toList, stem ++ ".comm".toList, stem ++ ".med".toList] ∧
    (∀ e ∈ asterExport name, e.2.2.1 = false → e.2.1 ∈ asterWrites name) ∧
    strip (asterName name ".export".toList) = stem ∧
    ("resu".toList, strip (asterName name ".export".toList) ++ ".resu".toList, true, 8) ∈ asterExport name := by
  have hb : ∀ ext, asterName name ext = stem ++ ext := fun ext => by rw [asterName, base_stem h]
  have hs : strip (asterName name ".export".toList) = stem := by
    rw [hb]
    exact strip_ext stem "export".toList (by decide)
  refine ⟨by simp only [asterWrites, hb], ?_, hs, ?_⟩
  · intro e he hr
    simp only [asterExport, List.mem_cons, List.not_mem_nil, or_false] at he
    rcases he with rfl | rfl | rfl | rfl | rfl
    · exact List.mem_cons_of_mem _ (by simp)
    · exact List.mem_cons_of_mem _ (by simp)
    · exact absurd hr (by simp)
    · exact absurd hr (by simp)
    · exact absurd hr (by simp)
  · rw [hs]
    simp only [asterExport, hb]
    exact List.mem_cons_of_mem _ (List.mem_cons_of_mem _ (List.mem_cons_of_mem _ List.mem_cons_self))

theorem beforeAll_stem : ∀ {stem : Line}, ¬ "_ALL".toList <:+: stem ++ "_AL".toList → beforeAll (stem ++ "_ALL".toList) = stem
  | [], _ => by decide
  | c :: t, h => by
    have hp : "_ALL".toList.isPrefixOf (c :: (t ++ "_ALL".toList)) = false := by
      rw [← Bool.not_eq_true, List.isPrefixOf_iff_prefix]
      intro hp
      apply h
      have hle : "_ALL".toList.length ≤ ((c :: t) ++ "_AL".toList).length := by simp
      have hpre : (c :: t) ++ "_AL".toList <+: (c :: t) ++ "_ALL".toList := by
        rw [List.prefix_append_right_inj]
        exact ⟨"L".toList, rfl⟩
      exact (List.prefix_of_prefix_length_le hp hpre hle).isInfix
    have ht : ¬ "_ALL".toList <:+: t ++ "_AL".toList := fun hi => h (by
      rw [List.cons_append]
      exact List.infix_cons hi)
    rw [List.cons_append, beforeAll, hp, if_neg (by simp), beforeAll_stem ht]

/-- C152: the files written for Systus have the name of the model without its extension, the file of all subcases asks for the data files
that are written, and the runner knows the name of the model, if `_ALL` is not in it. -/
theorem C152_systus_names_partial {name stem : Line} (h : Stem name stem) (n : Nat) :
    (∀ f ∈ systusWrites true name n, ∃ ext, f = stem ++ ext) ∧ (∀ f ∈ systusReads name n, f ∈ systusWrites true name n) ∧
    (systusReads name n).length = n ∧
    (¬ "_ALL".toList <:+: stem ++ "_AL".toList → beforeAll (strip (systusName name "_ALL.DAT".toList)) = stem) := by
  have hb : ∀ ext, systusName name ext = stem ++ ext := fun ext => by rw [systusName, base_stem h]
  refine ⟨?_, ?_, by simp [systusReads], ?_⟩
  · intro f hf
    simp only [systusWrites, if_true, List.mem_append, List.mem_flatMap, List.mem_cons, List.not_mem_nil, or_false, hb] at hf
    rcases hf with rfl | ⟨i, _, rfl | rfl⟩ <;> exact ⟨_, rfl⟩
  · intro f hf
    obtain ⟨i, hi, rfl⟩ := List.mem_map.mp hf
    exact List.mem_append_right _ (List.mem_flatMap.mpr ⟨i, hi, by simp⟩)
  · intro ha
    have e : systusName name "_ALL.DAT".toList = (stem ++ "_ALL".toList) ++ '.' :: "DAT".toList := by
      rw [hb, List.append_assoc]; rfl
    rw [e, strip_ext _ _ (by decide)]
    exact beforeAll_stem ha

example : Stem "wing.v2.nas".toList "wing.v2".toList ∧ ¬ "_ALL".toList <:+: "wing.v2".toList ++ "_AL".toList ∧
    systusReads "wing.v2.nas".toList 2 = ["wing.v2_SC1.DAT".toList, "wing.v2_SC2.DAT".toList] :=
  ⟨⟨by decide +kernel, .inr ⟨"nas".toList, by decide +kernel, by decide +kernel⟩⟩, by decide +kernel, by decide +kernel⟩

/-- C152: no writer writes over the file of the model, unless it has the extension of a file of Code_Aster. -/
theorem C152_input {name stem : Line} (h : Stem name stem)
    (hext : ∀ e ∈ [".export".toList, ".comm".toList, ".med".toList], name ≠ stem ++ e) (systus : Bool) (n : Nat) :
    name ∉ asterWrites name ∧ name ∉ systusWrites systus name n ∧ name ∉ nastranWrites name := by
  have key : ∀ (c : Char) (ext : Line), c ≠ '.' → name ≠ stem ++ c :: ext := by
    intro c ext hc he
    obtain ⟨_, ⟨_, rfl⟩ | ⟨x, _, rfl⟩⟩ := h
    · have := congrArg List.length he
      simp at this
    · have := List.append_cancel_left he
      exact hc (List.cons.inj this).1.symm
  have hb : ∀ other, baseName other name = stem := fun other => base_stem h
  refine ⟨?_, ?_, ?_⟩
  · intro hm
    rw [(C152_aster_names h).1] at hm
    simp only [List.mem_cons, List.not_mem_nil, or_false] at hm
    rcases hm with hm | hm | hm <;> exact hext _ (by simp) hm
  · intro hm
    simp only [systusWrites, systusName, hb, List.mem_append, List.mem_flatMap, List.mem_cons, List.not_mem_nil, or_false] at hm
    rcases hm with hm | ⟨i, _, hm | hm⟩
    · split at hm
      · rw [List.mem_singleton] at hm
        exact key '_' "ALL.DAT".toList (by decide) hm
      · exact absurd hm (by simp)
    · exact key '_' ("SC".toList ++ number (i + 1) ++ "_DATA1.ASC".toList) (by decide) hm
    · exact key '_' ("SC".toList ++ number (i + 1) ++ ".DAT".toList) (by decide) hm
  · intro hm
    simp only [nastranWrites, hb, List.mem_singleton] at hm
    exact key '_' "vg.nas".toList (by decide) hm

/-- C152 is false for two models whose names differ by their extension only (`wing.nas` and `wing.bdf`): the second translation writes
over the first. -/
theorem C152_same_false {name other stem : Line} (h : Stem name stem) (h' : Stem other stem) (systus : Bool) (n : Nat) :
    asterWrites name = asterWrites other ∧ systusWrites systus name n = systusWrites systus other n ∧
      nastranWrites name = nastranWrites other := by
  have e : ∀ o, baseName o name = baseName o other := fun o => by rw [base_stem h, base_stem h']
  simp [asterWrites, asterName, systusWrites, systusName, nastranWrites, e]

/-! ## Code_Aster -/

theorem lookup_filter {p : Line × File → Bool} {m : Line} : ∀ {d : Dir}, (∀ f, (m, f) ∈ d → p (m, f) = false) →
    lookup (d.filter p) m = none
  | [], _ => rfl
  | (n, f) :: d, h => by
    have ih := lookup_filter (p := p) (m := m) (d := d) (fun f hf => h f (by simp [hf]))
    rw [List.filter_cons]
    split
    · rename_i hp
      rw [lookup, if_neg, ih]
      rintro rfl
      rw [h f (by simp)] at hp
      exact absurd hp (by simp)
    · exact ih

theorem isResult_iff {stem name : Line} : (asterResults.map (stem ++ ·)).contains name = true ↔ AsterResult stem name := by
  rw [List.contains_iff_mem, List.mem_map]
  constructor
  · rintro ⟨e, he, rfl⟩; exact ⟨e, he, rfl⟩
  · rintro ⟨e, he, rfl⟩; exact ⟨e, he, rfl⟩

theorem deletePrevious_eq {stem : Line} {d : Dir} (h : ∀ p ∈ d, AsterResult stem p.1 → p.2.removable = true) :
    deletePrevious stem asterResults d = d.filter fun p => decide (¬ AsterResult stem p.1) := by
  refine List.filter_congr fun p hp => ?_
  by_cases hr : AsterResult stem p.1
  · rw [isResult_iff.mpr hr, h p hp hr]
    simp [hr]
  · have : (asterResults.map (stem ++ ·)).contains p.1 = false := by
      rw [← Bool.not_eq_true, isResult_iff]; exact hr
    rw [this]
    simp [hr]

theorem deletePrevious_idem {stem : Line} {d : Dir} :
    deletePrevious stem asterResults (d.filter fun p => decide (¬ AsterResult stem p.1)) =
      d.filter fun p => decide (¬ AsterResult stem p.1) := by
  rw [deletePrevious_eq]
  · rw [List.filter_filter]
    simp
  · intro p hp hr
    have := (List.mem_filter.mp hp).2
    exact absurd hr (of_decide_eq_true this)

/-- C152: if the results of earlier runs can be removed, a run of Code_Aster is reported, and leaves the directory, as if there had been
none of them, whatever the solver does. -/
theorem C152_aster_fresh_partial (c : Config) (solver : Solver) (full stem : Line) (d : Dir)
    (h : ∀ p ∈ d, AsterResult stem p.1 → p.2.removable = true) :
    asterExec c solver full (stem ++ ".export".toList) d =
      asterExec c solver full (stem ++ ".export".toList) (d.filter fun p => decide (¬ AsterResult stem p.1)) := by
  have hs : strip (stem ++ ".export".toList) = stem := strip_ext stem "export".toList (by decide)
  simp only [asterExec, hs, deletePrevious_eq h, deletePrevious_idem]

/-- C152: it is no success then if the solver does not write the file of results. -/
theorem C152_aster_idle_partial (c : Config) (solver : Solver) (full stem : Line) (d : Dir)
    (h : ∀ p ∈ d, AsterResult stem p.1 → p.2.removable = true) (hs : Leaves solver (stem ++ ".resu".toList)) :
    (asterExec c solver full (stem ++ ".export".toList) d).1 ≠ .ok .OK := by
  have hst : strip (stem ++ ".export".toList) = stem := strip_ext stem "export".toList (by decide)
  simp only [asterExec, hst, deletePrevious_eq h]
  split
  · rw [hs, lookup_filter (fun f _ => by
      rw [decide_eq_false_iff_not, not_not]
      exact ⟨".resu".toList, by simp, rfl⟩)]
    intro he
    obtain ⟨_, l, hl, _⟩ := (C75_aster _ _).mp (Outcome.ok.inj he)
    simp at hl
  · simp

/-- The results of an earlier run, a solver that does nothing. -/
example : (asterExec ⟨[], [], ".".toList⟩ (fun _ d => (0, d)) "/out/wing.export".toList "wing.export".toList
    [("wing.resu".toList, ⟨["OK".toList], true, true⟩), ("wing.comm".toList, ⟨[], true, true⟩)]) =
    (.ok .SOLVER_RESULT_NOT_FOUND, [("wing.comm".toList, ⟨[], true, true⟩)]) := by decide +kernel

/-- C152 is false when an earlier file of results cannot be removed: it is judged in place of that of the run, with a message only, and
the run of a solver that does nothing is a success. -/
theorem C152_stale_false (stem full path : Line) (f : File) (hf : f.removable = false) (hok : ∀ l ∈ f.lines, ¬ "NOOK".toList <:+: l) :
    (asterExec ⟨[], [], path⟩ (fun _ d => (0, d)) full (stem ++ ".export".toList) [(stem ++ ".resu".toList, f)]).1 = .ok .OK := by
  have hs : strip (stem ++ ".export".toList) = stem := strip_ext stem "export".toList (by decide)
  have hd : deletePrevious stem asterResults [(stem ++ ".resu".toList, f)] = [(stem ++ ".resu".toList, f)] := by
    simp [deletePrevious, hf]
  simp only [asterExec, hs, hd]
  rw [if_pos (.inl rfl)]
  show Outcome.ok _ = _
  congr 1
  rw [C75_aster]
  refine ⟨by decide, f.lines, by simp [lookup], hok⟩

/-- C152 is false for a server other than the local one: the results of earlier runs are removed before the error. -/
theorem C152_remote_false (c : Config) (hc : c.server ≠ [] ∧ c.server ≠ "localhost".toList ∧ c.server ≠ "127.0.0.1".toList)
    (solver : Solver) (full stem : Line) (d : Dir) (h : ∀ p ∈ d, AsterResult stem p.1 → p.2.removable = true) :
    asterExec c solver full (stem ++ ".export".toList) d = (.throw, d.filter fun p => decide (¬ AsterResult stem p.1)) := by
  have hs : strip (stem ++ ".export".toList) = stem := strip_ext stem "export".toList (by decide)
  simp only [asterExec, hs, deletePrevious_eq h]
  rw [if_neg]
  rintro (h | h | h)
  · exact hc.1 (by simpa using h)
  · exact hc.2.1 h
  · exact hc.2.2 h

/-! ## Commands -/

theorem sentence_append : ∀ {a b : List Line}, a ≠ [] → b ≠ [] → sentence (a ++ b) = sentence a ++ ' ' :: sentence b
  | [], _, h, _ => absurd rfl h
  | [w], [], _, h => absurd rfl h
  | [w], v :: r, _, _ => rfl
  | w :: v :: r, b, _, hb => by
    have := sentence_append (a := v :: r) (b := b) (by simp) hb
    simp only [List.cons_append] at this ⊢
    rw [sentence, this]
    simp [sentence]

/-- C152: the command for Code_Aster changes to the output directory and runs the solver on the export file, if there is no blank in their
names: these are its words. -/
theorem C152_command_partial (c : Config) (full fname : Line) (hc : c.path ≠ ".".toList) (h0 : c.command = [])
    (h1 : Word c.path) (h2 : Word full) (h3 : Word fname) :
    asterCommand c full fname = sentence ["cd".toList, c.path, "&&".toList, "as_run".toList, full, ">".toList,
      fname ++ ".stdout".toList, "2>".toList, fname ++ ".stderr".toList] ∧
    ∀ w ∈ ["cd".toList, c.path, "&&".toList, "as_run".toList, full, ">".toList, fname ++ ".stdout".toList, "2>".toList,
      fname ++ ".stderr".toList], Word w := by
  constructor
  · simp only [asterCommand, h0, List.isEmpty_nil, if_true, if_pos hc]
    simp [sentence, List.append_assoc]
  · intro w hw
    simp only [List.mem_cons, List.not_mem_nil, or_false] at hw
    rcases hw with rfl | rfl | rfl | rfl | rfl | rfl | rfl | rfl | rfl
    · decide
    · exact h1
    · decide
    · decide
    · exact h2
    · decide
    · exact ⟨by simp, by simpa using h3.2⟩
    · decide
    · exact ⟨by simp, by simpa using h3.2⟩

/-- C152 is false for an output directory with a blank in its name: it is not put between quotes, and the command changes to its first
word. -/
theorem C152_command_false (a b full fname : Line) (_ : Word a) (_ : Word b) :
    ∃ rest, asterCommand ⟨[], [], a ++ ' ' :: b⟩ full fname = sentence ["cd".toList, a, b, "&&".toList] ++ rest := by
  have hne : a ++ ' ' :: b ≠ ".".toList := by
    intro e
    have : ' ' ∈ ".".toList := e ▸ (by simp)
    exact absurd this (by decide)
  simp only [asterCommand, if_pos hne]
  exact ⟨_, by simp [sentence, List.append_assoc]; rfl⟩

/-! ## Systus -/

theorem oldResult_iff {pre name : Line} : oldResult pre name = true ↔ SystusResult pre name := by
  simp only [oldResult, SystusResult, Bool.and_eq_true, Bool.or_eq_true, List.isPrefixOf_iff_prefix, List.isSuffixOf_iff_suffix,
    or_assoc]

theorem oldData_iff {name : Line} : oldData name = true ↔ "SYSTUS".toList <+: name ∧ ".DAT".toList <:+ name := by
  simp only [oldData, Bool.and_eq_true, List.isPrefixOf_iff_prefix, List.isSuffixOf_iff_suffix]

/-- What is removed. -/
def Old (pre : Line) (p : Line × File) : Prop :=
  p.2.regular = true ∧ (SystusResult pre p.1 ∨ ("SYSTUS".toList <+: p.1 ∧ ".DAT".toList <:+ p.1))

instance (pre : Line) (p : Line × File) : Decidable (Old pre p) := inferInstanceAs (Decidable (_ ∧ _))

theorem old_iff {pre : Line} {p : Line × File} : (p.2.regular && (oldResult pre p.1 || oldData p.1)) = true ↔ Old pre p := by
  rw [Bool.and_eq_true, Bool.or_eq_true, oldResult_iff, oldData_iff, Old]

theorem systusClean_eq {pre : Line} : ∀ {d : Dir}, (∀ p ∈ d, Old pre p → p.2.removable = true) →
    systusClean pre d = .ok (d.filter fun p => decide (¬ Old pre p))
  | [], _ => rfl
  | (n, f) :: d, h => by
    have ih := systusClean_eq (pre := pre) (d := d) (fun p hp => h p (by simp [hp]))
    rw [systusClean]
    by_cases ho : Old pre (n, f)
    · have hr : f.removable = true := h (n, f) (by simp) ho
      rw [if_pos (old_iff.mpr ho), if_pos hr, ih, List.filter_cons, if_neg (by simpa using ho)]
    · rw [if_neg (fun e => ho (old_iff.mp e)), ih, List.filter_cons, if_pos (by simpa using ho)]

/-- C152: if the results of earlier runs can be removed, a run of Systus is reported as if there had been none of them, whatever the
solver does. -/
theorem C152_systus_fresh_partial (systus : Bool) (path : Line) (solver : Solver) (full all : Line) (d : Dir)
    (h : ∀ p ∈ d, Old (beforeAll (strip all)) p → p.2.removable = true) :
    systusExec systus path solver full all d = systusExec systus path solver full all
      (d.filter fun p => decide (¬ (p.2.regular = true ∧ SystusResult (beforeAll (strip all)) p.1))) := by
  have h2 : ∀ p ∈ d.filter fun p => decide (¬ (p.2.regular = true ∧ SystusResult (beforeAll (strip all)) p.1)),
      Old (beforeAll (strip all)) p → p.2.removable = true := fun p hp => h p (List.mem_filter.mp hp).1
  have he : (d.filter fun p => decide (¬ (p.2.regular = true ∧ SystusResult (beforeAll (strip all)) p.1))).filter
      (fun p => decide (¬ Old (beforeAll (strip all)) p)) = d.filter fun p => decide (¬ Old (beforeAll (strip all)) p) := by
    rw [List.filter_filter]
    refine List.filter_congr fun p _ => ?_
    by_cases ho : Old (beforeAll (strip all)) p
    · simp [ho]
    · have : ¬ (p.2.regular = true ∧ SystusResult (beforeAll (strip all)) p.1) := fun hr => ho ⟨hr.1, .inl hr.2⟩
      simp [ho, this]
  simp only [systusExec, systusClean_eq h, systusClean_eq h2, he]

/-- C152: with the product systus it is no success then if the solver adds no file of results. -/
theorem C152_systus_idle_partial (path : Line) (solver : Solver) (full all : Line) (d : Dir)
    (h : ∀ p ∈ d, Old (beforeAll (strip all)) p → p.2.removable = true)
    (hs : ∀ cmd d, ∀ p ∈ (solver cmd d).2, SystusResult (beforeAll (strip all)) p.1 → p ∈ d) :
    systusExec true path solver full all d ≠ .ok .OK := by
  simp only [systusExec, systusClean_eq h, if_true]
  intro he
  have hr := (results_ok _ _ _).mp (Outcome.ok.inj he)
  have hno : ∀ ext, (ext = ".TIT".toList ∨ ext = ".fdb".toList) → ∀ cmd,
      ((solver cmd (d.filter fun p => decide (¬ Old (beforeAll (strip all)) p))).2.any fun p =>
        p.2.regular && ext.isSuffixOf p.1 && (beforeAll (strip all)).isPrefixOf p.1) = false := by
    intro ext hext cmd
    rw [List.any_eq_false]
    intro p hp hb
    rw [Bool.and_eq_true, Bool.and_eq_true, List.isSuffixOf_iff_suffix, List.isPrefixOf_iff_prefix] at hb
    have hres : SystusResult (beforeAll (strip all)) p.1 := by
      refine ⟨hb.2, ?_⟩
      rcases hext with rfl | rfl
      · exact .inl hb.1.2
      · exact .inr (.inl hb.1.2)
    have := (List.mem_filter.mp (hs _ _ p hp hres)).2
    exact absurd ⟨hb.1.1, .inl hres⟩ (of_decide_eq_true this)
  simp only [filesOf, hno _ (.inl rfl), hno _ (.inr rfl)] at hr
  simp at hr

/-- C152 is false for a model whose name begins with `SYSTUS`: the data files that have just been written are taken for files of an
earlier run and removed before the solver is run on them. -/
theorem C152_deleted_false (pre : Line) (d e : Dir) (h : systusClean pre d = .ok e) (x : Line) (n : Nat) (f : File)
    (hf : f.regular = true) : ("SYSTUS".toList ++ x ++ "_ALL.DAT".toList, f) ∉ e ∧
      ("SYSTUS".toList ++ x ++ "_SC".toList ++ number n ++ ".DAT".toList, f) ∉ e := by
  have key : ∀ {d e : Dir}, systusClean pre d = .ok e → ∀ p ∈ e, ¬ Old pre p := by
    intro d
    induction d with
    | nil => intro e he p hp; obtain rfl := Outcome.ok.inj he; simp at hp
    | cons q d ih =>
      obtain ⟨n, f⟩ := q
      intro e he p hp
      rw [systusClean] at he
      split at he
      · split at he
        · exact ih he p hp
        · exact absurd he (by simp)
      · rename_i ho
        cases hc : systusClean pre d with
        | ok e' =>
          rw [hc] at he
          obtain rfl := Outcome.ok.inj he
          rcases List.mem_cons.mp hp with rfl | hp
          · exact fun hold => ho (old_iff.mpr hold)
          · exact ih hc p hp
        | throw => rw [hc] at he; exact absurd he (by simp)
        | ub => rw [hc] at he; exact absurd he (by simp)
        | diverges => rw [hc] at he; exact absurd he (by simp)
  constructor
  · intro hm
    refine key h _ hm ⟨hf, .inr ⟨?_, ?_⟩⟩
    · exact ⟨x ++ "_ALL.DAT".toList, by simp⟩
    · exact ⟨"SYSTUS".toList ++ x ++ "_ALL".toList, by simp⟩
  · intro hm
    refine key h _ hm ⟨hf, .inr ⟨?_, List.suffix_append _ _⟩⟩
    exact ⟨x ++ "_SC".toList ++ number n ++ ".DAT".toList, by simp⟩

/-- All of it for such a model of one subcase, with the product topaze: nothing is run, and the exit code has no value. -/
example : systusExec false ".".toList (fun _ d => (0, d)) "/out/SYSTUS_1_ALL.DAT".toList "SYSTUS_1_ALL.DAT".toList
    [("SYSTUS_1_SC1.DAT".toList, ⟨[], true, true⟩), ("SYSTUS_1_SC1_DATA1.ASC".toList, ⟨[], true, true⟩)] = .ub := by decide +kernel

/-- The same with another name. -/
example : systusExec false ".".toList (fun _ d => (0, d)) "/out/wing_ALL.DAT".toList "wing_ALL.DAT".toList
    [("wing_SC1.DAT".toList, ⟨[], true, true⟩), ("wing_SC1_DATA1.ASC".toList, ⟨[], true, true⟩)] = .ok .OK := by decide +kernel

/-- C152 is false for the results of other models whose names begin with that of the model (`wing` and `wing2`): they are removed. -/
theorem C152_others_false (stem x : Line) (d : Dir) (h : ∀ p ∈ d, Old stem p → p.2.removable = true) :
    ∃ e, systusClean stem d = .ok e ∧ ∀ f, f.regular = true → (stem ++ x ++ ".RESU".toList, f) ∉ e := by
  refine ⟨_, systusClean_eq h, fun f hf hm => ?_⟩
  have := (List.mem_filter.mp hm).2
  exact absurd ⟨hf, .inl ⟨⟨x ++ ".RESU".toList, by simp⟩, .inr (.inr (List.suffix_append _ _))⟩⟩ (of_decide_eq_true this)

example : systusClean "wing".toList [("wing2_SC1.RESU".toList, ⟨[], true, true⟩), ("tail.RESU".toList, ⟨[], true, true⟩)] =
    .ok [("tail.RESU".toList, ⟨[], true, true⟩)] := by decide +kernel

theorem topazeLoop_fails (path fname stale : Line) : ∀ {files : List Line} (_ : stale ∈ files) (c : Option RunnerCode) (d : Dir),
    topazeLoop path fname (fun cmd d => (if cmd = systusCommand path stale fname then 256#32 else 0#32, d)) files c d =
      (some .SOLVER_EXIT_NOT_ZERO, true, d)
  | [], h, _, _ => absurd h (by simp)
  | n :: rest, h, c, d => by
    rw [topazeLoop]
    simp only
    by_cases he : systusCommand path n fname = systusCommand path stale fname
    · rw [if_pos he]
      have : convertExecResult 256#32 = .SOLVER_EXIT_NOT_ZERO := by decide
      simp [this]
    · rw [if_neg he]
      have : convertExecResult 0#32 = .OK := by decide
      rw [if_pos this]
      rcases List.mem_cons.mp h with rfl | h
      · exact absurd rfl he
      · exact topazeLoop_fails path fname stale h _ d

/-- C152 is false for the product topaze: every data file whose name begins with that of the model is run, also that of a subcase of an
earlier translation (`wing_SC3.DAT`, when there are but two subcases now) or of another model (`wing2_SC1.DAT`). A solver that fails on
it alone makes the run fail. -/
theorem C152_topaze_false (path full all stale : Line) (f : File) (d : Dir)
    (h : ∀ p ∈ d, Old (beforeAll (strip all)) p → p.2.removable = true) (hm : (stale, f) ∈ d) (hf : f.regular = true)
    (h1 : beforeAll (strip all) <+: stale) (h2 : ".DAT".toList <:+ stale) (h3 : ¬ "SYSTUS".toList <+: stale) :
    systusExec false path (fun cmd d => (if cmd = systusCommand path stale (strip all) then 256#32 else 0#32, d)) full all d =
      .ok .SOLVER_EXIT_NOT_ZERO := by
  have hold : ¬ Old (beforeAll (strip all)) (stale, f) := by
    rintro ⟨_, ⟨_, hr⟩ | ⟨hr, _⟩⟩
    · have hsuf : ∀ a b : Line, a.length ≤ b.length → a <:+ stale → b <:+ stale → a <:+ b := fun a b hl ha hb =>
        List.suffix_of_suffix_length_le ha hb hl
      rcases hr with hr | hr | hr
      · exact absurd (hsuf _ _ (by decide) hr h2) (by decide)
      · exact absurd (hsuf _ _ (by decide) hr h2) (by decide)
      · exact absurd (hsuf _ _ (by decide) h2 hr) (by decide)
    · exact h3 hr
  have hmem : stale ∈ dataFiles (beforeAll (strip all)) (d.filter fun p => decide (¬ Old (beforeAll (strip all)) p)) := by
    refine List.mem_map.mpr ⟨(stale, f), List.mem_filter.mpr ⟨List.mem_filter.mpr ⟨hm, by simpa using hold⟩, ?_⟩, rfl⟩
    rw [Bool.and_eq_true, Bool.and_eq_true, List.isSuffixOf_iff_suffix, List.isPrefixOf_iff_prefix]
    exact ⟨⟨hf, h2⟩, h1⟩
  simp only [systusExec, systusClean_eq h, Bool.false_eq_true, if_false, topazeLoop_fails path (strip all) stale hmem]

/-- A directory with such a file. -/
example : dataFiles "wing".toList [("wing_SC1.DAT".toList, ⟨[], true, true⟩), ("wing_SC3.DAT".toList, ⟨[], true, true⟩),
    ("tail_SC1.DAT".toList, ⟨[], true, true⟩)] = ["wing_SC1.DAT".toList, "wing_SC3.DAT".toList] := by decide +kernel

/-- C152 is false for the errors of a subcase that is not the last one, with the product topaze: the standard output of every run is
written over that of the run before, and only the last is looked at. -/
theorem C152_output_false : ∃ (solver : Solver) (d : Dir),
    -- the solver prints an error for the first subcase and none for the second
    (∀ d, lookup (solver (systusCommand ".".toList "wing_SC1.DAT".toList "wing_ALL".toList) d).2 "wing_ALL.stdout".toList =
      some ⟨["ERROR".toList], true, true⟩) ∧
    (∀ d, lookup (solver (systusCommand ".".toList "wing_SC2.DAT".toList "wing_ALL".toList) d).2 "wing_ALL.stdout".toList =
      some ⟨["END".toList], true, true⟩) ∧
    d = [("wing_SC1.DAT".toList, ⟨[], true, true⟩), ("wing_SC2.DAT".toList, ⟨[], true, true⟩)] ∧
    systusExec false ".".toList solver "/out/wing_ALL.DAT".toList "wing_ALL.DAT".toList d = .ok .OK := by
  refine ⟨fun cmd d => (0, ("wing_ALL.stdout".toList, ⟨[if cmd = systusCommand ".".toList "wing_SC1.DAT".toList "wing_ALL".toList then
    "ERROR".toList else "END".toList], true, true⟩) :: d), _, ?_, ?_, rfl, by decide +kernel⟩
  · intro d
    simp only [lookup, if_true]
  · intro d
    have : systusCommand ".".toList "wing_SC2.DAT".toList "wing_ALL".toList ≠
        systusCommand ".".toList "wing_SC1.DAT".toList "wing_ALL".toList := by decide +kernel
    simp only [lookup, if_true, if_neg this]

/-- The directories, one after the other, of runs of the solver on some data files: every run begins with what the one before has left. -/
def after (path fname : Line) (solver : Solver) (ns : List Line) (d : Dir) : Dir :=
  ns.foldl (fun d n => (solver (systusCommand path n fname) d).2) d

theorem topazeLoop_done (path fname : Line) (solver : Solver) : ∀ (ns : List Line) (c : Option RunnerCode) (d : Dir),
    (∀ k n, ns[k]? = some n → convertExecResult (solver (systusCommand path n fname) (after path fname solver (ns.take k) d)).1 = .OK) →
    topazeLoop path fname solver ns c d = (if ns = [] then c else some .OK, false, after path fname solver ns d)
  | [], c, d, _ => by simp [topazeLoop, after]
  | n :: ns, c, d, h => by
    have h0 := h 0 n rfl
    simp only [List.take_zero, after, List.foldl_nil] at h0
    simp only [topazeLoop, h0, if_true]
    rw [topazeLoop_done path fname solver ns _ _ fun k m hk => by simpa [after] using h (k + 1) m hk]
    simp [after]

/-- The files of a model that is run: those whose names begin with its own. -/
def Own (pre : Line) (p : Line × File) : Prop := pre <+: p.1

instance (pre : Line) (p : Line × File) : Decidable (Own pre p) := inferInstanceAs (Decidable (_ <+: _))

theorem lookup_own {pre : Line} (n : Line) (hn : pre <+: n) : ∀ d : Dir, lookup (d.filter fun p => decide (Own pre p)) n = lookup d n
  | [] => rfl
  | (m, f) :: d => by
    by_cases h : Own pre (m, f)
    · rw [List.filter_cons_of_pos (by simpa using h), lookup, lookup, lookup_own n hn d]
    · rw [List.filter_cons_of_neg (by simpa using h), lookup, lookup_own n hn d, if_neg]
      rintro rfl
      exact h hn

theorem beforeAll_prefix : ∀ l : Line, beforeAll l <+: l
  | [] => by simp [beforeAll]
  | c :: t => by
    rw [beforeAll]
    split
    · simp
    · exact List.cons_prefix_cons.mpr ⟨rfl, beforeAll_prefix t⟩

/-- C152, results: a run is judged by files of its own: the other files of the directory are the same to it. -/
theorem C152_own (fname : Line) (d : Dir) :
    filesOf (beforeAll fname) fname (d.filter fun p => decide (Own (beforeAll fname) p)) = filesOf (beforeAll fname) fname d := by
  have hl := lookup_own (pre := beforeAll fname) (fname ++ ".stdout".toList)
    ((beforeAll_prefix fname).trans (List.prefix_append _ _)) d
  have hs : ∀ x : Line, (fun p : Line × File => (p.2.regular && x.isSuffixOf p.1 && (beforeAll fname).isPrefixOf p.1) &&
      decide (Own (beforeAll fname) p)) = fun p => p.2.regular && x.isSuffixOf p.1 && (beforeAll fname).isPrefixOf p.1 := by
    intro x
    funext p
    have : decide (Own (beforeAll fname) p) = (beforeAll fname).isPrefixOf p.1 := by
      rw [Bool.eq_iff_iff, decide_eq_true_iff, List.isPrefixOf_iff_prefix]
      rfl
    rw [this, Bool.and_assoc _ _ ((beforeAll fname).isPrefixOf p.1), Bool.and_self]
  have hany : ∀ x : Line, (d.filter fun p => decide (Own (beforeAll fname) p)).any
      (fun p => p.2.regular && x.isSuffixOf p.1 && (beforeAll fname).isPrefixOf p.1) =
      d.any fun p => p.2.regular && x.isSuffixOf p.1 && (beforeAll fname).isPrefixOf p.1 := by
    intro x
    rw [List.any_filter]
    congr 1
    rw [← hs x]
    funext p
    rw [Bool.and_comm]
  unfold filesOf
  rw [hl, hany, hany, List.filter_filter, hs]

/-- C152, product topaze: when the solver ends well on every data file, each run begins with the directory left by the one before, and the
results are looked for in what the last one has left. Without a data file there is no status to report: undefined behaviour. -/
theorem C152_topaze (path full all : Line) (solver : Solver) (d : Dir)
    (h : ∀ p ∈ d, Old (beforeAll (strip all)) p → p.2.removable = true) :
    let e := d.filter fun p => decide (¬ Old (beforeAll (strip all)) p)
    let ns := dataFiles (beforeAll (strip all)) e
    (ns = [] → systusExec false path solver full all d = .ub) ∧
    (ns ≠ [] → (∀ k n, ns[k]? = some n →
        convertExecResult (solver (systusCommand path n (strip all)) (after path (strip all) solver (ns.take k) e)).1 = .OK) →
      systusExec false path solver full all d =
        .ok (systusResults false (filesOf (beforeAll (strip all)) (strip all) (after path (strip all) solver ns e)) .OK)) := by
  intro e ns
  refine ⟨fun hn => ?_, fun hn hok => ?_⟩
  · have : dataFiles (beforeAll (strip all)) (d.filter fun p => decide (¬ Old (beforeAll (strip all)) p)) = [] := hn
    simp only [systusExec, systusClean_eq h, Bool.false_eq_true, if_false, this, topazeLoop]
  · have hd := topazeLoop_done path (strip all) solver ns none e hok
    rw [if_neg hn] at hd
    have hd' : topazeLoop path (strip all) solver (dataFiles (beforeAll (strip all))
        (d.filter fun p => decide (¬ Old (beforeAll (strip all)) p))) none
        (d.filter fun p => decide (¬ Old (beforeAll (strip all)) p)) = _ := hd
    simp only [systusExec, systusClean_eq h, Bool.false_eq_true, if_false, hd']

/-- A directory with two data files, and one with none. -/
example : dataFiles "wing".toList [("wing_SC1.DAT".toList, ⟨[], true, true⟩), ("wing_SC2.DAT".toList, ⟨[], true, true⟩)] ≠ [] ∧
    dataFiles "wing".toList [("tail_SC1.DAT".toList, ⟨[], true, true⟩)] = [] := by decide +kernel

end Runs
end Vega
