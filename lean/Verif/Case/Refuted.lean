import Verif.Case.Subcases

/-! # Commands that are not obeyed (C97) -/
namespace Vega
namespace Case
open Nastran (Line isSpace isBlank blank trim trimRight toUpper Cursor Symbol nextString nextInt intMin intMax natOf)
open F06 (has)
open CaseSpec
open F06Spec (Digits)

/-! ## Outputs that are never selected -/

/-- Neither contacts nor stresses nor frequencies are selected. -/
def NoneOf (a : Analysis) : Prop := ∀ n, (CSet.contact, n) ∉ a.constraints ∧ (OSet.stress, n) ∉ a.outputs ∧ (OSet.ofreq, n) ∉ a.outputs

/-- Every analysis added is such. -/
def Grows (d d' : Deck) : Prop := ∀ a ∈ d'.analyses, a ∈ d.analyses ∨ NoneOf a

theorem Grows.refl (d : Deck) : Grows d d := fun _ h => Or.inl h

theorem Grows.trans {d d' d'' : Deck} (h : Grows d d') (h' : Grows d' d'') : Grows d d'' := by
  intro a ha
  rcases h' a ha with h1 | h1
  · exact h a h1
  · exact Or.inr h1

theorem Grows.of_eq {d d' : Deck} (h : d'.analyses = d.analyses) : Grows d d' := fun a ha => Or.inl (h ▸ ha)

theorem bind_eq_ok {x : Outcome α} {f : α → Outcome β} {b : β} (h : x.bind f = .ok b) : ∃ a, x = .ok a ∧ f a = .ok b := by
  cases x with
  | ok a => exact ⟨a, rfl, h⟩
  | throw => exact nomatch h
  | ub => exact nomatch h
  | diverges => exact nomatch h

theorem begins_long {n : Nat} {w k : Line} (h : n < w.length) : begins n w k = false := by
  unfold begins
  rw [decide_eq_false_iff_not]
  intro he
  have := congrArg List.length he
  rw [List.length_take] at this
  omega

theorem select_none {cfg : Config} {e : Line × Line} {d : Deck} {a : Analysis} {r : Deck × Analysis} (h : select cfg e d a = .ok r)
    (ha : NoneOf a) : r.1.analyses = d.analyses ∧ NoneOf r.2 := by
  unfold select at h
  obtain ⟨id, _, h⟩ := bind_eq_ok h
  obtain ⟨⟨key, options⟩, _, h⟩ := bind_eq_ok h
  simp only [begins_long (n := 4) (w := "BCONTACT".toList) (by decide), begins_long (n := 4) (w := "OFREQUENCY".toList) (by decide),
    begins_long (n := 4) (w := "STRESS".toList) (by decide), Bool.false_eq_true, if_false] at h
  have hc : ∀ t : CSet, t ≠ .contact → NoneOf (selectConstraint t id d a).2 := by
    intro t ht n
    refine ⟨?_, (ha n).2⟩
    intro hm
    rcases (mem_addNew _ _ _).mp hm with h1 | h1
    · exact (ha n).1 h1
    · exact ht (congrArg Prod.fst h1).symm
  have hl : ∀ t : LSet, NoneOf (selectLoad t id d a).2 := fun _ n => ha n
  split at h
  · cases h; exact ⟨rfl, hc _ (by simp)⟩
  split at h
  · cases h; exact ⟨rfl, hc _ (by simp)⟩
  split at h
  · cases h; exact ⟨rfl, hl _⟩
  split at h
  · cases h; exact ⟨rfl, hl _⟩
  split at h
  · cases h; exact ⟨rfl, hl _⟩
  split at h
  · split at h
    · cases h; exact ⟨rfl, ha⟩
    · cases h
      refine ⟨rfl, fun n => ⟨(ha n).1, ?_, ?_⟩⟩
      · intro hm
        rcases (mem_addNew _ _ _).mp hm with h1 | h1
        · exact (ha n).2.1 h1
        · exact nomatch h1
      · intro hm
        rcases (mem_addNew _ _ _).mp hm with h1 | h1
        · exact (ha n).2.2 h1
        · exact nomatch h1
  · cases h; exact ⟨rfl, ha⟩

theorem selectAll_none {cfg : Config} : ∀ (c : Context) {d : Deck} {a : Analysis} {r : Deck × Analysis}, selectAll cfg c d a = .ok r →
    NoneOf a → r.1.analyses = d.analyses ∧ NoneOf r.2 := by
  intro c
  induction c with
  | nil =>
    intro d a r h ha
    cases h
    exact ⟨rfl, ha⟩
  | cons e c ih =>
    intro d a r h ha
    rw [selectAll] at h
    obtain ⟨x, h1, h2⟩ := bind_eq_ok h
    obtain ⟨h3, h4⟩ := select_none h1 ha
    obtain ⟨h5, h6⟩ := ih h2 h4
    exact ⟨h5.trans h3, h6⟩

theorem addAnalysis_grows {cfg : Config} {c : Context} {id : Int} {d d' : Deck} (h : addAnalysis cfg c id d = .ok (some d')) :
    Grows d d' := by
  unfold addAnalysis at h
  split at h
  · cases h; exact Grows.refl d
  · split at h
    · unfold fail at h
      split at h <;> exact nomatch h
    · obtain ⟨k, _, h⟩ := bind_eq_ok h
      cases k with
      | none => exact nomatch h
      | some k =>
        obtain ⟨r, h1, h2⟩ := bind_eq_ok h
        split at h2
        · exact nomatch h2
        cases h2
        obtain ⟨h3, h4⟩ := selectAll_none c h1 (by intro n; simp)
        intro a ha
        rcases List.mem_append.mp ha with h5 | h5
        · exact Or.inl (h3 ▸ h5)
        · rw [List.mem_singleton] at h5
          exact Or.inr (h5 ▸ h4)

theorem addCombination_grows {cfg : Config} {c : Context} {id : Int} {d d' : Deck} (h : addCombination cfg c id d = .ok d') :
    Grows d d' := by
  unfold addCombination at h
  split at h
  · exact nomatch h
  · obtain ⟨k, _, h⟩ := bind_eq_ok h
    split at h
    · exact nomatch h
    cases h
    intro a ha
    rcases List.mem_append.mp ha with h5 | h5
    · exact Or.inl h5
    · rw [List.mem_singleton] at h5
      subst h5
      exact Or.inr (by intro n; simp)

theorem addSet_analyses {cfg : Config} {t t' : Tok} {d d' : Deck} (h : addSet cfg t d = .ok (t', some d')) : d'.analyses = d.analyses := by
  unfold addSet at h
  obtain ⟨⟨line, t1⟩, _, h⟩ := bind_eq_ok h
  simp only at h
  split at h
  · split at h <;> exact nomatch h
  · split at h
    · exact nomatch h
    · obtain ⟨id, _, h⟩ := bind_eq_ok h
      obtain ⟨v, _, h⟩ := bind_eq_ok h
      cases v with
      | none => cases h; rfl
      | some v =>
        simp only at h
        split at h
        · exact nomatch h
        · cases h; rfl

theorem subcaseLoop_analyses {cfg : Config} {sets : Bool} : ∀ (fuel : Nat) {t : Tok} {kw : Line} {c : Context} {d : Deck}
    {r : Tok × Deck × Option (Line × Context)}, subcaseLoop cfg sets fuel t kw c d = .ok r → r.2.1.analyses = d.analyses := by
  intro fuel
  induction fuel with
  | zero => intro t kw c d r h; exact nomatch h
  | succ n ih =>
    intro t kw c d r h
    rw [subcaseLoop] at h
    simp only at h
    split at h
    · cases h; rfl
    · split at h
      · obtain ⟨⟨t1, o⟩, h1, h⟩ := bind_eq_ok h
        cases o with
        | none => cases h; rfl
        | some d1 => exact (ih h).trans (addSet_analyses h1)
      · split at h
        · cases h; rfl
        · exact ih h

theorem parseSubcase_grows {cfg : Config} {t : Tok} {c : Context} {d : Deck} {r : Tok × Deck × Option Line}
    (h : parseSubcase cfg t c d = .ok r) : Grows d r.2.1 := by
  unfold parseSubcase at h
  split at h
  · obtain ⟨⟨t1, d1, o⟩, h1, h⟩ := bind_eq_ok h
    have h2 := subcaseLoop_analyses _ h1
    simp only at h2
    cases o with
    | none => cases h; exact Grows.of_eq h2
    | some kc =>
      obtain ⟨o2, h3, h⟩ := bind_eq_ok h
      cases o2 with
      | none => cases h; exact Grows.of_eq h2
      | some d2 => cases h; exact (Grows.of_eq h2).trans (addAnalysis_grows h3)
  · split at h
    · exact nomatch h
    · cases h; exact Grows.refl d

theorem parseSubcom_grows {cfg : Config} {t : Tok} {c : Context} {d : Deck} {r : Tok × Deck × Option Line}
    (h : parseSubcom cfg t c d = .ok r) : Grows d r.2.1 := by
  unfold parseSubcom at h
  split at h
  · obtain ⟨⟨t1, d1, o⟩, h1, h⟩ := bind_eq_ok h
    have h2 := subcaseLoop_analyses _ h1
    simp only at h2
    cases o with
    | none => cases h; exact Grows.of_eq h2
    | some kc =>
      obtain ⟨d2, h3, h⟩ := bind_eq_ok h
      cases h
      exact (Grows.of_eq h2).trans (addCombination_grows h3)
  · split at h
    · exact nomatch h
    · cases h; exact Grows.refl d

theorem matrixCommand_analyses {cfg : Config} {kind : MatrixKind} {q : Bool} {t : Tok} {c : Context} {d : Deck} {r : Done}
    (h : matrixCommand cfg kind q t c d = .ok r) : r.deck.analyses = d.analyses := by
  unfold matrixCommand at h
  simp only at h
  split at h
  · split at h
    · exact nomatch h
    · cases h; rfl
  · split at h
    · split at h
      · exact nomatch h
      · cases h; rfl
    · cases h; rfl

theorem commandStep_grows {cfg : Config} {kw : Line} {found : Bool} {t : Tok} {c : Context} {d : Deck} {r : Done}
    (h : commandStep cfg kw found t c d = .ok r) : Grows d r.deck := by
  unfold commandStep at h
  by_cases h0 : kw.isEmpty = true
  · rw [if_pos h0] at h
    cases h; exact Grows.refl d
  rw [if_neg h0] at h
  by_cases h0 : has "BEGIN".toList kw = true
  · rw [if_pos h0] at h
    cases found with
    | true => rw [if_pos rfl] at h; cases h; exact Grows.refl d
    | false =>
      rw [if_neg (by simp)] at h
      obtain ⟨o, h1, h⟩ := bind_eq_ok h
      cases o with
      | none => cases h; exact Grows.refl d
      | some d1 => cases h; exact addAnalysis_grows h1
  rw [if_neg h0] at h
  by_cases h0 : kw = "B2GG".toList
  · rw [if_pos h0] at h
    exact Grows.of_eq (matrixCommand_analyses h)
  rw [if_neg h0] at h
  by_cases h0 : kw = "CEND".toList
  · rw [if_pos h0] at h
    cases h; exact Grows.refl d
  rw [if_neg h0] at h
  by_cases h0 : kw = "K2GG".toList
  · rw [if_pos h0] at h
    exact Grows.of_eq (matrixCommand_analyses h)
  rw [if_neg h0] at h
  by_cases h0 : kw = "M2GG".toList
  · rw [if_pos h0] at h
    exact Grows.of_eq (matrixCommand_analyses h)
  rw [if_neg h0] at h
  by_cases h0 : kw = "SUBCASE".toList
  · rw [if_pos h0] at h
    obtain ⟨⟨t1, d1, o⟩, h1, h⟩ := bind_eq_ok h
    have h2 := parseSubcase_grows h1
    cases o <;> (cases h; exact h2)
  rw [if_neg h0] at h
  by_cases h0 : kw = "SUBCOM".toList
  · rw [if_pos h0] at h
    obtain ⟨⟨t1, d1, o⟩, h1, h⟩ := bind_eq_ok h
    have h2 := parseSubcom_grows h1
    cases o <;> (cases h; exact h2)
  rw [if_neg h0] at h
  by_cases h0 : kw = "SUBTITLE".toList
  · rw [if_pos h0] at h
    cases h; exact Grows.of_eq rfl
  rw [if_neg h0] at h
  by_cases h0 : kw = "TITLE".toList
  · rw [if_pos h0] at h
    cases h; exact Grows.of_eq rfl
  rw [if_neg h0] at h
  by_cases h0 : kw = "SET".toList
  · rw [if_pos h0] at h
    obtain ⟨⟨t1, o⟩, h1, h⟩ := bind_eq_ok h
    cases o with
    | none => cases h; exact Grows.refl d
    | some d1 => cases h; exact Grows.of_eq (addSet_analyses h1)
  rw [if_neg h0] at h
  obtain ⟨c1, _, h⟩ := bind_eq_ok h
  cases h; exact Grows.refl d

theorem sectionLoop_grows {cfg : Config} : ∀ (fuel : Nat) {kw : Line} {found : Bool} {t : Tok} {c : Context} {d d' : Deck},
    sectionLoop cfg fuel kw found t c d = .ok d' → Grows d d' := by
  intro fuel
  induction fuel with
  | zero => intro kw found t c d d' h; exact nomatch h
  | succ n ih =>
    intro kw found t c d d' h
    rw [sectionLoop] at h
    obtain ⟨r, h1, h⟩ := bind_eq_ok h
    have h2 := commandStep_grows h1
    split at h
    · split at h
      · cases h; exact h2
      · exact h2.trans (ih h)
    · simp only at h
      split at h
      · cases h; exact h2
      · exact h2.trans (ih h)

/-- C97 is false of `BCONTACT`, `STRESS` and `OFREQUENCY`: whatever the file says, no analysis refers to a set of contacts, or to
an output of stresses or of frequencies. -/
theorem C97_never_selected_false (cfg : Config) (lines : List Line) (d : Deck) (h : readSection cfg lines = .ok d) :
    ∀ a ∈ d.analyses, ∀ n, (CSet.contact, n) ∉ a.constraints ∧ (OSet.stress, n) ∉ a.outputs ∧ (OSet.ofreq, n) ∉ a.outputs := by
  intro a ha
  rcases sectionLoop_grows _ h a ha with h1 | h1
  · exact nomatch h1
  · exact h1

/-- The program as it is built with the library of GNU, without `LOADSTEP` comments. -/
def gnu : Config := ⟨false, true, fun _ => none⟩

def asked : List Line :=
  ["SOL 101".toList, "CEND".toList, "SUBCASE 1".toList, "  BCONTACT = 4".toList, "  STRESS(VMIS) = 5".toList, "  OFREQUENCY = 6".toList,
    "  LOAD = 7".toList, "BEGIN BULK".toList]

/-- The sets are asked for; only the load is selected. -/
example : (readSection gnu asked).toOption.map (fun d => d.analyses.map (·.constraints)) = some [[]] ∧
    (readSection gnu asked).toOption.map (fun d => d.analyses.map (·.loads)) = some [[(.load, 7)]] ∧
    (readSection gnu asked).toOption.map (fun d => d.analyses.map (·.outputs)) = some [[]] := by decide +kernel

/-! ## Outputs of forces taken for supports -/

theorem keyOptions_plain {cfg : Config} (hg : cfg.gnu = true) {k : Line} (hs : splitRuns isOptionSep false k = [k]) (hk : k.isEmpty = false) :
    keyOptions cfg k = .ok (k, []) := by
  unfold keyOptions
  rw [hs]
  have : cleanOptions cfg [k] = .ok [] := by
    unfold cleanOptions
    simp [hk, hg]
  rw [this]
  rfl

theorem select_spc {cfg : Config} {k v : Line} {id : Int} (hk : keyOptions cfg k = .ok (k, [])) (hv : valueId v = .ok id)
    (hb : begins 3 "SPC".toList k = true) (d : Deck) (a : Analysis) : select cfg (k, v) d a = .ok (selectConstraint .spc id d a) := by
  unfold select
  rw [hv, hk]
  simp only [Outcome.bind_ok]
  rw [if_pos hb]

theorem select_mpc {cfg : Config} {k v : Line} {id : Int} (hk : keyOptions cfg k = .ok (k, [])) (hv : valueId v = .ok id)
    (hn : begins 3 "SPC".toList k = false) (hb : begins 3 "MPC".toList k = true) (d : Deck) (a : Analysis) :
    select cfg (k, v) d a = .ok (selectConstraint .mpc id d a) := by
  unfold select
  rw [hv, hk]
  simp only [Outcome.bind_ok]
  rw [if_neg (by rw [hn]; simp), if_pos hb]

theorem valueId_digits {v : Line} {n : Nat} (hd : Digits v n) : valueId v = .ok (n : Int) := by
  unfold valueId
  have hw := digits_word hd.1 hd.2.1
  simp only [trim_self hw.tight]
  rw [if_pos (by
    have h1 : v.isEmpty = false := by simpa using hd.1
    rw [h1, List.all_eq_true.mpr hd.2.1]; rfl)]
  have := number_entry (b := []) (by intro c hc; simp at hc) hd
  simpa using this

/-- C97 is false of `SPCFORCES` and `MPCFORCES`: an output of the forces of supports in all nodes selects the supports 0, and
one for the nodes of set `n` selects the supports `n`. -/
theorem C97_forces_false (cfg : Config) (hg : cfg.gnu = true) (d : Deck) (a : Analysis) :
    (select cfg ("SPCFORCES".toList, "ALL".toList) d a = .ok (selectConstraint .spc 0 d a) ∧
      select cfg ("MPCFORCES".toList, "ALL".toList) d a = .ok (selectConstraint .mpc 0 d a)) ∧
    ∀ v n, Digits v n →
      select cfg ("SPCFORCES".toList, v) d a = .ok (selectConstraint .spc n d a) ∧
      select cfg ("MPCFORCES".toList, v) d a = .ok (selectConstraint .mpc n d a) := by
  have h1 : keyOptions cfg "SPCFORCES".toList = .ok ("SPCFORCES".toList, []) := keyOptions_plain hg (by decide) (by decide)
  have h2 : keyOptions cfg "MPCFORCES".toList = .ok ("MPCFORCES".toList, []) := keyOptions_plain hg (by decide) (by decide)
  have hall : valueId "ALL".toList = .ok 0 := by decide
  refine ⟨⟨select_spc h1 hall (by decide) d a, select_mpc h2 hall (by decide) (by decide) d a⟩, ?_⟩
  intro v n hd
  exact ⟨select_spc h1 (valueId_digits hd) (by decide) d a, select_mpc h2 (valueId_digits hd) (by decide) (by decide) d a⟩

def forces : List Line :=
  ["SOL 101".toList, "SPCFORCES = 9".toList, "SPC = 3".toList, "SUBCASE 1".toList, "  LOAD = 7".toList, "BEGIN BULK".toList]

/-- The supports of set 9 are added to those of set 3. -/
example : (readSection gnu forces).toOption.map (fun d => d.analyses.map (·.constraints)) = some [[(.spc, 3), (.spc, 9)]] := by
  decide +kernel

/-! ## Complex modes -/

/-- C97 is false of `METHOD` in an analysis of complex modes: with `CMETHOD` given too, and no other such command, the method for the
real modes is that of the complex ones. -/
theorem C97_complex_false (cfg : Config) (l : List Analysis) (v w : Line) (n m : Nat) (hv : Digits v n) (hw : Digits w m) :
    kindOf cfg l (put "CMETHOD".toList w (put "METHOD".toList v [])) .mceig = .ok (some (.modalComplex m m)) := by
  have hp : put "CMETHOD".toList w (put "METHOD".toList v []) = [("CMETHOD".toList, w), ("METHOD".toList, v)] := by
    unfold put
    simp only [List.filter_nil, insertKey]
    rw [List.filter_cons, if_pos (by simp), List.filter_nil, insertKey, if_pos (by decide)]
  have hn : number w = .ok (m : Int) := by
    have := number_entry (b := []) (by intro c hc; simp at hc) hw
    simpa using this
  rw [hp, kindOf]
  have h1 : firstWith "METHOD".toList [("CMETHOD".toList, w), ("METHOD".toList, v)] = .ok (some (m : Int)) := by
    rw [firstWith, if_pos (by decide), hn]
    rfl
  have h2 : firstWith "CMETHOD".toList [("CMETHOD".toList, w), ("METHOD".toList, v)] = .ok (some (m : Int)) := by
    rw [firstWith, if_pos (by decide), hn]
    rfl
  rw [h1]
  simp only [Outcome.bind_ok, h2]

def complex : List Line :=
  ["SOL 110".toList, "CEND".toList, "METHOD = 1".toList, "CMETHOD = 2".toList, "BEGIN BULK".toList]

example : (readSection gnu complex).toOption.map (fun d => d.analyses.map (·.kind)) = some [.modalComplex 2 2] := by decide +kernel

/-! ## The way commands are written -/

/-- C97 is false of values in small letters, of tabs between a command and its value, and of the program itself by the standard. A
solution in small letters gives no analysis; a tab reads beyond the words of the line; by the standard, every selection without options
erases the end of a list. -/
theorem C97_writing_false :
    (readSection gnu ["SOL semodes".toList, "METHOD=1".toList, "BEGIN BULK".toList]).toOption.map (·.analyses) = some [] ∧
    (readSection gnu ["SOL SEMODES".toList, "METHOD=1".toList, "BEGIN BULK".toList]).toOption.map (·.analyses.length) = some 1 ∧
    readSection gnu ["SOL 101".toList, "SPC\t5".toList, "BEGIN BULK".toList] = .ub ∧
    (readSection gnu ["SOL 101".toList, "SPC 5".toList, "BEGIN BULK".toList]).toOption.map (·.analyses.length) = some 1 ∧
    readSection { gnu with gnu := false } ["SOL 101".toList, "SPC 5".toList, "BEGIN BULK".toList] = .ub := by decide +kernel

/-! ## A file that meets the hypotheses of C97 -/

instance : DecidablePred Blanks := fun b => inferInstanceAs (Decidable (∀ c ∈ b, c = ' ' ∨ c = '\t'))
instance : DecidablePred Word := fun w => inferInstanceAs (Decidable (w ≠ [] ∧ ∀ c ∈ w, isSep c = false ∧ isSpace c = false ∧ c ≠ '$'))
instance (v : Line) (n : Nat) : Decidable (Digits v n) :=
  inferInstanceAs (Decidable (v ≠ [] ∧ (∀ c ∈ v, c.isDigit = true) ∧ natOf v = n ∧ (n : Int) ≤ intMax))

theorem gives_line (l : Line) (h : blank (l.takeWhile (· ≠ '$')) = false) : Gives [l] (l.takeWhile (· ≠ '$')) :=
  ⟨[], l, rfl, by simp, rfl, h⟩

theorem sep_space : Separates [' '] := Or.inr ⟨by simp, by simp⟩
theorem sep_equal : Separates " = ".toList := Or.inl ⟨[' '], [' '], rfl, by decide, by decide⟩

theorem allowed_of (k v : Line) (h1 : k ∉ parts) (h2 : has "BEGIN".toList k = false) (h3 : ∀ c ∈ k, c ≠ '(' ∧ c ≠ ',' ∧ c ≠ ')')
    (h4 : (v ≠ [] ∧ v.all Char.isDigit = true) ∨ k ∉ setCommands)
    (h5 : k ∉ setCommands → ∀ p ∈ ["SPC".toList, "MPC".toList, "LOAD".toList, "DLOAD".toList, "DISP".toList], ¬ p <+: k)
    (h6 : (natOf v : Int) ≤ intMax) : Allowed k v := by
  refine ⟨⟨h1, ?_⟩, h3, ?_, h5, fun _ => h6⟩
  · intro hh
    rw [F06.has_iff.mpr hh] at h2
    exact nomatch h2
  · intro hk
    rcases h4 with h | h
    · exact ⟨natOf v, h.1, List.all_eq_true.mp h.2, rfl, h6⟩
    · exact absurd hk h

def sampleItems : List Item := [.sel "SOL".toList "101".toList, .cend, .sel "SPC".toList "3".toList]
def sampleSubs : List Sub := [⟨1, [("LOAD".toList, "10".toList)]⟩, ⟨2, [("LOAD".toList, "20".toList), ("SPC".toList, "4".toList)]⟩]
def sampleFront : List Line := ["SOL 101".toList, "CEND".toList, "$ supports".toList, "spc = 3 $ of all".toList]
def sampleMid : List Line :=
  ["SUBCASE 1".toList, "  LOAD = 10".toList, "SUBCASE 2".toList, "  LOAD = 20".toList, "  SPC = 4".toList]

theorem sample_above : Above sampleItems sampleFront :=
  .cons _ "SOL 101".toList ["SOL 101".toList] _ _ (gives_line _ (by decide))
    ⟨[], "SOL".toList, [' '], [], by decide, by decide, by decide, by decide, sep_space, by decide, by decide⟩
    (.cons _ "CEND".toList ["CEND".toList] _ _ (gives_line _ (by decide)) ⟨[], "CEND".toList, [], by decide, by decide, by decide, by decide, by decide⟩
      (.cons _ "spc = 3 ".toList ["$ supports".toList, "spc = 3 $ of all".toList] _ []
        ⟨["$ supports".toList], "spc = 3 $ of all".toList, rfl, by simp only [List.mem_singleton, forall_eq]; unfold Ignored; decide, by decide, by decide⟩
        ⟨[], "spc".toList, " = ".toList, [' '], by decide, by decide, by decide, by decide, sep_equal, by decide, by decide⟩ .nil))

theorem says_equal (k v : Line) (hk : Word k) (hv : Word v) : Says ("  ".toList ++ (k ++ " = ".toList ++ v)) (toUpper k) (toUpper v) :=
  ⟨"  ".toList, k, [v], k ++ " = ".toList ++ v, [], by simp, by decide, .cons k _ v [v] hk (by decide) (by decide) (.one v hv), by simp, rfl, rfl,
    by decide⟩

theorem sample_mid : Subcases sampleSubs sampleMid :=
  .cons _ "SUBCASE 1".toList "1".toList ["SUBCASE 1".toList] ["  LOAD = 10".toList] _ _ (gives_line _ (by decide))
    ⟨[], "SUBCASE".toList, [' '], [], by decide, by decide, by decide, by decide, sep_space, by decide, by decide⟩ (by decide)
    (.cons _ _ "  LOAD = 10".toList ["  LOAD = 10".toList] _ [] (gives_line _ (by decide))
      (says_equal "LOAD".toList "10".toList (by decide) (by decide)) .nil)
    (.cons _ "SUBCASE 2".toList "2".toList ["SUBCASE 2".toList] ["  LOAD = 20".toList, "  SPC = 4".toList] _ [] (gives_line _ (by decide))
      ⟨[], "SUBCASE".toList, [' '], [], by decide, by decide, by decide, by decide, sep_space, by decide, by decide⟩ (by decide)
      (.cons _ _ "  LOAD = 20".toList ["  LOAD = 20".toList] _ ["  SPC = 4".toList] (gives_line _ (by decide))
        (says_equal "LOAD".toList "20".toList (by decide) (by decide))
        (.cons _ _ "  SPC = 4".toList ["  SPC = 4".toList] _ [] (gives_line _ (by decide))
          (says_equal "SPC".toList "4".toList (by decide) (by decide)) .nil))
      .nil)

theorem sample_begin : Gives ["BEGIN BULK".toList] "BEGIN BULK".toList ∧ BeginsWith "BEGIN BULK".toList "BEGIN".toList :=
  ⟨gives_line _ (by decide), [], "BEGIN".toList, [], "BULK".toList, [], by decide, by decide, by decide, by decide, by decide, by decide, by decide⟩

theorem sample_allowed : (∀ e ∈ given sampleItems, AllowedAbove e.1 e.2) ∧ ∀ s ∈ sampleSubs, ∀ e ∈ s.sels, Allowed e.1 e.2 := by
  have h : ∀ k v, (k, v) ∈ [("SOL".toList, "101".toList), ("SPC".toList, "3".toList), ("LOAD".toList, "10".toList), ("LOAD".toList, "20".toList),
      ("SPC".toList, "4".toList)] → Allowed k v := by
    intro k v hkv
    simp only [List.mem_cons, Prod.mk.injEq, List.not_mem_nil, or_false] at hkv
    rcases hkv with ⟨rfl, rfl⟩ | ⟨rfl, rfl⟩ | ⟨rfl, rfl⟩ | ⟨rfl, rfl⟩ | ⟨rfl, rfl⟩ <;>
      exact allowed_of _ _ (by decide) (by decide) (by decide) (Or.inl (by decide)) (by decide) (by decide)
  constructor
  · intro e he
    have he : e ∈ [("SOL".toList, "101".toList), ("SPC".toList, "3".toList)] := he
    simp only [List.mem_cons, List.not_mem_nil, or_false] at he
    rcases he with rfl | rfl <;> exact ⟨h _ _ (by simp), by decide⟩
  · intro s hs e he
    simp only [sampleSubs, List.mem_cons, List.not_mem_nil, or_false] at hs
    rcases hs with rfl | rfl
    · simp only [List.mem_singleton] at he
      subst he
      exact h _ _ (by simp)
    · simp only [List.mem_cons, List.not_mem_nil, or_false] at he
      rcases he with rfl | rfl <;> exact h _ _ (by simp)

/-- The theorem for this file. -/
example : ∃ d, readSection gnu (sampleFront ++ (sampleMid ++ (["BEGIN BULK".toList] ++ []))) = .ok d ∧ d.analyses.length = 2 := by
  obtain ⟨d, h, hl, _⟩ := C97_subcases_partial gnu rfl (fun _ => rfl) sampleItems sampleSubs sampleFront sampleMid ["BEGIN BULK".toList] [] _
    sample_above sample_mid (by simp [sampleSubs]) sample_begin.1 sample_begin.2 sample_allowed.1 (by decide) sample_allowed.2 (by
      intro s hs
      simp only [sampleSubs, List.mem_cons, List.not_mem_nil, or_false] at hs
      rcases hs with rfl | rfl <;> exact ⟨.linearStatic, .static "101".toList (by decide) (by decide)⟩)
  exact ⟨d, h, hl⟩

/-- The second subcase has its own supports, the first those given above. -/
example :
    (readSection gnu (sampleFront ++ (sampleMid ++ (["BEGIN BULK".toList] ++ [])))).toOption.map (fun d => d.analyses.map (·.constraints)) =
      some [[(.spc, 3)], [(.spc, 4)]] ∧
    (readSection gnu (sampleFront ++ (sampleMid ++ (["BEGIN BULK".toList] ++ [])))).toOption.map (fun d => d.analyses.map (·.loads)) =
      some [[(.load, 10)], [(.load, 20)]] := by decide +kernel

/-- Without subcases. -/
example : ∃ d a, readSection gnu (sampleFront ++ (["BEGIN BULK".toList] ++ [])) = .ok d ∧ d.analyses = [a] := by
  obtain ⟨d, a, h, hl, _⟩ := C97_single_partial gnu rfl (fun _ => rfl) sampleItems sampleFront ["BEGIN BULK".toList] [] _
    sample_above sample_begin.1 sample_begin.2 sample_allowed.1 ⟨.linearStatic, .static "101".toList (by decide) (by decide)⟩
  exact ⟨d, a, h, hl⟩

end Case
end Vega
