import Verif.Results.F06Lemmas
import Mathlib.Tactic.NormNum

/-! # C95: the displacements printed by Nastran become the tests of their subcase

The specification describes a result file printed by Nastran, page by page, as a text; it uses nothing of the reader but
its types. -/
namespace Vega
namespace F06Spec
open Nastran (Line isSpace trim lexicalDouble natOf intMax)
open NastranWrite (V3)
open F06 (Added Assertion World)

def Blank (l : Line) : Prop := ∀ c ∈ l, isSpace c = true

instance (l : Line) : Decidable (Blank l) := inferInstanceAs (Decidable (∀ c ∈ l, isSpace c = true))

/-- A line made of the given words, each after at least one space. -/
inductive Spread : List Line → Line → Prop
  | nil {g} : Blank g → Spread [] g
  | cons {g w ws l} : g ≠ [] → Blank g → w ≠ [] → (∀ c ∈ w, isSpace c = false) → Spread ws l →
    Spread (w :: ws) (g ++ w ++ l)

/-- A natural number that fits an `int`, in digits. -/
def Digits (t : Line) (n : Nat) : Prop := t ≠ [] ∧ (∀ c ∈ t, c.isDigit = true) ∧ natOf t = n ∧ (n : Int) ≤ intMax

/-- A row of a table of displacements. -/
structure Row where
  line : Line
  node : Nat
  translation : V3
  rotation : V3

/-- The line of a row has the node, the type of a grid point, and six numbers. -/
def Row.Printed (r : Row) : Prop := ∃ n a b c d e f, Digits n r.node ∧
  lexicalDouble a = some r.translation.x ∧ lexicalDouble b = some r.translation.y ∧ lexicalDouble c = some r.translation.z ∧
  lexicalDouble d = some r.rotation.x ∧ lexicalDouble e = some r.rotation.y ∧ lexicalDouble f = some r.rotation.z ∧
  Spread [n, "G".toList, a, b, c, d, e, f] r.line

/-- A page of displacements: lines of no interest, the line of the subcase, possibly that of the load step, the title, the
names of the columns and the rows. -/
structure Page where
  lead : List Line
  heading : Line
  subcase : Nat
  step : Option (Line × Dbl)
  title : Line
  columns : Line
  rows : List Row

def Page.lines (p : Page) : List Line :=
  p.lead ++ [p.heading] ++ (match p.step with
    | none => []
    | some s => [s.1]) ++ [p.title, p.columns] ++ p.rows.map (·.line)

/-- No subcase in the line, and it is not the title of a table. -/
def Silent (l : Line) : Prop := ¬ "SUBCASE".toList <:+: l ∧ ¬ "S T R E S S E S".toList <:+: l ∧
  trim l ≠ "D I S P L A C E M E N T   V E C T O R".toList ∧ trim l ≠ "R E A L   E I G E N V A L U E S".toList ∧
  trim l ≠ "C O M P L E X   D I S P L A C E M E N T   V E C T O R".toList

/-- A line that cannot be taken for a row: it does not begin with a space, or has not eight words. -/
def Ends (l : Line) : Prop := ¬ "DIAGNOSTIC TOOLS".toList <:+: l ∧ ¬ "SUBCASE".toList <:+: l ∧
  ((∃ c t, l = c :: t ∧ isSpace c = false) ∨ ∃ ws, Spread ws l ∧ ws ≠ [] ∧ ws.length ≠ 8)

/-- The line of a subcase. -/
def Heading (l : Line) (n : Nat) : Prop := (∃ pre gap ds tail, l = pre ++ "SUBCASE".toList ++ (gap ++ ds ++ tail) ∧
    ¬ "SUBCASE".toList <:+: pre ++ "SUBCAS".toList ∧ Blank gap ∧ Digits ds n ∧ Blank tail) ∧
  ¬ "S T R E S S E S".toList <:+: l ∧ ¬ "LOAD STEP = ".toList <:+: l ∧ ¬ "DIAGNOSTIC TOOLS".toList <:+: l

/-- The line of a load step. -/
def StepLine (l : Line) (x : Dbl) : Prop := ∃ pre gap t tail, l = pre ++ "LOAD STEP = ".toList ++ (gap ++ t ++ tail) ∧
  Blank pre ∧ Blank gap ∧ lexicalDouble t = some x ∧ Blank tail

/-- The page is as Nastran prints it. -/
def Page.Printed (p : Page) : Prop :=
  (∀ l ∈ p.lead, Silent l) ∧ (∀ l ∈ p.lead.head?, Ends l) ∧ Heading p.heading p.subcase ∧
  (∀ s ∈ p.step, StepLine s.1 s.2) ∧
  (∃ pre tail, p.title = pre ++ "D I S P L A C E M E N T   V E C T O R".toList ++ tail ∧ Blank pre ∧ Blank tail) ∧
  (∀ r ∈ p.rows, r.Printed)

/-- Values below 1e-12 are taken for zero. -/
def rounded (x : Dbl) : Dbl := if |x| < 1 / 10 ^ 12 then 0 else x

/-- The tests of a row: one for each degree of freedom, in the global system, at the load step (-1 without one). -/
def testsOf (p : Page) (global : Nat → V3 → V3) (r : Row) : List Added :=
  let t := global r.node r.translation
  let q := global r.node r.rotation
  [(Dof.DX, t.x), (.DY, t.y), (.DZ, t.z), (.RX, q.x), (.RY, q.y), (.RZ, q.z)].map fun v =>
    ⟨p.subcase, .displacement r.node v.1 (rounded v.2) (match p.step with
      | none => -1
      | some s => s.2)⟩

/-- All the tests of a page. -/
def Page.tests (p : Page) (global : Nat → V3 → V3) : List Added := p.rows.flatMap (testsOf p global)

/-- The lines of a file that are not blank. -/
def written (file : List Line) : List Line := file.filter fun l => l.any fun c => !isSpace c

end F06Spec

namespace F06
open Nastran (Line isSpace trim trimRight lexicalDouble natOf intMin intMax)
open NastranWrite (V3)
open F06Spec

/-! ## Lines -/

theorem spread_words {ws : List Line} {l : Line} (h : Spread ws l) : words l = ws := by
  have key : ∀ {ws : List Line} {l : Line}, Spread ws l → words l = ws ∧
      (ws ≠ [] → ∀ cur, cur ≠ [] → wordsFrom cur l = cur :: ws) ∧ (ws = [] → ∀ cur, cur ≠ [] → wordsFrom cur l = [cur]) := by
    intro ws l h
    induction h with
    | @nil g hg =>
      refine ⟨?_, fun h => absurd rfl h, ?_⟩
      · have := wordsFrom_spaces g [] hg
        rw [List.append_nil] at this
        rw [words, this]
        rfl
      · intro _ cur hc
        cases g with
        | nil => simp [wordsFrom, hc]
        | cons c g =>
          rw [wordsFrom, if_pos (hg c (by simp)), if_neg (by simpa using hc)]
          have := wordsFrom_spaces g [] (fun d hd => hg d (by simp [hd]))
          rw [List.append_nil] at this
          rw [this]
          rfl
    | @cons g w ws l hg hgb hw hwb _ ih =>
      have h1 : wordsFrom [] (w ++ l) = w :: ws := by
        rw [wordsFrom_word _ _ _ hwb, List.nil_append]
        by_cases he : ws = []
        · rw [ih.2.2 he _ hw, he]
        · exact ih.2.1 he _ hw
      refine ⟨?_, ?_, fun h => absurd h (by simp)⟩
      · rw [words, List.append_assoc, wordsFrom_spaces _ _ hgb, h1]
      · intro _ cur hc
        cases g with
        | nil => exact absurd rfl hg
        | cons c g =>
          rw [List.cons_append, List.cons_append, wordsFrom, if_pos (hgb c (by simp)), if_neg (by simpa using hc),
            List.append_assoc, wordsFrom_spaces _ _ (fun d hd => hgb d (by simp [hd])), h1]
  exact (key h).1

theorem spread_chars {ws : List Line} {l : Line} (h : Spread ws l) {c : Char} (hc : c ∈ l) :
    isSpace c = true ∨ ∃ w ∈ ws, c ∈ w := by
  induction h with
  | nil hg => exact Or.inl (hg c hc)
  | @cons g w ws l hg hgb hw hwb _ ih =>
    rcases List.mem_append.1 hc with h | h
    · rcases List.mem_append.1 h with h | h
      · exact Or.inl (hgb c h)
      · exact Or.inr ⟨w, by simp, h⟩
    · rcases ih h with h | ⟨v, hv, h⟩
      · exact Or.inl h
      · exact Or.inr ⟨v, by simp [hv], h⟩

theorem spread_head {ws : List Line} {l : Line} (h : Spread ws l) (hne : ws ≠ []) : l.head?.any isSpace = true := by
  cases h with
  | nil => exact absurd rfl hne
  | @cons g w ws l hg hgb =>
    cases g with
    | nil => exact absurd rfl hg
    | cons c g => simpa using hgb c (by simp)

theorem digits_numberChar {t : Line} {n : Nat} (h : Digits t n) {c : Char} (hc : c ∈ t) : numberChar c = true := by
  simp [numberChar, h.2.1 c hc]

theorem stoi_of_digits {t : Line} {n : Nat} (h : Digits t n) : stoi t = some (n : Int) := by
  have := stoi_digits h.2.1 h.1 (by rw [h.2.2.1]; exact h.2.2.2)
  rw [this, h.2.2.1]

/-- The characters of a row. -/
theorem row_chars {r : Row} (h : r.Printed) {c : Char} (hc : c ∈ r.line) :
    isSpace c = true ∨ numberChar c = true ∨ c = 'G' := by
  obtain ⟨n, a, b, c', d, e, f, hn, ha, hb, hc', hd, he, hf, hs⟩ := h
  rcases spread_chars hs hc with h | ⟨w, hw, h⟩
  · exact Or.inl h
  · simp only [List.mem_cons, List.not_mem_nil, or_false] at hw
    rcases hw with rfl | rfl | rfl | rfl | rfl | rfl | rfl | rfl
    · exact Or.inr (Or.inl (digits_numberChar hn h))
    · exact Or.inr (Or.inr (by simpa using h))
    · exact Or.inr (Or.inl (number_chars ha h))
    · exact Or.inr (Or.inl (number_chars hb h))
    · exact Or.inr (Or.inl (number_chars hc' h))
    · exact Or.inr (Or.inl (number_chars hd h))
    · exact Or.inr (Or.inl (number_chars he h))
    · exact Or.inr (Or.inl (number_chars hf h))

theorem row_free {r : Row} (h : r.Printed) {pat : Line} (c : Char) (hc : c ∈ pat)
    (hb : isSpace c = false ∧ numberChar c = false ∧ c ≠ 'G') : ¬ pat <:+: r.line := by
  refine not_infix_of_char hc fun hm => ?_
  rcases row_chars h hm with h | h | h
  · rw [hb.1] at h; exact absurd h (by simp)
  · rw [hb.2.1] at h; exact absurd h (by simp)
  · exact hb.2.2 h

theorem six_eq (p : Page) (global : Nat → V3 → V3) (r : Row) (step : Dbl)
    (hs : step = match p.step with
      | none => -1
      | some s => s.2) :
    six p.subcase r.node step (global r.node r.translation) (global r.node r.rotation) = testsOf p global r := by
  subst hs
  rfl

/-- The rows of a table. -/
theorem loop_rows (w : World) (global : Nat → V3 → V3) (p : Page) (step : Dbl)
    (hs : step = match p.step with
      | none => -1
      | some s => s.2) : ∀ (rows : List Row) (rest : List Line) (found : List Added), (∀ r ∈ rows, r.Printed) →
    (∀ r ∈ rows, w.toGlobal r.node = .ok (global r.node)) →
    displacementLoop w p.subcase step (rows.map (·.line) ++ rest) found =
      displacementLoop w p.subcase step rest (found ++ rows.flatMap (testsOf p global)) := by
  intro rows
  induction rows with
  | nil => intro rest found _ _; simp
  | cons r rows ih =>
    intro rest found hp hg
    have hr := hp r (by simp)
    have h1 := row_free hr (pat := "DIAGNOSTIC TOOLS".toList) 'D' (by decide) (by decide)
    have h2 := row_free hr (pat := "SUBCASE".toList) 'U' (by decide) (by decide)
    have hgr := hg r (by simp)
    obtain ⟨n, a, b, c', d, e, f, hn, ha, hb, hc', hd, he, hf, hsp⟩ := hr
    have h3 := spread_head hsp (by simp)
    have h4 := spread_words hsp
    rw [List.map_cons, List.cons_append, displacementLoop, if_neg (by rw [has_iff]; exact h1),
      if_neg (by rw [has_iff]; exact h2), if_neg (by rw [h3]; simp), h4, if_neg (by simp)]
    have h5 : displacementRow w p.subcase step [n, "G".toList, a, b, c', d, e, f] = .ok (testsOf p global r) := by
      rw [displacementRow, stoi_of_digits hn]
      simp only [ne_eq, not_true_eq_false, if_false, reals3, stod_number ha, stod_number hb, stod_number hc', stod_number hd,
        stod_number he, stod_number hf, hgr, Outcome.bind_ok]
      rw [← six_eq p global r step hs]
    rw [h5]
    simp only
    rw [ih rest _ (fun q hq => hp q (by simp [hq])) (fun q hq => hg q (by simp [hq]))]
    simp

/-! ## Headings -/

theorem space_of_blank_char {c : Char} (h : isSpace c = true) : c.isDigit = false := by
  by_contra hd
  have hd : c.isDigit = true := by simpa using hd
  rw [digit_space hd] at h
  exact absurd h (by simp)

theorem trim_digits {gap ds tail : Line} (hg : Blank gap) (hd : ∀ c ∈ ds, c.isDigit = true) (hne : ds ≠ []) (ht : Blank tail) :
    trim (gap ++ ds ++ tail) = ds := by
  unfold trim
  rw [List.append_assoc, dropWhile_all _ _ hg]
  obtain ⟨init, b, hib⟩ : ∃ init b, ds = init ++ [b] := ⟨_, _, (List.dropLast_append_getLast hne).symm⟩
  have h1 : (ds ++ tail).dropWhile isSpace = ds ++ tail := by
    cases ds with
    | nil => exact absurd rfl hne
    | cons c ds => simp [digit_space (hd c (by simp))]
  rw [h1, hib]
  exact trimRight_append _ _ (digit_space (hd b (by simp [hib]))) ht

theorem parse_of_after {l : Line} {t : Line} {n : Nat} {ds : Line} (cur : Int) (h : after? "SUBCASE".toList l = some t)
    (ht : trim t = ds) (hd : Digits ds n) : parseSubcase cur l = .ok n := by
  unfold parseSubcase
  rw [h]
  simp only [ht]
  have h1 : (ds.all fun c => c.isDigit || c = ' ') = true := by
    rw [List.all_eq_true]
    intro c hc
    simp [hd.2.1 c hc]
  rw [if_pos h1, if_neg (by simpa using hd.1), stoi_of_digits hd]

theorem heading_has {l : Line} {n : Nat} (h : Heading l n) : "SUBCASE".toList <:+: l := by
  obtain ⟨⟨pre, gap, ds, tail, rfl, _⟩, _⟩ := h
  exact ⟨pre, _, rfl⟩

theorem heading_parse {l : Line} {n : Nat} (h : Heading l n) (cur : Int) : parseSubcase cur l = .ok n := by
  obtain ⟨⟨pre, gap, ds, tail, rfl, hpre, hgap, hds, htail⟩, _⟩ := h
  exact parse_of_after cur (after?_first (by decide) pre _ hpre) (trim_digits hgap hds.2.1 hds.1 htail) hds

theorem trim_heading {pre gap ds tail : Line} (hd : ∀ c ∈ ds, c.isDigit = true) (hne : ds ≠ []) (ht : Blank tail) :
    trim (pre ++ "SUBCASE".toList ++ (gap ++ ds ++ tail)) = pre.dropWhile isSpace ++ "SUBCASE".toList ++ (gap ++ ds) := by
  obtain ⟨init, b, hib⟩ : ∃ init b, ds = init ++ [b] := ⟨_, _, (List.dropLast_append_getLast hne).symm⟩
  have hS : ("SUBCASE".toList : Line) = 'S' :: "UBCASE".toList := rfl
  have h1 : pre ++ "SUBCASE".toList ++ (gap ++ ds ++ tail) = pre ++ 'S' :: (("UBCASE".toList ++ gap ++ init) ++ [b]) ++ tail := by
    rw [hS, hib]; simp
  rw [h1, trim_mid pre _ tail (by decide) (digit_space (hd b (by simp [hib]))) ht, hS, hib]
  simp

theorem heading_parse_trim {l : Line} {n : Nat} (h : Heading l n) (cur : Int) : parseSubcase cur (trim l) = .ok n := by
  obtain ⟨⟨pre, gap, ds, tail, rfl, hpre, hgap, hds, htail⟩, _⟩ := h
  rw [trim_heading hds.2.1 hds.1 htail]
  refine parse_of_after (t := gap ++ ds) cur (after?_first (by decide) _ _ fun hi => hpre (hi.trans ?_)) ?_ hds
  · have : pre.dropWhile isSpace <:+ pre := List.dropWhile_suffix _
    obtain ⟨a, ha⟩ := this
    refine ⟨a, [], ?_⟩
    have h2 : ("SUBCASE".toList : Line).dropLast = "SUBCAS".toList := by decide
    rw [h2, List.append_nil, ← List.append_assoc, ha]
  · have := trim_digits (tail := []) hgap hds.2.1 hds.1 (by intro c hc; exact absurd hc (by simp))
    simpa using this

theorem heading_has_trim {l : Line} {n : Nat} (h : Heading l n) : "SUBCASE".toList <:+: trim l := by
  obtain ⟨⟨pre, gap, ds, tail, rfl, hpre, hgap, hds, htail⟩, _⟩ := h
  rw [trim_heading hds.2.1 hds.1 htail]
  exact ⟨_, _, rfl⟩

theorem not_infix_trim {pat l : Line} (h : ¬ pat <:+: l) : ¬ pat <:+: trim l := fun hi => h (hi.trans (trim_infix l))

/-! ## The main loop -/

theorem title_free : ¬ "SUBCASE".toList <:+: displacementTitle ∧ ¬ "SUBCASE".toList <:+: eigenTitle ∧
    ¬ "SUBCASE".toList <:+: complexSectionTitle ∧ ¬ "LOAD STEP = ".toList <:+: displacementTitle := by
  refine ⟨?_, ?_, ?_, ?_⟩ <;> rw [← has_iff] <;> decide

theorem sectionAt_none (w : World) (st : Status) (atEnd : Option Line) (line : Line) (rest : List Line)
    (h1 : line ≠ displacementTitle) (h2 : line ≠ eigenTitle) (h3 : line ≠ complexSectionTitle)
    (h4 : ¬ "S T R E S S E S".toList <:+: line) : sectionAt w st atEnd line rest = .ok none := by
  have h5 : isStressTitle line = false := by
    rw [isStressTitle, has_false.2 h4, Bool.false_and]
  rw [sectionAt, if_neg h1, if_neg h2, if_neg h3, if_neg (by rw [h5]; simp)]

theorem read_silent (st : Status) (line : Line) (h : ¬ "SUBCASE".toList <:+: line) :
    ∃ s f, st.read line = .ok ⟨st.subcase, s, f⟩ := by
  unfold Status.read
  rw [if_neg (by rw [has_iff]; exact h), Outcome.bind_ok]
  cases after? "LOAD STEP = ".toList line <;> cases after? "FREQUENCY = ".toList line <;> exact ⟨_, _, rfl⟩

theorem read_heading (st : Status) {l : Line} {n : Nat} (h : Heading l n) : ∃ f, st.read (trim l) = .ok ⟨n, -1, f⟩ := by
  unfold Status.read
  rw [if_pos (by rw [has_iff]; exact heading_has_trim h), heading_parse_trim h, Outcome.bind_ok, Outcome.bind_ok,
    after?_none (not_infix_trim h.2.2.1)]
  cases after? "FREQUENCY = ".toList (trim l) <;> exact ⟨_, rfl⟩

theorem blank_not {l : Line} (h : Blank l) {c : Char} (hc : isSpace c = false) : c ∉ l := by
  intro hm
  rw [h c hm] at hc
  exact absurd hc (by simp)

theorem trim_step {pre gap t tail : Line} (hp : Blank pre) (hne : t ≠ []) (ht : ∀ c ∈ t, isSpace c = false) (htl : Blank tail) :
    trim (pre ++ "LOAD STEP = ".toList ++ (gap ++ t ++ tail)) = "LOAD STEP = ".toList ++ (gap ++ t) := by
  obtain ⟨init, b, hib⟩ : ∃ init b, t = init ++ [b] := ⟨_, _, (List.dropLast_append_getLast hne).symm⟩
  have hS : ("LOAD STEP = ".toList : Line) = 'L' :: "OAD STEP = ".toList := rfl
  have h1 : pre ++ "LOAD STEP = ".toList ++ (gap ++ t ++ tail) =
      pre ++ 'L' :: (("OAD STEP = ".toList ++ gap ++ init) ++ [b]) ++ tail := by
    rw [hS, hib]; simp
  rw [h1, trim_mid pre _ tail (by decide) (ht b (by simp [hib])) htl, dropWhile_nil_of_all hp, hS, hib]
  simp

theorem words_one {gap t : Line} (hg : Blank gap) (hne : t ≠ []) (ht : ∀ c ∈ t, isSpace c = false) : words (gap ++ t) = [t] := by
  have h := wordsFrom_word t [] [] ht
  rw [List.append_nil, List.nil_append] at h
  rw [words, wordsFrom_spaces _ _ hg, h]
  simp [wordsFrom, hne]

theorem number_spaces {t : Line} {x : Dbl} (h : lexicalDouble t = some x) : ∀ c ∈ t, isSpace c = false :=
  fun _ hc => numberChar_space (number_chars h hc)

/-- The characters of the line of a load step. -/
theorem step_free {gap t : Line} {x : Dbl} (hg : Blank gap) (ht : lexicalDouble t = some x) {pat : Line} (c : Char)
    (hc : c ∈ pat) (hb : isSpace c = false ∧ numberChar c = false ∧ c ∉ "LOAD STEP = ".toList) :
    ¬ pat <:+: "LOAD STEP = ".toList ++ (gap ++ t) := by
  refine not_infix_of_char hc fun hm => ?_
  rcases List.mem_append.1 hm with h | h
  · exact hb.2.2 h
  rcases List.mem_append.1 h with h | h
  · exact blank_not hg hb.1 h
  · rw [number_chars ht h] at hb
    exact absurd hb.2.1 (by simp)

theorem step_ne {gap t : Line} {title : Line} (h : title.head? ≠ some 'L') : "LOAD STEP = ".toList ++ (gap ++ t) ≠ title := by
  intro he
  apply h
  rw [← he]
  rfl

theorem main_step (w : World) (atEnd : Option Line) (fuel : Nat) (st : Status) {l : Line} {x : Dbl} (rest : List Line)
    (h : StepLine l x) :
    mainLoop w atEnd (fuel + 1) st (l :: rest) = mainLoop w atEnd fuel { st with step := x } rest := by
  obtain ⟨pre, gap, t, tail, rfl, hpre, hgap, ht, htail⟩ := h
  have htr := trim_step (gap := gap) hpre (number_ne_nil ht) (number_spaces ht) htail
  have hafter : after? "LOAD STEP = ".toList ("LOAD STEP = ".toList ++ (gap ++ t)) = some (gap ++ t) := by
    have := after?_first (pat := "LOAD STEP = ".toList) (by decide) [] (gap ++ t) (by rw [← has_iff]; decide)
    simpa using this
  have hread : st.read ("LOAD STEP = ".toList ++ (gap ++ t)) = .ok { st with step := x } := by
    unfold Status.read
    rw [if_neg (by rw [has_iff]; exact step_free hgap ht 'U' (by decide) (by decide)), Outcome.bind_ok, hafter,
      after?_none (step_free hgap ht 'Q' (by decide) (by decide))]
    simp only [streamDouble, words_one hgap (number_ne_nil ht) (number_spaces ht), ht]
  have hsec : sectionAt w { st with step := x } atEnd ("LOAD STEP = ".toList ++ (gap ++ t)) rest = .ok none :=
    sectionAt_none _ _ _ _ _ (step_ne (by decide)) (step_ne (by decide)) (step_ne (by decide))
      (step_free hgap ht 'R' (by decide) (by decide))
  rw [mainLoop]
  simp only [htr, hread, Outcome.bind_ok, hsec]

/-- Silent lines are passed over. -/
theorem main_silent (w : World) (atEnd : Option Line) : ∀ (ls : List Line) (fuel : Nat) (st : Status) (rest : List Line),
    (∀ l ∈ ls, Silent l) → ∃ s f, mainLoop w atEnd (fuel + ls.length) st (ls ++ rest) =
      mainLoop w atEnd fuel ⟨st.subcase, s, f⟩ rest := by
  intro ls
  induction ls with
  | nil => intro fuel st rest _; exact ⟨st.step, st.frequency, rfl⟩
  | cons l ls ih =>
    intro fuel st rest h
    obtain ⟨h1, h2, h3, h4, h5⟩ := h l (by simp)
    obtain ⟨s, f, hr⟩ := read_silent st (trim l) (not_infix_trim h1)
    obtain ⟨s', f', hm⟩ := ih fuel ⟨st.subcase, s, f⟩ rest (fun q hq => h q (by simp [hq]))
    refine ⟨s', f', ?_⟩
    rw [← hm, List.length_cons, ← Nat.add_assoc, List.cons_append, mainLoop]
    simp only [hr, Outcome.bind_ok, sectionAt_none w _ atEnd (trim l) (ls ++ rest) h3 h4 h5 (not_infix_trim h2)]

theorem main_heading (w : World) (atEnd : Option Line) (fuel : Nat) (st : Status) {l : Line} {n : Nat} (rest : List Line)
    (h : Heading l n) : ∃ f, mainLoop w atEnd (fuel + 1) st (l :: rest) = mainLoop w atEnd fuel ⟨n, -1, f⟩ rest := by
  obtain ⟨f, hr⟩ := read_heading st h
  have hh := heading_has_trim h
  refine ⟨f, ?_⟩
  have hne : ∀ t : Line, ¬ "SUBCASE".toList <:+: t → trim l ≠ t := fun t ht he => ht (he ▸ hh)
  rw [mainLoop]
  simp only [hr, Outcome.bind_ok, sectionAt_none w _ atEnd (trim l) rest (hne _ title_free.1) (hne _ title_free.2.1)
    (hne _ title_free.2.2.1) (not_infix_trim h.2.1)]

/-- Where a table ends: the subcase found, and the lines left. -/
def After (rest : List Line) (next : Int) (left : List Line) : Prop :=
  (rest = [] ∧ next = noSubcase ∧ left = []) ∨
  (∃ l n, rest = l :: left ∧ Heading l n ∧ next = n) ∨
  (∃ l, rest = l :: left ∧ Ends l ∧ next = noSubcase)

theorem loop_after (w : World) (subcase : Int) (step : Dbl) {rest : List Line} {next : Int} {left : List Line}
    (found : List Added) (h : After rest next left) :
    displacementLoop w subcase step rest found = .ok ⟨next, found, left, false⟩ := by
  rcases h with ⟨rfl, rfl, rfl⟩ | ⟨l, n, rfl, hh, rfl⟩ | ⟨l, rfl, he, rfl⟩
  · rfl
  · rw [displacementLoop, if_neg (by rw [has_iff]; exact hh.2.2.2), if_pos (by rw [has_iff]; exact heading_has hh), endAt,
      heading_parse hh]
  · rw [displacementLoop, if_neg (by rw [has_iff]; exact he.1), if_neg (by rw [has_iff]; exact he.2.1)]
    rcases he.2.2 with ⟨c, t, rfl, hc⟩ | ⟨ws, hs, hne, hl⟩
    · rw [if_pos (by simp [hc])]
    · by_cases hq : (!(l.head?.any isSpace)) = true
      · rw [if_pos hq]
      · rw [if_neg hq, spread_words hs, if_pos hl]

theorem main_title (w : World) (global : Nat → V3 → V3) (atEnd : Option Line) (p : Page) (hp : p.Printed)
    (hg : ∀ r ∈ p.rows, w.toGlobal r.node = .ok (global r.node)) (fuel : Nat) (st : Status)
    (hsub : st.subcase = p.subcase)
    (hstep : st.step = match p.step with
      | none => -1
      | some s => s.2) {rest left : List Line} {next : Int} (ha : After rest next left) :
    ∃ s f, mainLoop w atEnd (fuel + 1) st (p.title :: p.columns :: (p.rows.map (·.line) ++ rest)) =
      (if w.analyses.contains (p.subcase : Int) then
        mainLoop w atEnd fuel ⟨next, s, f⟩ left >>= fun more => .ok (p.tests global ++ more) else .ub) := by
  obtain ⟨-, -, -, -, ⟨pre, tail, ht, hpre, htail⟩, hrows⟩ := hp
  have htrim : trim p.title = displacementTitle := by
    have h1 : p.title = pre ++ 'D' :: (" I S P L A C E M E N T   V E C T O ".toList ++ ['R']) ++ tail := by
      rw [ht]; rfl
    rw [h1, trim_mid pre _ tail (by decide) (by decide) htail, dropWhile_nil_of_all hpre]
    rfl
  obtain ⟨s, f, hr⟩ : ∃ s f, st.read displacementTitle = .ok ⟨st.subcase, s, f⟩ ∧ s = st.step := by
    refine ⟨st.step, st.frequency, ?_, rfl⟩
    unfold Status.read
    rw [if_neg (by rw [has_iff]; exact title_free.1), Outcome.bind_ok, after?_none title_free.2.2.2,
      after?_none (by rw [← has_iff]; decide)]
  obtain ⟨hr, rfl⟩ := hr
  refine ⟨st.step, f, ?_⟩
  have hsec : displacementSection w p.subcase st.step (p.columns :: (p.rows.map (·.line) ++ rest)) =
      .ok ⟨next, p.tests global, left, false⟩ := by
    rw [displacementSection, List.drop_one, List.tail_cons, loop_rows w global p st.step hstep _ _ _ hrows hg,
      List.nil_append, loop_after _ _ _ _ ha]
    rfl
  have hne : (p.subcase : Int) ≠ noSubcase := by
    unfold noSubcase; omega
  rw [mainLoop]
  simp only [htrim, hr, Outcome.bind_ok]
  rw [sectionAt, if_pos rfl]
  simp only [hsub, hsec, Outcome.bind_ok, caught, Bool.false_and, Bool.false_eq_true, if_false, addFound]
  rw [if_pos hne]
  by_cases hc : w.analyses.contains (p.subcase : Int) = true
  · rw [if_pos hc, if_pos hc]
    simp only [Outcome.bind_ok]
  · rw [if_neg hc, if_neg hc]
    rfl

/-- The lines of a page after that of the subcase. -/
def body (p : Page) : List Line :=
  (match p.step with
    | none => []
    | some s => [s.1]) ++ (p.title :: p.columns :: p.rows.map (·.line))

theorem lines_eq (p : Page) : p.lines = p.lead ++ p.heading :: body p := by
  unfold Page.lines body
  cases p.step <;> simp

/-- The beginning of what a page still needs. -/
def Ready (p : Page) (st : Status) : Prop := st.subcase = p.subcase ∧ (p.step = none → st.step = -1)

theorem main_body (w : World) (global : Nat → V3 → V3) (atEnd : Option Line) (p : Page) (hp : p.Printed)
    (hg : ∀ r ∈ p.rows, w.toGlobal r.node = .ok (global r.node)) (fuel : Nat) (st : Status) (hr : Ready p st)
    {rest left : List Line} {next : Int} (ha : After rest next left) (hf : (body p).length + rest.length < fuel) :
    ∃ s f k, left.length < k ∧ mainLoop w atEnd fuel st (body p ++ rest) =
      (if w.analyses.contains (p.subcase : Int) then
        mainLoop w atEnd k ⟨next, s, f⟩ left >>= fun more => .ok (p.tests global ++ more) else .ub) := by
  have hleft : left.length ≤ rest.length := by
    rcases ha with ⟨rfl, _, rfl⟩ | ⟨l, n, rfl, _⟩ | ⟨l, rfl, _⟩ <;> simp
  unfold body at hf ⊢
  cases hs : p.step with
  | none =>
    simp only [hs, List.nil_append, List.length_cons, List.length_map] at hf ⊢
    obtain ⟨k, rfl⟩ : ∃ k, fuel = k + 1 := ⟨fuel - 1, by omega⟩
    obtain ⟨s, f, h⟩ := main_title w global atEnd p hp hg k st hr.1 (by rw [hs]; exact hr.2 hs) ha
    exact ⟨s, f, k, by omega, by simpa using h⟩
  | some x =>
    simp only [hs, List.cons_append, List.nil_append, List.length_cons, List.length_map] at hf ⊢
    obtain ⟨k, rfl⟩ : ∃ k, fuel = k + 1 + 1 := ⟨fuel - 2, by omega⟩
    rw [main_step w atEnd (k + 1) st _ (hp.2.2.2.1 x (by rw [hs]; rfl))]
    obtain ⟨s, f, h⟩ := main_title w global atEnd p hp hg k { st with step := x.2 } hr.1 (by rw [hs]) ha
    exact ⟨s, f, k, by omega, h⟩

/-- The lines after the pages. -/
def Closed (back : List Line) : Prop := (∀ l ∈ back, Silent l) ∧ ∀ l ∈ back.head?, Ends l

/-- From the lines of a page that are not of interest to its table. -/
theorem main_enter (w : World) (atEnd : Option Line) (p : Page) (hp : p.Printed) (ls rest : List Line)
    (hls : ∀ l ∈ ls, Silent l) (fuel : Nat) (st : Status) (hf : ls.length + rest.length + 1 < fuel) :
    ∃ st' k, Ready p st' ∧ rest.length < k ∧
      mainLoop w atEnd fuel st (ls ++ p.heading :: rest) = mainLoop w atEnd k st' rest := by
  obtain ⟨k, rfl⟩ : ∃ k, fuel = k + 1 + ls.length := ⟨fuel - 1 - ls.length, by omega⟩
  obtain ⟨s, f, h⟩ := main_silent w atEnd ls (k + 1) st (p.heading :: rest) hls
  obtain ⟨f', h'⟩ := main_heading w atEnd k ⟨st.subcase, s, f⟩ rest hp.2.2.1
  exact ⟨⟨p.subcase, -1, f'⟩, k, ⟨rfl, fun _ => rfl⟩, by omega, by rw [h, h']⟩

theorem main_pages (w : World) (global : Nat → V3 → V3) (atEnd : Option Line) (back : List Line) (hb : Closed back) :
    ∀ (ps : List Page) (p : Page) (fuel : Nat) (st : Status), Ready p st → (∀ q ∈ p :: ps, q.Printed) →
    (∀ q ∈ p :: ps, ∀ r ∈ q.rows, w.toGlobal r.node = .ok (global r.node)) →
    (∀ q ∈ p :: ps, (q.subcase : Int) ∈ w.analyses) → (∀ q ∈ ps, q.lead ≠ [] ∨ q.step ≠ none) →
    (body p ++ (ps.flatMap Page.lines ++ back)).length < fuel →
    mainLoop w atEnd fuel st (body p ++ (ps.flatMap Page.lines ++ back)) =
      .ok ((p :: ps).flatMap fun q => q.tests global) := by
  intro ps
  induction ps with
  | nil =>
    intro p fuel st hr hp hg hw _ hf
    rw [List.flatMap_nil, List.nil_append] at hf ⊢
    have hw := List.contains_iff_mem.2 (hw p (by simp))
    obtain ⟨left, ha, hl⟩ : ∃ left, After back noSubcase left ∧ ∀ l ∈ left, Silent l := by
      cases back with
      | nil => exact ⟨[], Or.inl ⟨rfl, rfl, rfl⟩, by simp⟩
      | cons l b => exact ⟨b, Or.inr (Or.inr ⟨l, rfl, hb.2 l rfl, rfl⟩), fun q hq => hb.1 q (by simp [hq])⟩
    obtain ⟨s, f, k, hk, h⟩ := main_body w global atEnd p (hp p (by simp)) (hg p (by simp)) fuel st hr ha (by simpa using hf)
    obtain ⟨j, rfl⟩ : ∃ j, k = j + 1 + left.length := ⟨k - 1 - left.length, by omega⟩
    obtain ⟨s', f', h'⟩ := main_silent w atEnd left (j + 1) ⟨noSubcase, s, f⟩ [] hl
    rw [List.append_nil] at h'
    rw [h, if_pos hw, h', mainLoop]
    simp
  | cons q ps ih =>
    intro p fuel st hr hp hg hw hq hf
    have hwp := List.contains_iff_mem.2 (hw p (by simp))
    have hpq := hp q (by simp)
    have next : ∀ (k : Nat) (st : Status), Ready q st → (body q ++ (ps.flatMap Page.lines ++ back)).length < k →
        mainLoop w atEnd k st (body q ++ (ps.flatMap Page.lines ++ back)) = .ok ((q :: ps).flatMap fun q => q.tests global) :=
      fun k st hst hk => ih q k st hst (fun x hx => hp x (by simp at hx ⊢; tauto)) (fun x hx => hg x (by simp at hx ⊢; tauto))
        (fun x hx => hw x (by simp at hx ⊢; tauto)) (fun x hx => hq x (by simp [hx])) hk
    have hflat : (q :: ps).flatMap Page.lines ++ back =
        q.lead ++ q.heading :: (body q ++ (ps.flatMap Page.lines ++ back)) := by
      simp [lines_eq]
    rw [hflat] at hf ⊢
    cases hl : q.lead with
    | nil =>
      rw [hl, List.nil_append] at hf
      rw [List.nil_append]
      have ha : After (q.heading :: (body q ++ (ps.flatMap Page.lines ++ back))) q.subcase
          (body q ++ (ps.flatMap Page.lines ++ back)) := Or.inr (Or.inl ⟨_, _, rfl, hpq.2.2.1, rfl⟩)
      obtain ⟨s, f, k, hk, h⟩ := main_body w global atEnd p (hp p (by simp)) (hg p (by simp)) fuel st hr ha (by simpa using hf)
      have hs : q.step ≠ none := (hq q (by simp)).resolve_left (by simp [hl])
      rw [h, if_pos hwp, next k _ ⟨rfl, fun h0 => absurd h0 hs⟩ hk]
      simp
    | cons l ls =>
      rw [hl, List.cons_append] at hf
      rw [List.cons_append]
      have ha : After (l :: (ls ++ q.heading :: (body q ++ (ps.flatMap Page.lines ++ back)))) noSubcase
          (ls ++ q.heading :: (body q ++ (ps.flatMap Page.lines ++ back))) :=
        Or.inr (Or.inr ⟨l, rfl, hpq.2.1 l (by rw [hl]; rfl), rfl⟩)
      obtain ⟨s, f, k, hk, h⟩ := main_body w global atEnd p (hp p (by simp)) (hg p (by simp)) fuel st hr ha (by simpa using hf)
      obtain ⟨st', k', hr', hk', h'⟩ := main_enter w atEnd q hpq ls (body q ++ (ps.flatMap Page.lines ++ back))
        (fun x hx => hpq.1 x (by rw [hl]; simp [hx])) k ⟨noSubcase, s, f⟩ (by simp at hk ⊢; omega)
      rw [h, if_pos hwp, h', next k' st' hr' hk']
      simp

theorem trim_isEmpty (l : Line) : (trim l).isEmpty = l.all isSpace := by
  unfold trim trimRight
  by_cases h : l.all isSpace = true
  · have h' : ∀ c ∈ l, isSpace c = true := List.all_eq_true.1 h
    rw [dropWhile_nil_of_all h', h]
    rfl
  · have hne : l.dropWhile isSpace ≠ [] := fun h0 => h (by
      rw [List.all_eq_true]
      intro c hc
      rcases takeWhile_dropWhile_mem (p := isSpace) hc with h | h1
      · exact h
      · rw [h0] at h1; exact absurd h1 (by simp))
    have hd : ((l.dropWhile isSpace).reverse.dropWhile isSpace).reverse ≠ [] := by
      intro h0
      rw [List.reverse_eq_nil_iff] at h0
      cases hq : l.dropWhile isSpace with
      | nil => exact hne hq
      | cons c t =>
        have h1 : isSpace c = true := by
          have hm : c ∈ (l.dropWhile isSpace).reverse := by rw [hq]; simp
          rcases takeWhile_dropWhile_mem (p := isSpace) hm with h | h1
          · exact h
          · rw [h0] at h1; exact absurd h1 (by simp)
        have h2 := List.head?_dropWhile_not isSpace l
        rw [hq] at h2
        simp [h1] at h2
    rw [Bool.eq_false_iff.2 h, List.isEmpty_eq_false_iff]
    exact hd

theorem written_eq (file : List Line) : (file.filter fun l => !(trim l).isEmpty) = written file := by
  unfold written
  congr 1
  funext l
  rw [trim_isEmpty]
  induction l with
  | nil => rfl
  | cons c l ih => simp only [List.all_cons, List.any_cons, Bool.not_and, ih]

/-! ## The properties -/

/-- **C95 (displacements), partial.** In a file of pages printed by Nastran, whatever the blank lines, the lines before, between
and after the pages, the mode, and the newline at the end of the file, each row of each table gives six tests, one for each
degree of freedom, of the subcase of its page at its load step, and there are no others. Missing: pages without lines before
the subcase must have a load step (see `C95_stale_step_false`); each table must come with its subcase (see
`C95_second_table_false`), known to the model (see `C95_unknown_false`); rounding. -/
theorem C95_pages_partial (w : World) (global : Nat → V3 → V3) (terminated : Bool) (file front back : List Line)
    (pages : List Page) (hfile : written file = front ++ pages.flatMap Page.lines ++ back)
    (hfront : ∀ l ∈ front, Silent l) (hpages : ∀ p ∈ pages, p.Printed)
    (hlead : ∀ p ∈ pages.tail, p.lead ≠ [] ∨ p.step ≠ none)
    (hback : (∀ l ∈ back, Silent l) ∧ ∀ l ∈ back.head?, Ends l)
    (hglobal : ∀ p ∈ pages, ∀ r ∈ p.rows, w.toGlobal r.node = .ok (global r.node))
    (hknown : ∀ p ∈ pages, (p.subcase : Int) ∈ w.analyses) :
    addAssertions w (inputOf terminated file) = .ok (pages.flatMap fun p => p.tests global) := by
  unfold addAssertions inputOf
  simp only [written_eq, hfile]
  generalize endOf terminated file = atEnd
  cases pages with
  | nil =>
    rw [List.flatMap_nil, List.append_nil]
    obtain ⟨s, f, h⟩ := main_silent w atEnd (front ++ back) 1 Status.init []
      (fun l hl => (List.mem_append.1 hl).elim (hfront l) (hback.1 l))
    rw [List.append_nil, Nat.add_comm] at h
    rw [h]
    rfl
  | cons p ps =>
    have hflat : front ++ (p :: ps).flatMap Page.lines ++ back =
        (front ++ p.lead) ++ p.heading :: (body p ++ (ps.flatMap Page.lines ++ back)) := by
      simp [lines_eq]
    rw [hflat]
    generalize hfuel : (_ : List Line).length + 1 = fuel
    have hp := hpages p (by simp)
    obtain ⟨st', k, hr, hk, h⟩ := main_enter w atEnd p hp (front ++ p.lead) (body p ++ (ps.flatMap Page.lines ++ back))
      (fun l hl => (List.mem_append.1 hl).elim (hfront l) (hp.1 l)) fuel Status.init (by
        rw [← hfuel]; simp only [List.length_append, List.length_cons]; omega)
    rw [h]
    exact main_pages w global atEnd back hback ps p k st' hr hpages hglobal hknown hlead hk

/-- A table whose subcase has no analysis in the model: the null pointer is followed, in every mode. -/
theorem C95_unknown_false (w : World) (global : Nat → V3 → V3) (terminated : Bool) (file front back : List Line)
    (p : Page) (hfile : written file = front ++ p.lines ++ back)
    (hfront : ∀ l ∈ front, Silent l) (hp : p.Printed) (hback : ∀ l ∈ back.head?, Ends l)
    (hglobal : ∀ r ∈ p.rows, w.toGlobal r.node = .ok (global r.node))
    (hunknown : (p.subcase : Int) ∉ w.analyses) :
    addAssertions w (inputOf terminated file) = .ub := by
  unfold addAssertions inputOf
  simp only [written_eq, hfile]
  generalize endOf terminated file = atEnd
  have hflat : front ++ p.lines ++ back = (front ++ p.lead) ++ p.heading :: (body p ++ back) := by
    simp [lines_eq]
  rw [hflat]
  generalize hfuel : (_ : List Line).length + 1 = fuel
  obtain ⟨st', k, hr, hk, h⟩ := main_enter w atEnd p hp (front ++ p.lead) (body p ++ back)
    (fun l hl => (List.mem_append.1 hl).elim (hfront l) (hp.1 l)) fuel Status.init (by
      rw [← hfuel]; simp only [List.length_append, List.length_cons]; omega)
  obtain ⟨left, ha⟩ : ∃ left, After back noSubcase left := by
    cases back with
    | nil => exact ⟨[], Or.inl ⟨rfl, rfl, rfl⟩⟩
    | cons l b => exact ⟨b, Or.inr (Or.inr ⟨l, rfl, hback l rfl, rfl⟩)⟩
  obtain ⟨s, f, k', _, h'⟩ := main_body w global atEnd p hp hglobal k st' hr ha (by simpa using hk)
  rw [h, h', if_neg (by simpa using hunknown)]

/-! ## Numbers -/

/-- C95. A negative number is read with its sign. -/
theorem C95_negative (t : Line) (n : Nat) (h : Digits t n) : stoi ('-' :: t) = some (-(n : Int)) := by
  unfold stoi
  simp only [Nastran.signed, takeWhile_all h.2.1]
  rw [if_neg (by simpa using h.1), h.2.2.1]
  have h1 := h.2.2.2
  have h2 : intMin ≤ -(n : Int) := by unfold intMin; unfold intMax at h1; omega
  have h3 : -(n : Int) ≤ intMax := by unfold intMax; omega
  simp [h2, h3]

example : Digits "12".toList 12 := ⟨by decide, by decide, by decide, by decide⟩

/-- C95. A load step of which the number is left out keeps the step before it. -/
theorem C95_blank_step (old : Dbl) (l : Line) (h : Blank l) : streamDouble old l = old := by
  have hw : words l = [] := by
    have := wordsFrom_spaces l [] h
    rw [List.append_nil] at this
    rw [words, this]
    rfl
  unfold streamDouble
  rw [hw]

example : Blank "  ".toList := by intro c hc; revert c; decide

end F06
end Vega
