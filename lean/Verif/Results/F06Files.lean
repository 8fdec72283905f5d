import Verif.Results.F06Props

/-! # C95: examples, what goes wrong, and the other tables -/
namespace Vega
namespace F06Spec
open Nastran (Line isSpace trim lexicalDouble natOf intMax)
open F06 (Added Assertion World)

/-- A line made of the given words, with or without a space before the first one. -/
def Words (ws : List Line) (l : Line) : Prop := Spread ws (' ' :: l)

/-! ## Frequencies -/

/-- A row of a table of frequencies: the number of the mode, its order of extraction, then the eigenvalue, the pulsation,
the frequency, the generalized mass and stiffness. -/
structure Mode where
  line : Line
  number : Nat
  order : Nat
  eigenvalue : Dbl
  radians : Dbl
  cycles : Dbl
  mass : Dbl
  stiffness : Dbl

def Mode.Printed (m : Mode) : Prop := ∃ n o e r c g k, Digits n m.number ∧ Digits o m.order ∧
  lexicalDouble e = some m.eigenvalue ∧ lexicalDouble r = some m.radians ∧ lexicalDouble c = some m.cycles ∧
  lexicalDouble g = some m.mass ∧ lexicalDouble k = some m.stiffness ∧ Words [n, o, e, r, c, g, k] m.line

/-- The end of a table whose rows have `n` words: the end of the file, a subcase, or a line that has not `n` words. -/
inductive TableEnd (n : Nat) : List Line → Int → List Line → Prop
  | file : TableEnd n [] (-1) []
  | subcase {l k rest} : Heading l k → TableEnd n (l :: rest) k rest
  | other {l ws rest} : ¬ "SUBCASE".toList <:+: l → Words ws l → ws.length ≠ n → TableEnd n (l :: rest) (-1) rest

/-! ## Complex displacements -/

/-- Two rows for a node: the real parts (or the magnitudes) after the number of the node, then the imaginary ones. -/
structure ComplexRow where
  line1 : Line
  line2 : Line
  node : Nat
  parts : List (Dbl × Dbl)

def ComplexRow.Printed (r : ComplexRow) : Prop := ∃ z n as bs k, Digits z k ∧ Digits n r.node ∧ r.parts.length = 6 ∧
  List.Forall₂ (fun t p => lexicalDouble t = some p.1) as r.parts ∧
  List.Forall₂ (fun t p => lexicalDouble t = some p.2) bs r.parts ∧
  Words (z :: n :: "G".toList :: as) r.line1 ∧ Words bs r.line2

/-- The tests of a node. -/
def ComplexRow.tests (subcase : Int) (frequency : Dbl) (r : ComplexRow) : List Added :=
  (List.zip [Dof.DX, .DY, .DZ, .RX, .RY, .RZ] r.parts).map fun v =>
    ⟨subcase, .complex r.node v.1 (rounded v.2.1) (rounded v.2.2) frequency⟩

end F06Spec

namespace F06
open Nastran (Line isSpace trim lexicalDouble natOf intMax)
open NastranWrite (V3)
open F06Spec

theorem words_of {ws : List Line} {l : Line} (h : Words ws l) : words l = ws := by
  have h1 := spread_words h
  have h2 : words (' ' :: l) = words l := by
    rw [words, wordsFrom, if_pos (by decide)]
    rfl
  rw [← h2, h1]

theorem words_chars {ws : List Line} {l : Line} (h : Words ws l) {c : Char} (hc : c ∈ l) :
    isSpace c = true ∨ ∃ w ∈ ws, c ∈ w := spread_chars h (List.mem_cons_of_mem _ hc)

theorem number_free {ws : List Line} {l : Line} (h : Words ws l)
    (hw : ∀ w ∈ ws, ∀ c ∈ w, numberChar c = true ∨ c = 'G') : ¬ "SUBCASE".toList <:+: l := by
  refine not_infix_of_char (c := 'U') (by decide) fun hm => ?_
  rcases words_chars h hm with h | ⟨w, hm, h⟩
  · exact absurd h (by decide)
  · rcases hw w hm _ h with h | h <;> exact absurd h (by decide)

theorem tableEnd_cases {n : Nat} {rest : List Line} {next : Int} {left : List Line} (h : TableEnd n rest next left) :
    (rest = [] ∧ next = noSubcase ∧ left = []) ∨
    (∃ l, rest = l :: left ∧ has "SUBCASE".toList l = true ∧ ∀ found, endAt l found left = ⟨next, found, left, false⟩) ∨
    (∃ l, rest = l :: left ∧ has "SUBCASE".toList l = false ∧ (words l).length ≠ n ∧ next = noSubcase) := by
  cases h with
  | file => exact Or.inl ⟨rfl, rfl, rfl⟩
  | @subcase l k rest hh =>
    refine Or.inr (Or.inl ⟨l, rfl, has_iff.2 (heading_has hh), fun found => ?_⟩)
    rw [endAt, heading_parse hh]
  | @other l ws rest h1 h2 h3 =>
    exact Or.inr (Or.inr ⟨l, rfl, has_false.2 h1, by rw [words_of h2]; exact h3, rfl⟩)

/-! ## Frequencies -/

theorem mode_row {m : Mode} (h : m.Printed) (subcase : Int) : has "SUBCASE".toList m.line = false ∧ (words m.line).length = 7 ∧
    eigenRow subcase (words m.line) = some ⟨subcase, .frequency m.number (rounded m.cycles)⟩ := by
  obtain ⟨n, o, e, r, c, g, k, hn, ho, he, hr, hc, hg, hk, hw⟩ := h
  refine ⟨has_false.2 (number_free hw ?_), by rw [words_of hw]; rfl, ?_⟩
  · intro w hm c hc'
    simp only [List.mem_cons, List.not_mem_nil, or_false] at hm
    rcases hm with rfl | rfl | rfl | rfl | rfl | rfl | rfl
    · exact Or.inl (digits_numberChar hn hc')
    · exact Or.inl (digits_numberChar ho hc')
    · exact Or.inl (number_chars he hc')
    · exact Or.inl (number_chars hr hc')
    · exact Or.inl (number_chars hc hc')
    · exact Or.inl (number_chars hg hc')
    · exact Or.inl (number_chars hk hc')
  · rw [words_of hw]
    simp only [eigenRow, stoi_of_digits hn, stod_number he, stod_number hc, stod_number hg, stod_number hk]
    rfl

theorem eigen_rows (subcase : Int) {rest left : List Line} {next : Int} (h : TableEnd 7 rest next left) :
    ∀ (modes : List Mode) (found : List Added), (∀ m ∈ modes, m.Printed) →
    eigenLoop subcase (modes.map (·.line) ++ rest) found = ⟨next, found ++ modes.map fun m =>
      ⟨subcase, .frequency m.number (rounded m.cycles)⟩, left, false⟩ := by
  intro modes
  induction modes with
  | nil =>
    intro found _
    simp only [List.map_nil, List.nil_append, List.append_nil]
    rcases tableEnd_cases h with ⟨rfl, rfl, rfl⟩ | ⟨l, rfl, h1, h2⟩ | ⟨l, rfl, h1, h2, rfl⟩
    · rfl
    · rw [eigenLoop, if_pos h1, h2]
    · rw [eigenLoop, if_neg (by rw [h1]; simp), if_pos h2]
  | cons m modes ih =>
    intro found hm
    obtain ⟨h1, h2, h3⟩ := mode_row (hm m (by simp)) subcase
    rw [List.map_cons, List.cons_append, eigenLoop, if_neg (by rw [h1]; simp), if_neg (by rw [h2]; simp), h3]
    simp only
    rw [ih _ fun q hq => hm q (by simp [hq])]
    simp

theorem eigenHeader_found : ∀ (heads : List Line) (order : Line) (rest : List Line),
    (∀ l ∈ heads, ¬ "ORDER".toList <:+: l ∧ ¬ "AFTER AUGMENTATION OF RESIDUAL VECTORS".toList <:+: l ∧
      ¬ "ACTUAL MODES USED IN THE DYNAMIC ANALYSIS".toList <:+: l) → "ORDER".toList <:+: order →
    eigenHeader (heads ++ order :: rest) = (rest, true) := by
  intro heads order rest
  induction heads with
  | nil =>
    intro _ h
    rw [List.nil_append, eigenHeader, if_pos (has_iff.2 h)]
  | cons l heads ih =>
    intro hl h
    obtain ⟨h1, h2, h3⟩ := hl l (by simp)
    rw [List.cons_append, eigenHeader, if_neg (by rw [has_iff]; exact h1), if_neg (by rw [has_iff]; exact h2),
      if_neg (by rw [has_iff]; exact h3)]
    exact ih (fun q hq => hl q (by simp [hq])) h

/-- **C95 (frequencies), partial.** A table of frequencies gives a test for each of its rows, with the number of the mode and
the frequency, in the analysis of its subcase (none if the model does not have it, and for all the analyses without a
subcase). Missing: rounding; the table must end with a line that has not seven words (see `C95_seven_words_false`). -/
theorem C95_frequencies_partial (w : World) (st : Status) (atEnd : Option Line) (heads : List Line) (order : Line)
    (modes : List Mode) {rest left : List Line} {next : Int}
    (hheads : ∀ l ∈ heads, ¬ "ORDER".toList <:+: l ∧ ¬ "AFTER AUGMENTATION OF RESIDUAL VECTORS".toList <:+: l ∧
      ¬ "ACTUAL MODES USED IN THE DYNAMIC ANALYSIS".toList <:+: l) (horder : "ORDER".toList <:+: order)
    (hmodes : ∀ m ∈ modes, m.Printed) (hend : TableEnd 7 rest next left) :
    sectionAt w st atEnd "R E A L   E I G E N V A L U E S".toList (heads ++ order :: (modes.map (·.line) ++ rest)) =
      .ok (some (if st.subcase ∈ w.analyses ∨ (st.subcase = -1 ∧ w.analyses ≠ []) then
        modes.map fun m => ⟨st.subcase, .frequency m.number (rounded m.cycles)⟩ else [], next, left)) := by
  have hsec : eigenSection st.subcase (heads ++ order :: (modes.map (·.line) ++ rest)) = ⟨next, modes.map fun m =>
      ⟨st.subcase, .frequency m.number (rounded m.cycles)⟩, left, false⟩ := by
    rw [eigenSection]
    simp only [eigenHeader_found heads order _ hheads horder, if_true]
    rw [eigen_rows st.subcase hend modes [] hmodes, List.nil_append]
  change sectionAt w st atEnd eigenTitle _ = _
  rw [sectionAt, if_neg (by decide), if_pos rfl, hsec]
  simp only [caught, Bool.false_and, Bool.false_eq_true, if_false, Outcome.bind_ok, addFrequencies]
  by_cases hn : st.subcase = noSubcase
  · rw [if_neg (by simpa using hn)]
    have hn' : st.subcase = -1 := hn
    by_cases he : w.analyses = []
    · rw [if_pos (by simp [he]), if_neg (by simp [he])]
      rfl
    · rw [if_neg (by simpa using he), if_pos (Or.inr ⟨hn', he⟩)]
      rfl
  · rw [if_pos hn]
    have hn' : st.subcase ≠ -1 := hn
    by_cases hc : st.subcase ∈ w.analyses
    · rw [if_pos (List.contains_iff_mem.2 hc), if_pos (Or.inl hc)]
      rfl
    · rw [if_neg (by simpa using hc), if_neg (by simp [hc, hn'])]
      rfl

/-! ## Complex displacements -/

theorem complexParts_ok (subcase node : Int) (frequency : Dbl) : ∀ (ds : List Dof) (as bs : List Line) (ps : List (Dbl × Dbl))
    (found : List Added), ds.length = ps.length → List.Forall₂ (fun t p => lexicalDouble t = some p.1) as ps →
    List.Forall₂ (fun t p => lexicalDouble t = some p.2) bs ps →
    complexParts subcase node frequency (List.zip ds (List.zip as bs)) found = (found ++ (List.zip ds ps).map fun v =>
      ⟨subcase, .complex node v.1 (rounded v.2.1) (rounded v.2.2) frequency⟩, false) := by
  intro ds
  induction ds with
  | nil =>
    intro as bs ps found hl _ _
    simp [complexParts]
  | cons d ds ih =>
    intro as bs ps found hl ha hb
    cases ps with
    | nil => exact absurd hl (by simp)
    | cons p ps =>
      cases ha with
      | cons ha1 ha =>
        cases hb with
        | cons hb1 hb =>
          simp only [List.zip_cons_cons, complexParts, stod_number ha1, stod_number hb1, List.map_cons]
          rw [ih _ _ ps _ (by simpa using hl) ha hb]
          simp only [List.append_assoc, List.singleton_append]
          rfl

theorem forall2_chars {as : List Line} {ps : List (Dbl × Dbl)} {f : Dbl × Dbl → Dbl}
    (h : List.Forall₂ (fun t p => lexicalDouble t = some (f p)) as ps) : ∀ w ∈ as, ∀ c ∈ w, numberChar c = true := by
  induction h with
  | nil => intro w hw; exact absurd hw (by simp)
  | cons h1 _ ih =>
    intro w hw c hc
    rcases List.mem_cons.1 hw with rfl | hw
    · exact number_chars h1 hc
    · exact ih w hw c hc

theorem complex_row {r : ComplexRow} (h : r.Printed) (subcase : Int) (frequency : Dbl) (found : List Added) :
    has "SUBCASE".toList r.line1 = false ∧ (words r.line1).length = 9 ∧
    complexNode subcase frequency found (words r.line1 ++ words r.line2) = (found ++ r.tests subcase frequency, false) := by
  obtain ⟨z, n, as, bs, k, hz, hn, hl, ha, hb, hw1, hw2⟩ := h
  have hla : as.length = 6 := by rw [ha.length_eq, hl]
  have hlb : bs.length = 6 := by rw [hb.length_eq, hl]
  refine ⟨has_false.2 (number_free hw1 ?_), by rw [words_of hw1]; simp [hla], ?_⟩
  · intro w hm c hc
    simp only [List.mem_cons] at hm
    rcases hm with rfl | rfl | rfl | hm
    · exact Or.inl (digits_numberChar hz hc)
    · exact Or.inl (digits_numberChar hn hc)
    · exact Or.inr (by simpa using hc)
    · exact Or.inl (forall2_chars (f := Prod.fst) ha w hm c hc)
  · rw [words_of hw1, words_of hw2]
    match as, bs, hla, hlb with
    | [a1, a2, a3, a4, a5, a6], [b1, b2, b3, b4, b5, b6], _, _ =>
      simp only [List.cons_append, List.nil_append, complexNode, stoi_of_digits hn]
      have := complexParts_ok subcase r.node frequency [.DX, .DY, .DZ, .RX, .RY, .RZ] _ _ r.parts found (by simp [hl]) ha hb
      simpa [ComplexRow.tests] using this

theorem complex_rows (subcase : Int) (frequency : Dbl) {rest left : List Line} {next : Int} (h : TableEnd 9 rest next left) :
    ∀ (rows : List ComplexRow) (found : List Added), (∀ r ∈ rows, r.Printed) →
    complexLoop subcase frequency (rows.flatMap (fun r => [r.line1, r.line2]) ++ rest) found =
      ⟨next, found ++ rows.flatMap (·.tests subcase frequency), left, false⟩ := by
  intro rows
  induction rows with
  | nil =>
    intro found _
    simp only [List.flatMap_nil, List.nil_append, List.append_nil]
    rcases tableEnd_cases h with ⟨rfl, rfl, rfl⟩ | ⟨l, rfl, h1, h2⟩ | ⟨l, rfl, h1, h2, rfl⟩
    · rfl
    · cases left with
      | nil => rw [complexLoop, if_pos h1, h2]
      | cons l' left => rw [complexLoop, if_pos h1, h2]
    · cases left with
      | nil =>
        rw [complexLoop, if_neg (by rw [h1]; simp)]
        simp [h2]
      | cons l' left => rw [complexLoop, if_neg (by rw [h1]; simp), if_pos h2]
  | cons r rows ih =>
    intro found hr
    obtain ⟨h1, h2, h3⟩ := complex_row (hr r (by simp)) subcase frequency found
    rw [List.flatMap_cons, List.append_assoc]
    simp only [List.cons_append, List.nil_append]
    rw [complexLoop, if_neg (by rw [h1]; simp), if_neg (by rw [h2]; simp), h3]
    simp only [Bool.false_eq_true, if_false]
    rw [ih _ fun q hq => hr q (by simp [hq])]
    simp

theorem complexHeader_found : ∀ (heads : List Line) (title : Line) (rest : List Line),
    (∀ l ∈ heads, ¬ complexTitle <:+: l) → complexTitle <:+: title → complexHeader (heads ++ title :: rest) = rest := by
  intro heads title rest
  induction heads with
  | nil => intro _ h; rw [List.nil_append, complexHeader, if_pos (has_iff.2 h)]
  | cons l heads ih =>
    intro hl h
    rw [List.cons_append, complexHeader, if_neg (by rw [has_iff]; exact hl l (by simp))]
    exact ih (fun q hq => hl q (by simp [hq])) h

/-- **C95 (complex displacements), partial.** A table of complex displacements gives six tests for each node, with the
frequency read last, in the analysis of its subcase. Missing: rounding; a table without subcase in a model without
analysis (see `C95_no_analysis_false`), or of an unknown subcase, is undefined behaviour; the numbers of the nodes' lines
are not converted to the global system, contrary to those of real displacements. -/
theorem C95_complex_partial (w : World) (st : Status) (atEnd : Option Line) (heads : List Line) (title : Line)
    (rows : List ComplexRow) {rest left : List Line} {next : Int}
    (hheads : ∀ l ∈ heads, ¬ complexTitle <:+: l) (htitle : complexTitle <:+: title)
    (hrows : ∀ r ∈ rows, r.Printed) (hend : TableEnd 9 rest next left)
    (hknown : st.subcase ∈ w.analyses ∨ (st.subcase = -1 ∧ w.analyses ≠ [])) :
    sectionAt w st atEnd "C O M P L E X   D I S P L A C E M E N T   V E C T O R".toList
      (heads ++ title :: (rows.flatMap (fun r => [r.line1, r.line2]) ++ rest)) =
      .ok (some (rows.flatMap (·.tests st.subcase st.frequency), next, left)) := by
  have hsec : complexSection st.subcase st.frequency (heads ++ title :: (rows.flatMap (fun r => [r.line1, r.line2]) ++ rest)) =
      ⟨next, rows.flatMap (·.tests st.subcase st.frequency), left, false⟩ := by
    rw [complexSection, complexHeader_found heads title _ hheads htitle, complex_rows _ _ hend rows [] hrows, List.nil_append]
  change sectionAt w st atEnd complexSectionTitle _ = _
  rw [sectionAt, if_neg (by decide), if_neg (by decide), if_pos rfl, hsec]
  simp only [caught, Bool.false_and, Bool.false_eq_true, if_false, Outcome.bind_ok, addComplex]
  by_cases hn : st.subcase = noSubcase
  · have hne : w.analyses ≠ [] := by
      rcases hknown with h | h
      · exact fun h0 => absurd (h0 ▸ h) (by simp)
      · exact h.2
    rw [if_neg (by simpa using hn), if_neg (by simpa using hne)]
    rfl
  · have hc : st.subcase ∈ w.analyses := hknown.resolve_right fun h => hn h.1
    rw [if_pos hn, if_pos (List.contains_iff_mem.2 hc)]
    rfl

/-! ## What goes wrong, and examples -/

/-- A model with the analyses 1 and 2 whose nodes are all in the global system. -/
def world12 (strict : Bool) : World := ⟨[1, 2], strict, fun _ => .ok id⟩

def head1 : Line := "0                     SUBCASE 1".toList
def head2 : Line := "0                     SUBCASE 2".toList
def pageLine : Line := "1    A BEAM            PAGE    9".toList
def stepLine : Line := "      LOAD STEP =  1.0".toList
def titleLine : Line := "       D I S P L A C E M E N T   V E C T O R".toList
def columnsLine : Line := "      POINT ID.   TYPE     T1     T2     T3     R1     R2     R3".toList
def row7 : Line := "      7      G      0.0   1.5   0.0   0.0   0.0   0.0".toList
def row8 : Line := "      8      G      0.0   2.5   0.0   0.0   0.0   0.0".toList
def row9 : Line := "      9      S      3.5".toList

/-- The tests of a row with a displacement along Y. -/
def alongY (subcase node : Int) (step y : Dbl) : List Added := six subcase node step ⟨0, y, 0⟩ ⟨0, 0, 0⟩

/-- Two tables for one subcase, with a line of page between them: the second one is not of the subcase, but of every
analysis. -/
theorem C95_second_table_false : addAssertions (world12 true) (inputOf true
    [head1, titleLine, columnsLine, row7, pageLine, titleLine, columnsLine, row8]) =
    .ok (alongY 1 7 (-1) (3 / 2) ++ alongY noSubcase 8 (-1) (5 / 2)) := by
  decide +kernel

/-- A page that begins with its subcase keeps the load step of the page before, unless it has its own. -/
theorem C95_stale_step_false : addAssertions (world12 true) (inputOf true
    [head1, stepLine, titleLine, columnsLine, row7, head2, titleLine, columnsLine, row8]) =
    .ok (alongY 1 7 1 (3 / 2) ++ alongY 2 8 1 (5 / 2)) := by
  decide +kernel

/-- The row of a scalar point ends the table: the rows after it are lost, even in strict mode. -/
theorem C95_scalar_false : addAssertions (world12 true) (inputOf true
    [head1, titleLine, columnsLine, row7, row9, row8]) = .ok (alongY 1 7 (-1) (3 / 2)) := by
  decide +kernel

/-- A row with a number that Nastran abbreviates (`1.5-100` for `1.5E-100`) is read as 1.5, even in strict mode. -/
theorem C95_abbreviated_false : addAssertions (world12 true) (inputOf true
    [head1, titleLine, columnsLine, "      7      G      0.0   1.5-100   0.0   0.0   0.0   0.0".toList]) =
    .ok (alongY 1 7 (-1) (3 / 2)) := by
  decide +kernel

/-- A table of frequencies followed by a line of page of seven words: refused in strict mode. -/
theorem C95_seven_words_false : addAssertions (world12 true) (inputOf true
    ["R E A L   E I G E N V A L U E S".toList, "   MODE    EXTRACTION".toList, "    NO.       ORDER".toList,
      "    1     1    4.0    2.0    0.5    1.0    4.0".toList, "1    MODES OF A BEAM  PAGE 9".toList]) = .throw ∧
    addAssertions (world12 false) (inputOf true
    ["R E A L   E I G E N V A L U E S".toList, "   MODE    EXTRACTION".toList, "    NO.       ORDER".toList,
      "    1     1    4.0    2.0    0.5    1.0    4.0".toList, "1    MODES OF A BEAM  PAGE 9".toList]) =
      .ok [⟨noSubcase, .frequency 1 (1 / 2)⟩] := by
  decide +kernel

/-- Complex displacements without a subcase in a model without analysis: the first analysis is used though there is none. -/
theorem C95_no_analysis_false (strict : Bool) (g : Int → Outcome (V3 → V3)) : addAssertions ⟨[], strict, g⟩ (inputOf true
    ["C O M P L E X   D I S P L A C E M E N T   V E C T O R".toList]) = .ub := by
  cases strict <;> rfl

/-! ### The hypotheses can be met -/

theorem spread_of : ∀ (gs : List (Line × Line)) (tail : Line),
    (gs.all fun p => !p.1.isEmpty && p.1.all isSpace && !p.2.isEmpty && p.2.all fun c => !isSpace c) = true →
    tail.all isSpace = true → Spread (gs.map (·.2)) (gs.foldr (fun p l => p.1 ++ p.2 ++ l) tail) := by
  intro gs
  induction gs with
  | nil => intro tail _ h; exact .nil (List.all_eq_true.1 h)
  | cons p gs ih =>
    intro tail h ht
    simp only [List.all_cons, Bool.and_eq_true, Bool.not_eq_true', List.all_eq_true] at h
    obtain ⟨⟨⟨⟨h1, h2⟩, h3⟩, h4⟩, h5⟩ := h
    refine .cons ?_ h2 ?_ h4 (ih tail (by simpa [List.all_eq_true] using h5) ht)
    · intro h; rw [h] at h1; exact absurd h1 (by simp)
    · intro h; simp only at h; rw [h] at h3; exact absurd h3 (by simp)

def sp : Line := "      ".toList

theorem spread_row7 : Spread ["7".toList, "G".toList, "0.0".toList, "1.5".toList, "0.0".toList, "0.0".toList, "0.0".toList,
    "0.0".toList] row7 :=
  spread_of [(sp, "7".toList), (sp, "G".toList), (sp, "0.0".toList), ("   ".toList, "1.5".toList),
    ("   ".toList, "0.0".toList), ("   ".toList, "0.0".toList), ("   ".toList, "0.0".toList), ("   ".toList, "0.0".toList)] []
    (by decide) (by decide)

def exampleRow : Row := ⟨row7, 7, ⟨0, 3 / 2, 0⟩, ⟨0, 0, 0⟩⟩

theorem exampleRow_printed : exampleRow.Printed :=
  ⟨"7".toList, "0.0".toList, "1.5".toList, "0.0".toList, "0.0".toList, "0.0".toList, "0.0".toList,
    ⟨by decide, by decide, by decide, by decide⟩, by decide +kernel, by decide +kernel, by decide +kernel, by decide +kernel,
    by decide +kernel, by decide +kernel, spread_row7⟩

theorem silent_of {l : Line} (h : (!has "SUBCASE".toList l && !has "S T R E S S E S".toList l &&
    trim l ≠ "D I S P L A C E M E N T   V E C T O R".toList && trim l ≠ "R E A L   E I G E N V A L U E S".toList &&
    trim l ≠ "C O M P L E X   D I S P L A C E M E N T   V E C T O R".toList) = true) : Silent l := by
  simp only [Bool.and_eq_true, Bool.not_eq_true', decide_eq_true_eq] at h
  exact ⟨has_false.1 h.1.1.1.1, has_false.1 h.1.1.1.2, h.1.1.2, h.1.2, h.2⟩

/-- A page with a line of page, and one without. -/
def examplePage (lead : List Line) (heading : Line) (n : Nat) : Page :=
  ⟨lead, heading, n, some (stepLine, 1), titleLine, columnsLine, [exampleRow, exampleRow]⟩

theorem heading_of {l pre ds : Line} {n : Nat} (hl : l = pre ++ "SUBCASE".toList ++ (" ".toList ++ ds ++ []))
    (h : (!has "SUBCASE".toList (pre ++ "SUBCAS".toList) && !has "S T R E S S E S".toList l && !has "LOAD STEP = ".toList l &&
      !has "DIAGNOSTIC TOOLS".toList l) = true) (hd : Digits ds n) : Heading l n := by
  simp only [Bool.and_eq_true, Bool.not_eq_true'] at h
  exact ⟨⟨pre, " ".toList, ds, [], hl, has_false.1 h.1.1.1, by decide, hd, by decide⟩, has_false.1 h.1.1.2, has_false.1 h.1.2,
    has_false.1 h.2⟩

theorem examplePage_printed (b : Bool) (n : Nat) (heading : Line) (h : Heading heading n) :
    (examplePage (if b then [pageLine] else []) heading n).Printed := by
  refine ⟨?_, ?_, h, ?_, ?_, ?_⟩
  · cases b
    · intro l hl; exact absurd hl (by simp [examplePage])
    · intro l hl
      have : l = pageLine := by simpa [examplePage] using hl
      rw [this]
      exact silent_of (by decide)
  · cases b
    · intro l hl; exact absurd hl (by simp [examplePage])
    · intro l hl
      have : pageLine = l := by simpa [examplePage] using hl
      rw [← this]
      exact ⟨by rw [← has_iff]; decide, by rw [← has_iff]; decide, Or.inl ⟨_, _, rfl, by decide⟩⟩
  · intro s hs
    have : (stepLine, (1 : Dbl)) = s := by simpa [examplePage] using hs
    rw [← this]
    exact ⟨"      ".toList, " ".toList, "1.0".toList, [], by decide, by decide, by decide, by decide +kernel, by decide⟩
  · exact ⟨"       ".toList, [], by simp only [examplePage]; decide, by decide, by decide⟩
  · intro r hr
    have : r = exampleRow := by simpa [examplePage] using hr
    rw [this]
    exact exampleRow_printed

/-- Three pages, the last of which begins with its subcase. -/
example : addAssertions (world12 true) (inputOf false ([[], head1, stepLine, [], titleLine, [], columnsLine, row7, row7, [],
    pageLine, head2, stepLine, titleLine, columnsLine, row7, row7, "  ".toList, head1, stepLine, titleLine, columnsLine, row7, row7,
    pageLine])) = .ok (([examplePage [] head1 1, examplePage [pageLine] head2 2, examplePage [] head1 1]).flatMap
      fun p => p.tests fun _ v => v) := by
  have h1 : Heading head1 1 := heading_of (pre := "0                     ".toList) (ds := "1".toList) (by decide) (by decide)
    ⟨by decide, by decide, by decide, by decide⟩
  have h2 : Heading head2 2 := heading_of (pre := "0                     ".toList) (ds := "2".toList) (by decide) (by decide)
    ⟨by decide, by decide, by decide, by decide⟩
  refine C95_pages_partial (world12 true) (fun _ v => v) false _ [] [pageLine] _ (by decide) (by simp) ?_ ?_ ?_ ?_ ?_
  · intro p hp
    simp only [List.mem_cons, List.not_mem_nil, or_false] at hp
    rcases hp with rfl | rfl | rfl
    · exact examplePage_printed false 1 _ h1
    · exact examplePage_printed true 2 _ h2
    · exact examplePage_printed false 1 _ h1
  · intro p hp
    simp only [List.tail_cons, List.mem_cons, List.not_mem_nil, or_false] at hp
    rcases hp with rfl | rfl <;> exact Or.inr (by simp [examplePage])
  · refine ⟨?_, ?_⟩
    · intro l hl
      have : l = pageLine := by simpa using hl
      rw [this]
      exact silent_of (by decide)
    · intro l hl
      have : pageLine = l := by simpa using hl
      rw [← this]
      exact ⟨by rw [← has_iff]; decide, by rw [← has_iff]; decide, Or.inl ⟨_, _, rfl, by decide⟩⟩
  · intro p _ r _; rfl
  · intro p hp
    simp only [List.mem_cons, List.not_mem_nil, or_false] at hp
    rcases hp with rfl | rfl | rfl <;> decide

/-- A subcase that the model has not. -/
example : addAssertions ⟨[2], true, fun _ => .ok id⟩ (inputOf true ([head1, stepLine, titleLine, columnsLine, row7, row7])) = .ub :=
  C95_unknown_false ⟨[2], true, fun _ => .ok id⟩ (fun _ v => v) true _ [] [] (examplePage [] head1 1) (by decide) (by simp)
    (examplePage_printed false 1 _ (heading_of (pre := "0                     ".toList) (ds := "1".toList) (by decide) (by decide)
      ⟨by decide, by decide, by decide, by decide⟩)) (by simp) (fun _ _ => rfl) (by decide)

/-- A table of frequencies. -/
example : (⟨"   1   1   4.0   2.0   0.5   1.0   4.0".toList, 1, 1, 4, 2, 1 / 2, 1, 4⟩ : Mode).Printed :=
  ⟨"1".toList, "1".toList, "4.0".toList, "2.0".toList, "0.5".toList, "1.0".toList, "4.0".toList,
    ⟨by decide, by decide, by decide, by decide⟩, ⟨by decide, by decide, by decide, by decide⟩, by decide +kernel, by decide +kernel,
    by decide +kernel, by decide +kernel, by decide +kernel,
    spread_of [("    ".toList, "1".toList), ("   ".toList, "1".toList), ("   ".toList, "4.0".toList), ("   ".toList, "2.0".toList),
      ("   ".toList, "0.5".toList), ("   ".toList, "1.0".toList), ("   ".toList, "4.0".toList)] [] (by decide) (by decide)⟩

/-- A node of a table of complex displacements. -/
example : (⟨"0   7   G   1.0   2.0   3.0   4.0   5.0   6.0".toList, "   6.0   5.0   4.0   3.0   2.0   1.0".toList, 7,
    [(1, 6), (2, 5), (3, 4), (4, 3), (5, 2), (6, 1)]⟩ : ComplexRow).Printed := by
  refine ⟨"0".toList, "7".toList, ["1.0".toList, "2.0".toList, "3.0".toList, "4.0".toList, "5.0".toList, "6.0".toList],
    ["6.0".toList, "5.0".toList, "4.0".toList, "3.0".toList, "2.0".toList, "1.0".toList], 0,
    ⟨by decide, by decide, by decide, by decide⟩, ⟨by decide, by decide, by decide, by decide⟩, rfl, ?_, ?_, ?_, ?_⟩
  · refine .cons ?_ (.cons ?_ (.cons ?_ (.cons ?_ (.cons ?_ (.cons ?_ .nil))))) <;> decide +kernel
  · refine .cons ?_ (.cons ?_ (.cons ?_ (.cons ?_ (.cons ?_ (.cons ?_ .nil))))) <;> decide +kernel
  · exact spread_of [(" ".toList, "0".toList), ("   ".toList, "7".toList), ("   ".toList, "G".toList), ("   ".toList, "1.0".toList),
      ("   ".toList, "2.0".toList), ("   ".toList, "3.0".toList), ("   ".toList, "4.0".toList), ("   ".toList, "5.0".toList),
      ("   ".toList, "6.0".toList)] [] (by decide) (by decide)
  · exact spread_of [("    ".toList, "6.0".toList), ("   ".toList, "5.0".toList), ("   ".toList, "4.0".toList),
      ("   ".toList, "3.0".toList), ("   ".toList, "2.0".toList), ("   ".toList, "1.0".toList)] [] (by decide) (by decide)

end F06
end Vega
