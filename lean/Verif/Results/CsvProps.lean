import Verif.Results.Csv
import Verif.Results.F06Props
import Verif.Results.Tests
import Verif.Aster.CommandLemmas
import Mathlib.Tactic.Tauto

/-! # C151: a table of results becomes the tests of its analyses

The specification describes a table as Code_Aster prints it, cell by cell, as a text; it uses nothing of the reader but its types. -/
namespace Vega
namespace CsvSpec
open Nastran (Line lexicalDouble)
open F06Spec (Digits)
open Csv (Test Found Analysis)

/-- Spaces and tabulations. -/
def Blank (l : Line) : Prop := ∀ c ∈ l, c = ' ' ∨ c = '\t'

instance (l : Line) : Decidable (Blank l) := inferInstanceAs (Decidable (∀ c ∈ l, c = ' ' ∨ c = '\t'))

/-- A word of a table: neither blanks nor separators nor quotes in it. -/
def Word (l : Line) : Prop := ∀ c ∈ l, c ≠ ' ' ∧ c ≠ '\t' ∧ c ≠ ',' ∧ c ≠ '\n' ∧ c ≠ '\r' ∧ c ≠ '"'

instance (l : Line) : Decidable (Word l) :=
  inferInstanceAs (Decidable (∀ c ∈ l, c ≠ ' ' ∧ c ≠ '\t' ∧ c ≠ ',' ∧ c ≠ '\n' ∧ c ≠ '\r' ∧ c ≠ '"'))

/-- A cell: a word, maybe empty, between blanks. -/
structure Cell where
  before : Line
  word : Line
  behind : Line

def Cell.text (c : Cell) : Line := c.before ++ c.word ++ c.behind

def Cell.Printed (c : Cell) : Prop := Blank c.before ∧ Word c.word ∧ Blank c.behind

instance (c : Cell) : Decidable c.Printed := inferInstanceAs (Decidable (_ ∧ _ ∧ _))

/-- A line of cells with commas between them. -/
def lineOf : List Cell → Line
  | [] => []
  | [c] => c.text
  | c :: d :: r => c.text ++ ',' :: lineOf (d :: r)

/-- The words of a line. -/
def wordsOf (cells : List Cell) : List Line := cells.map (·.word)

/-- The components of a displacement in the tables of Code_Aster. -/
def componentName : Dof → Line
  | .DX => "DX".toList
  | .DY => "DY".toList
  | .DZ => "DZ".toList
  | .RX => "DRX".toList
  | .RY => "DRY".toList
  | .RZ => "DRZ".toList

def components : List Dof := [.DX, .DY, .DZ, .RX, .RY, .RZ]

/-- The component of a column. -/
def componentOf (name : Line) : Option Dof := components.find? fun d => componentName d = name

/-- The names of columns that have a meaning. -/
def names : List Line :=
  ["RESULTAT".toList, "NUME_ORDRE".toList, "INST".toList, "NOEUD".toList] ++ components.map componentName

/-- The name of a column: one with a meaning, or one that does not begin like them. -/
def Plain (name : Line) : Prop := name ∈ names ∨ ∀ k ∈ names, ¬ k <+: name

instance (name : Line) : Decidable (Plain name) :=
  inferInstanceAs (Decidable (name ∈ names ∨ ∀ k ∈ names, ¬ k <+: name))

/-- What a row of the table tells: the number of the result, the node, the instant and the displacement. -/
structure Data where
  result : Nat
  node : Nat
  time : Dbl
  value : Dof → Dbl

/-- The words of the row under the names of the columns tell it. An instant that is not told is 0. -/
def Shows (head cells : List Line) (d : Data) : Prop :=
  cells.length = head.length ∧ "RESULTAT".toList ∈ head ∧ "NOEUD".toList ∈ head ∧
  ("INST".toList ∉ head → d.time = 0) ∧
  ∀ p ∈ head.zip cells,
    (p.1 = "RESULTAT".toList → ∃ ds, p.2 = "RESU".toList ++ ds ∧ Digits ds d.result) ∧
    (p.1 = "NOEUD".toList → ∃ c ds, p.2 = c :: ds ∧ Digits ds d.node) ∧
    (p.1 = "NUME_ORDRE".toList → ∃ n, Digits p.2 n) ∧
    (p.1 = "INST".toList → lexicalDouble p.2 = some d.time) ∧
    ∀ k, p.1 = componentName k → lexicalDouble p.2 = some (d.value k)

/-- The tests of the row: one for each component that has a column. -/
def tests (head : List Line) (d : Data) : List Test :=
  (head.filterMap componentOf).map fun k => ⟨d.node, k, d.value k, d.time⟩

/-- A line under the head of the table: a row, or a line with another number of cells, like a blank one. -/
structure Row where
  cells : List Cell
  data : Option Data

def Row.Fits (head : List Line) (r : Row) : Prop :=
  r.cells ≠ [] ∧ (∀ c ∈ r.cells, c.Printed) ∧
  match r.data with
  | none => r.cells.length ≠ head.length
  | some d => Shows head (wordsOf r.cells) d

/-- A table: lines of comments or blank, the names of the columns, the rows. -/
structure Table where
  comments : List Line
  head : List Cell
  rows : List Row

/-- The lines with an end of line between them. -/
def linesOf : List Row → Line
  | [] => []
  | [r] => lineOf r.cells
  | r :: s :: t => lineOf r.cells ++ '\n' :: linesOf (s :: t)

def preamble (comments : List Line) : Line := comments.flatMap fun c => c ++ ['\n']

def Table.text (t : Table) : Line := preamble t.comments ++ (lineOf t.head ++ '\n' :: linesOf t.rows)

/-- A comment or a blank line. -/
def Comment (l : Line) : Prop := '\n' ∉ l ∧ (Blank l ∨ ∃ b t, l = b ++ '#' :: t ∧ Blank b)

def Table.Printed (t : Table) : Prop :=
  (∀ l ∈ t.comments, Comment l) ∧ (∀ c ∈ t.head, c.Printed ∧ Plain c.word) ∧
  (∀ c ∈ t.head.head?, ∀ x ∈ c.word.head?, x ≠ '#') ∧ "RESULTAT".toList ∈ wordsOf t.head ∧
  t.rows ≠ [] ∧ ∀ r ∈ t.rows, r.Fits (wordsOf t.head)

/-- What is expected of the table. -/
def Table.found (t : Table) : List Found :=
  t.rows.filterMap fun r => r.data.map fun d => ⟨d.result, tests (wordsOf t.head) d⟩

/-- The tests of the rows of a result. -/
def rowsOf (t : Table) (n : Int) : List Test :=
  (t.rows.filterMap (·.data)).flatMap fun d => if (d.result : Int) = n then tests (wordsOf t.head) d else []

/-- A path: the name of a file, maybe in a directory. -/
def InDirectory (path name : Line) : Prop := '/' ∉ name ∧ (path = name ∨ ∃ dir, path = dir ++ '/' :: name)

end CsvSpec

namespace Csv
open Nastran (Line lexicalDouble)
open F06 (stoi stod)
open CsvSpec

/-! ## Cells -/

theorem blank_iff {c : Char} : blank c = true ↔ c = ' ' ∨ c = '\t' := by simp [blank]

theorem skip_blanks : ∀ {b : Line} (l : Line), CsvSpec.Blank b → skip (b ++ l) = skip l
  | [], _, _ => rfl
  | c :: b, l, h => by
    have hc : blank c = true := blank_iff.mpr (h c (by simp))
    have := skip_blanks (b := b) l (fun d hd => h d (by simp [hd]))
    simpa [skip, List.dropWhile, hc] using this

theorem skip_cons {c : Char} (l : Line) (h : c ≠ ' ' ∧ c ≠ '\t') : skip (c :: l) = c :: l := by
  have : blank c = false := by simp [blank, h.1, h.2]
  simp [skip, List.dropWhile, this]

theorem plain_blanks : ∀ {b : Line} (l : Line), CsvSpec.Blank b → plain (b ++ l) = plain l
  | [], _, _ => rfl
  | c :: b, l, h => by
    have hc : blank c = true := blank_iff.mpr (h c (by simp))
    rw [List.cons_append, plain, if_pos hc]
    exact plain_blanks l fun d hd => h d (by simp [hd])

theorem plain_word : ∀ {w : Line} (l : Line), Word w → plain (w ++ l) = (w ++ (plain l).1, (plain l).2)
  | [], _, _ => rfl
  | c :: w, l, h => by
    have hc := h c (by simp)
    have hb : blank c = false := by simp [blank, hc.1, hc.2.1]
    rw [List.cons_append, plain, hb, if_neg (by simp), if_neg (by simp [hc.2.2.1, hc.2.2.2.1]),
      plain_word l fun d hd => h d (by simp [hd])]
    rfl

/-- What may follow a cell. -/
def Stop (l : Line) : Prop := l = [] ∨ ∃ t, l = ',' :: t ∨ l = '\n' :: t

theorem plain_stop {l : Line} (h : Stop l) : plain l = ([], l) := by
  rcases h with rfl | ⟨t, rfl | rfl⟩ <;> rfl

theorem skip_stop {l : Line} (h : Stop l) : skip l = l := by
  rcases h with rfl | ⟨t, rfl | rfl⟩
  · rfl
  · exact skip_cons t (by decide)
  · exact skip_cons t (by decide)

/-- A cell after its first blanks begins with no quote. -/
theorem skip_cell {c : Cell} (hc : c.Printed) {l : Line} (hl : Stop l) :
    skip (c.text ++ l) = (if c.word = [] then l else c.word ++ c.behind ++ l) := by
  obtain ⟨h1, h2, h3⟩ := hc
  rw [Cell.text, List.append_assoc, List.append_assoc, skip_blanks _ h1]
  cases hw : c.word with
  | nil => simp only [List.nil_append, if_true]; rw [skip_blanks _ h3, skip_stop hl]
  | cons x w =>
    have := h2 x (by simp [hw])
    rw [List.cons_append, skip_cons _ ⟨this.1, this.2.1⟩, if_neg (by simp)]
    simp

theorem quoted_cell {c : Cell} (hc : c.Printed) {l : Line} (hl : Stop l) : quoted (skip (c.text ++ l)) = none := by
  rw [skip_cell hc hl]
  split
  · rcases hl with rfl | ⟨t, rfl | rfl⟩ <;> rfl
  · rename_i hw
    cases hw' : c.word with
    | nil => exact absurd hw' hw
    | cons x w =>
      have := (hc.2.1 x (by simp [hw'])).2.2.2.2.2
      simp only [List.cons_append, quoted]
      split
      · rename_i heq
        exact absurd (List.cons.inj heq).1 this
      · rfl

theorem column_cell {c : Cell} (hc : c.Printed) {l : Line} (hl : Stop l) : column (c.text ++ l) = (c.word, l) := by
  rw [column, quoted_cell hc hl]
  show plain _ = _
  rw [Cell.text, List.append_assoc, List.append_assoc, plain_blanks _ hc.1, plain_word _ hc.2.1, plain_blanks _ hc.2.2,
    plain_stop hl]
  simp

theorem stop_comma (l : Line) : Stop (',' :: l) := .inr ⟨l, .inl rfl⟩

theorem columns_line : ∀ {cells : List Cell} (_ : cells ≠ []) (_ : ∀ c ∈ cells, c.Printed) {l : Line}
    (_ : l = [] ∨ ∃ t, l = '\n' :: t) {n : Nat} (_ : cells.length ≤ n + 1), columns n (lineOf cells ++ l) = (wordsOf cells, l)
  | [], h, _, _, _, _, _ => absurd rfl h
  | [c], _, hc, l, hl, n, _ => by
    have hs : Stop l := by
      rcases hl with rfl | ⟨t, rfl⟩
      · exact .inl rfl
      · exact .inr ⟨t, .inr rfl⟩
    have hk := column_cell (hc c (by simp)) hs
    cases n with
    | zero => simp [columns, lineOf, hk, wordsOf]
    | succ n =>
      simp only [columns, lineOf, hk, wordsOf, skip_stop hs]
      rcases hl with rfl | ⟨t, rfl⟩ <;> simp
  | c :: d :: r, _, hc, l, hl, n, hn => by
    cases n with
    | zero => simp at hn
    | succ n =>
      have ih := columns_line (cells := d :: r) (by simp) (fun x hx => hc x (by simp [hx])) hl (n := n) (by simpa using hn)
      have hk := column_cell (hc c (by simp)) (stop_comma (lineOf (d :: r) ++ l))
      have e : lineOf (c :: d :: r) ++ l = c.text ++ ',' :: (lineOf (d :: r) ++ l) := by simp [lineOf]
      rw [e, columns]
      simp only [hk, skip_stop (stop_comma _), ih]
      rfl

theorem length_line : ∀ {cells : List Cell}, cells ≠ [] → cells.length ≤ (lineOf cells).length + 1
  | [], h => absurd rfl h
  | [c], _ => by simp
  | c :: d :: r, _ => by
    have := length_line (cells := d :: r) (by simp)
    simp only [lineOf, List.length_append, List.length_cons] at this ⊢
    omega

/-! ## The names of the columns -/

/-- The item of a name. -/
def itemOf (name : Line) : Item :=
  if name = "RESULTAT".toList then .result
  else if name = "NUME_ORDRE".toList then .order
  else if name = "INST".toList then .time
  else if name = "NOEUD".toList then .node
  else match componentOf name with
    | some d => .dof d
    | none => .unused

theorem keywords_names : keywords.map (·.1) = names := by decide +kernel

theorem keyword_none : ∀ {ks : List (Line × Item)} {l : Line}, (∀ k ∈ ks.map (·.1), ¬ k <+: l) → keyword ks l = none
  | [], _, _ => rfl
  | (k, i) :: ks, l, h => by
    rw [keyword, if_neg (by simpa [List.isPrefixOf_iff_prefix] using h k (by simp))]
    exact keyword_none fun x hx => h x (by simp [hx])

theorem keyword_name {name : Line} (h : name ∈ names) (l : Line) : keyword keywords (name ++ l) = some (itemOf name, l) := by
  simp only [names, components, List.map_cons, List.map_nil, List.cons_append, List.nil_append, List.mem_cons,
    List.not_mem_nil, or_false, componentName] at h
  rcases h with rfl | rfl | rfl | rfl | rfl | rfl | rfl | rfl | rfl | rfl <;> rfl

theorem names_word : ∀ k ∈ names, Word k ∧ k ≠ [] := by decide +kernel

/-- A name that a word does not begin with is no beginning of the word and what follows. -/
theorem prefix_word {k w l : Line} (hk : Word k) (hl : l = [] ∨ ∃ c t, l = c :: t ∧ ¬ Word [c]) (h : k <+: w ++ l) :
    k <+: w := by
  by_cases hle : k.length ≤ w.length
  · exact List.prefix_of_prefix_length_le h (List.prefix_append w l) hle
  · exfalso
    obtain ⟨r, hr⟩ := h
    rcases hl with rfl | ⟨c, t, rfl, hc⟩
    · have := congrArg List.length hr
      simp at this
      omega
    · apply hc
      intro x hx
      rw [List.mem_singleton] at hx
      subst hx
      refine hk x ?_
      have h1 : (k ++ r)[w.length]? = some x := by rw [hr]; simp
      rw [List.getElem?_append_left (by omega)] at h1
      exact List.mem_of_getElem? h1

theorem headerCell_cell {c : Cell} (hc : c.Printed) (hp : Plain c.word) {l : Line} (hl : Stop l) :
    (headerCell (c.text ++ l)).1 = itemOf c.word ∧ skip (headerCell (c.text ++ l)).2 = l := by
  rw [headerCell, skip_cell hc hl]
  have hstop : ∃ y, c.behind ++ l = y ∧ (y = [] ∨ ∃ x t, y = x :: t ∧ ¬ Word [x]) := by
    refine ⟨_, rfl, ?_⟩
    cases hb : c.behind with
    | nil =>
      rcases hl with rfl | ⟨t, rfl | rfl⟩
      · exact .inl rfl
      · exact .inr ⟨_, _, rfl, by decide⟩
      · exact .inr ⟨_, _, rfl, by decide⟩
    | cons x t =>
      refine .inr ⟨x, t ++ l, rfl, ?_⟩
      have := hc.2.2 x (by simp [hb])
      intro hw
      have := hw x (by simp)
      tauto
  rcases hp with hm | hn
  · have hne := (names_word _ hm).2
    rw [if_neg hne, List.append_assoc, keyword_name hm]
    refine ⟨rfl, ?_⟩
    show skip (c.behind ++ l) = l
    rw [skip_blanks _ hc.2.2, skip_stop hl]
  · obtain ⟨y, hy, hyy⟩ := hstop
    have hk : keyword keywords (if c.word = [] then l else c.word ++ c.behind ++ l) = none := by
      refine keyword_none ?_
      rw [keywords_names]
      intro k hk hpre
      split at hpre
      · rename_i hw
        have : k <+: c.word ++ l := by rw [hw]; exact hpre
        refine hn k hk (prefix_word (names_word k hk).1 ?_ this)
        rcases hl with rfl | ⟨t, rfl | rfl⟩
        · exact .inl rfl
        · exact .inr ⟨_, _, rfl, by decide⟩
        · exact .inr ⟨_, _, rfl, by decide⟩
      · rw [List.append_assoc, hy] at hpre
        exact hn k hk (prefix_word (names_word k hk).1 hyy hpre)
    rw [hk]
    have hi : itemOf c.word = .unused := by
      have hnot : c.word ∉ names := fun h => hn _ h List.prefix_rfl
      have hcomp : componentOf c.word = none := by
        rw [componentOf, List.find?_eq_none]
        intro d hd he
        exact hnot (by rw [← of_decide_eq_true he]; exact List.mem_append_right _ (List.mem_map_of_mem hd))
      have hmem : ∀ k ∈ names, c.word ≠ k := fun k hk he => hnot (he ▸ hk)
      rw [itemOf, if_neg (hmem _ (by decide)), if_neg (hmem _ (by decide)), if_neg (hmem _ (by decide)),
        if_neg (hmem _ (by decide)), hcomp]
    refine ⟨hi.symm, ?_⟩
    show skip (column _).2 = l
    rw [column_cell hc hl]
    exact skip_stop hl

theorem header_line : ∀ {cells : List Cell} (_ : cells ≠ []) (_ : ∀ c ∈ cells, c.Printed ∧ Plain c.word) {l : Line}
    {n : Nat} (_ : cells.length ≤ n + 1), (header n (lineOf cells ++ '\n' :: l)).1 = (wordsOf cells).map itemOf ∧
      skip (header n (lineOf cells ++ '\n' :: l)).2 = '\n' :: l
  | [], h, _, _, _, _ => absurd rfl h
  | [c], _, hc, l, n, _ => by
    have hs : Stop ('\n' :: l) := .inr ⟨l, .inr rfl⟩
    have hk := headerCell_cell (hc c (by simp)).1 (hc c (by simp)).2 hs
    cases n with
    | zero => simpa [header, lineOf, wordsOf] using hk
    | succ n =>
      simp only [header, lineOf, hk.2, wordsOf, List.map_cons, List.map_nil, hk.1]
      exact ⟨rfl, hk.2⟩
  | c :: d :: r, _, hc, l, n, hn => by
    cases n with
    | zero => simp at hn
    | succ n =>
      have ih := header_line (cells := d :: r) (by simp) (fun x hx => hc x (by simp [hx])) (l := l) (n := n) (by simpa using hn)
      have hk := headerCell_cell (hc c (by simp)).1 (hc c (by simp)).2 (stop_comma (lineOf (d :: r) ++ '\n' :: l))
      have e : lineOf (c :: d :: r) ++ '\n' :: l = c.text ++ ',' :: (lineOf (d :: r) ++ '\n' :: l) := by simp [lineOf]
      rw [e, header]
      simp only [hk.2, ih.1, hk.1, ih.2, and_true]
      rfl

/-! ## A row -/

theorem atof_number {l : Line} {x : Dbl} (h : lexicalDouble l = some x) : atof l = x := by
  rw [atof, F06.stod_number h]

theorem stoi_of {l : Line} {n : Nat} (h : F06Spec.Digits l n) : stoi l = some (n : Int) := by
  obtain ⟨h1, h2, h3, h4⟩ := h
  subst h3
  exact F06.stoi_digits h2 h1 h4

/-- The words tell the data, whatever the columns. -/
def Tells (ps : List (Line × Line)) (d : Data) : Prop := ∀ p ∈ ps,
    (p.1 = "RESULTAT".toList → ∃ ds, p.2 = "RESU".toList ++ ds ∧ F06Spec.Digits ds d.result) ∧
    (p.1 = "NOEUD".toList → ∃ c ds, p.2 = c :: ds ∧ F06Spec.Digits ds d.node) ∧
    (p.1 = "NUME_ORDRE".toList → ∃ n, F06Spec.Digits p.2 n) ∧
    (p.1 = "INST".toList → lexicalDouble p.2 = some d.time) ∧
    ∀ k, p.1 = componentName k → lexicalDouble p.2 = some (d.value k)

theorem setVar_tells {v : Vars} {p : Line × Line} {d : Data} (h : Tells [p] d) :
    setVar v (itemOf p.1) p.2 = .ok (some ⟨if p.1 = "RESULTAT".toList then d.result else v.result,
      if p.1 = "NOEUD".toList then some (d.node : Int) else v.node, if p.1 = "INST".toList then d.time else v.time⟩) := by
  obtain ⟨h1, h2, h3, h4, _⟩ := h p (by simp)
  unfold itemOf
  by_cases e1 : p.1 = "RESULTAT".toList
  · obtain ⟨ds, hp, hd⟩ := h1 e1
    have hpre : "RESU".toList.isPrefixOf ("RESU".toList ++ ds) = true := by
      rw [List.isPrefixOf_iff_prefix]; exact List.prefix_append _ _
    have hdrop : ("RESU".toList ++ ds).drop 4 = ds := rfl
    have n1 : "RESULTAT".toList ≠ "NOEUD".toList := by decide
    have n2 : "RESULTAT".toList ≠ "INST".toList := by decide
    rw [if_pos e1, hp, e1, setVar]
    rw [if_pos hpre, hdrop, stoi_of hd, if_pos rfl, if_neg n1, if_neg n2]
  · rw [if_neg e1, if_neg e1]
    by_cases e2 : p.1 = "NUME_ORDRE".toList
    · obtain ⟨n, hn⟩ := h3 e2
      have n1 : "NUME_ORDRE".toList ≠ "NOEUD".toList := by decide
      have n2 : "NUME_ORDRE".toList ≠ "INST".toList := by decide
      rw [if_pos e2, setVar, stoi_of hn, e2, if_neg n1, if_neg n2]
    · rw [if_neg e2]
      by_cases e3 : p.1 = "INST".toList
      · have n1 : "INST".toList ≠ "NOEUD".toList := by decide
        rw [if_pos e3, setVar, atof_number (h4 e3), if_pos e3, e3, if_neg n1]
      · rw [if_neg e3, if_neg e3]
        by_cases e4 : p.1 = "NOEUD".toList
        · obtain ⟨c, ds, hp, hd⟩ := h2 e4
          rw [if_pos e4, hp, setVar]
          simp only [stoi_of hd]
          rw [if_pos e4]
        · rw [if_neg e4, if_neg e4]
          cases componentOf p.1 <;> rfl

theorem setVars_tells {d : Data} : ∀ {ps : List (Line × Line)} (_ : Tells ps d) (v : Vars),
    setVars v (ps.map fun p => (itemOf p.1, p.2)) =
      .ok (some ⟨if "RESULTAT".toList ∈ ps.map (·.1) then d.result else v.result,
        if "NOEUD".toList ∈ ps.map (·.1) then some (d.node : Int) else v.node,
        if "INST".toList ∈ ps.map (·.1) then d.time else v.time⟩)
  | [], _, v => by simp [setVars]
  | p :: ps, h, v => by
    have h1 : Tells [p] d := fun q hq => h q (by simp at hq; simp [hq])
    rw [List.map_cons, setVars, setVar_tells h1]
    simp only
    rw [setVars_tells (fun q hq => h q (by simp [hq]))]
    simp only [List.map_cons, List.mem_cons]
    congr 2
    rw [Vars.mk.injEq]
    refine ⟨?_, ?_, ?_⟩
    · by_cases a : "RESULTAT".toList ∈ ps.map (·.1)
      · rw [if_pos a, if_pos (.inr a)]
      · rw [if_neg a]
        by_cases b : p.1 = "RESULTAT".toList
        · rw [if_pos b, if_pos (.inl b.symm)]
        · rw [if_neg b, if_neg (by rintro (h | h); exacts [b h.symm, a h])]
    · by_cases a : "NOEUD".toList ∈ ps.map (·.1)
      · rw [if_pos a, if_pos (.inr a)]
      · rw [if_neg a]
        by_cases b : p.1 = "NOEUD".toList
        · rw [if_pos b, if_pos (.inl b.symm)]
        · rw [if_neg b, if_neg (by rintro (h | h); exacts [b h.symm, a h])]
    · by_cases a : "INST".toList ∈ ps.map (·.1)
      · rw [if_pos a, if_pos (.inr a)]
      · rw [if_neg a]
        by_cases b : p.1 = "INST".toList
        · rw [if_pos b, if_pos (.inl b.symm)]
        · rw [if_neg b, if_neg (by rintro (h | h); exacts [b h.symm, a h])]

theorem itemOf_component {name : Line} {k : Dof} (h : componentOf name = some k) :
    itemOf name = .dof k ∧ name = componentName k := by
  have hn : name = componentName k := by
    have := List.find?_some h
    exact (of_decide_eq_true this).symm
  subst hn
  refine ⟨?_, rfl⟩
  cases k <;> rfl

theorem itemOf_none {name : Line} (h : componentOf name = none) : ∀ k, itemOf name ≠ .dof k := by
  intro k
  unfold itemOf
  repeat' split
  all_goals simp_all

theorem makeTests_other {v : Vars} {i : Item} {t : Line} {rest : List (Item × Line)} (h : ∀ k, i ≠ .dof k) :
    makeTests v ((i, t) :: rest) = makeTests v rest := by
  cases i with
  | dof k => exact absurd rfl (h k)
  | unused => rw [makeTests]; simp
  | result => rw [makeTests]; simp
  | node => rw [makeTests]; simp
  | order => rw [makeTests]; simp
  | time => rw [makeTests]; simp

theorem makeTests_tells {d : Data} {r : Int} {t : Dbl} : ∀ {ps : List (Line × Line)} (_ : Tells ps d),
    makeTests ⟨r, some d.node, t⟩ (ps.map fun p => (itemOf p.1, p.2)) =
      .ok (((ps.map (·.1)).filterMap componentOf).map fun k => ⟨d.node, k, d.value k, t⟩)
  | [], _ => rfl
  | p :: ps, h => by
    have ih := makeTests_tells (r := r) (t := t) (ps := ps) (fun q hq => h q (by simp [hq]))
    rw [List.map_cons, List.map_cons, List.filterMap_cons]
    cases hc : componentOf p.1 with
    | none =>
      rw [makeTests_other (itemOf_none hc)]
      exact ih
    | some k =>
      obtain ⟨hi, hn⟩ := itemOf_component hc
      have hv := (h p (by simp)).2.2.2.2 k hn
      rw [hi, makeTests]
      simp only [ih, atof_number hv, List.map_cons]

theorem zip_items : ∀ (head cells : List Line), (head.map itemOf).zip cells = (head.zip cells).map fun p => (itemOf p.1, p.2)
  | [], _ => rfl
  | _ :: _, [] => rfl
  | a :: head, b :: cells => by simp [zip_items head cells]

theorem zip_fst : ∀ {head cells : List Line}, cells.length = head.length → (head.zip cells).map (·.1) = head
  | [], _, _ => rfl
  | _ :: _, [], h => by simp at h
  | a :: head, b :: cells, h => by simp [zip_fst (head := head) (cells := cells) (by simpa using h)]

theorem convert_shows {head cells : List Line} {d : Data} (h : Shows head cells d) :
    convert (head.map itemOf) cells = .ok (some ⟨d.result, tests head d⟩) := by
  obtain ⟨hlen, hr, hn, ht, hp⟩ := h
  rw [convert, if_neg (by simpa using hlen), zip_items, setVars_tells hp]
  simp only [zip_fst hlen, if_pos hr, if_pos hn]
  have htime : (if "INST".toList ∈ head then d.time else Vars.start.time) = d.time := by
    split
    · rfl
    · rename_i h; exact (ht h).symm
  rw [htime, if_neg (by omega), makeTests_tells hp]
  simp only [zip_fst hlen]
  rfl

theorem convert_length {items : List Item} {cells : List Line} (h : cells.length ≠ items.length) :
    convert items cells = .ok none := by rw [convert, if_pos h]

/-! ## All the rows -/

theorem convert_row {head : List Line} {r : Row} (h : r.Fits head) :
    convert (head.map itemOf) (wordsOf r.cells) = .ok (r.data.map fun d => ⟨d.result, tests head d⟩) := by
  obtain ⟨_, _, h⟩ := h
  cases hd : r.data with
  | none =>
    rw [hd] at h
    exact convert_length (by simpa [wordsOf] using h)
  | some d =>
    rw [hd] at h
    exact convert_shows h

theorem columns_length {r : Row} (h1 : r.cells ≠ []) (h2 : ∀ c ∈ r.cells, c.Printed) {l : Line}
    (hl : l = [] ∨ ∃ t, l = '\n' :: t) :
    columns (lineOf r.cells ++ l).length (lineOf r.cells ++ l) = (wordsOf r.cells, l) := by
  refine columns_line h1 h2 hl ?_
  have := length_line h1
  simp only [List.length_append]
  omega

theorem table_rows {head : List Line} : ∀ {rows : List Row} (_ : rows ≠ []) (_ : ∀ r ∈ rows, r.Fits head) {n : Nat}
    (_ : rows.length ≤ n + 1), table (head.map itemOf) n (linesOf rows) =
      .ok (rows.filterMap fun r => r.data.map fun d => ⟨d.result, tests head d⟩, [])
  | [], h, _, _, _ => absurd rfl h
  | [r], _, h, n, _ => by
    have hr := h r (by simp)
    have hk := columns_length hr.1 hr.2.1 (l := []) (.inl rfl)
    have hv := convert_row hr
    rw [List.append_nil] at hk
    cases n with
    | zero =>
      simp only [table, linesOf, hk, hv, Outcome.bind_ok, List.filterMap_cons, List.filterMap_nil]
      cases r.data <;> rfl
    | succ n =>
      simp only [table, linesOf, hk, hv, Outcome.bind_ok, List.filterMap_cons, List.filterMap_nil]
      cases r.data <;> rfl
  | r :: s :: t, _, h, n, hn => by
    cases n with
    | zero => simp at hn
    | succ n =>
      have hr := h r (by simp)
      have ih := table_rows (rows := s :: t) (by simp) (fun x hx => h x (by simp [hx])) (n := n) (by simpa using hn)
      have hk := columns_length hr.1 hr.2.1 (l := '\n' :: linesOf (s :: t)) (.inr ⟨_, rfl⟩)
      have hv := convert_row hr
      have hs : skip ('\n' :: linesOf (s :: t)) = '\n' :: linesOf (s :: t) := skip_cons _ (by decide)
      rw [linesOf, table]
      simp only [hk, hv, Outcome.bind_ok, hs, eol, ih]
      rw [List.filterMap_cons (l := s :: t)]
      cases r.data <;> rfl

theorem length_lines : ∀ {rows : List Row}, rows.length ≤ (linesOf rows).length + 1
  | [] => by simp
  | [r] => by simp
  | r :: s :: t => by
    have := length_lines (rows := s :: t)
    simp only [linesOf, List.length_append, List.length_cons] at this ⊢
    omega

/-! ## Comments -/

theorem dropWhile_newline : ∀ {t : Line} (_ : '\n' ∉ t) (l : Line),
    (t ++ '\n' :: l).dropWhile (fun c => decide (c ≠ '\n')) = '\n' :: l
  | [], _, l => by simp
  | c :: t, h, l => by
    have hc : c ≠ '\n' := fun e => h (by simp [e])
    have := dropWhile_newline (t := t) (fun e => h (by simp [e])) l
    rw [List.cons_append, List.dropWhile_cons_of_pos (by simpa using hc)]
    exact this

theorem comment_line {c : Line} (h : CsvSpec.Comment c) (l : Line) : comment (c ++ '\n' :: l) = .ok (some l) := by
  obtain ⟨hn, hb | ⟨b, t, rfl, hb⟩⟩ := h
  · rw [comment, skip_blanks _ hb, skip_cons _ (by decide)]
    rfl
  · have ht : '\n' ∉ t := fun h => hn (by simp [h])
    rw [comment, List.append_assoc, skip_blanks _ hb, List.cons_append, skip_cons _ (by decide)]
    show (match eol ((t ++ '\n' :: l).dropWhile (fun c => decide (c ≠ '\n'))) with
      | some r => Outcome.ok (some r)
      | none => .throw) = _
    rw [dropWhile_newline ht]
    rfl

/-- The names of the columns are taken for no comment. -/
theorem comment_head {head : List Cell} (hp : ∀ c ∈ head, c.Printed) (hx : ∀ c ∈ head.head?, ∀ x ∈ c.word.head?, x ≠ '#')
    (hne : ∃ c ∈ head, c.word ≠ []) (l : Line) : comment (lineOf head ++ '\n' :: l) = .ok none := by
  cases head with
  | nil => simp at hne
  | cons c r =>
    have hc := hp c (by simp)
    -- the text is the first cell and a comma or the end of the line
    obtain ⟨m, hm, he, hempty⟩ : ∃ m, Stop m ∧ lineOf (c :: r) ++ '\n' :: l = c.text ++ m ∧ (c.word = [] → ∃ t, m = ',' :: t) := by
      cases r with
      | nil =>
        refine ⟨'\n' :: l, .inr ⟨l, .inr rfl⟩, rfl, ?_⟩
        intro hw
        obtain ⟨x, hx, hxw⟩ := hne
        rw [List.mem_singleton] at hx
        exact absurd (hx ▸ hw) hxw
      | cons d r => exact ⟨',' :: (lineOf (d :: r) ++ '\n' :: l), stop_comma _, by simp [lineOf], fun _ => ⟨_, rfl⟩⟩
    rw [comment, he, skip_cell hc hm]
    by_cases hw : c.word = []
    · obtain ⟨t, rfl⟩ := hempty hw
      rw [if_pos hw]
      rfl
    · rw [if_neg hw]
      cases hcw : c.word with
      | nil => exact absurd hcw hw
      | cons x w =>
        have h1 : x ≠ '#' := hx c (by simp) x (by simp [hcw])
        have h2 := hc.2.1 x (by simp [hcw])
        simp only [List.cons_append]
        split
        · rename_i heq
          exact absurd (List.cons.inj heq).1 h1
        · rename_i heq
          congr 1
          rw [eol.eq_def]
          split
          · rename_i e; exact absurd (List.cons.inj e).1 h2.2.2.2.2.1
          · rename_i e; exact absurd (List.cons.inj e).1 h2.2.2.2.2.1
          · rename_i e; exact absurd (List.cons.inj e).1 h2.2.2.2.1
          · rfl

theorem comments_preamble : ∀ {cs : List Line} (_ : ∀ c ∈ cs, CsvSpec.Comment c) {l : Line} (_ : comment l = .ok none) {n : Nat}
    (_ : cs.length ≤ n), comments n (preamble cs ++ l) = .ok l
  | [], _, l, hl, n, _ => by
    cases n with
    | zero => rfl
    | succ n => simp [preamble, comments, hl]
  | c :: cs, h, l, hl, n, hn => by
    cases n with
    | zero => simp at hn
    | succ n =>
      have ih := comments_preamble (cs := cs) (fun x hx => h x (by simp [hx])) hl (n := n) (by simpa using hn)
      have e : preamble (c :: cs) ++ l = c ++ '\n' :: (preamble cs ++ l) := by simp [preamble]
      rw [e, comments, comment_line (h c (by simp))]
      exact ih

theorem length_preamble : ∀ {cs : List Line}, cs.length ≤ (preamble cs).length
  | [] => by simp
  | c :: cs => by
    have := length_preamble (cs := cs)
    simp only [preamble, List.flatMap_cons, List.length_append, List.length_cons, List.length_nil] at this ⊢
    omega

/-! ## Theorems -/

/-- C151: of a table as Code_Aster prints it, every row gives the tests of its displacements: one for each component that has a
column, with the node, the value and the instant of the row, in the set of the result that the row names. Comments, other columns and
lines with another number of cells give nothing; nothing is left unread. -/
theorem C151_table_partial (t : Table) (h : t.Printed) : read t.text = .ok ⟨true, t.found, []⟩ := by
  obtain ⟨h1, h2, h3, h4, h5, h6⟩ := h
  have hne : ∃ c ∈ t.head, c.word ≠ [] := by
    obtain ⟨c, hc, hw⟩ := List.mem_map.mp h4
    exact ⟨c, hc, by rw [hw]; decide⟩
  have hhead : t.head ≠ [] := by
    obtain ⟨c, hc, _⟩ := hne
    exact List.ne_nil_of_mem hc
  have hcom := comments_preamble h1 (comment_head (fun c hc => (h2 c hc).1) h3 hne (linesOf t.rows)) (n := t.text.length)
    (by
      have := length_preamble (cs := t.comments)
      simp only [Table.text, List.length_append]
      omega)
  have hh := header_line hhead h2 (l := linesOf t.rows) (n := (lineOf t.head ++ '\n' :: linesOf t.rows).length)
    (by
      have := length_line hhead
      simp only [List.length_append]
      omega)
  have ht := table_rows h5 h6 (n := (linesOf t.rows).length) length_lines
  rw [read]
  rw [show comments t.text.length t.text = _ from hcom]
  simp only [hh.1, hh.2, eol, ht]
  rfl

/-- The table of a displacement, with a comment, a column without meaning, a row and a blank line at the end. -/
def exampleTable : Table where
  comments := ["#".toList, "".toList]
  head := [⟨" ".toList, [], []⟩, ⟨[], "RESULTAT".toList, " ".toList⟩, ⟨[], "NOM_CHAM".toList, []⟩,
    ⟨[], "INST".toList, "  ".toList⟩, ⟨[], "NUME_ORDRE".toList, []⟩, ⟨[], "NOEUD".toList, []⟩, ⟨[], "DX".toList, []⟩,
    ⟨[], "DRZ".toList, []⟩]
  rows := [⟨[⟨" ".toList, [], []⟩, ⟨[], "RESU12".toList, " ".toList⟩, ⟨[], "DEPL".toList, []⟩,
      ⟨" ".toList, "0.5".toList, " ".toList⟩, ⟨"   ".toList, "1".toList, []⟩, ⟨[], "N7".toList, []⟩, ⟨[], "-5.0E-1".toList, []⟩,
      ⟨[], "3.".toList, []⟩], some ⟨12, 7, 1 / 2, fun k => if k = .DX then -1 / 2 else 3⟩⟩,
    ⟨[⟨[], [], []⟩], none⟩]

theorem exampleTable_printed : exampleTable.Printed := by
  refine ⟨?_, by decide +kernel, by decide +kernel, by decide +kernel, by decide +kernel, ?_⟩
  · intro l hl
    simp only [exampleTable, List.mem_cons, List.not_mem_nil, or_false] at hl
    rcases hl with rfl | rfl
    · exact ⟨by decide, .inr ⟨[], [], rfl, by decide⟩⟩
    · exact ⟨by decide, .inl (by decide)⟩
  · intro r hr
    simp only [exampleTable, List.mem_cons, List.not_mem_nil, or_false] at hr
    rcases hr with rfl | rfl
    · refine ⟨by simp, by decide +kernel, by decide +kernel, by decide +kernel, by decide +kernel, fun h => absurd (by decide +kernel) h, ?_⟩
      intro p hp
      simp only [exampleTable, wordsOf, List.map_cons, List.map_nil, List.zip_cons_cons, List.zip_nil_right, List.mem_cons,
        List.not_mem_nil, or_false] at hp
      rcases hp with rfl | rfl | rfl | rfl | rfl | rfl | rfl | rfl
      all_goals
        refine ⟨?_, ?_, ?_, ?_, ?_⟩
        · intro h
          first
            | exact absurd h (by decide)
            | exact ⟨"12".toList, by decide, by decide, by decide, by decide +kernel, by decide⟩
        · intro h
          first
            | exact absurd h (by decide)
            | exact ⟨'N', "7".toList, by decide, by decide, by decide, by decide +kernel, by decide⟩
        · intro h
          first
            | exact absurd h (by decide)
            | exact ⟨1, by decide, by decide, by decide +kernel, by decide⟩
        · intro h
          first
            | exact absurd h (by decide)
            | decide +kernel
        · intro k h
          cases k <;> first
            | exact absurd h (by decide)
            | decide +kernel
    · exact ⟨by simp, by decide +kernel, by simp [exampleTable, wordsOf]⟩

/-- The hypotheses of `C151_table_partial` are met, and this is what it says then. -/
example : read exampleTable.text = .ok ⟨true, [⟨12, [⟨7, .DX, -1 / 2, 1 / 2⟩, ⟨7, .RZ, 3, 1 / 2⟩]⟩], []⟩ := by
  rw [C151_table_partial _ exampleTable_printed]
  decide +kernel

/-! ## The reading ends -/

theorem skip_length (l : Line) : (skip l).length ≤ l.length := (List.dropWhile_sublist _).length_le

theorem eol_length {l t : Line} (h : eol l = some t) : t.length < l.length := by
  rw [eol.eq_def] at h
  split at h
  · obtain rfl := Option.some.inj h; simp; omega
  · obtain rfl := Option.some.inj h; simp
  · obtain rfl := Option.some.inj h; simp
  · exact absurd h (by simp)

theorem comment_length {l t : Line} (h : comment l = .ok (some t)) : t.length < l.length := by
  have hs := skip_length l
  unfold comment at h
  split at h
  · rename_i u he
    split at h
    · rename_i r hr
      have := eol_length hr
      have h2 : (u.dropWhile (fun c => decide (c ≠ '\n'))).length ≤ u.length := (List.dropWhile_sublist _).length_le
      obtain rfl := Option.some.inj (Outcome.ok.inj h)
      rw [he] at hs
      simp only [List.length_cons] at hs
      omega
    · exact absurd h (by simp)
  · have := eol_length (Outcome.ok.inj h)
    omega

theorem comments_fuel : ∀ {n m : Nat} {l : Line}, l.length ≤ n → l.length ≤ m → comments n l = comments m l
  | 0, 0, _, _, _ => rfl
  | 0, m + 1, l, h, _ => by
    have : l = [] := List.eq_nil_of_length_eq_zero (by omega)
    subst this
    rfl
  | n + 1, 0, l, _, h => by
    have : l = [] := List.eq_nil_of_length_eq_zero (by omega)
    subst this
    rfl
  | n + 1, m + 1, l, h1, h2 => by
    rw [comments, comments]
    cases hc : comment l with
    | ok o =>
      cases o with
      | none => rfl
      | some r =>
        have := comment_length hc
        exact comments_fuel (by omega) (by omega)
    | throw => rfl
    | ub => rfl
    | diverges => rfl

theorem plain_length : ∀ l : Line, (plain l).2.length ≤ l.length
  | [] => by simp [plain]
  | c :: t => by
    have := plain_length t
    rw [plain]
    split
    · simp only [List.length_cons]; omega
    · split
      · simp
      · simp only [List.length_cons]; omega

theorem quotedChars_length : ∀ l : Line, (quotedChars l).2.length ≤ l.length
  | [] => by simp [quotedChars]
  | [c] => by
    rw [quotedChars]
    · split <;> simp [quotedChars]
    · intro t _ h; exact absurd h (by simp)
  | a :: b :: t => by
    have h1 := quotedChars_length t
    have h2 := quotedChars_length (b :: t)
    rw [quotedChars.eq_def]
    split
    · simp
    · rename_i e
      obtain ⟨_, e⟩ := List.cons.inj e
      obtain ⟨_, e⟩ := List.cons.inj e
      subst e
      simp only [List.length_cons]; omega
    · rename_i e
      obtain ⟨_, rfl⟩ := List.cons.inj e
      split
      · simp
      · simp only [List.length_cons] at h2 ⊢; omega

theorem column_length (l : Line) : (column l).2.length ≤ l.length := by
  have hs := skip_length l
  unfold column
  split
  · rename_i r hr
    unfold quoted at hr
    split at hr
    · rename_i t he
      have := quotedChars_length t
      split at hr
      · rename_i u hu
        obtain rfl := Option.some.inj hr
        rw [he] at hs
        rw [hu] at this
        simp only [List.length_cons] at hs this
        simp only
        omega
      · exact absurd hr (by simp)
    · exact absurd hr (by simp)
  · exact plain_length l

theorem keyword_length : ∀ {ks : List (Line × Item)} {l : Line} {r : Item × Line}, keyword ks l = some r →
    r.2.length ≤ l.length
  | [], _, _, h => by simp [keyword] at h
  | (k, i) :: ks, l, r, h => by
    rw [keyword] at h
    split at h
    · obtain rfl := Option.some.inj h
      simp
    · exact keyword_length h

theorem headerCell_length (l : Line) : (headerCell l).2.length ≤ l.length := by
  have hs := skip_length l
  unfold headerCell
  split
  · rename_i r hr
    have := keyword_length hr
    omega
  · exact column_length l

theorem columns_fuel : ∀ {n m : Nat} {l : Line}, l.length ≤ n → l.length ≤ m → columns n l = columns m l
  | 0, 0, _, _, _ => rfl
  | 0, m + 1, l, h, _ => by
    have : l = [] := List.eq_nil_of_length_eq_zero (by omega)
    subst this
    rfl
  | n + 1, 0, l, _, h => by
    have : l = [] := List.eq_nil_of_length_eq_zero (by omega)
    subst this
    rfl
  | n + 1, m + 1, l, h1, h2 => by
    have hc := column_length l
    have hs := skip_length (column l).2
    rw [columns, columns]
    split
    · rename_i t ht
      rw [ht] at hs
      simp only [List.length_cons] at hs
      rw [columns_fuel (n := n) (m := m) (by omega) (by omega)]
    · rfl

theorem columns_left : ∀ (n : Nat) (l : Line), (columns n l).2.length ≤ l.length
  | 0, l => column_length l
  | n + 1, l => by
    have hc := column_length l
    have hs := skip_length (column l).2
    rw [columns]
    split
    · rename_i t ht
      rw [ht] at hs
      simp only [List.length_cons] at hs
      have := columns_left n t
      simp only
      omega
    · exact hc

theorem header_fuel : ∀ {n m : Nat} {l : Line}, l.length ≤ n → l.length ≤ m → header n l = header m l
  | 0, 0, _, _, _ => rfl
  | 0, m + 1, l, h, _ => by
    have : l = [] := List.eq_nil_of_length_eq_zero (by omega)
    subst this
    rfl
  | n + 1, 0, l, _, h => by
    have : l = [] := List.eq_nil_of_length_eq_zero (by omega)
    subst this
    rfl
  | n + 1, m + 1, l, h1, h2 => by
    have hc := headerCell_length l
    have hs := skip_length (headerCell l).2
    rw [header, header]
    split
    · rename_i t ht
      rw [ht] at hs
      simp only [List.length_cons] at hs
      rw [header_fuel (n := n) (m := m) (by omega) (by omega)]
    · rfl

theorem table_fuel (items : List Item) : ∀ {n m : Nat} {l : Line}, l.length ≤ n → l.length ≤ m →
    table items n l = table items m l
  | 0, 0, _, _, _ => rfl
  | 0, m + 1, l, h, _ => by
    have : l = [] := List.eq_nil_of_length_eq_zero (by omega)
    subst this
    rfl
  | n + 1, 0, l, _, h => by
    have : l = [] := List.eq_nil_of_length_eq_zero (by omega)
    subst this
    rfl
  | n + 1, m + 1, l, h1, h2 => by
    have hc := columns_left l.length l
    have hs := skip_length (columns l.length l).2
    rw [table, table]
    cases he : eol (skip (columns l.length l).2) with
    | none => rfl
    | some t =>
      have := eol_length he
      simp only
      rw [table_fuel items (n := n) (m := m) (by omega) (by omega)]

theorem setVar_ends {v : Vars} {i : Item} {t : Line} : setVar v i t ≠ .diverges := by
  unfold setVar
  repeat' split
  all_goals simp

theorem setVars_ends : ∀ {ps : List (Item × Line)} {v : Vars}, setVars v ps ≠ .diverges
  | [], v => by simp [setVars]
  | (i, t) :: ps, v => by
    have := setVar_ends (v := v) (i := i) (t := t)
    rw [setVars]
    split
    · exact setVars_ends
    all_goals simp_all

theorem makeTests_ends : ∀ {ps : List (Item × Line)} {v : Vars}, makeTests v ps ≠ .diverges
  | [], v => by simp [makeTests]
  | (i, t) :: ps, v => by
    have := makeTests_ends (ps := ps) (v := v)
    rw [makeTests.eq_def]
    repeat' split
    all_goals simp_all

theorem convert_ends {items : List Item} {cells : List Line} : convert items cells ≠ .diverges := by
  have h1 := setVars_ends (ps := items.zip cells) (v := Vars.start)
  unfold convert
  split
  · simp
  · split
    · rename_i v _
      have h2 := makeTests_ends (ps := items.zip cells) (v := v)
      repeat' split
      all_goals simp_all
    all_goals simp_all

theorem table_ends (items : List Item) : ∀ {n : Nat} {l : Line}, table items n l ≠ .diverges
  | 0, l => by
    have := convert_ends (items := items) (cells := (columns l.length l).1)
    rw [table]
    cases hc : convert items (columns l.length l).1 <;> simp_all
  | n + 1, l => by
    have := convert_ends (items := items) (cells := (columns l.length l).1)
    rw [table]
    cases hc : convert items (columns l.length l).1 with
    | ok o =>
      simp only [Outcome.bind_ok]
      cases he : eol (skip (columns l.length l).2) with
      | none => simp
      | some t =>
        have ih := table_ends items (n := n) (l := t)
        simp only
        cases ht : table items n t <;> simp_all
    | throw => simp
    | ub => simp
    | diverges => exact absurd hc this

theorem comments_ends : ∀ {n : Nat} {l : Line}, comments n l ≠ .diverges
  | 0, l => by simp [comments]
  | n + 1, l => by
    rw [comments]
    cases hc : comment l with
    | ok o =>
      cases o with
      | none => simp
      | some r => exact comments_ends
    | throw => simp
    | ub => simp
    | diverges =>
      unfold comment at hc
      split at hc
      · split at hc <;> simp at hc
      · simp at hc

/-- C151: whatever the contents of the file, the reading of it ends; the bounds that the model puts on its loops never stop them. -/
theorem C151_ends (text : Line) : read text ≠ .diverges ∧ ∀ (l : Line) (n : Nat), l.length ≤ n →
    comments n l = comments l.length l ∧ header n l = header l.length l ∧ columns n l = columns l.length l ∧
      ∀ items, table items n l = table items l.length l := by
  refine ⟨?_, fun l n h => ⟨comments_fuel h le_rfl, header_fuel h le_rfl, columns_fuel h le_rfl,
    fun items => table_fuel items h le_rfl⟩⟩
  have h1 := comments_ends (n := text.length) (l := text)
  unfold read
  split
  · split
    · simp
    · rename_i l _ _ t _
      have h2 := table_ends (header l.length l).1 (n := t.length) (l := t)
      split <;> simp_all
  all_goals simp_all

/-! ## Files that give no test -/

theorem comment_none {l : Line} {x : Char} {t : Line} (h : skip l = x :: t) (h1 : x ≠ '#') (h2 : x ≠ '\n') (h3 : x ≠ '\r') :
    comment l = .ok none := by
  rw [comment, h]
  split
  · rename_i e; exact absurd (List.cons.inj e).1 h1
  · congr 1
    rw [eol.eq_def]
    split
    · rename_i e; exact absurd (List.cons.inj e).1 h3
    · rename_i e; exact absurd (List.cons.inj e).1 h3
    · rename_i e; exact absurd (List.cons.inj e).1 h2
    · rfl

/-- Cells, each with a comma behind it. -/
def joined : List Cell → Line
  | [] => []
  | c :: r => c.text ++ ',' :: joined r

theorem header_bad {b k : Line} (hb : CsvSpec.Blank b) (hk : k ∈ names) {y : Char} (hy : y ≠ ' ' ∧ y ≠ '\t' ∧ y ≠ ',') (rest : Line) :
    ∀ {pre : List Cell} (_ : ∀ c ∈ pre, c.Printed ∧ Plain c.word) {n : Nat} (_ : pre.length ≤ n),
      skip (header n (joined pre ++ (b ++ k ++ y :: rest))).2 = y :: rest
  | [], _, n, _ => by
    have hcell : headerCell (b ++ k ++ y :: rest) = (itemOf k, y :: rest) := by
      have hs : skip (b ++ k ++ y :: rest) = k ++ y :: rest := by
        rw [List.append_assoc, skip_blanks _ hb]
        obtain ⟨hw, hne⟩ := names_word k hk
        cases k with
        | nil => exact absurd rfl hne
        | cons x k => exact skip_cons _ ⟨(hw x (by simp)).1, (hw x (by simp)).2.1⟩
      rw [headerCell, hs, keyword_name hk]
    have hs : skip (y :: rest) = y :: rest := skip_cons _ ⟨hy.1, hy.2.1⟩
    cases n with
    | zero => simp only [joined, List.nil_append, header, hcell, hs]
    | succ n =>
      simp only [joined, List.nil_append, header, hcell, hs]
      split
      · rename_i e; exact absurd (List.cons.inj e).1 hy.2.2
      · exact hs
  | c :: pre, hp, n, hn => by
    cases n with
    | zero => simp at hn
    | succ n =>
      have ih := header_bad hb hk hy rest (pre := pre) (fun x hx => hp x (by simp [hx])) (n := n) (by simpa using hn)
      have hc := headerCell_cell (hp c (by simp)).1 (hp c (by simp)).2 (stop_comma (joined pre ++ (b ++ k ++ y :: rest)))
      have e : joined (c :: pre) ++ (b ++ k ++ y :: rest) = c.text ++ ',' :: (joined pre ++ (b ++ k ++ y :: rest)) := by
        simp [joined]
      rw [e, header]
      simp only [hc.2]
      exact ih

theorem length_joined : ∀ {pre : List Cell}, pre.length ≤ (joined pre).length
  | [] => by simp
  | c :: pre => by
    have := length_joined (pre := pre)
    simp only [joined, List.length_append, List.length_cons]
    omega

/-- C151 is false for a table with a column whose name begins with that of a component, of the node, of the instant … (`NOEUD_CMP`):
the reader stops in the middle of the name, no row at all gives a test, and the translation goes on. -/
theorem C151_prefix_false (cs : List Line) (hcs : ∀ c ∈ cs, CsvSpec.Comment c) (pre : List Cell)
    (hp : ∀ c ∈ pre, c.Printed ∧ Plain c.word) (hx : ∀ c ∈ pre.head?, ∀ x ∈ c.word.head?, x ≠ '#') (b k : Line)
    (hb : CsvSpec.Blank b) (hk : k ∈ names) (y : Char) (hy : y ≠ ' ' ∧ y ≠ '\t' ∧ y ≠ ',' ∧ y ≠ '\n' ∧ y ≠ '\r') (rest : Line) :
    read (preamble cs ++ (joined pre ++ (b ++ k ++ y :: rest))) =
      .ok ⟨false, [], preamble cs ++ (joined pre ++ (b ++ k ++ y :: rest))⟩ := by
  have hnone : comment (joined pre ++ (b ++ k ++ y :: rest)) = .ok none := by
    cases pre with
    | nil =>
      obtain ⟨hw, hne⟩ := names_word k hk
      have hsharp : ∀ k ∈ names, ∀ x ∈ k.head?, x ≠ '#' := by decide +kernel
      cases k with
      | nil => exact absurd rfl hne
      | cons x k =>
        have h := hw x (by simp)
        refine comment_none (x := x) (t := k ++ y :: rest) ?_ (hsharp _ hk x (by simp)) h.2.2.2.1 h.2.2.2.2.1
        rw [joined, List.nil_append, List.append_assoc, skip_blanks _ hb]
        exact skip_cons _ ⟨h.1, h.2.1⟩
    | cons c r =>
      have hc := (hp c (by simp)).1
      have e : joined (c :: r) ++ (b ++ k ++ y :: rest) = c.text ++ ',' :: (joined r ++ (b ++ k ++ y :: rest)) := by
        simp [joined]
      have hs := skip_cell hc (stop_comma (joined r ++ (b ++ k ++ y :: rest)))
      rw [← e] at hs
      cases hw : c.word with
      | nil =>
        rw [if_pos hw] at hs
        exact comment_none hs (by decide) (by decide) (by decide)
      | cons x w =>
        have h := hc.2.1 x (by simp [hw])
        rw [if_neg (by simp [hw]), hw] at hs
        exact comment_none hs (hx c (by simp) x (by simp [hw])) h.2.2.2.1 h.2.2.2.2.1
  have hcom := comments_preamble hcs hnone (n := (preamble cs ++ (joined pre ++ (b ++ k ++ y :: rest))).length)
    (by
      have := length_preamble (cs := cs)
      simp only [List.length_append]
      omega)
  have hh := header_bad hb hk ⟨hy.1, hy.2.1, hy.2.2.1⟩ rest hp (n := (joined pre ++ (b ++ k ++ y :: rest)).length)
    (by
      have := length_joined (pre := pre)
      simp only [List.length_append]
      omega)
  have he : eol (y :: rest) = none := by
    rw [eol.eq_def]
    split
    · rename_i e; exact absurd (List.cons.inj e).1 hy.2.2.2.2
    · rename_i e; exact absurd (List.cons.inj e).1 hy.2.2.2.2
    · rename_i e; exact absurd (List.cons.inj e).1 hy.2.2.2.1
    · rfl
  rw [read, hcom]
  simp only [hh, he]

/-- A whole table that is lost so. -/
example : read "RESULTAT,NOEUD,NOEUD_CMP,DX\nRESU1,N1,N1_DX,1.0\n".toList =
    .ok ⟨false, [], "RESULTAT,NOEUD,NOEUD_CMP,DX\nRESU1,N1,N1_DX,1.0\n".toList⟩ := by decide +kernel

/-- The same table without that column. -/
example : read "RESULTAT,NOEUD,CMP,DX\nRESU1,N1,N1_DX,1.0\n".toList = .ok ⟨true, [⟨1, [⟨1, .DX, 1, 0⟩]⟩], []⟩ := by decide +kernel

/-- C151 is false for a file that does not exist, that cannot be read or that is empty: there are no tests, and no error. -/
theorem C151_missing_false : read [] = .ok ⟨false, [], []⟩ := by decide +kernel

/-- C151 is false for a result that has another name than `RESU`: its rows are left out, and there is no error (the modes of a modal
response are named `MO`, AsterWriter.cpp 259). -/
theorem C151_named_false (rest : List Item) (e w : Line) (cells : List Line) (h : ¬ "RESU".toList <+: w) :
    convert (.unused :: .result :: rest) (e :: w :: cells) = .ok none := by
  unfold convert
  split
  · rfl
  · have hb : "RESU".toList.isPrefixOf w = false := by
      rw [← Bool.not_eq_true, List.isPrefixOf_iff_prefix]; exact h
    simp only [List.zip_cons_cons, setVars, setVar, hb, Bool.false_eq_true, if_false]

example : read "TITRE,RESULTAT,NOEUD,DX\nA,MO1,N1,1.0\nA,RESU1,N1,1.0".toList = .ok ⟨true, [⟨1, [⟨1, .DX, 1, 0⟩]⟩], []⟩ := by
  decide +kernel

/-- C151 is false for a table without the name of the result: the first row of it is undefined behaviour. -/
theorem C151_unnamed_false (items : List Item) (hi : Item.result ∉ items) (cells : List Line) (hl : cells.length = items.length) :
    convert items cells = .ub ∨ convert items cells = .throw := by
  have key : ∀ (ps : List (Item × Line)) (v : Vars), (∀ p ∈ ps, p.1 ≠ .result) → v.result = -1 →
      setVars v ps = .throw ∨ ∃ w, setVars v ps = .ok (some w) ∧ w.result = -1 := by
    intro ps
    induction ps with
    | nil => intro v _ hv; exact .inr ⟨v, rfl, hv⟩
    | cons p ps ih =>
      obtain ⟨i, t⟩ := p
      intro v hp hv
      have hs : setVar v i t = .throw ∨ ∃ w, setVar v i t = .ok (some w) ∧ w.result = -1 := by
        cases i with
        | result => exact absurd rfl (hp (.result, t) (by simp))
        | unused => exact .inr ⟨v, rfl, hv⟩
        | dof d => exact .inr ⟨v, rfl, hv⟩
        | time => exact .inr ⟨_, rfl, hv⟩
        | order =>
          cases h : stoi t with
          | none => exact .inl (by simp [setVar, h])
          | some n => exact .inr ⟨v, by simp [setVar, h], hv⟩
        | node =>
          cases t with
          | nil => exact .inl rfl
          | cons c t =>
            cases h : stoi t with
            | none => exact .inl (by simp [setVar, h])
            | some n => exact .inr ⟨{ v with node := some n }, by simp [setVar, h], hv⟩
      rcases hs with hs | ⟨w, hs, hw⟩
      · exact .inl (by rw [setVars, hs])
      · rw [setVars, hs]
        exact ih w (fun q hq => hp q (by simp [hq])) hw
  have hz : ∀ p ∈ items.zip cells, p.1 ≠ .result := fun p hp he => hi (he ▸ (List.of_mem_zip hp).1)
  rw [convert, if_neg (by simp [hl])]
  rcases key _ Vars.start hz rfl with h | ⟨w, h, hw⟩
  · exact .inr (by rw [h])
  · exact .inl (by rw [h]; simp only [hw, if_true])

/-- C151 is false for a table with components and without a column of nodes: no row of it is read (with the name of a result it is undefined
behaviour, see below). -/
theorem C151_nodeless_false (items : List Item) (hi : Item.node ∉ items) (d : Dof) (hd : Item.dof d ∈ items) (cells : List Line)
    (hl : cells.length = items.length) : ∀ f, convert items cells ≠ .ok (some f) := by
  have key : ∀ (ps : List (Item × Line)) (v w : Vars), (∀ p ∈ ps, p.1 ≠ .node) → v.node = none →
      setVars v ps = .ok (some w) → w.node = none := by
    intro ps
    induction ps with
    | nil => intro v w _ hv h; cases h; exact hv
    | cons p ps ih =>
      obtain ⟨i, t⟩ := p
      intro v w hp hv h
      rw [setVars] at h
      split at h
      · rename_i u hu
        refine ih u w (fun q hq => hp q (by simp [hq])) ?_ h
        cases i with
        | node => exact absurd rfl (hp (.node, t) (by simp))
        | result =>
          unfold setVar at hu
          simp only at hu
          repeat' split at hu
          all_goals first | (cases hu; exact hv) | cases hu
        | unused => cases hu; exact hv
        | dof d => cases hu; exact hv
        | time => cases hu; exact hv
        | order =>
          cases h : stoi t with
          | none => simp [setVar, h] at hu
          | some n => simp [setVar, h] at hu; rw [← hu]; exact hv
      all_goals cases h
  have hz : ∀ p ∈ items.zip cells, p.1 ≠ .node := fun p hp he => hi (he ▸ (List.of_mem_zip hp).1)
  have mk : ∀ (ps : List (Item × Line)) (v : Vars), v.node = none → (∃ p ∈ ps, p.1 = .dof d) → makeTests v ps = .ub := by
    intro ps
    induction ps with
    | nil => intro v _ h; simp at h
    | cons p ps ih =>
      obtain ⟨i, t⟩ := p
      intro v hv h
      cases i with
      | dof e => simp only [makeTests, hv]
      | _ =>
        simp only [makeTests]
        exact ih v hv (by simpa using h)
  have hex : ∃ p ∈ items.zip cells, p.1 = .dof d := by
    obtain ⟨j, hj, he⟩ := List.getElem_of_mem hd
    exact ⟨(items[j], cells[j]'(by omega)), by
      rw [List.mem_iff_getElem]
      exact ⟨j, by simp [hl, hj], by simp⟩, he⟩
  intro f h
  rw [convert, if_neg (by simp [hl])] at h
  split at h
  · rename_i w hw
    split at h
    · cases h
    · rw [mk _ w (key _ _ w hz rfl hw) hex] at h
      cases h
  all_goals cases h

/-- Such a row. -/
example : convert [.result, .dof .DX] ["RESU1".toList, "1.0".toList] = .ub := by decide +kernel

example : read "NOEUD,DX\nN1,1.0\n".toList = .ub := by decide +kernel

/-- C151 is false when the file ends in a comment: an exception ends the translation. -/
theorem C151_comment_false : read "# no results".toList = .throw := by decide +kernel

/-- C151 is false for the number of order of a row: it is read and forgotten. The first two modes of a model at one node give two
tests of the same component of the same node at the same instant with different values, and no result meets both. -/
theorem C151_order_false : read "RESULTAT,NUME_ORDRE,NOEUD,DX\nRESU1,1,N1,1.0\nRESU1,2,N1,0.5".toList =
    .ok ⟨true, [⟨1, [⟨1, .DX, 1, 0⟩]⟩, ⟨1, [⟨1, .DX, 1 / 2, 0⟩]⟩], []⟩ := by decide +kernel

/-! ## The analysis that is tested -/

theorem tested_unique : ∀ {as : List Analysis} (_ : as.Pairwise fun a b => a.original ≠ b.original) {a : Analysis}
    (_ : a ∈ as) {n : Int} (_ : a.original = some n), tested as n = some a
  | [], _, _, h, _, _ => by simp at h
  | b :: as, hd, a, ha, n, hn => by
    rw [List.pairwise_cons] at hd
    rcases List.mem_cons.mp ha with rfl | ha'
    · have : tested as n = none := by
        have key : ∀ {as : List Analysis}, (∀ c ∈ as, c.original ≠ some n) → tested as n = none := by
          intro as
          induction as with
          | nil => intro _; rfl
          | cons c as ih =>
            intro h
            rw [tested, ih fun x hx => h x (by simp [hx])]
            simp [h c (by simp)]
        exact key fun c hc he => hd.1 c hc (by rw [hn, he])
      rw [tested, this]
      simp [hn]
    · rw [tested, tested_unique hd.2 ha' hn]

theorem tested_some : ∀ {as : List Analysis} {n : Int} {a : Analysis}, tested as n = some a → a.original = some n ∧ a ∈ as
  | [], _, _, h => by simp [tested] at h
  | b :: as, n, a, h => by
    rw [tested] at h
    cases ht : tested as n with
    | some c =>
      rw [ht] at h
      obtain rfl := Option.some.inj h
      exact ⟨(tested_some ht).1, List.mem_cons_of_mem _ (tested_some ht).2⟩
    | none =>
      rw [ht] at h
      simp only at h
      split at h
      · rename_i he
        obtain rfl := Option.some.inj h
        exact ⟨he, by simp⟩
      · exact absurd h (by simp)

theorem filter_found {t : Table} {p : Found → Bool} {n : Int} (hp : ∀ f, p f = true ↔ f.result = n) :
    (t.found.filter p).flatMap (·.tests) = CsvSpec.rowsOf t n := by
  have key : ∀ rows : List Row, ((rows.filterMap fun r => r.data.map fun d =>
      (⟨d.result, tests (wordsOf t.head) d⟩ : Found)).filter p).flatMap (·.tests) =
      (rows.filterMap (·.data)).flatMap fun d => if (d.result : Int) = n then tests (wordsOf t.head) d else [] := by
    intro rows
    induction rows with
    | nil => rfl
    | cons r rows ih =>
      cases hd : r.data with
      | none => simp only [List.filterMap_cons, hd, Option.map_none, ih]
      | some d =>
        simp only [List.filterMap_cons, hd, Option.map_some, List.filter_cons, List.flatMap_cons]
        by_cases h : (d.result : Int) = n
        · rw [if_pos ((hp _).mpr h), if_pos h, List.flatMap_cons, ih]
        · rw [if_neg (fun e => h ((hp _).mp e)), if_neg h, ih]
          rfl
  exact key t.rows

/-- C151: the analysis that has a number in the file of the model is tested by the rows of the result of that number, and by no
others. -/
theorem C151_analysis_partial (as : List Analysis) (hd : as.Pairwise fun a b => a.original ≠ b.original) (t : Table) (a : Analysis)
    (ha : a ∈ as) (n : Int) (hn : a.original = some n) : testsOf as t.found a = CsvSpec.rowsOf t n := by
  refine filter_found fun f => ?_
  rw [decide_eq_true_iff]
  constructor
  · intro h
    have := (tested_some h).1
    rw [hn] at this
    exact (Option.some.inj this).symm
  · intro h
    rw [h]
    exact tested_unique hd ha hn

/-- C151 is false for a result whose number is that of no analysis in the file of the model: no analysis is tested by its rows, and
there is no error. -/
theorem C151_lost_false (as : List Analysis) (t : Table)
    (h : ∀ r ∈ t.rows, ∀ d ∈ r.data, ∀ a ∈ as, a.original ≠ some (d.result : Int)) (a : Analysis) : testsOf as t.found a = [] := by
  rw [testsOf, List.flatMap_eq_nil_iff]
  intro f hf
  obtain ⟨hf, ht⟩ := List.mem_filter.mp hf
  obtain ⟨r, hr, he⟩ := List.mem_filterMap.mp hf
  cases hd : r.data with
  | none => simp [hd] at he
  | some d =>
    rw [hd] at he
    obtain rfl := Option.some.inj he
    obtain ⟨h1, h2⟩ := tested_some (of_decide_eq_true ht)
    exact absurd h1 (h r hr d (by simp [hd]) a h2)

/-- C151: the table that Code_Aster prints for a translation has the results `RESU` with the own number of the analysis
(AsterWriter.cpp 250) and the nodes `N` with the position of the node plus one (MeshComponents.h 306-311). Given back with the same
model, it tests the analysis and the nodes it was printed for, if all the analyses have in the file of the model their own number and
the nodes are numbered in order from 1. -/
theorem C151_own_partial (as : List Analysis) (hd : as.Pairwise fun a b => a.id ≠ b.id) (ho : ∀ a ∈ as, a.original = some a.id)
    (nodes : List Int) (hnodes : ∀ p (hp : p < nodes.length), nodes[p] = p + 1) (t : Table) (a : Analysis) (ha : a ∈ as) :
    testsOf as t.found a = CsvSpec.rowsOf t a.id ∧
      ∀ r ∈ t.rows, ∀ d ∈ r.data, ∀ p (hp : p < nodes.length), d.node = p + 1 → ∀ x ∈ tests (wordsOf t.head) d, x.node = nodes[p] := by
  refine ⟨C151_analysis_partial as ?_ t a ha a.id (ho a ha), ?_⟩
  · refine hd.imp_of_mem fun {x y} hx hy hxy he => hxy ?_
    rw [ho x hx, ho y hy] at he
    exact Option.some.inj he
  · intro r _ d _ p hp hnode x hx
    obtain ⟨k, _, rfl⟩ := List.mem_map.mp hx
    rw [hnodes p hp]
    simp [hnode]

/-- The hypotheses are met by two analyses and three nodes. -/
example : ∃ as : List Analysis, as.length = 2 ∧ (as.Pairwise fun a b => a.id ≠ b.id) ∧ (∀ a ∈ as, a.original = some a.id) ∧
    ∃ nodes : List Int, nodes.length = 3 ∧ ∀ p (hp : p < nodes.length), nodes[p] = p + 1 :=
  ⟨[⟨some 1, 1⟩, ⟨some 2, 2⟩], rfl, by decide, by decide, [1, 2, 3], rfl, by decide⟩

/-- C151 is false for the table that Code_Aster prints for a translation, given back with the same model: with the subcases 2 and 5,
that have the own numbers 1 and 2, the results of the second subcase are taken for tests of the first, and those of the first for
tests of none; with the nodes 10 and 20, the second is named `N2` and the tests are of node 2, that does not exist. -/
theorem C151_own_false : ∃ (as : List Analysis) (nodes : List Int) (a b : Analysis) (text : Line) (r : Read),
    as = [a, b] ∧ a = ⟨some 2, 1⟩ ∧ b = ⟨some 5, 2⟩ ∧ nodes = [10, 20] ∧
    text = "RESULTAT,NOEUD,DX\nRESU1,N2,1.0\nRESU2,N2,3.0".toList ∧ read text = .ok r ∧
    testsOf as r.found a = [⟨2, .DX, 3, 0⟩] ∧ testsOf as r.found b = [] ∧
    ∀ x ∈ testsOf as r.found a, x.node ∉ nodes :=
  ⟨_, _, ⟨some 2, 1⟩, ⟨some 5, 2⟩, _, ⟨true, [⟨1, [⟨2, .DX, 1, 0⟩]⟩, ⟨2, [⟨2, .DX, 3, 0⟩]⟩], []⟩, rfl, rfl, rfl, rfl, rfl,
    by decide +kernel, by decide +kernel, by decide +kernel, by decide +kernel⟩

/-- C151 is false for Systus: a test of a table always has an instant, 0 if the table has none, and a strict translation ends with an
error at the first of them. -/
theorem C151_systus_false (t : Table) (ht : ∀ r ∈ t.rows, ∀ d ∈ r.data, 0 ≤ d.time) (f : Found) (hf : f ∈ t.found) (x : Test)
    (hx : x ∈ f.tests) (kind : Subcases.Kind) (pos : Nat) (dof : Fin 6) (tol : Dbl) :
    Tests.systusCheck true kind (.displacement pos x.node dof x.value x.time tol) = .throw := by
  obtain ⟨r, hr, he⟩ := List.mem_filterMap.mp hf
  cases hd : r.data with
  | none => simp [hd] at he
  | some d =>
    rw [hd] at he
    obtain rfl := Option.some.inj he
    obtain ⟨k, _, rfl⟩ := List.mem_map.mp hx
    have h0 := ht r hr d (by simp [hd])
    have hne : isEqual d.time Tests.noInstant = false := by
      unfold isEqual Tests.noInstant
      rw [decide_eq_false_iff_not, not_le, abs_of_nonneg h0, abs_of_nonneg (a := d.time - -1) (by linarith)]
      have hm : max 1 (max d.time |(-1 : Dbl)|) ≤ 1 + d.time := by
        rw [abs_neg, abs_one]
        exact max_le (by linarith) (max_le (by linarith) (by linarith))
      have htol : (0 : Dbl) < Vega.tol ∧ Vega.tol < 1 / 2 := by constructor <;> norm_num [Vega.tol]
      nlinarith
    simp [Tests.systusCheck, hne]

/-! ## Which reader -/

theorem takeWhile_last {c : Char} {b : Line} (h : c ∉ b) (a : Line) :
    ((a ++ c :: b).reverse.takeWhile (fun x => decide (x ≠ c))).reverse = b := by
  have h1 : (a ++ c :: b).reverse = b.reverse ++ (c :: a.reverse) := by simp
  rw [h1, List.takeWhile_append_of_pos (by
    intro x hx
    rw [List.mem_reverse] at hx
    simpa using fun e : x = c => h (e ▸ hx))]
  simp

theorem takeWhile_whole {c : Char} {b : Line} (h : c ∉ b) : (b.reverse.takeWhile (fun x => decide (x ≠ c))).reverse = b := by
  have := List.takeWhile_append_of_pos (p := fun x => decide (x ≠ c)) (l₁ := b.reverse) (l₂ := []) (by
    intro x hx
    rw [List.mem_reverse] at hx
    simpa using fun e : x = c => h (e ▸ hx))
  rw [List.append_nil] at this
  rw [this]
  simp

theorem fileName_of {path name : Line} (h : InDirectory path name) : fileName path = name := by
  obtain ⟨hn, rfl | ⟨dir, rfl⟩⟩ := h
  · exact takeWhile_whole hn
  · exact takeWhile_last hn dir

/-- C151: what is behind the last point of the name of the file says how it is read, whatever the case of the letters: `f06` as the
printed results of Nastran, `csv` as a table; anything else is an error. -/
theorem C151_reader (path stem ext : Line) (h : InDirectory path (stem ++ '.' :: ext)) (hs : stem ≠ []) (hdots : stem ++ '.' :: ext ≠ "..".toList)
    (he : '.' ∉ ext) : getResultReader path =
      (if ext.map Char.toLower = "f06".toList then .ok (some .f06)
      else if ext.map Char.toLower = "csv".toList then .ok (some .csv) else .throw) := by
  have hne : path ≠ [] := by
    rcases h.2 with rfl | ⟨dir, rfl⟩ <;> simp
  have hx : extension path = '.' :: ext := by
    unfold extension
    simp only [fileName_of h]
    rw [if_neg, if_pos (by simp), takeWhile_last he]
    rintro (e | e)
    · cases stem with
      | nil => exact hs rfl
      | cons c s => simp at e
    · exact hdots e
  rw [getResultReader, if_neg (by simpa using hne), hx]
  simp only [List.isEmpty_cons, Bool.false_eq_true, if_false, List.map_cons]
  have hdot : Char.toLower '.' = '.' := by decide
  rw [hdot]
  have e1 : ('.' :: ext.map Char.toLower = ".f06".toList) ↔ ext.map Char.toLower = "f06".toList := by
    show ('.' :: ext.map Char.toLower = '.' :: "f06".toList) ↔ _
    simp
  have e2 : ('.' :: ext.map Char.toLower = ".csv".toList) ↔ ext.map Char.toLower = "csv".toList := by
    show ('.' :: ext.map Char.toLower = '.' :: "csv".toList) ↔ _
    simp
  by_cases h1 : ext.map Char.toLower = "f06".toList
  · rw [if_pos (e1.mpr h1), if_pos h1]
  · rw [if_neg (fun e => h1 (e1.mp e)), if_neg h1]
    by_cases h2 : ext.map Char.toLower = "csv".toList
    · rw [if_pos (e2.mpr h2), if_pos h2]
    · rw [if_neg (fun e => h2 (e2.mp e)), if_neg h2]

example : getResultReader "/tests/model.1.CSV".toList = .ok (some .csv) := by decide +kernel
example : getResultReader "model.F06".toList = .ok (some .f06) := by decide +kernel
example : getResultReader "model.resu".toList = .throw := by decide +kernel

/-- C151 is false for a file whose name has no point: it is not read, and there is no error. -/
theorem C151_extension_false (path name : Line) (h : InDirectory path name) (hn : '.' ∉ name) : getResultReader path = .ok none := by
  have hx : extension path = [] := by
    unfold extension
    simp only [fileName_of h]
    rw [if_neg, if_neg hn]
    rintro (e | e) <;> exact hn (by simp [e])
  unfold getResultReader
  rw [hx]
  split <;> rfl

example : InDirectory "/results.d/f06".toList "f06".toList ∧ '.' ∉ "f06".toList := ⟨⟨by decide, .inr ⟨"/results.d".toList, rfl⟩⟩, by decide⟩

end Csv
end Vega
