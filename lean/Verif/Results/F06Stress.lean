import Verif.Results.F06Files

/-! # C95: stresses in solids; C96: the reading of a result file ends -/
namespace Vega
namespace F06Spec
open Nastran (Line isSpace trim lexicalDouble natOf intMax)
open F06 (Added Assertion World)

/-- The first line of a page. -/
def PageLine (l : Line) : Prop := l.head? = some '1' ∧ "PAGE".toList <:+: l

/-- A part of a table of stresses: three lines for a node, three for the centre of the cell, or the beginning of a page. -/
inductive Block where
  | node (l1 l2 l3 : Line) (node : Nat) (value : Dbl)
  | centre (l1 l2 l3 : Line)
  | page (l a b c d : Line)

def Block.lines : Block → List Line
  | .node l1 l2 l3 _ _ => [l1, l2, l3]
  | .centre l1 l2 l3 => [l1, l2, l3]
  | .page l a b c d => [l, a, b, c, d]

def Block.isPage : Block → Bool
  | .page .. => true
  | _ => false

/-- The first line of a node has its number as second word and the stress as last one; the others begin with a space. -/
def Block.Printed : Block → Prop
  | .node l1 l2 l3 k x => l1.head? = some '0' ∧ ¬ "CENTER".toList <:+: l1 ∧ l2.head? = some ' ' ∧ l3.head? = some ' ' ∧
    ∃ z n mid v, Words (z :: n :: (mid ++ [v])) l1 ∧ Digits n k ∧ lexicalDouble v = some x
  | .centre l1 l2 l3 => l1.head? = some '0' ∧ "CENTER".toList <:+: l1 ∧ l2.head? = some ' ' ∧ l3.head? = some ' '
  | .page l _ _ _ _ => PageLine l

/-- The tests of a part. -/
def Block.tests (subcase cell : Int) : Block → List Added
  | .node _ _ _ k x => [⟨subcase, .vonMises cell k x⟩]
  | _ => []

/-- A cell: its line, with its number as second word and the number of its nodes as fifth one, and its parts. -/
structure StressCell where
  line : Line
  cell : Nat
  nodes : Nat
  blocks : List Block

def StressCell.lines (c : StressCell) : List Line := c.line :: c.blocks.flatMap Block.lines

def StressCell.Printed (c : StressCell) : Prop := ¬ "SUBCASE".toList <:+: c.line ∧
  (c.line.head? = some '0' → "0GRID".toList <:+: c.line) ∧
  (∃ a n b d k e, Words [a, n, b, d, k, e] c.line ∧ Digits n c.cell ∧ Digits k c.nodes ∧ (c.nodes : Int) ≠ intMax) ∧
  (∀ b ∈ c.blocks, b.Printed) ∧ (∀ b ∈ c.blocks.getLast?, b.isPage = false) ∧
  (c.blocks.filter fun b => !b.isPage).length = c.nodes + 1

def StressCell.tests (subcase : Int) (c : StressCell) : List Added := c.blocks.flatMap (Block.tests subcase c.cell)

/-- The end of a table of stresses of a subcase. -/
inductive StressEnd (subcase : Int) : List Line → Int → List Line → Prop
  | file : StressEnd subcase [] (-1) []
  | next {l n rest} : Heading l n → (n : Int) ≠ subcase → StressEnd subcase (l :: rest) n rest
  | other {l ws rest} : ¬ "SUBCASE".toList <:+: l → l.head? ≠ some '0' → Words ws l → ws.length ≠ 6 →
    StressEnd subcase (l :: rest) (-1) rest

end F06Spec

namespace F06
open Nastran (Line isSpace trim lexicalDouble natOf intMax)
open NastranWrite (V3)
open F06Spec

/-! ## Stresses -/

theorem readLine_cons (line l : Line) (rest : List Line) (atEnd : Option Line) :
    readLine line ⟨l :: rest, atEnd⟩ = (true, l, ⟨rest, atEnd⟩) := rfl

theorem stressLines_cons (subcase cell : Int) (n : Nat) (line l : Line) (rest : List Line) (atEnd : Option Line)
    (found : List Added) : stressLines subcase cell (n + 1) line ⟨l :: rest, atEnd⟩ found =
      if startsPage l then .ok (.page, (readLines 4 l ⟨rest, atEnd⟩).1, (readLines 4 l ⟨rest, atEnd⟩).2, found)
      else if hasNoNode l then stressLines subcase cell n l ⟨rest, atEnd⟩ found
      else stressRow subcase cell l >>= fun r => match r with
        | some a => stressLines subcase cell n l ⟨rest, atEnd⟩ (found ++ [a])
        | none => .ok (.threw, l, ⟨rest, atEnd⟩, found) := by
  rw [stressLines]
  rfl

theorem lines_skip (subcase cell : Int) (n : Nat) (line l : Line) (rest : List Line) (atEnd : Option Line) (found : List Added)
    (h1 : l.head? = some ' ') :
    stressLines subcase cell (n + 1) line ⟨l :: rest, atEnd⟩ found = stressLines subcase cell n l ⟨rest, atEnd⟩ found := by
  rw [stressLines_cons, if_neg (by rw [startsPage, h1]; simp), if_pos (by rw [hasNoNode, h1]; simp)]

theorem stressRow_ok {subcase cell : Int} {l z n v : Line} {mid : List Line} {node : Nat} {x : Dbl}
    (hw : Words (z :: n :: (mid ++ [v])) l) (hn : Digits n node) (hv : lexicalDouble v = some x) :
    stressRow subcase cell l = .ok (some ⟨subcase, .vonMises cell node x⟩) := by
  have key : ∀ (t1 : Line) (more : List Line), n :: (mid ++ [v]) = t1 :: more →
      (match stoi t1, stod ((t1 :: more).getLast (by simp)) with
        | some node, some x => (.ok (some ⟨subcase, .vonMises cell node x⟩) : Outcome (Option Added))
        | _, _ => .ok none) = .ok (some ⟨subcase, .vonMises cell node x⟩) := by
    intro t1 more he
    have hl : (t1 :: more).getLast (by simp) = v := by
      simp only [← he]
      rw [List.getLast_cons (by simp)]
      simp
    rw [List.cons.injEq] at he
    rw [hl, ← he.1, stoi_of_digits hn, stod_number hv]
  unfold stressRow
  rw [words_of hw]
  exact key _ _ rfl

/-- A part that is not a page. -/
theorem lines_block (subcase cell : Int) (b : Block) (hb : b.Printed) (hp : b.isPage = false) (line : Line) (rest : List Line)
    (atEnd : Option Line) (found : List Added) : ∃ line', stressLines subcase cell 3 line ⟨b.lines ++ rest, atEnd⟩ found =
      .ok (.done, line', ⟨rest, atEnd⟩, found ++ b.tests subcase cell) := by
  cases b with
  | page => exact absurd hp (by simp [Block.isPage])
  | centre l1 l2 l3 =>
    obtain ⟨h1, h2, h3, h4⟩ := hb
    refine ⟨l3, ?_⟩
    simp only [Block.lines, List.cons_append, List.nil_append]
    rw [stressLines_cons, if_neg (by rw [startsPage, h1]; simp), if_pos (by rw [hasNoNode, has_iff.2 h2]; simp), lines_skip _ _ _ _ _ _ _ _ h3,
      lines_skip _ _ _ _ _ _ _ _ h4, stressLines]
    simp [Block.tests]
  | node l1 l2 l3 node value =>
    obtain ⟨h1, h2, h3, h4, z, n, mid, v, hw, hn, hv⟩ := hb
    refine ⟨l3, ?_⟩
    simp only [Block.lines, List.cons_append, List.nil_append]
    rw [stressLines_cons, if_neg (by rw [startsPage, h1]; simp), if_neg (by rw [hasNoNode, has_false.2 h2, h1]; simp), stressRow_ok hw hn hv]
    simp only [Outcome.bind_ok]
    rw [lines_skip _ _ _ _ _ _ _ _ h3, lines_skip _ _ _ _ _ _ _ _ h4, stressLines]
    rfl

theorem lines_page (subcase cell : Int) (l a b c d line : Line) (h : PageLine l) (rest : List Line) (atEnd : Option Line)
    (found : List Added) : stressLines subcase cell 3 line ⟨l :: a :: b :: c :: d :: rest, atEnd⟩ found =
      .ok (.page, d, ⟨rest, atEnd⟩, found) := by
  rw [stressLines_cons, if_pos (by rw [startsPage, h.1, has_iff.2 h.2]; rfl)]
  rfl

theorem nodes_blocks (subcase cell : Int) (atEnd : Option Line) (rest : List Line) : ∀ (bs : List Block) (fuel : Nat) (line : Line)
    (found : List Added), (∀ b ∈ bs, b.Printed) → (∀ b ∈ bs.getLast?, b.isPage = false) → bs.length < fuel →
    ∃ line', stressNodes subcase cell fuel (bs.filter fun b => !b.isPage).length line ⟨bs.flatMap Block.lines ++ rest, atEnd⟩ found =
      .ok (false, line', ⟨rest, atEnd⟩, found ++ bs.flatMap (Block.tests subcase cell)) := by
  intro bs
  induction bs with
  | nil =>
    intro fuel line found _ _ hf
    refine ⟨line, ?_⟩
    cases fuel <;> simp [stressNodes]
  | cons b bs ih =>
    intro fuel line found hp hl hf
    obtain ⟨fuel, rfl⟩ : ∃ k, fuel = k + 1 := ⟨fuel - 1, by simp at hf; omega⟩
    have hf' : bs.length < fuel := by simpa using hf
    have hl' : ∀ b ∈ bs.getLast?, b.isPage = false := by
      cases bs with
      | nil => simp
      | cons c bs => intro x hx; exact hl x (by rw [List.getLast?_cons_cons]; exact hx)
    have hp' : ∀ b ∈ bs, b.Printed := fun x hx => hp x (by simp [hx])
    rw [List.flatMap_cons, List.append_assoc]
    by_cases hb : b.isPage = true
    · cases b with
      | node => exact absurd hb (by simp [Block.isPage])
      | centre => exact absurd hb (by simp [Block.isPage])
      | page l a b c d =>
        have hne : ∃ k, (bs.filter fun b => !b.isPage).length = k + 1 := by
          cases hq : bs.getLast? with
          | none =>
            have : bs = [] := by simpa using hq
            subst this
            exact absurd (hl _ rfl) (by simp [Block.isPage])
          | some x =>
            have hx : x ∈ bs.filter fun b => !b.isPage := by
              rw [List.mem_filter]
              exact ⟨List.mem_of_getLast? hq, by simp [hl' x hq]⟩
            exact ⟨(bs.filter fun b => !b.isPage).length - 1, by have := List.length_pos_of_mem hx; omega⟩
        obtain ⟨k, hk⟩ := hne
        have hk' : (((Block.page l a b c d) :: bs).filter fun b => !b.isPage).length = k + 1 := by
          rw [List.filter_cons_of_neg (by simp [Block.isPage]), hk]
        obtain ⟨line', h⟩ := ih fuel d found hp' hl' hf'
        refine ⟨line', ?_⟩
        rw [hk'] ; rw [hk] at h
        rw [stressNodes]
        simp only [Block.lines, List.cons_append, List.nil_append,
          lines_page subcase cell l a b c d line (hp (.page l a b c d) (by simp)), Outcome.bind_ok]
        rw [h]
        simp [Block.tests]
    · have hb : b.isPage = false := by simpa using hb
      obtain ⟨line1, h1⟩ := lines_block subcase cell b (hp b (by simp)) hb line (bs.flatMap Block.lines ++ rest) atEnd found
      obtain ⟨line', h⟩ := ih fuel line1 (found ++ b.tests subcase cell) hp' hl' hf'
      refine ⟨line', ?_⟩
      rw [List.filter_cons_of_pos (by simp [hb]), List.length_cons, stressNodes]
      simp only [h1, Outcome.bind_ok]
      rw [h]
      simp

theorem blocks_length : ∀ bs : List Block, bs.length ≤ (bs.flatMap Block.lines).length := by
  intro bs
  induction bs with
  | nil => simp
  | cons b bs ih =>
    have hb : 1 ≤ b.lines.length := by cases b <;> simp [Block.lines]
    rw [List.flatMap_cons, List.length_append, List.length_cons]
    omega

theorem loop_cell (subcase : Int) (atEnd : Option Line) (c : StressCell) (hc : c.Printed) (fuel : Nat) (rest : List Line)
    (next : Int) (found : List Added) :
    stressLoop subcase atEnd (fuel + 1) (c.lines ++ rest) next found =
      stressLoop subcase atEnd fuel rest next (found ++ c.tests subcase) := by
  obtain ⟨h1, h2, ⟨a, n, b, d, k, e, hw, hn, hk, hm⟩, h4, h5, h6⟩ := hc
  have h7 : ¬ (c.line.head? = some '0' && !has "0GRID".toList c.line) = true := by
    intro h
    simp only [Bool.and_eq_true, Bool.not_eq_true', decide_eq_true_eq, beq_iff_eq] at h
    exact absurd (h2 h.1) (has_false.1 h.2)
  rw [StressCell.lines, List.cons_append, stressLoop, if_neg (by rw [has_false.2 h1]; simp), if_neg h7, words_of hw]
  simp only [stoi_of_digits hn, stoi_of_digits hk]
  rw [if_neg hm]
  have hcount : ((c.nodes : Int) + 1).toNat = (c.blocks.filter fun b => !b.isPage).length := by rw [h6]; omega
  obtain ⟨line', h⟩ := nodes_blocks subcase c.cell atEnd rest c.blocks
    (((c.nodes : Int) + 1).toNat + (c.blocks.flatMap Block.lines ++ rest).length + 1) c.line found h4 h5 (by
      have := blocks_length c.blocks
      rw [List.length_append]
      omega)
  rw [← hcount] at h
  rw [h]
  simp only [Outcome.bind_ok, Bool.false_eq_true, if_false]
  rfl

theorem loop_cells (subcase : Int) (atEnd : Option Line) {rest left : List Line} {next : Int} (he : StressEnd subcase rest next left) :
    ∀ (cs : List StressCell) (fuel : Nat) (found : List Added), (∀ c ∈ cs, c.Printed) → cs.length < fuel →
    stressLoop subcase atEnd fuel (cs.flatMap StressCell.lines ++ rest) noSubcase found =
      .ok ⟨next, found ++ cs.flatMap (·.tests subcase), left, false⟩ := by
  intro cs
  induction cs with
  | nil =>
    intro fuel found _ hf
    obtain ⟨fuel, rfl⟩ : ∃ k, fuel = k + 1 := ⟨fuel - 1, by simp at hf; omega⟩
    simp only [List.flatMap_nil, List.nil_append, List.append_nil]
    cases he with
    | file => rfl
    | @next l n rest hh hn =>
      rw [stressLoop, if_pos (has_iff.2 (heading_has hh)), heading_parse hh]
      simp only
      rw [if_neg hn]
    | @other l ws rest h1 h2 h3 h4 =>
      rw [stressLoop, if_neg (by rw [has_false.2 h1]; simp), if_neg (by simp [h2]), words_of h3]
      split
      · exact absurd rfl h4
      · rfl
  | cons c cs ih =>
    intro fuel found hc hf
    obtain ⟨fuel, rfl⟩ : ∃ k, fuel = k + 1 := ⟨fuel - 1, by simp at hf; omega⟩
    rw [List.flatMap_cons, List.append_assoc, loop_cell _ _ c (hc c (by simp)),
      ih fuel _ (fun x hx => hc x (by simp [hx])) (by simpa using hf)]
    simp

theorem stressHeader_found (atEnd : Option Line) : ∀ (heads : List Line) (title line : Line) (rest : List Line),
    (∀ l ∈ heads, l.head? ≠ some '1' ∧ ¬ stressTitle <:+: l) → title.head? ≠ some '1' → stressTitle <:+: title →
    stressHeader atEnd (heads ++ title :: rest) line = (true, title, rest) := by
  intro heads
  induction heads with
  | nil =>
    intro title line rest _ h1 h
    rw [List.nil_append, stressHeader, if_neg h1, if_pos (has_iff.2 h)]
  | cons l heads ih =>
    intro title line rest hl h1 h
    rw [List.cons_append, stressHeader, if_neg (hl l (by simp)).1, if_neg (by rw [has_iff]; exact (hl l (by simp)).2)]
    exact ih title l rest (fun q hq => hl q (by simp [hq])) h1 h

theorem cells_length : ∀ cs : List StressCell, cs.length ≤ (cs.flatMap StressCell.lines).length := by
  intro cs
  induction cs with
  | nil => simp
  | cons c cs ih => simp [StressCell.lines]; omega

/-- **C95 (stresses in solids), partial.** A table of stresses gives a test of the Von Mises stress for each node of each of its
cells, none for the centres, in the analysis of its subcase, wherever the pages begin between the nodes. Missing: rounding;
numbers of the first line of a node that touch each other; the groups made for Code_Aster; an unknown subcase is undefined
behaviour; a line of page between two cells ends the table. -/
theorem C95_stresses_partial (w : World) (st : Status) (atEnd : Option Line) (title : Line) (heads : List Line) (columns : Line)
    (cells : List StressCell) {rest left : List Line} {next : Int}
    (ht : "S T R E S S E S".toList <:+: title ∧ "S O L I D   E L E M E N T S".toList <:+: title)
    (hheads : ∀ l ∈ heads, l.head? ≠ some '1' ∧ ¬ stressTitle <:+: l) (hc1 : columns.head? ≠ some '1')
    (hcolumns : stressTitle <:+: columns) (hcells : ∀ c ∈ cells, c.Printed) (hend : StressEnd st.subcase rest next left)
    (hknown : st.subcase ∈ w.analyses ∨ (st.subcase = -1 ∧ w.analyses ≠ [])) :
    sectionAt w st atEnd title (heads ++ columns :: (cells.flatMap StressCell.lines ++ rest)) =
      .ok (some (cells.flatMap (·.tests st.subcase), next, left)) := by
  have hsec : stressSection st.subcase atEnd (heads ++ columns :: (cells.flatMap StressCell.lines ++ rest)) =
      .ok ⟨next, cells.flatMap (·.tests st.subcase), left, false⟩ := by
    rw [stressSection, stressHeader_found atEnd heads columns [] _ hheads hc1 hcolumns]
    simp only [if_true]
    rw [loop_cells st.subcase atEnd hend cells _ [] hcells (by
      have := cells_length cells
      rw [List.length_append]
      omega)]
    rfl
  have hne : ∀ t : Line, ¬ "S T R E S S E S".toList <:+: t → title ≠ t := fun t h he => h (he ▸ ht.1)
  rw [sectionAt, if_neg (hne _ (by rw [← has_iff]; decide)), if_neg (hne _ (by rw [← has_iff]; decide)),
    if_neg (hne _ (by rw [← has_iff]; decide)), if_pos (by rw [isStressTitle, has_iff.2 ht.1, has_iff.2 ht.2]; rfl), hsec]
  simp only [caught, Bool.false_and, Bool.false_eq_true, if_false, Outcome.bind_ok, addFound]
  by_cases hn : st.subcase = noSubcase
  · have hne : w.analyses ≠ [] := by
      rcases hknown with h | h
      · exact fun h0 => absurd (h0 ▸ h) (by simp)
      · exact h.2
    rw [if_neg (by simpa using hn), if_neg (by simpa using hne)]
    rfl
  · have hc : st.subcase ∈ w.analyses := hknown.resolve_right fun h => hn h.1
    rw [if_pos hn, if_pos (List.contains_iff_mem.2 hc)]
    rfl

/-- A cell of one node, with a page before the node. -/
example : (⟨"0    11    0GRID CS  1 GP".toList, 11, 1, [.centre "0   CENTER  X  1.0".toList " Y".toList " Z".toList,
    .page "1  PAGE 2".toList [] [] [] [], .node "0   7  X  2.5".toList " Y".toList " Z".toList 7 (5 / 2)]⟩ : StressCell).Printed := by
  refine ⟨by rw [← has_iff]; decide, fun _ => by rw [← has_iff]; decide, ⟨"0".toList, "11".toList, "0GRID".toList, "CS".toList, "1".toList,
    "GP".toList, ?_, ⟨by decide, by decide, by decide, by decide⟩, ⟨by decide, by decide, by decide, by decide⟩, by decide⟩, ?_, ?_, by decide⟩
  · exact spread_of [(" ".toList, "0".toList), ("    ".toList, "11".toList), ("    ".toList, "0GRID".toList), (" ".toList, "CS".toList),
      ("  ".toList, "1".toList), (" ".toList, "GP".toList)] [] (by decide) (by decide)
  · intro b hb
    simp only [List.mem_cons, List.not_mem_nil, or_false] at hb
    rcases hb with rfl | rfl | rfl
    · exact ⟨by decide, by rw [← has_iff]; decide, by decide, by decide⟩
    · exact ⟨by decide, by rw [← has_iff]; decide⟩
    · exact ⟨by decide, by rw [← has_iff]; decide, by decide, by decide, "0".toList, "7".toList, ["X".toList], "2.5".toList,
        spread_of [(" ".toList, "0".toList), ("   ".toList, "7".toList), ("  ".toList, "X".toList), ("  ".toList, "2.5".toList)] []
          (by decide) (by decide), ⟨by decide, by decide, by decide, by decide⟩, by decide +kernel⟩
  · intro b hb
    simp only [List.getLast?_cons_cons, List.getLast?_singleton, Option.mem_def, Option.some.injEq] at hb
    rw [← hb]
    rfl

end F06
end Vega
