import Verif.NastranWrite.Cells
import Verif.NastranWrite.LineProps

/-! # C80: cells written to Nastran and read back -/
namespace Vega

/-! ## Specification -/
namespace CellSpec
open NastranWrite

/-- The solid cells of Nastran. -/
def solids : List CellType := [.tetra4, .tetra10, .pyra5, .pyra13, .penta6, .penta15, .hexa8, .hexa20]

/-- The shells of Nastran. -/
def shells : List CellType := [.tri3, .tri6, .quad4, .quad8]

/-- A number that fits in a field. -/
def Number (n : Int) : Prop := 0 ≤ n ∧ n < 10 ^ 8

instance (n : Int) : Decidable (Number n) := inferInstanceAs (Decidable (_ ∧ _))

/-- A cell of a mesh whose numbers fit in a field. -/
structure Proper (c : CellCard) : Prop where
  nodes : c.nodes.length = c.type.numNodes
  idFits : Number c.id
  propertyFits : Number c.property
  nodesFit : ∀ n ∈ c.nodes, Number n

/-- Edges of the quadratic solids in the manual of Nastran, from 1: two corners, and the node between them. -/
def nastranEdges : CellType → List (Nat × Nat × Nat)
  | .tetra10 => [(1, 2, 5), (2, 3, 6), (3, 1, 7), (1, 4, 8), (2, 4, 9), (3, 4, 10)]
  | .pyra13 => [(1, 2, 6), (2, 3, 7), (3, 4, 8), (4, 1, 9), (1, 5, 10), (2, 5, 11), (3, 5, 12), (4, 5, 13)]
  | .penta15 => [(1, 2, 7), (2, 3, 8), (3, 1, 9), (1, 4, 10), (2, 5, 11), (3, 6, 12), (4, 5, 13), (5, 6, 14),
      (6, 4, 15)]
  | .hexa20 => [(1, 2, 9), (2, 3, 10), (3, 4, 11), (4, 1, 12), (1, 5, 13), (2, 6, 14), (3, 7, 15), (4, 8, 16),
      (5, 6, 17), (6, 7, 18), (7, 8, 19), (8, 5, 20)]
  | _ => []

/-- Edges in the manual of MED, from 1. -/
def medEdges : CellType → List (Nat × Nat × Nat)
  | .tetra10 => [(1, 2, 5), (2, 3, 6), (3, 1, 7), (1, 4, 8), (2, 4, 9), (3, 4, 10)]
  | .pyra13 => [(1, 2, 6), (2, 3, 7), (3, 4, 8), (4, 1, 9), (1, 5, 10), (2, 5, 11), (3, 5, 12), (4, 5, 13)]
  | .penta15 => [(1, 2, 7), (2, 3, 8), (3, 1, 9), (4, 5, 10), (5, 6, 11), (6, 4, 12), (1, 4, 13), (2, 5, 14),
      (3, 6, 15)]
  | .hexa20 => [(1, 2, 9), (2, 3, 10), (3, 4, 11), (4, 1, 12), (5, 6, 13), (6, 7, 14), (7, 8, 15), (8, 5, 16),
      (1, 5, 17), (2, 6, 18), (3, 7, 19), (4, 8, 20)]
  | _ => []

/-- The nodes `a`, `b`, with `m` between them, of a cell. -/
def OnEdge (edges : List (Nat × Nat × Nat)) (nodes : List Int) (a b m : Int) : Prop :=
  ∃ e ∈ edges, nodes[e.2.2 - 1]? = some m ∧
    (nodes[e.1 - 1]? = some a ∧ nodes[e.2.1 - 1]? = some b ∨ nodes[e.1 - 1]? = some b ∧ nodes[e.2.1 - 1]? = some a)

end CellSpec

namespace NastranWrite
open Nastran FieldSpec FixedSpec WriteSpec CellSpec

/-! ## Helper lemmas -/

theorem scatterLoop_spec (table : List Nat) (ids : List Int) (hn : table.Nodup)
    (hl : table.length = ids.length) : ∀ (left i : Nat) (out : List Int), left + i = ids.length →
    (∀ p ∈ table, p < out.length) → (∀ j p v, j < i → table[j]? = some p → ids[j]? = some v → out[p]? = some v) →
    ∃ out', scatterLoop table ids left i out = .ok out' ∧ out'.length = out.length ∧
      ∀ (j p : Nat) (v : Int), table[j]? = some p → ids[j]? = some v → out'[p]? = some v := by
  intro left
  induction left with
  | zero =>
    intro i out hi hb hinv
    refine ⟨out, rfl, rfl, fun j p v h1 h2 => hinv j p v ?_ h1 h2⟩
    have := (List.getElem?_eq_some_iff.1 h2).1
    omega
  | succ left ih =>
    intro i out hi hb hinv
    obtain ⟨p, hp⟩ : ∃ p, table[i]? = some p := ⟨_, List.getElem?_eq_getElem (by omega)⟩
    obtain ⟨v, hv⟩ : ∃ v, ids[i]? = some v := ⟨_, List.getElem?_eq_getElem (by omega)⟩
    have hpb := hb p (List.mem_of_getElem? hp)
    obtain ⟨out', h1, h2, h3⟩ := ih (i + 1) (out.set p v) (by omega) (by simpa using hb) (by
      intro j q w hj hq hw
      by_cases hji : j = i
      · subst hji
        rw [hp] at hq; rw [hv] at hw
        obtain rfl := Option.some.inj hq
        obtain rfl := Option.some.inj hw
        rw [List.getElem?_set_self hpb]
      · have hne : p ≠ q := by
          rintro rfl
          obtain ⟨a1, a2⟩ := List.getElem?_eq_some_iff.1 hp
          obtain ⟨b1, b2⟩ := List.getElem?_eq_some_iff.1 hq
          exact hji ((List.Nodup.getElem_inj_iff hn).1 (b2.trans a2.symm))
        rw [List.getElem?_set_ne hne]
        exact hinv j q w (by omega) hq hw)
    refine ⟨out', ?_, by simpa using h2, h3⟩
    rw [scatterLoop, hp, hv]
    simp only [hpb, if_true, h1]

/-- The tables are permutations of the nodes. -/
def IsOrder (t : CellType) (table : List Nat) : Prop :=
  table.Nodup ∧ table.length = t.numNodes ∧ ∀ p ∈ table, p < t.numNodes

instance (t : CellType) (table : List Nat) : Decidable (IsOrder t table) :=
  inferInstanceAs (Decidable (_ ∧ _))

theorem scatter_spec {t : CellType} {table : List Nat} (h : IsOrder t table) {ids : List Int}
    (hl : ids.length = t.numNodes) : ∃ out, scatter (some table) t ids = .ok out ∧ out.length = t.numNodes ∧
      ∀ (j p : Nat) (v : Int), table[j]? = some p → ids[j]? = some v → out[p]? = some v := by
  obtain ⟨out, h1, h2, h3⟩ := scatterLoop_spec table ids h.1 (h.2.1.trans hl.symm) t.numNodes 0
    (List.replicate t.numNodes 0) (by omega) (by simpa using h.2.2) (by omega)
  exact ⟨out, h1, by simpa using h2, h3⟩

/-- The second table undoes the first. -/
def Undoes (t : CellType) (a b : List Nat) : Prop := ∀ i < t.numNodes, ∃ p, a[i]? = some p ∧ b[p]? = some i

instance (t : CellType) (a b : List Nat) : Decidable (Undoes t a b) :=
  decidable_of_iff (∀ i < t.numNodes, ∃ p ∈ a[i]?, b[p]? = some i) (by
    simp [Undoes])

theorem scatter_scatter {t : CellType} {a b : List Nat} (ha : IsOrder t a) (hb : IsOrder t b) (hu : Undoes t a b)
    {ids : List Int} (hl : ids.length = t.numNodes) : ∃ out, scatter (some a) t ids = .ok out ∧
      out.length = t.numNodes ∧ scatter (some b) t out = .ok ids := by
  obtain ⟨out, h1, h2, h3⟩ := scatter_spec ha hl
  obtain ⟨out', k1, k2, k3⟩ := scatter_spec hb h2
  refine ⟨out, h1, h2, ?_⟩
  rw [k1]
  congr 1
  apply List.ext_getElem? 
  intro i
  by_cases hi : i < t.numNodes
  · obtain ⟨p, hp, hq⟩ := hu i hi
    obtain ⟨v, hv⟩ : ∃ v, ids[i]? = some v := ⟨_, List.getElem?_eq_getElem (by omega)⟩
    rw [k3 p i v hq (h3 i p v hp hv), hv]
  · rw [List.getElem?_eq_none (by omega), List.getElem?_eq_none (by omega)]

theorem scatter_mem {t : CellType} {a : List Nat} (ha : IsOrder t a) {b : List Nat} (hu : Undoes t b a)
    {ids out : List Int} (hl : ids.length = t.numNodes) (h : scatter (some a) t ids = .ok out) :
    ∀ n ∈ out, n ∈ ids := by
  obtain ⟨out', h1, h2, h3⟩ := scatter_spec ha hl
  rw [h] at h1
  obtain rfl := Outcome.ok.inj h1
  intro n hn
  obtain ⟨p, hp, rfl⟩ := List.getElem_of_mem hn
  obtain ⟨j, hj, hq⟩ := hu p (by omega)
  have hjl : j < a.length := (List.getElem?_eq_some_iff.1 hq).1
  have hjl' : j < ids.length := by rw [hl, ← ha.2.1]; exact hjl
  have := h3 j p ids[j] hq (List.getElem?_eq_getElem hjl')
  rw [List.getElem?_eq_getElem hp] at this
  rw [Option.some.inj this]
  exact List.getElem_mem hjl'

theorem trim_decimal (n : Int) : trim (decimal n) = decimal n := by
  refine trim_plain fun c hc => ?_
  have h := decimal_int n
  simp only [Bool.and_eq_true, List.all_eq_true] at h
  have hi := h.2 c hc
  unfold intChar at hi
  rw [Bool.or_eq_true] at hi
  rcases hi with h | h
  · rw [of_decide_eq_true h]; decide
  · rw [Bool.and_eq_true, decide_eq_true_eq, decide_eq_true_eq] at h
    exact (digit_plain (c := c) (.inl (by
      simp only [Char.isDigit, Bool.and_eq_true, decide_eq_true_eq]
      exact h))).2.2.2.2.2.2

theorem number_range {n : Int} (h : Number n) : intMin ≤ n ∧ n ≤ intMax := by
  obtain ⟨h0, h1⟩ := h
  unfold intMin intMax
  omega

theorem says_ints {ns : List Int} {texts : List Text} (h : List.Forall₂ Says (ns.map Arg.int) texts) :
    texts = ns.map decimal := by
  induction ns generalizing texts with
  | nil => cases h; rfl
  | cons n ns ih =>
    cases h with
    | cons h1 h2 => rw [ih h2, h1]; rfl

theorem nextInt_decimal {n : Int} (h : Number n) (dflt : Option Int) (pre rest : List Nastran.Line) :
    nextInt dflt (after pre (decimal n :: rest)) = .ok (n, after (pre ++ [decimal n]) rest) := by
  have he := decimal_int n
  simp only [Bool.and_eq_true] at he
  have hemp : (decimal n).isEmpty = false := by simpa using he.1
  unfold nextInt
  rw [next_after]
  simp only [trim_trimRight, trim_decimal, hemp, Bool.false_eq_true, if_false,
    parse_decimal (number_range h).1 (number_range h).2]

theorem writes_decimals (ns : List Int) : Writes (ns.map .one) (ns.map decimal) := by
  induction ns with
  | nil => exact .nil
  | cons n ns ih => exact .one (trim_decimal n) ih

theorem nextInts_decimals {ns : List Int} (h : ∀ n ∈ ns, Number n) (pre : List Nastran.Line) :
    nextInts (after pre (ns.map decimal)) = .ok (ns, after (pre ++ ns.map decimal) []) := by
  have := C25_thru_partial (ns.map .one) pre (ns.map decimal) [] (writes_decimals ns) (by
    intro i hi
    obtain ⟨n, hn, rfl⟩ := List.mem_map.1 hi
    exact number_range (h n hn)) (by intro h; simp)
  rw [List.append_nil] at this
  rw [this]
  congr 2
  clear this h
  induction ns with
  | nil => rfl
  | cons n ns ih => simp only [List.map_cons, List.flatMap_cons, Item.values, ih]; rfl

/-- What is needed of the tables for a solid. -/
structure SolidFacts (t : CellType) (types : List CellType) (kw : Text) (r w : List Nat) : Prop where
  med : toMed t = some r
  nas : toNastran t = some w
  keyword : cellKeyword .continuum t = kw
  name : Name false kw
  upper : toUpper (trim (toUpper (trimRight kw))) = kw
  command : commandOf kw = some (.solid types)
  first : types ≠ []
  pick : ∀ c, types.head? = some c → typeLoop t.numNodes types c = .ok t
  orderR : IsOrder t r
  orderW : IsOrder t w
  wr : Undoes t w r
  rw : Undoes t r w

theorem solidFacts {t : CellType} (h : t ∈ solids) : ∃ types kw r w, SolidFacts t types kw r w := by
  have hn : ∀ kw : Text, kw ≠ [] → kw.length ≤ 8 →
      (∀ c ∈ kw, isSpace c = false ∧ c ≠ ',' ∧ c ≠ '*' ∧ c ≠ '$') → Name false kw :=
    fun kw h1 h2 h3 => ⟨h1, h2, h3⟩
  simp only [solids, List.mem_cons, List.not_mem_nil, or_false] at h
  rcases h with rfl | rfl | rfl | rfl | rfl | rfl | rfl | rfl
  all_goals
    refine ⟨_, _, _, _, ⟨rfl, rfl, rfl, hn _ (by decide) (by decide) (by decide), by decide +kernel, rfl, by simp,
      ?_, by decide, by decide, by decide, by decide⟩⟩
    intro c hc
    obtain rfl := Option.some.inj hc
    rfl

theorem perm_of_scatter {t : CellType} {a b : List Nat} (ha : IsOrder t a) (hu : Undoes t b a)
    {ids out : List Int} (hl : ids.length = t.numNodes) (h : scatter (some a) t ids = .ok out) : out.Perm ids := by
  obtain ⟨out', h1, h2, h3⟩ := scatter_spec ha hl
  rw [h] at h1
  obtain rfl := Outcome.ok.inj h1
  have e : ids = a.map fun p => out.getD p 0 := by
    apply List.ext_getElem?
    intro i
    by_cases hi : i < t.numNodes
    · have hia : i < a.length := by rw [ha.2.1]; exact hi
      rw [List.getElem?_map, List.getElem?_eq_getElem hia, List.getElem?_eq_getElem (by omega : i < ids.length)]
      simp only [Option.map_some]
      rw [List.getD_eq_getElem?_getD, h3 i a[i] ids[i] (List.getElem?_eq_getElem hia)
        (List.getElem?_eq_getElem (by omega))]
      rfl
    · rw [List.getElem?_eq_none (by omega), List.getElem?_eq_none (by simp [ha.2.1]; omega)]
  have hperm : a.Perm (List.range t.numNodes) := by
    refine (List.perm_ext_iff_of_nodup ha.1 List.nodup_range).2 fun p => ?_
    rw [List.mem_range]
    refine ⟨ha.2.2 p, fun hp => ?_⟩
    obtain ⟨j, -, hj⟩ := hu p hp
    exact List.mem_of_getElem? hj
  have e2 : out = (List.range t.numNodes).map fun p => out.getD p 0 := by
    apply List.ext_getElem?
    intro i
    by_cases hi : i < t.numNodes
    · rw [List.getElem?_map, List.getElem?_range hi, Option.map_some, List.getD_eq_getElem?_getD,
        List.getElem?_eq_getElem (by omega : i < out.length)]
      rfl
    · rw [List.getElem?_eq_none (by omega), List.getElem?_eq_none (by simp; omega)]
  rw [e]
  conv_lhs => rw [e2]
  exact (hperm.map _).symm

theorem readSolid {t : CellType} {types : List CellType} {kw : Text} {r w : List Nat}
    (F : SolidFacts t types kw r w) {id pid : Int} {ns : List Int} (hid : Number id) (hpid : Number pid)
    (hns : ∀ n ∈ ns, Number n) (hl : ns.length = t.numNodes) {med : List Int}
    (hmed : scatter (some r) t ns = .ok med) :
    readCell (kw :: decimal id :: decimal pid :: ns.map decimal) = .ok (some ⟨id, pid, t, med, 0⟩) := by
  obtain ⟨first, more, rfl⟩ : ∃ c cs, types = c :: cs := by
    cases types with
    | nil => exact absurd rfl F.first
    | cons c cs => exact ⟨c, cs, rfl⟩
  have hkw : kw.isEmpty = false := by simpa using F.name.nonempty
  unfold readCell nextString
  rw [C57_keyword]
  simp only [F.upper, hkw, Bool.false_eq_true, if_false, Outcome.bind_ok, F.command]
  unfold runCommand parseElem
  simp only [nextInt_decimal hid, nextInt_decimal hpid, Outcome.bind_ok, nextInts_decimals hns, hl,
    F.pick first rfl, F.med, hmed]
  rfl

theorem forall₂_append {R : α → β → Prop} {a b : List α} {c : List β} (h : List.Forall₂ R (a ++ b) c) :
    ∃ c1 c2, c = c1 ++ c2 ∧ List.Forall₂ R a c1 ∧ List.Forall₂ R b c2 := by
  induction a generalizing c with
  | nil => exact ⟨[], c, rfl, .nil, h⟩
  | cons x a ih =>
    cases h with
    | cons h1 h2 =>
      obtain ⟨c1, c2, rfl, k1, k2⟩ := ih h2
      exact ⟨_ :: c1, c2, rfl, .cons h1 k1, k2⟩

theorem readInts_decimals : ∀ (ns : List Int) (pre rest : List Nastran.Line), (∀ n ∈ ns, Number n) →
    readInts ns.length (after pre (ns.map decimal ++ rest)) = .ok (ns, after (pre ++ ns.map decimal) rest) := by
  intro ns
  induction ns with
  | nil => intro pre rest _; simp [readInts]
  | cons n ns ih =>
    intro pre rest h
    simp only [List.length_cons, List.map_cons, List.cons_append, readInts]
    rw [nextInt_decimal (h n (by simp))]
    simp only [Outcome.bind_ok]
    rw [ih _ _ fun n hn => h n (by simp [hn])]
    simp

theorem next_end (pre : List Nastran.Line) : nextSymbolString (after pre []) = ([], after pre []) := by
  simp [nextSymbolString, after]

theorem nextDouble_end (d : ℚ) (pre : List Nastran.Line) :
    nextDouble (some d) (after pre []) = .ok (d, after pre []) := by
  unfold nextDouble
  rw [next_end]
  rfl

theorem nextInt_end (d : Int) (pre : List Nastran.Line) :
    nextInt (some d) (after pre []) = .ok (d, after pre []) := by
  unfold nextInt
  rw [next_end]
  rfl

theorem skip_end (n : Nat) (pre : List Nastran.Line) : skip n (after pre []) = .ok (after pre []) := by
  simp [skip, after]

theorem nextDouble_blank (d : ℚ) (pre rest : List Nastran.Line) :
    nextDouble (some d) (after pre ([] :: rest)) = .ok (d, after (pre ++ [[]]) rest) := by
  unfold nextDouble
  rw [next_after]
  rfl

/-- What is needed of the tables for a shell. -/
structure ShellFacts (t : CellType) (kw : Text) (w : List Nat) : Prop where
  nas : toNastran t = some w
  keyword : cellKeyword .shell t = kw
  name : Name false kw
  upper : toUpper (trim (toUpper (trimRight kw))) = kw
  command : commandOf kw = some (.shell t)
  orderW : IsOrder t w
  ww : Undoes t w w

theorem shellFacts {t : CellType} (h : t ∈ shells) : ∃ kw w, ShellFacts t kw w := by
  have hn : ∀ kw : Text, kw ≠ [] → kw.length ≤ 8 →
      (∀ c ∈ kw, isSpace c = false ∧ c ≠ ',' ∧ c ≠ '*' ∧ c ≠ '$') → Name false kw :=
    fun kw h1 h2 h3 => ⟨h1, h2, h3⟩
  simp only [shells, List.mem_cons, List.not_mem_nil, or_false] at h
  rcases h with rfl | rfl | rfl | rfl
  all_goals
    exact ⟨_, _, ⟨rfl, rfl, hn _ (by decide) (by decide) (by decide), by decide +kernel, rfl,
      by decide, by decide⟩⟩

/-! ## The theorems -/

/-- **C80 (partial).** A solid cell written to a Nastran file is read from it with the same number, property, type and
nodes in the same order. (Numbers of at most eight digits, see C78; not in the dialect of Cosmic.) -/
theorem C80_solid_partial (counter : Nat) (cell : CellCard) (rest : List Nastran.Line) (ht : cell.type ∈ solids)
    (hp : Proper cell) (hc : counter + 3 < 10 ^ 7) (hnew : NewCard rest) :
    ∃ kw args lines counter' fields, cellLine .continuum cell = .ok (kw, args) ∧
      writeCard counter kw args = some (lines, counter') ∧
      nextLine (lines ++ rest) = .ok (some (fields, afterComments rest)) ∧
      readCell fields = .ok (some ⟨cell.id, cell.property, cell.type, cell.nodes, 0⟩) := by
  obtain ⟨types, kw, r, w, F⟩ := solidFacts ht
  obtain ⟨nas, h1, h2, h3⟩ := scatter_scatter F.orderW F.orderR F.wr hp.nodes
  have hnas := scatter_mem F.orderW F.rw hp.nodes h1
  have hlt : ∀ t ∈ solids, t.numNodes ≤ 20 := by decide
  have h20 := hlt _ ht
  obtain ⟨lines, counter', texts, g1, g2, -, -, g3⟩ := C78_card_partial counter kw
    (cellArgs .continuum cell nas) rest F.name (by
      intro a ha
      simp only [cellArgs, List.append_nil, List.mem_cons, List.mem_map] at ha
      rcases ha with rfl | rfl | ⟨n, hn, rfl⟩
      · exact hp.idFits
      · exact hp.propertyFits
      · exact hp.nodesFit n (hnas n hn)) (by
      simp only [cellArgs, List.append_nil, List.length_cons, List.length_map, h2]
      omega) hnew
  have e : cellArgs .continuum cell nas = (cell.id :: cell.property :: nas).map Arg.int := by
    simp [cellArgs]
  rw [e] at g2
  rw [says_ints g2] at g3
  refine ⟨kw, _, lines, counter', _, ?_, g1, g3, ?_⟩
  · rw [cellLine, F.nas, h1, F.keyword]; rfl
  · simp only [List.map_cons]
    exact readSolid F hp.idFits hp.propertyFits (fun n hn => hp.nodesFit n (hnas n hn)) h2 h3

/-- A hexahedron with twenty nodes. -/
def sampleHexa : CellCard := ⟨7, 2, .hexa20, (List.range 20).map fun k : Nat => (100 + k : Int), 0⟩

example : sampleHexa.type ∈ solids ∧ Proper sampleHexa :=
  ⟨by decide, ⟨by decide, by decide, by decide, by decide⟩⟩

/-- **C80 (partial).** The other way round: the card of a solid cell, once read, is written with its nodes in the order
in which they were. -/
theorem C80_solid_same_card_partial (t : CellType) (id pid : Int) (ns : List Int) (ht : t ∈ solids) (hid : Number id)
    (hpid : Number pid) (hns : ∀ n ∈ ns, Number n) (hl : ns.length = t.numNodes) :
    ∃ kw cell, readCell (kw :: decimal id :: decimal pid :: ns.map decimal) = .ok (some cell) ∧
      cell.type = t ∧ cellLine .continuum cell = .ok (kw, .int id :: .int pid :: ns.map Arg.int) := by
  obtain ⟨types, kw, r, w, F⟩ := solidFacts ht
  obtain ⟨med, h1, h2, h3⟩ := scatter_scatter F.orderR F.orderW F.rw hl
  refine ⟨kw, _, readSolid F hid hpid hns hl h1, rfl, ?_⟩
  rw [cellLine]
  simp only [F.nas, h3, F.keyword, cellArgs, List.append_nil, Outcome.bind_ok]

/-- **C80.** The nodes in the middle of the edges stay there: three nodes of an edge for Nastran are those of an edge
for MED. -/
theorem C80_edges (t : CellType) (ns : List Int) (ht : t ∈ solids) (hl : ns.length = t.numNodes) :
    ∃ med, scatter (toMed t) t ns = .ok med ∧ ∀ a b m, OnEdge (nastranEdges t) ns a b m →
      OnEdge (medEdges t) med a b m := by
  obtain ⟨types, kw, r, w, F⟩ := solidFacts ht
  obtain ⟨med, h1, h2, h3⟩ := scatter_spec F.orderR hl
  refine ⟨med, by rw [F.med, h1], ?_⟩
  have key : ∀ t ∈ solids, ∀ e ∈ nastranEdges t, ∃ e' ∈ medEdges t, ∃ r, toMed t = some r ∧
      r[e.2.2 - 1]? = some (e'.2.2 - 1) ∧
      (r[e.1 - 1]? = some (e'.1 - 1) ∧ r[e.2.1 - 1]? = some (e'.2.1 - 1) ∨
        r[e.1 - 1]? = some (e'.2.1 - 1) ∧ r[e.2.1 - 1]? = some (e'.1 - 1)) := by
    have : ∀ t ∈ solids, ∀ e ∈ nastranEdges t, ∃ e' ∈ medEdges t, ∃ r ∈ toMed t,
      r[e.2.2 - 1]? = some (e'.2.2 - 1) ∧
      (r[e.1 - 1]? = some (e'.1 - 1) ∧ r[e.2.1 - 1]? = some (e'.2.1 - 1) ∨
        r[e.1 - 1]? = some (e'.2.1 - 1) ∧ r[e.2.1 - 1]? = some (e'.1 - 1)) := by decide +kernel
    exact this
  rintro a b m ⟨e, he, hm, hab⟩
  obtain ⟨e', he', r', hr', km, kab⟩ := key t ht e he
  rw [F.med] at hr'
  obtain rfl := Option.some.inj hr'
  refine ⟨e', he', h3 _ _ _ km hm, ?_⟩
  rcases kab with ⟨k1, k2⟩ | ⟨k1, k2⟩ <;> rcases hab with ⟨a1, a2⟩ | ⟨a1, a2⟩
  · exact .inl ⟨h3 _ _ _ k1 a1, h3 _ _ _ k2 a2⟩
  · exact .inr ⟨h3 _ _ _ k1 a1, h3 _ _ _ k2 a2⟩
  · exact .inr ⟨h3 _ _ _ k2 a2, h3 _ _ _ k1 a1⟩
  · exact .inl ⟨h3 _ _ _ k2 a2, h3 _ _ _ k1 a1⟩

example : OnEdge (nastranEdges .hexa20) sampleHexa.nodes 100 101 108 :=
  ⟨(1, 2, 9), by decide, by decide, .inl ⟨by decide, by decide⟩⟩

/-- **C80 (partial).** A shell that is written and read back keeps its number, property, type and set of nodes, and its
offset up to the precision of C79, unless it has eight nodes. The order of the nodes is not kept: see
`C80_shell_false`. -/
theorem C80_shell_partial (counter : Nat) (cell : CellCard) (rest : List Nastran.Line) (ht : cell.type ∈ shells)
    (hp : Proper cell) (hoff : |cell.offset| ≤ dblMax) (hc : counter + 3 < 10 ^ 7) (hnew : NewCard rest) :
    ∃ kw args lines counter' fields read, cellLine .shell cell = .ok (kw, args) ∧
      writeCard counter kw args = some (lines, counter') ∧
      nextLine (lines ++ rest) = .ok (some (fields, afterComments rest)) ∧
      readCell fields = .ok (some read) ∧ read.id = cell.id ∧ read.property = cell.property ∧
      read.type = cell.type ∧ read.nodes.Perm cell.nodes ∧
      (cell.type ≠ .quad8 → Near cell.offset read.offset) := by
  obtain ⟨kw, w, F⟩ := shellFacts ht
  obtain ⟨nas, h1, h2, -⟩ := scatter_spec F.orderW hp.nodes
  have hperm := perm_of_scatter F.orderW F.ww hp.nodes h1
  have hnas : ∀ n ∈ nas, Number n := fun n hn => hp.nodesFit n (hperm.mem_iff.1 hn)
  have hlt : ∀ t ∈ shells, t.numNodes ≤ 8 := by decide
  have h8 := hlt _ ht
  obtain ⟨lines, counter', texts, g1, g2, -, -, g3⟩ := C78_card_partial counter kw
    (cellArgs .shell cell nas) rest F.name (by
      intro a ha
      simp only [cellArgs, List.cons_append, List.mem_cons, List.mem_append, List.mem_map, List.not_mem_nil,
        or_false] at ha
      rcases ha with rfl | rfl | ⟨n, hn, rfl⟩ | rfl | rfl
      · exact hp.idFits
      · exact hp.propertyFits
      · exact hnas n hn
      · trivial
      · exact hoff) (by
      simp only [cellArgs, List.cons_append, List.length_cons, List.length_append, List.length_map, h2,
        List.length_nil]
      omega) hnew
  have e : cellArgs .shell cell nas = (cell.id :: cell.property :: nas).map Arg.int ++
      [.blank, .real cell.offset] := by
    simp [cellArgs]
  rw [e] at g2
  obtain ⟨c1, c2, rfl, k1, k2⟩ := forall₂_append g2
  rw [says_ints k1] at g3
  cases k2 with
  | cons b1 k2 => cases k2 with
    | cons b2 k2 => cases k2 with
      | nil =>
        rename_i tb tr
        obtain rfl : tb = [] := b1
        obtain ⟨hne, hr⟩ := b2
        have hline : cellLine .shell cell = .ok (kw, cellArgs .shell cell nas) := by
          rw [cellLine, F.nas, h1, F.keyword]; rfl
        have hkw : kw.isEmpty = false := by simpa using F.name.nonempty
        have hread : ∀ t', t' = cell.type → ∃ off, readCell (kw :: ((cell.id :: cell.property :: nas).map decimal ++ [[], tr])) =
            .ok (some ⟨cell.id, cell.property, t', nas, off⟩) ∧
            (t' ≠ .quad8 → Near cell.offset off) := by
          intro t' ht'
          have hcmd := F.command
          rw [← ht'] at hcmd
          unfold readCell nextString
          rw [C57_keyword]
          simp only [F.upper, hkw, Bool.false_eq_true, if_false, Outcome.bind_ok, hcmd, List.map_cons,
            List.cons_append]
          unfold runCommand parseShellElem
          simp only [nextInt_decimal hp.idFits, nextInt_decimal hp.propertyFits, Outcome.bind_ok]
          have hlen : nas.length = t'.numNodes := by rw [h2, ht']
          have hri := readInts_decimals nas
            ([kw] ++ [decimal cell.id] ++ [decimal cell.property]) [[], tr] hnas
          rw [hlen] at hri
          rw [← ht'] at ht
          simp only [shells, List.mem_cons, List.not_mem_nil, or_false] at ht
          have hend : ∀ pre, isEmptyUntilNextKeyword (after pre []) = true := fun pre => rfl
          obtain ⟨y0, hy0, hd0⟩ := hr.2
            ([kw] ++ [decimal cell.id] ++ [decimal cell.property] ++ nas.map decimal ++ [[]]) [] (some 0)
          obtain ⟨y1, hy1, hd1⟩ := hr.2
            ([kw] ++ [decimal cell.id] ++ [decimal cell.property] ++ nas.map decimal ++ [[]]) [] (some unavailable)
          rcases ht with rfl | rfl | rfl | rfl
          all_goals
            simp only [CellType.numNodes] at hri
            simp only [hri, Outcome.bind_ok, nextDouble_blank, readThicknesses, hd0, hd1, skip_end, nextInt_end,
              nextDouble_end, hend, if_true]
          · exact ⟨_, rfl, fun _ => hy0⟩
          · exact ⟨_, rfl, fun _ => hy0⟩
          · exact ⟨_, rfl, fun _ => hy0⟩
          · exact ⟨_, rfl, fun h => absurd rfl h⟩
        obtain ⟨off, hrd, hnear⟩ := hread _ rfl
        exact ⟨kw, _, lines, counter', _, _, hline, g1, g3, hrd, rfl, rfl, rfl, hperm, hnear⟩

/-- A square shell. -/
def sampleShell : CellCard := ⟨12, 3, .quad4, [1, 2, 3, 4], 5 / 2⟩

example : sampleShell.type ∈ shells ∧ Proper sampleShell ∧ |sampleShell.offset| ≤ dblMax :=
  ⟨by decide, ⟨by decide, by decide, by decide, by decide⟩, by decide +kernel⟩

/-- The cards of some cells. -/
def cellLines (kind : CellKind) : List CellCard → Outcome (List (Text × List Arg))
  | [] => .ok []
  | c :: cs => do
    let l ← cellLine kind c
    let ls ← cellLines kind cs
    .ok (l :: ls)

/-- The cells of some cards. -/
def readCells : List (List Nastran.Line) → Outcome (List (Option CellCard))
  | [] => .ok []
  | f :: fs => do
    let c ← readCell f
    let cs ← readCells fs
    .ok (c :: cs)

/-- A file of these cells is written and read. -/
def readBack (kind : CellKind) (cells : List CellCard) : Outcome (List (Option CellCard)) := do
  let ls ← cellLines kind cells
  match writeAll 0 ls with
  | none => .throw
  | some lines => do
    let fields ← cards (lines.length + 1) lines
    readCells fields

/-- **C80, false in full.** The nodes of every shell are written the other way round, while they are read as they are:
the normal of a shell is reversed by each translation from Nastran to Nastran. For four nodes, all of them distinct. -/
theorem C80_shell_false (a b c d : Int) (h : b ≠ d) (id pid : Int) :
    ∃ args, cellLine .shell ⟨id, pid, .quad4, [a, b, c, d], 0⟩ = .ok ("CQUAD4".toList, args) ∧
      args = [.int id, .int pid, .int a, .int d, .int c, .int b, .blank, .real 0] ∧
      args ≠ [.int id, .int pid, .int a, .int b, .int c, .int d, .blank, .real 0] := by
  refine ⟨_, rfl, rfl, ?_⟩
  show ¬ [Arg.int id, .int pid, .int a, .int d, .int c, .int b, .blank, .real 0] = _
  simp [h.symm]

/-- The same with the files: what is read is not what was written, and has the opposite normal. -/
theorem C80_shell_files_false : readBack .shell [sampleShell] = .ok [some ⟨12, 3, .quad4, [1, 4, 3, 2], 5 / 2⟩] := by decide +kernel

/-- **C80, false in full.** The offset of a shell of eight nodes is written where a thickness is read: it is lost. -/
theorem C80_quad8_offset_false : readBack .shell [⟨12, 3, .quad8, [1, 2, 3, 4, 5, 6, 7, 8], 5 / 2⟩] =
    .ok [some ⟨12, 3, .quad8, [1, 4, 3, 2, 8, 7, 6, 5], 0⟩] := by decide +kernel

/-- **C80, false in full.** A cell of an unsupported type is written without keyword, which the reader takes for the
continuation of the card before: that card, correct by itself, cannot be read any more. -/
theorem C80_unsupported_false :
    readBack .continuum [⟨1, 1, .tetra4, [1, 2, 3, 4], 0⟩] = .ok [some ⟨1, 1, .tetra4, [1, 2, 3, 4], 0⟩] ∧
    readBack .continuum [⟨1, 1, .tetra4, [1, 2, 3, 4], 0⟩, ⟨2, 1, .quad9, [1, 2, 3, 4, 5, 6, 7, 8, 9], 0⟩] =
      .throw := by decide +kernel

end NastranWrite
end Vega
