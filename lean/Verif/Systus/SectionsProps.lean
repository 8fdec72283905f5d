import Verif.Systus.Sections
import Verif.Systus.LoadsProps
import Verif.NastranWrite.RealLemmas
import Verif.NastranWrite.LineLemmas

/-! # C145: the sections of the file of data of Systus agree with each other -/
namespace Vega

/-! ## Specification -/
namespace AscSpec
open SystusSections SystusLoadSpec
open Nastran (Line natOf)

/-- The line of a list that begins with a number. -/
def line (lines : List (List Nat)) (n : Nat) : Option (List Nat) := lines.find? fun l => l.head? == some n

/-- What a program that reads the file finds for the list `n` in the load case `k`: the vectors whose numbers stand after `k` in the
line of the list, and `none` for a number without vector. There is no list 0. -/
def ofList (f : Asc) (n k : Nat) : List (Option (List Dbl)) :=
  match line f.lists.2 n with
  | none => []
  | some l => ((pairs l.tail).filter fun e => e.1 == k).map fun e => vector f.vectors.2 e.2

/-- The number at the beginning of the line of a load case. -/
def loadNumber (l : Line) : Nat := natOf (l.takeWhile (· ≠ ' '))

/-- What follows the first quotation mark. -/
def afterQuote (l : Line) : Line := (l.dropWhile (· ≠ '"')).drop 1

/-- The text between the first two quotation marks. -/
def loadTitle (l : Line) : Line := (afterQuote l).takeWhile (· ≠ '"')

/-- The second number after the text. -/
def loadVolume (l : Line) : Nat := natOf (((afterQuote (afterQuote l)).drop 3).takeWhile (· ≠ ' '))

/-- The vector of the volume load of the line of a load case; 0 means none. -/
def volume (f : Asc) (l : Line) : Option (List Dbl) := if loadVolume l = 0 then none else vector f.vectors.2 (loadVolume l)

end AscSpec

namespace SystusSections
open SystusLoads SystusLoadSpec AscSpec
open Nastran (Line natOf)
open NastranWrite (showNat natOf_showNat showNat_plain showNat_length_le)
open Case (showInt)

/-! ## Lines of the load cases -/

theorem takeWhile_of {l r : Line} {x : Char} (h : ∀ c ∈ l, c ≠ x) : (l ++ x :: r).takeWhile (· ≠ x) = l := by
  rw [List.takeWhile_append_of_pos (by simpa using h)]
  simp

theorem dropWhile_of {l r : Line} {x : Char} (h : ∀ c ∈ l, c ≠ x) : (l ++ x :: r).dropWhile (· ≠ x) = x :: r := by
  rw [List.dropWhile_append_of_pos (by simpa using h)]
  simp

theorem showNat_ne_char {n : Nat} {x : Char} (hx : x.isDigit = false) : ∀ c ∈ showNat n, c ≠ x := by
  rintro c hc rfl
  rw [(showNat_plain hc).2.2.2] at hx
  exact nomatch hx

theorem loadLine_eq (n : Nat) (t : Line) (v : Nat) :
    loadLine n t v = showNat n ++ ' ' :: '"' :: (t ++ '"' :: ' ' :: '0' :: ' ' :: (showNat v ++ ' ' :: "0 0 0 0 0 7".toList)) := by
  unfold loadLine
  simp only [List.append_assoc]
  rfl

theorem afterQuote_loadLine (n : Nat) (t : Line) (v : Nat) :
    afterQuote (loadLine n t v) = t ++ '"' :: ' ' :: '0' :: ' ' :: (showNat v ++ ' ' :: "0 0 0 0 0 7".toList) := by
  rw [loadLine_eq, afterQuote, show showNat n ++ ' ' :: '"' :: (t ++ '"' :: ' ' :: '0' :: ' ' :: (showNat v ++ ' ' :: "0 0 0 0 0 7".toList)) =
    (showNat n ++ [' ']) ++ '"' :: (t ++ '"' :: ' ' :: '0' :: ' ' :: (showNat v ++ ' ' :: "0 0 0 0 0 7".toList)) by simp, dropWhile_of]
  · rfl
  · intro c hc
    rcases List.mem_append.mp hc with hc | hc
    · exact showNat_ne_char rfl c hc
    · rw [List.mem_singleton.mp hc]; decide

theorem loadNumber_loadLine (n : Nat) (t : Line) (v : Nat) : loadNumber (loadLine n t v) = n := by
  rw [loadLine_eq, loadNumber, takeWhile_of (showNat_ne_char rfl), natOf_showNat]

/-- C145, lines of load cases: a program that reads the line of a load case finds its number, its name and the number of its volume
load, if the name has no quotation mark. -/
theorem C145_line (n : Nat) (t : Line) (v : Nat) (h : ∀ c ∈ t, c ≠ '"') :
    loadNumber (loadLine n t v) = n ∧ loadTitle (loadLine n t v) = t ∧ loadVolume (loadLine n t v) = v := by
  refine ⟨loadNumber_loadLine n t v, ?_, ?_⟩
  · rw [loadTitle, afterQuote_loadLine, takeWhile_of h]
  · rw [loadVolume, afterQuote_loadLine, afterQuote, dropWhile_of h]
    show natOf ((showNat v ++ ' ' :: "0 0 0 0 0 7".toList).takeWhile (· ≠ ' ')) = v
    rw [takeWhile_of (showNat_ne_char rfl), natOf_showNat]

/-- C145 is false for a name with a quotation mark: the name found ends there. -/
theorem C145_quote_false (n : Nat) (t r : Line) (v : Nat) (h : ∀ c ∈ t, c ≠ '"') :
    loadTitle (loadLine n (t ++ '"' :: r) v) = t := by
  rw [loadTitle, afterQuote_loadLine, List.append_assoc]
  exact takeWhile_of h

/-! ## Names -/

theorem suffix_length {b : Int} (h : |b| < 10 ^ 10) : (suffix b).length ≤ 16 := by
  have h1 := showNat_length_le 9 b.natAbs (by rw [abs_lt] at h; omega)
  unfold suffix showInt
  split
  · simp; omega
  · simp; omega

/-- C145, names: a name has at most eighty characters, and ends with the number of the set of loads. -/
theorem C145_names (c : Config) (a : Analysis) (hb : ∀ l ∈ a.loadSets, |c.best l.id| < 10 ^ 10) :
    (∀ t ∈ namesOf c a, t.length ≤ 80) ∧
      ∀ (i : Nat) (l : LoadSet), a.loadSets[i]? = some l → ∃ t, (namesOf c a)[i]? = some t ∧
        t = (c.label a.id).take (t.length - ("_LOAD".toList ++ showInt (c.best l.id)).length) ++ ("_LOAD".toList ++ showInt (c.best l.id)) ∧
        ((c.label a.id).length ≤ 64 → t = c.label a.id ++ ("_LOAD".toList ++ showInt (c.best l.id))) := by
  unfold namesOf
  cases hl : a.loadSets with
  | nil => simp
  | cons x ls =>
    rw [hl] at hb
    refine ⟨?_, fun i l hi => ?_⟩
    · intro t ht
      obtain ⟨l, hl, rfl⟩ := List.mem_map.mp ht
      have := suffix_length (hb l hl)
      unfold name
      simp only [List.length_append, List.length_take]
      omega
    · have hm := suffix_length (hb l (List.mem_of_getElem? hi))
      refine ⟨name (c.label a.id) (c.best l.id), by simp only [List.getElem?_map, hi, Option.map_some], ?_, fun hlen => ?_⟩
      · show name _ _ = (c.label a.id).take ((name _ _).length - (suffix _).length) ++ suffix _
        unfold name
        congr 1
        simp only [List.length_append, List.length_take, Nat.add_sub_cancel]
        rw [← List.take_eq_take_min]
      · show name _ _ = c.label a.id ++ suffix _
        unfold name
        rw [List.take_of_length_le (by omega)]

/-- C145, the title of the file: it begins with the text of the program, ends with the subcase and the date, and has at most eighty
characters, unless these texts alone have more. -/
theorem C145_title (program input date : Line) (subcase : Nat)
    (h : (" SC".toList ++ showNat (subcase + 1) ++ " ".toList).length + date.length + program.length ≤ 80) :
    (title program input date subcase).length ≤ 80 ∧ program <+: title program input date subcase ∧
      (" SC".toList ++ showNat (subcase + 1) ++ " ".toList ++ date) <:+ title program input date subcase ∧
      ∃ i, i <+: input ∧ title program input date subcase = program ++ i ++ " SC".toList ++ showNat (subcase + 1) ++ " ".toList ++ date := by
  unfold title
  simp only
  rw [if_pos h]
  generalize hn : 80 - _ = n
  refine ⟨?_, ⟨input.take n ++ (" SC".toList ++ showNat (subcase + 1) ++ " ".toList) ++ date, by simp only [List.append_assoc]⟩,
    ⟨program ++ input.take n, by simp only [List.append_assoc]⟩, input.take n, List.take_prefix _ _, by simp only [List.append_assoc]⟩
  simp only [List.length_append, List.length_take] at h hn ⊢
  omega

/-! ## Numbers -/

theorem namesOf_length (c : Config) (a : Analysis) : (namesOf c a).length = (needed [a]).length := by
  unfold namesOf needed
  simp only [List.flatMap_cons, List.flatMap_nil, List.append_nil]
  cases a.loadSets with
  | nil => rfl
  | cons x ls => simp

theorem titles_length (c : Config) (as : List Analysis) : (titles c as).length = (needed as).length := by
  unfold titles
  rw [List.length_map, List.length_zipIdx]
  induction as with
  | nil => rfl
  | cons a as ih =>
    rw [List.flatMap_cons, List.length_append, ih, namesOf_length]
    simp [needed]

theorem titles_get (c : Config) (as : List Analysis) (i : Nat) : (titles c as)[i]? = ((as.flatMap (namesOf c))[i]?).map fun t => (i + 1, t) := by
  unfold titles
  rw [List.getElem?_map, List.getElem?_zipIdx, Option.map_map]
  congr 1
  funext t
  simp [Nat.add_comm]

/-! ## Lists -/

theorem find_line {lines : List (List Nat)} (hn : (lines.map List.head?).Nodup) {l : List Nat} (hl : l ∈ lines) {n : Nat}
    (h : l.head? = some n) : line lines n = some l := by
  unfold line
  induction lines with
  | nil => exact nomatch hl
  | cons y ys ih =>
    rw [List.map_cons, List.nodup_cons] at hn
    rw [List.find?_cons]
    rcases List.mem_cons.mp hl with rfl | hl
    · simp [h]
    · have : (y.head? == some n) = false := by
        rw [beq_eq_false_iff_ne, ← h]
        exact fun e => hn.1 (List.mem_map.mpr ⟨l, hl, e.symm⟩)
      rw [this]
      exact ih hn.2 hl

theorem heads (s : State) : (listLines (fillLists s)).map List.head? = (List.range' 1 (listLines (fillLists s)).length).map some := by
  have h := (C111_lists s).1
  have h2 := congrArg (List.map some) h
  unfold listLines
  simp only [List.map_append, List.map_map, List.length_append, List.length_map] at h2 ⊢
  exact h2

theorem heads_nodup (s : State) : ((listLines (fillLists s)).map List.head?).Nodup := by
  rw [heads]
  exact (List.nodup_range' (s := 1) (step := 1)).map (Option.some_injective _)

theorem line_zero (s : State) : line (listLines (fillLists s)) 0 = none := by
  unfold line
  rw [List.find?_eq_none]
  intro l hl
  have : l.head? ∈ (listLines (fillLists s)).map List.head? := List.mem_map_of_mem hl
  rw [heads] at this
  obtain ⟨i, hi, e⟩ := List.mem_map.mp this
  rw [← e]
  have := (List.mem_range'_1.mp hi).1
  simp; omega

/-- A list of the file has what its log has. -/
theorem ofLine {α : Type} [LinearOrder α] (s : State) (vs : List (Nat × List Dbl)) (log : List (α × Nat × Nat)) (part : List (α × Nat × List Nat))
    (hp : ∀ e ∈ part, e.2.1 :: e.2.2 ∈ listLines (fillLists s)) (hk : ∀ x, (∃ e ∈ log, e.1 = x) ↔ ∃ e ∈ part, e.1 = x)
    (hc : ∀ e ∈ part, e.2.2 = content log e.1) (x : α) (k : Nat) :
    (match line (listLines (fillLists s)) (listOf part x) with
      | none => []
      | some l => ((pairs l.tail).filter fun e => e.1 == k).map fun e => vector vs e.2) = attached vs log x k := by
  unfold listOf
  cases hf : part.find? (fun e => e.1 == x) with
  | none =>
    simp only
    rw [line_zero]
    simp only
    unfold attached
    symm
    rw [List.map_eq_nil_iff, List.filter_eq_nil_iff]
    intro e he h
    simp only [Bool.and_eq_true, beq_iff_eq] at h
    obtain ⟨y, hy, e'⟩ := (hk x).mp ⟨e, he, h.1⟩
    have := List.find?_eq_none.mp hf y hy
    simp [e'] at this
  | some e =>
    have hm := List.mem_of_find?_eq_some hf
    have hx : e.1 = x := by simpa using List.find?_some hf
    simp only
    rw [find_line (heads_nodup s) (hp e hm) rfl]
    simp only [List.tail_cons]
    rw [hc e hm, hx]
    unfold attached
    have := congrArg (List.map fun i => vector vs i) (C111_content log x k)
    rw [List.map_map, List.map_map] at this
    exact this

/-! ## The file -/

/-- The vectors of the axes come after the others. -/
theorem axes_adds {H : Prop} (vs : List (List Dbl)) (s : State) (h : Good s) :
    Adds H s (vs.foldl State.push s) (fun _ _ => []) (fun _ _ => []) (fun _ _ => []) ∧ (vs.foldl State.push s).node = s.node ∧
      (vs.foldl State.push s).cell = s.cell ∧ (vs.foldl State.push s).constr = s.constr ∧ (vs.foldl State.push s).volume = s.volume := by
  induction vs generalizing s with
  | nil => exact ⟨Adds.refl h, rfl, rfl, rfl, rfl⟩
  | cons v vs ih =>
    have h1 : Adds H s (s.push v) (fun _ _ => []) (fun _ _ => []) (fun _ _ => []) := by
      have := push_adds (H := H) h v [] [] [] s.volume (volume_le h)
      simp only [refs, List.map_nil, List.append_nil, List.filter_nil] at this
      exact this
    obtain ⟨h2, e1, e2, e3, e4⟩ := ih (s.push v) h1.good
    exact ⟨(h1.trans h2).congr (fun _ _ => rfl) (fun _ _ => rfl) fun _ _ _ => rfl, e1, e2, e3, e4⟩

theorem restart_eq {s : State} (h : Good s) : s.restart = s := by
  have := h.next
  unfold State.restart
  rw [← this]

/-- What a file is made of. -/
theorem write_spec {c : Config} {as : List Analysis} (hn : (as.map Analysis.id).Nodup)
    (hs : ∀ a ∈ as, (a.loadSets.map LoadSet.id).Nodup) {f : Asc} (h : write c as = .ok f) :
    ∃ s s', fillVectors c.shell c.rot as = .ok s ∧
      Adds (AllSimple c.shell c.rot as) s s' (fun _ _ => []) (fun _ _ => []) (fun _ _ => []) ∧ s'.node = s.node ∧ s'.cell = s.cell ∧
      s'.constr = s.constr ∧ s'.volume = s.volume ∧
      f = ⟨header c (titles c as).length, ncodes c, lcodes c (titles c as).length (listLines (fillLists s')).length s'.vectors.length,
        nodeLines c (fillLists s'), c.cells.map fun i => (i, listOf (fillLists s').cell i), writeLoads c as s',
        writeLists (fillLists s'), writeVectors s'⟩ := by
  obtain ⟨s', h1, h2⟩ := bind_ok h
  obtain ⟨s, h3, h4⟩ := bind_ok h1
  injection h2 with h2
  injection h4 with h4
  have hg := (fillVectors_adds hn hs h3).good
  rw [restart_eq hg] at h4
  obtain ⟨a1, a2, a3, a4, a5⟩ := axes_adds (H := AllSimple c.shell c.rot as) c.axes s hg
  rw [h4] at a1 a2 a3 a4 a5
  exact ⟨s, s', h3, a1, a2, a3, a4, a5, h2.symm⟩

theorem node_line {c : Config} {l : Lists} {p : Nat} {id : Int} {i j : Nat} (h : (nodeLines c l).2[p]? = some (id, i, j)) :
    c.nodes[p]? = some id ∧ i = listOf l.node p ∧ j = listOf l.constr p := by
  unfold nodeLines at h
  simp only [List.getElem?_map, List.getElem?_zipIdx, Option.map_map, Option.map_eq_some_iff] at h
  obtain ⟨x, hx, e⟩ := h
  simp only [Function.comp, Nat.zero_add, Prod.mk.injEq] at e
  exact ⟨by rw [hx, e.1], e.2.1.symm, e.2.2.symm⟩

theorem case_number {as : List Analysis} (hn : (as.map Analysis.id).Nodup) (hs : ∀ a ∈ as, (a.loadSets.map LoadSet.id).Nodup) {i : Nat}
    {x : Int × Int} (hi : (needed as)[i]? = some x) : (fillLoads as).get x.1 x.2 = i + 1 := by
  obtain ⟨h, e⟩ := List.getElem?_eq_some_iff.mp hi
  rw [← e]
  exact (C111_numbers as hn hs).2 i h

/-- C145, loads of nodes: whoever reads the file finds, through the list named in the line of a node and for the load case of a set of
loads, exactly the vectors of the loads of that set on that node. -/
theorem C145_node_loads (c : Config) (as : List Analysis) (hn : (as.map Analysis.id).Nodup)
    (hs : ∀ a ∈ as, (a.loadSets.map LoadSet.id).Nodup) (f : Asc) (h : write c as = .ok f) (p : Nat) (id : Int) (isol idisp : Nat)
    (hp : f.nodes.2[p]? = some (id, isol, idisp)) (a : Analysis) (ha : a ∈ as) (l : LoadSet) (hl : l ∈ a.loadSets) (i : Nat)
    (hi : (needed as)[i]? = some (a.id, l.id)) :
    c.nodes[p]? = some id ∧ ofList f isol (i + 1) = (l.loads.flatMap (nodeVectors c.shell c.rot p)).map some := by
  obtain ⟨s, s', h1, h2, e1, -, -, -, rfl⟩ := write_spec hn hs h
  obtain ⟨h3, h4, -⟩ := node_line hp
  refine ⟨h3, ?_⟩
  have hL := C111_lists s'
  have := ofLine s' s'.vectors s'.node (fillLists s').node (fun e he => by
    unfold listLines
    exact List.mem_append_left _ (List.mem_append_left _ (List.mem_map.mpr ⟨e, he, rfl⟩))) hL.2.1 hL.2.2.2.2.2.2.2.1 p (i + 1)
  subst h4
  refine this.trans ?_
  rw [h2.node, ← case_number hn hs hi, (C111_loads c.shell c.rot as hn hs s h1 a ha l hl).1 p]
  simp

/-- C145, loads of elements: the same for the line of an element. -/
theorem C145_element_loads (c : Config) (as : List Analysis) (hn : (as.map Analysis.id).Nodup)
    (hs : ∀ a ∈ as, (a.loadSets.map LoadSet.id).Nodup) (f : Asc) (h : write c as = .ok f) (id : Int) (isol : Nat)
    (hp : (id, isol) ∈ f.elements) (a : Analysis) (ha : a ∈ as) (l : LoadSet) (hl : l ∈ a.loadSets) (i : Nat)
    (hi : (needed as)[i]? = some (a.id, l.id)) :
    ofList f isol (i + 1) = (l.loads.flatMap (cellVectors c.shell id)).map some := by
  obtain ⟨s, s', h1, h2, -, e1, -, -, rfl⟩ := write_spec hn hs h
  obtain ⟨x, -, e⟩ := List.mem_map.mp hp
  obtain ⟨rfl, rfl⟩ := Prod.mk.inj e
  have hL := C111_lists s'
  have := ofLine s' s'.vectors s'.cell (fillLists s').cell (fun e he => by
    unfold listLines
    exact List.mem_append_left _ (List.mem_append_right _ (List.mem_map.mpr ⟨e, he, rfl⟩))) hL.2.2.1 hL.2.2.2.2.2.2.2.2.1 x (i + 1)
  refine this.trans ?_
  rw [h2.cell, ← case_number hn hs hi, (C111_loads c.shell c.rot as hn hs s h1 a ha l hl).2 x]
  simp

/-- C145, imposed values: the same for the second list of the line of a node, if no constraint concerns two rotational nodes. -/
theorem C145_imposed_partial (c : Config) (as : List Analysis) (hn : (as.map Analysis.id).Nodup)
    (hs : ∀ a ∈ as, (a.loadSets.map LoadSet.id).Nodup) (hA : AllSimple c.shell c.rot as) (f : Asc) (h : write c as = .ok f) (p : Nat)
    (id : Int) (isol idisp : Nat) (hp : f.nodes.2[p]? = some (id, isol, idisp)) (a : Analysis) (ha : a ∈ as) (l : LoadSet)
    (hl : l ∈ a.loadSets) (i : Nat) (hi : (needed as)[i]? = some (a.id, l.id)) :
    ofList f idisp (i + 1) = (a.spcs.flatMap (spcVectors c.shell c.rot p) ++
      (a.loadSets.flatMap LoadSet.loads).flatMap (displacementVectors c.shell c.rot p)).map some := by
  obtain ⟨s, s', h1, h2, -, -, e1, -, rfl⟩ := write_spec hn hs h
  obtain ⟨-, -, h4⟩ := node_line hp
  have hL := C111_lists s'
  have := ofLine s' s'.vectors s'.constr (fillLists s').constr (fun e he => by
    unfold listLines
    exact List.mem_append_right _ (List.mem_map.mpr ⟨e, he, rfl⟩)) hL.2.2.2.1 hL.2.2.2.2.2.2.2.2.2 p (i + 1)
  subst h4
  refine this.trans ?_
  have hc := ((fillVectors_adds hn hs h1).constr hA (by intro e he; exact nomatch he)).1
  rw [(h2.constr hA hc).2, ← case_number hn hs hi, C111_constraints_partial c.shell c.rot as hn hs hA s h1 a ha l hl p]
  simp

/-- C145, load cases: the line of the load case of a set of loads carries its number; if its name has no quotation mark, its volume
load is the acceleration of the set. -/
theorem C145_cases (c : Config) (as : List Analysis) (hn : (as.map Analysis.id).Nodup)
    (hs : ∀ a ∈ as, (a.loadSets.map LoadSet.id).Nodup) (f : Asc) (h : write c as = .ok f) (a : Analysis) (ha : a ∈ as) (l : LoadSet)
    (hl : l ∈ a.loadSets) (i : Nat) (hi : (needed as)[i]? = some (a.id, l.id)) :
    ∃ t x, (as.flatMap (namesOf c))[i]? = some t ∧ f.loads.2[i]? = some x ∧ loadNumber x = i + 1 ∧
      ((∀ d ∈ t, d ≠ '"') → loadTitle x = t ∧ volume f x = l.loads.findSome? gravityVector) := by
  obtain ⟨s, s', h1, h2, -, -, -, e1, rfl⟩ := write_spec hn hs h
  have hlen : i < (titles c as).length := by
    rw [titles_length]
    exact (List.getElem?_eq_some_iff.mp hi).1
  have hg := titles_get c as i
  rw [List.getElem?_eq_getElem hlen] at hg
  obtain ⟨t, ht, e⟩ := Option.map_eq_some_iff.mp hg.symm
  refine ⟨t, loadLine (i + 1) t (volumeOf (i + 1) s'.volume), ht, ?_, loadNumber_loadLine _ _ _, fun hq => ?_⟩
  · show ((titles c as).map _)[i]? = _
    rw [List.getElem?_map, List.getElem?_eq_getElem hlen, ← e]
    rfl
  · obtain ⟨-, k2, k3⟩ := C145_line (i + 1) t (volumeOf (i + 1) s'.volume) hq
    refine ⟨k2, ?_⟩
    unfold volume
    rw [k3]
    show volumeVector s' (i + 1) = _
    rw [volumeVector_same (fillVectors_adds hn hs h1).good e1 h2.old, ← case_number hn hs hi]
    exact C111_gravity c.shell c.rot as hn hs s h1 a ha l hl

theorem sum_foldl (ls : List (List Nat)) (n : Nat) :
    ls.foldl (fun n x => n + (x.length - 1) / 2) n = n + (ls.map fun x => (x.length - 1) / 2).sum := by
  induction ls generalizing n with
  | nil => simp
  | cons x ls ih => rw [List.foldl_cons, ih, List.map_cons, List.sum_cons]; omega

theorem dvd_sum_of {d : Nat} {l : List Nat} (h : ∀ n ∈ l, d ∣ n) : d ∣ l.sum := by
  induction l with
  | nil => exact Nat.dvd_zero d
  | cons x l ih => rw [List.sum_cons]; exact Nat.dvd_add (h x List.mem_cons_self) (ih fun n hn => h n (List.mem_cons_of_mem _ hn))

theorem content_length {α : Type} [LinearOrder α] (log : List (α × Nat × Nat)) (x : α) : 2 ∣ (content log x).length := by
  unfold content
  rw [List.length_flatMap]
  refine dvd_sum_of fun n hn => ?_
  obtain ⟨k, -, rfl⟩ := List.mem_map.mp hn
  rw [List.length_flatMap]
  refine dvd_sum_of fun n hn => ?_
  obtain ⟨e, -, rfl⟩ := List.mem_map.mp hn
  exact Nat.dvd_refl _

theorem line_length {s : State} {x : List Nat} (hx : x ∈ listLines (fillLists s)) : ∃ m, x.length = 1 + 2 * m := by
  have hL := C111_lists s
  have key : ∀ y : List Nat, 2 ∣ y.length → ∀ n : Nat, ∃ m, (n :: y).length = 1 + 2 * m := by
    rintro y ⟨m, hm⟩ n
    exact ⟨m, by rw [List.length_cons, hm]; omega⟩
  unfold listLines at hx
  rcases List.mem_append.mp hx with hx | hx
  · rcases List.mem_append.mp hx with hx | hx
    · obtain ⟨e, he, rfl⟩ := List.mem_map.mp hx
      exact key _ (by rw [hL.2.2.2.2.2.2.2.1 e he]; exact content_length _ _) _
    · obtain ⟨e, he, rfl⟩ := List.mem_map.mp hx
      exact key _ (by rw [hL.2.2.2.2.2.2.2.2.1 e he]; exact content_length _ _) _
  · obtain ⟨e, he, rfl⟩ := List.mem_map.mp hx
    exact key _ (by rw [hL.2.2.2.2.2.2.2.2.2 e he]; exact content_length _ _) _

/-- C145, numbers announced: those of the header, of the informations and of the sections are the numbers of lines that follow. All
the words of the lines of the lists are the number of the list and two for each of the elements that are announced. -/
theorem C145_counts (c : Config) (as : List Analysis) (hn : (as.map Analysis.id).Nodup)
    (hs : ∀ a ∈ as, (a.loadSets.map LoadSet.id).Nodup) (f : Asc) (h : write c as = .ok f) :
    (f.nodes.1 = f.nodes.2.length ∧ f.header[2]? = some f.nodes.1 ∧ f.lcodes[1]? = some f.nodes.1) ∧
      (f.loads.1 = f.loads.2.length ∧ f.header[4]? = some f.loads.1 ∧ f.lcodes[0]? = some f.loads.1) ∧
      (f.lists.1.1 = f.lists.2.length ∧ f.lcodes[6]? = some f.lists.1.1 ∧
        (f.lists.2.map List.length).sum = f.lists.1.1 + 2 * f.lists.1.2) ∧
      (f.vectors.1 = f.vectors.2.length ∧ f.lcodes[7]? = some f.vectors.1) ∧
      f.lcodes.length = 40 ∧ f.ncodes.length = 20 ∧ f.header.length = 9 := by
  obtain ⟨s, s', -, -, -, -, -, -, rfl⟩ := write_spec hn hs h
  refine ⟨⟨by simp [nodeLines], rfl, ?_⟩, ⟨by simp [writeLoads], rfl, ?_⟩, ⟨rfl, ?_, ?_⟩, ⟨rfl, ?_⟩, by simp [lcodes], by simp [ncodes], rfl⟩
  · simp [lcodes, nodeLines]
  · simp [lcodes, writeLoads]
  · simp [lcodes, writeLists]
  · show ((listLines (fillLists s')).map List.length).sum = (listLines (fillLists s')).length + 2 * (listLines (fillLists s')).foldl _ 0
    rw [sum_foldl, Nat.zero_add]
    have : ∀ x ∈ listLines (fillLists s'), ∃ m, x.length = 1 + 2 * m := fun x hx => line_length hx
    revert this
    generalize listLines (fillLists s') = ls
    intro this
    induction ls with
    | nil => rfl
    | cons x ls ih =>
      obtain ⟨m, hm⟩ := this x List.mem_cons_self
      have := ih fun y hy => this y (List.mem_cons_of_mem _ hy)
      simp only [List.map_cons, List.sum_cons, List.length_cons, this, hm]
      omega
  · simp [lcodes, writeVectors]

/-- C145, degrees of freedom: the header and the informations have the same option and the same numbers, six degrees of freedom for
shells and three for solids. -/
theorem C145_dofs (c : Config) (as : List Analysis) (hn : (as.map Analysis.id).Nodup)
    (hs : ∀ a ∈ as, (a.loadSets.map LoadSet.id).Nodup) (f : Asc) (h : write c as = .ok f) :
    f.header[1]? = some (if c.shell then 3 else 4) ∧ f.ncodes[0]? = f.header[1]? ∧
      f.header[5]? = some (if c.shell then 6 else 3) ∧ f.lcodes[10]? = f.header[5]? ∧ f.lcodes[11]? = f.header[5]? ∧
      f.lcodes[12]? = some (if c.shell then 36 else 9) ∧ f.lcodes[17]? = some (if c.shell then 36 else 9) ∧
      f.header[6]? = some (2 * (if c.shell then 6 else 3) * max 1 f.loads.2.length) ∧ f.lcodes[22]? = f.header[6]? ∧
      f.header[3]? = f.lcodes[3]? := by
  obtain ⟨s, s', -, -, -, -, -, -, rfl⟩ := write_spec hn hs h
  simp only [header, ncodes, lcodes, writeLoads, Config.option, Config.dofs]
  cases c.shell <;> simp [max_comm]

/-- C145, codes of the solution: in the first section of the informations there are twenty codes, and the only ones that are not 0 are the
option in the first place, 2 in the fourth, 1 in the twelfth and the other option in the fourteenth. -/
theorem C145_ncodes (c : Config) (as : List Analysis) (hn : (as.map Analysis.id).Nodup)
    (hs : ∀ a ∈ as, (a.loadSets.map LoadSet.id).Nodup) (f : Asc) (h : write c as = .ok f) :
    f.ncodes.length = 20 ∧ f.ncodes[0]? = some (if c.shell then 3 else 4) ∧ f.ncodes[3]? = some 2 ∧ f.ncodes[11]? = some 1 ∧
      f.ncodes[13]? = some (if c.multi then 3 else 0) ∧ ∀ i < 20, i ∉ [0, 3, 11, 13] → f.ncodes[i]? = some 0 := by
  obtain ⟨s, s', -, -, -, -, -, -, rfl⟩ := write_spec hn hs h
  simp only [ncodes, Config.option, Config.subOption]
  refine ⟨by simp, by simp, by simp, by simp, by simp, fun i hi hm => ?_⟩
  simp only [List.mem_cons, List.not_mem_nil, or_false, not_or] at hm
  simp only [List.getElem?_set, List.length_set, List.length_replicate]
  rw [if_neg (by omega), if_neg (by omega), if_neg (by omega), if_neg (by omega), List.getElem?_replicate, if_pos hi]

theorem vector_mem {vs : List (Nat × List Dbl)} {i : Nat} {v : List Dbl} (h : vector vs i = some v) : (i, v) ∈ vs := by
  unfold vector at h
  obtain ⟨e, he, e'⟩ := Option.map_eq_some_iff.mp h
  have h1 := List.mem_of_find?_eq_some he
  have h2 : e.1 = i := by simpa using List.find?_some he
  rw [← h2, ← e']
  exact h1

theorem flatMap_ne {α β : Type} {l : List α} {f : α → List β} (h : l.flatMap f ≠ []) : ∃ x ∈ l, f x ≠ [] := by
  by_contra hne
  push Not at hne
  exact h (flatMap_nil' l f hne)

theorem mem_pairs {α : Type} [LinearOrder α] {log : List (α × Nat × Nat)} {x : α} {e : Nat × Nat} (h : e ∈ pairs (content log x)) :
    (x, e) ∈ log := by
  rw [pairs_content] at h
  obtain ⟨k, -, h⟩ := List.mem_flatMap.mp h
  obtain ⟨y, hy, rfl⟩ := List.mem_map.mp h
  obtain ⟨h1, h2⟩ := List.mem_filter.mp hy
  simp only [Bool.and_eq_true, beq_iff_eq] at h2
  rw [← h2.1, ← h2.2]
  exact h1

theorem attached_mem {α : Type} [DecidableEq α] {vs : List (Nat × List Dbl)} {log : List (α × Nat × Nat)} {x : α} {e : Nat × Nat}
    (h : (x, e) ∈ log) {r : List (List Dbl)} (ha : attached vs log x e.1 = r.map some) : (∃ v, (e.2, v) ∈ vs) ∧ r ≠ [] := by
  have h1 : vector vs e.2 ∈ attached vs log x e.1 := by
    unfold attached
    exact List.mem_map.mpr ⟨(x, e), List.mem_filter.mpr ⟨h, by simp⟩, rfl⟩
  rw [ha] at h1
  obtain ⟨v, hv, e'⟩ := List.mem_map.mp h1
  exact ⟨⟨v, vector_mem e'.symm⟩, List.ne_nil_of_mem hv⟩

theorem needed_case {as : List Analysis} (hn : (as.map Analysis.id).Nodup) (hs : ∀ a ∈ as, (a.loadSets.map LoadSet.id).Nodup)
    {x : Int × Int} (hx : x ∈ needed as) : 1 ≤ (fillLoads as).get x.1 x.2 ∧ (fillLoads as).get x.1 x.2 ≤ (needed as).length := by
  obtain ⟨i, hi, rfl⟩ := List.getElem_of_mem hx
  rw [(C111_numbers as hn hs).2 i hi]
  omega

/-- C145, references: each pair of a list has the number of a load case of the file and that of a vector of the file, if no constraint
concerns two rotational nodes; without this condition, it is so for the lists of loads. -/
theorem C145_references_partial (c : Config) (as : List Analysis) (hn : (as.map Analysis.id).Nodup)
    (hs : ∀ a ∈ as, (a.loadSets.map LoadSet.id).Nodup) (f : Asc) (h : write c as = .ok f) (x : List Nat) (hx : x ∈ f.lists.2)
    (hA : AllSimple c.shell c.rot as ∨ (∃ y ∈ f.nodes.2, x.head? = some y.2.1) ∨ ∃ y ∈ f.elements, x.head? = some y.2) :
    ∀ e ∈ pairs x.tail, (1 ≤ e.1 ∧ e.1 ≤ f.loads.2.length) ∧ ∃ v, (e.2, v) ∈ f.vectors.2 := by
  obtain ⟨s, s', h1, h2, e1, e2, e3, -, rfl⟩ := write_spec hn hs h
  have hV := fillVectors_adds hn hs h1
  have hL := C111_lists s'
  have hlen : (writeLoads c as s').2.length = (needed as).length := by
    unfold writeLoads
    rw [List.length_map, titles_length]
  simp only [hlen]
  have case1 : ∀ y ∈ (fillLists s').node, ∀ e ∈ pairs y.2.2, (1 ≤ e.1 ∧ e.1 ≤ (needed as).length) ∧ ∃ v, (e.2, v) ∈ s'.vectors := by
    intro y hy e he
    rw [hL.2.2.2.2.2.2.2.1 y hy] at he
    have hm := mem_pairs he
    have ha := (h2.node y.1 e.1).trans (congrArg (· ++ _) (hV.node y.1 e.1))
    rw [List.map_nil, List.append_nil, show attached (State.restart ⟨[], 0, [], [], [], []⟩).vectors (State.restart ⟨[], 0, [], [], [], []⟩).node y.1 e.1 =
      [] from rfl, List.nil_append] at ha
    obtain ⟨k1, k2⟩ := attached_mem hm ha
    refine ⟨?_, k1⟩
    obtain ⟨a, ha', k2⟩ := flatMap_ne k2
    obtain ⟨l, hl, k2⟩ := flatMap_ne k2
    split at k2
    · rename_i k3
      rw [k3]
      exact needed_case hn hs (x := (a.id, l.id)) (set_needed ha' hl)
    · exact absurd rfl k2
  have case2 : ∀ y ∈ (fillLists s').cell, ∀ e ∈ pairs y.2.2, (1 ≤ e.1 ∧ e.1 ≤ (needed as).length) ∧ ∃ v, (e.2, v) ∈ s'.vectors := by
    intro y hy e he
    rw [hL.2.2.2.2.2.2.2.2.1 y hy] at he
    have hm := mem_pairs he
    have ha := (h2.cell y.1 e.1).trans (congrArg (· ++ _) (hV.cell y.1 e.1))
    rw [List.map_nil, List.append_nil, show attached (State.restart ⟨[], 0, [], [], [], []⟩).vectors (State.restart ⟨[], 0, [], [], [], []⟩).cell y.1 e.1 =
      [] from rfl, List.nil_append] at ha
    obtain ⟨k1, k2⟩ := attached_mem hm ha
    refine ⟨?_, k1⟩
    obtain ⟨a, ha', k2⟩ := flatMap_ne k2
    obtain ⟨l, hl, k2⟩ := flatMap_ne k2
    split at k2
    · rename_i k3
      rw [k3]
      exact needed_case hn hs (x := (a.id, l.id)) (set_needed ha' hl)
    · exact absurd rfl k2
  have case3 : AllSimple c.shell c.rot as → ∀ y ∈ (fillLists s').constr, ∀ e ∈ pairs y.2.2,
      (1 ≤ e.1 ∧ e.1 ≤ (needed as).length) ∧ ∃ v, (e.2, v) ∈ s'.vectors := by
    intro hA y hy e he
    rw [hL.2.2.2.2.2.2.2.2.2 y hy] at he
    have hm := mem_pairs he
    have hc := hV.constr hA (by intro e he; exact nomatch he)
    have ha := ((h2.constr hA hc.1).2 y.1 e.1).trans (congrArg (· ++ _) (hc.2 y.1 e.1))
    rw [List.map_nil, List.append_nil, show attached (State.restart ⟨[], 0, [], [], [], []⟩).vectors
      (State.restart ⟨[], 0, [], [], [], []⟩).constr y.1 e.1 = [] from rfl, List.nil_append] at ha
    obtain ⟨k1, k2⟩ := attached_mem hm ha
    refine ⟨?_, k1⟩
    have key : ∃ a ∈ as, e.1 ∈ (fillLoads as).ofAnalysis a.id := by
      by_contra hne
      push Not at hne
      refine k2 ?_
      rw [List.append_eq_nil_iff]
      exact ⟨flatMap_nil' _ _ fun a ha => if_neg (hne a ha), flatMap_nil' _ _ fun a ha => if_neg (hne a ha)⟩
    obtain ⟨a, -, k3⟩ := key
    obtain ⟨z, hz, -, k4⟩ := (mem_ofAnalysis hn hs a.id e.1).mp k3
    rw [k4]
    exact needed_case hn hs hz
  have hx' : x ∈ listLines (fillLists s') := hx
  have memN : ∀ y ∈ (fillLists s').node, y.2.1 :: y.2.2 ∈ listLines (fillLists s') := fun y hy => by
    unfold listLines
    exact List.mem_append_left _ (List.mem_append_left _ (List.mem_map.mpr ⟨y, hy, rfl⟩))
  have memC : ∀ y ∈ (fillLists s').cell, y.2.1 :: y.2.2 ∈ listLines (fillLists s') := fun y hy => by
    unfold listLines
    exact List.mem_append_left _ (List.mem_append_right _ (List.mem_map.mpr ⟨y, hy, rfl⟩))
  have uniq : ∀ y ∈ listLines (fillLists s'), x.head? = y.head? → x = y := by
    intro y hy e
    exact List.inj_on_of_nodup_map (heads_nodup s') hx' hy e
  have nozero : x.head? ≠ some 0 := by
    intro e
    have : line (listLines (fillLists s')) 0 = some x := find_line (heads_nodup s') hx' e
    rw [line_zero] at this
    exact nomatch this
  rcases hA with hA | ⟨y, hy, e⟩ | ⟨y, hy, e⟩
  · unfold listLines at hx'
    rcases List.mem_append.mp hx' with hx' | hx'
    · rcases List.mem_append.mp hx' with hx' | hx'
      · obtain ⟨y, hy, rfl⟩ := List.mem_map.mp hx'
        exact case1 y hy
      · obtain ⟨y, hy, rfl⟩ := List.mem_map.mp hx'
        exact case2 y hy
    · obtain ⟨y, hy, rfl⟩ := List.mem_map.mp hx'
      exact case3 hA y hy
  · obtain ⟨z, hz, rfl⟩ := List.mem_map.mp hy
    simp only [listOf] at e
    cases hf : (fillLists s').node.find? (fun u => u.1 == z.2) with
    | none => rw [hf] at e; exact absurd e nozero
    | some u =>
      rw [hf] at e
      have hu := List.mem_of_find?_eq_some hf
      rw [uniq _ (memN u hu) e]
      exact case1 u hu
  · obtain ⟨z, hz, rfl⟩ := List.mem_map.mp hy
    simp only [listOf] at e
    cases hf : (fillLists s').cell.find? (fun u => u.1 == z) with
    | none => rw [hf] at e; exact absurd e nozero
    | some u =>
      rw [hf] at e
      have hu := List.mem_of_find?_eq_some hf
      rw [uniq _ (memC u hu) e]
      exact case2 u hu

/-- C145 is false, in the option 3D, for a rotation imposed on two nodes with rotational nodes: the list of the second one names a
vector that is not in the file. -/
theorem C145_rotation_false :
    (let c : Config := ⟨false, false, [1, 2, 11, 12], [], fun p => if p < 2 then some (p + 2) else none, fun _ => "A".toList, id, []⟩
     let r := write c [⟨1, [], [⟨[0, 1], [0, 0, 0], [1, 0, 0], false⟩]⟩]
     (r.bind fun f => .ok f.nodes.2) = .ok [(1, 0, 0), (2, 0, 0), (11, 0, 1), (12, 0, 2)] ∧
      (r.bind fun f => .ok f.lists.2) = .ok [[1, 1, 1], [2, 1, 2]] ∧
      (r.bind fun f => .ok f.vectors.2) = .ok [(1, [4, 0, 0, 0, 0, 0, 1, 0, 0])] ∧
      (r.bind fun f => .ok (ofList f 1 1, ofList f 2 1)) = .ok ([some [4, 0, 0, 0, 0, 0, 1, 0, 0]], [none])) := by
  refine ⟨?_, ?_, ?_, ?_⟩ <;> decide +kernel

/-! ## Examples -/

/-- A node with a force and an element with a pressure in the first load case, an acceleration in the second. -/
def sampleConfig : Config := ⟨true, false, [7, 9], [21], fun _ => none, fun _ => "SUBCASE 1".toList, id, [[0, 0, 0, 0, 0, 0, 1, 2, 3]]⟩

def sampleAnalyses : List Analysis :=
  [⟨1, [⟨4, [.nodal [⟨1, [1, 0, 0], [0, 0, 5]⟩], .pressure [21] 2]⟩, ⟨5, [.gravity [0, 0, -9]]⟩], [⟨[0], [0, 0, 1], [0, 0, 0], false⟩]⟩]

example : (sampleAnalyses.map Analysis.id).Nodup ∧ (∀ a ∈ sampleAnalyses, (a.loadSets.map LoadSet.id).Nodup) ∧
    needed sampleAnalyses = [(1, 4), (1, 5)] := by
  refine ⟨by decide, fun a ha => ?_, rfl⟩
  rw [List.mem_singleton.mp ha]; decide

example : (write sampleConfig sampleAnalyses).bind (fun f => .ok f.nodes.2) = .ok [(7, 0, 3), (9, 1, 0)] ∧
    (write sampleConfig sampleAnalyses).bind (fun f => .ok (f.elements, f.vectors.1)) = .ok ([(21, 2)], 5) ∧
    (write sampleConfig sampleAnalyses).bind (fun f => .ok f.lists) = .ok ((3, 4), [[1, 1, 1], [2, 1, 2], [3, 1, 4, 2, 4]]) := by
  refine ⟨?_, ?_, ?_⟩ <;> decide +kernel

example : (write sampleConfig sampleAnalyses).bind (fun f => .ok (f.loads.2.map String.ofList, ofList f 1 1, f.loads.2.map (volume f))) =
    .ok (["1 \"SUBCASE 1_LOAD4\" 0 0 0 0 0 0 0 7", "2 \"SUBCASE 1_LOAD5\" 0 3 0 0 0 0 0 7"],
      [some [0, 0, 0, 0, 0, 0, 1, 0, 0, 0, 0, 5]], [none, some [6, 0, 0, 0, 0, 0, 0, 0, 0, 0, -9]]) := by
  decide +kernel

/-- A name with a quotation mark. -/
example : loadTitle (loadLine 1 "PIPE 3\" CASE_LOAD4".toList 2) = "PIPE 3".toList ∧ loadVolume (loadLine 1 "PIPE 3\" CASE_LOAD4".toList 2) ≠ 2 := by
  decide +kernel

example : (title "Built by VEGA 0.1.0  from ".toList "/home/user/case.nas".toList "2026-01-01".toList 0).length ≤ 80 :=
  (C145_title _ _ _ _ (by decide +kernel)).1

/-- A program whose text is too long: the line has more than eighty characters. -/
example : (title (List.replicate 70 'x') "case.nas".toList "2026-01-01".toList 0).length = 93 := by decide +kernel

end SystusSections
end Vega
