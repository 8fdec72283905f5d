import Verif.Case.Write
import Verif.Case.ListsProps
import Verif.NastranWrite.RealLemmas

/-! # The case control section that is written is read back (C100) -/
namespace Vega

namespace CaseSpec
open Nastran (Line intMax)
open Case (Word WCase WAnalysis WGroup WLoad WConstraint Analysis Kind CSet LSet OSet)

/-- A number that can be written and read. -/
def Ident (n : Int) : Prop := 0 ≤ n ∧ n ≤ intMax

/-- The analyses of this theorem: linear and static, at most one set of each type, at most one displacement output, with one
group; no set that belongs to all analyses. -/
structure Plain (a : WAnalysis) : Prop where
  static : a.kind = .linearStatic
  id : Ident a.id
  loads : ∀ e ∈ a.loads, (e.1 = .load ∨ e.1 = .dload ∨ e.1 = .loadset) ∧ Ident e.2
  oneLoad : (a.loads.map (·.1)).Nodup
  constraints : ∀ e ∈ a.constraints, ∃ t n, e = some (t, n) ∧ (t = .spc ∨ t = .mpc) ∧ Ident n
  oneConstraint : (a.constraints.map (Option.map (·.1))).Nodup
  outputs : a.outputs = [] ∨ ∃ g, a.outputs = [[g]] ∧ 0 < g ∧ Ident g

/-- The models of this theorem: a name of one word, analyses and groups with different numbers, groups that are not empty, no
von Mises outputs. -/
structure PlainCase (m : WCase) : Prop where
  name : Word (m.name ++ ",NASTRAN".toList)
  some : m.analyses ≠ []
  analyses : ∀ a ∈ m.analyses, Plain a
  numbers : (m.analyses.map (·.id)).Nodup
  sets : (m.groups.map (·.id)).Nodup
  groups : ∀ g ∈ m.groups, Ident g.id ∧ g.ids ≠ [] ∧ ∀ n ∈ g.ids, Ident n
  stress : m.stress = []

/-- An analysis read is the one written. -/
structure ReadAs (w : WAnalysis) (a : Analysis) : Prop where
  kind : a.kind = .linearStatic
  id : a.id = w.id
  spc : ∀ n, (CSet.spc, n) ∈ a.constraints ↔ some (WConstraint.spc, n) ∈ w.constraints
  mpc : ∀ n, (CSet.mpc, n) ∈ a.constraints ↔ some (WConstraint.mpc, n) ∈ w.constraints
  contact : ∀ n, (CSet.contact, n) ∉ a.constraints
  load : ∀ n, (LSet.load, n) ∈ a.loads ↔ (WLoad.load, n) ∈ w.loads
  dload : ∀ n, (LSet.dload, n) ∈ a.loads ↔ (WLoad.dload, n) ∈ w.loads
  loadset : ∀ n, (LSet.loadset, n) ∈ a.loads ↔ (WLoad.loadset, n) ∈ w.loads
  disp : ∀ n, (OSet.disp, n) ∈ a.outputs ↔ [n] ∈ w.outputs

end CaseSpec

namespace Case
open Nastran (Line isSpace isBlank blank trim trimRight toUpper Cursor Symbol nextString nextInt intMin intMax natOf)
open NastranWrite (showNat natOf_showNat showNat_plain)
open F06 (has)
open CaseSpec
open F06Spec (Digits)

/-! ## Numbers and lines -/

theorem showNat_ne (n : Nat) : showNat n ≠ [] := by
  rw [showNat]
  split <;> simp

theorem digits_showNat {n : Nat} (h : (n : Int) ≤ intMax) : Digits (showNat n) n :=
  ⟨showNat_ne n, fun _ hc => (showNat_plain hc).2.2.2, natOf_showNat n, h⟩

theorem digits_showInt {n : Int} (h : Ident n) : Digits (showInt n) n.toNat := by
  unfold showInt
  have h1 := h.1
  have h2 := h.2
  rw [if_neg (by omega), show n.natAbs = n.toNat by omega]
  exact digits_showNat (by omega)

theorem showInt_word {n : Int} (h : Ident n) : Word (showInt n) :=
  digits_word (digits_showInt h).1 (digits_showInt h).2.1

theorem upper_showInt {n : Int} (h : Ident n) : toUpper (showInt n) = showInt n := toUpper_digits (digits_showInt h).2.1

/-- A line without a comment. -/
theorem gives_plain {l : Line} (hd : ∀ c ∈ l, c ≠ '$') (hb : blank l = false) : Gives [l] l := by
  have h : l.takeWhile (· ≠ '$') = l := List.takeWhile_eq_self_iff.mpr (by intro c hc; simpa using hd c hc)
  have := gives_line l (by rw [h]; exact hb)
  rwa [h] at this

theorem blank_of_mem {l : Line} {c : Char} (hc : c ∈ l) (hb : isBlank c = false) : blank l = false := by
  cases h : blank l with
  | false => rfl
  | true =>
    unfold blank at h
    rw [List.all_eq_true] at h
    rw [h c hc] at hb
    exact nomatch hb

theorem space_blank {c : Char} (h : isSpace c = false) : isBlank c = false := by
  cases hb : isBlank c with
  | false => rfl
  | true =>
    unfold isBlank at hb
    unfold isSpace at h
    simp only [Bool.or_eq_true, decide_eq_true_eq, Bool.or_eq_false_iff, decide_eq_false_iff_not] at hb h
    tauto

theorem tight_blank {l m : Line} (h : Tight l) : blank (l ++ m) = false := by
  obtain ⟨⟨c, hc, hs⟩, _⟩ := h
  refine blank_of_mem (c := c) ?_ (space_blank hs)
  exact List.mem_append_left _ (List.mem_of_mem_head? hc)

theorem word_line {w : Line} (hw : Word w) : ∀ c ∈ w, c ≠ '$' := fun c hc => (hw.2 c hc).2.2

/-! ## Lists of numbers -/

/-- The numbers after the first one. -/
def tailText (l : List Int) : Line := l.flatMap fun n => ',' :: showInt n

theorem broken_numbers (comment : Line) : ∀ (l : List Int) (count : Nat) (cur : Line), (∀ n ∈ l, Ident n) → Tight cur → (∀ c ∈ cur, c ≠ '$') →
    cur.getLast? ≠ some ',' →
    Broken (cur ++ tailText l) ((numbersLoop count false l cur).1 ++ [(numbersLoop count false l cur).2 ++ " $ ".toList ++ comment]) := by
  intro l
  induction l with
  | nil =>
    intro count cur _ ht hd hc
    rw [numbersLoop, tailText, List.flatMap_nil, List.append_nil, List.nil_append]
    refine .last [] cur " ".toList _ ?_ (by intro c hc; simp at hc) ht (by decide) hc
    have htw : (cur ++ " $ ".toList ++ comment).takeWhile (· ≠ '$') = cur ++ [' '] := by
      rw [List.append_assoc, show " $ ".toList ++ comment = ' ' :: '$' :: ' ' :: comment from rfl]
      rw [List.takeWhile_append_of_pos (by intro c hc; simpa using hd c hc)]
      simp
    have := gives_line (cur ++ " $ ".toList ++ comment) (by rw [htw]; exact tight_blank ht)
    rwa [htw] at this
  | cons n l ih =>
    intro count cur hn ht hd hc
    have hid := hn n (by simp)
    have hw := showInt_word hid
    have hlast : (showInt n).getLast? ≠ some ',' := by
      obtain ⟨c, h1, h2⟩ := digits_last (digits_showInt hid)
      rw [h1]
      intro h
      cases h
      exact absurd h2 (by decide)
    have hcomma : Tight (cur ++ [',']) := by
      obtain ⟨⟨c, h1, h2⟩, _⟩ := ht
      refine ⟨⟨c, ?_, h2⟩, ',', by simp, by decide⟩
      rw [List.head?_append, h1]; rfl
    have htext : cur ++ tailText (n :: l) = (cur ++ [',']) ++ (showInt n ++ tailText l) := by simp [tailText]
    rw [numbersLoop]
    simp only [Bool.false_eq_true, if_false]
    by_cases h8 : count % 8 = 0
    · rw [if_pos h8, htext]
      have hrec := ih (count + 1) (showInt n) (fun m hm => hn m (by simp [hm])) hw.tight (word_line hw) hlast
      have hdc : ∀ c ∈ cur ++ [','], c ≠ '$' := by
        intro c hc
        rcases List.mem_append.mp hc with h | h
        · exact hd c h
        · rw [List.mem_singleton.mp h]; decide
      have hg : Gives [cur ++ [',']] ([] ++ (cur ++ [',']) ++ []) := by
        rw [List.nil_append, List.append_nil]
        exact gives_plain hdc (by simpa using tight_blank (m := [',']) ht)
      have := Broken.more [] (cur ++ [',']) [] _ [cur ++ [',']] _ hg (by intro c hc; simp at hc) hcomma (by intro c hc; simp at hc) (by simp) hrec
      simpa using this
    · rw [if_neg h8]
      have hT : Tight (cur ++ [','] ++ showInt n) := ht.append hw.tight
      have hrec := ih (count + 1) (cur ++ [','] ++ showInt n) (fun m hm => hn m (by simp [hm])) hT (by
        intro c hc
        simp only [List.mem_append, List.mem_singleton] at hc
        rcases hc with (h | rfl) | h
        · exact hd c h
        · decide
        · exact word_line hw c h) (by
          rw [List.getLast?_append]
          cases hl : (showInt n).getLast? with
          | none => exact absurd (List.getLast?_eq_none_iff.mp hl) hw.1
          | some x => rw [hl] at hlast; simpa using hlast)
      rw [htext, ← List.append_assoc]
      exact hrec

theorem list_numbers : ∀ (l : List Int) (n : Int), Ident n → (∀ m ∈ l, Ident m) →
    ListText ((n :: l).map fun m => Entry.one m.toNat) (showInt n ++ tailText l) := by
  intro l
  induction l with
  | nil =>
    intro n hn _
    rw [tailText, List.flatMap_nil, List.append_nil]
    exact .one _ _ (.one _ _ (digits_showInt hn))
  | cons m l ih =>
    intro n hn hl
    have := ListText.cons _ (showInt n) [','] _ _ (.one _ _ (digits_showInt hn)) ⟨by simp, by simp⟩
      (ih m (hl m (by simp)) (fun x hx => hl x (by simp [hx])))
    simpa [tailText] using this

theorem values_numbers (l : List Int) (h : ∀ n ∈ l, Ident n) : (l.map fun m => Entry.one m.toNat).flatMap Entry.values = l := by
  induction l with
  | nil => rfl
  | cons n l ih =>
    have h1 := (h n (by simp)).1
    rw [List.map_cons, List.flatMap_cons, ih (fun m hm => h m (by simp [hm]))]
    simp only [Entry.values]
    rw [show ((n.toNat : Nat) : Int) = n by omega]
    rfl

theorem group_written {g : WGroup} (hid : Ident g.id) (hne : g.ids ≠ []) (h : ∀ n ∈ g.ids, Ident n) :
    ∃ text, SetText g.id.toNat (g.ids.map fun m => Entry.one m.toNat) text ∧ Broken text (writeGroup g) := by
  obtain ⟨id, ids, comment⟩ := g
  simp only at hid hne h
  cases ids with
  | nil => exact absurd rfl hne
  | cons n l =>
    have hn := h n (by simp)
    have hw := showInt_word hid
    have hwn := showInt_word hn
    refine ⟨"SET ".toList ++ showInt id ++ " = ".toList ++ showInt n ++ tailText l, ?_, ?_⟩
    · refine ⟨"SET".toList, [], showInt id, [' '], [' '], showInt n ++ tailText l, ?_, by decide, by decide, by decide, digits_showInt hid,
        by decide, by decide, list_numbers l n hn (fun m hm => h m (by simp [hm]))⟩
      simp
    · unfold writeGroup
      rw [numbersLoop]
      simp only [if_true]
      rw [if_neg (by decide)]
      refine broken_numbers comment l 2 _ (fun m hm => h m (by simp [hm])) ?_ ?_ ?_
      · have hS : Tight ("SET".toList) := (show Word "SET".toList by decide).tight
        have := hS.append (m := " ".toList ++ showInt id ++ " = ".toList) hwn.tight
        simpa using this
      · intro c hc
        simp only [List.mem_append] at hc
        rcases hc with ((h | h) | h) | h
        · have : ∀ c ∈ "SET ".toList, c ≠ '$' := by decide
          exact this c h
        · exact word_line hw c h
        · have : ∀ c ∈ " = ".toList, c ≠ '$' := by decide
          exact this c h
        · exact word_line hwn c h
      · obtain ⟨c, h1, h2⟩ := digits_last (digits_showInt hn)
        rw [List.getLast?_append, h1]
        simp only [Option.some_or]
        intro h
        cases h
        exact absurd h2 (by decide)

theorem groups_written : ∀ (gs : List WGroup), (∀ g ∈ gs, Ident g.id ∧ g.ids ≠ [] ∧ ∀ n ∈ g.ids, Ident n) →
    Sets (gs.map fun g => (g.id.toNat, g.ids.map fun m => Entry.one m.toNat)) (gs.flatMap writeGroup) := by
  intro gs
  induction gs with
  | nil => intro _; exact .nil
  | cons g gs ih =>
    intro h
    obtain ⟨h1, h2, h3⟩ := h g (by simp)
    obtain ⟨text, ht, hb⟩ := group_written h1 h2 h3
    exact .cons _ _ text _ _ _ ht hb (ih fun x hx => h x (by simp [hx]))

/-! ## Subcases -/

theorem own_append {a b : List (Line × Line)} {la lb : List Line} (h : Own a la) (h' : Own b lb) : Own (a ++ b) (la ++ lb) := by
  induction h with
  | nil => exact h'
  | cons k v text ls sels rest hg hs _ ih =>
    rw [List.append_assoc]
    exact .cons k v text ls _ _ hg hs ih

theorem own_one {k v text : Line} (hg : Gives [text] text) (hs : Says text k v) : Own [(k, v)] [text] := by
  have := Own.cons k v text [text] [] [] hg hs .nil
  simpa using this

/-- `  NAME=number`. -/
theorem own_set {name : Line} {n : Int} (hw : Word name) (hu : toUpper name = name) (hn : Ident n) :
    Own [(name, showInt n)] [writeSet name n] := by
  have hwn := showInt_word hn
  refine own_one (gives_plain ?_ ?_) ?_
  · intro c hc
    simp only [writeSet, List.mem_append, List.mem_cons] at hc
    rcases hc with (h | h) | rfl | h
    · have : ∀ c ∈ "  ".toList, c ≠ '$' := by decide
      exact this c h
    · exact word_line hw c h
    · decide
    · exact word_line hwn c h
  · exact blank_of_mem (c := '=') (by simp [writeSet]) (by decide)
  · refine ⟨"  ".toList, name, [showInt n], name ++ ['='] ++ showInt n, [], ?_, by decide, ?_, by simp, hu, ?_, by decide⟩
    · simp [writeSet]
    · exact .cons _ _ _ _ hw (by simp) (by simp) (.one _ hwn)
    · rw [joinedWords, upper_showInt hn]

theorem load_name (t : WLoad) : Word t.name ∧ toUpper t.name = t.name := by cases t <;> decide
theorem constraint_name (t : WConstraint) : Word t.name ∧ toUpper t.name = t.name := by cases t <;> decide

def loadSels (l : List (WLoad × Int)) : List (Line × Line) := l.map fun e => (e.1.name, showInt e.2)
def constraintSels (l : List (Option (WConstraint × Int))) : List (Line × Line) := (l.filterMap id).map fun e => (e.1.name, showInt e.2)
def outputSels (l : List (List Int)) : List (Line × Line) := l.map fun gs => ("DISP".toList, commaList gs)

def selsOf (a : WAnalysis) : List (Line × Line) := loadSels a.loads ++ constraintSels a.constraints ++ outputSels a.outputs

theorem own_loads : ∀ (l : List (WLoad × Int)), (∀ e ∈ l, Ident e.2) → Own (loadSels l) (l.map fun e => writeSet e.1.name e.2) := by
  intro l
  induction l with
  | nil => intro _; exact .nil
  | cons e l ih =>
    intro h
    exact own_append (own_set (load_name e.1).1 (load_name e.1).2 (h e (by simp))) (ih fun x hx => h x (by simp [hx]))

theorem own_constraints : ∀ (l : List (Option (WConstraint × Int))), (∀ e ∈ l, ∃ t n, e = some (t, n) ∧ Ident n) →
    ∃ ls, writeConstraints l = .ok ls ∧ Own (constraintSels l) ls := by
  intro l
  induction l with
  | nil => intro _; exact ⟨[], rfl, .nil⟩
  | cons e l ih =>
    intro h
    obtain ⟨t, n, rfl, hn⟩ := h e (by simp)
    obtain ⟨ls, h1, h2⟩ := ih fun x hx => h x (by simp [hx])
    refine ⟨writeSet t.name n :: ls, by rw [writeConstraints, h1]; rfl, ?_⟩
    exact own_append (own_set (constraint_name t).1 (constraint_name t).2 hn) h2

theorem own_outputs {l : List (List Int)} (h : l = [] ∨ ∃ g, l = [[g]] ∧ 0 < g ∧ Ident g) :
    Own (outputSels l) (l.map fun gs => "  DISP = ".toList ++ commaList gs) := by
  rcases h with rfl | ⟨g, rfl, _, hg⟩
  · exact .nil
  · have hwn := showInt_word hg
    simp only [outputSels, List.map_cons, List.map_nil, commaList]
    refine own_one (gives_plain ?_ ?_) ?_
    · intro c hc
      rcases List.mem_append.mp hc with h | h
      · have : ∀ c ∈ "  DISP = ".toList, c ≠ '$' := by decide
        exact this c h
      · exact word_line hwn c h
    · exact blank_of_mem (c := '=') (by simp) (by decide)
    · refine ⟨"  ".toList, "DISP".toList, [showInt g], "DISP".toList ++ " = ".toList ++ showInt g, [], by simp, by decide,
        .cons _ _ _ _ (by decide) (by decide) (by decide) (.one _ hwn), by simp, by decide, ?_, by decide⟩
      rw [joinedWords, upper_showInt hg]

theorem subcase_written {a : WAnalysis} (h : Plain a) :
    ∃ own, writeSubcase a = .ok (("SUBCASE ".toList ++ showInt a.id) :: own) ∧ Own (selsOf a) own := by
  obtain ⟨ls, h1, h2⟩ := own_constraints a.constraints (by
    intro e he
    obtain ⟨t, n, rfl, _, hn⟩ := h.constraints e he
    exact ⟨t, n, rfl, hn⟩)
  refine ⟨_, by rw [writeSubcase, h1]; rfl, ?_⟩
  exact own_append (own_append (own_loads a.loads fun e he => (h.loads e he).2) h2) (own_outputs h.outputs)

/-- The subcases: what is written after them belongs to the last one. -/
def subsOf (extra : List (Line × Line)) : List WAnalysis → List Sub
  | [] => []
  | [a] => [⟨a.id.toNat, selsOf a ++ extra⟩]
  | a :: l => ⟨a.id.toNat, selsOf a⟩ :: subsOf extra l

theorem subcases_written {extra : List (Line × Line)} {after : List Line} (hx : Own extra after) : ∀ (l : List WAnalysis), l ≠ [] →
    (∀ a ∈ l, Plain a) → ∃ ls, writeSubcases l = .ok ls ∧ Subcases (subsOf extra l) (ls ++ after) := by
  intro l
  induction l with
  | nil => intro h; exact absurd rfl h
  | cons a l ih =>
    intro _ h
    have ha := h a (by simp)
    have hw := showInt_word ha.id
    obtain ⟨own, h1, h2⟩ := subcase_written ha
    have hg : Gives ["SUBCASE ".toList ++ showInt a.id] ("SUBCASE ".toList ++ showInt a.id) := by
      refine gives_plain ?_ (blank_of_mem (c := 'S') (by simp) (by decide))
      intro c hc
      rcases List.mem_append.mp hc with h | h
      · have : ∀ c ∈ "SUBCASE ".toList, c ≠ '$' := by decide
        exact this c h
      · exact word_line hw c h
    have hs : Selects ("SUBCASE ".toList ++ showInt a.id) "SUBCASE".toList (showInt a.id) :=
      ⟨[], "SUBCASE".toList, [' '], [], by simp, by decide, by decide, by decide, sep_space, hw, by decide⟩
    cases l with
    | nil =>
      refine ⟨_, by rw [writeSubcases, h1]; rfl, ?_⟩
      have := Subcases.cons ⟨a.id.toNat, selsOf a ++ extra⟩ _ _ _ (own ++ after) [] [] hg hs (digits_showInt ha.id) (own_append h2 hx) .nil
      simpa [subsOf] using this
    | cons b l =>
      obtain ⟨ls, h3, h4⟩ := ih (by simp) (fun x hx => h x (by simp [hx]))
      refine ⟨("SUBCASE ".toList ++ showInt a.id) :: own ++ ls, by rw [writeSubcases, h1, h3]; rfl, ?_⟩
      have := Subcases.cons ⟨a.id.toNat, selsOf a⟩ _ _ _ own _ _ hg hs (digits_showInt ha.id) h2 h4
      simpa [subsOf] using this

theorem subsOf_ids (extra : List (Line × Line)) : ∀ l, (subsOf extra l).map (·.id) = l.map fun a => a.id.toNat := by
  intro l
  induction l with
  | nil => rfl
  | cons a l ih =>
    cases l with
    | nil => rfl
    | cons b l => rw [subsOf, List.map_cons, ih, List.map_cons] <;> simp

theorem nodup_toNat {α : Type} {f : α → Int} (l : List α) (h : ∀ x ∈ l, 0 ≤ f x) (hn : (l.map f).Nodup) :
    (l.map fun x => (f x).toNat).Nodup := by
  rw [show (l.map fun x => (f x).toNat) = (l.map f).map Int.toNat by rw [List.map_map]; rfl]
  refine hn.map_on ?_
  intro x hx y hy he
  obtain ⟨a, ha, rfl⟩ := List.mem_map.mp hx
  obtain ⟨b, hb, rfl⟩ := List.mem_map.mp hy
  have := h a ha
  have := h b hb
  omega

theorem subsOf_length (extra : List (Line × Line)) : ∀ l, (subsOf extra l).length = l.length := by
  intro l
  induction l with
  | nil => rfl
  | cons a l ih =>
    cases l with
    | nil => rfl
    | cons b l => rw [subsOf, List.length_cons, ih, List.length_cons] <;> simp

theorem subsOf_get (extra : List (Line × Line)) : ∀ (l : List WAnalysis) (i : Nat) (a : WAnalysis), l[i]? = some a →
    ∃ e, (e = [] ∨ e = extra) ∧ (subsOf extra l)[i]? = some ⟨a.id.toNat, selsOf a ++ e⟩ := by
  intro l
  induction l with
  | nil => intro i a h; exact nomatch h
  | cons x l ih =>
    intro i a h
    cases l with
    | nil =>
      cases i with
      | zero =>
        cases h
        exact ⟨extra, Or.inr rfl, rfl⟩
      | succ i => simp at h
    | cons b l =>
      cases i with
      | zero =>
        cases h
        exact ⟨[], Or.inl rfl, by rw [List.append_nil]; rfl⟩
      | succ i =>
        obtain ⟨e, h1, h2⟩ := ih i a (by simpa using h)
        exact ⟨e, h1, by rw [subsOf]; simpa using h2; simp⟩

theorem subsOf_mem {extra : List (Line × Line)} {l : List WAnalysis} {s : Sub} (h : s ∈ subsOf extra l) :
    ∃ a ∈ l, ∃ e, (e = [] ∨ e = extra) ∧ s = ⟨a.id.toNat, selsOf a ++ e⟩ := by
  obtain ⟨i, hi, hs⟩ := List.mem_iff_getElem.mp h
  rw [subsOf_length] at hi
  obtain ⟨e, h1, h2⟩ := subsOf_get extra l i l[i] (List.getElem?_eq_getElem hi)
  rw [List.getElem?_eq_getElem (by rw [subsOf_length]; exact hi), hs] at h2
  exact ⟨l[i], List.getElem_mem hi, e, h1, Option.some.inj h2⟩

/-! ## What is chosen -/

theorem lastFor_nodup {l : List (Line × Line)} (h : (l.map (·.1)).Nodup) (k v : Line) : lastFor l k = some v ↔ (k, v) ∈ l := by
  unfold lastFor
  constructor
  · intro hv
    obtain ⟨e, he, hev⟩ := Option.map_eq_some_iff.mp hv
    have h1 := List.mem_of_find?_eq_some he
    have h2 := List.find?_some he
    simp only [decide_eq_true_eq] at h2
    rw [← h2, ← hev]
    simpa using h1
  · intro hm
    cases hf : l.reverse.find? fun e => e.1 = k with
    | none =>
      rw [List.find?_eq_none] at hf
      have := hf (k, v) (by simpa using hm)
      simp at this
    | some e =>
      have h1 := List.mem_of_find?_eq_some hf
      have h2 := List.find?_some hf
      simp only [decide_eq_true_eq] at h2
      rw [Option.map_some]
      have : e = (k, v) := List.inj_on_of_nodup_map h (by simpa using h1) hm h2
      rw [this]

theorem chosen_nodup {l : List (Line × Line)} (h : (l.map (·.1)).Nodup) (k : Line) (n : Int) :
    Chosen (lastFor l) k n ↔ ∃ v m, (k, v) ∈ l ∧ Digits v m ∧ n = (m : Nat) := by
  unfold Chosen
  simp only [lastFor_nodup h]

/-- The commands above the subcases. -/
def frontItems (m : WCase) (sol : Line) : List Item :=
  [.sel "ID".toList (m.name ++ ",NASTRAN".toList), .sel "SOL".toList sol, .sel "APP".toList "DISP".toList, .sel "TIME".toList "10000".toList, .cend]

def frontSels (m : WCase) (sol : Line) : List (Line × Line) :=
  [("ID".toList, m.name ++ ",NASTRAN".toList), ("SOL".toList, sol), ("APP".toList, "DISP".toList), ("TIME".toList, "10000".toList)]

theorem front_given (m : WCase) (sol : Line) : given (frontItems m sol) = frontSels m sol := rfl

/-- What is written after the subcases. -/
def extraSels (cosmic : Bool) : List (Line × Line) :=
  (if cosmic then [("MAXLINES".toList, "999999".toList)] else []) ++ [("TITLE".toList, "VEGA_EXPORTED_MODEL".toList)]

def afterLines (cosmic : Bool) : List Line :=
  (if cosmic then ["MAXLINES=999999".toList] else []) ++ ["$".toList, "TITLE=Vega Exported Model".toList]

theorem own_extra (cosmic : Bool) : Own (extraSels cosmic) (afterLines cosmic) := by
  have ht : Own [("TITLE".toList, "VEGA_EXPORTED_MODEL".toList)] ["$".toList, "TITLE=Vega Exported Model".toList] := by
    have hg : Gives ["$".toList, "TITLE=Vega Exported Model".toList] "TITLE=Vega Exported Model".toList :=
      ⟨["$".toList], "TITLE=Vega Exported Model".toList, rfl, by simp only [List.mem_singleton, forall_eq]; unfold Ignored; decide, by decide, by decide⟩
    have := Own.cons "TITLE".toList "VEGA_EXPORTED_MODEL".toList _ _ [] [] hg
      ⟨[], "TITLE".toList, ["Vega".toList, "Exported".toList, "Model".toList], "TITLE=Vega Exported Model".toList, [], by decide, by decide,
        .cons "TITLE".toList "=".toList "Vega Exported Model".toList _ (by decide) (by decide) (by decide)
          (.cons "Vega".toList " ".toList "Exported Model".toList _ (by decide) (by decide) (by decide)
            (.cons "Exported".toList " ".toList "Model".toList _ (by decide) (by decide) (by decide) (.one _ (by decide)))),
        by decide, by decide, by decide, by decide⟩ .nil
    simpa using this
  cases cosmic with
  | false => exact ht
  | true =>
    refine own_append ?_ ht
    refine own_one (text := "MAXLINES=999999".toList) (gives_plain (by decide) (by decide))
      ⟨[], "MAXLINES".toList, ["999999".toList], "MAXLINES=999999".toList, [], by decide, by decide, ?_, by decide, by decide, by decide, by decide⟩
    exact .cons "MAXLINES".toList "=".toList "999999".toList _ (by decide) (by decide) (by decide) (.one _ (by decide))

theorem static_sol (cosmic : Bool) (sol : Line) (h : solutionName cosmic .linearStatic = some sol) : sol = "1,1".toList ∨ sol = "101".toList := by
  cases cosmic
  · exact Or.inr (Option.some.inj h).symm
  · exact Or.inl (Option.some.inj h).symm

theorem front_written {m : WCase} (hname : Word (m.name ++ ",NASTRAN".toList)) {sol : Line} (hsol : sol = "1,1".toList ∨ sol = "101".toList) :
    Above (frontItems m sol) (["$ ".toList ++ m.name, "ID ".toList ++ m.name ++ ",NASTRAN".toList] ++ ["SOL ".toList ++ sol] ++
      ["APP   DISP".toList, "TIME  10000".toList, "CEND".toList]) := by
  have hline : "ID ".toList ++ m.name ++ ",NASTRAN".toList = [] ++ ("ID".toList ++ [' '] ++ (m.name ++ ",NASTRAN".toList)) ++ [] := by simp
  have hd : ∀ c ∈ "ID ".toList ++ m.name ++ ",NASTRAN".toList, c ≠ '$' := by
    intro c hc
    rw [List.append_assoc] at hc
    rcases List.mem_append.mp hc with h | h
    · have : ∀ c ∈ "ID ".toList, c ≠ '$' := by decide
      exact this c h
    · exact word_line hname c h
  have hb : blank ("ID ".toList ++ m.name ++ ",NASTRAN".toList) = false := blank_of_mem (c := 'I') (by simp) (by decide)
  have htake : ("ID ".toList ++ m.name ++ ",NASTRAN".toList).takeWhile (· ≠ '$') = "ID ".toList ++ m.name ++ ",NASTRAN".toList :=
    List.takeWhile_eq_self_iff.mpr (by intro c hc; simpa using hd c hc)
  refine .cons _ ("ID ".toList ++ m.name ++ ",NASTRAN".toList) ["$ ".toList ++ m.name, "ID ".toList ++ m.name ++ ",NASTRAN".toList] _
    ["SOL ".toList ++ sol, "APP   DISP".toList, "TIME  10000".toList, "CEND".toList]
    ⟨["$ ".toList ++ m.name], "ID ".toList ++ m.name ++ ",NASTRAN".toList, rfl, ?_, htake, hb⟩
    ⟨[], "ID".toList, [' '], [], hline, by decide, by decide, by decide, sep_space, hname, by decide⟩ ?_
  · simp only [List.mem_singleton, forall_eq]
    unfold Ignored
    rw [show "$ ".toList ++ m.name = '$' :: ' ' :: m.name from rfl]
    rfl
  · have hs2 : Separates "  ".toList := Or.inr ⟨by decide, by decide⟩
    have hs3 : Separates "   ".toList := Or.inr ⟨by decide, by decide⟩
    have hrest : Above [.sel "APP".toList "DISP".toList, .sel "TIME".toList "10000".toList, .cend]
        ["APP   DISP".toList, "TIME  10000".toList, "CEND".toList] :=
      .cons _ "APP   DISP".toList ["APP   DISP".toList] _ _ (gives_plain (by decide) (by decide))
        ⟨[], "APP".toList, "   ".toList, [], by decide, by decide, by decide, by decide, hs3, by decide, by decide⟩
        (.cons _ "TIME  10000".toList ["TIME  10000".toList] _ _ (gives_plain (by decide) (by decide))
          ⟨[], "TIME".toList, "  ".toList, [], by decide, by decide, by decide, by decide, hs2, by decide, by decide⟩
          (.cons _ "CEND".toList ["CEND".toList] _ [] (gives_plain (by decide) (by decide)) ⟨[], "CEND".toList, [], by decide, by decide, by decide, by decide, by decide⟩
            .nil))
    rcases hsol with rfl | rfl
    · exact .cons _ "SOL 1,1".toList ["SOL 1,1".toList] _ _ (gives_plain (by decide) (by decide))
        ⟨[], "SOL".toList, [' '], [], by decide, by decide, by decide, by decide, sep_space, by decide, by decide⟩ hrest
    · exact .cons _ "SOL 101".toList ["SOL 101".toList] _ _ (gives_plain (by decide) (by decide))
        ⟨[], "SOL".toList, [' '], [], by decide, by decide, by decide, by decide, sep_space, by decide, by decide⟩ hrest

/-! ## Allowed commands -/

/-- A command that is none of those for sets, with a value that is not a number. -/
theorem allowed_other {k v : Line} (h1 : k ∉ parts) (h2 : has "BEGIN".toList k = false) (h3 : ∀ c ∈ k, c ≠ '(' ∧ c ≠ ',' ∧ c ≠ ')')
    (h4 : k ∉ setCommands) (h5 : ∀ p ∈ ["SPC".toList, "MPC".toList, "LOAD".toList, "DLOAD".toList, "DISP".toList], ¬ p <+: k)
    (h6 : ∃ c ∈ v, c.isDigit = false) : Allowed k v := by
  refine ⟨⟨h1, ?_⟩, h3, fun h => absurd h h4, fun _ => h5, ?_⟩
  · intro hh
    rw [F06.has_iff.mpr hh] at h2
    exact nomatch h2
  · intro h
    obtain ⟨c, hc, hf⟩ := h6
    rw [h c hc] at hf
    exact nomatch hf

theorem allowed_number {k : Line} {n : Int} (hn : Ident n) (h1 : k ∉ parts) (h2 : has "BEGIN".toList k = false)
    (h3 : ∀ c ∈ k, c ≠ '(' ∧ c ≠ ',' ∧ c ≠ ')') (h4 : k ∈ setCommands) : Allowed k (showInt n) := by
  have hd := digits_showInt hn
  refine ⟨⟨h1, ?_⟩, h3, fun _ => ⟨_, hd⟩, fun h => absurd h4 h, ?_⟩
  · intro hh
    rw [F06.has_iff.mpr hh] at h2
    exact nomatch h2
  · intro _
    rw [hd.2.2.1]
    exact hd.2.2.2

theorem front_allowed (m : WCase) {sol : Line} (hsol : sol = "1,1".toList ∨ sol = "101".toList) :
    ∀ e ∈ given (frontItems m sol), AllowedAbove e.1 e.2 := by
  rw [front_given]
  intro e he
  simp only [frontSels, List.mem_cons, List.not_mem_nil, or_false] at he
  rcases he with rfl | rfl | rfl | rfl <;> dsimp only
  · exact ⟨allowed_other (by decide) (by decide) (by decide) (by decide) (by decide) ⟨',', by simp, by decide⟩, by decide⟩
  · refine ⟨?_, by decide⟩
    rcases hsol with rfl | rfl
    · exact allowed_of _ _ (by decide) (by decide) (by decide) (Or.inr (by decide)) (by decide) (by decide)
    · exact allowed_of _ _ (by decide) (by decide) (by decide) (Or.inr (by decide)) (by decide) (by decide)
  · exact ⟨allowed_of _ _ (by decide) (by decide) (by decide) (Or.inr (by decide)) (by decide) (by decide), by decide⟩
  · exact ⟨allowed_of _ _ (by decide) (by decide) (by decide) (Or.inr (by decide)) (by decide) (by decide), by decide⟩

theorem extra_allowed (cosmic : Bool) : ∀ e ∈ extraSels cosmic, Allowed e.1 e.2 := by
  intro e he
  rcases List.mem_append.mp he with h | h
  · cases cosmic with
    | false => simp at h
    | true =>
      simp only [if_true, List.mem_singleton] at h
      subst h
      exact allowed_of _ _ (by decide) (by decide) (by decide) (Or.inr (by decide)) (by decide) (by decide)
  · simp only [List.mem_singleton] at h
    subst h
    exact allowed_other (by decide) (by decide) (by decide) (by decide) (by decide) ⟨'V', by decide, by decide⟩

theorem mem_loadSels {l : List (WLoad × Int)} {k v : Line} : (k, v) ∈ loadSels l ↔ ∃ t n, (t, n) ∈ l ∧ k = t.name ∧ v = showInt n := by
  unfold loadSels
  simp only [List.mem_map, Prod.mk.injEq, Prod.exists]
  constructor
  · rintro ⟨t, n, h, rfl, rfl⟩; exact ⟨t, n, h, rfl, rfl⟩
  · rintro ⟨t, n, h, rfl, rfl⟩; exact ⟨t, n, h, rfl, rfl⟩

theorem mem_constraintSels {l : List (Option (WConstraint × Int))} {k v : Line} :
    (k, v) ∈ constraintSels l ↔ ∃ t n, some (t, n) ∈ l ∧ k = t.name ∧ v = showInt n := by
  unfold constraintSels
  simp only [List.mem_map, List.mem_filterMap, id, Prod.mk.injEq, Prod.exists]
  constructor
  · rintro ⟨t, n, ⟨e, h, rfl⟩, rfl, rfl⟩; exact ⟨t, n, h, rfl, rfl⟩
  · rintro ⟨t, n, h, rfl, rfl⟩; exact ⟨t, n, ⟨_, h, rfl⟩, rfl, rfl⟩

theorem mem_outputSels {l : List (List Int)} (h : l = [] ∨ ∃ g, l = [[g]] ∧ 0 < g ∧ Ident g) {k v : Line} :
    (k, v) ∈ outputSels l ↔ ∃ g, l = [[g]] ∧ 0 < g ∧ Ident g ∧ k = "DISP".toList ∧ v = showInt g := by
  rcases h with rfl | ⟨g, rfl, hg, hi⟩
  · simp [outputSels]
  · constructor
    · intro hm
      have hm : (k, v) ∈ [("DISP".toList, showInt g)] := hm
      simp only [List.mem_singleton, Prod.mk.injEq] at hm
      exact ⟨g, rfl, hg, hi, hm.1, hm.2⟩
    · rintro ⟨g', he, _, _, rfl, rfl⟩
      have : g = g' := by simpa using he
      subst this
      exact List.mem_singleton.mpr rfl

theorem sels_allowed {a : WAnalysis} (h : Plain a) : ∀ e ∈ selsOf a, Allowed e.1 e.2 := by
  rintro ⟨k, v⟩ he
  rcases List.mem_append.mp he with he | he
  · rcases List.mem_append.mp he with he | he
    · obtain ⟨t, n, hm, rfl, rfl⟩ := mem_loadSels.mp he
      obtain ⟨ht, hn⟩ := h.loads _ hm
      simp only at ht hn
      rcases ht with rfl | rfl | rfl <;> dsimp only <;> exact allowed_number hn (by decide) (by decide) (by decide) (by decide)
    · obtain ⟨t, n, hm, rfl, rfl⟩ := mem_constraintSels.mp he
      obtain ⟨t', n', he', ht, hn⟩ := h.constraints _ hm
      cases he'
      rcases ht with rfl | rfl <;> dsimp only <;> exact allowed_number hn (by decide) (by decide) (by decide) (by decide)
  · obtain ⟨g, _, _, hg, rfl, rfl⟩ := (mem_outputSels h.outputs).mp he
    dsimp only
    exact allowed_number hg (by decide) (by decide) (by decide) (by decide)

/-! ## Every command once -/

theorem load_name_inj : ∀ s t : WLoad, s.name = t.name → s = t := by intro s t; cases s <;> cases t <;> decide
theorem constraint_name_inj : ∀ s t : WConstraint, s.name = t.name → s = t := by intro s t; cases s <;> cases t <;> decide

theorem nodup_loads {a : WAnalysis} (h : Plain a) : ((loadSels a.loads).map (·.1)).Nodup := by
  have : (loadSels a.loads).map (·.1) = (a.loads.map (·.1)).map WLoad.name := by simp [loadSels]
  rw [this]
  exact List.Nodup.map (fun s t => load_name_inj s t) h.oneLoad

theorem nodup_constraints {a : WAnalysis} (h : Plain a) : ((constraintSels a.constraints).map (·.1)).Nodup := by
  have h1 : ∀ (l : List (Option (WConstraint × Int))), (∀ e ∈ l, ∃ t n, e = some (t, n)) → (l.map (Option.map (·.1))).Nodup →
      ((constraintSels l).map (·.1)).Nodup := by
    intro l hl hn
    have : (l.map (Option.map (·.1))) = ((l.filterMap id).map (·.1)).map some := by
      clear hn
      induction l with
      | nil => rfl
      | cons e l ih =>
        obtain ⟨t, n, rfl⟩ := hl e (by simp)
        rw [List.map_cons, ih (fun x hx => hl x (by simp [hx]))]
        rfl
    rw [this] at hn
    have h2 := (List.nodup_map_iff (Option.some_injective _)).mp hn
    have h3 : (constraintSels l).map (·.1) = ((l.filterMap id).map (·.1)).map WConstraint.name := by simp [constraintSels]
    rw [h3]
    exact List.Nodup.map (fun s t => constraint_name_inj s t) h2
  refine h1 _ ?_ h.oneConstraint
  intro e he
  obtain ⟨t, n, rfl, _⟩ := h.constraints e he
  exact ⟨t, n, rfl⟩

/-- The commands of an analysis. -/
theorem key_cases {a : WAnalysis} (h : Plain a) {k : Line} (hk : k ∈ (selsOf a).map (·.1)) :
    (k ∈ ["LOAD".toList, "DLOAD".toList, "LOADSET".toList] ∧ k ∈ (loadSels a.loads).map (·.1)) ∨
    (k ∈ ["SPC".toList, "MPC".toList] ∧ k ∈ (constraintSels a.constraints).map (·.1)) ∨
    (k = "DISP".toList ∧ k ∈ (outputSels a.outputs).map (·.1)) := by
  obtain ⟨⟨k', v⟩, he, rfl⟩ := List.mem_map.mp hk
  rcases List.mem_append.mp he with he | he
  · rcases List.mem_append.mp he with he | he
    · refine Or.inl ⟨?_, List.mem_map_of_mem he⟩
      obtain ⟨t, n, hm, rfl, rfl⟩ := mem_loadSels.mp he
      have := (h.loads _ hm).1
      simp only at this
      rcases this with rfl | rfl | rfl <;> dsimp only <;> decide
    · refine Or.inr (Or.inl ⟨?_, List.mem_map_of_mem he⟩)
      obtain ⟨t, n, hm, rfl, rfl⟩ := mem_constraintSels.mp he
      obtain ⟨t', n', he', ht, hn⟩ := h.constraints _ hm
      cases he'
      rcases ht with rfl | rfl <;> dsimp only <;> decide
  · refine Or.inr (Or.inr ⟨?_, List.mem_map_of_mem he⟩)
    obtain ⟨g, _, _, _, hk, _⟩ := (mem_outputSels h.outputs).mp he
    exact hk

theorem nodup_sels {a : WAnalysis} (h : Plain a) : ((selsOf a).map (·.1)).Nodup := by
  unfold selsOf
  rw [List.map_append, List.map_append, List.nodup_append, List.nodup_append]
  have hl : ∀ k ∈ (loadSels a.loads).map (·.1), k ∈ ["LOAD".toList, "DLOAD".toList, "LOADSET".toList] := by
    intro k hk
    obtain ⟨⟨k', v⟩, he, rfl⟩ := List.mem_map.mp hk
    obtain ⟨t, n, hm, rfl, rfl⟩ := mem_loadSels.mp he
    have := (h.loads _ hm).1
    simp only at this
    rcases this with rfl | rfl | rfl <;> dsimp only <;> decide
  have hc : ∀ k ∈ (constraintSels a.constraints).map (·.1), k ∈ ["SPC".toList, "MPC".toList] := by
    intro k hk
    obtain ⟨⟨k', v⟩, he, rfl⟩ := List.mem_map.mp hk
    obtain ⟨t, n, hm, rfl, rfl⟩ := mem_constraintSels.mp he
    obtain ⟨t', n', he', ht, hn⟩ := h.constraints _ hm
    cases he'
    rcases ht with rfl | rfl <;> dsimp only <;> decide
  have ho : ∀ k ∈ (outputSels a.outputs).map (·.1), k = "DISP".toList := by
    intro k hk
    obtain ⟨⟨k', v⟩, he, rfl⟩ := List.mem_map.mp hk
    obtain ⟨g, _, _, _, hk, _⟩ := (mem_outputSels h.outputs).mp he
    exact hk
  have d1 : ∀ k ∈ ["LOAD".toList, "DLOAD".toList, "LOADSET".toList], ∀ k' ∈ ["SPC".toList, "MPC".toList], k ≠ k' := by decide
  have d2 : ∀ k ∈ ["LOAD".toList, "DLOAD".toList, "LOADSET".toList, "SPC".toList, "MPC".toList], k ≠ "DISP".toList := by decide
  refine ⟨⟨nodup_loads h, nodup_constraints h, fun x hx y hy => d1 x (hl x hx) y (hc y hy)⟩, ?_, ?_⟩
  · rcases h.outputs with h | ⟨g, h, _⟩ <;> rw [h] <;> simp [outputSels]
  · intro x hx y hy
    rw [ho y hy]
    refine d2 x ?_
    rcases List.mem_append.mp hx with h | h
    · have := hl x h
      simp only [List.mem_cons, List.not_mem_nil, or_false] at this ⊢
      tauto
    · have := hc x h
      simp only [List.mem_cons, List.not_mem_nil, or_false] at this ⊢
      tauto

theorem nodup_all {a : WAnalysis} (h : Plain a) (m : WCase) (sol : Line) {cosmic : Bool} {e : List (Line × Line)} (he : e = [] ∨ e = extraSels cosmic) :
    ((frontSels m sol ++ (selsOf a ++ e)).map (·.1)).Nodup := by
  have hk : ∀ k ∈ (selsOf a).map (·.1), k ∈ ["LOAD".toList, "DLOAD".toList, "LOADSET".toList, "SPC".toList, "MPC".toList, "DISP".toList] := by
    intro k hk
    have := key_cases h hk
    simp only [List.mem_cons, List.not_mem_nil, or_false] at this ⊢
    tauto
  have he2 : (∀ k ∈ e.map (·.1), k ∈ ["MAXLINES".toList, "TITLE".toList]) ∧ (e.map (·.1)).Nodup := by
    rcases he with rfl | rfl
    · simp
    · cases cosmic <;> decide
  have hf : (frontSels m sol).map (·.1) = ["ID".toList, "SOL".toList, "APP".toList, "TIME".toList] := rfl
  rw [List.map_append, List.map_append, hf, List.nodup_append, List.nodup_append]
  have d1 : ∀ k ∈ ["LOAD".toList, "DLOAD".toList, "LOADSET".toList, "SPC".toList, "MPC".toList, "DISP".toList],
      ∀ k' ∈ ["MAXLINES".toList, "TITLE".toList], k ≠ k' := by decide
  have d2 : ∀ k ∈ ["ID".toList, "SOL".toList, "APP".toList, "TIME".toList], ∀ k' ∈ ["LOAD".toList, "DLOAD".toList, "LOADSET".toList, "SPC".toList,
      "MPC".toList, "DISP".toList] ++ ["MAXLINES".toList, "TITLE".toList], k ≠ k' := by decide
  refine ⟨by decide, ⟨nodup_sels h, he2.2, fun x hx y hy => d1 x (hk x hx) y (he2.1 y hy)⟩, ?_⟩
  intro x hx y hy
  refine d2 x hx y ?_
  rcases List.mem_append.mp hy with h | h
  · exact List.mem_append_left _ (hk y h)
  · exact List.mem_append_right _ (he2.1 y h)

/-- The commands of sets among all those that hold for an analysis. -/
theorem mem_all {a : WAnalysis} (h : Plain a) (m : WCase) (sol : Line) {cosmic : Bool} {e : List (Line × Line)} (he : e = [] ∨ e = extraSels cosmic)
    {k v : Line} (hk : k ∉ ["ID".toList, "SOL".toList, "APP".toList, "TIME".toList, "MAXLINES".toList, "TITLE".toList]) :
    (k, v) ∈ frontSels m sol ++ (selsOf a ++ e) ↔ (∃ t n, (t, n) ∈ a.loads ∧ k = t.name ∧ v = showInt n) ∨
      (∃ t n, some (t, n) ∈ a.constraints ∧ k = t.name ∧ v = showInt n) ∨
      ∃ g, a.outputs = [[g]] ∧ 0 < g ∧ Ident g ∧ k = "DISP".toList ∧ v = showInt g := by
  have h1 : (k, v) ∉ frontSels m sol := by
    intro hm
    simp only [frontSels, List.mem_cons, List.not_mem_nil, or_false, Prod.mk.injEq] at hm
    simp only [List.mem_cons, List.not_mem_nil, or_false, not_or] at hk
    tauto
  have h2 : (k, v) ∉ e := by
    intro hm
    rcases he with rfl | rfl
    · exact nomatch hm
    · have : k ∈ (extraSels cosmic).map (·.1) := List.mem_map_of_mem hm
      have h3 : ∀ c, ∀ x ∈ (extraSels c).map (·.1), x ∈ ["ID".toList, "SOL".toList, "APP".toList, "TIME".toList, "MAXLINES".toList, "TITLE".toList] := by
        decide
      exact hk (h3 cosmic k this)
  rw [List.mem_append, List.mem_append]
  simp only [h1, h2, false_or, or_false, selsOf]
  rw [List.mem_append, List.mem_append, mem_loadSels, mem_constraintSels, mem_outputSels h.outputs, or_assoc]

theorem digits_eq {n : Int} (h : Ident n) {m : Nat} (hd : Digits (showInt n) m) : (m : Int) = n := by
  have := (digits_showInt h).2.2.1.symm.trans hd.2.2.1
  have := h.1
  omega

theorem chosen_load {a : WAnalysis} (h : Plain a) (m : WCase) (sol : Line) {cosmic : Bool} {e : List (Line × Line)} (he : e = [] ∨ e = extraSels cosmic)
    (t : WLoad) (ht : t.name ∉ ["ID".toList, "SOL".toList, "APP".toList, "TIME".toList, "MAXLINES".toList, "TITLE".toList])
    (hc : ∀ c : WConstraint, c = .spc ∨ c = .mpc → t.name ≠ c.name) (hd : t.name ≠ "DISP".toList) (n : Int) :
    Chosen (lastFor (frontSels m sol ++ (selsOf a ++ e))) t.name n ↔ (t, n) ∈ a.loads := by
  rw [chosen_nodup (nodup_all h m sol he)]
  simp only [mem_all h m sol he ht]
  constructor
  · rintro ⟨v, x, hm, hx, rfl⟩
    rcases hm with ⟨t', n', hm, hk, rfl⟩ | ⟨c, n', hm, hk, rfl⟩ | ⟨g, _, _, _, hk, _⟩
    · rw [load_name_inj _ _ hk, digits_eq (h.loads _ hm).2 hx]
      exact hm
    · obtain ⟨c', n'', he', hc', _⟩ := h.constraints _ hm
      cases he'
      exact absurd hk (hc c hc')
    · exact absurd hk hd
  · intro hm
    have hi := (h.loads _ hm).2
    exact ⟨showInt n, n.toNat, Or.inl ⟨t, n, hm, rfl, rfl⟩, digits_showInt hi, by have := hi.1; simp only at this; omega⟩

theorem chosen_constraint {a : WAnalysis} (h : Plain a) (m : WCase) (sol : Line) {cosmic : Bool} {e : List (Line × Line)}
    (he : e = [] ∨ e = extraSels cosmic) (t : WConstraint)
    (ht : t.name ∉ ["ID".toList, "SOL".toList, "APP".toList, "TIME".toList, "MAXLINES".toList, "TITLE".toList])
    (hc : ∀ c : WLoad, c = .load ∨ c = .dload ∨ c = .loadset → t.name ≠ c.name) (hd : t.name ≠ "DISP".toList) (n : Int) :
    Chosen (lastFor (frontSels m sol ++ (selsOf a ++ e))) t.name n ↔ some (t, n) ∈ a.constraints := by
  rw [chosen_nodup (nodup_all h m sol he)]
  simp only [mem_all h m sol he ht]
  constructor
  · rintro ⟨v, x, hm, hx, rfl⟩
    rcases hm with ⟨c, n', hm, hk, rfl⟩ | ⟨t', n', hm, hk, rfl⟩ | ⟨g, _, _, _, hk, _⟩
    · exact absurd hk (hc c (h.loads _ hm).1)
    · obtain ⟨c', n'', he', hc', hi⟩ := h.constraints _ hm
      cases he'
      rw [constraint_name_inj _ _ hk, digits_eq hi hx]
      exact hm
    · exact absurd hk hd
  · intro hm
    obtain ⟨c', n'', he', hc', hi⟩ := h.constraints _ hm
    cases he'
    exact ⟨showInt n, n.toNat, Or.inr (Or.inl ⟨t, n, hm, rfl, rfl⟩), digits_showInt hi, by have := hi.1; omega⟩

theorem chosen_disp {a : WAnalysis} (h : Plain a) (m : WCase) (sol : Line) {cosmic : Bool} {e : List (Line × Line)}
    (he : e = [] ∨ e = extraSels cosmic) (n : Int) :
    ((∃ k ∈ dispNames, Chosen (lastFor (frontSels m sol ++ (selsOf a ++ e))) k n) ∧ n ≠ 0) ↔ [n] ∈ a.outputs := by
  have hno : ∀ k ∈ dispNames, k ∉ ["ID".toList, "SOL".toList, "APP".toList, "TIME".toList, "MAXLINES".toList, "TITLE".toList] := by decide
  have hl : ∀ t : WLoad, ∀ k ∈ dispNames, k ≠ t.name := by intro t; cases t <;> decide
  have hc : ∀ t : WConstraint, ∀ k ∈ dispNames, k ≠ t.name := by intro t; cases t <;> decide
  constructor
  · rintro ⟨⟨k, hk, hch⟩, _⟩
    rw [chosen_nodup (nodup_all h m sol he)] at hch
    obtain ⟨v, x, hm, hx, rfl⟩ := hch
    rw [mem_all h m sol he (hno k hk)] at hm
    rcases hm with ⟨t, _, _, hn, _⟩ | ⟨t, _, _, hn, _⟩ | ⟨g, ho, _, hg, _, rfl⟩
    · exact absurd hn (hl t k hk)
    · exact absurd hn (hc t k hk)
    · rw [ho, digits_eq hg hx]
      simp
  · intro hm
    rcases h.outputs with ho | ⟨g, ho, hp, hg⟩
    · rw [ho] at hm
      exact nomatch hm
    · rw [ho] at hm
      have : n = g := by simpa using hm
      subst this
      refine ⟨⟨"DISP".toList, by decide, ?_⟩, by omega⟩
      rw [chosen_nodup (nodup_all h m sol he)]
      refine ⟨showInt n, n.toNat, ?_, digits_showInt hg, by omega⟩
      rw [mem_all h m sol he (hno _ (by decide))]
      exact Or.inr (Or.inr ⟨n, ho, hp, hg, rfl, rfl⟩)

theorem sol_chosen {a : WAnalysis} (h : Plain a) (m : WCase) (sol : Line) {cosmic : Bool} {e : List (Line × Line)} (he : e = [] ∨ e = extraSels cosmic)
    (hs : sol = "1,1".toList ∨ sol = "101".toList) : HasKind (lastFor (frontSels m sol ++ (selsOf a ++ e))) .linearStatic ∧
    ∀ k, HasKind (lastFor (frontSels m sol ++ (selsOf a ++ e))) k → k = .linearStatic := by
  have hsol : lastFor (frontSels m sol ++ (selsOf a ++ e)) "SOL".toList = some sol :=
    (lastFor_nodup (nodup_all h m sol he) _ _).mpr (List.mem_append_left _ (by simp [frontSels]))
  have hmem : sol ∈ staticNames := by rcases hs with rfl | rfl <;> decide
  refine ⟨.static sol hsol hmem, ?_⟩
  intro k hk
  cases hk with
  | static => rfl
  | modal s v n h1 h2 =>
    rw [hsol] at h1
    cases h1
    rcases hs with rfl | rfl
    · exact absurd h2 (by decide)
    · exact absurd h2 (by decide)
  | nonLinear s v n h1 h2 =>
    rw [hsol] at h1
    cases h1
    rcases hs with rfl | rfl
    · exact absurd h2 (by decide)
    · exact absurd h2 (by decide)

theorem begin_bulk : Gives ["BEGIN BULK".toList] "BEGIN BULK".toList ∧ BeginsWith "BEGIN BULK".toList "BEGIN".toList :=
  ⟨gives_line _ (by decide), [], "BEGIN".toList, [], "BULK".toList, [], by decide, by decide, by decide, by decide, by decide, by decide, by decide⟩

theorem regroup {α : Type} (a s b g t l c : List α) (x y z : α) (ht : t = []) :
    a ++ s ++ b ++ g ++ t ++ l ++ c ++ [x, y, z] = (a ++ s ++ b) ++ (g ++ ((l ++ (c ++ [x, y])) ++ [z])) := by
  subst ht
  simp

/-! ## C100 -/

/-- C100: the section that is written for linear static analyses is read back: the lists are the groups, and there is one analysis
for each one written, with the same number, the same sets of loads and constraints, and the same output. Whatever follows
`BEGIN BULK` does not matter. -/
theorem C100_read_back_partial (cfg : Config) (hgnu : cfg.gnu = true) (hl : ∀ i, cfg.loadstep i = none) (m : WCase) (h : PlainCase m) :
    ∃ lines, writeSection m = .ok lines ∧ ∀ rest, ∃ d, readSection cfg (lines ++ rest) = .ok d ∧
      d.sets = m.groups.map (fun g => (g.id, .list g.ids)) ∧ d.analyses.length = m.analyses.length ∧
      ∀ (i : Nat) (w : WAnalysis), m.analyses[i]? = some w → ∃ a, d.analyses[i]? = some a ∧ ReadAs w a ∧
        (∀ x ∈ a.constraints, x ∈ d.constraintSets) ∧ ∀ x ∈ a.loads, x ∈ d.loadSets := by
  obtain ⟨w0, ws, hws⟩ := List.exists_cons_of_ne_nil h.some
  obtain ⟨sol, hsol⟩ : ∃ sol, solutionName m.cosmic .linearStatic = some sol := ⟨_, rfl⟩
  have hso := static_sol _ _ hsol
  have hw0 : w0.kind = .linearStatic := (h.analyses w0 (by rw [hws]; simp)).static
  have hwsol : writeSOL m = .ok ["SOL ".toList ++ sol] := by rw [writeSOL, hws]; simp only [hw0, hsol]
  obtain ⟨subs, h1, h2⟩ := subcases_written (own_extra m.cosmic) m.analyses h.some h.analyses
  have hwr : writeSection m = .ok ((["$ ".toList ++ m.name, "ID ".toList ++ m.name ++ ",NASTRAN".toList] ++ ["SOL ".toList ++ sol] ++
      ["APP   DISP".toList, "TIME  10000".toList, "CEND".toList]) ++ (m.groups.flatMap writeGroup ++ ((subs ++ afterLines m.cosmic) ++
        ["BEGIN BULK".toList]))) := by
    rw [writeSection, hwsol, h1]
    exact congrArg Outcome.ok (regroup _ _ _ _ _ _ _ _ _ _ (by rw [h.stress]; rfl))
  refine ⟨_, hwr, fun rest => ?_⟩
  have hk : ∀ s ∈ subsOf (extraSels m.cosmic) m.analyses, ∃ kind, HasKind (lastFor (given (frontItems m sol) ++ s.sels)) kind := by
    intro s hs
    obtain ⟨a, ha, e, he, rfl⟩ := subsOf_mem hs
    exact ⟨_, (sol_chosen (h.analyses a ha) m sol he hso).1⟩
  have hal : ∀ s ∈ subsOf (extraSels m.cosmic) m.analyses, ∀ e ∈ s.sels, Allowed e.1 e.2 := by
    intro s hs
    obtain ⟨a, ha, e, he, rfl⟩ := subsOf_mem hs
    intro x hx
    rcases List.mem_append.mp hx with hx | hx
    · exact sels_allowed (h.analyses a ha) x hx
    · rcases he with rfl | rfl
      · exact nomatch hx
      · exact extra_allowed _ x hx
  have hne : subsOf (extraSels m.cosmic) m.analyses ≠ [] := by
    intro h0
    have := subsOf_length (extraSels m.cosmic) m.analyses
    rw [h0] at this
    exact h.some (List.length_eq_zero_iff.mp this.symm)
  obtain ⟨d, hd, hsets, hlen, hall⟩ := C99_subcases_partial cfg hgnu hl (frontItems m sol) _ _ _ _ _ ["BEGIN BULK".toList] rest _
    (front_written h.name hso) (groups_written m.groups h.groups)
    (by
      rw [List.map_map]
      refine nodup_toNat _ ?_ h.sets
      intro g hg
      exact (h.groups g hg).1.1)
    (by
      rw [subsOf_ids]
      refine nodup_toNat _ ?_ h.numbers
      intro a ha
      exact (h.analyses a ha).id.1)
    h2 hne begin_bulk.1 begin_bulk.2 (front_allowed m hso) hal hk
  refine ⟨d, by rw [← hd]; simp only [List.append_assoc], ?_, by rw [hlen, subsOf_length], ?_⟩
  · rw [hsets, List.map_map]
    refine List.map_congr_left ?_
    intro g hg
    obtain ⟨hi, _, hn⟩ := h.groups g hg
    have h1 := hi.1
    have : (g.ids.map fun m => Entry.one m.toNat).flatMap Entry.values = g.ids := by
      generalize g.ids = l at hn
      induction l with
      | nil => rfl
      | cons n l ih =>
        rw [List.map_cons, List.flatMap_cons, ih fun x hx => hn x (by simp [hx])]
        have := (hn n (by simp)).1
        simp only [Entry.values, List.singleton_append, List.cons.injEq, and_true]
        omega
    simp only [Function.comp, this, Prod.mk.injEq, and_true]
    omega
  · intro i w hw
    obtain ⟨e, he, hs⟩ := subsOf_get (extraSels m.cosmic) m.analyses i w hw
    obtain ⟨a, ha, hm, hc, hld⟩ := hall i _ hs
    have hp := h.analyses w (List.mem_of_getElem? hw)
    rw [front_given] at hm
    refine ⟨a, ha, ⟨(sol_chosen hp m sol he hso).2 _ hm.kind, ?_, ?_, ?_, hm.contact, ?_, ?_, ?_, ?_⟩, hc, hld⟩
    · rw [hm.id]
      have := hp.id.1
      simp only
      omega
    · exact fun n => (hm.spc n).trans (chosen_constraint hp m sol he .spc (by decide) (by rintro c (rfl | rfl | rfl) <;> decide) (by decide) n)
    · exact fun n => (hm.mpc n).trans (chosen_constraint hp m sol he .mpc (by decide) (by rintro c (rfl | rfl | rfl) <;> decide) (by decide) n)
    · exact fun n => (hm.load n).trans (chosen_load hp m sol he .load (by decide) (by rintro c (rfl | rfl) <;> decide) (by decide) n)
    · exact fun n => (hm.dload n).trans (chosen_load hp m sol he .dload (by decide) (by rintro c (rfl | rfl) <;> decide) (by decide) n)
    · exact fun n => (hm.loadset n).trans (chosen_load hp m sol he .loadset (by decide) (by rintro c (rfl | rfl) <;> decide) (by decide) n)
    · exact fun n => (hm.disp n).trans (chosen_disp hp m sol he n)

end Case
end Vega
