import Verif.Modes.CardsProps
import Verif.NastranWrite.LineProps
import Verif.Element.Rods

/-!
# Rods (C140)
-/
namespace Vega

namespace RodsSpec
open Nastran Rods BarsSpec LoadCardsSpec MaterialsSpec

/-- What the cards of rods say, as they are generally known: `CROD EID PID G1 G2` (PID is EID when it is blank),
`PROD PID MID A J C NSM`, `CONROD EID G1 G2 MID A J C NSM`. The stress coefficient C is not part of what the solvers here need. The
sections are given by area, torsional constant and mass per length only. -/
inductive Says : Card → Entry → Prop where
  | crod (f : List Line) (id property a b : Int) (h1 : IsInt f 1 id) (h2 : IntOr f 2 id property) (h3 : IsInt f 3 a)
      (h4 : IsInt f 4 b) (h5 : Ends f 5) : Says ⟨.crod, f⟩ (.rod id property a b)
  | prod (f : List Line) (id : Int) (s : Sect) (h1 : IsInt f 1 id) (h2 : IsInt f 2 s.material) (h3 : IsReal f 3 s.area)
      (h4 : RealOr f 4 0 s.j) (h5 : RealOrBlank f 5) (h6 : RealOr f 6 0 s.nsm) (h7 : Ends f 7)
      (hs : s.round = true ∧ s.shear = 1) : Says ⟨.prod, f⟩ (.prop id s)
  | conrod (f : List Line) (id a b : Int) (s : Sect) (h1 : IsInt f 1 id) (h2 : IsInt f 2 a) (h3 : IsInt f 3 b)
      (h4 : IsInt f 4 s.material) (h5 : IsReal f 5 s.area) (h6 : RealOr f 6 0 s.j) (h7 : RealOrBlank f 7)
      (h8 : RealOr f 8 0 s.nsm) (h9 : Ends f 9) (hs : s.round = false ∧ s.shear = 0) : Says ⟨.conrod, f⟩ (.conrod id a b s)

/-- The section of a rod in a file, whatever the order of the cards. -/
def HasSection (es : List Entry) (cell : Int) (s : Sect) : Prop :=
  (∃ p a b, .rod cell p a b ∈ es ∧ .prop p s ∈ es) ∨ ∃ a b, .conrod cell a b s ∈ es

end RodsSpec

namespace Rods
open Nastran BarsSpec Bars MaterialsSpec LoadCards Contacts ModeCards RodsSpec
open LoadCardsSpec hiding Says Usual

/-! ## Lemmas -/

theorem realOr_iff {f : List Line} {i : Nat} {d x : Dbl} : readReal (some d) (BarsSpec.field f i) = .ok x ↔ RealOr f i d x := readReal_iff

theorem crod_iff (f : List Line) (e : Entry) (w : List Warning) :
    read ⟨.crod, f⟩ = .ok (e, w) ↔ Says ⟨.crod, f⟩ e ∧ w = [] := by
  unfold read command
  rw [start_at]
  unfold parseCROD
  simp only [nextInt_at, bind_assoc', Outcome.bind_ok]
  constructor
  · intro h
    obtain ⟨id, h1, h⟩ := bind_ok_iff.mp h
    obtain ⟨p, h2, h⟩ := bind_ok_iff.mp h
    obtain ⟨a, h3, h⟩ := bind_ok_iff.mp h
    obtain ⟨b, h4, h⟩ := bind_ok_iff.mp h
    obtain ⟨he, hx⟩ := end_iff.mp h
    obtain ⟨rfl, rfl⟩ := Prod.mk.inj hx
    exact ⟨.crod f id p a b (readInt_given.mp h1) (readInt_default.mp h2) (readInt_given.mp h3) (readInt_given.mp h4) he, rfl⟩
  · rintro ⟨h, rfl⟩
    cases h with
    | crod _ id p a b h1 h2 h3 h4 h5 =>
      rw [readInt_given.mpr h1, Outcome.bind_ok, readInt_default.mpr h2, Outcome.bind_ok, readInt_given.mpr h3,
        Outcome.bind_ok, readInt_given.mpr h4, Outcome.bind_ok]
      exact end_iff.mpr ⟨h5, rfl⟩

theorem prod_iff (f : List Line) (e : Entry) : (∃ w, read ⟨.prod, f⟩ = .ok (e, w)) ↔ Says ⟨.prod, f⟩ e := by
  unfold read command
  rw [start_at]
  unfold parsePROD
  simp only [nextInt_at, nextDouble_at, bind_assoc', Outcome.bind_ok]
  constructor
  · rintro ⟨w, h⟩
    obtain ⟨id, h1, h⟩ := bind_ok_iff.mp h
    obtain ⟨mid, h2, h⟩ := bind_ok_iff.mp h
    obtain ⟨a, h3, h⟩ := bind_ok_iff.mp h
    obtain ⟨j, h4, h⟩ := bind_ok_iff.mp h
    obtain ⟨c, h5, h⟩ := bind_ok_iff.mp h
    obtain ⟨nsm, h6, h⟩ := bind_ok_iff.mp h
    obtain ⟨he, hx⟩ := end_iff.mp h
    obtain ⟨rfl, -⟩ := Prod.mk.inj hx
    exact .prod f id _ (readInt_given.mp h1) (readInt_given.mp h2) (readReal_given.mp h3) (realOr_iff.mp h4)
      (realOrBlank_iff.mpr ⟨c, h5⟩) (realOr_iff.mp h6) he ⟨rfl, rfl⟩
  · intro h
    cases h with
    | prod _ id s h1 h2 h3 h4 h5 h6 h7 hs =>
      obtain ⟨mid, a, j, nsm, r, sh⟩ := s
      obtain ⟨hr, hsh⟩ := hs
      simp only at hr hsh h2 h3 h4 h6
      subst hr hsh
      obtain ⟨c, h5⟩ := (realOrBlank_iff (d := 0)).mp h5
      refine ⟨(if isEqual c 0 then [] else [Warning.stress]) ++ if isEqual nsm 0 then [] else [Warning.mass], ?_⟩
      rw [readInt_given.mpr h1, Outcome.bind_ok, readInt_given.mpr h2, Outcome.bind_ok, readReal_given.mpr h3,
        Outcome.bind_ok, realOr_iff.mpr h4, Outcome.bind_ok, h5, Outcome.bind_ok, realOr_iff.mpr h6, Outcome.bind_ok]
      exact end_iff.mpr ⟨h7, rfl⟩

theorem conrod_iff (f : List Line) (e : Entry) : (∃ w, read ⟨.conrod, f⟩ = .ok (e, w)) ↔ Says ⟨.conrod, f⟩ e := by
  unfold read command
  rw [start_at]
  unfold parseCONROD
  simp only [nextInt_at, nextDouble_at, bind_assoc', Outcome.bind_ok]
  constructor
  · rintro ⟨w, h⟩
    obtain ⟨id, h1, h⟩ := bind_ok_iff.mp h
    obtain ⟨g1, h2, h⟩ := bind_ok_iff.mp h
    obtain ⟨g2, h3, h⟩ := bind_ok_iff.mp h
    obtain ⟨mid, h4, h⟩ := bind_ok_iff.mp h
    obtain ⟨a, h5, h⟩ := bind_ok_iff.mp h
    obtain ⟨j, h6, h⟩ := bind_ok_iff.mp h
    obtain ⟨c, h7, h⟩ := bind_ok_iff.mp h
    obtain ⟨nsm, h8, h⟩ := bind_ok_iff.mp h
    obtain ⟨he, hx⟩ := end_iff.mp h
    obtain ⟨rfl, -⟩ := Prod.mk.inj hx
    exact .conrod f id g1 g2 _ (readInt_given.mp h1) (readInt_given.mp h2) (readInt_given.mp h3) (readInt_given.mp h4)
      (readReal_given.mp h5) (realOr_iff.mp h6) (realOrBlank_iff.mpr ⟨c, h7⟩) (realOr_iff.mp h8) he ⟨rfl, rfl⟩
  · intro h
    cases h with
    | conrod _ id g1 g2 s h1 h2 h3 h4 h5 h6 h7 h8 h9 hs =>
      obtain ⟨mid, a, j, nsm, r, sh⟩ := s
      obtain ⟨hr, hsh⟩ := hs
      simp only at hr hsh h4 h5 h6 h8
      subst hr hsh
      obtain ⟨c, h7⟩ := (realOrBlank_iff (d := 0)).mp h7
      refine ⟨if isEqual c 0 then [] else [Warning.stress], ?_⟩
      rw [readInt_given.mpr h1, Outcome.bind_ok, readInt_given.mpr h2, Outcome.bind_ok, readInt_given.mpr h3,
        Outcome.bind_ok, readInt_given.mpr h4, Outcome.bind_ok, readReal_given.mpr h5, Outcome.bind_ok, realOr_iff.mpr h6,
        Outcome.bind_ok, h7, Outcome.bind_ok, realOr_iff.mpr h8, Outcome.bind_ok]
      exact end_iff.mpr ⟨h9, rfl⟩

theorem group_insert (st : Store) (k n : Int) (v : List Int) :
    (Map.find (Map.set st.groups k v) n).getD [] = if n = k then v else st.group n := by
  by_cases h : n = k
  · subst h; simp
  · rw [if_neg h, Map.find_set_ne _ _ (fun e => h e.symm)]; rfl

/-- The cells of a group and the sets, after the cards. -/
theorem all_spec (es : List Entry) :
    (∀ p cell, cell ∈ (Store.all es).group p ↔ ∃ a b, Entry.rod cell p a b ∈ es) ∧
      (∀ p s, (p, s) ∈ (Store.all es).props ↔ Entry.prop p s ∈ es) ∧
      ∀ cell s, (cell, s) ∈ (Store.all es).own ↔ ∃ a b, Entry.conrod cell a b s ∈ es := by
  induction es using List.reverseRecOn with
  | nil => simp [Store.all, Store.init, Store.group]
  | append_singleton es e ih =>
    obtain ⟨h1, h2, h3⟩ := ih
    have hs : Store.all (es ++ [e]) = (Store.all es).add e := by simp [Store.all]
    rw [hs]
    cases e with
    | rod id q x y =>
      refine ⟨fun p cell => ?_, fun p s => ?_, fun cell s => ?_⟩
      · show cell ∈ (Map.find (Map.set (Store.all es).groups q _) p).getD [] ↔ _
        rw [group_insert]
        by_cases hp : p = q
        · subst hp
          rw [if_pos rfl, List.mem_append, h1]
          simp only [List.mem_append, List.mem_singleton, Entry.rod.injEq]
          constructor
          · rintro (⟨a, b, h⟩ | rfl)
            · exact ⟨a, b, .inl h⟩
            · exact ⟨x, y, .inr (by simp)⟩
          · rintro ⟨a, b, h | ⟨rfl, -⟩⟩
            · exact .inl ⟨a, b, h⟩
            · exact .inr rfl
        · rw [if_neg hp, h1]
          simp [hp]
      · show (p, s) ∈ (Store.all es).props ↔ _
        rw [h2]; simp
      · show (cell, s) ∈ (Store.all es).own ↔ _
        rw [h3]; simp
    | prop id t =>
      refine ⟨fun p cell => ?_, fun p s => ?_, fun cell s => ?_⟩
      · show cell ∈ (Map.find (Map.set (Store.all es).groups id _) p).getD [] ↔ _
        rw [group_insert]
        by_cases hp : p = id
        · subst hp
          rw [if_pos rfl, h1]; simp
        · rw [if_neg hp, h1]; simp
      · show (p, s) ∈ (Store.all es).props ++ [(id, t)] ↔ _
        simp [h2]
      · show (cell, s) ∈ (Store.all es).own ↔ _
        rw [h3]; simp
    | conrod id x y t =>
      refine ⟨fun p cell => ?_, fun p s => ?_, fun cell s => ?_⟩
      · show cell ∈ (Store.all es).group p ↔ _
        rw [h1]; simp
      · show (p, s) ∈ (Store.all es).props ↔ _
        rw [h2]; simp
      · show (cell, s) ∈ (Store.all es).own ++ [(id, t)] ↔ _
        simp only [List.mem_append, h3, List.mem_singleton, Prod.mk.injEq, Entry.conrod.injEq]
        constructor
        · rintro (⟨a, b, h⟩ | ⟨rfl, rfl⟩)
          · exact ⟨a, b, .inl h⟩
          · exact ⟨x, y, .inr ⟨rfl, rfl, rfl, rfl⟩⟩
        · rintro ⟨a, b, h | ⟨rfl, -, -, rfl⟩⟩
          · exact .inl ⟨a, b, h⟩
          · exact .inr ⟨rfl, rfl⟩

/-! ## Theorems -/

/-- **C140 (partial).** A card of rods is accepted when it has the form of its keyword, and is read as what it says. (Partial: the
numbers are exact, the stress coefficient is dropped.) -/
theorem C140_cards_partial (c : Card) (e : Entry) : (∃ w, read c = .ok (e, w)) ↔ Says c e := by
  obtain ⟨k, f⟩ := c
  cases k with
  | crod => exact ⟨fun ⟨w, h⟩ => ((crod_iff f e w).mp h).1, fun h => ⟨[], (crod_iff f e []).mpr ⟨h, rfl⟩⟩⟩
  | prod => exact prod_iff f e
  | conrod => exact conrod_iff f e

def sampleRod : List Line := ["CROD", "7", "", "10", "11"].map String.toList
def sampleProp : List Line := ["PROD", "7", "3", "2.5", "", "", "0.5"].map String.toList
def sampleConrod : List Line := ["CONROD", "8", "11", "12", "3", "2.5", "1.5"].map String.toList

def samplePropSect : Sect := ⟨3, 5 / 2, 0, 1 / 2, true, 1⟩
def sampleConrodSect : Sect := ⟨3, 5 / 2, 3 / 2, 0, false, 0⟩

example : read ⟨.crod, sampleRod⟩ = .ok (.rod 7 7 10 11, []) := by decide +kernel
example : read ⟨.prod, sampleProp⟩ = .ok (.prop 7 samplePropSect, [.mass]) := by decide +kernel
example : read ⟨.conrod, sampleConrod⟩ = .ok (.conrod 8 11 12 sampleConrodSect, []) := by decide +kernel
example : Says ⟨.prod, sampleProp⟩ (.prop 7 samplePropSect) := (C140_cards_partial _ _).mp ⟨[.mass], by decide +kernel⟩

/-- **C140 (partial).** After a file of rods, the sections of a cell are those that its cards say, whatever their order. -/
theorem C140_sections_partial (es : List Entry) (cell : Int) (s : Sect) :
    s ∈ (Store.all es).sections cell ↔ HasSection es cell s := by
  obtain ⟨h1, h2, h3⟩ := all_spec es
  unfold Store.sections HasSection
  simp only [List.mem_map, List.mem_append, List.mem_filter, Prod.exists, exists_eq_right, List.contains_iff_mem, h1, h2, h3,
    decide_eq_true_eq]
  constructor
  · rintro ⟨p, ⟨hp, a, b, hr⟩ | ⟨⟨a, b, h⟩, rfl⟩⟩
    · exact .inl ⟨p, a, b, hr, hp⟩
    · exact .inr ⟨a, b, h⟩
  · rintro (⟨p, a, b, hr, hp⟩ | ⟨a, b, h⟩)
    · exact ⟨p, .inl ⟨hp, a, b, hr⟩⟩
    · exact ⟨cell, .inr ⟨⟨a, b, h⟩, rfl⟩⟩

example : (Store.all [.rod 7 7 10 11, .conrod 8 11 12 sampleConrodSect, .prop 7 samplePropSect]).sections 7 =
    [samplePropSect] := by decide +kernel
example : (Store.all [.rod 7 7 10 11, .conrod 8 11 12 sampleConrodSect, .prop 7 samplePropSect]).sections 8 =
    [sampleConrodSect] := by decide +kernel

/-- **C140 (partial).** Without large displacements a rod is written for Code_Aster as a bar with its area, and the density added to
that of its material gives the mass per length of the card. (Partial: areas of at least epsilon.) -/
theorem C140_aster_partial (s : Sect) (h : epsilon ≤ (s.area : ℝ)) :
    writeAster false s = .barre s.area ∧ s.addRho * s.area = s.nsm := by
  constructor
  · simp [writeAster, max_eq_right h]
  · have h0 : (1 : ℚ) / 2 ^ 52 ≤ s.area := by
      have : ((1 / 2 ^ 52 : ℚ) : ℝ) ≤ (s.area : ℝ) := by push_cast; exact h
      exact_mod_cast this
    have h1 : (1 : ℚ) / 2 ^ 1022 ≤ s.area := le_trans (one_div_le_one_div_of_le (by positivity) (pow_le_pow_right₀ (by norm_num) (by norm_num))) h0
    have h2 : s.area ≠ 0 := by
      have : (0 : ℚ) < 1 / 2 ^ 52 := by norm_num
      exact (lt_of_lt_of_le this h0).ne'
    rw [Sect.addRho, max_eq_left h1, div_mul_cancel₀ _ h2]

example : epsilon ≤ ((samplePropSect.area : ℚ) : ℝ) := by
  have : (0 : ℝ) < 2 ^ 52 := by positivity
  simp only [epsilon, samplePropSect]
  rw [div_le_iff₀ this]
  norm_num

/-- **C140 is false of torsion.** The torsional constant of a rod has no effect on what is written for a linear analysis: rods with
and without torsional stiffness are the same bar. -/
theorem C140_torsion_false (s : Sect) (j : Dbl) : writeAster false { s with j := j } = writeAster false s := rfl

example : ({ samplePropSect with j := 4 } : Sect) ≠ samplePropSect := by decide +kernel

/-- **C140 is false with large displacements.** A rod of a `PROD` card is then written as a beam that resists bending and shear, with the
moments of inertia of a circle, that no card has given. -/
theorem C140_large_false (f : List Line) (id : Int) (s : Sect) (hr : Says ⟨.prod, f⟩ (.prop id s))
    (h : epsilon < (s.area : ℝ) ^ 2 / 4 / Real.pi) : ∃ a iy iz jx, writeAster true s = .pouDTGD a iy iz jx 1 1 ∧
      iy = (s.area : ℝ) ^ 2 / 4 / Real.pi ∧ iz = iy ∧ 0 < iy := by
  cases hr with
  | prod _ _ _ h1 h2 h3 h4 h5 h6 h7 hs =>
    have hb : s.bending = (s.area : ℝ) ^ 2 / 4 / Real.pi := by simp [Sect.bending, hs.1]
    have h1 : isZero (1 : Dbl) = false := by decide +kernel
    refine ⟨max epsilon s.area, max epsilon s.bending, max epsilon s.bending, max epsilon s.j,
      by rw [writeAster, if_pos rfl, hs.2, h1]; simp, ?_, rfl, ?_⟩
    · rw [hb, max_eq_right h.le]
    · exact lt_max_of_lt_left (by unfold epsilon; positivity)

theorem sample_large : epsilon < ((samplePropSect.area : ℚ) : ℝ) ^ 2 / 4 / Real.pi := by
  have hp := Real.pi_lt_four
  have h0 := Real.pi_pos
  have : (0 : ℝ) < 2 ^ 52 := by positivity
  simp only [epsilon, samplePropSect]
  rw [lt_div_iff₀ h0, div_mul_eq_mul_div, div_lt_iff₀ this]
  push_cast
  nlinarith

example : ∃ a iy iz jx, writeAster true samplePropSect = .pouDTGD a iy iz jx 1 1 ∧
    iy = ((samplePropSect.area : ℚ) : ℝ) ^ 2 / 4 / Real.pi ∧ iz = iy ∧ 0 < iy :=
  C140_large_false sampleProp 7 _ ((C140_cards_partial _ _).mp ⟨[.mass], by decide +kernel⟩) sample_large

/-- **C140 is false with large displacements.** Rods of `CROD` with `PROD` and of `CONROD` with the same values are then different
elements. -/
theorem C140_same_false (s : Sect) (h : epsilon < (s.area : ℝ) ^ 2 / 4 / Real.pi) :
    writeAster true { s with round := true, shear := 1 } ≠ writeAster true { s with round := false, shear := 0 } := by
  intro e
  simp only [writeAster, if_true, AsterRod.pouDTGD.injEq, Sect.bending, Bool.false_eq_true, if_false] at e
  have he : (0 : ℝ) < epsilon := by unfold epsilon; positivity
  rw [max_eq_right h.le, max_eq_left he.le] at e
  exact h.ne' e.2.1

/-- **C140 is false of a warning.** A `PROD` card with a mass per length is accepted with the message that the mass is dismissed; but it
is not: the density that goes with it is not zero. -/
theorem C140_warning_false (f : List Line) (e : Entry) (w : List Warning) (h : read ⟨.prod, f⟩ = .ok (e, w))
    (hw : .mass ∈ w) : ∃ id s, e = .prop id s ∧ s.addRho ≠ 0 := by
  unfold read command at h
  rw [start_at] at h
  unfold parsePROD at h
  simp only [nextInt_at, nextDouble_at, bind_assoc', Outcome.bind_ok] at h
  obtain ⟨id, h1, h⟩ := bind_ok_iff.mp h
  obtain ⟨mid, h2, h⟩ := bind_ok_iff.mp h
  obtain ⟨a, h3, h⟩ := bind_ok_iff.mp h
  obtain ⟨j, h4, h⟩ := bind_ok_iff.mp h
  obtain ⟨c, h5, h⟩ := bind_ok_iff.mp h
  obtain ⟨nsm, h6, h⟩ := bind_ok_iff.mp h
  obtain ⟨he, hx⟩ := end_iff.mp h
  obtain ⟨rfl, rfl⟩ := Prod.mk.inj hx
  refine ⟨id, _, rfl, ?_⟩
  have hn : nsm ≠ 0 := by
    rintro rfl
    have : isEqual (0 : Dbl) 0 = true := isEqual_self _
    rw [this] at hw
    by_cases hc : isEqual c 0 = true <;> simp [hc] at hw
  refine div_ne_zero hn ?_
  exact (lt_max_of_lt_right (by positivity)).ne'

example : ∃ e w, read ⟨.prod, sampleProp⟩ = .ok (e, w) ∧ .mass ∈ w :=
  ⟨.prop 7 samplePropSect, [.mass], by decide +kernel, by decide⟩

section Nastran
open NastranWrite

theorem writeProps_eq (rods : List (Text × Sect)) (l : Text) (ls : List Text) :
    writeProps rods (l :: ls) = ((rods.map Prod.fst).flatten ++ l) :: ls := by
  induction rods with
  | nil => rfl
  | cons r rods ih =>
    obtain ⟨a, s⟩ := r
    rw [writeProps, ih]
    simp [glue]

/-- **C140 is false of Nastran files: sections.** What is written for the sections of the rods does not depend on their areas, torsional
constants or materials: there is no `PROD` card. It depends on the addresses of the sections in the memory of the program, which come before the
line that is written next. -/
theorem C140_nastran_section_false (rods rods' : List (Text × Sect)) (l : Text) (ls : List Text)
    (h : rods.map Prod.fst = rods'.map Prod.fst) :
    writeProps rods (l :: ls) = writeProps rods' (l :: ls) ∧
      writeProps rods (l :: ls) = ((rods.map Prod.fst).flatten ++ l) :: ls := by
  rw [writeProps_eq, writeProps_eq, h]
  exact ⟨rfl, rfl⟩

/-- **C140 is false of Nastran files: the card that follows.** With at least one rod whose address has eight characters or more, the first
field of the next line, that is the name of the next card, is a part of this address. -/
theorem C140_nastran_next_false (address : Text) (s : Sect) (rods : List (Text × Sect)) (l : Text) (ls : List Text)
    (h : 8 ≤ address.length) : ∃ l', writeProps ((address, s) :: rods) (l :: ls) = l' :: ls ∧ l'.take 8 = address.take 8 := by
  refine ⟨_, writeProps_eq _ _ _, ?_⟩
  rw [List.map_cons, List.flatten_cons, List.append_assoc, List.take_append_of_le_length h]

/-- A section of a beam after that of a rod, with an address as the usual libraries write it. -/
def sampleAddress : Text := "0x55d0c0ffee20".toList
def sampleBeam : List Text := ["PBEAM          5       3    2.+0".toList]

example : writeCard 0 "PBEAM".toList [.int 5, .int 3, .real 2] = some (sampleBeam, 0) := by decide +kernel
example : cards 9 sampleBeam = .ok [["PBEAM", "5", "3", "2.+0"].map String.toList] := by decide +kernel
example : cards 9 (writeProps [(sampleAddress, samplePropSect)] sampleBeam) =
    .ok [["0x55d0c0", "ffee20PB", "EAM", "5", "3", "2.+0"].map String.toList] := by decide +kernel

/-- **C140 is false of Nastran files: rods.** The line of a rod has no card name: the first field is blank, which makes the line a
continuation of the card before. -/
theorem C140_nastran_rod_false (counter : Nat) (id property a b : Int) (rest : List Nastran.Line) :
    ∃ l, writeCard counter (cellCard id property a b).1 (cellCard id property a b).2 = some ([l], counter) ∧
      l.take 8 = List.replicate 8 ' ' ∧ ¬ FixedSpec.NewCard (l :: rest) := by
  refine ⟨List.replicate 8 ' ' ++ fillInt 8 id ++ fillInt 8 property ++ fillInt 8 a ++ fillInt 8 b, rfl, ?_, ?_⟩
  · simp [List.append_assoc]
  · simp [FixedSpec.NewCard, List.replicate]

/-- A tetrahedron alone, and followed by a rod. -/
example : (writeAll 0 [("CTETRA".toList, [.int 1, .int 1, .int 1, .int 2, .int 3, .int 4])]).map (cards 9) =
    some (.ok [["CTETRA", "1", "1", "1", "2", "3", "4"].map String.toList]) := by decide +kernel
example : (writeAll 0 [("CTETRA".toList, [.int 1, .int 1, .int 1, .int 2, .int 3, .int 4]), cellCard 7 8 10 11]).map (cards 9) =
    some (.ok [["CTETRA", "1", "1", "1", "2", "3", "4", "", "", "7", "8", "10", "11"].map String.toList]) := by decide +kernel

end Nastran

end Rods
end Vega
