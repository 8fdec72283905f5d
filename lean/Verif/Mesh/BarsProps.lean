import Verif.Mesh.Bars
import Verif.Nastran.FieldProps

/-!
# Bars, beams and bushes have the nodes and the orientation of their cards (C125)
-/
namespace Vega

namespace BarsSpec
open Nastran Bars

/-- The text of the field of this number, field 0 being the keyword; missing fields are blank. -/
def field (card : List Line) (i : Nat) : Line := trim (card.getD i [])

/-- The field is left blank. -/
def Blank (card : List Line) (i : Nat) : Prop := field card i = []

/-- The field has this integer. -/
def IsInt (card : List Line) (i : Nat) (n : Int) : Prop := parseInt (field card i) = some n

/-- The field has this real. -/
def IsReal (card : List Line) (i : Nat) (x : Dbl) : Prop :=
  field card i ≠ [] ∧ lexicalDouble (normReal (field card i)) = some x

/-- There is an integer, or nothing. -/
def IntOrBlank (card : List Line) (i : Nat) : Prop := Blank card i ∨ ∃ n, IsInt card i n

/-- There is a real, or nothing. -/
def RealOrBlank (card : List Line) (i : Nat) : Prop := Blank card i ∨ ∃ x, IsReal card i x

/-- The number of fields of a card. -/
def size (beam : Bool) : Nat := if beam then 19 else 17

/-- The fields that follow the orientation are well formed and there is nothing after them. -/
structure Tail (beam : Bool) (card : List Line) : Prop where
  pins : IntOrBlank card 9 ∧ IntOrBlank card 10
  offsets : ∀ i, 11 ≤ i → i ≤ 16 → RealOrBlank card i
  warping : beam = true → IntOrBlank card 17 ∧ IntOrBlank card 18
  rest : ∀ i, size beam ≤ i → Blank card i

/-- The numbers of the element, its property and its two nodes. -/
structure Ends (card : List Line) (id property a b : Int) : Prop where
  id : IsInt card 1 id
  property : IsInt card 2 property
  a : IsInt card 3 a
  b : IsInt card 4 b

/-- The orientation that the card gives: a node in field 5 alone, or a vector in fields 5 to 7; no vector is no direction,
the second axis is taken then. -/
inductive Oriented (card : List Line) : Orientation → Prop where
  | node (g0 : Int) (h : IsInt card 5 g0) (h6 : card.getD 6 [] = [] ∨ card.getD 7 [] = []) : Oriented card (.node g0)
  | vector (x1 x2 x3 : Dbl) (h5 : IsReal card 5 x1) (h6 : IsReal card 6 x2) (h7 : IsReal card 7 x3)
      (h : ¬ (|x1| ≤ tol ∧ |x2| ≤ tol ∧ |x3| ≤ tol)) : Oriented card (.vector x1 x2 x3)
  | null (x1 x2 x3 : Dbl) (h5 : IsReal card 5 x1) (h6 : IsReal card 6 x2) (h7 : IsReal card 7 x3)
      (h : |x1| ≤ tol ∧ |x2| ≤ tol ∧ |x3| ≤ tol) : Oriented card (.vector x1 1 x3)

end BarsSpec

namespace Bars
open Nastran BarsSpec

/-! ## Lemmas -/

theorem bind_ok_iff {α β : Type} {x : Outcome α} {f : α → Outcome β} {b : β} :
    (x >>= f) = .ok b ↔ ∃ a, x = .ok a ∧ f a = .ok b := by
  cases x with
  | ok a => exact ⟨fun h => ⟨a, rfl, h⟩, fun ⟨_, h1, h2⟩ => by cases h1; exact h2⟩
  | throw => exact ⟨fun h => (by cases h), fun ⟨_, h1, _⟩ => (by cases h1)⟩
  | ub => exact ⟨fun h => (by cases h), fun ⟨_, h1, _⟩ => (by cases h1)⟩
  | diverges => exact ⟨fun h => (by cases h), fun ⟨_, h1, _⟩ => (by cases h1)⟩

theorem bind_assoc' {α β γ : Type} (x : Outcome α) (f : α → Outcome β) (g : β → Outcome γ) :
    ((x >>= f) >>= g) = (x >>= fun a => f a >>= g) := by cases x <;> rfl

/-- The cursor at a field after the keyword. -/
def at' (fields : List Line) (p : Nat) : Cursor :=
  ⟨fields, min p fields.length, if p < fields.length then .field else .keyword⟩

theorem next_at (fields : List Line) (p : Nat) :
    nextSymbolString (at' fields p) = (trimRight (fields.getD p []), at' fields (p + 1)) := by
  unfold nextSymbolString at'
  by_cases h : p < fields.length
  · have h1 : min p fields.length = p := by omega
    simp only [h1, h, if_true, List.getElem?_eq_getElem, List.getD_eq_getElem?_getD, Option.getD_some]
    have h2 : min (p + 1) fields.length = p + 1 := by omega
    simp only [h2, reduceCtorEq, if_false, ge_iff_le]
    by_cases h3 : fields.length ≤ p + 1
    · rw [if_pos h3, if_neg (by omega)]
    · rw [if_neg h3, if_pos (by omega)]
  · have h1 : min p fields.length = fields.length := by omega
    have h2 : min (p + 1) fields.length = fields.length := by omega
    have h3 : ¬ p + 1 < fields.length := by omega
    simp only [h1, h2, h, h3, if_false, List.getElem?_eq_none (Nat.le_refl _), List.getD_eq_getElem?_getD,
      List.getElem?_eq_none (Nat.le_of_not_lt h), Option.getD_none]
    rfl

/-- What is read from an integer field. -/
def readInt (dflt : Option Int) (f : Line) : Outcome Int :=
  if f.isEmpty then match dflt with | some d => .ok d | none => .throw
  else match parseInt f with | some n => .ok n | none => .throw

/-- What is read from a real field. -/
def readReal (dflt : Option Dbl) (f : Line) : Outcome Dbl :=
  if f.isEmpty then match dflt with | some d => .ok d | none => .throw
  else match lexicalDouble (normReal f) with | some n => .ok n | none => .throw

theorem nextInt_at (d : Option Int) (fields : List Line) (p : Nat) :
    nextInt d (at' fields p) = (readInt d (field fields p) >>= fun n => .ok (n, at' fields (p + 1))) := by
  unfold nextInt readInt field
  rw [next_at]
  simp only [trim_trimRight]
  split
  · cases d <;> rfl
  · split <;> rename_i h <;> rw [h] <;> rfl

theorem nextDouble_at (d : Option Dbl) (fields : List Line) (p : Nat) :
    nextDouble d (at' fields p) = (readReal d (field fields p) >>= fun n => .ok (n, at' fields (p + 1))) := by
  unfold nextDouble readReal field
  rw [next_at]
  simp only [trim_trimRight]
  split
  · cases d <;> rfl
  · split <;> rename_i h <;> rw [h] <;> rfl

theorem toUpper_nil {l : Line} : (toUpper l).isEmpty = l.isEmpty := by cases l <;> rfl

theorem nextString_at (fields : List Line) (p : Nat) :
    nextString (some []) (at' fields p) = .ok (toUpper (field fields p), at' fields (p + 1)) := by
  unfold nextString field
  rw [next_at]
  simp only [trim_trimRight]
  split
  · rename_i h
    rw [toUpper_nil] at h
    have : trim (fields.getD p []) = [] := by simpa using h
    rw [this]
    rfl
  · rfl

theorem skip_at (fields : List Line) (p n : Nat) : skip n (at' fields p) = .ok (at' fields (p + n)) := by
  unfold skip at'
  rw [if_neg (by dsimp only; split <;> simp)]
  have h : min fields.length (min p fields.length + n) = min (p + n) fields.length := by omega
  simp only [h]
  by_cases h1 : p + n < fields.length
  · rw [if_neg (by omega), if_pos h1]
  · rw [if_pos (by omega), if_neg h1]

theorem isEmpty_at (fields : List Line) (p : Nat) :
    isEmptyUntilNextKeyword (at' fields p) = true ↔ ∀ i, p ≤ i → Blank fields i := by
  have hb : ∀ i, fields.length ≤ i → Blank fields i := by
    intro i hi
    unfold Blank field
    rw [List.getD_eq_getElem?_getD, List.getElem?_eq_none hi]
    rfl
  unfold isEmptyUntilNextKeyword at'
  by_cases h : p < fields.length
  · have h1 : min p fields.length = p := by omega
    simp only [h, if_true, reduceCtorEq, if_false, h1, List.all_eq_true, List.isEmpty_iff]
    constructor
    · intro hall i hi
      by_cases hl : i < fields.length
      · unfold Blank field
        rw [List.getD_eq_getElem?_getD, List.getElem?_eq_getElem hl]
        refine hall _ ?_
        rw [List.mem_iff_getElem]
        refine ⟨i - p, by rw [List.length_drop]; omega, ?_⟩
        simp [Nat.add_sub_cancel' hi]
      · exact hb i (by omega)
    · intro hall f hf
      obtain ⟨i, hi, rfl⟩ := List.mem_iff_getElem.mp hf
      rw [List.length_drop] at hi
      have := hall (p + i) (by omega)
      unfold Blank field at this
      rw [List.getD_eq_getElem?_getD, List.getElem?_eq_getElem (by omega)] at this
      simpa using this
  · simp only [h, if_false, if_true, true_iff]
    intro i hi
    exact hb i (by omega)

theorem start_at {α : Type} (command : Cursor → Outcome (α × Cursor)) (fields : List Line) :
    runCard command fields = (command (at' fields 1) >>= fun r =>
      if isEmptyUntilNextKeyword r.2 then .ok r.1 else .throw) := by
  unfold runCard
  have h : ∃ w, nextString (some []) (Cursor.start fields) = .ok (w, at' fields 1) := by
    have hc : (nextSymbolString (Cursor.start fields)).2 = at' fields 1 := by
      unfold nextSymbolString Cursor.start at'
      cases fields with
      | nil => rfl
      | cons f fs =>
        cases fs with
        | nil => rfl
        | cons g gs => simp
    unfold nextString
    simp only [hc]
    split
    · exact ⟨_, rfl⟩
    · exact ⟨_, rfl⟩
  obtain ⟨w, h⟩ := h
  rw [h]
  rfl

theorem readInt_none {f : Line} {n : Int} : readInt none f = .ok n ↔ parseInt f = some n := by
  unfold readInt
  constructor
  · intro h
    split at h
    · cases h
    · split at h
      · rename_i h'; cases h; exact h'
      · cases h
  · intro h
    have : f.isEmpty = false := by cases f with | nil => cases h | cons => rfl
    rw [this, h]
    rfl

theorem readReal_none {f : Line} {x : Dbl} :
    readReal none f = .ok x ↔ f ≠ [] ∧ lexicalDouble (normReal f) = some x := by
  unfold readReal
  constructor
  · intro h
    split at h
    · cases h
    · rename_i hne
      split at h
      · rename_i h'; cases h; exact ⟨by simpa using hne, h'⟩
      · cases h
  · rintro ⟨h1, h2⟩
    have : f.isEmpty = false := by simpa using h1
    rw [this, h2]
    rfl

theorem readInt_some {d : Int} {card : List Line} {i : Nat} (h : IntOrBlank card i) :
    ∃ n, readInt (some d) (field card i) = .ok n := by
  rcases h with h | ⟨n, h⟩
  · exact ⟨d, by unfold readInt; rw [h]; rfl⟩
  · refine ⟨n, ?_⟩
    unfold IsInt at h
    unfold readInt
    have : (field card i).isEmpty = false := by
      cases hf : field card i with
      | nil => rw [hf] at h; cases h
      | cons => rfl
    rw [this, h]
    rfl

theorem readReal_some {d : Dbl} {card : List Line} {i : Nat} (h : RealOrBlank card i) :
    ∃ n, readReal (some d) (field card i) = .ok n := by
  rcases h with h | ⟨n, h1, h2⟩
  · exact ⟨d, by unfold readReal; rw [h]; rfl⟩
  · refine ⟨n, ?_⟩
    unfold readReal
    have : (field card i).isEmpty = false := by simpa using h1
    rw [this, h2]
    rfl

theorem readInt_some_blank {d n : Int} {f : Line} (h : readInt (some d) f = .ok n) (hn : n = d) :
    f = [] ∨ parseInt f = some d := by
  unfold readInt at h
  split at h
  · rename_i he; exact .inl (by simpa using he)
  · split at h
    · rename_i h'; cases h; exact .inr (hn ▸ h')
    · cases h

theorem readReal_some_cases {d x : Dbl} {f : Line} (h : readReal (some d) f = .ok x) :
    (f = [] ∧ x = d) ∨ (f ≠ [] ∧ lexicalDouble (normReal f) = some x) := by
  unfold readReal at h
  split at h
  · rename_i he; cases h; exact .inl ⟨by simpa using he, rfl⟩
  · rename_i he
    split at h
    · rename_i h'; cases h; exact .inr ⟨by simpa using he, h'⟩
    · cases h

theorem alternate_iff (fields : List Line) :
    alternateFormat fields = true ↔ fields.getD 6 [] = [] ∨ fields.getD 7 [] = [] := by
  unfold alternateFormat
  rw [List.getD_eq_getElem?_getD, List.getD_eq_getElem?_getD]
  cases h6 : fields[6]? with
  | none =>
    simp
  | some f6 =>
    cases h7 : fields[7]? with
    | none => simp
    | some f7 => simp

theorem isZero_iff (x : Dbl) : isZero x = true ↔ |x| ≤ tol := by simp [isZero]

theorem zeros_iff (x1 x2 x3 : Dbl) :
    (isZero x1 && isZero x2 && isZero x3) = true ↔ |x1| ≤ tol ∧ |x2| ≤ tol ∧ |x3| ≤ tol := by
  simp only [Bool.and_eq_true, isZero_iff, and_assoc]

/-- The orientation is read from the fields 5 to 7. -/
theorem orientation_sound {fields : List Line} {o : Orientation} {c : Cursor}
    (h : parseOrientation (at' fields 5) = .ok (o, c)) : Oriented fields o ∧ c = at' fields 8 := by
  unfold parseOrientation at h
  split at h
  · rename_i ha
    rw [nextInt_at] at h
    simp only [bind_assoc', Outcome.bind_ok, nextDouble_at] at h
    obtain ⟨g0, h0, h⟩ := bind_ok_iff.mp h
    obtain ⟨_, _, h⟩ := bind_ok_iff.mp h
    obtain ⟨_, _, h⟩ := bind_ok_iff.mp h
    cases h
    exact ⟨.node g0 (readInt_none.mp h0) ((alternate_iff _).mp ha), rfl⟩
  · simp only [bind_assoc', Outcome.bind_ok, nextDouble_at] at h
    obtain ⟨x1, h1, h⟩ := bind_ok_iff.mp h
    obtain ⟨x2, h2, h⟩ := bind_ok_iff.mp h
    obtain ⟨x3, h3, h⟩ := bind_ok_iff.mp h
    cases h
    by_cases hz : (isZero x1 && isZero x2 && isZero x3) = true
    · rw [if_pos hz]
      exact ⟨.null x1 x2 x3 (readReal_none.mp h1) (readReal_none.mp h2) (readReal_none.mp h3) ((zeros_iff ..).mp hz), rfl⟩
    · rw [if_neg hz]
      exact ⟨.vector x1 x2 x3 (readReal_none.mp h1) (readReal_none.mp h2) (readReal_none.mp h3)
        (fun hh => hz ((zeros_iff ..).mpr hh)), rfl⟩

theorem isReal_ne {card : List Line} {i : Nat} {x : Dbl} (h : IsReal card i x) : card.getD i [] ≠ [] := by
  intro he
  apply h.1
  unfold field
  rw [he]
  rfl

theorem orientation_complete {fields : List Line} {o : Orientation} (h : Oriented fields o)
    (h67 : ∀ g, o = .node g → RealOrBlank fields 6 ∧ RealOrBlank fields 7) :
    parseOrientation (at' fields 5) = .ok (o, at' fields 8) := by
  have hv : ∀ {x1 x2 x3 : Dbl}, IsReal fields 5 x1 → IsReal fields 6 x2 → IsReal fields 7 x3 →
      parseOrientation (at' fields 5) =
        .ok (.vector x1 (if isZero x1 && isZero x2 && isZero x3 then 1 else x2) x3, at' fields 8) := by
    intro x1 x2 x3 h5 h6 h7
    unfold parseOrientation
    rw [if_neg (show ¬ alternateFormat (at' fields 5).fields = true from
      fun ha => ((alternate_iff _).mp ha).elim (isReal_ne h6) (isReal_ne h7))]
    simp only [bind_assoc', Outcome.bind_ok, nextDouble_at]
    rw [readReal_none.mpr h5]
    simp only [Outcome.bind_ok]
    rw [readReal_none.mpr h6]
    simp only [Outcome.bind_ok]
    rw [readReal_none.mpr h7]
    rfl
  cases h with
  | node g0 h h6 =>
    obtain ⟨r6, r7⟩ := h67 g0 rfl
    obtain ⟨a, ha⟩ := readReal_some (d := unavailable) r6
    obtain ⟨b, hb⟩ := readReal_some (d := unavailable) r7
    unfold parseOrientation
    rw [if_pos (show alternateFormat (at' fields 5).fields = true from (alternate_iff _).mpr h6), nextInt_at]
    simp only [bind_assoc', Outcome.bind_ok, nextDouble_at]
    rw [readInt_none.mpr h]
    simp only [Outcome.bind_ok]
    rw [ha]
    simp only [Outcome.bind_ok]
    rw [hb]
    rfl
  | vector x1 x2 x3 h5 h6 h7 h =>
    rw [hv h5 h6 h7, if_neg (fun hz => h ((zeros_iff ..).mp hz))]
  | null x1 x2 x3 h5 h6 h7 h =>
    rw [hv h5 h6 h7, if_pos ((zeros_iff ..).mpr h)]

/-- The values of the fields after the orientation. -/
structure Rest where
  pa : Int
  pb : Int
  w1 : Dbl
  w2 : Dbl
  w3 : Dbl
  w4 : Dbl
  w5 : Dbl
  w6 : Dbl
  sa : Int
  sb : Int

structure Reads (beam : Bool) (card : List Line) (r : Rest) : Prop where
  pa : readInt (some noInt) (field card 9) = .ok r.pa
  pb : readInt (some noInt) (field card 10) = .ok r.pb
  w1 : readReal (some 0) (field card 11) = .ok r.w1
  w2 : readReal (some 0) (field card 12) = .ok r.w2
  w3 : readReal (some 0) (field card 13) = .ok r.w3
  w4 : readReal (some 0) (field card 14) = .ok r.w4
  w5 : readReal (some 0) (field card 15) = .ok r.w5
  w6 : readReal (some 0) (field card 16) = .ok r.w6
  sa : beam = true → readInt (some noInt) (field card 17) = .ok r.sa
  sb : beam = true → readInt (some noInt) (field card 18) = .ok r.sb

def warningsOf (beam : Bool) (offt : Line) (r : Rest) : List Warning :=
  ((if !(toUpper offt).isEmpty && toUpper offt ≠ ['G', 'G', 'G'] then [.offt] else []) ++
    (if r.pa ≠ noInt || r.pb ≠ noInt then [.pins] else []) ++
    (if !(isZero r.w1 && isZero r.w2 && isZero r.w3 && isZero r.w4 && isZero r.w5 && isZero r.w6)
      then [.offsets] else [])) ++
    (if beam && (r.sa ≠ noInt || r.sb ≠ noInt) then [.warping] else [])

/-- A card is read exactly if its fields are, and then so. -/
theorem bar_iff (beam : Bool) (card : List Line) (s : Segment) (w : List Warning) :
    readBar beam card = .ok (s, w) ↔
      Ends card s.id s.property s.a s.b ∧ parseOrientation (at' card 5) = .ok (s.orientation, at' card 8) ∧
      ∃ r, Reads beam card r ∧ w = warningsOf beam (field card 8) r ∧ ∀ i, size beam ≤ i → Blank card i := by
  unfold readBar
  rw [start_at]
  unfold parseBar
  simp only [nextInt_at, bind_assoc', Outcome.bind_ok]
  constructor
  · intro h
    obtain ⟨id, h1, h⟩ := bind_ok_iff.mp h
    obtain ⟨property, h2, h⟩ := bind_ok_iff.mp h
    obtain ⟨a, h3, h⟩ := bind_ok_iff.mp h
    obtain ⟨b, h4, h⟩ := bind_ok_iff.mp h
    obtain ⟨⟨o, c⟩, h5, h⟩ := bind_ok_iff.mp h
    obtain ⟨_, rfl⟩ := orientation_sound h5
    simp only [nextInt_at, nextDouble_at, nextString_at, bind_assoc', Outcome.bind_ok] at h
    obtain ⟨pa, h9, h⟩ := bind_ok_iff.mp h
    obtain ⟨pb, h10, h⟩ := bind_ok_iff.mp h
    obtain ⟨w1, h11, h⟩ := bind_ok_iff.mp h
    obtain ⟨w2, h12, h⟩ := bind_ok_iff.mp h
    obtain ⟨w3, h13, h⟩ := bind_ok_iff.mp h
    obtain ⟨w4, h14, h⟩ := bind_ok_iff.mp h
    obtain ⟨w5, h15, h⟩ := bind_ok_iff.mp h
    obtain ⟨w6, h16, h⟩ := bind_ok_iff.mp h
    cases beam with
    | true =>
      simp only [if_true, bind_assoc', Outcome.bind_ok] at h
      obtain ⟨sa, h17, h⟩ := bind_ok_iff.mp h
      obtain ⟨sb, h18, h⟩ := bind_ok_iff.mp h
      split at h
      · rename_i he
        cases h
        exact ⟨⟨readInt_none.mp h1, readInt_none.mp h2, readInt_none.mp h3, readInt_none.mp h4⟩, h5,
          ⟨pa, pb, w1, w2, w3, w4, w5, w6, sa, sb⟩,
          ⟨h9, h10, h11, h12, h13, h14, h15, h16, fun _ => h17, fun _ => h18⟩, rfl, (isEmpty_at _ _).mp he⟩
      · cases h
    | false =>
      simp only [Bool.false_eq_true, if_false, Outcome.bind_ok] at h
      split at h
      · rename_i he
        cases h
        refine ⟨⟨readInt_none.mp h1, readInt_none.mp h2, readInt_none.mp h3, readInt_none.mp h4⟩, h5,
          ⟨pa, pb, w1, w2, w3, w4, w5, w6, noInt, noInt⟩,
          ⟨h9, h10, h11, h12, h13, h14, h15, h16, fun hb => (by cases hb), fun hb => (by cases hb)⟩, ?_,
          (isEmpty_at _ _).mp he⟩
        simp [warningsOf, isEqual_zero_right]
      · cases h
  · rintro ⟨⟨h1, h2, h3, h4⟩, h5, r, hr, rfl, hb⟩
    rw [readInt_none.mpr h1]
    simp only [Outcome.bind_ok]
    rw [readInt_none.mpr h2]
    simp only [Outcome.bind_ok]
    rw [readInt_none.mpr h3]
    simp only [Outcome.bind_ok]
    rw [readInt_none.mpr h4]
    simp only [Outcome.bind_ok]
    rw [h5]
    simp only [nextInt_at, nextDouble_at, nextString_at, bind_assoc', Outcome.bind_ok, hr.pa, hr.pb, hr.w1, hr.w2, hr.w3,
      hr.w4, hr.w5, hr.w6]
    cases beam with
    | true =>
      simp only [if_true, bind_assoc', Outcome.bind_ok, hr.sa rfl, hr.sb rfl]
      have he : isEmptyUntilNextKeyword (at' card (8 + 1 + 1 + 1 + 1 + 1 + 1 + 1 + 1 + 1 + 1 + 1)) = true :=
        (isEmpty_at _ _).mpr hb
      rw [if_pos he]
      rfl
    | false =>
      simp only [Bool.false_eq_true, if_false, Outcome.bind_ok]
      have he : isEmptyUntilNextKeyword (at' card (8 + 1 + 1 + 1 + 1 + 1 + 1 + 1 + 1 + 1)) = true :=
        (isEmpty_at _ _).mpr hb
      rw [if_pos he]
      simp [warningsOf, isEqual_zero_right]

theorem reads_of_tail {beam : Bool} {card : List Line} (h : Tail beam card) : ∃ r, Reads beam card r := by
  obtain ⟨pa, h9⟩ := readInt_some (d := noInt) h.pins.1
  obtain ⟨pb, h10⟩ := readInt_some (d := noInt) h.pins.2
  obtain ⟨w1, h11⟩ := readReal_some (d := 0) (h.offsets 11 (by omega) (by omega))
  obtain ⟨w2, h12⟩ := readReal_some (d := 0) (h.offsets 12 (by omega) (by omega))
  obtain ⟨w3, h13⟩ := readReal_some (d := 0) (h.offsets 13 (by omega) (by omega))
  obtain ⟨w4, h14⟩ := readReal_some (d := 0) (h.offsets 14 (by omega) (by omega))
  obtain ⟨w5, h15⟩ := readReal_some (d := 0) (h.offsets 15 (by omega) (by omega))
  obtain ⟨w6, h16⟩ := readReal_some (d := 0) (h.offsets 16 (by omega) (by omega))
  cases beam with
  | false =>
    exact ⟨⟨pa, pb, w1, w2, w3, w4, w5, w6, noInt, noInt⟩,
      ⟨h9, h10, h11, h12, h13, h14, h15, h16, fun hb => (by cases hb), fun hb => (by cases hb)⟩⟩
  | true =>
    obtain ⟨sa, h17⟩ := readInt_some (d := noInt) (h.warping rfl).1
    obtain ⟨sb, h18⟩ := readInt_some (d := noInt) (h.warping rfl).2
    exact ⟨⟨pa, pb, w1, w2, w3, w4, w5, w6, sa, sb⟩,
      ⟨h9, h10, h11, h12, h13, h14, h15, h16, fun _ => h17, fun _ => h18⟩⟩

theorem field_take {card : List Line} {n i : Nat} (h : i < n) : field (card.take n) i = field card i := by
  unfold field
  rw [List.getD_eq_getElem?_getD, List.getD_eq_getElem?_getD, List.getElem?_take_of_lt h]

theorem blank_take {card : List Line} {n i : Nat} (h : n ≤ i) : field (card.take n) i = [] := by
  unfold field
  rw [List.getD_eq_getElem?_getD, List.getElem?_eq_none (by rw [List.length_take]; omega)]
  rfl

/-! ## C125 -/

/-- **C125.** A bar or beam that is read has the numbers, the nodes and the orientation that its card gives. -/
theorem C125_sound (beam : Bool) (card : List Line) (s : Segment) (w : List Warning)
    (h : readBar beam card = .ok (s, w)) : Ends card s.id s.property s.a s.b ∧ Oriented card s.orientation :=
  ⟨((bar_iff ..).mp h).1, (orientation_sound ((bar_iff ..).mp h).2.1).1⟩

/-- **C125.** Every well formed card is read. -/
theorem C125_complete (beam : Bool) (card : List Line) (id property a b : Int) (o : Orientation)
    (he : Ends card id property a b) (ho : Oriented card o)
    (h67 : ∀ g, o = .node g → RealOrBlank card 6 ∧ RealOrBlank card 7) (ht : Tail beam card) :
    ∃ w, readBar beam card = .ok (⟨id, property, a, b, o⟩, w) := by
  obtain ⟨r, hr⟩ := reads_of_tail ht
  exact ⟨_, (bar_iff ..).mpr ⟨he, orientation_complete ho h67, r, hr, rfl, ht.rest⟩⟩

/-- A card with a vector, one with a node. -/
def sampleVector : List Line := ["CBAR", "1", "2", "10", "11", "0.", "0.5", "1.-1"].map String.toList
def sampleNode : List Line := ["CBEAM", "1", "2", "10", "11", "99"].map String.toList

example : readBar false sampleVector = .ok (⟨1, 2, 10, 11, .vector 0 (1 / 2) (1 / 10)⟩, []) := by decide +kernel
example : readBar true sampleNode = .ok (⟨1, 2, 10, 11, .node 99⟩, []) := by decide +kernel
example : Oriented sampleNode (.node 99) ∧ Ends sampleNode 1 2 10 11 ∧ Tail true sampleNode := by
  refine ⟨.node 99 (by unfold IsInt; decide +kernel) (.inl rfl), ⟨?_, ?_, ?_, ?_⟩, ⟨⟨.inl rfl, .inl rfl⟩, ?_, ?_, ?_⟩⟩
  · unfold IsInt; decide +kernel
  · unfold IsInt; decide +kernel
  · unfold IsInt; decide +kernel
  · unfold IsInt; decide +kernel
  · intro i h1 _
    refine .inl ?_
    unfold Blank field
    rw [List.getD_eq_getElem?_getD, List.getElem?_eq_none (by simp [sampleNode]; omega)]
    rfl
  · exact fun _ => ⟨.inl rfl, .inl rfl⟩
  · intro i h1
    have : 19 ≤ i := h1
    unfold Blank field
    rw [List.getD_eq_getElem?_getD, List.getElem?_eq_none (by simp [sampleNode]; omega)]
    rfl

/-- **C125.** What is left out of account is told: without a warning, the type of the offsets is the usual one, no node is
released, and no end is set off from its node by more than the tolerance of comparisons. -/
theorem C125_told (beam : Bool) (card : List Line) (s : Segment) (h : readBar beam card = .ok (s, [])) :
    (Blank card 8 ∨ toUpper (field card 8) = ['G', 'G', 'G']) ∧
      (∀ i, (i = 9 ∨ i = 10 ∨ (beam = true ∧ (i = 17 ∨ i = 18))) → Blank card i ∨ IsInt card i noInt) ∧
      ∀ i, 11 ≤ i → i ≤ 16 → Blank card i ∨ ∃ x, IsReal card i x ∧ |x| ≤ tol := by
  obtain ⟨_, _, r, hr, hw, _⟩ := (bar_iff ..).mp h
  unfold warningsOf at hw
  have hw := List.append_eq_nil_iff.mp hw.symm
  obtain ⟨hw, hw4⟩ := hw
  obtain ⟨hw, hw3⟩ := List.append_eq_nil_iff.mp hw
  obtain ⟨hw1, hw2⟩ := List.append_eq_nil_iff.mp hw
  refine ⟨?_, ?_, ?_⟩
  · by_cases he : (toUpper (field card 8)).isEmpty = true
    · rw [toUpper_nil] at he
      exact .inl (List.isEmpty_iff.mp he)
    · by_cases hg : toUpper (field card 8) = ['G', 'G', 'G']
      · exact .inr hg
      · simp [he, hg] at hw1
  · have h2 : r.pa = noInt ∧ r.pb = noInt := by
      by_contra hc
      rw [if_pos (by simp only [Bool.or_eq_true, decide_eq_true_eq]; exact not_and_or.mp hc)] at hw2
      cases hw2
    have h4 : beam = true → r.sa = noInt ∧ r.sb = noInt := by
      intro hb
      by_contra hc
      rw [if_pos (by simp only [hb, Bool.true_and, Bool.or_eq_true, decide_eq_true_eq]; exact not_and_or.mp hc)] at hw4
      cases hw4
    rintro i (rfl | rfl | ⟨hb, rfl | rfl⟩)
    · exact readInt_some_blank hr.pa h2.1
    · exact readInt_some_blank hr.pb h2.2
    · exact readInt_some_blank (hr.sa hb) (h4 hb).1
    · exact readInt_some_blank (hr.sb hb) (h4 hb).2
  · have h3 : (isZero r.w1 && isZero r.w2 && isZero r.w3 && isZero r.w4 && isZero r.w5 && isZero r.w6) = true := by
      by_contra hc
      rw [if_pos (by rw [Bool.not_eq_true]  at hc; rw [hc]; rfl)] at hw3
      cases hw3
    simp only [Bool.and_eq_true, isZero_iff] at h3
    obtain ⟨⟨⟨⟨⟨z1, z2⟩, z3⟩, z4⟩, z5⟩, z6⟩ := h3
    have key : ∀ i x, readReal (some 0) (field card i) = .ok x → |x| ≤ tol →
        Blank card i ∨ ∃ x, IsReal card i x ∧ |x| ≤ tol := by
      intro i x hx hz
      rcases readReal_some_cases hx with ⟨h1, _⟩ | h1
      · exact .inl h1
      · exact .inr ⟨x, h1, hz⟩
    intro i h1 h2
    have : i = 11 ∨ i = 12 ∨ i = 13 ∨ i = 14 ∨ i = 15 ∨ i = 16 := by omega
    rcases this with rfl | rfl | rfl | rfl | rfl | rfl
    · exact key _ _ hr.w1 z1
    · exact key _ _ hr.w2 z2
    · exact key _ _ hr.w3 z3
    · exact key _ _ hr.w4 z4
    · exact key _ _ hr.w5 z5
    · exact key _ _ hr.w6 z6

/-- **C125 (false).** The releases and the offsets of a bar, and everything else after its orientation, change nothing: the
bar is that of the card without these fields. -/
theorem C125_dismissed_false (beam : Bool) (card : List Line) (s : Segment) (w : List Warning)
    (h : readBar beam card = .ok (s, w)) : readBar beam (card.take 8) = .ok (s, []) := by
  obtain ⟨⟨h1, h2, h3, h4⟩, h5, _⟩ := (bar_iff ..).mp h
  have ho := (orientation_sound h5).1
  have hg : ∀ i < 8, (card.take 8).getD i [] = card.getD i [] := by
    intro i hi
    rw [List.getD_eq_getElem?_getD, List.getD_eq_getElem?_getD, List.getElem?_take_of_lt hi]
  have ho' : parseOrientation (at' (card.take 8) 5) = .ok (s.orientation, at' (card.take 8) 8) := by
    have ha : alternateFormat (card.take 8) = alternateFormat card := by
      rw [Bool.eq_iff_iff, alternate_iff, alternate_iff, hg 6 (by omega), hg 7 (by omega)]
    have hc : (at' (card.take 8) 5).fields = card.take 8 := rfl
    have hc' : (at' card 5).fields = card := rfl
    unfold parseOrientation at h5 ⊢
    rw [hc, ha]
    rw [hc'] at h5
    simp only [nextInt_at, nextDouble_at, bind_assoc', Outcome.bind_ok] at h5 ⊢
    rw [field_take (by omega), field_take (by omega), field_take (by omega)]
    split at h5
    · rename_i hal
      rw [if_pos hal]
      obtain ⟨g, e1, h5⟩ := bind_ok_iff.mp h5
      obtain ⟨y, e2, h5⟩ := bind_ok_iff.mp h5
      obtain ⟨z, e3, h5⟩ := bind_ok_iff.mp h5
      rw [e1, Outcome.bind_ok, e2, Outcome.bind_ok, e3, Outcome.bind_ok]
      have := (Prod.mk.inj (Outcome.ok.inj h5)).1
      rw [this]
    · rename_i hal
      rw [if_neg hal]
      obtain ⟨g, e1, h5⟩ := bind_ok_iff.mp h5
      obtain ⟨y, e2, h5⟩ := bind_ok_iff.mp h5
      obtain ⟨z, e3, h5⟩ := bind_ok_iff.mp h5
      rw [e1, Outcome.bind_ok, e2, Outcome.bind_ok, e3, Outcome.bind_ok]
      have := (Prod.mk.inj (Outcome.ok.inj h5)).1
      rw [this]
  refine (bar_iff ..).mpr ⟨⟨?_, ?_, ?_, ?_⟩, ho', ⟨noInt, noInt, 0, 0, 0, 0, 0, 0, noInt, noInt⟩, ?_, ?_, ?_⟩
  · unfold IsInt; rw [field_take (by omega)]; exact h1
  · unfold IsInt; rw [field_take (by omega)]; exact h2
  · unfold IsInt; rw [field_take (by omega)]; exact h3
  · unfold IsInt; rw [field_take (by omega)]; exact h4
  · constructor <;> intros <;> rw [blank_take (by omega)] <;> rfl
  · rw [blank_take (by omega)]
    simp [warningsOf, toUpper]
  · intro i hi
    unfold Blank
    have : 17 ≤ i := by unfold size at hi; split at hi <;> omega
    exact blank_take (by omega)

/-- A bar whose ends are released and offset by 100. -/
def samplePinned : List Line := ["CBAR", "1", "2", "10", "11", "0.", "0.5", "1.-1", "", "456", "456", "100."].map String.toList

example : readBar false samplePinned = .ok (⟨1, 2, 10, 11, .vector 0 (1 / 2) (1 / 10)⟩, [.pins, .offsets]) ∧
    readBar false (samplePinned.take 8) = .ok (⟨1, 2, 10, 11, .vector 0 (1 / 2) (1 / 10)⟩, []) := by decide +kernel

/-- **C125 (false).** A vector whose second or third component is left blank is refused: the first is taken for a node. -/
theorem C125_component_false (beam : Bool) (card : List Line) (h5 : parseInt (field card 5) = none)
    (h : card.getD 6 [] = [] ∨ card.getD 7 [] = []) (r : Segment × List Warning) : readBar beam card ≠ .ok r := by
  intro hr
  obtain ⟨s, w⟩ := r
  have ho := (C125_sound beam card s w hr).2
  generalize s.orientation = o at ho
  cases ho with
  | node g0 h' _ => unfold IsInt at h'; rw [h5] at h'; cases h'
  | vector x1 x2 x3 _ h6 h7 _ => exact h.elim (isReal_ne h6) (isReal_ne h7)
  | null x1 x2 x3 _ h6 h7 _ => exact h.elim (isReal_ne h6) (isReal_ne h7)

example : parseInt (field (["CBAR", "1", "2", "10", "11", "0.", "1."].map String.toList) 5) = none := by decide +kernel

/-- **C125 (false).** A node in field 5 is refused if the two fields after it hold blanks, as they may in free format. -/
theorem C125_spaces_false (beam : Bool) (card : List Line) (h6 : card.getD 6 [] ≠ []) (h7 : card.getD 7 [] ≠ [])
    (hb : Blank card 6 ∨ Blank card 7) (r : Segment × List Warning) : readBar beam card ≠ .ok r := by
  intro hr
  obtain ⟨s, w⟩ := r
  have ho := (C125_sound beam card s w hr).2
  generalize s.orientation = o at ho
  cases ho with
  | node g0 _ h => exact h.elim h6 h7
  | vector x1 x2 x3 _ e6 e7 _ => exact hb.elim e6.1 e7.1
  | null x1 x2 x3 _ e6 e7 _ => exact hb.elim e6.1 e7.1

example : readBar false (["CBAR", "1", "2", "10", "11", "99", " ", " "].map String.toList) = .throw := by decide +kernel

/-! ### Bushes -/

theorem bush_iff (card : List Line) (s : Bush) (h : readBush card = .ok s) :
    IsInt card 1 s.id ∧ IsInt card 2 s.property ∧ IsInt card 3 s.a ∧
      ∃ b, readInt (some noInt) (field card 4) = .ok b ∧ s.b = (if b = noInt then none else some b) ∧
        (((∀ i, 5 ≤ i → Blank card i) ∧ s.frame = .global) ∨
          ¬ (∀ i, 5 ≤ i → Blank card i) ∧ ∃ c, parseFrame (decide (b = noInt)) (at' card 5) = .ok (s.frame, c)) := by
  unfold readBush at h
  rw [start_at] at h
  unfold parseCBUSH at h
  simp only [nextInt_at, bind_assoc', Outcome.bind_ok] at h
  obtain ⟨id, h1, h⟩ := bind_ok_iff.mp h
  obtain ⟨property, h2, h⟩ := bind_ok_iff.mp h
  obtain ⟨a, h3, h⟩ := bind_ok_iff.mp h
  obtain ⟨b, h4, h⟩ := bind_ok_iff.mp h
  by_cases he : isEmptyUntilNextKeyword (at' card (1 + 1 + 1 + 1 + 1)) = true
  · simp only [he, if_true, Outcome.bind_ok] at h
    cases h
    refine ⟨readInt_none.mp h1, readInt_none.mp h2, readInt_none.mp h3, b, h4, ?_, .inl ⟨(isEmpty_at _ _).mp he, rfl⟩⟩
    by_cases hb : b = noInt <;> simp [hb]
  · simp only [he, Bool.false_eq_true, if_false, bind_assoc'] at h
    obtain ⟨⟨f, c⟩, h5, h⟩ := bind_ok_iff.mp h
    obtain ⟨⟨_, c⟩, _, h⟩ := bind_ok_iff.mp h
    obtain ⟨⟨_, c⟩, _, h⟩ := bind_ok_iff.mp h
    obtain ⟨⟨_, c⟩, _, h⟩ := bind_ok_iff.mp h
    obtain ⟨⟨_, c⟩, _, h⟩ := bind_ok_iff.mp h
    obtain ⟨⟨_, c⟩, _, h⟩ := bind_ok_iff.mp h
    simp only [Outcome.bind_ok] at h
    split at h
    · cases h
      refine ⟨readInt_none.mp h1, readInt_none.mp h2, readInt_none.mp h3, b, h4, ?_,
        .inr ⟨fun hh => he ((isEmpty_at _ _).mpr hh), _, h5⟩⟩
      by_cases hb : b = noInt <;> simp [hb]
    · cases h

theorem hasCid_iff (card : List Line) : hasCid card = true ↔ card.getD 8 [] ≠ [] := by
  unfold hasCid
  rw [List.getD_eq_getElem?_getD]
  cases card[8]? <;> simp

/-- **C125.** A bush that is read has the numbers and nodes of its card; its axes are those of the coordinate system in field
8 if there is one, else those of its orientation, else the global ones. -/
theorem C125_bush (card : List Line) (s : Bush) (h : readBush card = .ok s) :
    IsInt card 1 s.id ∧ IsInt card 2 s.property ∧ IsInt card 3 s.a ∧
      (∀ b, s.b = some b → IsInt card 4 b) ∧ (s.b = none → Blank card 4 ∨ IsInt card 4 noInt) ∧
      (match s.frame with
        | .system cid => IsInt card 8 cid
        | .oriented o => Oriented card o ∧ s.b ≠ none
        | .global => (∀ i, 5 ≤ i → Blank card i) ∨ s.b = none) := by
  obtain ⟨h1, h2, h3, b, h4, hb, hf⟩ := bush_iff card s h
  refine ⟨h1, h2, h3, ?_, ?_, ?_⟩
  · intro b' hb'
    rw [hb'] at hb
    split at hb
    · cases hb
    · cases hb
      unfold readInt at h4
      split at h4
      · rename_i hne _
        cases h4
        exact absurd rfl hne
      · split at h4
        · rename_i hp; cases h4; exact hp
        · cases h4
  · intro hn
    rw [hn] at hb
    split at hb
    · rename_i he; exact readInt_some_blank h4 he
    · cases hb
  · rcases hf with ⟨hall, hf⟩ | ⟨_, c, hf⟩
    · rw [hf]; exact .inl hall
    · unfold parseFrame at hf
      split at hf
      · rw [skip_at] at hf
        simp only [Outcome.bind_ok, nextInt_at, bind_assoc'] at hf
        obtain ⟨cid, hc, hf⟩ := bind_ok_iff.mp hf
        rw [← (Prod.mk.inj (Outcome.ok.inj hf)).1]
        exact readInt_none.mp hc
      · split at hf
        · rename_i hs
          rw [skip_at] at hf
          simp only [Outcome.bind_ok] at hf
          rw [← (Prod.mk.inj (Outcome.ok.inj hf)).1]
          refine .inr ?_
          rw [hb, if_pos (by simpa using hs)]
        · rename_i hs
          obtain ⟨⟨o, c'⟩, ho, hf⟩ := bind_ok_iff.mp hf
          obtain ⟨⟨_, c''⟩, _, hf⟩ := bind_ok_iff.mp hf
          rw [← (Prod.mk.inj (Outcome.ok.inj hf)).1]
          refine ⟨(orientation_sound ho).1, ?_⟩
          rw [hb, if_neg (by simpa using hs)]
          exact Option.some_ne_none _

example : readBush (["CBUSH", "1", "2", "10", "11", "", "", "", "7"].map String.toList) =
    .ok ⟨1, 2, 10, some 11, .system 7⟩ := by decide +kernel

/-- **C125 (false).** A bush with two nodes that gives the place of the spring, but neither orientation nor coordinate
system, is refused. -/
theorem C125_bush_place_false (card : List Line) (s : Bush) (b : Int) (h4 : IsInt card 4 b) (hb : b ≠ noInt)
    (h5 : Blank card 5) (h8 : card.getD 8 [] = []) (h9 : ¬ Blank card 9) :
    readBush card ≠ .ok s := by
  intro h
  obtain ⟨h1, h2, h3, b', hb', hs, hf⟩ := bush_iff card s h
  have hbb : b' = b := by
    unfold IsInt at h4
    unfold readInt at hb'
    split at hb'
    · rename_i he
      have : field card 4 = [] := by simpa using he
      rw [this] at h4
      cases h4
    · rw [h4] at hb'
      cases hb'
      rfl
  subst hbb
  rcases hf with ⟨hall, _⟩ | ⟨_, c, hf⟩
  · exact h9 (hall 9 (by omega))
  · unfold parseFrame at hf
    have hc : ¬ hasCid (at' card 5).fields = true := fun hh => (hasCid_iff card).mp hh h8
    rw [if_neg hc, if_neg (by simpa using hb)] at hf
    obtain ⟨⟨o, c'⟩, ho, hf⟩ := bind_ok_iff.mp hf
    have ho := (orientation_sound ho).1
    cases ho with
    | node g0 h' _ => unfold IsInt at h'; rw [h5] at h'; cases h'
    | vector x1 x2 x3 e _ _ _ => exact e.1 h5
    | null x1 x2 x3 e _ _ _ => exact e.1 h5

example : readBush (["CBUSH", "1", "2", "10", "11", "", "", "", "", "0.25"].map String.toList) = .throw := by decide +kernel

end Bars
end Vega
