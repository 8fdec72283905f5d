import Mathlib.Analysis.Real.Pi.Bounds
import Verif.Aster.MaterialsProps
import Verif.Load.Cards

/-!
# Load sets have the forces, displacements, temperatures and combinations of their cards (C127)
-/
namespace Vega

namespace LoadCardsSpec
open Nastran LoadCards BarsSpec MaterialsSpec

/-- The value of an integer field with a default. -/
def IntOr (card : List Line) (i : Nat) (d n : Int) : Prop := IsInt card i n ∨ Blank card i ∧ n = d

/-- An integer written without the sign `+`. -/
def Plain (card : List Line) (i : Nat) (n : Int) : Prop := IsInt card i n ∧ '+' ∉ field card i

/-- There is nothing from this field on. -/
def Ends (card : List Line) (p : Nat) : Prop := ∀ i, p ≤ i → Blank card i

/-- Pairs of a factor and a load set up to the end of the card. -/
inductive Sets (card : List Line) : Nat → List (Dbl × Int) → Prop where
  | nil (p : Nat) (h : Ends card p) : Sets card p []
  | cons (p : Nat) (f : Dbl) (l : Int) (rest : List (Dbl × Int)) (h1 : IsReal card p f) (h2 : IsInt card (p + 1) l)
      (h : Sets card (p + 2) rest) : Sets card p ((f, l) :: rest)

/-- Pairs of a node and a real up to the end of the card. -/
inductive Values (card : List Line) : Nat → List (Int × Dbl) → Prop where
  | nil (p : Nat) (h : Ends card p) : Values card p []
  | cons (p : Nat) (g : Int) (x : Dbl) (rest : List (Int × Dbl)) (h1 : Plain card p g) (h2 : IsReal card (p + 1) x)
      (h : Values card (p + 2) rest) : Values card p ((g, x) :: rest)

/-- What a card asks for, as these cards are generally known: fields that may be blank have their default. -/
inductive Says : Card → Said → Prop where
  | force (f : List Line) (set node cs : Int) (s x y z : Dbl) (h1 : IsInt f 1 set) (h2 : IsInt f 2 node)
      (h3 : IntOr f 3 0 cs) (h4 : RealOr f 4 0 s) (h5 : RealOr f 5 0 x) (h6 : RealOr f 6 0 y) (h7 : RealOr f 7 0 z)
      (h8 : Ends f 8) : Says ⟨.force, f⟩ ⟨set, false, [.force node cs (s * x) (s * y) (s * z) 0 0 0]⟩
  | moment (f : List Line) (set node cs : Int) (s x y z : Dbl) (h1 : IsInt f 1 set) (h2 : IsInt f 2 node)
      (h3 : IntOr f 3 0 cs) (h4 : RealOr f 4 0 s) (h5 : RealOr f 5 0 x) (h6 : RealOr f 6 0 y) (h7 : RealOr f 7 0 z)
      (h8 : Ends f 8) : Says ⟨.moment, f⟩ ⟨set, false, [.force node cs 0 0 0 (s * x) (s * y) (s * z)]⟩
  | force1 (f : List Line) (set node a b : Int) (s : Dbl) (h1 : IsInt f 1 set) (h2 : IsInt f 2 node) (h3 : IsReal f 3 s)
      (h4 : IsInt f 4 a) (h5 : IsInt f 5 b) (h6 : Ends f 6) : Says ⟨.force1, f⟩ ⟨set, false, [.twoNodes node a b s]⟩
  | force2 (f : List Line) (set node a b c d : Int) (s : Dbl) (h1 : IsInt f 1 set) (h2 : IsInt f 2 node)
      (h3 : IsReal f 3 s) (h4 : IsInt f 4 a) (h5 : IsInt f 5 b) (h6 : IsInt f 6 c) (h7 : IsInt f 7 d) (h8 : Ends f 8) :
      Says ⟨.force2, f⟩ ⟨set, false, [.fourNodes node a b c d s]⟩
  | sload (f : List Line) (set : Int) (vs : List (Int × Dbl)) (h1 : IsInt f 1 set) (h2 : Values f 2 vs) :
      Says ⟨.sload, f⟩ ⟨set, false, vs.map fun v => .force v.1 0 v.2 0 0 0 0 0⟩
  | rforce (f : List Line) (set g : Int) (a x y z : Dbl) (h1 : IsInt f 1 set) (h2 : IsInt f 2 g) (h3 : IntOr f 3 0 0)
      (h4 : IsReal f 4 a) (h5 : IsReal f 5 x) (h6 : IsReal f 6 y) (h7 : IsReal f 7 z) (h8 : IntOr f 8 1 1)
      (h9 : RealOr f 9 0 0) (h10 : IntOr f 10 0 0) (h11 : Ends f 11) :
      Says ⟨.rforce, f⟩ ⟨set, false, [.rotation a g x y z]⟩
  | spcd (f : List Line) (set g c : Int) (d : Dbl) (dofs : Dofs) (h1 : IsInt f 1 set) (h2 : IsInt f 2 g)
      (h3 : IsInt f 3 c) (h4 : IsReal f 4 d) (hc : Dofs.nastranCodeToDOFS c = .ok dofs) (h5 : Ends f 5) :
      Says ⟨.spcd, f⟩ ⟨set, false, [.displacement g dofs d]⟩
  | spcd2 (f : List Line) (set g c g' c' : Int) (d d' : Dbl) (dofs dofs' : Dofs) (h1 : IsInt f 1 set) (h2 : IsInt f 2 g)
      (h3 : IsInt f 3 c) (h4 : IsReal f 4 d) (hc : Dofs.nastranCodeToDOFS c = .ok dofs) (h5 : Plain f 5 g')
      (h6 : IsInt f 6 c') (h7 : IsReal f 7 d') (hc' : Dofs.nastranCodeToDOFS c' = .ok dofs') (h8 : Ends f 8) :
      Says ⟨.spcd, f⟩ ⟨set, false, [.displacement g dofs d, .displacement g' dofs' d']⟩
  | temp (f : List Line) (set g : Int) (t : Dbl) (vs : List (Int × Dbl)) (h1 : IsInt f 1 set) (h2 : IsInt f 2 g)
      (h3 : IsReal f 3 t) (h4 : Values f 4 vs) (h : vs.length ≤ 2) :
      Says ⟨.temp, f⟩ ⟨set, false, ((g, t) :: vs).map fun v => .temperature v.1 v.2⟩
  | load (f : List Line) (set : Int) (s : Dbl) (ls : List (Dbl × Int)) (h1 : IsInt f 1 set) (h2 : RealOr f 2 1 s)
      (h3 : Sets f 3 ls) : Says ⟨.load, f⟩ ⟨set, false, ls.map fun l => .embedded l.2 (s * l.1)⟩
  | dload (f : List Line) (set : Int) (s : Dbl) (ls : List (Dbl × Int)) (h1 : IsInt f 1 set) (h2 : RealOr f 2 1 s)
      (h3 : Sets f 3 ls) : Says ⟨.dload, f⟩ ⟨set, true, ls.map fun l => .embedded l.2 (s * l.1)⟩

/-- What is left out: moments with blanks, rotations with an option, displacements of a node -1 or of components -1. -/
def Usual (c : Card) : Prop :=
  match c.kind with
  | .moment => ∀ i, 4 ≤ i → i ≤ 7 → ¬ Blank c.fields i
  | .rforce => IntOr c.fields 3 0 0 ∧ IntOr c.fields 8 1 1 ∧ RealOr c.fields 9 0 0 ∧ IntOr c.fields 10 0 0
  | .spcd => ¬ IsInt c.fields 5 (-1) ∧ ¬ IsInt c.fields 6 (-1)
  | _ => True

end LoadCardsSpec

namespace LoadCards
open Nastran BarsSpec Bars MaterialsSpec LoadCardsSpec Materials

/-! ## Lemmas -/

/-- What `isNextInt` tells of a field. -/
def intLike (f : Line) : Bool := !f.isEmpty && f.all intChar

/-- What `isNextDouble` tells of a field. -/
def realLike (f : Line) : Bool := !(f.filter (· ≠ ' ')).isEmpty && (f.filter (· ≠ ' ')).all realChar

theorem fieldAt_at {fields : List Line} {p : Nat} (h : p < fields.length) :
    fieldAt (at' fields p) 0 = .ok (field fields p) := by
  unfold fieldAt at' field
  have h1 : min p fields.length = p := by omega
  simp only [h1, Nat.add_zero, List.getElem?_eq_getElem h, List.getD_eq_getElem?_getD, Option.getD_some]

theorem field_out {fields : List Line} {p : Nat} (h : ¬ p < fields.length) : field fields p = [] := by
  unfold field
  rw [List.getD_eq_getElem?_getD, List.getElem?_eq_none (by omega)]
  rfl

theorem isNextInt_at (fields : List Line) (p : Nat) :
    isNextInt (at' fields p) = .ok (intLike (field fields p)) := by
  by_cases h : p < fields.length
  · unfold isNextInt
    rw [fieldAt_at h, if_neg (by simp [at', h])]
    rfl
  · unfold isNextInt
    rw [field_out h, if_pos (by simp [at', h])]
    rfl

theorem isNextDouble_at (fields : List Line) (p : Nat) :
    isNextDouble (at' fields p) = .ok (realLike (field fields p)) := by
  by_cases h : p < fields.length
  · unfold isNextDouble
    rw [fieldAt_at h, if_neg (by simp [at', h])]
    rfl
  · unfold isNextDouble
    rw [field_out h, if_pos (by simp [at', h])]
    rfl

theorem digits_chars : ∀ {l : Line} {a n : Nat}, digits? a l = some n → l.all intChar = true
  | [], _, _, _ => rfl
  | c :: cs, a, n, h => by
    unfold digits? at h
    split at h
    · cases h
    · rename_i d hd
      have := digits_chars h
      simp only [List.all_cons, this, Bool.and_true]
      unfold digit? at hd
      unfold intChar
      split at hd
      · rename_i h'
        simp only [Bool.or_eq_true, Bool.and_eq_true, decide_eq_true_eq]
        exact .inr h'
      · cases hd

/-- An integer without `+` is seen to be an integer. -/
theorem plain_like {card : List Line} {i : Nat} {n : Int} (h : Plain card i n) : intLike (field card i) = true := by
  obtain ⟨h, hp⟩ := h
  unfold IsInt at h
  generalize field card i = f at h hp
  unfold intLike
  cases f with
  | nil => cases h
  | cons c cs =>
    simp only [List.isEmpty_cons, Bool.not_false, Bool.true_and]
    have hc : c ≠ '+' := fun e => hp (by rw [e]; exact List.mem_cons_self)
    unfold parseInt at h
    simp only at h
    by_cases hm : c = '-'
    · rw [if_pos hm] at h
      split at h
      · rename_i h'
        split at h'
        · cases h'
        · cases hd : digits? 0 cs with
          | none => rw [hd] at h'; cases h'
          | some m =>
            simp only [List.all_cons, digits_chars hd, Bool.and_true, hm]
            decide
      · cases h
    · rw [if_neg hm, if_neg hc] at h
      split at h
      · rename_i h'
        cases hd : digits? 0 (c :: cs) with
        | none => rw [hd] at h'; cases h'
        | some m => exact digits_chars hd
      · cases h

theorem like_plain {card : List Line} {i : Nat} {n : Int} (h : intLike (field card i) = true) (hn : IsInt card i n) :
    Plain card i n := by
  refine ⟨hn, fun hp => ?_⟩
  unfold intLike at h
  simp only [Bool.and_eq_true, List.all_eq_true] at h
  have := h.2 _ hp
  revert this
  decide

theorem digit_real {c : Char} (h : c.isDigit = true) : realChar c = true := by
  unfold realChar
  simp [h]

theorem lexical_chars {l : Line} {x : Dbl} (h : lexicalDouble l = some x) : l ≠ [] ∧ l.all realChar = true := by
  have htw : ∀ l : Line, (l.takeWhile Char.isDigit).all realChar = true := by
    intro l
    rw [List.all_eq_true]
    intro c hc
    exact digit_real (List.mem_takeWhile_imp hc)
  have hexp : ∀ {t : Line} {e : Int}, exponent? t = some e → t.all realChar = true := by
    intro t e he
    have hg : ∀ {b : Bool} {u : Line}, (if (b, u).2.isEmpty || !(b, u).2.all Char.isDigit then none
        else some (if (b, u).1 then -(natOf (b, u).2 : Int) else natOf (b, u).2)) = some e → u.all realChar = true := by
      intro b u hu
      split at hu
      · cases hu
      · rename_i hn
        have hd : u.all Char.isDigit = true := by
          cases hd : u.all Char.isDigit with
          | true => rfl
          | false => exact absurd (by simp [hd]) hn
        rw [List.all_eq_true] at hd ⊢
        exact fun c hc => digit_real (hd c hc)
    unfold exponent? at he
    simp only at he
    split at he
    · simp only [List.all_cons, hg he]
      decide
    · simp only [List.all_cons, hg he]
      decide
    · exact hg he
  have htail : ∀ {t : Line} {m x : Dbl}, (match t with
      | [] => some m
      | c :: t => if c = 'e' || c = 'E' then (exponent? t).map fun e => m * 10 ^ e else none) = some x →
      t.all realChar = true := by
    intro t m x ht
    cases t with
    | nil => rfl
    | cons c t =>
      simp only at ht
      split at ht
      · rename_i hc
        obtain ⟨e, he, _⟩ := Option.map_eq_some_iff.mp ht
        simp only [List.all_cons, hexp he, Bool.and_true]
        simp only [Bool.or_eq_true, decide_eq_true_eq] at hc
        rcases hc with rfl | rfl <;> decide
      · cases ht
  have hfrac : ∀ {t : Line}, (fraction t).2.all realChar = true → t.all realChar = true := by
    intro t ht
    unfold fraction at ht
    split at ht
    · rename_i u
      simp only at ht
      simp only [List.all_cons]
      rw [Bool.and_eq_true]
      refine ⟨by decide, ?_⟩
      rw [← List.takeWhile_append_dropWhile (p := Char.isDigit) (l := u), List.all_append, htw, ht]
      rfl
    · exact ht
  unfold lexicalDouble at h
  simp only at h
  split at h
  · cases h
  · have h1 := hfrac (htail h)
    have h2 : (signed l).2.all realChar = true := by
      rw [← List.takeWhile_append_dropWhile (p := Char.isDigit) (l := (signed l).2), List.all_append, htw, h1]
      rfl
    rename_i hne
    clear h h1
    constructor
    · rintro rfl
      exact hne rfl
    · unfold signed at h2
      split at h2
      · simp only [List.all_cons]
        rw [Bool.and_eq_true]
        exact ⟨by decide, h2⟩
      · simp only [List.all_cons]
        rw [Bool.and_eq_true]
        exact ⟨by decide, h2⟩
      · exact h2

/-- The letters of an exponent. -/
def letter (c : Char) : Char := if (if c = 'd' then 'e' else c) = 'D' then 'E' else if c = 'd' then 'e' else c

theorem letter_real {c : Char} (h : realChar (letter c) = true) : realChar c = true := by
  unfold letter at h
  by_cases h1 : c = 'd'
  · subst h1; decide
  · simp only [h1, if_false] at h
    by_cases h2 : c = 'D'
    · subst h2; decide
    · simpa only [h2, if_false] using h

theorem letter_space {c : Char} : letter c = ' ' ↔ c = ' ' := by
  unfold letter
  by_cases h1 : c = 'd'
  · subst h1; decide
  · simp only [h1, if_false]
    by_cases h2 : c = 'D'
    · subst h2; decide
    · simp only [h2, if_false]

/-- A real is seen to be a real. -/
theorem isReal_like {card : List Line} {i : Nat} {x : Dbl} (h : IsReal card i x) : realLike (field card i) = true := by
  obtain ⟨_, h⟩ := h
  generalize field card i = f at h
  obtain ⟨hne, hall⟩ := lexical_chars h
  have hv : ∀ v : Line, v = (f.filter (· ≠ ' ')).map letter → v ≠ [] → v.all realChar = true → realLike f = true := by
    rintro v rfl h1 h2
    unfold realLike
    rw [Bool.and_eq_true]
    constructor
    · cases hf : f.filter (· ≠ ' ') with
      | nil => rw [hf] at h1; exact absurd rfl h1
      | cons => rfl
    · rw [List.all_eq_true] at h2 ⊢
      intro c hc
      exact letter_real (h2 _ (List.mem_map_of_mem hc))
  have he : ((f.map fun c => if c = 'd' then 'e' else c).map fun c => if c = 'D' then 'E' else c).filter (fun c => c ≠ ' ')
      = (f.filter (· ≠ ' ')).map letter := by
    rw [List.map_map, List.filter_map]
    congr 1
    apply List.filter_congr
    intro c _
    have := @letter_space c
    simp only [Function.comp]
    exact decide_eq_decide.mpr (not_congr this)
  unfold normReal at hne hall
  simp only at hne hall
  rw [he] at hne hall
  generalize hg : (f.filter (· ≠ ' ')).map letter = v at hne hall
  refine hv v hg.symm ?_ ?_
  · rintro rfl
    revert hne
    decide
  · clear hne
    split at hall
    · exact hall
    · rename_i q hq
      have key : ∀ n : Nat, ((if q ≠ n then v.take q ++ 'E' :: v.drop q else v).all realChar) = true →
          v.all realChar = true := by
        intro n hn
        split at hn
        · rw [List.all_append, List.all_cons, Bool.and_eq_true, Bool.and_eq_true] at hn
          rw [← List.take_append_drop q v, List.all_append, hn.1, hn.2.2]
          rfl
        · exact hn
      exact key _ hall

theorem blank_like {card : List Line} {i : Nat} (h : Blank card i) : realLike (field card i) = false := by
  unfold Blank at h
  rw [h]
  rfl

theorem blank_intLike {card : List Line} {i : Nat} (h : Blank card i) : intLike (field card i) = false := by
  unfold Blank at h
  rw [h]
  rfl

theorem readInt_default {card : List Line} {i : Nat} {d n : Int} :
    readInt (some d) (field card i) = .ok n ↔ IntOr card i d n := by
  unfold IntOr IsInt Blank
  generalize field card i = f
  unfold readInt
  cases f with
  | nil =>
    constructor
    · intro h; cases h; exact .inr ⟨rfl, rfl⟩
    · rintro (h | ⟨_, rfl⟩)
      · cases h
      · rfl
  | cons c cs =>
    constructor
    · intro h
      simp only [List.isEmpty_cons, Bool.false_eq_true, if_false] at h
      split at h
      · rename_i h'; cases h; exact .inl h'
      · cases h
    · rintro (h | ⟨h, _⟩)
      · simp only [List.isEmpty_cons, Bool.false_eq_true, if_false]
        rw [h]
      · cases h

theorem readReal_iff {card : List Line} {i : Nat} {d x : Dbl} :
    readReal (some d) (field card i) = .ok x ↔ RealOr card i d x := by
  constructor
  · exact readReal_default
  · rintro (⟨h1, h2⟩ | ⟨h, rfl⟩)
    · unfold readReal
      have : (field card i).isEmpty = false := by simpa using h1
      rw [this, h2]
      rfl
    · unfold readReal
      rw [h]
      rfl

theorem readInt_given {card : List Line} {i : Nat} {n : Int} : readInt none (field card i) = .ok n ↔ IsInt card i n :=
  readInt_none

theorem readReal_given {card : List Line} {i : Nat} {x : Dbl} :
    readReal none (field card i) = .ok x ↔ IsReal card i x := readReal_none

theorem end_iff {α : Type} {x y : α} {fields : List Line} {p : Nat} :
    (if isEmptyUntilNextKeyword (at' fields p) = true then Outcome.ok x else .throw) = .ok y ↔ Ends fields p ∧ x = y := by
  by_cases h : isEmptyUntilNextKeyword (at' fields p) = true
  · rw [if_pos h]
    exact ⟨fun e => ⟨(isEmpty_at _ _).mp h, Outcome.ok.inj e⟩, fun ⟨_, e⟩ => by rw [e]⟩
  · rw [if_neg h]
    exact ⟨fun e => (by cases e), fun ⟨e, _⟩ => absurd ((isEmpty_at _ _).mpr e) h⟩

theorem loadLoop_sound (s : Dbl) (fields : List Line) : ∀ (fuel p : Nat) {r : List Item × Cursor},
    loadLoop s fuel (at' fields p) = .ok r → ∃ q, r.2 = at' fields q ∧
      (Ends fields q → ∃ ls, Sets fields p ls ∧ r.1 = ls.map fun l => .embedded l.2 (s * l.1))
  | 0, _, _, h => by cases h
  | fuel + 1, p, r, h => by
    unfold loadLoop at h
    rw [isNextDouble_at, Outcome.bind_ok] at h
    split at h
    · rename_i hl
      simp only [nextInt_at, nextDouble_at, bind_assoc', Outcome.bind_ok] at h
      obtain ⟨x, hx, h⟩ := bind_ok_iff.mp h
      obtain ⟨l, hi, h⟩ := bind_ok_iff.mp h
      obtain ⟨r', hr, h⟩ := bind_ok_iff.mp h
      cases h
      obtain ⟨q, hq, ih⟩ := loadLoop_sound s fields fuel (p + 1 + 1) hr
      refine ⟨q, hq, fun he => ?_⟩
      obtain ⟨ls, h1, h2⟩ := ih he
      refine ⟨(x, l) :: ls, .cons p x l ls ?_ (readInt_given.mp hi) h1, by rw [h2]; rfl⟩
      rcases readReal_iff.mp hx with h' | ⟨hb, _⟩
      · exact h'
      · rw [blank_like hb] at hl
        cases hl
    · cases h
      exact ⟨p, rfl, fun he => ⟨[], .nil p he, rfl⟩⟩

theorem loadLoop_complete (s : Dbl) {fields : List Line} {p : Nat} {ls : List (Dbl × Int)} (h : Sets fields p ls) :
    ∀ fuel, ls.length < fuel → ∃ q, Ends fields q ∧
      loadLoop s fuel (at' fields p) = .ok (ls.map fun l => .embedded l.2 (s * l.1), at' fields q) := by
  induction h with
  | nil p he =>
    intro fuel hf
    cases fuel with
    | zero => cases hf
    | succ fuel =>
      refine ⟨p, he, ?_⟩
      unfold loadLoop
      rw [isNextDouble_at, Outcome.bind_ok, blank_like (he p (Nat.le_refl _))]
      rfl
  | cons p x l rest h1 h2 _ ih =>
    intro fuel hf
    cases fuel with
    | zero => cases hf
    | succ fuel =>
      obtain ⟨q, hq, e⟩ := ih fuel (by simpa using hf)
      refine ⟨q, hq, ?_⟩
      unfold loadLoop
      rw [isNextDouble_at, Outcome.bind_ok, isReal_like h1, if_pos rfl]
      simp only [nextInt_at, nextDouble_at, bind_assoc', Outcome.bind_ok]
      rw [readReal_iff.mpr (.inl h1), Outcome.bind_ok, readInt_given.mpr h2, Outcome.bind_ok, e, Outcome.bind_ok]
      rfl

theorem isInt_lt {fields : List Line} {p : Nat} {n : Int} (h : IsInt fields p n) : p < fields.length := by
  by_contra hp
  unfold IsInt at h
  rw [field_out hp] at h
  cases h

theorem sets_length {fields : List Line} {p : Nat} {ls : List (Dbl × Int)} (h : Sets fields p ls) :
    ls.length ≤ fields.length - p := by
  induction h with
  | nil => simp
  | cons p x l rest h1 h2 _ ih =>
    have := isInt_lt h2
    simp only [List.length_cons]
    omega

theorem sloadLoop_sound (fields : List Line) : ∀ (fuel p : Nat) {r : List Item × Cursor},
    sloadLoop fuel (at' fields p) = .ok r → ∃ q, r.2 = at' fields q ∧
      (Ends fields q → ∃ vs, Values fields p vs ∧ r.1 = vs.map fun v => .force v.1 0 v.2 0 0 0 0 0)
  | 0, _, _, h => by cases h
  | fuel + 1, p, r, h => by
    unfold sloadLoop at h
    rw [isNextInt_at, Outcome.bind_ok] at h
    split at h
    · rename_i hl
      simp only [nextInt_at, nextDouble_at, bind_assoc', Outcome.bind_ok] at h
      obtain ⟨g, hi, h⟩ := bind_ok_iff.mp h
      obtain ⟨x, hx, h⟩ := bind_ok_iff.mp h
      obtain ⟨r', hr, h⟩ := bind_ok_iff.mp h
      cases h
      obtain ⟨q, hq, ih⟩ := sloadLoop_sound fields fuel (p + 1 + 1) hr
      refine ⟨q, hq, fun he => ?_⟩
      obtain ⟨vs, h1, h2⟩ := ih he
      exact ⟨(g, x) :: vs, .cons p g x vs (like_plain hl (readInt_given.mp hi)) (readReal_given.mp hx) h1, by rw [h2]; rfl⟩
    · cases h
      exact ⟨p, rfl, fun he => ⟨[], .nil p he, rfl⟩⟩

theorem sloadLoop_complete {fields : List Line} {p : Nat} {vs : List (Int × Dbl)} (h : Values fields p vs) :
    ∀ fuel, vs.length < fuel → ∃ q, Ends fields q ∧
      sloadLoop fuel (at' fields p) = .ok (vs.map fun v => .force v.1 0 v.2 0 0 0 0 0, at' fields q) := by
  induction h with
  | nil p he =>
    intro fuel hf
    cases fuel with
    | zero => cases hf
    | succ fuel =>
      refine ⟨p, he, ?_⟩
      unfold sloadLoop
      rw [isNextInt_at, Outcome.bind_ok, blank_intLike (he p (Nat.le_refl _))]
      rfl
  | cons p g x rest h1 h2 _ ih =>
    intro fuel hf
    cases fuel with
    | zero => cases hf
    | succ fuel =>
      obtain ⟨q, hq, e⟩ := ih fuel (by simpa using hf)
      refine ⟨q, hq, ?_⟩
      unfold sloadLoop
      rw [isNextInt_at, Outcome.bind_ok, plain_like h1, if_pos rfl]
      simp only [nextInt_at, nextDouble_at, bind_assoc', Outcome.bind_ok]
      rw [readInt_given.mpr h1.1, Outcome.bind_ok, readReal_given.mpr h2, Outcome.bind_ok, e, Outcome.bind_ok]
      rfl

theorem values_length {fields : List Line} {p : Nat} {vs : List (Int × Dbl)} (h : Values fields p vs) :
    vs.length ≤ fields.length - p := by
  induction h with
  | nil => simp
  | cons p g x rest h1 h2 _ ih =>
    have := isInt_lt h1.1
    simp only [List.length_cons]
    omega

theorem read_force (f : List Line) (s : Said) : read ⟨.force, f⟩ = .ok s ↔ Says ⟨.force, f⟩ s := by
  unfold read
  rw [start_at]
  simp only [parse, parseFORCE, nextInt_at, nextDouble_at, bind_assoc', Outcome.bind_ok, bind_ok_iff, readInt_given,
    readInt_default, readReal_iff, end_iff]
  constructor
  · rintro ⟨set, h1, node, h2, cs, h3, k, h4, x, h5, y, h6, z, h7, h8, rfl⟩
    rw [mul_comm x, mul_comm y, mul_comm z]
    exact .force f set node cs k x y z h1 h2 h3 h4 h5 h6 h7 h8
  · rintro ⟨⟩
    rename_i set node cs k x y z h1 h2 h3 h4 h5 h6 h7 h8
    exact ⟨set, h1, node, h2, cs, h3, k, h4, x, h5, y, h6, z, h7, h8, by rw [mul_comm x, mul_comm y, mul_comm z]⟩

theorem given {f : List Line} {i : Nat} (h : ¬ Blank f i) (d d' x : Dbl) : RealOr f i d x ↔ RealOr f i d' x := by
  constructor <;> rintro (h' | ⟨h', _⟩)
  · exact .inl h'
  · exact absurd h' h
  · exact .inl h'
  · exact absurd h' h

theorem read_moment (f : List Line) (s : Said) (hu : Usual ⟨.moment, f⟩) :
    read ⟨.moment, f⟩ = .ok s ↔ Says ⟨.moment, f⟩ s := by
  have u4 := given (hu 4 (by omega) (by omega)) unavailable 0
  have u5 := given (hu 5 (by omega) (by omega)) unavailable 0
  have u6 := given (hu 6 (by omega) (by omega)) unavailable 0
  have u7 := given (hu 7 (by omega) (by omega)) unavailable 0
  unfold read
  rw [start_at]
  simp only [parse, parseMOMENT, nextInt_at, nextDouble_at, bind_assoc', Outcome.bind_ok, bind_ok_iff, readInt_given,
    readInt_default, readReal_iff, end_iff]
  constructor
  · rintro ⟨set, h1, node, h2, cs, h3, k, h4, x, h5, y, h6, z, h7, h8, rfl⟩
    rw [mul_comm x, mul_comm y, mul_comm z]
    exact .moment f set node cs k x y z h1 h2 h3 ((u4 _).mp h4) ((u5 _).mp h5) ((u6 _).mp h6) ((u7 _).mp h7) h8
  · rintro ⟨⟩
    rename_i set node cs k x y z h1 h2 h3 h4 h5 h6 h7 h8
    exact ⟨set, h1, node, h2, cs, h3, k, (u4 _).mpr h4, x, (u5 _).mpr h5, y, (u6 _).mpr h6, z, (u7 _).mpr h7, h8,
      by rw [mul_comm x, mul_comm y, mul_comm z]⟩

theorem read_force1 (f : List Line) (s : Said) : read ⟨.force1, f⟩ = .ok s ↔ Says ⟨.force1, f⟩ s := by
  unfold read
  rw [start_at]
  simp only [parse, parseFORCE1, nextInt_at, nextDouble_at, bind_assoc', Outcome.bind_ok, bind_ok_iff, readInt_given,
    readReal_given, end_iff]
  constructor
  · rintro ⟨set, h1, node, h2, k, h3, a, h4, b, h5, h6, rfl⟩
    exact .force1 f set node a b k h1 h2 h3 h4 h5 h6
  · rintro ⟨⟩
    rename_i set node a b k h1 h2 h3 h4 h5 h6
    exact ⟨set, h1, node, h2, k, h3, a, h4, b, h5, h6, rfl⟩

theorem read_force2 (f : List Line) (s : Said) : read ⟨.force2, f⟩ = .ok s ↔ Says ⟨.force2, f⟩ s := by
  unfold read
  rw [start_at]
  simp only [parse, parseFORCE2, nextInt_at, nextDouble_at, bind_assoc', Outcome.bind_ok, bind_ok_iff, readInt_given,
    readReal_given, end_iff]
  constructor
  · rintro ⟨set, h1, node, h2, k, h3, a, h4, b, h5, c, h6, d, h7, h8, rfl⟩
    exact .force2 f set node a b c d k h1 h2 h3 h4 h5 h6 h7 h8
  · rintro ⟨⟩
    rename_i set node a b c d k h1 h2 h3 h4 h5 h6 h7 h8
    exact ⟨set, h1, node, h2, k, h3, a, h4, b, h5, c, h6, d, h7, h8, rfl⟩

/-- A card RFORCE is accepted when its fields are well formed, and its options do not matter. -/
theorem read_rforce_any (f : List Line) (s : Said) : read ⟨.rforce, f⟩ = .ok s ↔
    ∃ set, IsInt f 1 set ∧ ∃ g, IsInt f 2 g ∧ ∃ cs, IntOr f 3 0 cs ∧ ∃ a, IsReal f 4 a ∧ ∃ x, IsReal f 5 x ∧
      ∃ y, IsReal f 6 y ∧ ∃ z, IsReal f 7 z ∧ ∃ m, IntOr f 8 1 m ∧ ∃ r, RealOr f 9 0 r ∧ ∃ b, IntOr f 10 0 b ∧
        Ends f 11 ∧ ⟨set, false, [.rotation a g x y z]⟩ = s := by
  unfold read
  rw [start_at]
  simp only [parse, parseRFORCE, nextInt_at, nextDouble_at, bind_assoc', Outcome.bind_ok, bind_ok_iff, readInt_given,
    readReal_given, readInt_default, readReal_iff, end_iff]

theorem read_rforce (f : List Line) (s : Said) (hu : Usual ⟨.rforce, f⟩) :
    read ⟨.rforce, f⟩ = .ok s ↔ Says ⟨.rforce, f⟩ s := by
  rw [read_rforce_any]
  obtain ⟨u3, u8, u9, u10⟩ := hu
  constructor
  · rintro ⟨set, h1, g, h2, _, _, a, h4, x, h5, y, h6, z, h7, _, _, _, _, _, _, h11, rfl⟩
    exact .rforce f set g a x y z h1 h2 u3 h4 h5 h6 h7 u8 u9 u10 h11
  · rintro ⟨⟩
    rename_i set g a x y z h1 h2 h3 h4 h5 h6 h7 h8 h9 h10 h11
    exact ⟨set, h1, g, h2, 0, h3, a, h4, x, h5, y, h6, z, h7, 1, h8, 0, h9, 0, h10, h11, rfl⟩

theorem read_sload (f : List Line) (s : Said) : read ⟨.sload, f⟩ = .ok s ↔ Says ⟨.sload, f⟩ s := by
  unfold read
  rw [start_at]
  simp only [parse, parseSLOAD, nextInt_at, bind_assoc', Outcome.bind_ok]
  constructor
  · intro h
    obtain ⟨set, h1, h⟩ := bind_ok_iff.mp h
    obtain ⟨r, h2, h⟩ := bind_ok_iff.mp h
    obtain ⟨q, hq, hs⟩ := sloadLoop_sound _ _ _ h2
    rw [hq, end_iff] at h
    obtain ⟨he, rfl⟩ := h
    obtain ⟨vs, hv, e⟩ := hs he
    rw [e]
    exact .sload f set vs (readInt_given.mp h1) hv
  · rintro ⟨⟩
    rename_i set vs h1 h2
    have hl := values_length h2
    obtain ⟨q, hq, e⟩ := sloadLoop_complete h2 ((at' f (1 + 1)).fields.length + 1) (by simp only [at']; omega)
    rw [readInt_given.mpr h1, Outcome.bind_ok]
    rw [e, Outcome.bind_ok]
    exact end_iff.mpr ⟨hq, rfl⟩

theorem read_loads (dynamic : Bool) (f : List Line) (s : Said) :
    (parseLOAD dynamic (at' f 1) >>= fun r => if isEmptyUntilNextKeyword r.2 then Outcome.ok r.1 else .throw) = .ok s ↔
      ∃ set k ls, IsInt f 1 set ∧ RealOr f 2 1 k ∧ Sets f 3 ls ∧
        s = ⟨set, dynamic, ls.map fun l => .embedded l.2 (k * l.1)⟩ := by
  simp only [parseLOAD, nextInt_at, nextDouble_at, bind_assoc', Outcome.bind_ok]
  constructor
  · intro h
    obtain ⟨set, h1, h⟩ := bind_ok_iff.mp h
    obtain ⟨k, h2, h⟩ := bind_ok_iff.mp h
    obtain ⟨r, h3, h⟩ := bind_ok_iff.mp h
    obtain ⟨q, hq, hs⟩ := loadLoop_sound _ _ _ _ h3
    rw [hq, end_iff] at h
    obtain ⟨he, rfl⟩ := h
    obtain ⟨ls, hv, e⟩ := hs he
    exact ⟨set, k, ls, readInt_given.mp h1, readReal_iff.mp h2, hv, by rw [e]⟩
  · rintro ⟨set, k, ls, h1, h2, h3, rfl⟩
    have hl := sets_length h3
    obtain ⟨q, hq, e⟩ := loadLoop_complete k h3 ((at' f (1 + 1 + 1)).fields.length + 1) (by simp only [at']; omega)
    rw [readInt_given.mpr h1, Outcome.bind_ok, readReal_iff.mpr h2, Outcome.bind_ok]
    rw [e, Outcome.bind_ok]
    exact end_iff.mpr ⟨hq, rfl⟩

theorem read_load (f : List Line) (s : Said) : read ⟨.load, f⟩ = .ok s ↔ Says ⟨.load, f⟩ s := by
  unfold read
  rw [start_at]
  refine (read_loads false f s).trans ⟨?_, ?_⟩
  · rintro ⟨set, k, ls, h1, h2, h3, rfl⟩
    exact .load f set k ls h1 h2 h3
  · rintro ⟨⟩
    rename_i set k ls h1 h2 h3
    exact ⟨set, k, ls, h1, h2, h3, rfl⟩

theorem read_dload (f : List Line) (s : Said) : read ⟨.dload, f⟩ = .ok s ↔ Says ⟨.dload, f⟩ s := by
  unfold read
  rw [start_at]
  refine (read_loads true f s).trans ⟨?_, ?_⟩
  · rintro ⟨set, k, ls, h1, h2, h3, rfl⟩
    exact .dload f set k ls h1 h2 h3
  · rintro ⟨⟩
    rename_i set k ls h1 h2 h3
    exact ⟨set, k, ls, h1, h2, h3, rfl⟩

theorem read_spcd (f : List Line) (s : Said) (hu : Usual ⟨.spcd, f⟩) :
    read ⟨.spcd, f⟩ = .ok s ↔ Says ⟨.spcd, f⟩ s := by
  obtain ⟨u5, u6⟩ := hu
  unfold read
  rw [start_at]
  simp only [parse, parseSPCD, nextInt_at, nextDouble_at, bind_assoc', Outcome.bind_ok, isNextInt_at]
  constructor
  · intro h
    obtain ⟨set, h1, h⟩ := bind_ok_iff.mp h
    obtain ⟨g, h2, h⟩ := bind_ok_iff.mp h
    obtain ⟨c, h3, h⟩ := bind_ok_iff.mp h
    obtain ⟨d, h4, h⟩ := bind_ok_iff.mp h
    rw [readInt_given] at h1 h2 h3
    rw [readReal_given] at h4
    by_cases hl : intLike (field f (1 + 1 + 1 + 1 + 1)) = true
    · rw [if_pos hl] at h
      simp only [bind_assoc', Outcome.bind_ok] at h
      obtain ⟨g', h5, h⟩ := bind_ok_iff.mp h
      obtain ⟨c', h6, h⟩ := bind_ok_iff.mp h
      obtain ⟨d', h7, h⟩ := bind_ok_iff.mp h
      obtain ⟨dofs, hc, h⟩ := bind_ok_iff.mp h
      rw [readInt_given] at h5 h6
      rw [readReal_given] at h7
      rw [if_pos ⟨fun e => u5 (e ▸ h5), fun e => u6 (e ▸ h6)⟩] at h
      simp only [bind_assoc', Outcome.bind_ok] at h
      obtain ⟨dofs', hc', h⟩ := bind_ok_iff.mp h
      obtain ⟨he, rfl⟩ := end_iff.mp h
      exact .spcd2 f set g c g' c' d d' dofs dofs' h1 h2 h3 h4 hc (like_plain hl h5) h6 h7 hc' he
    · rw [if_neg hl] at h
      simp only [bind_assoc', Outcome.bind_ok] at h
      obtain ⟨dofs, hc, h⟩ := bind_ok_iff.mp h
      obtain ⟨he, rfl⟩ := end_iff.mp h
      exact .spcd f set g c d dofs h1 h2 h3 h4 hc he
  · intro h
    cases h with
    | spcd _ set g c d dofs h1 h2 h3 h4 hc h5 =>
      rw [readInt_given.mpr h1, Outcome.bind_ok, readInt_given.mpr h2, Outcome.bind_ok, readInt_given.mpr h3,
        Outcome.bind_ok, readReal_given.mpr h4, Outcome.bind_ok, blank_intLike (h5 5 (Nat.le_refl _)),
        if_neg (by decide), hc]
      exact end_iff.mpr ⟨h5, rfl⟩
    | spcd2 _ set g c g' c' d d' dofs dofs' h1 h2 h3 h4 hc h5 h6 h7 hc' h8 =>
      rw [readInt_given.mpr h1, Outcome.bind_ok, readInt_given.mpr h2, Outcome.bind_ok, readInt_given.mpr h3,
        Outcome.bind_ok, readReal_given.mpr h4, Outcome.bind_ok, plain_like h5, if_pos rfl, readInt_given.mpr h5.1,
        Outcome.bind_ok, readInt_given.mpr h6, Outcome.bind_ok, readReal_given.mpr h7, Outcome.bind_ok, hc,
        Outcome.bind_ok, if_pos ⟨fun e => u5 (e ▸ h5.1), fun e => u6 (e ▸ h6)⟩, hc']
      exact end_iff.mpr ⟨h8, rfl⟩

theorem maybeTemp_sound {fields : List Line} {p : Nat} {r : List Item × Cursor}
    (h : maybeTemp (at' fields p) = .ok r) : (r = ([], at' fields p)) ∨ ∃ g t, Plain fields p g ∧
      IsReal fields (p + 1) t ∧ r = ([.temperature g t], at' fields (p + 2)) := by
  unfold maybeTemp at h
  rw [isNextInt_at, Outcome.bind_ok] at h
  split at h
  · rename_i hl
    simp only [nextInt_at, nextDouble_at, bind_assoc', Outcome.bind_ok] at h
    obtain ⟨g, h1, h⟩ := bind_ok_iff.mp h
    obtain ⟨t, h2, h⟩ := bind_ok_iff.mp h
    cases h
    exact .inr ⟨g, t, like_plain hl (readInt_given.mp h1), readReal_given.mp h2, rfl⟩
  · cases h
    exact .inl rfl

theorem maybeTemp_some {fields : List Line} {p : Nat} {g : Int} {t : Dbl} (h1 : Plain fields p g)
    (h2 : IsReal fields (p + 1) t) : maybeTemp (at' fields p) = .ok ([.temperature g t], at' fields (p + 2)) := by
  unfold maybeTemp
  rw [isNextInt_at, Outcome.bind_ok, plain_like h1, if_pos rfl]
  simp only [nextInt_at, nextDouble_at, bind_assoc', Outcome.bind_ok]
  rw [readInt_given.mpr h1.1, Outcome.bind_ok, readReal_given.mpr h2]
  rfl

theorem maybeTemp_none {fields : List Line} {p : Nat} (h : Ends fields p) :
    maybeTemp (at' fields p) = .ok ([], at' fields p) := by
  unfold maybeTemp
  rw [isNextInt_at, Outcome.bind_ok, blank_intLike (h p (Nat.le_refl _))]
  rfl

theorem read_temp (f : List Line) (s : Said) : read ⟨.temp, f⟩ = .ok s ↔ Says ⟨.temp, f⟩ s := by
  unfold read
  rw [start_at]
  simp only [parse, parseTEMP, nextInt_at, nextDouble_at, bind_assoc', Outcome.bind_ok]
  constructor
  · intro h
    obtain ⟨set, h1, h⟩ := bind_ok_iff.mp h
    obtain ⟨g, h2, h⟩ := bind_ok_iff.mp h
    obtain ⟨t, h3, h⟩ := bind_ok_iff.mp h
    rw [readInt_given] at h1 h2
    rw [readReal_given] at h3
    obtain ⟨r, h4, h⟩ := bind_ok_iff.mp h
    rcases maybeTemp_sound h4 with rfl | ⟨g2, t2, p2, v2, rfl⟩
    · simp only [bind_assoc', Outcome.bind_ok] at h
      obtain ⟨r', h5, h⟩ := bind_ok_iff.mp h
      rcases maybeTemp_sound h5 with rfl | ⟨g3, t3, p3, v3, rfl⟩
      · obtain ⟨he, rfl⟩ := end_iff.mp h
        exact .temp f set g t [] h1 h2 h3 (.nil _ he) (by decide)
      · obtain ⟨he, rfl⟩ := end_iff.mp h
        exact .temp f set g t [(g3, t3)] h1 h2 h3 (.cons _ _ _ _ p3 v3 (.nil _ he)) (by simp)
    · simp only [bind_assoc', Outcome.bind_ok] at h
      obtain ⟨r', h5, h⟩ := bind_ok_iff.mp h
      rcases maybeTemp_sound h5 with rfl | ⟨g3, t3, p3, v3, rfl⟩
      · obtain ⟨he, rfl⟩ := end_iff.mp h
        exact .temp f set g t [(g2, t2)] h1 h2 h3 (.cons _ _ _ _ p2 v2 (.nil _ he)) (by simp)
      · obtain ⟨he, rfl⟩ := end_iff.mp h
        exact .temp f set g t [(g2, t2), (g3, t3)] h1 h2 h3 (.cons _ _ _ _ p2 v2 (.cons _ _ _ _ p3 v3 (.nil _ he)))
          (by simp)
  · intro h
    cases h with
    | temp _ set g t vs h1 h2 h3 h4 hv =>
      rw [readInt_given.mpr h1, Outcome.bind_ok, readInt_given.mpr h2, Outcome.bind_ok, readReal_given.mpr h3,
        Outcome.bind_ok]
      cases h4 with
      | nil _ he =>
        rw [maybeTemp_none he, Outcome.bind_ok]
        rw [maybeTemp_none he]
        exact end_iff.mpr ⟨he, rfl⟩
      | cons _ g2 t2 rest p2 v2 h4 =>
        rw [maybeTemp_some p2 v2, Outcome.bind_ok]
        cases h4 with
        | nil _ he =>
          rw [maybeTemp_none he]
          exact end_iff.mpr ⟨he, rfl⟩
        | cons _ g3 t3 rest p3 v3 h4 =>
          rw [maybeTemp_some p3 v3]
          cases h4 with
          | nil _ he => exact end_iff.mpr ⟨he, rfl⟩
          | cons => simp at hv

/-- The outcome is not divergence, nor undefined behaviour if this is asked. -/
def Good {α : Type} (k : Bool) (x : Outcome α) : Prop := x ≠ .diverges ∧ (k = true → x ≠ .ub)

theorem good_ok {α : Type} (k : Bool) (a : α) : Good k (.ok a) := ⟨by simp, fun _ => by simp⟩
theorem good_throw {α : Type} (k : Bool) : Good k (.throw : Outcome α) := ⟨by simp, fun _ => by simp⟩

theorem good_bind {α β : Type} {k : Bool} {x : Outcome α} {f : α → Outcome β} (h : Good k x) (hf : ∀ a, Good k (f a)) :
    Good k (x >>= f) := by
  cases x with
  | ok a => exact hf a
  | throw => exact good_throw k
  | ub => exact ⟨fun e => (by cases e), fun hk => absurd rfl (h.2 hk)⟩
  | diverges => exact absurd rfl h.1

theorem good_int (k : Bool) (d : Option Int) (f : Line) : Good k (readInt d f) := by
  unfold readInt
  split
  · cases d
    · exact good_throw k
    · exact good_ok k _
  · split
    · exact good_ok k _
    · exact good_throw k

theorem good_real (k : Bool) (d : Option Dbl) (f : Line) : Good k (readReal d f) := by
  unfold readReal
  split
  · cases d
    · exact good_throw k
    · exact good_ok k _
  · split
    · exact good_ok k _
    · exact good_throw k

theorem good_if {α : Type} {k : Bool} {x y : Outcome α} (b : Bool) (hx : Good k x) (hy : Good k y) :
    Good k (if b = true then x else y) := by
  split
  · exact hx
  · exact hy

theorem good_end {α : Type} (k : Bool) (r : α × Cursor) :
    Good k (if isEmptyUntilNextKeyword r.2 = true then Outcome.ok r.1 else .throw) := good_if _ (good_ok k _) (good_throw k)

theorem nastranLoop_good (orig : Int) : ∀ (m : Nat) (n : Int) (acc : Dofs), n.natAbs ≤ m →
    Dofs.nastranLoop orig n acc ≠ .diverges := by
  intro m
  induction m with
  | zero =>
    intro n acc h
    unfold Dofs.nastranLoop
    rw [dif_pos (by omega)]
    simp
  | succ m ih =>
    intro n acc h
    unfold Dofs.nastranLoop
    split
    · simp
    · rename_i hn
      split
      · unfold Dofs.rejectCode
        split <;> simp
      · apply ih
        rw [Int.natAbs_tdiv]
        have : n.natAbs / 10 < n.natAbs := Nat.div_lt_self (by omega) (by decide)
        exact Nat.le_of_lt_succ (Nat.lt_of_lt_of_le this h)

theorem dofs_good (c : Int) : Good false (Dofs.nastranCodeToDOFS c) := by
  refine ⟨?_, fun h => (by cases h)⟩
  unfold Dofs.nastranCodeToDOFS
  exact nastranLoop_good _ _ _ _ (Nat.le_refl _)

theorem loadLoop_good (s : Dbl) (fields : List Line) : ∀ (fuel p : Nat), fields.length - p < fuel →
    Good true (loadLoop s fuel (at' fields p))
  | 0, p, h => by omega
  | fuel + 1, p, h => by
    unfold loadLoop
    rw [isNextDouble_at, Outcome.bind_ok]
    simp only [nextInt_at, nextDouble_at, bind_assoc', Outcome.bind_ok]
    cases hl : realLike (field fields p) with
    | false => exact good_ok _ _
    | true =>
      have hp : p < fields.length := by
        by_contra hp
        rw [field_out hp] at hl
        cases hl
      exact good_bind (good_real _ _ _) fun _ => good_bind (good_int _ _ _) fun _ =>
        good_bind (loadLoop_good s fields fuel (p + 1 + 1) (by omega)) fun _ => good_ok _ _

theorem sloadLoop_good (fields : List Line) : ∀ (fuel p : Nat), fields.length - p < fuel →
    Good true (sloadLoop fuel (at' fields p))
  | 0, p, h => by omega
  | fuel + 1, p, h => by
    unfold sloadLoop
    rw [isNextInt_at, Outcome.bind_ok]
    simp only [nextInt_at, nextDouble_at, bind_assoc', Outcome.bind_ok]
    cases hl : intLike (field fields p) with
    | false => exact good_ok _ _
    | true =>
      have hp : p < fields.length := by
        by_contra hp
        rw [field_out hp] at hl
        cases hl
      exact good_bind (good_int _ _ _) fun _ => good_bind (good_real _ _ _) fun _ =>
        good_bind (sloadLoop_good fields fuel (p + 1 + 1) (by omega)) fun _ => good_ok _ _

theorem read_good (c : Card) : Good (decide (c.kind ≠ .spcd)) (read c) := by
  obtain ⟨k, f⟩ := c
  unfold read
  rw [start_at]
  have hI := fun d i => good_int true d (field f i)
  have hR := fun d i => good_real true d (field f i)
  cases k with
  | force =>
    simp only [parse, parseFORCE, nextInt_at, nextDouble_at, bind_assoc', Outcome.bind_ok]
    exact good_bind (hI _ _) fun _ => good_bind (hI _ _) fun _ => good_bind (hI _ _) fun _ => good_bind (hR _ _) fun _ =>
      good_bind (hR _ _) fun _ => good_bind (hR _ _) fun _ => good_bind (hR _ _) fun _ => good_end true (_, _)
  | moment =>
    simp only [parse, parseMOMENT, nextInt_at, nextDouble_at, bind_assoc', Outcome.bind_ok]
    exact good_bind (hI _ _) fun _ => good_bind (hI _ _) fun _ => good_bind (hI _ _) fun _ => good_bind (hR _ _) fun _ =>
      good_bind (hR _ _) fun _ => good_bind (hR _ _) fun _ => good_bind (hR _ _) fun _ => good_end true (_, _)
  | force1 =>
    simp only [parse, parseFORCE1, nextInt_at, nextDouble_at, bind_assoc', Outcome.bind_ok]
    exact good_bind (hI _ _) fun _ => good_bind (hI _ _) fun _ => good_bind (hR _ _) fun _ => good_bind (hI _ _) fun _ =>
      good_bind (hI _ _) fun _ => good_end true (_, _)
  | force2 =>
    simp only [parse, parseFORCE2, nextInt_at, nextDouble_at, bind_assoc', Outcome.bind_ok]
    exact good_bind (hI _ _) fun _ => good_bind (hI _ _) fun _ => good_bind (hR _ _) fun _ => good_bind (hI _ _) fun _ =>
      good_bind (hI _ _) fun _ => good_bind (hI _ _) fun _ => good_bind (hI _ _) fun _ => good_end true (_, _)
  | rforce =>
    simp only [parse, parseRFORCE, nextInt_at, nextDouble_at, bind_assoc', Outcome.bind_ok]
    exact good_bind (hI _ _) fun _ => good_bind (hI _ _) fun _ => good_bind (hI _ _) fun _ => good_bind (hR _ _) fun _ =>
      good_bind (hR _ _) fun _ => good_bind (hR _ _) fun _ => good_bind (hR _ _) fun _ => good_bind (hI _ _) fun _ =>
      good_bind (hR _ _) fun _ => good_bind (hI _ _) fun _ => good_end true (_, _)
  | sload =>
    simp only [parse, parseSLOAD, nextInt_at, bind_assoc', Outcome.bind_ok]
    exact good_bind (hI _ _) fun _ => good_bind (sloadLoop_good f _ _ (by simp only [at']; omega)) fun _ =>
      good_end true (_, _)
  | load =>
    simp only [parse, parseLOAD, nextInt_at, nextDouble_at, bind_assoc', Outcome.bind_ok]
    exact good_bind (hI _ _) fun _ => good_bind (hR _ _) fun _ =>
      good_bind (loadLoop_good _ f _ _ (by simp only [at']; omega)) fun _ => good_end true (_, _)
  | dload =>
    simp only [parse, parseLOAD, nextInt_at, nextDouble_at, bind_assoc', Outcome.bind_ok]
    exact good_bind (hI _ _) fun _ => good_bind (hR _ _) fun _ =>
      good_bind (loadLoop_good _ f _ _ (by simp only [at']; omega)) fun _ => good_end true (_, _)
  | temp =>
    have hm : ∀ p, Good true (maybeTemp (at' f p)) := by
      intro p
      unfold maybeTemp
      rw [isNextInt_at, Outcome.bind_ok]
      simp only [nextInt_at, nextDouble_at, bind_assoc', Outcome.bind_ok]
      exact good_if _ (good_bind (hI _ _) fun _ => good_bind (hR _ _) fun _ => good_ok _ _) (good_ok _ _)
    simp only [parse, parseTEMP, nextInt_at, nextDouble_at, bind_assoc', Outcome.bind_ok]
    refine good_bind (hI _ _) fun _ => good_bind (hI _ _) fun _ => good_bind (hR _ _) fun _ => ?_
    have hn : ∀ p q (g : List Item → List Item → Said), maybeTemp (at' f p) = .ok q → Good true (maybeTemp q.2 >>= fun r =>
        if isEmptyUntilNextKeyword r.2 = true then Outcome.ok (g q.1 r.1) else .throw) := by
      intro p q g hq
      rcases maybeTemp_sound hq with rfl | ⟨_, _, _, _, rfl⟩
      · exact good_bind (hm _) fun _ => good_end true (_, _)
      · exact good_bind (hm _) fun _ => good_end true (_, _)
    have h1 := hm (1 + 1 + 1 + 1)
    cases hq : maybeTemp (at' f (1 + 1 + 1 + 1)) with
    | ok q => rw [Outcome.bind_ok]; exact hn _ q (fun a b => ⟨_, false, .temperature _ _ :: (a ++ b)⟩) hq
    | throw => exact good_throw _
    | ub => rw [hq] at h1; exact absurd rfl (h1.2 rfl)
    | diverges => rw [hq] at h1; exact absurd rfl h1.1
  | spcd =>
    have hI := fun d i => good_int false d (field f i)
    have hR := fun d i => good_real false d (field f i)
    simp only [parse, parseSPCD, nextInt_at, nextDouble_at, bind_assoc', Outcome.bind_ok, isNextInt_at]
    refine good_bind (hI _ _) fun _ => good_bind (hI _ _) fun _ => good_bind (hI _ _) fun _ => good_bind (hR _ _) fun _ => ?_
    cases intLike (field f (1 + 1 + 1 + 1 + 1)) with
    | false =>
      exact good_bind (good_bind (dofs_good _) fun _ => good_ok _ _) fun _ => good_end false _
    | true =>
      refine good_bind (good_bind (hI _ _) fun _ => good_bind (hI _ _) fun _ => good_bind (hR _ _) fun _ =>
        good_bind (dofs_good _) fun _ => ?_) fun _ => good_end false _
      split
      · exact good_bind (dofs_good _) fun _ => good_ok _ _
      · exact good_ok _ _

theorem isReal_isReal {f : List Line} {i : Nat} {d x y : Dbl} (h : RealOr f i d x) (h' : RealOr f i d y) : x = y := by
  rcases h' with h' | ⟨h', rfl⟩
  · exact realOr_given h h'
  · exact realOr_blank h h'

theorem intOr_unique {f : List Line} {i : Nat} {d x y : Int} (h : IntOr f i d x) (h' : IntOr f i d y) : x = y :=
  Outcome.ok.inj ((readInt_default.mpr h).symm.trans (readInt_default.mpr h'))

theorem says_unique {c : Card} {s s' : Said} (hsp : c.kind = .spcd → Usual c) (h : Says c s) (h' : Says c s') : s = s' := by
  by_cases hu : c.kind = .moment
  · obtain ⟨k, f⟩ := c
    cases hu
    cases h with
    | moment _ set node cs k x y z h1 h2 h3 h4 h5 h6 h7 =>
      cases h' with
      | moment _ _ _ _ _ _ _ _ g1 g2 g3 g4 g5 g6 g7 =>
        rw [isInt_unique h1 g1, isInt_unique h2 g2, intOr_unique h3 g3, isReal_isReal h4 g4, isReal_isReal h5 g5,
          isReal_isReal h6 g6, isReal_isReal h7 g7]
  · have key : ∀ {s}, Says c s → (c.kind = .spcd → Usual c) → read c = .ok s := by
      intro s h hsp
      obtain ⟨k, f⟩ := c
      cases k with
      | force => exact (read_force f s).mpr h
      | moment => exact absurd rfl hu
      | force1 => exact (read_force1 f s).mpr h
      | force2 => exact (read_force2 f s).mpr h
      | sload => exact (read_sload f s).mpr h
      | rforce =>
        refine (read_rforce f s ?_).mpr h
        cases h with
        | rforce _ _ _ _ _ _ _ h1 h2 h3 h4 h5 h6 h7 h8 h9 h10 => exact ⟨h3, h8, h9, h10⟩
      | spcd => exact (read_spcd f s (hsp rfl)).mpr h
      | temp => exact (read_temp f s).mpr h
      | load => exact (read_load f s).mpr h
      | dload => exact (read_dload f s).mpr h
    exact Outcome.ok.inj ((key h hsp).symm.trans (key h' hsp))

/-! ## C127 -/

/-- A card is accepted exactly when it says something, and this is then what is added to its load set. Rotations with
options, moments with blanks and displacements of a second node -1 or of components -1 are left out. -/
theorem C127_cards_partial (c : Card) (s : Said) (hu : Usual c) : read c = .ok s ↔ Says c s := by
  obtain ⟨k, f⟩ := c
  cases k with
  | force => exact read_force f s
  | moment => exact read_moment f s hu
  | force1 => exact read_force1 f s
  | force2 => exact read_force2 f s
  | sload => exact read_sload f s
  | rforce => exact read_rforce f s hu
  | spcd => exact read_spcd f s hu
  | temp => exact read_temp f s
  | load => exact read_load f s
  | dload => exact read_dload f s

def card (k : Kind) (l : List String) : Card := ⟨k, l.map String.toList⟩

example : read (card .load ["LOAD", "9", "2.", "1.5", "1", "-1+1", "2"]) =
    .ok ⟨9, false, [.embedded 1 3, .embedded 2 (-20)]⟩ := by decide +kernel
example : read (card .temp ["TEMP", "3", "94", "316.2", "49", "219.8"]) =
    .ok ⟨3, false, [.temperature 94 (1581 / 5), .temperature 49 (1099 / 5)]⟩ := by decide +kernel
example : Usual (card .moment ["MOMENT", "2", "5", "6", "2.9", "0.", "1.", "0."]) ∧
    read (card .moment ["MOMENT", "2", "5", "6", "2.9", "0.", "1.", "0."]) =
      .ok ⟨2, false, [.force 5 6 0 0 0 0 (29 / 10) 0]⟩ := by
  refine ⟨fun i h1 h2 => ?_, by decide +kernel⟩
  have : i = 4 ∨ i = 5 ∨ i = 6 ∨ i = 7 := by omega
  unfold Blank
  rcases this with rfl | rfl | rfl | rfl <;> decide +kernel
example : read (card .spcd ["SPCD", "100", "32", "4", "-2.6", "33", "12", "1."]) =
    .ok ⟨100, false, [.displacement 32 (.ofDof .RX) (-13 / 5), .displacement 33 ((Dofs.ofDof .DX).addDof .DY) 1]⟩ := by
  decide +kernel

/-- So for all the cards of a model, one after the other. -/
theorem C127_deck_partial (cs : List Card) (said : List Said) (hu : ∀ c ∈ cs, Usual c) :
    run cs = .ok said ↔ List.Forall₂ Says cs said := by
  induction cs generalizing said with
  | nil =>
    unfold run
    exact ⟨fun h => by cases h; exact .nil, fun h => by cases h; rfl⟩
  | cons c cs ih =>
    have hc := hu c List.mem_cons_self
    have hr := fun x (hx : x ∈ cs) => hu x (List.mem_cons_of_mem _ hx)
    unfold run
    constructor
    · intro h
      obtain ⟨s, h1, h⟩ := bind_ok_iff.mp h
      obtain ⟨rest, h2, h⟩ := bind_ok_iff.mp h
      cases h
      exact .cons ((C127_cards_partial c s hc).mp h1) ((ih rest hr).mp h2)
    · intro h
      cases h with
      | cons h1 h2 =>
        rw [(C127_cards_partial c _ hc).mpr h1, Outcome.bind_ok, (ih _ hr).mpr h2]
        rfl

/-- A load set has the items of the cards of its number and type, and nothing else. -/
theorem C127_sets_partial (cs : List Card) (said : List Said) (hu : ∀ c ∈ cs, Usual c) (h : run cs = .ok said) (set : Int)
    (dynamic : Bool) (i : Item) :
    i ∈ contents said set dynamic ↔ ∃ c ∈ cs, ∃ items, Says c ⟨set, dynamic, items⟩ ∧ i ∈ items := by
  have hf := (C127_deck_partial cs said hu).mp h
  clear h
  unfold contents
  revert hu
  induction hf with
  | nil => simp
  | @cons c s cs said h1 _ ih =>
    intro hu
    replace ih := ih fun x hx => hu x (List.mem_cons_of_mem _ hx)
    rw [List.flatMap_cons, List.mem_append]
    refine (or_congr Iff.rfl ih).trans ?_
    constructor
    · rintro (h' | ⟨c', hc', r⟩)
      · split at h'
        · rename_i e
          obtain ⟨e1, e2⟩ := e
          refine ⟨c, List.mem_cons_self, s.items, ?_, h'⟩
          rw [← e1, ← e2]
          exact h1
        · cases h'
      · exact ⟨c', List.mem_cons_of_mem _ hc', r⟩
    · rintro ⟨c', hc', items, h2, hi⟩
      rcases List.mem_cons.mp hc' with rfl | hc'
      · left
        have e : (⟨set, dynamic, items⟩ : Said) = s := says_unique (fun _ => hu _ List.mem_cons_self) h2 h1
        rw [← e, if_pos ⟨rfl, rfl⟩]
        exact hi
      · exact .inr ⟨c', hc', items, h2, hi⟩

example : ∃ said, run [card .force ["FORCE", "1", "5", "", "2.", "1."], card .load ["LOAD", "1", "", "1.", "7"],
    card .dload ["DLOAD", "1", "", "1.", "7"]] = .ok said ∧
    contents said 1 false = [.force 5 0 2 0 0 0 0 0, .embedded 7 1] ∧ contents said 1 true = [.embedded 7 1] :=
  ⟨[⟨1, false, [.force 5 0 2 0 0 0 0 0]⟩, ⟨1, false, [.embedded 7 1]⟩, ⟨1, true, [.embedded 7 1]⟩], by decide +kernel,
    by decide +kernel, by decide +kernel⟩

/-- Whatever its fields, a card is accepted or refused, but for displacements with components that are not digits 1 to 6. -/
theorem C127_ends (c : Card) : read c ≠ .diverges ∧ (c.kind ≠ .spcd → read c ≠ .ub) := by
  have := read_good c
  exact ⟨this.1, fun h => this.2 (by simpa using h)⟩

example : read (card .load ["LOAD", "9", "2.", "1.5", "X"]) = .throw := by decide +kernel
example : read (card .temp ["TEMP", "3", "94", "316.2", "49", "219.8", "5", "1.", "6", "2."]) = .throw := by decide +kernel

/-- A displacement of a wrong component is not refused: the message is read out of bounds. -/
theorem C127_components_false : ∃ c, c.kind = .spcd ∧ read c = .ub :=
  ⟨card .spcd ["SPCD", "100", "32", "78", "1."], rfl, by decide +kernel⟩

/-- A moment whose component is left blank is not a moment without this component, whatever the card. -/
theorem C127_moment_false (f : List Line) (s : Said) (k : Dbl) (hk : IsReal f 4 k) (h0 : k ≠ 0)
    (hb : Blank f 5 ∨ Blank f 6 ∨ Blank f 7) (h : read ⟨.moment, f⟩ = .ok s) : ¬ Says ⟨.moment, f⟩ s := by
  intro hs
  unfold read at h
  rw [start_at] at h
  simp only [parse, parseMOMENT, nextInt_at, nextDouble_at, bind_assoc', Outcome.bind_ok, bind_ok_iff, readInt_given,
    readInt_default, readReal_iff, end_iff] at h
  obtain ⟨set, h1, node, h2, cs, h3, k', h4, x, h5, y, h6, z, h7, h8, rfl⟩ := h
  obtain rfl := realOr_given h4 hk
  have hu : unavailable ≠ 0 := by decide +kernel
  generalize hg : (⟨set, false, [Item.force node cs 0 0 0 (x * k') (y * k') (z * k')]⟩ : Said) = s at hs
  generalize hc : (⟨.moment, f⟩ : Card) = c at hs
  cases hs <;> try (cases hc)
  rename_i set' node' cs' m x' y' z' g1 g2 g3 g4 g5 g6 g7 g8
  simp only [Said.mk.injEq, List.cons.injEq, Item.force.injEq, true_and, and_true] at hg
  obtain ⟨_, _, _, ex, ey, ez⟩ := hg
  rcases hb with hb | hb | hb
  · rw [realOr_blank h5 hb, realOr_blank g5 hb, mul_zero] at ex
    exact mul_ne_zero hu h0 ex
  · rw [realOr_blank h6 hb, realOr_blank g6 hb, mul_zero] at ey
    exact mul_ne_zero hu h0 ey
  · rw [realOr_blank h7 hb, realOr_blank g7 hb, mul_zero] at ez
    exact mul_ne_zero hu h0 ez

example : read (card .moment ["MOMENT", "2", "5", "6", "1.", "", "1."]) =
    .ok ⟨2, false, [.force 5 6 0 0 0 unavailable 1 unavailable]⟩ := by decide +kernel
example : Says (card .moment ["MOMENT", "2", "5", "6", "1.", "", "1."]) ⟨2, false, [.force 5 6 0 0 0 (1 * 0) (1 * 1) (1 * 0)]⟩ := by
  refine .moment _ 2 5 6 1 0 1 0 (by unfold IsInt; decide +kernel) (by unfold IsInt; decide +kernel)
    (.inl (by unfold IsInt; decide +kernel)) (.inl ⟨by decide +kernel, by decide +kernel⟩)
    (.inr ⟨by unfold Blank; decide +kernel, rfl⟩) (.inl ⟨by decide +kernel, by decide +kernel⟩)
    (.inr ⟨by unfold Blank; decide +kernel, rfl⟩) ?_
  intro i hi
  exact field_out (by change ¬ i < 7; omega)

/-- The coordinate system of the axis of a rotation is dismissed: the same direction is taken in the global system. -/
theorem C127_system_false (f : List Line) (s : Said) (n : Int) (hn : IsInt f 3 n) (h0 : n ≠ 0)
    (h : read ⟨.rforce, f⟩ = .ok s) : ¬ Says ⟨.rforce, f⟩ s ∧ read ⟨.rforce, f.set 3 []⟩ = .ok s := by
  constructor
  · intro hs
    cases hs with
    | rforce _ set g a x y z h1 h2 h3 =>
      rcases h3 with h3 | ⟨h3, _⟩
      · exact h0 (isInt_unique hn h3)
      · unfold IsInt at hn
        rw [h3] at hn
        cases hn
  · have hset : ∀ i, i ≠ 3 → field (f.set 3 []) i = field f i := by
      intro i hi
      unfold field
      rw [List.getD_eq_getElem?_getD, List.getD_eq_getElem?_getD, List.getElem?_set_ne (Ne.symm hi)]
    have h3 : Blank (f.set 3 []) 3 := by
      unfold Blank field
      have hlt := isInt_lt hn
      rw [List.getD_eq_getElem?_getD, List.getElem?_set_self (by omega)]
      rfl
    rw [read_rforce_any] at h ⊢
    simp only [IsInt, IsReal, IntOr, RealOr, Blank, LoadCardsSpec.Ends] at h h3 ⊢
    simp only [hset 1 (by decide), hset 2 (by decide), hset 4 (by decide), hset 5 (by decide), hset 6 (by decide),
      hset 7 (by decide), hset 8 (by decide), hset 9 (by decide), hset 10 (by decide)]
    obtain ⟨set, h1, g, h2, cs, _, a, h4, x, h5, y, h6, z, h7, m, h8, r, h9, b, h10, h11, e⟩ := h
    refine ⟨set, h1, g, h2, 0, .inr ⟨h3, rfl⟩, a, h4, x, h5, y, h6, z, h7, m, h8, r, h9, b, h10, ?_, e⟩
    intro i hi
    rw [hset i (by omega)]
    exact h11 i hi

example : read (card .rforce ["RFORCE", "2", "1", "5", "200.", "0.0", "0.0", "1.0"]) =
    .ok ⟨2, false, [.rotation 200 1 0 0 1]⟩ := by decide +kernel

/-- The field A of RFORCE is a number of turns by unit of time, as this card is generally known; Code_Aster's VITESSE is in
radians (as is said of `getSpeed`, Loading.h 166-169): it is never the right one. -/
theorem C127_turns_false (grid : Int → Option Point) (f : List Line) (s : Said) (a : Dbl) (ha : IsReal f 4 a) (h0 : a ≠ 0)
    (h : read ⟨.rforce, f⟩ = .ok s) :
    ∃ i v axis centre, s.items = [i] ∧ asterRotation grid i = some (v, axis, centre) ∧ v = a ∧
      ((v : ℝ) ≠ 2 * Real.pi * (a : ℝ)) := by
  obtain ⟨set, h1, g, h2, cs, _, a', h4, x, h5, y, h6, z, h7, m, h8, r, h9, b, h10, h11, rfl⟩ := (read_rforce_any f s).mp h
  obtain rfl := isReal_unique h4 ha
  refine ⟨_, _, _, _, rfl, rfl, rfl, ?_⟩
  intro e
  have h0' : (a' : ℝ) ≠ 0 := by exact_mod_cast h0
  have h3 : (1 : ℝ) = 2 * Real.pi := mul_right_cancel₀ h0' (by rw [one_mul]; exact e)
  have := Real.pi_gt_three
  linarith

/-- A rotation about the origin (the node 0) is about a point far away, there being no node 0. -/
theorem C127_origin_false (grid : Int → Option Point) (hg : grid 0 = none) (f : List Line) (s : Said) (h2 : IsInt f 2 0)
    (h : read ⟨.rforce, f⟩ = .ok s) :
    ∃ i v axis centre, s.items = [i] ∧ asterRotation grid i = some (v, axis, centre) ∧ centre ≠ ⟨0, 0, 0⟩ := by
  obtain ⟨set, h1, g, h2', cs, _, a', h4, x, h5, y, h6, z, h7, m, h8, r, h9, b, h10, h11, rfl⟩ := (read_rforce_any f s).mp h
  obtain rfl := isInt_unique h2' h2
  refine ⟨_, _, _, _, rfl, rfl, ?_⟩
  unfold center
  rw [hg]
  decide +kernel

example : read (card .rforce ["RFORCE", "2", "0", "", "200.", "0.0", "0.0", "1.0"]) =
    .ok ⟨2, false, [.rotation 200 0 0 0 1]⟩ := by decide +kernel

/-- A node written with the sign `+` is an integer, but the card is refused when it is the second of SPCD. -/
theorem C127_plus_false : ∃ f : List Line, IsInt f 5 33 ∧ IsInt f 6 1 ∧ IsReal f 7 1 ∧ read ⟨.spcd, f⟩ = .throw ∧
    ∃ s, read ⟨.spcd, f.set 5 "33".toList⟩ = .ok s :=
  ⟨["SPCD", "100", "32", "4", "-2.6", "+33", "1", "1."].map String.toList, by unfold IsInt; decide +kernel,
    by unfold IsInt; decide +kernel, ⟨by decide +kernel, by decide +kernel⟩, by decide +kernel,
    ⟨100, false, [.displacement 32 (.ofDof .RX) (-13 / 5), .displacement 33 (.ofDof .DX) 1]⟩, by decide +kernel⟩

/-- A second displacement of components -1 is not refused: it is silently left out. -/
theorem C127_minus_false : ∃ c s, IsInt c.fields 5 33 ∧ IsInt c.fields 6 (-1) ∧ read c = .ok s ∧ s.items.length = 1 ∧
    Dofs.nastranCodeToDOFS (-1) = .ub :=
  ⟨card .spcd ["SPCD", "100", "32", "4", "-2.6", "33", "-1", "1."],
    ⟨100, false, [.displacement 32 (.ofDof .RX) (-13 / 5)]⟩, by unfold IsInt; decide +kernel,
    by unfold IsInt; decide +kernel, by decide +kernel, by decide +kernel, by decide +kernel⟩

end LoadCards
end Vega
