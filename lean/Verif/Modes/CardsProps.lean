import Verif.Constraint.ContactsProps
import Verif.Modes.Cards

/-!
# The modes that cards ask for (C139)
-/
namespace Vega

namespace ModeCardsSpec
open Nastran ModeCards BarsSpec LoadCardsSpec

/-- An integer that may be left blank. -/
def MaybeInt (card : List Line) (i : Nat) : Option Int → Prop
  | none => Blank card i
  | some n => IsInt card i n

/-- A real that may be left blank. -/
def MaybeReal (card : List Line) (i : Nat) : Option Dbl → Prop
  | none => Blank card i
  | some x => IsReal card i x

/-- How the modes are to be normalised: to a generalised mass of one, unless the largest component is to be one. -/
def NormIs (card : List Line) (i : Nat) : Norm → Prop
  | .mass => Blank card i ∨ toUpper (field card i) = "MASS".toList
  | .max => toUpper (field card i) = "MAX".toList

/-- The number of modes: that of the card; without it all those up to the upper bound, and one if there is no bound either. -/
def Number (nd : Option Int) (upper : Option Dbl) (n : Option Int) : Prop :=
  match nd, upper with
  | some k, _ => n = some k
  | none, some _ => n = none
  | none, none => n = some 1

/-- A method for complex modes. -/
def SolverIs (card : List Line) (i : Nat) : Solver → Prop
  | .arno => Blank card i ∨ toUpper (field card i) = "ARNO".toList
  | .hess => toUpper (field card i) = "HESS".toList
  | .clan => toUpper (field card i) = "CLAN".toList

/-- What a card asks for, as these cards are generally known. In `EIGB` the field after NDN is blank, and NORM, G and C begin the
second line. -/
inductive Says : Card → Entry → Prop where
  | eigrl (f : List Line) (set : Int) (lo hi : Option Dbl) (nd n : Option Int) (norm : Norm) (h1 : IsInt f 1 set)
      (h2 : MaybeReal f 2 lo) (h3 : MaybeReal f 3 hi) (h4 : MaybeInt f 4 nd) (hn : Number nd hi n) (h5 : IntOrBlank f 5)
      (h6 : IntOrBlank f 6) (h7 : RealOrBlank f 7) (h8 : NormIs f 8 norm) (h9 : Ends f 9) :
      Says ⟨.eigrl, f⟩ (.search set ⟨lo, n, hi⟩ norm)
  | eigr (f : List Line) (set : Int) (lo hi : Option Dbl) (nd n : Option Int) (norm : Norm) (h1 : IsInt f 1 set)
      (h2 : toUpper (field f 2) = "LAN".toList) (h3 : MaybeReal f 3 lo) (h4 : MaybeReal f 4 hi) (h5 : IntOrBlank f 5)
      (h6 : MaybeInt f 6 nd) (hn : Number nd hi n) (h9 : NormIs f 9 norm) (h10 : IntOrBlank f 10) (h11 : IntOrBlank f 11)
      (h12 : Ends f 12) : Says ⟨.eigr, f⟩ (.search set ⟨lo, n, hi⟩ norm)
  | eigb (f : List Line) (set : Int) (lo hi : Option Dbl) (nd n : Option Int) (norm : Norm) (h1 : IsInt f 1 set)
      (h3 : MaybeReal f 3 lo) (h4 : MaybeReal f 4 hi) (h5 : IntOrBlank f 5) (h6 : MaybeInt f 6 nd) (hn : Number nd hi n)
      (h7 : IntOrBlank f 7) (h9 : NormIs f 9 norm) (h10 : IntOrBlank f 10) (h11 : IntOrBlank f 11)
      (h12 : Ends f 12) : Says ⟨.eigb, f⟩ (.search set ⟨lo, n, hi⟩ norm)
  | eigc (f : List Line) (set number : Int) (s : Solver) (h1 : IsInt f 1 set) (h2 : SolverIs f 2 s)
      (h3 : ContactsSpec.WordOr f 3 "MAX") (h4 : IntOrBlank f 4) (h5 : IntOrBlank f 5) (h6 : RealOrBlank f 6)
      (h7 : IsInt f 7 number) (h8 : Ends f 8) : Says ⟨.eigc, f⟩ (.complex set number s)

/-- What is left out: numbers that stand for a blank, other norms than MASS and MAX, other methods for complex modes than these
three, and a norm on `EIGB`. -/
def Usual (c : Card) : Prop :=
  (∀ i x, IsReal c.fields i x → MaterialsSpec.Ordinary x) ∧ (∀ i, ¬ IsInt c.fields i Bars.noInt) ∧
    match c.keyword with
    | .eigrl => ∃ n, NormIs c.fields 8 n
    | .eigr => ∃ n, NormIs c.fields 9 n
    | .eigb => ∀ i, 9 ≤ i → Blank c.fields i
    | .eigc => ∃ s, SolverIs c.fields 2 s

/-- The words of Code_Aster for the two normalisations, as they are generally known. -/
def AsterWord : Norm → String
  | .mass => "MASS_GENE"
  | .max => "TRAN_ROTA"

/-- The search of this set that the cards of a file ask for. -/
def Asks (es : List Entry) (set : Int) (b : Modes.Band) (n : Norm) : Prop :=
  .search set b n ∈ es ∧ ∀ b' n', .search set b' n' ∈ es → b' = b ∧ n' = n

end ModeCardsSpec

namespace ModeCards
open Nastran Modes BarsSpec Bars MaterialsSpec LoadCards Contacts ModeCardsSpec
open LoadCardsSpec hiding Says Usual
open ContactsSpec (WordOr)

/-! ## Lemmas -/

theorem maybeInt_iff {f : List Line} {i : Nat} (hu : ¬ IsInt f i noInt) {o : Option Int} :
    MaybeInt f i o ↔ ∃ n, readInt (some noInt) (field f i) = .ok n ∧ maybeInt n = o := by
  simp only [readInt_default]
  constructor
  · intro h
    cases o with
    | none => exact ⟨noInt, .inr ⟨h, rfl⟩, if_pos rfl⟩
    | some n => exact ⟨n, .inl h, if_neg (fun e : n = noInt => hu (e ▸ h))⟩
  · rintro ⟨n, h | ⟨h, rfl⟩, rfl⟩
    · rw [maybeInt, if_neg (fun e : n = noInt => hu (e ▸ h))]
      exact h
    · rw [maybeInt, if_pos rfl]
      exact h

theorem maybeReal_iff {f : List Line} {i : Nat} (hu : ∀ x, IsReal f i x → Ordinary x) {o : Option Dbl} :
    MaybeReal f i o ↔ ∃ x, readReal (some unavailable) (field f i) = .ok x ∧ maybeReal x = o := by
  have key : ∀ x, IsReal f i x → maybeReal x = some x := fun x h => by
    have : isEqual x unavailable = false := isEqual_unavailable_of_le_half x (hu x h)
    simp [maybeReal, this]
  have hun : maybeReal unavailable = none := by
    have : isEqual unavailable unavailable = true := isEqual_self _
    simp [maybeReal, this]
  simp only [readReal_iff]
  constructor
  · intro h
    cases o with
    | none => exact ⟨unavailable, .inr ⟨h, rfl⟩, hun⟩
    | some x => exact ⟨x, .inl h, key x h⟩
  · rintro ⟨x, h | ⟨h, rfl⟩, rfl⟩
    · rw [key x h]
      exact h
    · rw [hun]
      exact h

theorem intOrBlank_iff {f : List Line} {i : Nat} {d : Int} :
    IntOrBlank f i ↔ ∃ n, readInt (some d) (field f i) = .ok n := by
  constructor
  · exact fun h => readInt_some h
  · rintro ⟨n, h⟩
    rcases readInt_default.mp h with h | ⟨h, _⟩
    · exact .inr ⟨n, h⟩
    · exact .inl h

theorem realOrBlank_iff {f : List Line} {i : Nat} {d : Dbl} :
    RealOrBlank f i ↔ ∃ n, readReal (some d) (field f i) = .ok n := by
  constructor
  · exact fun h => readReal_some h
  · rintro ⟨n, h⟩
    rcases readReal_iff.mp h with h | ⟨h, _⟩
    · exact .inr ⟨n, h⟩
    · exact .inl h

/-- A word with a default is always read. -/
theorem word_total (d f : Line) : readWord (some d) f = .ok (if f.isEmpty then d else toUpper f) := by
  unfold readWord
  split <;> rfl

theorem normIs_unique {f : List Line} {i : Nat} {m n : Norm} (h : NormIs f i m) (h' : NormIs f i n) : m = n := by
  have hu : ∀ {l : Line}, l = [] → toUpper l = [] := by rintro _ rfl; rfl
  cases m <;> cases n <;> try rfl
  all_goals
    simp only [NormIs, Blank] at h h'
    first
      | rcases h with h | h
        · rw [hu h] at h'; exact absurd h' (by decide)
        · rw [h] at h'; exact absurd h' (by decide)
      | rcases h' with h' | h'
        · rw [hu h'] at h; exact absurd h (by decide)
        · rw [h'] at h; exact absurd h (by decide)

theorem normOf_iff {f : List Line} {i : Nat} {n : Norm} (h : NormIs f i n) :
    normOf (if (field f i).isEmpty then "MASS".toList else toUpper (field f i)) = n := by
  cases n with
  | mass =>
    rcases h with h | h
    · unfold Blank at h
      rw [h]; rfl
    · rw [h]
      by_cases he : (field f i).isEmpty <;> simp [he, normOf]
  | max =>
    have hne : (field f i).isEmpty = false := by
      unfold NormIs at h
      cases hf : field f i with
      | nil =>
        simp only [hf] at h
        exact absurd h (by decide)
      | cons => rfl
    unfold NormIs at h
    simp only at h
    rw [hne, h]
    decide

theorem solverOf_iff {f : List Line} {i : Nat} {s : Solver} (h : SolverIs f i s) :
    solverOf (if (field f i).isEmpty then "ARNO".toList else toUpper (field f i)) = s := by
  have hne : ∀ w : String, w.toList ≠ [] → toUpper (field f i) = w.toList → (field f i).isEmpty = false := by
    intro w hw h
    cases hf : field f i with
    | nil => rw [hf] at h; exact absurd h.symm hw
    | cons => rfl
  cases s with
  | arno =>
    rcases h with h | h
    · unfold Blank at h
      rw [h]; rfl
    · rw [h]
      by_cases he : (field f i).isEmpty <;> simp [he, solverOf]
  | hess =>
    rw [hne "HESS" (by decide) h, show toUpper (field f i) = _ from h]
    decide
  | clan =>
    rw [hne "CLAN" (by decide) h, show toUpper (field f i) = _ from h]
    decide

theorem solverIs_unique {f : List Line} {i : Nat} {m n : Solver} (h : SolverIs f i m) (h' : SolverIs f i n) : m = n :=
  (solverOf_iff h).symm.trans (solverOf_iff h')

theorem number_iff {nd n : Option Int} {hi : Option Dbl} (lo : Option Dbl) :
    Number nd hi n ↔ parseBand lo hi nd = ⟨lo, n, hi⟩ := by
  unfold Number parseBand
  cases nd <;> cases hi <;> simp [eq_comm]

theorem run_end {α : Type} (x y : α) (fields : List Line) (p : Nat) :
    (if isEmptyUntilNextKeyword (at' fields p) then Outcome.ok x else .throw) = .ok y ↔ LoadCardsSpec.Ends fields p ∧ x = y :=
  end_iff

theorem eigrl_iff (f : List Line) (e : Entry) (hu : Usual ⟨.eigrl, f⟩) : read ⟨.eigrl, f⟩ = .ok e ↔ Says ⟨.eigrl, f⟩ e := by
  obtain ⟨hr, hi, m, hm⟩ := hu
  simp only at hm hr hi
  unfold read command
  rw [start_at]
  unfold parseEIGRL
  simp only [nextInt_at, nextDouble_at, nextWord_at, bind_assoc', Outcome.bind_ok, word_total, normOf_iff hm]
  constructor
  · intro h
    obtain ⟨id, h1, h⟩ := bind_ok_iff.mp h
    obtain ⟨lo, h2, h⟩ := bind_ok_iff.mp h
    obtain ⟨up, h3, h⟩ := bind_ok_iff.mp h
    obtain ⟨nd, h4, h⟩ := bind_ok_iff.mp h
    obtain ⟨a, h5, h⟩ := bind_ok_iff.mp h
    obtain ⟨b, h6, h⟩ := bind_ok_iff.mp h
    obtain ⟨c, h7, h⟩ := bind_ok_iff.mp h
    obtain ⟨he, rfl⟩ := end_iff.mp h
    exact .eigrl f id _ _ _ _ m (readInt_given.mp h1) ((maybeReal_iff (hr 2)).mpr ⟨_, h2, rfl⟩)
      ((maybeReal_iff (hr 3)).mpr ⟨_, h3, rfl⟩) ((maybeInt_iff (hi 4)).mpr ⟨_, h4, rfl⟩) ((number_iff none).mpr rfl)
      (intOrBlank_iff.mpr ⟨a, h5⟩) (intOrBlank_iff.mpr ⟨b, h6⟩) (realOrBlank_iff.mpr ⟨c, h7⟩) hm he
  · intro h
    cases h with
    | eigrl _ id lo up nd n norm h1 h2 h3 h4 hn h5 h6 h7 h8 h9 =>
      obtain ⟨x2, h2', rfl⟩ := (maybeReal_iff (hr 2)).mp h2
      obtain ⟨x3, h3', rfl⟩ := (maybeReal_iff (hr 3)).mp h3
      obtain ⟨x4, h4', rfl⟩ := (maybeInt_iff (hi 4)).mp h4
      obtain ⟨x5, h5⟩ := (intOrBlank_iff (d := noInt)).mp h5
      obtain ⟨x6, h6⟩ := (intOrBlank_iff (d := noInt)).mp h6
      obtain ⟨x7, h7⟩ := (realOrBlank_iff (d := unavailable)).mp h7
      rw [readInt_given.mpr h1, Outcome.bind_ok, h2', Outcome.bind_ok, h3', Outcome.bind_ok, h4', Outcome.bind_ok, h5,
        Outcome.bind_ok, h6, Outcome.bind_ok, h7, Outcome.bind_ok]
      exact end_iff.mpr ⟨h9, by rw [(number_iff _).mp hn, normIs_unique hm h8]⟩

theorem lan_iff {f : List Line} {i : Nat} :
    (if (field f i).isEmpty then [] else toUpper (field f i)) = "LAN".toList ↔ toUpper (field f i) = "LAN".toList := by
  cases field f i with
  | nil => exact ⟨fun h => h, fun h => h⟩
  | cons => rfl

theorem eigr_iff (f : List Line) (e : Entry) (hu : Usual ⟨.eigr, f⟩) : read ⟨.eigr, f⟩ = .ok e ↔ Says ⟨.eigr, f⟩ e := by
  obtain ⟨hr, hi, m, hm⟩ := hu
  simp only at hm hr hi
  unfold read command
  rw [start_at]
  unfold parseEIGR
  simp only [nextInt_at, nextWord_at, bind_assoc', Outcome.bind_ok, word_total]
  constructor
  · intro h
    obtain ⟨id, h1, h⟩ := bind_ok_iff.mp h
    by_cases hl : toUpper (field f 2) = "LAN".toList
    swap
    · rw [if_pos (fun h => hl (lan_iff.mp h))] at h
      cases h
    rw [if_neg (by rw [not_not]; exact lan_iff.mpr hl)] at h
    simp only [nextInt_at, nextDouble_at, nextWord_at, skip_at, bind_assoc', Outcome.bind_ok, word_total, normOf_iff hm] at h
    obtain ⟨lo, h3, h⟩ := bind_ok_iff.mp h
    obtain ⟨up, h4, h⟩ := bind_ok_iff.mp h
    obtain ⟨a, h5, h⟩ := bind_ok_iff.mp h
    obtain ⟨nd, h6, h⟩ := bind_ok_iff.mp h
    obtain ⟨b, h10, h⟩ := bind_ok_iff.mp h
    obtain ⟨c, h11, h⟩ := bind_ok_iff.mp h
    obtain ⟨he, rfl⟩ := end_iff.mp h
    exact .eigr f id _ _ _ _ m (readInt_given.mp h1) hl
      ((maybeReal_iff (hr 3)).mpr ⟨_, h3, rfl⟩) ((maybeReal_iff (hr 4)).mpr ⟨_, h4, rfl⟩) (intOrBlank_iff.mpr ⟨a, h5⟩)
      ((maybeInt_iff (hi 6)).mpr ⟨_, h6, rfl⟩) ((number_iff none).mpr rfl)
      hm (intOrBlank_iff.mpr ⟨b, h10⟩) (intOrBlank_iff.mpr ⟨c, h11⟩) he
  · intro h
    cases h with
    | eigr _ id lo up nd n norm h1 h2 h3 h4 h5 h6 hn h9 h10 h11 h12 =>
      obtain ⟨x3, h3', rfl⟩ := (maybeReal_iff (hr 3)).mp h3
      obtain ⟨x4, h4', rfl⟩ := (maybeReal_iff (hr 4)).mp h4
      obtain ⟨x5, h5⟩ := (intOrBlank_iff (d := noInt)).mp h5
      obtain ⟨x6, h6', rfl⟩ := (maybeInt_iff (hi 6)).mp h6
      obtain ⟨x10, h10⟩ := (intOrBlank_iff (d := noInt)).mp h10
      obtain ⟨x11, h11⟩ := (intOrBlank_iff (d := noInt)).mp h11
      rw [readInt_given.mpr h1, Outcome.bind_ok, if_neg (by rw [not_not]; exact lan_iff.mpr h2)]
      simp only [nextInt_at, nextDouble_at, nextWord_at, skip_at, bind_assoc', Outcome.bind_ok, word_total, normOf_iff hm]
      rw [h3', Outcome.bind_ok, h4', Outcome.bind_ok, h5, Outcome.bind_ok, h6', Outcome.bind_ok, h10, Outcome.bind_ok, h11,
        Outcome.bind_ok]
      exact end_iff.mpr ⟨h12, by rw [(number_iff _).mp hn, normIs_unique hm h9]⟩

/-- What is read from `EIGB`: the word in the tenth field, not in the ninth, is taken for the norm. -/
theorem eigb_read (f : List Line) (e : Entry) : read ⟨.eigb, f⟩ = .ok e ↔ ∃ set lo hi nd, IsInt f 1 set ∧
    readReal (some unavailable) (field f 3) = .ok lo ∧ readReal (some unavailable) (field f 4) = .ok hi ∧ IntOrBlank f 5 ∧
    readInt (some noInt) (field f 6) = .ok nd ∧ IntOrBlank f 7 ∧ IntOrBlank f 11 ∧ IntOrBlank f 12 ∧ Ends f 13 ∧
    e = .search set (parseBand (maybeReal lo) (maybeReal hi) (maybeInt nd))
      (normOf (if (field f 10).isEmpty then "MASS".toList else toUpper (field f 10))) := by
  unfold read command
  rw [start_at]
  unfold parseEIGB
  simp only [nextInt_at, nextDouble_at, nextWord_at, skip_at, bind_assoc', Outcome.bind_ok, word_total]
  constructor
  · intro h
    obtain ⟨id, h1, h⟩ := bind_ok_iff.mp h
    obtain ⟨lo, h3, h⟩ := bind_ok_iff.mp h
    obtain ⟨up, h4, h⟩ := bind_ok_iff.mp h
    obtain ⟨a, h5, h⟩ := bind_ok_iff.mp h
    obtain ⟨nd, h6, h⟩ := bind_ok_iff.mp h
    obtain ⟨d, h7, h⟩ := bind_ok_iff.mp h
    obtain ⟨b, h10, h⟩ := bind_ok_iff.mp h
    obtain ⟨c, h11, h⟩ := bind_ok_iff.mp h
    obtain ⟨he, rfl⟩ := end_iff.mp h
    exact ⟨id, lo, up, nd, readInt_given.mp h1, h3, h4, intOrBlank_iff.mpr ⟨a, h5⟩, h6, intOrBlank_iff.mpr ⟨d, h7⟩,
      intOrBlank_iff.mpr ⟨b, h10⟩, intOrBlank_iff.mpr ⟨c, h11⟩, he, rfl⟩
  · rintro ⟨id, lo, up, nd, h1, h3, h4, h5, h6, h7, h11, h12, h13, rfl⟩
    obtain ⟨x5, h5⟩ := (intOrBlank_iff (d := noInt)).mp h5
    obtain ⟨x7, h7⟩ := (intOrBlank_iff (d := noInt)).mp h7
    obtain ⟨x11, h11⟩ := (intOrBlank_iff (d := noInt)).mp h11
    obtain ⟨x12, h12⟩ := (intOrBlank_iff (d := noInt)).mp h12
    rw [readInt_given.mpr h1, Outcome.bind_ok, h3, Outcome.bind_ok, h4, Outcome.bind_ok, h5, Outcome.bind_ok, h6,
      Outcome.bind_ok, h7, Outcome.bind_ok, h11, Outcome.bind_ok, h12, Outcome.bind_ok]
    exact end_iff.mpr ⟨h13, rfl⟩

theorem eigb_iff (f : List Line) (e : Entry) (hu : Usual ⟨.eigb, f⟩) : read ⟨.eigb, f⟩ = .ok e ↔ Says ⟨.eigb, f⟩ e := by
  obtain ⟨hr, hi, hm⟩ := hu
  simp only at hm hr hi
  have hb : NormIs f 9 .mass := .inl (hm 9 (by omega))
  have hn : normOf (if (field f 10).isEmpty then "MASS".toList else toUpper (field f 10)) = .mass :=
    normOf_iff (n := .mass) (.inl (hm 10 (by omega)))
  rw [eigb_read, hn]
  constructor
  · rintro ⟨id, lo, up, nd, h1, h3, h4, h5, h6, h7, -, -, -, rfl⟩
    exact .eigb f id _ _ _ _ .mass h1 ((maybeReal_iff (hr 3)).mpr ⟨_, h3, rfl⟩) ((maybeReal_iff (hr 4)).mpr ⟨_, h4, rfl⟩) h5
      ((maybeInt_iff (hi 6)).mpr ⟨_, h6, rfl⟩) ((number_iff none).mpr rfl) h7 hb (.inl (hm 10 (by omega)))
      (.inl (hm 11 (by omega))) fun i h => hm i (by omega)
  · intro h
    cases h with
    | eigb _ id lo up nd n norm h1 h3 h4 h5 h6 hn h7 h9 h10 h11 h12 =>
      obtain ⟨x3, h3', rfl⟩ := (maybeReal_iff (hr 3)).mp h3
      obtain ⟨x4, h4', rfl⟩ := (maybeReal_iff (hr 4)).mp h4
      obtain ⟨x6, h6', rfl⟩ := (maybeInt_iff (hi 6)).mp h6
      exact ⟨id, x3, x4, x6, h1, h3', h4', h5, h6', h7, .inl (hm 11 (by omega)), .inl (hm 12 (by omega)),
        fun i h => hm i (by omega), by rw [(number_iff _).mp hn, normIs_unique h9 hb]⟩

theorem eigc_iff (f : List Line) (e : Entry) (hu : Usual ⟨.eigc, f⟩) : read ⟨.eigc, f⟩ = .ok e ↔ Says ⟨.eigc, f⟩ e := by
  obtain ⟨hr, hi, s, hs⟩ := hu
  simp only at hs hr hi
  unfold read command
  rw [start_at]
  unfold parseEIGC
  simp only [nextInt_at, nextWord_at, bind_assoc', Outcome.bind_ok]
  constructor
  · intro h
    obtain ⟨id, h1, h⟩ := bind_ok_iff.mp h
    rw [word_total, Outcome.bind_ok] at h
    obtain ⟨w, h3, h⟩ := bind_ok_iff.mp h
    split at h
    · cases h
    rename_i hw
    have hw : w = "MAX".toList := by simpa using hw
    subst hw
    simp only [nextInt_at, nextDouble_at, bind_assoc', Outcome.bind_ok] at h
    obtain ⟨a, h4, h⟩ := bind_ok_iff.mp h
    obtain ⟨b, h5, h⟩ := bind_ok_iff.mp h
    obtain ⟨c, h6, h⟩ := bind_ok_iff.mp h
    obtain ⟨nd, h7, h⟩ := bind_ok_iff.mp h
    obtain ⟨he, rfl⟩ := end_iff.mp h
    rw [solverOf_iff hs]
    exact .eigc f id nd s (readInt_given.mp h1) hs (readWord_or.mp h3) (intOrBlank_iff.mpr ⟨a, h4⟩)
      (intOrBlank_iff.mpr ⟨b, h5⟩) (realOrBlank_iff.mpr ⟨c, h6⟩) (readInt_given.mp h7) he
  · intro h
    cases h with
    | eigc _ id nd s' h1 h2 h3 h4 h5 h6 h7 h8 =>
      obtain ⟨x4, h4⟩ := (intOrBlank_iff (d := noInt)).mp h4
      obtain ⟨x5, h5⟩ := (intOrBlank_iff (d := noInt)).mp h5
      obtain ⟨x6, h6⟩ := (realOrBlank_iff (d := 1 / 1000000)).mp h6
      rw [readInt_given.mpr h1, Outcome.bind_ok, word_total, Outcome.bind_ok, readWord_or.mpr h3, Outcome.bind_ok,
        if_neg (by simp)]
      simp only [nextInt_at, nextDouble_at, bind_assoc', Outcome.bind_ok]
      rw [h4, Outcome.bind_ok, h5, Outcome.bind_ok, h6, Outcome.bind_ok, readInt_given.mpr h7, Outcome.bind_ok,
        solverOf_iff h2]
      exact end_iff.mpr ⟨h8, rfl⟩

/-! ## Reading the cards -/

/-- A card is read as what it says, and refused if it says nothing. Missing: what `Usual` leaves out, for which see
`C139_norm_false` and `C139_eigb_false`, and numbers that are not exact. -/
theorem C139_cards_partial (c : Card) (e : Entry) (hu : Usual c) : read c = .ok e ↔ Says c e := by
  obtain ⟨k, f⟩ := c
  cases k with
  | eigb => exact eigb_iff f e hu
  | eigc => exact eigc_iff f e hu
  | eigr => exact eigr_iff f e hu
  | eigrl => exact eigrl_iff f e hu

def card (k : Keyword) (l : List String) : Card := ⟨k, l.map String.toList⟩

/-- Numbers on a line that are not those that stand for a blank. -/
theorem usual_of {f : List Line} (h : f.all (fun x => decide (parseInt (trim x) ≠ some noInt)) = true)
    (h' : f.all (fun x => match lexicalDouble (normReal (trim x)) with | none => true | some y => decide (|y| ≤ dblMax / 2)) = true) :
    (∀ i x, IsReal f i x → Ordinary x) ∧ ∀ i, ¬ IsInt f i noInt := by
  rw [List.all_eq_true] at h h'
  refine ⟨fun i x hx => ?_, fun i hx => ?_⟩
  · obtain ⟨h0, hx⟩ := hx
    unfold field at h0 hx
    by_cases hi : i < f.length
    · rw [List.getD_eq_getElem?_getD, List.getElem?_eq_getElem hi, Option.getD_some] at hx
      have := h' _ (List.getElem_mem hi)
      rw [hx] at this
      show |x| ≤ dblMax / 2; simpa using this
    · rw [List.getD_eq_getElem?_getD, List.getElem?_eq_none (by omega)] at h0
      exact absurd rfl h0
  · unfold IsInt field at hx
    by_cases hi : i < f.length
    · rw [List.getD_eq_getElem?_getD, List.getElem?_eq_getElem hi, Option.getD_some] at hx
      have := h _ (List.getElem_mem hi)
      rw [hx] at this
      simp at this
    · rw [List.getD_eq_getElem?_getD, List.getElem?_eq_none (by omega)] at hx
      cases hx

/-! ## What is written -/

theorem readAll_ok {cs : List Card} {es : List Entry} (hu : ∀ c ∈ cs, Usual c) (h : List.Forall₂ Says cs es) :
    readAll cs = .ok es := by
  induction h with
  | nil => rfl
  | cons h _ ih =>
    unfold readAll
    rw [(C139_cards_partial _ _ (hu _ (by simp))).mpr h, Outcome.bind_ok, ih fun c hc => hu c (by simp [hc]), Outcome.bind_ok]

theorem mem_ofSet {es : List Entry} {set : Int} {b : Band} {n : Norm} : (b, n) ∈ ofSet es set ↔ .search set b n ∈ es := by
  unfold ofSet
  rw [List.mem_filterMap]
  constructor
  · rintro ⟨e, he, h⟩
    cases e with
    | search s b' n' =>
      simp only at h
      split at h
      · rename_i hs
        cases h
        rw [← hs]
        exact he
      · cases h
    | complex => cases h
  · exact fun h => ⟨_, h, by simp⟩

theorem search_asks {es : List Entry} {set : Int} {b : Band} {n : Norm} (h : Asks es set b n) : search es set = .ok (b, n) := by
  have hm := mem_ofSet.mpr h.1
  unfold search
  cases he : ofSet es set with
  | nil => rw [he] at hm; cases hm
  | cons r rs =>
    obtain ⟨b', n'⟩ := r
    obtain ⟨rfl, rfl⟩ := h.2 b' n' (mem_ofSet.mp (by rw [he]; exact List.mem_cons_self))
    rfl

/-- A modal analysis of the cards of a file is written with the band and the norm of the only card of its set: for Code_Aster with
the word for the norm, for Systus with a word for the mass only. What is written for the band is the subject of C106. Missing: as in
`C139_cards_partial`, and sets without a card or with several. -/
theorem C139_written_partial (cs : List Card) (es : List Entry) (hu : ∀ c ∈ cs, Usual c) (h : List.Forall₂ Says cs es) (set : Int)
    (b : Band) (n : Norm) (ha : Asks es set b n) (power : Bool) (cut : Cutoffs) (version : Int) :
    readAll cs = .ok es ∧ writeAster false power cut es set = .ok (writeBand false power cut b, some (AsterWord n)) ∧
      writeAster true power cut es set = .ok (writeBand true power cut b, none) ∧
      ∃ s, writeSubspace true version cut (.band b) = .ok s ∧
        writeSystus version cut es set = .ok (s, match n with | .mass => " NORM MASS" | .max => "") := by
  refine ⟨readAll_ok hu h, ?_, ?_, _, rfl, ?_⟩
  · unfold writeAster
    rw [search_asks ha, Outcome.bind_ok]
    cases n <;> rfl
  · unfold writeAster
    rw [search_asks ha, Outcome.bind_ok]
    rfl
  · unfold writeSystus
    rw [search_asks ha, Outcome.bind_ok]
    cases n <;> rfl

def sample : List Card :=
  [card .eigrl ["EIGRL", "10", "", "500.", "", "", "", "", "MAX"], card .eigr ["EIGR", "20", "lan", "0.5", "", "", "12"],
   card .eigb ["EIGB", "30", "INV", "", "", "", "3"], card .eigc ["EIGC", "10", "HESS", "", "", "", "", "5"]]

def sampleSaid : List Entry :=
  [.search 10 ⟨none, none, some 500⟩ .max, .search 20 ⟨some (1/2), some 12, none⟩ .mass, .search 30 ⟨none, some 3, none⟩ .mass,
   .complex 10 5 .hess]

theorem sample_usual : ∀ c ∈ sample, Usual c := by
  intro c hc
  fin_cases hc
  · obtain ⟨a, b⟩ := usual_of (f := (card .eigrl ["EIGRL", "10", "", "500.", "", "", "", "", "MAX"]).fields)
      (by decide +kernel) (by decide +kernel)
    exact ⟨a, b, .max, by show toUpper _ = _; decide +kernel⟩
  · obtain ⟨a, b⟩ := usual_of (f := (card .eigr ["EIGR", "20", "lan", "0.5", "", "", "12"]).fields)
      (by decide +kernel) (by decide +kernel)
    exact ⟨a, b, .mass, .inl (by show field _ _ = _; decide +kernel)⟩
  · obtain ⟨a, b⟩ := usual_of (f := (card .eigb ["EIGB", "30", "INV", "", "", "", "3"]).fields)
      (by decide +kernel) (by decide +kernel)
    exact ⟨a, b, fun i hi => field_out (by simp [card]; omega)⟩
  · obtain ⟨a, b⟩ := usual_of (f := (card .eigc ["EIGC", "10", "HESS", "", "", "", "", "5"]).fields)
      (by decide +kernel) (by decide +kernel)
    exact ⟨a, b, .hess, by show toUpper _ = _; decide +kernel⟩

theorem forall2_of : ∀ {cs : List Card} {es : List Entry}, (∀ c ∈ cs, Usual c) → cs.map read = es.map Outcome.ok →
    List.Forall₂ Says cs es
  | [], [], _, _ => .nil
  | [], _ :: _, _, h => by cases h
  | _ :: _, [], _, h => by cases h
  | c :: cs, e :: es, hu, h => by
    simp only [List.map_cons, List.cons.injEq] at h
    exact .cons ((C139_cards_partial c e (hu c (by simp))).mp h.1) (forall2_of (fun c hc => hu c (by simp [hc])) h.2)

example : (∀ c ∈ sample, Usual c) ∧ List.Forall₂ Says sample sampleSaid ∧ Asks sampleSaid 10 ⟨none, none, some 500⟩ .max ∧
    Asks sampleSaid 20 ⟨some (1/2), some 12, none⟩ .mass := by
  refine ⟨sample_usual, forall2_of sample_usual (by decide +kernel), ⟨by decide +kernel, ?_⟩, by decide +kernel, ?_⟩ <;>
  · intro b n h
    simp only [sampleSaid, List.mem_cons, Entry.search.injEq, reduceCtorEq, List.not_mem_nil, or_false] at h
    norm_num at h
    exact h

/-! ## What does not hold -/

/-- Any other norm than MASS is taken for MAX, although the warning says that MASS is assumed. -/
theorem C139_norm_false (f : List Line) (set : Int) (b : Band) (n : Norm) (h0 : ¬ Blank f 8) (h : toUpper (field f 8) ≠ "MASS".toList)
    (hr : read ⟨.eigrl, f⟩ = .ok (.search set b n)) : n = .max := by
  unfold read command at hr
  rw [start_at] at hr
  unfold parseEIGRL at hr
  simp only [nextInt_at, nextDouble_at, nextWord_at, bind_assoc', Outcome.bind_ok, word_total] at hr
  obtain ⟨id, h1, hr⟩ := bind_ok_iff.mp hr
  obtain ⟨lo, h2, hr⟩ := bind_ok_iff.mp hr
  obtain ⟨up, h3, hr⟩ := bind_ok_iff.mp hr
  obtain ⟨nd, h4, hr⟩ := bind_ok_iff.mp hr
  obtain ⟨x5, h5, hr⟩ := bind_ok_iff.mp hr
  obtain ⟨x6, h6, hr⟩ := bind_ok_iff.mp hr
  obtain ⟨x7, h7, hr⟩ := bind_ok_iff.mp hr
  obtain ⟨he, hr⟩ := end_iff.mp hr
  simp only [Entry.search.injEq] at hr
  obtain ⟨-, -, rfl⟩ := hr
  have hb : (field f 8).isEmpty = false := by
    unfold Blank at h0
    simpa using h0
  unfold normOf
  rw [hb]
  simp only [Bool.false_eq_true, if_false, if_neg h, ite_self]

example : read (card .eigrl ["EIGRL", "10", "", "500.", "", "", "", "", "AF"]) = .ok (.search 10 ⟨none, none, some 500⟩ .max) := by
  decide +kernel

/-- The norm of `EIGB` is not read: the word is looked for in the field after it. -/
theorem C139_eigb_false (f : List Line) (set : Int) (b : Band) (n : Norm) (h9 : NormIs f 9 .max) (h10 : Blank f 10)
    (hr : read ⟨.eigb, f⟩ = .ok (.search set b n)) : n = .mass ∧ ¬ Says ⟨.eigb, f⟩ (.search set b n) := by
  obtain ⟨_, _, _, _, -, -, -, -, -, -, -, -, -, h⟩ := (eigb_read f _).mp hr
  rw [normOf_iff (n := .mass) (.inl h10)] at h
  simp only [Entry.search.injEq] at h
  obtain ⟨-, -, rfl⟩ := h
  refine ⟨rfl, fun hs => ?_⟩
  cases hs with
  | eigb _ _ lo up nd k norm h1 h3 h4 h5 h6 hn h7 h9' h10 h11 h12 => cases normIs_unique h9 h9'

example : read (card .eigb ["EIGB", "30", "INV", "", "", "", "3", "", "", "MAX"]) =
    .ok (.search 30 ⟨none, some 3, none⟩ .mass) := by decide +kernel

/-- With the number of a grid point (for the norm POINT) the norm is MAX: the number is taken for the word. -/
theorem C139_grid_false (f : List Line) (set : Int) (b : Band) (n : Norm) (g : Int) (hg : IsInt f 10 g)
    (hr : read ⟨.eigb, f⟩ = .ok (.search set b n)) (hM : toUpper (field f 10) ≠ "MASS".toList) : n = .max := by
  obtain ⟨_, _, _, _, -, -, -, -, -, -, -, -, -, h⟩ := (eigb_read f _).mp hr
  simp only [Entry.search.injEq] at h
  obtain ⟨-, -, rfl⟩ := h
  have hb : (field f 10).isEmpty = false := by
    unfold IsInt at hg
    cases hf : field f 10 with
    | nil => rw [hf] at hg; cases hg
    | cons => rfl
  unfold normOf
  rw [hb]
  simp only [Bool.false_eq_true, if_false, if_neg hM, ite_self]

example : read (card .eigb ["EIGB", "30", "INV", "", "", "", "3", "", "", "POINT", "15", "3"]) =
    .ok (.search 30 ⟨none, some 3, none⟩ .max) := by decide +kernel

/-- The cards `EIGC` change nothing in what is written, whatever analysis uses them. -/
theorem C139_complex_false (es : List Entry) (set : Int) (buckling power : Bool) (cut : Cutoffs) (version : Int) :
    let es' := es.filter fun e => match e with | .search .. => true | .complex .. => false
    writeAster buckling power cut es' set = writeAster buckling power cut es set ∧
      writeSystus version cut es' set = writeSystus version cut es set := by
  have h : ofSet (es.filter fun e => match e with | .search .. => true | .complex .. => false) set = ofSet es set := by
    unfold ofSet
    induction es with
    | nil => rfl
    | cons e es ih => cases e <;> simp [List.filterMap_cons, ih]
  simp only [writeAster, writeSystus, search, h, and_self]

/-- An analysis whose set has no card is not written, and nothing tells why: the behaviour is undefined. -/
theorem C139_missing_false (es : List Entry) (set : Int) (h : ∀ b n, .search set b n ∉ es) (buckling power : Bool) (cut : Cutoffs)
    (version : Int) : writeAster buckling power cut es set = .ub ∧ writeSystus version cut es set = .ub := by
  have he : ofSet es set = [] := List.eq_nil_iff_forall_not_mem.mpr fun ⟨b, n⟩ hm => h b n (mem_ofSet.mp hm)
  have hs : search es set = .ub := by unfold search; rw [he]
  unfold writeAster writeSystus
  rw [hs]
  exact ⟨rfl, rfl⟩

example : ∀ b n, Entry.search 10 b n ∉ [Entry.complex 10 5 .hess] := by simp

/-- Of several cards in a set only the first counts. -/
theorem C139_several_false (es fs : List Entry) (set : Int) (b : Band) (n : Norm) (h : ∀ b n, .search set b n ∉ es) :
    search (es ++ .search set b n :: fs) set = .ok (b, n) := by
  have he : ofSet es set = [] := List.eq_nil_iff_forall_not_mem.mpr fun ⟨b, n⟩ hm => h b n (mem_ofSet.mp hm)
  have : ofSet (es ++ .search set b n :: fs) set = (b, n) :: ofSet fs set := by
    unfold ofSet at he ⊢
    rw [List.filterMap_append, he]
    simp
  unfold search
  rw [this]

end ModeCards
end Vega
