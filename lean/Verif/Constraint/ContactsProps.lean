import Verif.Constraint.Contacts
import Mathlib.Data.List.Forall2
import Verif.Element.DmigProps

/-!
# Contacts are written between the lines, the surfaces and the bodies that their cards name (C133)
-/
namespace Vega

namespace ContactsSpec
open Nastran BarsSpec LoadCardsSpec Contacts

/-- The numbers in the fields from one on, up to the end of the card. -/
inductive Numbers (card : List Line) : Nat → List Int → Prop where
  | nil (p : Nat) (h : LoadCardsSpec.Ends card p) : Numbers card p []
  | cons (p : Nat) (n : Int) (rest : List Int) (h1 : Plain card p n) (h : Numbers card (p + 1) rest) :
      Numbers card p (n :: rest)

/-- The first field from `p` on that is not blank is field `a`, and it is this word. -/
structure Word (card : List Line) (p : Nat) (w : String) (a : Nat) : Prop where
  le : p ≤ a
  blank : ∀ i, p ≤ i → i < a → Blank card i
  word : toUpper (field card a) = w.toList

/-- The groups of BCTABLE: a line SLAVE with a body, a line MASTERS with a body. -/
inductive Groups (card : List Line) : Nat → Nat → List Zone → Prop where
  | nil (p : Nat) (h : LoadCardsSpec.Ends card p) : Groups card 0 p []
  | cons (n p a b : Nat) (s m : Int) (rest : List Zone) (h1 : Word card p "SLAVE" a) (h2 : IntOr card (a + 1) 0 s)
      (h3 : Word card (a + 2) "MASTERS" b) (h4 : IntOr card (b + 1) 0 m) (h5 : Blank card (b + 2))
      (h6 : Groups card n (b + 2) rest) : Groups card (n + 1) p (⟨s, m⟩ :: rest)

/-- A field with a word, or blank for this word. -/
def WordOr (card : List Line) (i : Nat) (w : String) : Prop := Blank card i ∨ toUpper (field card i) = w.toList

/-- What each card says. -/
inductive Says : Card → Entry → Prop where
  | bcbody (f : List Line) (id b : Int) (h1 : IsInt f 1 id) (h2 : WordOr f 2 "3D") (h3 : WordOr f 3 "DEFORM")
      (h4 : IsInt f 4 b) (h5 : LoadCardsSpec.Ends f 5) : Says ⟨.bcbody, f⟩ (.target id (.body b))
  | blseg (f : List Line) (id : Int) (ns : List Int) (h1 : IsInt f 1 id) (h2 : Numbers f 2 ns) :
      Says ⟨.blseg, f⟩ (.target id (.line ns))
  | bsseg (f : List Line) (id : Int) (ns : List Int) (h1 : IsInt f 1 id) (h2 : Numbers f 2 ns) :
      Says ⟨.bsseg, f⟩ (.target id (.facets ns))
  | bsurf (f : List Line) (id : Int) (ns : List Int) (h1 : IsInt f 1 id) (h2 : Numbers f 2 ns) :
      Says ⟨.bsurf, f⟩ (.target id (.surface ns))
  | bfric (f : List Line) (id : Int) (x : Dbl) (h1 : IsInt f 1 id) (h2 : IsReal f 4 x) (h3 : LoadCardsSpec.Ends f 5) :
      Says ⟨.bfric, f⟩ (.friction id x)
  | bctable (f : List Line) (set s m n : Int) (zs : List Zone) (h1 : IsInt f 1 set) (h2 : IntOr f 2 0 s)
      (h3 : IntOr f 3 0 m) (h4 : IntOr f 4 0 n) (h5 : Groups f n.toNat 5 zs) :
      Says ⟨.bctable, f⟩ (.zones set ((if s ≠ 0 ∧ m ≠ 0 then [⟨s, m⟩] else []) ++ zs))
  | bconp (f : List Line) (id s m fr : Int) (h1 : IsInt f 1 id) (h2 : IsInt f 2 s) (h3 : IsInt f 3 m)
      (h5 : RealOrBlank f 5) (h6 : IsInt f 6 fr) (h7 : IntOrBlank f 7) (h8 : ∃ cid, IsInt f 8 cid)
      (h9 : LoadCardsSpec.Ends f 9) : Says ⟨.bconp, f⟩ (.slide ⟨id, s, m, fr⟩)
  | bsconp (f : List Line) (id s m : Int) (h1 : IsInt f 1 id) (h2 : IsInt f 2 s) (h3 : IsInt f 3 m)
      (h4 : LoadCardsSpec.Ends f 4) : Says ⟨.bsconp, f⟩ (.facing ⟨id, s, m⟩)

/-- No range in a list of numbers. -/
def NoRange (c : Card) : Prop := ∀ i, toUpper (field c.fields i) ≠ "THRU".toList

/-- Two cards with the same key are an error. -/
def key : Entry → Option (Nat × Int)
  | .target id (.line _) => some (0, id)
  | .target id (.facets _) => some (1, id)
  | .target id (.surface _) => some (2, id)
  | .target id (.body _) => some (3, id)
  | .friction id _ => some (4, id)
  | .slide k => some (5, k.id)
  | .facing k => some (6, k.id)
  | .zones _ _ => none

/-- No two lines, surfaces or bodies have the same number. -/
def Unshared (es : List Entry) : Prop :=
  ∀ id t t', Entry.target id t ∈ es → Entry.target id t' ∈ es → t = t'

/-- The elements of the surface of a body. -/
def Skin (es : List Entry) (body : Int) (cells : List Int) : Prop :=
  ∃ b, Entry.target body (.body b) ∈ es ∧ Entry.target b (.surface cells) ∈ es

/-- The pairs of successive nodes. -/
def pairs (ns : List Int) : List (List Int) := (ns.zip ns.tail).map fun p => [p.1, p.2]

/-- A facet on four fields: the fourth is zero for a triangle. -/
def padded (f : List Int) : List Int := if f.length = 3 then f ++ [0] else f

/-- The facets that a list of nodes gives four by four. -/
def Facets (ns : List Int) (fs : List (List Int)) : Prop :=
  fs.flatMap padded = ns ∧ ∀ f ∈ fs, f.length = 3 ∨ f.length = 4 ∧ f.getLast? ≠ some 0

end ContactsSpec

namespace Contacts
open Nastran BarsSpec Bars MaterialsSpec LoadCards ContactsSpec
open LoadCardsSpec hiding Says

/-! ## Lemmas -/

theorem isNextEmpty_at (fields : List Line) (p : Nat) :
    isNextEmpty 1 (at' fields p) = .ok (decide (p < fields.length) && (field fields p).isEmpty) := by
  unfold isNextEmpty isNextEmptyLoop
  by_cases h : p < fields.length
  · have hs : (at' fields p).sym = .field := by unfold at'; simp [h]
    rw [if_neg (by simp [hs]), fieldAt_at h]
    simp [isNextEmptyLoop, h]
  · have hs : (at' fields p).sym = .keyword := by unfold at'; simp [h]
    rw [if_pos (by simp [hs])]
    simp [h]

theorem skipTo_at (fields : List Line) : ∀ (n p : Nat), fields.length - p < n → ∃ q,
    NastranWrite.skipToNotEmpty n (at' fields p) = .ok (at' fields q) ∧ p ≤ q ∧ (∀ i, p ≤ i → i < q → Blank fields i) ∧
      (q < fields.length → ¬ Blank fields q)
  | 0, _, h => by omega
  | n + 1, p, h => by
    unfold NastranWrite.skipToNotEmpty
    rw [isNextEmpty_at, Outcome.bind_ok]
    by_cases hp : p < fields.length
    · by_cases hb : Blank fields p
      · unfold Blank at hb
        simp only [hp, decide_true, hb, List.isEmpty_nil, Bool.and_self, if_true, skip_at, Outcome.bind_ok]
        obtain ⟨q, h1, h2, h3, h4⟩ := skipTo_at fields n (p + 1) (by omega)
        refine ⟨q, h1, by omega, fun i hi hq => ?_, h4⟩
        by_cases hip : i = p
        · rw [hip]; exact hb
        · exact h3 i (by omega) hq
      · refine ⟨p, ?_, Nat.le_refl _, fun i _ _ => (by omega), fun _ => hb⟩
        have : (field fields p).isEmpty = false := by
          unfold Blank at hb
          simpa using hb
        simp [this]
    · refine ⟨p, ?_, Nat.le_refl _, fun i _ _ => (by omega), fun hq => absurd hq hp⟩
      simp [hp]

theorem toNotEmpty_at (fields : List Line) (p : Nat) : ∃ q,
    Optistruct.toNotEmpty (at' fields p) = .ok (at' fields q) ∧ p ≤ q ∧ (∀ i, p ≤ i → i < q → Blank fields i) ∧
      (q < fields.length → ¬ Blank fields q) := by
  unfold Optistruct.toNotEmpty
  exact skipTo_at fields _ p (by unfold at'; dsimp only; omega)

theorem word_at {card : List Line} {p a q : Nat} {w : String} (hw : w.toList ≠ []) (h : Word card p w a)
    (h2 : p ≤ q) (h3 : ∀ i, p ≤ i → i < q → Blank card i) (h4 : q < card.length → ¬ Blank card q) : q = a := by
  have hne : ¬ Blank card a := by
    intro hb
    unfold Blank at hb
    have := h.word
    rw [hb] at this
    exact hw this.symm
  have hl : a < card.length := by
    by_contra hl
    exact hne (field_out hl)
  by_cases hq : q < card.length
  · rcases Nat.lt_trichotomy q a with h' | h' | h'
    · exact absurd (h.blank q h2 h') (h4 hq)
    · exact h'
    · exact absurd (h3 a h.le h') hne
  · exact absurd (h3 a h.le (by omega)) hne

/-- What is read from a field with a word. -/
def readWord (dflt : Option Line) (f : Line) : Outcome Line :=
  if f.isEmpty then match dflt with | some d => .ok d | none => .throw else .ok (toUpper f)

theorem nextWord_at (d : Option Line) (fields : List Line) (p : Nat) :
    nextString d (at' fields p) = (readWord d (field fields p) >>= fun w => .ok (w, at' fields (p + 1))) := by
  unfold nextString readWord field
  rw [next_at]
  simp only [trim_trimRight, toUpper_nil]
  split
  · cases d <;> rfl
  · rfl

theorem readWord_given {f w : Line} : readWord none f = .ok w ↔ f ≠ [] ∧ w = toUpper f := by
  unfold readWord
  cases f with
  | nil => exact ⟨fun h => (by cases h), fun ⟨h, _⟩ => absurd rfl h⟩
  | cons c cs =>
    simp only [List.isEmpty_cons, Bool.false_eq_true, if_false, Outcome.ok.injEq, ne_eq, reduceCtorEq, not_false_eq_true,
      true_and]
    exact eq_comm

theorem readWord_or {card : List Line} {i : Nat} {w : String} :
    readWord (some w.toList) (field card i) = .ok w.toList ↔ WordOr card i w := by
  unfold readWord WordOr Blank
  generalize field card i = f
  cases f with
  | nil => simp
  | cons c cs => simp

theorem readWord_word {card : List Line} {i : Nat} {w : String} (hw : w.toList ≠ []) :
    readWord none (field card i) = .ok w.toList ↔ toUpper (field card i) = w.toList := by
  rw [readWord_given]
  constructor
  · exact fun ⟨_, h⟩ => h.symm
  · intro h
    refine ⟨fun h0 => hw ?_, h.symm⟩
    rw [← h, h0]
    rfl

theorem isNextTHRU_at (fields : List Line) (p : Nat) (h : toUpper (field fields p) ≠ "THRU".toList) :
    isNextTHRU (at' fields p) = .ok false := by
  unfold isNextTHRU isNextWord
  by_cases hp : p < fields.length
  · have hs : (at' fields p).sym = .field := by unfold at'; simp [hp]
    rw [if_neg (by simp [hs]), fieldAt_at hp, Outcome.bind_ok]
    congr 1
    exact decide_eq_false h
  · have hs : (at' fields p).sym = .keyword := by unfold at'; simp [hp]
    rw [if_pos (by simp [hs])]

theorem ints_sound {fields : List Line} (hn : ∀ i, toUpper (field fields i) ≠ "THRU".toList) : ∀ (fuel p : Nat)
    (acc : List Int) {r : List Int × Cursor}, nextIntsLoop fuel acc (at' fields p) = .ok r →
    ∃ q, r.2 = at' fields q ∧ (LoadCardsSpec.Ends fields q → ∃ ns, Numbers fields p ns ∧ r.1 = acc ++ ns)
  | 0, _, _, _, h => by cases h
  | fuel + 1, p, acc, r, h => by
    unfold nextIntsLoop at h
    rw [isNextInt_at, Outcome.bind_ok] at h
    split at h
    · rename_i hl
      simp only [nextInt_at, bind_assoc', Outcome.bind_ok] at h
      obtain ⟨n, hi, h⟩ := bind_ok_iff.mp h
      obtain ⟨q, hq, ih⟩ := ints_sound hn fuel (p + 1) (acc ++ [n]) h
      refine ⟨q, hq, fun he => ?_⟩
      obtain ⟨ns, h1, h2⟩ := ih he
      exact ⟨n :: ns, .cons p n ns (like_plain hl (readInt_given.mp hi)) h1, by rw [h2]; simp⟩
    · rw [isNextTHRU_at _ _ (hn p), Outcome.bind_ok] at h
      simp only [Bool.false_eq_true, if_false] at h
      cases h
      exact ⟨p, rfl, fun he => ⟨[], .nil p he, by simp⟩⟩

theorem ints_complete {fields : List Line} (hn : ∀ i, toUpper (field fields i) ≠ "THRU".toList) {p : Nat} {ns : List Int}
    (h : Numbers fields p ns) : ∀ (fuel : Nat) (acc : List Int), ns.length < fuel →
    ∃ q, LoadCardsSpec.Ends fields q ∧ nextIntsLoop fuel acc (at' fields p) = .ok (acc ++ ns, at' fields q) := by
  induction h with
  | nil p he =>
    intro fuel acc hf
    cases fuel with
    | zero => cases hf
    | succ fuel =>
      refine ⟨p, he, ?_⟩
      unfold nextIntsLoop
      rw [isNextInt_at, Outcome.bind_ok, blank_intLike (he p (Nat.le_refl _)), isNextTHRU_at _ _ (hn p)]
      simp
  | cons p n rest h1 _ ih =>
    intro fuel acc hf
    cases fuel with
    | zero => cases hf
    | succ fuel =>
      obtain ⟨q, hq, e⟩ := ih fuel (acc ++ [n]) (by simpa using hf)
      refine ⟨q, hq, ?_⟩
      unfold nextIntsLoop
      rw [isNextInt_at, Outcome.bind_ok, plain_like h1, if_pos rfl]
      simp only [nextInt_at, bind_assoc', Outcome.bind_ok]
      rw [readInt_given.mpr h1.1, Outcome.bind_ok, e]
      simp

theorem numbers_length {fields : List Line} {p : Nat} {ns : List Int} (h : Numbers fields p ns) :
    ns.length ≤ fields.length - p := by
  induction h with
  | nil => simp
  | cons p n rest h1 _ ih =>
    have := isInt_lt h1.1
    simp only [List.length_cons]
    omega

theorem finished_iff {α : Type} {x : α} {fields : List Line} {p : Nat} {r : α × Cursor} :
    finished x (at' fields p) = .ok r ↔ LoadCardsSpec.Ends fields p ∧ r = (x, at' fields p) := by
  unfold finished
  rw [end_iff]
  exact ⟨fun ⟨a, b⟩ => ⟨a, b.symm⟩, fun ⟨a, b⟩ => ⟨a, b.symm⟩⟩

/-- A command that ends by looking whether all the fields have been read. -/
theorem run_finished {α : Type} (x y : α) (fields : List Line) (p : Nat) :
    (finished x (at' fields p) >>= fun r => if isEmptyUntilNextKeyword r.2 then Outcome.ok r.1 else .throw) = .ok y ↔
      LoadCardsSpec.Ends fields p ∧ x = y := by
  constructor
  · intro h
    obtain ⟨r, h1, h2⟩ := bind_ok_iff.mp h
    obtain ⟨he, rfl⟩ := finished_iff.mp h1
    exact end_iff.mp h2
  · rintro ⟨he, rfl⟩
    rw [finished_iff.mpr ⟨he, rfl⟩, Outcome.bind_ok]
    exact end_iff.mpr ⟨he, rfl⟩

theorem list_iff (make : List Int → Target) (f : List Line) (e : Entry) (hn : ∀ i, toUpper (field f i) ≠ "THRU".toList) :
    runCard (parseList make) f = .ok e ↔ ∃ id ns, IsInt f 1 id ∧ Numbers f 2 ns ∧ e = .target id (make ns) := by
  rw [start_at]
  unfold parseList
  simp only [nextInt_at, bind_assoc', Outcome.bind_ok]
  constructor
  · intro h
    obtain ⟨id, hi, h⟩ := bind_ok_iff.mp h
    obtain ⟨r, hr, h⟩ := bind_ok_iff.mp h
    obtain ⟨q, hq, hs⟩ := ints_sound hn _ _ _ hr
    rw [hq] at h
    obtain ⟨he, rfl⟩ := end_iff.mp h
    obtain ⟨ns, h1, h2⟩ := hs he
    exact ⟨id, ns, readInt_given.mp hi, h1, by rw [h2]; simp⟩
  · rintro ⟨id, ns, hi, h1, rfl⟩
    obtain ⟨q, hq, hr⟩ := ints_complete hn h1 (f.length + 1) [] (by have := numbers_length h1; omega)
    rw [readInt_given.mpr hi, Outcome.bind_ok]
    have : nextInts (at' f (1 + 1)) = .ok (ns, at' f q) := by
      unfold nextInts
      simpa [at'] using hr
    rw [this, Outcome.bind_ok]
    exact end_iff.mpr ⟨hq, rfl⟩

theorem masters_end (fields : List Line) (p : Nat) : ∃ e, isNextEmpty 1 (at' fields p) = .ok e ∧
    ((e || isEmptyUntilNextKeyword (at' fields p)) = true ↔ Blank fields p) := by
  refine ⟨_, isNextEmpty_at fields p, ?_⟩
  simp only [Bool.or_eq_true, Bool.and_eq_true, decide_eq_true_eq, List.isEmpty_iff, isEmpty_at]
  constructor
  · rintro (⟨_, h⟩ | h)
    · exact h
    · exact h p (Nat.le_refl _)
  · intro h
    by_cases hp : p < fields.length
    · exact .inl ⟨hp, h⟩
    · exact .inr fun i hi => field_out (by omega)

theorem groups_sound (fields : List Line) : ∀ (n p : Nat) {r : List Zone × Cursor},
    groups n (at' fields p) = .ok r → ∃ q, r.2 = at' fields q ∧ (LoadCardsSpec.Ends fields q → Groups fields n p r.1)
  | 0, p, r, h => by
    cases h
    exact ⟨p, rfl, fun he => .nil p he⟩
  | n + 1, p, r, h => by
    unfold groups at h
    obtain ⟨a, e1, a1, a2, a3⟩ := toNotEmpty_at fields p
    rw [e1, Outcome.bind_ok] at h
    simp only [nextWord_at, bind_assoc', Outcome.bind_ok] at h
    obtain ⟨w1, hw1, h⟩ := bind_ok_iff.mp h
    split at h
    · cases h
    rename_i hw
    have hw : w1 = "SLAVE".toList := by simpa using hw
    subst hw
    simp only [nextInt_at, bind_assoc', Outcome.bind_ok] at h
    obtain ⟨s, hs, h⟩ := bind_ok_iff.mp h
    obtain ⟨b, e2, b1, b2, b3⟩ := toNotEmpty_at fields (a + 1 + 1)
    rw [e2, Outcome.bind_ok] at h
    simp only [nextWord_at, bind_assoc', Outcome.bind_ok] at h
    obtain ⟨w2, hw2, h⟩ := bind_ok_iff.mp h
    split at h
    · cases h
    rename_i hw
    have hw : w2 = "MASTERS".toList := by simpa using hw
    subst hw
    simp only [nextInt_at, bind_assoc', Outcome.bind_ok] at h
    obtain ⟨m, hm, h⟩ := bind_ok_iff.mp h
    obtain ⟨e, e3, e4⟩ := masters_end fields (b + 1 + 1)
    rw [e3, Outcome.bind_ok] at h
    split at h
    · cases h
    · rename_i hb
      have hb : (e || isEmptyUntilNextKeyword (at' fields (b + 1 + 1))) = true := by
        cases hx : (e || isEmptyUntilNextKeyword (at' fields (b + 1 + 1)))
        · rw [hx] at hb; exact absurd rfl hb
        · rfl
      obtain ⟨r', hr, h⟩ := bind_ok_iff.mp h
      cases h
      obtain ⟨q, hq, ih⟩ := groups_sound fields n (b + 1 + 1) hr
      exact ⟨q, hq, fun he => .cons n p a b s m _ ⟨a1, a2, (readWord_word (by decide)).mp hw1⟩ (readInt_default.mp hs) ⟨b1, b2, (readWord_word (by decide)).mp hw2⟩ (readInt_default.mp hm)
        (e4.mp hb) (ih he)⟩

theorem groups_complete {fields : List Line} {n p : Nat} {zs : List Zone} (h : Groups fields n p zs) :
    ∃ q, LoadCardsSpec.Ends fields q ∧ groups n (at' fields p) = .ok (zs, at' fields q) := by
  induction h with
  | nil p he => exact ⟨p, he, rfl⟩
  | cons n p a b s m rest h1 h2 h3 h4 h5 _ ih =>
    obtain ⟨q, hq, ih⟩ := ih
    refine ⟨q, hq, ?_⟩
    unfold groups
    obtain ⟨a', e1, a1, a2, a3⟩ := toNotEmpty_at fields p
    have := word_at (by decide) h1 a1 a2 a3
    subst this
    rw [e1, Outcome.bind_ok]
    simp only [nextWord_at, nextInt_at, bind_assoc', Outcome.bind_ok]
    rw [(readWord_word (by decide)).mpr h1.word, Outcome.bind_ok]
    simp only [ne_eq, not_true_eq_false, if_false]
    rw [readInt_default.mpr h2, Outcome.bind_ok]
    obtain ⟨b', e2, b1, b2, b3⟩ := toNotEmpty_at fields (a' + 1 + 1)
    have := word_at (by decide) h3 b1 b2 b3
    subst this
    rw [e2, Outcome.bind_ok]
    simp only [nextWord_at, nextInt_at, bind_assoc', Outcome.bind_ok]
    rw [(readWord_word (by decide)).mpr h3.word, Outcome.bind_ok]
    simp only [ne_eq, not_true_eq_false, if_false]
    rw [readInt_default.mpr h4, Outcome.bind_ok]
    obtain ⟨e, e3, e4⟩ := masters_end fields (b' + 1 + 1)
    rw [e3, Outcome.bind_ok, e4.mpr h5]
    simp only [Bool.not_true, Bool.false_eq_true, if_false]
    rw [ih, Outcome.bind_ok]

theorem table_iff (f : List Line) (e : Entry) : read ⟨.bctable, f⟩ = .ok e ↔ Says ⟨.bctable, f⟩ e := by
  unfold read command
  rw [start_at]
  unfold parseBCTABLE
  simp only [nextInt_at, bind_assoc', Outcome.bind_ok]
  constructor
  · intro h
    obtain ⟨set, h1, h⟩ := bind_ok_iff.mp h
    obtain ⟨s, h2, h⟩ := bind_ok_iff.mp h
    obtain ⟨m, h3, h⟩ := bind_ok_iff.mp h
    obtain ⟨n, h4, h⟩ := bind_ok_iff.mp h
    obtain ⟨r, hr, h⟩ := bind_ok_iff.mp h
    obtain ⟨q, hq, hg⟩ := groups_sound f _ _ hr
    obtain ⟨zs, c⟩ := r
    dsimp only at hq h hg
    subst hq
    obtain ⟨he, rfl⟩ := (run_finished _ _ f q).mp h
    have := Says.bctable f set s m n zs (readInt_given.mp h1) (readInt_default.mp h2) (readInt_default.mp h3)
      (readInt_default.mp h4) (hg he)
    simpa only [Bool.and_eq_true, decide_eq_true_eq, ne_eq] using this
  · intro h
    cases h with
    | bctable _ set s m n zs h1 h2 h3 h4 h5 =>
      obtain ⟨q, hq, hg⟩ := groups_complete h5
      rw [readInt_given.mpr h1, Outcome.bind_ok, readInt_default.mpr h2, Outcome.bind_ok, readInt_default.mpr h3,
        Outcome.bind_ok, readInt_default.mpr h4, Outcome.bind_ok, hg, Outcome.bind_ok]
      refine (run_finished _ _ f q).mpr ⟨hq, ?_⟩
      simp only [Bool.and_eq_true, decide_eq_true_eq, ne_eq]

theorem body_iff (f : List Line) (e : Entry) : read ⟨.bcbody, f⟩ = .ok e ↔ Says ⟨.bcbody, f⟩ e := by
  unfold read command
  rw [start_at]
  unfold parseBCBODY
  simp only [nextInt_at, nextWord_at, bind_assoc', Outcome.bind_ok]
  constructor
  · intro h
    obtain ⟨id, h1, h⟩ := bind_ok_iff.mp h
    obtain ⟨w, h2, h⟩ := bind_ok_iff.mp h
    split at h
    · cases h
    rename_i hw
    have hw : w = "3D".toList := by simpa using hw
    subst hw
    simp only [bind_assoc'] at h
    obtain ⟨w, h3, h⟩ := bind_ok_iff.mp h
    split at h
    · cases h
    rename_i hw
    have hw : w = "DEFORM".toList := by simpa using hw
    subst hw
    simp only [bind_assoc'] at h
    obtain ⟨b, h4, h⟩ := bind_ok_iff.mp h
    obtain ⟨he, rfl⟩ := (run_finished _ _ f _).mp h
    exact .bcbody f id b (readInt_given.mp h1) (readWord_or.mp h2) (readWord_or.mp h3) (readInt_given.mp h4) he
  · intro h
    cases h with
    | bcbody _ id b h1 h2 h3 h4 h5 =>
      rw [readInt_given.mpr h1, Outcome.bind_ok, readWord_or.mpr h2, Outcome.bind_ok]
      simp only [ne_eq, not_true_eq_false, if_false, bind_assoc']
      rw [readWord_or.mpr h3, Outcome.bind_ok]
      simp only [ne_eq, not_true_eq_false, if_false, bind_assoc']
      rw [readInt_given.mpr h4, Outcome.bind_ok]
      exact (run_finished _ _ f _).mpr ⟨h5, rfl⟩

theorem fric_iff (f : List Line) (e : Entry) : read ⟨.bfric, f⟩ = .ok e ↔ Says ⟨.bfric, f⟩ e := by
  unfold read command
  rw [start_at]
  unfold parseBFRIC
  simp only [nextInt_at, nextDouble_at, skip_at, bind_assoc', Outcome.bind_ok]
  constructor
  · intro h
    obtain ⟨id, h1, h⟩ := bind_ok_iff.mp h
    obtain ⟨x, h2, h⟩ := bind_ok_iff.mp h
    obtain ⟨he, rfl⟩ := (run_finished _ _ f _).mp h
    exact .bfric f id x (readInt_given.mp h1) (readReal_given.mp h2) he
  · intro h
    cases h with
    | bfric _ id x h1 h2 h3 =>
      rw [readInt_given.mpr h1, Outcome.bind_ok, readReal_given.mpr h2, Outcome.bind_ok]
      exact (run_finished _ _ f _).mpr ⟨h3, rfl⟩

theorem facing_iff (f : List Line) (e : Entry) : read ⟨.bsconp, f⟩ = .ok e ↔ Says ⟨.bsconp, f⟩ e := by
  unfold read command
  rw [start_at]
  unfold parseBSCONP
  simp only [nextInt_at, bind_assoc', Outcome.bind_ok]
  constructor
  · intro h
    obtain ⟨id, h1, h⟩ := bind_ok_iff.mp h
    obtain ⟨s, h2, h⟩ := bind_ok_iff.mp h
    obtain ⟨m, h3, h⟩ := bind_ok_iff.mp h
    obtain ⟨he, rfl⟩ := (run_finished _ _ f _).mp h
    exact .bsconp f id s m (readInt_given.mp h1) (readInt_given.mp h2) (readInt_given.mp h3) he
  · intro h
    cases h with
    | bsconp _ id s m h1 h2 h3 h4 =>
      rw [readInt_given.mpr h1, Outcome.bind_ok, readInt_given.mpr h2, Outcome.bind_ok, readInt_given.mpr h3,
        Outcome.bind_ok]
      exact (run_finished _ _ f _).mpr ⟨h4, rfl⟩

theorem slide_iff (f : List Line) (e : Entry) : read ⟨.bconp, f⟩ = .ok e ↔ Says ⟨.bconp, f⟩ e := by
  unfold read command
  rw [start_at]
  unfold parseBCONP
  simp only [nextInt_at, nextDouble_at, skip_at, bind_assoc', Outcome.bind_ok]
  constructor
  · intro h
    obtain ⟨id, h1, h⟩ := bind_ok_iff.mp h
    obtain ⟨s, h2, h⟩ := bind_ok_iff.mp h
    obtain ⟨m, h3, h⟩ := bind_ok_iff.mp h
    obtain ⟨x, h5, h⟩ := bind_ok_iff.mp h
    obtain ⟨fr, h6, h⟩ := bind_ok_iff.mp h
    obtain ⟨t, h7, h⟩ := bind_ok_iff.mp h
    obtain ⟨cid, h8, h⟩ := bind_ok_iff.mp h
    obtain ⟨he, rfl⟩ := (run_finished _ _ f _).mp h
    refine .bconp f id s m fr (readInt_given.mp h1) (readInt_given.mp h2) (readInt_given.mp h3) ?_ (readInt_given.mp h6) ?_
      ⟨cid, readInt_given.mp h8⟩ he
    · rcases readReal_iff.mp h5 with h | ⟨h, _⟩
      · exact .inr ⟨x, h⟩
      · exact .inl h
    · rcases readInt_default.mp h7 with h | ⟨h, _⟩
      · exact .inr ⟨t, h⟩
      · exact .inl h
  · intro h
    cases h with
    | bconp _ id s m fr h1 h2 h3 h5 h6 h7 h8 h9 =>
      obtain ⟨cid, h8⟩ := h8
      obtain ⟨x, hx⟩ := readReal_some (d := 1) h5
      obtain ⟨t, ht⟩ := readInt_some (d := 1) h7
      rw [readInt_given.mpr h1, Outcome.bind_ok, readInt_given.mpr h2, Outcome.bind_ok, readInt_given.mpr h3,
        Outcome.bind_ok, hx, Outcome.bind_ok, readInt_given.mpr h6, Outcome.bind_ok, ht, Outcome.bind_ok,
        readInt_given.mpr h8, Outcome.bind_ok]
      exact (run_finished _ _ f _).mpr ⟨h9, rfl⟩

/-! ## Reading the cards -/

/-- A card that has no range of numbers is read as what it says, and is refused if it says nothing. Missing: ranges, for which
see C25, and ranges with a step. -/
theorem C133_cards_partial (c : Card) (e : Entry) (hn : NoRange c) : read c = .ok e ↔ Says c e := by
  obtain ⟨k, f⟩ := c
  cases k with
  | bcbody => exact body_iff f e
  | blseg =>
    refine (list_iff .line f e hn).trans ⟨?_, ?_⟩
    · rintro ⟨id, ns, h1, h2, rfl⟩; exact .blseg f id ns h1 h2
    · intro h; cases h with | blseg _ id ns h1 h2 => exact ⟨id, ns, h1, h2, rfl⟩
  | bsseg =>
    refine (list_iff .facets f e hn).trans ⟨?_, ?_⟩
    · rintro ⟨id, ns, h1, h2, rfl⟩; exact .bsseg f id ns h1 h2
    · intro h; cases h with | bsseg _ id ns h1 h2 => exact ⟨id, ns, h1, h2, rfl⟩
  | bsurf =>
    refine (list_iff .surface f e hn).trans ⟨?_, ?_⟩
    · rintro ⟨id, ns, h1, h2, rfl⟩; exact .bsurf f id ns h1 h2
    · intro h; cases h with | bsurf _ id ns h1 h2 => exact ⟨id, ns, h1, h2, rfl⟩
  | bfric => exact fric_iff f e
  | bctable => exact table_iff f e
  | bconp => exact slide_iff f e
  | bsconp => exact facing_iff f e

/-! ## All the cards -/

/-- The state holds what has been said. -/
structure Holds (s : State) (es : List Entry) : Prop where
  targets : ∀ k id t, s.targets.find (k, id) = some t ↔ Entry.target id t ∈ es ∧ t.kind = k
  frictions : ∀ id x, s.frictions.find id = some x ↔ Entry.friction id x ∈ es
  slides : ∀ k, k ∈ s.slides ↔ Entry.slide k ∈ es
  facings : ∀ k, k ∈ s.facings ↔ Entry.facing k ∈ es
  zones : ∀ set z, (set, z) ∈ s.zones ↔ ∃ zs, Entry.zones set zs ∈ es ∧ z ∈ zs

theorem holds_empty : Holds .empty [] :=
  ⟨fun _ _ _ => by simp [State.empty], fun _ _ => by simp [State.empty], fun _ => by simp [State.empty],
    fun _ => by simp [State.empty], fun _ _ => by simp [State.empty]⟩

/-- The number of a kind in a key. -/
def rank : Kind → Nat
  | .line => 0 | .facets => 1 | .surface => 2 | .body => 3

theorem key_target (id : Int) (t : Target) : key (.target id t) = some (rank t.kind, id) := by cases t <;> rfl

theorem rank_lt (k : Kind) : rank k < 4 := by cases k <;> decide

theorem rank_inj {k k' : Kind} (h : rank k = rank k') : k = k' := by cases k <;> cases k' <;> simp_all [rank]

theorem add_ok {s : State} {es : List Entry} (h : Holds s es) (e : Entry) :
    (∃ s', s.add e = .ok s') ↔ ∀ k, key e = some k → k ∉ es.filterMap key := by
  cases e with
  | target id t =>
    simp only [key_target, Option.some.injEq, forall_eq', State.add, List.mem_filterMap, not_exists, not_and]
    constructor
    · rintro ⟨s', hs⟩ e he hk
      split at hs
      · cases hs
      · rename_i hf
        apply hf
        cases e with
        | target id' t' =>
          rw [key_target] at hk
          simp only [Option.some.injEq, Prod.mk.injEq] at hk
          obtain ⟨h1, rfl⟩ := hk
          rw [(h.targets t.kind id' t').mpr ⟨he, rank_inj h1⟩]
          rfl
        | friction id' x => have := rank_lt t.kind; simp [key] at hk; omega
        | slide k => have := rank_lt t.kind; simp [key] at hk; omega
        | facing k => have := rank_lt t.kind; simp [key] at hk; omega
        | zones set zs => cases hk
    · intro hk
      rw [if_neg]
      · exact ⟨_, rfl⟩
      · intro hf
        obtain ⟨t', ht⟩ := Option.isSome_iff_exists.mp hf
        obtain ⟨h1, h2⟩ := (h.targets _ _ _).mp ht
        refine hk _ h1 ?_
        rw [key_target, h2]
  | friction id x =>
    simp only [key, Option.some.injEq, forall_eq', State.add, List.mem_filterMap, not_exists, not_and]
    constructor
    · rintro ⟨s', hs⟩ e he hk
      split at hs
      · cases hs
      · rename_i hf
        apply hf
        cases e with
        | target id' t' =>
          have := rank_lt t'.kind
          have hk : key (.target id' t') = some (4, id) := hk
          rw [key_target] at hk
          simp only [Option.some.injEq, Prod.mk.injEq] at hk
          omega
        | friction id' x' =>
          simp only [key, Option.some.injEq, Prod.mk.injEq, true_and] at hk
          subst hk
          rw [(h.frictions _ _).mpr he]
          rfl
        | slide k => simp [key] at hk
        | facing k => simp [key] at hk
        | zones set zs => cases hk
    · intro hk
      rw [if_neg]
      · exact ⟨_, rfl⟩
      · intro hf
        obtain ⟨t', ht⟩ := Option.isSome_iff_exists.mp hf
        exact hk _ ((h.frictions _ _).mp ht) rfl
  | slide k =>
    simp only [key, Option.some.injEq, forall_eq', State.add, List.mem_filterMap, not_exists, not_and]
    constructor
    · rintro ⟨s', hs⟩ e he hk
      split at hs
      · cases hs
      · rename_i hf
        apply hf
        cases e with
        | target id' t' =>
          have := rank_lt t'.kind
          have hk : key (.target id' t') = some (5, k.id) := hk
          rw [key_target] at hk
          simp only [Option.some.injEq, Prod.mk.injEq] at hk
          omega
        | friction id' x' => simp [key] at hk
        | slide k' =>
          simp only [key, Option.some.injEq, Prod.mk.injEq, true_and] at hk
          rw [List.any_eq_true]
          exact ⟨k', (h.slides _).mpr he, by simpa using hk⟩
        | facing k => simp [key] at hk
        | zones set zs => cases hk
    · intro hk
      rw [if_neg]
      · exact ⟨_, rfl⟩
      · intro hf
        rw [List.any_eq_true] at hf
        obtain ⟨k', h1, h2⟩ := hf
        refine hk _ ((h.slides _).mp h1) ?_
        simpa [key] using h2
  | facing k =>
    simp only [key, Option.some.injEq, forall_eq', State.add, List.mem_filterMap, not_exists, not_and]
    constructor
    · rintro ⟨s', hs⟩ e he hk
      split at hs
      · cases hs
      · rename_i hf
        apply hf
        cases e with
        | target id' t' =>
          have := rank_lt t'.kind
          have hk : key (.target id' t') = some (6, k.id) := hk
          rw [key_target] at hk
          simp only [Option.some.injEq, Prod.mk.injEq] at hk
          omega
        | friction id' x' => simp [key] at hk
        | slide k => simp [key] at hk
        | facing k' =>
          simp only [key, Option.some.injEq, Prod.mk.injEq, true_and] at hk
          rw [List.any_eq_true]
          exact ⟨k', (h.facings _).mpr he, by simpa using hk⟩
        | zones set zs => cases hk
    · intro hk
      rw [if_neg]
      · exact ⟨_, rfl⟩
      · intro hf
        rw [List.any_eq_true] at hf
        obtain ⟨k', h1, h2⟩ := hf
        refine hk _ ((h.facings _).mp h1) ?_
        simpa [key] using h2
  | zones set zs =>
    simp only [key, State.add]
    exact ⟨fun _ _ h => (by cases h), fun _ => ⟨_, rfl⟩⟩

theorem add_holds {s s' : State} {es : List Entry} (h : Holds s es) (e : Entry) (ha : s.add e = .ok s') :
    Holds s' (es ++ [e]) := by
  have hk := (add_ok h e).mp ⟨s', ha⟩
  cases e with
  | target id t =>
    simp only [State.add] at ha
    split at ha
    · cases ha
    rename_i hf
    cases ha
    refine ⟨fun k id' t' => ?_, fun id' x => ?_, fun k => ?_, fun k => ?_, fun set z => ?_⟩
    · dsimp only
      rw [Map.find_set]
      simp only [List.mem_append, List.mem_singleton, Entry.target.injEq]
      split
      · rename_i he
        simp only [Prod.mk.injEq] at he
        obtain ⟨rfl, rfl⟩ := he
        constructor
        · intro h'; cases h'; exact ⟨.inr ⟨rfl, rfl⟩, rfl⟩
        · rintro ⟨h1 | ⟨_, rfl⟩, h2⟩
          · exact absurd (by rw [(h.targets _ _ _).mpr ⟨h1, h2⟩]; rfl) hf
          · rfl
      · rename_i he
        rw [h.targets]
        constructor
        · rintro ⟨h1, h2⟩; exact ⟨.inl h1, h2⟩
        · rintro ⟨h1 | ⟨rfl, rfl⟩, h2⟩
          · exact ⟨h1, h2⟩
          · exact absurd (by rw [h2]) he
    · simp [h.frictions]
    · simp [h.slides]
    · simp [h.facings]
    · simp [h.zones]
  | friction id x =>
    simp only [State.add] at ha
    split at ha
    · cases ha
    rename_i hf
    cases ha
    refine ⟨fun k id' t' => ?_, fun id' x' => ?_, fun k => ?_, fun k => ?_, fun set z => ?_⟩
    · simp [h.targets]
    · dsimp only
      rw [Map.find_set]
      simp only [List.mem_append, List.mem_singleton, Entry.friction.injEq]
      split
      · rename_i he
        subst he
        constructor
        · intro h'; cases h'; exact .inr ⟨rfl, rfl⟩
        · rintro (h1 | ⟨_, rfl⟩)
          · exact absurd (by rw [(h.frictions _ _).mpr h1]; rfl) hf
          · rfl
      · rename_i he
        rw [h.frictions]
        constructor
        · exact fun h1 => .inl h1
        · rintro (h1 | ⟨rfl, rfl⟩)
          · exact h1
          · exact absurd rfl he
    · simp [h.slides]
    · simp [h.facings]
    · simp [h.zones]
  | slide k =>
    simp only [State.add] at ha
    split at ha
    · cases ha
    cases ha
    refine ⟨fun k id' t' => ?_, fun id' x' => ?_, fun k => ?_, fun k => ?_, fun set z => ?_⟩
    · simp [h.targets]
    · simp [h.frictions]
    · simp [h.slides]
    · simp [h.facings]
    · simp [h.zones]
  | facing k =>
    simp only [State.add] at ha
    split at ha
    · cases ha
    cases ha
    refine ⟨fun k id' t' => ?_, fun id' x' => ?_, fun k => ?_, fun k => ?_, fun set z => ?_⟩
    · simp [h.targets]
    · simp [h.frictions]
    · simp [h.slides]
    · simp [h.facings]
    · simp [h.zones]
  | zones set zs =>
    cases ha
    refine ⟨fun k id' t' => ?_, fun id' x' => ?_, fun k => ?_, fun k => ?_, fun set' z => ?_⟩
    · simp [h.targets]
    · simp [h.frictions]
    · simp [h.slides]
    · simp [h.facings]
    · simp only [List.mem_append, h.zones, List.mem_map, Prod.mk.injEq, List.mem_singleton, Entry.zones.injEq]
      constructor
      · rintro (⟨zs', h1, h2⟩ | ⟨z', h1, rfl, rfl⟩)
        · exact ⟨zs', .inl h1, h2⟩
        · exact ⟨zs, .inr ⟨rfl, rfl⟩, h1⟩
      · rintro ⟨zs', h1 | ⟨rfl, rfl⟩, h2⟩
        · exact .inl ⟨zs', h1, h2⟩
        · exact .inr ⟨z, h2, rfl, rfl⟩

theorem run_holds {cs : List Card} {es : List Entry} (h : List.Forall₂ Says cs es) (hn : ∀ c ∈ cs, NoRange c) :
    ∀ {s s' : State} {es0 : List Entry}, Holds s es0 → run s cs = .ok s' → Holds s' (es0 ++ es) := by
  induction h with
  | nil =>
    intro s s' es0 h0 hr
    cases hr
    simpa using h0
  | @cons c e cs es h1 _ ih =>
    intro s s' es0 h0 hr
    unfold run at hr
    rw [(C133_cards_partial c e (hn c (by simp))).mpr h1, Outcome.bind_ok] at hr
    obtain ⟨s1, hs, hr⟩ := bind_ok_iff.mp hr
    have := ih (fun c hc => hn c (by simp [hc])) (add_holds h0 e hs) hr
    simpa using this

theorem run_ok {cs : List Card} {es : List Entry} (h : List.Forall₂ Says cs es) (hn : ∀ c ∈ cs, NoRange c) :
    ∀ {s : State} {es0 : List Entry}, Holds s es0 → (es0.filterMap key).Nodup →
      ((∃ s', run s cs = .ok s') ↔ ((es0 ++ es).filterMap key).Nodup) := by
  induction h with
  | nil =>
    intro s es0 h0 hd
    simp only [List.append_nil, hd, iff_true]
    exact ⟨s, rfl⟩
  | @cons c e cs es h1 _ ih =>
    intro s es0 h0 hd
    unfold run
    rw [(C133_cards_partial c e (hn c (by simp))).mpr h1, Outcome.bind_ok]
    have key1 : ((es0 ++ [e]).filterMap key).Nodup ↔ ∃ s', s.add e = .ok s' := by
      rw [add_ok h0, List.filterMap_append]
      cases hk : key e with
      | none => simp [hk, hd]
      | some k =>
        simp only [List.filterMap_cons, hk, List.filterMap_nil, List.nodup_append, hd, List.nodup_singleton,
          List.mem_singleton, true_and, Option.some.injEq, forall_eq']
        constructor
        · intro h hk; exact h k hk k rfl rfl
        · intro h a ha b hb hab; rw [hab, hb] at ha; exact h ha
    constructor
    · rintro ⟨s', hr⟩
      obtain ⟨s1, hs, hr⟩ := bind_ok_iff.mp hr
      have := (ih (fun c hc => hn c (by simp [hc])) (add_holds h0 e hs) (key1.mpr ⟨s1, hs⟩)).mp ⟨s', hr⟩
      simpa using this
    · intro hnd
      have hsub : ((es0 ++ [e]).filterMap key).Nodup := by
        have : es0 ++ e :: es = (es0 ++ [e]) ++ es := by simp
        rw [this, List.filterMap_append] at hnd
        exact (List.nodup_append.mp hnd).1
      obtain ⟨s1, hs⟩ := key1.mp hsub
      obtain ⟨s', hr⟩ := (ih (fun c hc => hn c (by simp [hc])) (add_holds h0 e hs) hsub).mpr (by simpa using hnd)
      exact ⟨s', by rw [hs, Outcome.bind_ok]; exact hr⟩

/-- The cards are accepted exactly when each says something and no two have the same key; the model then holds the contacts of
all of them, each zone in the set of its BCTABLE. Missing: ranges in lists of numbers. -/
theorem C133_deck_partial (cs : List Card) (hn : ∀ c ∈ cs, NoRange c) :
    ((∃ s, run .empty cs = .ok s) ↔ ∃ es, List.Forall₂ Says cs es ∧ (es.filterMap key).Nodup) ∧
    ∀ s, run .empty cs = .ok s → ∃ es, List.Forall₂ Says cs es ∧ (∀ k, k ∈ s.slides ↔ Entry.slide k ∈ es) ∧
      (∀ k, k ∈ s.facings ↔ Entry.facing k ∈ es) ∧
      ∀ set z, (set, z) ∈ s.zones ↔ ∃ zs, Entry.zones set zs ∈ es ∧ z ∈ zs := by
  have hsays : ∀ {cs : List Card} {s s' : State}, (∀ c ∈ cs, NoRange c) → run s cs = .ok s' → ∃ es, List.Forall₂ Says cs es := by
    intro cs
    induction cs with
    | nil => intro s s' _ _; exact ⟨[], .nil⟩
    | cons c cs ih =>
      intro s s' hn h
      unfold run at h
      obtain ⟨e, he, h⟩ := bind_ok_iff.mp h
      obtain ⟨s1, _, h⟩ := bind_ok_iff.mp h
      obtain ⟨es, hes⟩ := ih (fun c hc => hn c (by simp [hc])) h
      exact ⟨e :: es, .cons ((C133_cards_partial c e (hn c (by simp))).mp he) hes⟩
  refine ⟨⟨?_, ?_⟩, ?_⟩
  · rintro ⟨s, hs⟩
    obtain ⟨es, h⟩ := hsays hn hs
    exact ⟨es, h, by simpa using (run_ok h hn holds_empty (by simp)).mp ⟨s, hs⟩⟩
  · rintro ⟨es, h, hd⟩
    exact (run_ok h hn holds_empty (by simp)).mpr (by simpa using hd)
  · intro s hs
    obtain ⟨es, h⟩ := hsays hn hs
    have := run_holds h hn holds_empty hs
    rw [List.nil_append] at this
    exact ⟨es, h, this.slides, this.facings, this.zones⟩

/-! ## Finding what is named -/

theorem find_iff {s : State} {es : List Entry} (h : Holds s es) (hu : Unshared es) {order : List Kind} (ho : ∀ k, k ∈ order)
    (id : Int) (t : Target) : find order s id = some t ↔ Entry.target id t ∈ es := by
  unfold find
  have hmem : ∀ t', t' ∈ order.filterMap (fun k => s.targets.find (k, id)) ↔ Entry.target id t' ∈ es := by
    intro t'
    simp only [List.mem_filterMap, h.targets]
    exact ⟨fun ⟨_, _, h1, _⟩ => h1, fun h1 => ⟨t'.kind, ho _, h1, rfl⟩⟩
  constructor
  · intro hl
    exact (hmem t).mp (List.mem_of_getLast? hl)
  · intro ht
    have h1 := (hmem t).mpr ht
    cases hl : (order.filterMap fun k => s.targets.find (k, id)).getLast? with
    | none =>
      rw [List.getLast?_eq_none_iff] at hl
      rw [hl] at h1
      cases h1
    | some t' => rw [hu id t t' ht ((hmem t').mp (List.mem_of_getLast? hl))]

theorem boundary_iff {s : State} {es : List Entry} (h : Holds s es) (hu : Unshared es) {order : List Kind} (ho : ∀ k, k ∈ order)
    (id : Int) (cells : List Int) : boundary order s id = .ok cells ↔ Skin es id cells := by
  unfold boundary Skin
  have f := find_iff h hu ho
  constructor
  · intro hb
    split at hb
    · rename_i b h1
      split at hb
      · rename_i cs h2
        cases hb
        exact ⟨b, (f _ _).mp h1, (f _ _).mp h2⟩
      · cases hb
    · cases hb
  · rintro ⟨b, h1, h2⟩
    rw [(f _ _).mpr h1]
    dsimp only
    rw [(f _ _).mpr h2]

/-- When no two lines, surfaces or bodies have the same number, a zone is accepted exactly when its bodies and their surfaces
exist, and it is then between the elements of these surfaces, unless one has none: this for every order in which the program
looks through the kinds of objects. -/
theorem C133_zone_partial (cs : List Card) (es : List Entry) (s : State) (hn : ∀ c ∈ cs, NoRange c)
    (hs : List.Forall₂ Says cs es) (hr : run .empty cs = .ok s) (hu : Unshared es) (order : List Kind) (ho : ∀ k, k ∈ order)
    (z : Zone) (w : Option (Written (List Int))) :
    zone order s z = .ok w ↔ ∃ master slave, Skin es z.master master ∧ Skin es z.slave slave ∧
      w = if master = [] ∨ slave = [] then none else some ⟨master, slave, none⟩ := by
  have h := run_holds hs hn holds_empty hr
  rw [List.nil_append] at h
  have f := boundary_iff h hu ho
  unfold zone
  constructor
  · intro hz
    obtain ⟨m, h1, hz⟩ := bind_ok_iff.mp hz
    obtain ⟨sl, h2, hz⟩ := bind_ok_iff.mp hz
    refine ⟨m, sl, (f _ _).mp h1, (f _ _).mp h2, ?_⟩
    cases hz
    simp
  · rintro ⟨m, sl, h1, h2, rfl⟩
    rw [(f _ _).mpr h1, Outcome.bind_ok, (f _ _).mpr h2, Outcome.bind_ok]
    simp

theorem segments_iff (ns : List Int) (r : List (List Int)) : segments ns = .ok r ↔ ns ≠ [] ∧ r = pairs ns := by
  induction ns generalizing r with
  | nil => exact ⟨fun h => (by cases h), fun ⟨h, _⟩ => absurd rfl h⟩
  | cons a ns ih =>
    cases ns with
    | nil => exact ⟨fun h => (by cases h; exact ⟨by simp, rfl⟩), fun ⟨_, h⟩ => (by rw [h]; rfl)⟩
    | cons b rest =>
      unfold segments
      constructor
      · intro h
        obtain ⟨r', h1, h2⟩ := bind_ok_iff.mp h
        cases h2
        refine ⟨by simp, ?_⟩
        rw [((ih r').mp h1).2]
        rfl
      · rintro ⟨_, rfl⟩
        rw [(ih (pairs (b :: rest))).mpr ⟨by simp, rfl⟩, Outcome.bind_ok]
        rfl

theorem lineNodes_iff {s : State} {es : List Entry} (h : Holds s es) (hu : Unshared es) {order : List Kind} (ho : ∀ k, k ∈ order)
    (id : Int) (ns : List Int) : lineNodes order s id = .ok ns ↔ Entry.target id (.line ns) ∈ es := by
  rw [← find_iff h hu ho]
  unfold lineNodes
  constructor
  · intro hb
    split at hb
    · rename_i ns' h1
      cases hb
      exact h1
    · cases hb
  · intro h1
    rw [h1]

/-- A sliding line is accepted exactly when its two lines exist and have nodes, and its friction exists. It is then between the
segments of successive nodes of these lines, with the coefficient of the card BFRIC. -/
theorem C133_slide_partial (cs : List Card) (es : List Entry) (s : State) (hn : ∀ c ∈ cs, NoRange c)
    (hs : List.Forall₂ Says cs es) (hr : run .empty cs = .ok s) (hu : Unshared es) (order : List Kind) (ho : ∀ k, k ∈ order)
    (k : Slide) (w : Written (List (List Int))) :
    slide order s k = .ok w ↔ ∃ master slave x, Entry.target k.master (.line master) ∈ es ∧
      Entry.target k.slave (.line slave) ∈ es ∧ Entry.friction k.friction x ∈ es ∧ master ≠ [] ∧ slave ≠ [] ∧
      w = ⟨pairs master, pairs slave, some x⟩ := by
  have h := run_holds hs hn holds_empty hr
  rw [List.nil_append] at h
  have f := lineNodes_iff h hu ho
  unfold slide
  constructor
  · intro hz
    obtain ⟨m, h1, hz⟩ := bind_ok_iff.mp hz
    obtain ⟨sl, h2, hz⟩ := bind_ok_iff.mp hz
    obtain ⟨ms, h3, hz⟩ := bind_ok_iff.mp hz
    obtain ⟨ss, h4, hz⟩ := bind_ok_iff.mp hz
    obtain ⟨hm, rfl⟩ := (segments_iff _ _).mp h3
    obtain ⟨hs', rfl⟩ := (segments_iff _ _).mp h4
    split at hz
    · cases hz
    · rename_i x hx
      cases hz
      exact ⟨m, sl, x, (f _ _).mp h1, (f _ _).mp h2, (h.frictions _ _).mp hx, hm, hs', rfl⟩
  · rintro ⟨m, sl, x, h1, h2, h3, hm, hs', rfl⟩
    rw [(f _ _).mpr h1, Outcome.bind_ok, (f _ _).mpr h2, Outcome.bind_ok, (segments_iff _ _).mpr ⟨hm, rfl⟩, Outcome.bind_ok,
      (segments_iff _ _).mpr ⟨hs', rfl⟩, Outcome.bind_ok, (h.frictions _ _).mpr h3]

theorem facets_iff : ∀ (ns : List Int) (fs : List (List Int)), facets ns = .ok fs ↔ Facets ns fs
  | [], fs => by
    unfold facets Facets
    constructor
    · intro h; cases h; simp
    · rintro ⟨h1, h2⟩
      cases fs with
      | nil => rfl
      | cons f fs =>
        exfalso
        rw [List.flatMap_cons, List.append_eq_nil_iff] at h1
        have := h1.1
        unfold padded at this
        rcases h2 f (by simp) with h | ⟨h, _⟩ <;> split at this <;> simp_all
  | [a], fs => by
    unfold facets Facets
    refine ⟨fun h => (by cases h), fun ⟨h1, h2⟩ => ?_⟩
    exfalso
    cases fs with
    | nil => cases h1
    | cons f fs =>
      have hl := congrArg List.length h1
      rw [List.flatMap_cons, List.length_append] at hl
      unfold padded at hl
      rcases h2 f (by simp) with h | ⟨h, _⟩ <;> split at hl <;> simp_all <;> omega
  | [a, b], fs => by
    unfold facets Facets
    refine ⟨fun h => (by cases h), fun ⟨h1, h2⟩ => ?_⟩
    exfalso
    cases fs with
    | nil => cases h1
    | cons f fs =>
      have hl := congrArg List.length h1
      rw [List.flatMap_cons, List.length_append] at hl
      unfold padded at hl
      rcases h2 f (by simp) with h | ⟨h, _⟩ <;> split at hl <;> simp_all <;> omega
  | [a, b, c], fs => by
    unfold facets Facets
    refine ⟨fun h => (by cases h), fun ⟨h1, h2⟩ => ?_⟩
    exfalso
    cases fs with
    | nil => cases h1
    | cons f fs =>
      have hl := congrArg List.length h1
      rw [List.flatMap_cons, List.length_append] at hl
      unfold padded at hl
      rcases h2 f (by simp) with h | ⟨h, _⟩ <;> split at hl <;> simp_all <;> omega
  | a :: b :: c :: d :: rest, fs => by
    unfold facets
    constructor
    · intro h
      obtain ⟨r, h1, h2⟩ := bind_ok_iff.mp h
      cases h2
      obtain ⟨i1, i2⟩ := (facets_iff rest r).mp h1
      refine ⟨?_, ?_⟩
      · rw [List.flatMap_cons, i1]
        by_cases hd : d = 0
        · simp [hd, padded]
        · simp [hd, padded]
      · intro f hf
        rcases List.mem_cons.mp hf with rfl | hf
        · by_cases hd : d = 0
          · simp [hd]
          · simp [hd]
        · exact i2 f hf
    · rintro ⟨h1, h2⟩
      cases fs with
      | nil => cases h1
      | cons f fs =>
        rw [List.flatMap_cons] at h1
        have hf : f = if d ≠ 0 then [a, b, c, d] else [a, b, c] := by
          rcases h2 f (by simp) with h | ⟨h, hz⟩
          · match f, h with
            | [x, y, z], _ =>
              simp only [padded, List.length_cons, List.length_nil, Nat.zero_add, Nat.reduceAdd, if_true, List.cons_append,
                List.nil_append, List.cons.injEq] at h1
              obtain ⟨rfl, rfl, rfl, rfl, _⟩ := h1
              simp
          · match f, h with
            | [x, y, z, u], _ =>
              simp only [padded, List.length_cons, List.length_nil, Nat.zero_add, Nat.reduceAdd, Nat.reduceEqDiff, if_false,
                List.cons_append, List.nil_append, List.cons.injEq] at h1
              obtain ⟨rfl, rfl, rfl, rfl, _⟩ := h1
              have : u ≠ 0 := by
                intro h0
                apply hz
                simp [h0]
              simp [this]
        have hp : padded f = [a, b, c, d] := by
          rw [hf]
          by_cases hd : d = 0 <;> simp [hd, padded]
        rw [hp] at h1
        have h1 : fs.flatMap padded = rest := by simpa using h1
        rw [(facets_iff rest fs).mpr ⟨h1, fun f' hf' => h2 f' (by simp [hf'])⟩, Outcome.bind_ok, hf]

theorem facetNodes_iff {s : State} {es : List Entry} (h : Holds s es) (hu : Unshared es) {order : List Kind}
    (ho : ∀ k, k ∈ order) (id : Int) (ns : List Int) :
    facetNodes order s id = .ok ns ↔ Entry.target id (.facets ns) ∈ es := by
  rw [← find_iff h hu ho]
  unfold facetNodes
  constructor
  · intro hb
    split at hb
    · rename_i ns' h1
      cases hb
      exact h1
    · cases hb
  · intro h1
    rw [h1]

/-- A contact between surfaces of nodes is accepted exactly when its surfaces exist and are lists of facets of four numbers; it is
then between these facets, those with a fourth number zero being triangles. -/
theorem C133_facets_partial (cs : List Card) (es : List Entry) (s : State) (hn : ∀ c ∈ cs, NoRange c)
    (hs : List.Forall₂ Says cs es) (hr : run .empty cs = .ok s) (hu : Unshared es) (order : List Kind) (ho : ∀ k, k ∈ order)
    (k : Facing) (w : Option (Written (List (List Int)))) :
    facing order s k = .ok w ↔ ∃ master slave ms ss, Entry.target k.master (.facets master) ∈ es ∧
      Entry.target k.slave (.facets slave) ∈ es ∧ Facets master ms ∧ Facets slave ss ∧
      w = if master = [] ∨ slave = [] then none else some ⟨ms, ss, none⟩ := by
  have h := run_holds hs hn holds_empty hr
  rw [List.nil_append] at h
  have f := facetNodes_iff h hu ho
  unfold facing
  constructor
  · intro hz
    obtain ⟨m, h1, hz⟩ := bind_ok_iff.mp hz
    obtain ⟨sl, h2, hz⟩ := bind_ok_iff.mp hz
    obtain ⟨ss, h3, hz⟩ := bind_ok_iff.mp hz
    obtain ⟨ms, h4, hz⟩ := bind_ok_iff.mp hz
    cases hz
    exact ⟨m, sl, ms, ss, (f _ _).mp h1, (f _ _).mp h2, (facets_iff _ _).mp h4, (facets_iff _ _).mp h3, by simp⟩
  · rintro ⟨m, sl, ms, ss, h1, h2, h3, h4, rfl⟩
    rw [(f _ _).mpr h1, Outcome.bind_ok, (f _ _).mpr h2, Outcome.bind_ok, (facets_iff _ _).mpr h4, Outcome.bind_ok,
      (facets_iff _ _).mpr h3, Outcome.bind_ok]
    simp

/-! ## Examples -/

/-- Fields from strings. -/
def card (k : Keyword) (l : List String) : Card := ⟨k, l.map String.toList⟩

/-- Two bodies with a surface each and a zone between them, a sliding line with its friction, two surfaces of nodes. -/
def sample : List Card :=
  [card .bsurf ["BSURF", "4", "101", "102"], card .bsurf ["BSURF", "5", "201"], card .bcbody ["BCBODY", "6", "3D", "DEFORM", "4"],
    card .bcbody ["BCBODY", "7", "", "", "5"], card .bctable ["BCTABLE", "2", "", "", "1", "", "", "", "", "SLAVE", "6", "", "",
      "", "", "", "", "MASTERS", "7"], card .blseg ["BLSEG", "11", "1", "2", "3"], card .blseg ["BLSEG", "12", "21", "22"],
    card .bfric ["BFRIC", "30", "", "", "0.3"], card .bconp ["BCONP", "1", "11", "12", "", "", "30", "", "0"],
    card .bsseg ["BSSEG", "21", "1", "2", "3", "0", "2", "3", "5", "4"], card .bsseg ["BSSEG", "22", "7", "8", "9", "10"],
    card .bsconp ["BSCONP", "1", "21", "22"]]

/-- What they say. -/
def sampleSaid : List Entry :=
  [.target 4 (.surface [101, 102]), .target 5 (.surface [201]), .target 6 (.body 4), .target 7 (.body 5), .zones 2 [⟨6, 7⟩],
    .target 11 (.line [1, 2, 3]), .target 12 (.line [21, 22]), .friction 30 (3 / 10), .slide ⟨1, 11, 12, 30⟩,
    .target 21 (.facets [1, 2, 3, 0, 2, 3, 5, 4]), .target 22 (.facets [7, 8, 9, 10]), .facing ⟨1, 21, 22⟩]

/-- The kinds in some order. -/
def anOrder : List Kind := [.surface, .body, .line, .facets]

/-- The model after the cards. -/
def sampleState : State :=
  ⟨[((.surface, 4), .surface [101, 102]), ((.surface, 5), .surface [201]), ((.body, 6), .body 4), ((.body, 7), .body 5),
    ((.line, 11), .line [1, 2, 3]), ((.line, 12), .line [21, 22]), ((.facets, 21), .facets [1, 2, 3, 0, 2, 3, 5, 4]),
    ((.facets, 22), .facets [7, 8, 9, 10])], [(30, 3 / 10)], [⟨1, 11, 12, 30⟩], [⟨1, 21, 22⟩], [(2, ⟨6, 7⟩)]⟩

theorem noRange_of {f : List Line} (k : Keyword) (h : f.all (fun x => decide (toUpper (trim x) ≠ "THRU".toList)) = true) :
    NoRange ⟨k, f⟩ := by
  intro i
  unfold field
  by_cases hi : i < f.length
  · rw [List.all_eq_true] at h
    have := h (f.getD i []) (by rw [List.getD_eq_getElem?_getD, List.getElem?_eq_getElem hi]; simp)
    simpa using this
  · rw [show f.getD i [] = [] from by rw [List.getD_eq_getElem?_getD, List.getElem?_eq_none (by omega)]; rfl]
    decide

theorem sample_noRange : ∀ c ∈ sample, NoRange c := by
  have h : sample.all (fun c => c.fields.all (fun x => decide (toUpper (trim x) ≠ "THRU".toList))) = true := by decide +kernel
  intro c hc
  exact noRange_of c.keyword (List.all_eq_true.mp h c hc)

theorem forall2_of {cs : List Card} {es : List Entry} (hn : ∀ c ∈ cs, NoRange c) (h : cs.map read = es.map Outcome.ok) :
    List.Forall₂ Says cs es := by
  induction cs generalizing es with
  | nil =>
    cases es with
    | nil => exact .nil
    | cons e es => cases h
  | cons c cs ih =>
    cases es with
    | nil => cases h
    | cons e es =>
      simp only [List.map_cons, List.cons.injEq] at h
      exact .cons ((C133_cards_partial c e (hn c (by simp))).mp h.1) (ih (fun c hc => hn c (by simp [hc])) h.2)

theorem sample_says : List.Forall₂ Says sample sampleSaid := forall2_of sample_noRange (by decide +kernel)

theorem sample_run : run .empty sample = .ok sampleState := by decide +kernel

/-- Two targets with the same number are the same. -/
def agree : Entry → Entry → Bool
  | .target id t, .target id' t' => decide (id = id' → t = t')
  | _, _ => true

theorem unshared_of {es : List Entry} (h : es.all (fun a => es.all (agree a)) = true) : Unshared es := by
  intro id t t' h1 h2
  have := List.all_eq_true.mp (List.all_eq_true.mp h _ h1) _ h2
  exact of_decide_eq_true this rfl

theorem sample_unshared : Unshared sampleSaid := unshared_of (by decide +kernel)

example : (sampleSaid.filterMap key).Nodup := by decide +kernel

example : zone anOrder sampleState ⟨6, 7⟩ = .ok (some ⟨[201], [101, 102], none⟩) ∧ Skin sampleSaid 7 [201] ∧
    Skin sampleSaid 6 [101, 102] :=
  ⟨by decide +kernel, ⟨5, by decide +kernel, by decide +kernel⟩, ⟨4, by decide +kernel, by decide +kernel⟩⟩

example : slide anOrder sampleState ⟨1, 11, 12, 30⟩ = .ok ⟨[[21, 22]], [[1, 2], [2, 3]], some (3 / 10)⟩ := by decide +kernel

example : facing anOrder sampleState ⟨1, 21, 22⟩ = .ok (some ⟨[[7, 8, 9, 10]], [[1, 2, 3], [2, 3, 5, 4]], none⟩) := by
  decide +kernel

/-! ## What is not so -/

/-- A body that has the number of its surface is refused, whatever the order of the kinds and the rest of the model: the same
search has to give the body and the surface. -/
theorem C133_number_false (order : List Kind) (s : State) (id : Int) (h : find order s id = some (.body id)) :
    boundary order s id = .throw ∧ ∀ z : Zone, z.master = id ∨ z.slave = id → ∀ w, zone order s z ≠ .ok w := by
  have hb : boundary order s id = .throw := by
    unfold boundary
    rw [h]
    dsimp only
    rw [h]
  refine ⟨hb, fun z hz w hw => ?_⟩
  unfold zone at hw
  obtain ⟨m, h1, hw⟩ := bind_ok_iff.mp hw
  obtain ⟨sl, h2, _⟩ := bind_ok_iff.mp hw
  rcases hz with hz | hz
  · rw [hz, hb] at h1; cases h1
  · rw [hz, hb] at h2; cases h2

/-- Two bodies numbered as their surfaces, as Nastran allows: the cards are read and every order of the kinds refuses them. -/
def numbered : List Card :=
  [card .bsurf ["BSURF", "1", "101"], card .bsurf ["BSURF", "2", "201"], card .bcbody ["BCBODY", "1", "3D", "DEFORM", "1"],
    card .bcbody ["BCBODY", "2", "3D", "DEFORM", "2"], card .bctable ["BCTABLE", "1", "1", "2"]]

theorem C133_numbers_false : ∃ s es, run .empty numbered = .ok s ∧ List.Forall₂ Says numbered es ∧
    (1, ⟨1, 2⟩) ∈ s.zones ∧ Skin es 1 [101] ∧ Skin es 2 [201] ∧ ∀ order, zone order s ⟨1, 2⟩ = .throw := by
  refine ⟨⟨[((.surface, 1), .surface [101]), ((.surface, 2), .surface [201]), ((.body, 1), .body 1), ((.body, 2), .body 2)], [],
    [], [], [(1, ⟨1, 2⟩)]⟩, [.target 1 (.surface [101]), .target 2 (.surface [201]), .target 1 (.body 1), .target 2 (.body 2),
    .zones 1 [⟨1, 2⟩]], by decide +kernel, forall2_of ?_ (by decide +kernel), by decide +kernel,
    ⟨1, by decide +kernel, by decide +kernel⟩, ⟨2, by decide +kernel, by decide +kernel⟩, fun order => ?_⟩
  · have h : numbered.all (fun c => c.fields.all (fun x => decide (toUpper (trim x) ≠ "THRU".toList))) = true := by
      decide +kernel
    intro c hc
    exact noRange_of c.keyword (List.all_eq_true.mp h c hc)
  · unfold zone
    have : ∀ s : State, boundary order s 2 = .throw → (boundary order s 2 >>= fun master => do
        let slave ← boundary order s 1
        Outcome.ok (if master.isEmpty || slave.isEmpty then none else some (⟨master, slave, none⟩ : Written (List Int)))) =
          .throw := by
      intro s h
      rw [h]
      rfl
    apply this
    unfold boundary
    split
    · rename_i b h1
      have hb : b = 2 := by
        have hm := List.mem_of_getLast? h1
        simp only [List.mem_filterMap] at hm
        obtain ⟨k, _, hk⟩ := hm
        cases k <;> simp [Map.find] at hk
        exact hk.symm
      subst hb
      rw [h1]
    · rfl

/-- Two objects of different kinds with the same number: the body or the other surface is found according to the order in memory
of the kinds. -/
def shared : List Card :=
  [card .bsurf ["BSURF", "4", "101"], card .bsurf ["BSURF", "6", "301"], card .bcbody ["BCBODY", "6", "3D", "DEFORM", "4"]]

theorem C133_order_false : ∃ s, run .empty shared = .ok s ∧ ∃ o1 o2 : List Kind, (∀ k, k ∈ o1) ∧ (∀ k, k ∈ o2) ∧
    boundary o1 s 6 = .ok [101] ∧ boundary o2 s 6 = .throw := by
  refine ⟨⟨[((.surface, 4), .surface [101]), ((.surface, 6), .surface [301]), ((.body, 6), .body 4)], [], [], [], []⟩,
    by decide +kernel, [.line, .facets, .surface, .body], [.line, .facets, .body, .surface], ?_, ?_, by decide +kernel,
    by decide +kernel⟩
  · intro k; cases k <;> decide
  · intro k; cases k <;> decide

/-- A surface of nodes whose numbers do not go four by four is read beyond the end of the list. -/
theorem C133_facets_false (ns : List Int) (h : ns.length % 4 ≠ 0) : facets ns = .ub := by
  match ns with
  | [] => simp at h
  | [_] => rfl
  | [_, _] => rfl
  | [_, _, _] => rfl
  | a :: b :: c :: d :: rest =>
    unfold facets
    have : facets rest = .ub := C133_facets_false rest (by simp only [List.length_cons] at h; omega)
    rw [this]
    rfl

/-- A triangle whose fourth field is left blank, as in the first two quadrangles of a card, ends the list: what follows makes the
card refused. -/
theorem C133_blank_false (f : List Line) (hn : NoRange ⟨.bsseg, f⟩) (h5 : Blank f 5) (i : Nat) (hi : 5 < i) (h : ¬ Blank f i)
    (e : Entry) : read ⟨.bsseg, f⟩ ≠ .ok e := by
  intro hr
  have hs := (C133_cards_partial _ _ hn).mp hr
  cases hs with
  | bsseg _ id ns h1 h2 =>
    have step : ∀ {p : Nat} {ns : List Int}, Numbers f p ns → p ≤ 5 → LoadCardsSpec.Ends f 5 := by
      intro p ns hns
      induction hns with
      | nil p he => exact fun hp j hj => he j (by omega)
      | cons p n rest hp1 _ ih =>
        intro hp
        by_cases hpe : p = 5
        · subst hpe
          have := plain_like hp1
          rw [blank_intLike h5] at this
          cases this
        · exact ih (by omega)
    exact h (step h2 (by omega) i (by omega))

/-- A triangle alone with a blank fourth field is read as three numbers, and the surface is then read beyond its end. -/
theorem C133_triangle_false (f : List Line) (hn : NoRange ⟨.bsseg, f⟩) (id a b c : Int) (h1 : IsInt f 1 id) (h2 : Plain f 2 a)
    (h3 : Plain f 3 b) (h4 : Plain f 4 c) (h5 : LoadCardsSpec.Ends f 5) :
    read ⟨.bsseg, f⟩ = .ok (.target id (.facets [a, b, c])) ∧ facets [a, b, c] = .ub :=
  ⟨(C133_cards_partial _ _ hn).mpr (.bsseg f id _ h1 (.cons 2 a _ h2 (.cons 3 b _ h3 (.cons 4 c _ h4 (.nil 5 h5))))), rfl⟩

/-- A line without nodes, and a sliding line whose friction is defined by no card, have no defined behaviour. -/
theorem C133_undefined_false (order : List Kind) (s : State) (k : Slide) (m sl : List Int)
    (h1 : lineNodes order s k.master = .ok m) (h2 : lineNodes order s k.slave = .ok sl)
    (h : m = [] ∨ sl = [] ∨ s.frictions.find k.friction = none) : slide order s k = .ub := by
  unfold slide
  rw [h1, Outcome.bind_ok, h2, Outcome.bind_ok]
  by_cases hm : m = []
  · rw [hm]; rfl
  · rw [(segments_iff m _).mpr ⟨hm, rfl⟩, Outcome.bind_ok]
    by_cases hs : sl = []
    · rw [hs]; rfl
    · rw [(segments_iff sl _).mpr ⟨hs, rfl⟩, Outcome.bind_ok]
      rcases h with h | h | h
      · exact absurd h hm
      · exact absurd h hs
      · rw [h]

/-- A sliding line without friction, or with the default coordinate system, both left blank on the card, is refused. -/
theorem C133_required_false (f : List Line) (h : Blank f 6 ∨ Blank f 8) (e : Entry) : read ⟨.bconp, f⟩ ≠ .ok e := by
  intro hr
  have hs := (slide_iff f e).mp hr
  have no : ∀ i n, Blank f i → ¬ IsInt f i n := by
    intro i n hb hi
    unfold IsInt at hi
    unfold Blank at hb
    rw [hb] at hi
    cases hi
  cases hs with
  | bconp _ id s m fr h1 h2 h3 h5 h6 h7 h8 h9 =>
    obtain ⟨cid, h8⟩ := h8
    rcases h with h | h
    · exact no 6 fr h h6
    · exact no 8 cid h h8

/-- The kind of penetration of BCONP and the scale of its stiffness are read and lost: cards that differ in them give the same
contact. -/
theorem C133_symmetry_false (f g : List Line)
    (h : ∀ i, i ≠ 4 → i ≠ 5 → i ≠ 7 → field f i = field g i) (e e' : Entry) (h1 : read ⟨.bconp, f⟩ = .ok e)
    (h2 : read ⟨.bconp, g⟩ = .ok e') : e = e' := by
  have s1 := (slide_iff f e).mp h1
  have s2 := (slide_iff g e').mp h2
  have same : ∀ i a b, i ≠ 4 → i ≠ 5 → i ≠ 7 → IsInt f i a → IsInt g i b → a = b := by
    intro i a b i4 i5 i7 ha hb
    unfold IsInt at ha hb
    rw [h i i4 i5 i7, hb] at ha
    cases ha
    rfl
  cases s1 with
  | bconp _ id s m fr a1 a2 a3 a5 a6 a7 a8 a9 =>
    cases s2 with
    | bconp _ id' s' m' fr' b1 b2 b3 b5 b6 b7 b8 b9 =>
      rw [same 1 id id' (by omega) (by omega) (by omega) a1 b1, same 2 s s' (by omega) (by omega) (by omega) a2 b2,
        same 3 m m' (by omega) (by omega) (by omega) a3 b3, same 6 fr fr' (by omega) (by omega) (by omega) a6 b6]

example : ∃ f g : List Line, (∀ i, i ≠ 4 → i ≠ 5 → i ≠ 7 → field f i = field g i) ∧ f ≠ g ∧
    (∃ e, read ⟨.bconp, f⟩ = .ok e) ∧ ∃ e, read ⟨.bconp, g⟩ = .ok e := by
  refine ⟨["BCONP", "1", "11", "12", "", "1.", "30", "1", "0"].map String.toList,
    ["BCONP", "1", "11", "12", "", "5.", "30", "2", "0"].map String.toList, ?_, by decide +kernel,
    ⟨.slide ⟨1, 11, 12, 30⟩, by decide +kernel⟩, ⟨.slide ⟨1, 11, 12, 30⟩, by decide +kernel⟩⟩
  intro i h4 h5 h7
  match i with
  | 0 => decide
  | 1 => decide
  | 2 => decide
  | 3 => decide
  | 4 => exact absurd rfl h4
  | 5 => exact absurd rfl h5
  | 6 => decide
  | 7 => exact absurd rfl h7
  | 8 => decide
  | n + 9 => simp [field]

end Contacts
end Vega
