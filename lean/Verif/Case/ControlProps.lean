import Verif.Case.ControlLemmas

/-! # Subcases select what they name (C97) -/
namespace Vega

/-! ## What a case control section says -/
namespace CaseSpec
open Nastran (Line toUpper natOf intMax)
open Case (Word Gives Analysis Kind CSet LSet OSet)
open F06Spec (Digits)

/-- Blanks between words. -/
def Blanks (b : Line) : Prop := ∀ c ∈ b, c = ' ' ∨ c = '\t'

/-- What stands between a command and its value: an equal sign, or spaces only. -/
def Separates (m : Line) : Prop :=
  (∃ a b, m = a ++ '=' :: b ∧ Blanks a ∧ Blanks b) ∨ (m ≠ [] ∧ ∀ c ∈ m, c = ' ')

/-- The text of the command `k` with the value `v`; the command may be written in small letters. -/
def Selects (text k v : Line) : Prop :=
  ∃ b w m b', text = b ++ (w ++ m ++ v) ++ b' ∧ Blanks b ∧ Word w ∧ toUpper w = k ∧ Separates m ∧ Word v ∧ Blanks b'

/-- The text of a command without a value. -/
def Alone (text k : Line) : Prop := ∃ b w b', text = b ++ w ++ b' ∧ Blanks b ∧ Word w ∧ toUpper w = k ∧ Blanks b'

/-- A line that begins with the word `k`, after which there are other words. -/
def BeginsWith (text k : Line) : Prop :=
  ∃ b w s t b', text = b ++ (w ++ (' ' :: s ++ t)) ++ b' ∧ Blanks b ∧ Word w ∧ toUpper w = k ∧ Blanks s ∧ Word t ∧ Blanks b'

/-- A command above the subcases: a value is given, or it is `CEND`. -/
inductive Item where
  | sel (k v : Line)
  | cend

/-- A subcase: its number and what is given in it. -/
structure Sub where
  id : Nat
  sels : List (Line × Line)

def Item.Text : Item → Line → Prop
  | .sel k v, text => Selects text k v
  | .cend, text => Alone text "CEND".toList

/-- The lines of the commands above the subcases; blank lines and comments may stand anywhere. -/
inductive Above : List Item → List Line → Prop
  | nil : Above [] []
  | cons (i : Item) (text : Line) (ls : List Line) (items : List Item) (rest : List Line) :
    Gives ls text → i.Text text → Above items rest → Above (i :: items) (ls ++ rest)

/-- Words with blanks or equal signs between them. -/
inductive Words : List Line → Line → Prop
  | one (w : Line) : Word w → Words [w] w
  | cons (w s t : Line) (ws : List Line) : Word w → s ≠ [] → (∀ c ∈ s, c = ' ' ∨ c = '\t' ∨ c = '=') → Words ws t →
    Words (w :: ws) (w ++ s ++ t)

/-- Words in capital letters, joined by underscores. -/
def joinedWords : List Line → Line
  | [] => []
  | [w] => toUpper w
  | w :: ws => toUpper w ++ '_' :: joinedWords ws

/-- The text of the command `k` in a subcase; its value `v` is made of all the words that follow. -/
def Says (text k v : Line) : Prop :=
  ∃ b w ws t b', text = b ++ t ++ b' ∧ Blanks b ∧ Words (w :: ws) t ∧ ws ≠ [] ∧ toUpper w = k ∧ v = joinedWords ws ∧ Blanks b'

/-- The lines of the commands of a subcase. -/
inductive Own : List (Line × Line) → List Line → Prop
  | nil : Own [] []
  | cons (k v text : Line) (ls : List Line) (sels : List (Line × Line)) (rest : List Line) :
    Gives ls text → Says text k v → Own sels rest → Own ((k, v) :: sels) (ls ++ rest)

/-- The lines of the subcases. -/
inductive Subcases : List Sub → List Line → Prop
  | nil : Subcases [] []
  | cons (s : Sub) (text v : Line) (ls own : List Line) (subs : List Sub) (rest : List Line) :
    Gives ls text → Selects text "SUBCASE".toList v → Digits v s.id → Own s.sels own → Subcases subs rest →
    Subcases (s :: subs) (ls ++ own ++ rest)

/-- The commands with a value, above the subcases. -/
def given (items : List Item) : List (Line × Line) :=
  items.filterMap fun
    | .sel k v => some (k, v)
    | .cend => none

/-- The last value given to a command: what a subcase gives comes after what is given above. -/
def lastFor (l : List (Line × Line)) (k : Line) : Option Line := (l.reverse.find? fun e => e.1 = k).map (·.2)

/-- The commands of which the value is the number of a set. -/
def setCommands : List Line :=
  ["SPC".toList, "MPC".toList, "LOAD".toList, "DLOAD".toList, "LOADSET".toList, "DISPLACEMENT".toList, "DISP".toList]

/-- The two names of the command for displacements. -/
def dispNames : List Line := ["DISPLACEMENT".toList, "DISP".toList]

/-- The commands that begin subcases, and lists. -/
def parts : List Line := ["SUBCASE".toList, "SUBCOM".toList, "SET".toList]

/-- The commands that are read in their own way above the subcases. -/
def ownWay : List Line := ["TITLE".toList, "SUBTITLE".toList, "CEND".toList, "B2GG".toList, "K2GG".toList, "M2GG".toList]

/-- The commands of this theorem: those for sets, with a number, and others that do not look like them; no options. -/
structure Allowed (k v : Line) : Prop where
  plain : k ∉ parts ∧ ¬ "BEGIN".toList <:+: k
  options : ∀ c ∈ k, c ≠ '(' ∧ c ≠ ',' ∧ c ≠ ')'
  number : k ∈ setCommands → ∃ n, Digits v n
  other : k ∉ setCommands → ∀ p ∈ ["SPC".toList, "MPC".toList, "LOAD".toList, "DLOAD".toList, "DISP".toList], ¬ p <+: k
  small : (∀ c ∈ v, c.isDigit = true) → (natOf v : Int) ≤ intMax

/-- The same above the subcases. -/
def AllowedAbove (k v : Line) : Prop := Allowed k v ∧ k ∉ ownWay

/-- The names of the solutions. -/
def staticNames : List Line := ["101".toList, "1".toList, "1,1".toList, "STATIC".toList, "STATICS".toList, "SESTATIC".toList, "SESTATICS".toList]
def modalNames : List Line := ["103".toList, "3".toList, "MODES".toList, "SEMODES".toList]
def nonLinearNames : List Line := ["106".toList, "6".toList, "NLSTATIC".toList]

/-- The kind of the analysis for what is given to a subcase. -/
inductive HasKind (eff : Line → Option Line) : Kind → Prop
  | static (s : Line) : eff "SOL".toList = some s → s ∈ staticNames → HasKind eff .linearStatic
  | modal (s v : Line) (n : Nat) : eff "SOL".toList = some s → s ∈ modalNames → eff "METHOD".toList = some v → Digits v n →
    (∀ k, "METHOD".toList <:+: k → k ≠ "METHOD".toList → eff k = none) → HasKind eff (.modal n)
  | nonLinear (s v : Line) (n : Nat) : eff "SOL".toList = some s → s ∈ nonLinearNames → eff "NLPARM".toList = some v →
    Digits v n → HasKind eff (.nonLinear n)

/-- The value of a command is the number `n`. -/
def Chosen (eff : Line → Option Line) (k : Line) (n : Int) : Prop := ∃ v m, eff k = some v ∧ Digits v m ∧ n = (m : Nat)

/-- An analysis made of what is given. -/
structure Made (eff : Line → Option Line) (id : Int) (name : Line) (previous : Option Nat) (a : Analysis) : Prop where
  kind : HasKind eff a.kind
  id : a.id = id
  label : a.label = (eff "LABEL".toList).getD name
  spc : ∀ n, (CSet.spc, n) ∈ a.constraints ↔ Chosen eff "SPC".toList n
  mpc : ∀ n, (CSet.mpc, n) ∈ a.constraints ↔ Chosen eff "MPC".toList n
  contact : ∀ n, (CSet.contact, n) ∉ a.constraints
  load : ∀ n, (LSet.load, n) ∈ a.loads ↔ Chosen eff "LOAD".toList n
  dload : ∀ n, (LSet.dload, n) ∈ a.loads ↔ Chosen eff "DLOAD".toList n
  loadset : ∀ n, (LSet.loadset, n) ∈ a.loads ↔ Chosen eff "LOADSET".toList n
  disp : ∀ n, (OSet.disp, n) ∈ a.outputs ↔ (∃ k ∈ dispNames, Chosen eff k n) ∧ n ≠ 0
  previous : a.previous = previous

end CaseSpec

namespace Case
open Nastran (Line isSpace isBlank blank trim trimRight toUpper Cursor Symbol nextString nextInt intMin intMax natOf)
open F06 (has)
open CaseSpec
open F06Spec (Digits)

/-! ## Contexts -/

/-- A context holds the values given. -/
structure Rep (c : Context) (sels : List (Line × Line)) : Prop where
  distinct : Distinct c
  good : ∀ e ∈ c, ∃ b v, e.2 = b ++ v ∧ Blanks b ∧ Word v ∧ Word e.1 ∧ Allowed e.1 v
  value : ∀ k, (get c k).map trim = lastFor sels k

theorem rep_nil : Rep [] [] :=
  ⟨by simp [Distinct], by simp, by intro k; rfl⟩

theorem blanks_space {b : Line} (h : Blanks b) : ∀ c ∈ b, isSpace c = true := by
  intro c hc
  rcases h c hc with rfl | rfl <;> decide

theorem lastFor_append (l : List (Line × Line)) (k v x : Line) :
    lastFor (l ++ [(k, v)]) x = if x = k then some v else lastFor l x := by
  unfold lastFor
  rw [List.reverse_append]
  simp only [List.reverse_cons, List.reverse_nil, List.nil_append, List.singleton_append, List.find?_cons]
  by_cases h : k = x
  · simp [h]
  · have h' : ¬ x = k := fun hx => h hx.symm
    simp [h, h']

theorem trim_value {b v : Line} (hb : Blanks b) (hv : Word v) : trim (b ++ v) = v := by
  have := trim_tight (blanks_space hb) hv.tight (b := []) (by simp)
  simpa using this

theorem rep_put {c : Context} {sels : List (Line × Line)} (h : Rep c sels) {k b v : Line} (hb : Blanks b) (hk : Word k)
    (hv : Word v) (ha : Allowed k v) : Rep (put k (b ++ v) c) (sels ++ [(k, v)]) := by
  refine ⟨distinct_put h.distinct, ?_, ?_⟩
  · intro e he
    rcases mem_put he with rfl | he
    · exact ⟨b, v, rfl, hb, hv, hk, ha⟩
    · exact h.good e he
  · intro x
    rw [get_put, lastFor_append]
    by_cases hx : x = k
    · rw [if_pos hx, if_pos hx, Option.map_some, trim_value hb hv]
    · rw [if_neg hx, if_neg hx, h.value x]

/-- An entry for what is found. -/
theorem rep_mem {c : Context} {sels : List (Line × Line)} (h : Rep c sels) {k v : Line} :
    lastFor sels k = some v ↔ ∃ b, (k, b ++ v) ∈ c ∧ Blanks b ∧ Word v ∧ Allowed k v := by
  constructor
  · intro hl
    rw [← h.value k] at hl
    obtain ⟨y, hy, hyv⟩ := Option.map_eq_some_iff.mp hl
    have hm := (mem_iff_get h.distinct k y).mpr hy
    obtain ⟨b, v', hbv, hb, hv, hk, ha⟩ := h.good _ hm
    simp only at hbv
    rw [hbv, trim_value hb hv] at hyv
    subst hyv
    exact ⟨b, by rw [← hbv]; exact hm, hb, hv, ha⟩
  · rintro ⟨b, hm, hb, hv, _⟩
    rw [← h.value k, (mem_iff_get h.distinct k _).mp hm, Option.map_some, trim_value hb hv]

/-! ## Selections -/

theorem valueId_entry {k b v : Line} (hb : Blanks b) (hv : Word v) (ha : Allowed k v) :
    ∃ id, valueId (b ++ v) = .ok id ∧ ∀ n, Digits v n → id = (n : Nat) := by
  unfold valueId
  simp only [trim_value hb hv]
  by_cases hd : ∀ c ∈ v, c.isDigit = true
  · have hD : Digits v (natOf v) := ⟨hv.1, hd, rfl, ha.small hd⟩
    rw [if_pos (by
      have h1 : v.isEmpty = false := by simpa using hv.1
      rw [h1, List.all_eq_true.mpr hd]; rfl)]
    refine ⟨natOf v, ?_, ?_⟩
    · unfold number
      have := stoi_number (b := []) (by simp) hD
      rw [List.nil_append] at this
      rw [this]
    · intro n hn
      rw [hn.2.2.1]
  · rw [if_neg (by
      intro h
      simp only [Bool.and_eq_true, List.all_eq_true] at h
      exact hd h.2)]
    refine ⟨0, rfl, ?_⟩
    intro n hn
    exact absurd hn.2.1 hd

theorem keyOptions_entry {cfg : Config} (hg : cfg.gnu = true) {k v : Line} (hk : Word k) (ha : Allowed k v) :
    keyOptions cfg k = .ok (k, []) := by
  have hs : splitRuns isOptionSep false k = [k] := by
    refine split_word _ k false hk.1 ?_
    intro c hc
    have h1 := ha.options c hc
    have h2 : c ≠ ' ' := by
      rintro rfl
      exact absurd (hk.2 ' ' hc).2.1 (by decide)
    simp [isOptionSep, h1.1, h1.2.1, h1.2.2, h2]
  have hne : k.isEmpty = false := by simpa using hk.1
  unfold keyOptions
  rw [hs]
  have hc : cleanOptions cfg [k] = .ok [] := by
    unfold cleanOptions
    simp [hne, hg]
  rw [hc]
  rfl

theorem begins_prefix {n : Nat} {w k : Line} (h : begins n w k = true) : w <+: k := by
  unfold begins at h
  rw [decide_eq_true_eq] at h
  rw [← h]
  exact List.take_prefix n k

theorem begins_short {n : Nat} {w k : Line} (hn : n < w.length) : begins n w k = false := by
  cases h : begins n w k with
  | false => rfl
  | true =>
    unfold begins at h
    rw [decide_eq_true_eq] at h
    have := congrArg List.length h
    rw [List.length_take] at this
    omega

theorem mem_addNew {α : Type} [DecidableEq α] (x y : α) (l : List α) : y ∈ addNew x l ↔ y ∈ l ∨ y = x := by
  unfold addNew
  split
  · rename_i h
    rw [List.contains_iff_mem] at h
    constructor
    · exact Or.inl
    · rintro (h' | rfl)
      · exact h'
      · exact h
  · simp

/-- The commands of the sets of constraints, loads and outputs. -/
def ckey : CSet → Option Line
  | .spc => some "SPC".toList
  | .mpc => some "MPC".toList
  | .contact => none

def lkey : LSet → Line
  | .load => "LOAD".toList
  | .dload => "DLOAD".toList
  | .loadset => "LOADSET".toList

/-- What an entry adds. -/
structure Effect (k v : Line) (d : Deck) (a : Analysis) (d' : Deck) (a' : Analysis) : Prop where
  analyses : d'.analyses = d.analyses
  sets : d'.sets = d.sets
  kind : a'.kind = a.kind
  id : a'.id = a.id
  label : a'.label = a.label
  previous : a'.previous = a.previous
  constraints : ∀ t n, (t, n) ∈ a'.constraints ↔ (t, n) ∈ a.constraints ∨ (ckey t = some k ∧ ∃ m, Digits v m ∧ n = (m : Nat))
  loads : ∀ t n, (t, n) ∈ a'.loads ↔ (t, n) ∈ a.loads ∨ (lkey t = k ∧ ∃ m, Digits v m ∧ n = (m : Nat))
  outputs : ∀ n, (OSet.disp, n) ∈ a'.outputs ↔
    (OSet.disp, n) ∈ a.outputs ∨ (k ∈ dispNames ∧ (∃ m, Digits v m ∧ n = (m : Nat)) ∧ n ≠ 0)
  kept : d.constraintSets ⊆ d'.constraintSets ∧ d.loadSets ⊆ d'.loadSets
  known : a.constraints ⊆ d.constraintSets → a'.constraints ⊆ d'.constraintSets
  knownLoads : a.loads ⊆ d.loadSets → a'.loads ⊆ d'.loadSets

theorem effect_constraint (t : CSet) {k v : Line} (n : Nat) (hn : Digits v n) (hk : ckey t = some k) (hl : ∀ t, lkey t ≠ k)
    (ho : k ∉ dispNames) (hu : ∀ t', ckey t' = some k → t' = t) (d : Deck) (a : Analysis) :
    Effect k v d a (selectConstraint t n d a).1 (selectConstraint t n d a).2 := by
  have huniq : ∀ m, Digits v m → m = n := fun m hm => by rw [← hm.2.2.1, ← hn.2.2.1]
  refine ⟨rfl, rfl, rfl, rfl, rfl, rfl, ?_, ?_, ?_, ⟨?_, fun x hx => hx⟩, ?_, fun h => h⟩
  · intro t' m
    simp only [selectConstraint, mem_addNew, Prod.mk.injEq]
    constructor
    · rintro (h | ⟨rfl, rfl⟩)
      · exact Or.inl h
      · exact Or.inr ⟨hk, n, hn, rfl⟩
    · rintro (h | ⟨h, m', hm', rfl⟩)
      · exact Or.inl h
      · exact Or.inr ⟨hu t' h, by rw [huniq m' hm']⟩
  · intro t' m
    constructor
    · exact Or.inl
    · rintro (h | ⟨h, _⟩)
      · exact h
      · exact absurd h (hl t')
  · intro m
    constructor
    · exact Or.inl
    · rintro (h | ⟨h, _⟩)
      · exact h
      · exact absurd h ho
  · intro x hx
    simp only [selectConstraint, mem_addNew]
    exact Or.inl hx
  · intro h x hx
    simp only [selectConstraint, mem_addNew] at hx ⊢
    rcases hx with hx | hx
    · exact Or.inl (h hx)
    · exact Or.inr hx

theorem effect_load (t : LSet) {k v : Line} (n : Nat) (hn : Digits v n) (hk : lkey t = k) (hc : ∀ t, ckey t ≠ some k)
    (ho : k ∉ dispNames) (hu : ∀ t', lkey t' = k → t' = t) (d : Deck) (a : Analysis) :
    Effect k v d a (selectLoad t n d a).1 (selectLoad t n d a).2 := by
  have huniq : ∀ m, Digits v m → m = n := fun m hm => by rw [← hm.2.2.1, ← hn.2.2.1]
  refine ⟨rfl, rfl, rfl, rfl, rfl, rfl, ?_, ?_, ?_, ⟨fun x hx => hx, ?_⟩, fun h => h, ?_⟩
  · intro t' m
    constructor
    · exact Or.inl
    · rintro (h | ⟨h, _⟩)
      · exact h
      · exact absurd h (hc t')
  · intro t' m
    simp only [selectLoad, mem_addNew, Prod.mk.injEq]
    constructor
    · rintro (h | ⟨rfl, rfl⟩)
      · exact Or.inl h
      · exact Or.inr ⟨hk, n, hn, rfl⟩
    · rintro (h | ⟨h, m', hm', rfl⟩)
      · exact Or.inl h
      · exact Or.inr ⟨hu t' h, by rw [huniq m' hm']⟩
  · intro m
    constructor
    · exact Or.inl
    · rintro (h | ⟨h, _⟩)
      · exact h
      · exact absurd h ho
  · intro x hx
    simp only [selectLoad, mem_addNew]
    exact Or.inl hx
  · intro h x hx
    simp only [selectLoad, mem_addNew] at hx ⊢
    rcases hx with hx | hx
    · exact Or.inl (h hx)
    · exact Or.inr hx

theorem effect_none {k v : Line} (hc : ∀ t, ckey t ≠ some k) (hl : ∀ t, lkey t ≠ k)
    (ho : k ∈ dispNames → ∀ m, Digits v m → m = 0) (d : Deck) (a : Analysis) : Effect k v d a d a := by
  refine ⟨rfl, rfl, rfl, rfl, rfl, rfl, ?_, ?_, ?_, ⟨fun x hx => hx, fun x hx => hx⟩, fun h => h, fun h => h⟩
  · intro t n
    constructor
    · exact Or.inl
    · rintro (h | ⟨h, _⟩)
      · exact h
      · exact absurd h (hc t)
  · intro t n
    constructor
    · exact Or.inl
    · rintro (h | ⟨h, _⟩)
      · exact h
      · exact absurd h (hl t)
  · intro n
    constructor
    · exact Or.inl
    · rintro (h | ⟨h, ⟨m, hm, rfl⟩, hne⟩)
      · exact h
      · exact absurd (by rw [ho h m hm]; rfl) hne

theorem effect_disp {k v : Line} (hk : k ∈ dispNames) (hc : ∀ t, ckey t ≠ some k) (hlk : ∀ t, lkey t ≠ k) (n : Nat) (hn : Digits v n) (hne : n ≠ 0) (d : Deck) (a : Analysis) (ph : List (Int × Bool)) :
    Effect k v d a { d with phases := ph } (selectOutput .disp n a) := by
  have huniq : ∀ m, Digits v m → m = n := fun m hm => by rw [← hm.2.2.1, ← hn.2.2.1]
  refine ⟨rfl, rfl, rfl, rfl, rfl, rfl, ?_, ?_, ?_, ⟨fun x hx => hx, fun x hx => hx⟩, fun h => h, fun h => h⟩
  · intro t m
    constructor
    · exact Or.inl
    · rintro (h | ⟨h, _⟩)
      · exact h
      · exact absurd h (hc t)
  · intro t m
    constructor
    · exact Or.inl
    · rintro (h | ⟨h, _⟩)
      · exact h
      · exact absurd h (hlk t)
  · intro m
    simp only [selectOutput, mem_addNew, Prod.mk.injEq, true_and]
    constructor
    · rintro (h | rfl)
      · exact Or.inl h
      · exact Or.inr ⟨hk, ⟨n, hn, rfl⟩, by omega⟩
    · rintro (h | ⟨_, ⟨m', hm', rfl⟩, _⟩)
      · exact Or.inl h
      · exact Or.inr (by rw [huniq m' hm'])

theorem ckey_cases {k : Line} (h : ∀ x ∈ setCommands, x ≠ k) : ∀ t, ckey t ≠ some k := by
  intro t he
  cases t with
  | spc => exact h _ (by decide) (Option.some.inj he)
  | mpc => exact h _ (by decide) (Option.some.inj he)
  | contact => exact nomatch he

theorem lkey_cases {k : Line} (h : ∀ x ∈ setCommands, x ≠ k) : ∀ t, lkey t ≠ k := by
  intro t he
  cases t <;> exact h _ (by decide) he

theorem begins_other {k v : Line} (ha : Allowed k v) (hk : k ∉ setCommands) (n : Nat) (p : Line)
    (hp : p ∈ ["SPC".toList, "MPC".toList, "LOAD".toList, "DLOAD".toList, "DISP".toList]) : begins n p k = false := by
  cases h : begins n p k with
  | false => rfl
  | true => exact absurd (begins_prefix h) (ha.other hk p hp)

/-- A command with its value adds what it names. -/
theorem select_effect {cfg : Config} (hg : cfg.gnu = true) {k b v : Line} (hk : Word k) (hb : Blanks b) (hv : Word v)
    (ha : Allowed k v) (d : Deck) (a : Analysis) :
    ∃ r, select cfg (k, b ++ v) d a = .ok r ∧ Effect k v d a r.1 r.2 := by
  obtain ⟨id, hid, hidn⟩ := valueId_entry hb hv ha
  have hopt := keyOptions_entry hg hk ha
  unfold select
  simp only [hid, hopt, Outcome.bind_ok]
  by_cases hs : k ∈ setCommands
  · obtain ⟨n, hn⟩ := ha.number hs
    rw [hidn n hn]
    clear hopt hidn hid
    simp only [setCommands, List.mem_cons, List.not_mem_nil, or_false] at hs
    rcases hs with rfl | rfl | rfl | rfl | rfl | hdisp
    · exact ⟨_, if_pos (by decide), effect_constraint .spc n hn rfl (by intro t; cases t <;> decide) (by decide)
        (by intro t; cases t <;> decide) d a⟩
    · rw [if_neg (by decide), if_pos (by decide)]
      exact ⟨_, rfl, effect_constraint .mpc n hn rfl (by intro t; cases t <;> decide) (by decide)
        (by intro t; cases t <;> decide) d a⟩
    · rw [if_neg (by decide), if_neg (by decide), if_neg (by decide), if_pos (by decide)]
      exact ⟨_, rfl, effect_load .load n hn rfl (by intro t; cases t <;> decide) (by decide)
        (by intro t; cases t <;> decide) d a⟩
    · rw [if_neg (by decide), if_neg (by decide), if_neg (by decide), if_neg (by decide), if_pos (by decide)]
      exact ⟨_, rfl, effect_load .dload n hn rfl (by intro t; cases t <;> decide) (by decide)
        (by intro t; cases t <;> decide) d a⟩
    · rw [if_neg (by decide), if_neg (by decide), if_pos (by decide)]
      exact ⟨_, rfl, effect_load .loadset n hn rfl (by intro t; cases t <;> decide) (by decide)
        (by intro t; cases t <;> decide) d a⟩
    · have hdn : k ∈ dispNames := by simpa [dispNames] using hdisp
      have hb : begins 3 "SPC".toList k = false ∧ begins 3 "MPC".toList k = false ∧ begins 7 "LOADSET".toList k = false ∧
          begins 4 "LOAD".toList k = false ∧ begins 5 "DLOAD".toList k = false ∧ begins 4 "BCONTACT".toList k = false ∧
          begins 4 "DISP".toList k = true := by
        rcases hdisp with rfl | rfl <;> decide
      have hck : ∀ t, ckey t ≠ some k := by
        rcases hdisp with rfl | rfl <;> intro t <;> cases t <;> decide
      have hlk : ∀ t, lkey t ≠ k := by
        rcases hdisp with rfl | rfl <;> intro t <;> cases t <;> decide
      rw [hb.1, hb.2.1, hb.2.2.1, hb.2.2.2.1, hb.2.2.2.2.1, hb.2.2.2.2.2.1, hb.2.2.2.2.2.2, if_neg (by decide), if_neg (by decide),
        if_neg (by decide), if_neg (by decide), if_neg (by decide), if_neg (by decide), if_pos rfl]
      by_cases h0 : n = 0
      · subst h0
        refine ⟨_, if_pos rfl, effect_none hck hlk ?_ d a⟩
        intro _ m hm
        rw [← hm.2.2.1, hn.2.2.1]
      · rw [if_neg (by omega)]
        exact ⟨_, rfl, effect_disp hdn hck hlk n hn h0 d a _⟩
  · rw [begins_other ha hs 3 "SPC".toList (by decide), begins_other ha hs 3 "MPC".toList (by decide),
      begins_other ha hs 4 "LOAD".toList (by decide), begins_other ha hs 5 "DLOAD".toList (by decide),
      begins_other ha hs 4 "DISP".toList (by decide), begins_short (n := 4) (w := "BCONTACT".toList) (by decide),
      begins_short (n := 4) (w := "OFREQUENCY".toList) (by decide), begins_short (n := 4) (w := "STRESS".toList) (by decide)]
    have hls : begins 7 "LOADSET".toList k = false := by
      cases h : begins 7 "LOADSET".toList k with
      | false => rfl
      | true =>
        have h1 : "LOAD".toList <+: "LOADSET".toList := by decide
        exact absurd (h1.trans (begins_prefix h)) (ha.other hs "LOAD".toList (by decide))
    rw [hls]
    refine ⟨(d, a), rfl, effect_none (ckey_cases ?_) (lkey_cases ?_) ?_ d a⟩
    · rintro x hx rfl; exact hs hx
    · rintro x hx rfl; exact hs hx
    · intro he
      refine absurd ?_ hs
      simp only [dispNames, List.mem_cons, List.not_mem_nil, or_false] at he
      rcases he with rfl | rfl <;> decide

/-- What the entries of a context add. -/
structure Effects (c : Context) (d : Deck) (a : Analysis) (d' : Deck) (a' : Analysis) : Prop where
  analyses : d'.analyses = d.analyses
  sets : d'.sets = d.sets
  kind : a'.kind = a.kind
  id : a'.id = a.id
  label : a'.label = a.label
  previous : a'.previous = a.previous
  constraints : ∀ t n, (t, n) ∈ a'.constraints ↔
    (t, n) ∈ a.constraints ∨ ∃ k, ckey t = some k ∧ ∃ b v m, (k, b ++ v) ∈ c ∧ Blanks b ∧ Digits v m ∧ n = (m : Nat)
  loads : ∀ t n, (t, n) ∈ a'.loads ↔
    (t, n) ∈ a.loads ∨ ∃ b v m, (lkey t, b ++ v) ∈ c ∧ Blanks b ∧ Digits v m ∧ n = (m : Nat)
  outputs : ∀ n, (OSet.disp, n) ∈ a'.outputs ↔
    (OSet.disp, n) ∈ a.outputs ∨ ((∃ k ∈ dispNames, ∃ b v m, (k, b ++ v) ∈ c ∧ Blanks b ∧ Digits v m ∧ n = (m : Nat)) ∧ n ≠ 0)
  kept : d.constraintSets ⊆ d'.constraintSets ∧ d.loadSets ⊆ d'.loadSets
  known : a.constraints ⊆ d.constraintSets → a'.constraints ⊆ d'.constraintSets
  knownLoads : a.loads ⊆ d.loadSets → a'.loads ⊆ d'.loadSets

theorem same_value {b v b' v' : Line} {m : Nat} (hb : Blanks b) (hv : Word v) (hb' : Blanks b') (hd : Digits v' m)
    (h : b' ++ v' = b ++ v) : v' = v := by
  have h1 := trim_value hb hv
  have h2 := trim_value hb' (digits_word hd.1 hd.2.1)
  rw [← h1, ← h2, h]

theorem selectAll_effects {cfg : Config} (hg : cfg.gnu = true) : ∀ (c : Context) (d : Deck) (a : Analysis),
    (∀ e ∈ c, ∃ b v, e.2 = b ++ v ∧ Blanks b ∧ Word v ∧ Word e.1 ∧ Allowed e.1 v) →
    ∃ r, selectAll cfg c d a = .ok r ∧ Effects c d a r.1 r.2 := by
  intro c
  induction c with
  | nil =>
    intro d a _
    exact ⟨(d, a), rfl, rfl, rfl, rfl, rfl, rfl, rfl, by simp, by simp, by simp, ⟨fun x hx => hx, fun x hx => hx⟩, fun h => h, fun h => h⟩
  | cons e c ih =>
    intro d a hgood
    obtain ⟨b, v, hbv, hb, hv, hk, ha⟩ := hgood e (by simp)
    obtain ⟨k, x⟩ := e
    simp only at hbv hk ha
    subst hbv
    obtain ⟨r1, h1, e1⟩ := select_effect hg hk hb hv ha d a
    obtain ⟨r2, h2, e2⟩ := ih r1.1 r1.2 (fun e he => hgood e (by simp [he]))
    refine ⟨r2, ?_, ?_⟩
    · rw [selectAll, h1, Outcome.bind_ok, h2]
    · refine ⟨by rw [e2.analyses, e1.analyses], by rw [e2.sets, e1.sets], by rw [e2.kind, e1.kind], by rw [e2.id, e1.id], by rw [e2.label, e1.label],
        by rw [e2.previous, e1.previous], ?_, ?_, ?_,
        ⟨fun x hx => e2.kept.1 (e1.kept.1 hx), fun x hx => e2.kept.2 (e1.kept.2 hx)⟩, fun h => e2.known (e1.known h),
        fun h => e2.knownLoads (e1.knownLoads h)⟩
      · intro t n
        rw [e2.constraints, e1.constraints]
        constructor
        · rintro ((h | ⟨h, m, hm, hn⟩) | ⟨k', hk', b', v', m, hm, hr⟩)
          · exact Or.inl h
          · exact Or.inr ⟨k, h, b, v, m, by simp, hb, hm, hn⟩
          · exact Or.inr ⟨k', hk', b', v', m, by simp [hm], hr⟩
        · rintro (h | ⟨k', hk', b', v', m, hm, hb', hd, hn⟩)
          · exact Or.inl (Or.inl h)
          · rcases List.mem_cons.mp hm with hm | hm
            · simp only [Prod.mk.injEq] at hm
              obtain ⟨hkk, hm⟩ := hm
              have := same_value hb hv hb' hd hm
              subst this
              exact Or.inl (Or.inr ⟨by rw [← hkk]; exact hk', m, hd, hn⟩)
            · exact Or.inr ⟨k', hk', b', v', m, hm, hb', hd, hn⟩
      · intro t n
        rw [e2.loads, e1.loads]
        constructor
        · rintro ((h | ⟨h, m, hm, hn⟩) | ⟨b', v', m, hm, hr⟩)
          · exact Or.inl h
          · exact Or.inr ⟨b, v, m, by simp [h], hb, hm, hn⟩
          · exact Or.inr ⟨b', v', m, by simp [hm], hr⟩
        · rintro (h | ⟨b', v', m, hm, hb', hd, hn⟩)
          · exact Or.inl (Or.inl h)
          · rcases List.mem_cons.mp hm with hm | hm
            · simp only [Prod.mk.injEq] at hm
              obtain ⟨hk', hm⟩ := hm
              have := same_value hb hv hb' hd hm
              subst this
              exact Or.inl (Or.inr ⟨hk', m, hd, hn⟩)
            · exact Or.inr ⟨b', v', m, hm, hb', hd, hn⟩
      · intro n
        rw [e2.outputs, e1.outputs]
        constructor
        · rintro ((h | ⟨h, ⟨m, hm, hn⟩, h0⟩) | ⟨⟨k', hk', b', v', m, hm, hr⟩, h0⟩)
          · exact Or.inl h
          · exact Or.inr ⟨⟨k, h, b, v, m, by simp, hb, hm, hn⟩, h0⟩
          · exact Or.inr ⟨⟨k', hk', b', v', m, List.mem_cons_of_mem _ hm, hr⟩, h0⟩
        · rintro (h | ⟨⟨k', hk', b', v', m, hm, hb', hd, hn⟩, h0⟩)
          · exact Or.inl (Or.inl h)
          · rcases List.mem_cons.mp hm with hm | hm
            · simp only [Prod.mk.injEq] at hm
              obtain ⟨hkk, hm⟩ := hm
              have := same_value hb hv hb' hd hm
              subst this
              exact Or.inl (Or.inr ⟨hkk ▸ hk', ⟨m, hd, hn⟩, h0⟩)
            · exact Or.inr ⟨⟨k', hk', b', v', m, hm, hb', hd, hn⟩, h0⟩

/-! ## The analysis of a subcase -/

theorem number_entry {b v : Line} {n : Nat} (hb : Blanks b) (hd : Digits v n) : number (b ++ v) = .ok (n : Int) := by
  unfold number
  rw [stoi_number (blanks_space hb) hd]

theorem firstWith_only {word y : Line} {n : Int} (hn : number y = .ok n) : ∀ (c : Context) (k : Line),
    (∀ e ∈ c, has word e.1 = true → e = (k, y)) → (k, y) ∈ c → has word k = true → firstWith word c = .ok (some n) := by
  intro c
  induction c with
  | nil => intro k _ hm; exact absurd hm (by simp)
  | cons e c ih =>
    intro k hall hm hk
    obtain ⟨k', v'⟩ := e
    rw [firstWith]
    by_cases hw : has word k' = true
    · rw [if_pos hw]
      have := hall (k', v') (by simp) hw
      simp only [Prod.mk.injEq] at this
      rw [this.2, hn]
      rfl
    · rw [if_neg hw]
      refine ih k (fun e he => hall e (by simp [he])) ?_ hk
      rcases List.mem_cons.mp hm with hm | hm
      · simp only [Prod.mk.injEq] at hm
        rw [← hm.1] at hw
        exact absurd hk hw
      · exact hm

theorem solution_static : ∀ s ∈ staticNames, solutionOf s = some .static := by decide
theorem solution_modal : ∀ s ∈ modalNames, solutionOf s = some .modes := by decide
theorem solution_nonLinear : ∀ s ∈ nonLinearNames, solutionOf s = some .nlstatic := by decide

theorem names_ne : ∀ s ∈ staticNames ++ modalNames ++ nonLinearNames, s ≠ [] := by decide

/-- The kind of the analysis is that of the solution given. -/
theorem kind_of_rep (cfg : Config) {c : Context} {sels : List (Line × Line)} (hr : Rep c sels) {kind : Kind}
    (hk : HasKind (lastFor sels) kind) (l : List Analysis) :
    ∃ y s sol, get c "SOL".toList = some y ∧ trim y = s ∧ s.isEmpty = false ∧ solutionOf s = some sol ∧
      kindOf cfg l c (subcaseSolution c sol) = .ok (some kind) := by
  have hsol : ∀ s, lastFor sels "SOL".toList = some s → ∃ y, get c "SOL".toList = some y ∧ trim y = s := by
    intro s hs
    rw [← hr.value] at hs
    exact Option.map_eq_some_iff.mp hs
  have hne : ∀ s, s ∈ staticNames ∨ s ∈ modalNames ∨ s ∈ nonLinearNames → s.isEmpty = false := by
    intro s hs
    have := names_ne s (by simp only [List.mem_append]; tauto)
    simpa using this
  cases hk with
  | static s hs hm =>
    obtain ⟨y, hy, ht⟩ := hsol s hs
    exact ⟨y, s, .static, hy, ht, hne s (Or.inl hm), solution_static s hm, rfl⟩
  | modal s v n hs hm hv hd honly =>
    obtain ⟨y, hy, ht⟩ := hsol s hs
    refine ⟨y, s, .modes, hy, ht, hne s (Or.inr (Or.inl hm)), solution_modal s hm, ?_⟩
    obtain ⟨b, hmem, hb, hw, _⟩ := (rep_mem hr).mp hv
    have hf : firstWith "METHOD".toList c = .ok (some (n : Int)) := by
      refine firstWith_only (number_entry hb hd) c "METHOD".toList ?_ hmem (by decide)
      intro e he hh
      obtain ⟨k', x⟩ := e
      have hkk : k' = "METHOD".toList := by
        by_contra hne'
        have hnone := honly k' (F06.has_iff.mp hh) hne'
        rw [← hr.value, (mem_iff_get hr.distinct k' x).mp he] at hnone
        exact nomatch hnone
      subst hkk
      have h1 := (mem_iff_get hr.distinct _ _).mp he
      have h2 := (mem_iff_get hr.distinct _ _).mp hmem
      rw [h1] at h2
      rw [Option.some.inj h2]
    change kindOf cfg l c .modes = _
    rw [kindOf, hf]
    rfl
  | nonLinear s v n hs hm hv hd =>
    obtain ⟨y, hy, ht⟩ := hsol s hs
    refine ⟨y, s, .nlstatic, hy, ht, hne s (Or.inr (Or.inr hm)), solution_nonLinear s hm, ?_⟩
    obtain ⟨b, hmem, hb, hw, _⟩ := (rep_mem hr).mp hv
    change kindOf cfg l c .nlstatic = _
    rw [kindOf, (mem_iff_get hr.distinct _ _).mp hmem]
    simp only [number_entry hb hd, Outcome.bind_ok]

theorem label_of_rep {cfg : Config} (hl : ∀ i, cfg.loadstep i = none) {c : Context} {sels : List (Line × Line)} (hr : Rep c sels)
    (id : Int) : labelOf cfg c id =
      (lastFor sels "LABEL".toList).getD (if id ≠ noId then "Analysis_".toList ++ (toString id).toList else []) := by
  unfold labelOf
  rw [← hr.value, hl id]
  cases get c "LABEL".toList <;> rfl

theorem chosen_of_rep {c : Context} {sels : List (Line × Line)} (hr : Rep c sels) (k : Line) (n : Int) :
    (∃ b v m, (k, b ++ v) ∈ c ∧ Blanks b ∧ Digits v m ∧ n = (m : Nat)) ↔ Chosen (lastFor sels) k n := by
  constructor
  · rintro ⟨b, v, m, hm, hb, hd, hn⟩
    obtain ⟨b', v', hbv, hb', hv', _, ha⟩ := hr.good _ hm
    simp only at hbv ha
    have := same_value hb' hv' hb hd hbv
    subst this
    exact ⟨v, m, (rep_mem hr).mpr ⟨b, hm, hb, hv', ha⟩, hd, hn⟩
  · rintro ⟨v, m, hv, hd, hn⟩
    obtain ⟨b, hmem, hb, _, _⟩ := (rep_mem hr).mp hv
    exact ⟨b, v, m, hmem, hb, hd, hn⟩

/-- The sets that an analysis refers to are in the model. -/
def Known (d : Deck) (a : Analysis) : Prop := a.constraints ⊆ d.constraintSets ∧ a.loads ⊆ d.loadSets

theorem addAnalysis_made {cfg : Config} (hg : cfg.gnu = true) (hl : ∀ i, cfg.loadstep i = none) {c : Context}
    {sels : List (Line × Line)} (hr : Rep c sels) {kind : Kind} (hk : HasKind (lastFor sels) kind) (id : Int) (d : Deck)
    (hn : id ≠ noId → ∀ b ∈ d.analyses, b.id ≠ id) :
    ∃ d' a, addAnalysis cfg c id d = .ok (some d') ∧ d'.analyses = d.analyses ++ [a] ∧ d'.sets = d.sets ∧
      Made (lastFor sels) id (if id ≠ noId then "Analysis_".toList ++ (toString id).toList else []) (lastOf d.analyses) a ∧
      Known d' a ∧ ∀ x, Known d x → Known d' x := by
  obtain ⟨y, s, sol, hy, ht, hne, hsol, hkind⟩ := kind_of_rep cfg hr hk d.analyses
  obtain ⟨r, hsel, he⟩ := selectAll_effects hg c d ⟨kind, id, labelOf cfg c id, [], [], [], lastOf d.analyses⟩ hr.good
  refine ⟨{ r.1 with analyses := r.1.analyses ++ [r.2] }, r.2, ?_, ?_, he.sets, ?_, ?_, ?_⟩
  · have hlab : solutionLabel c = s := by
      unfold solutionLabel
      rw [hy]
      exact ht
    unfold addAnalysis
    have hfree : taken r.1.analyses r.2.kind.type r.2.id = false := by
      rw [he.analyses, he.id]
      unfold taken
      by_cases h : id = noId
      · simp [h]
      · rw [Bool.and_eq_false_iff]
        refine Or.inr (List.any_eq_false.mpr fun b hb => ?_)
        simp [hn h b hb]
    simp only [hlab, hne, hsol, hkind, Outcome.bind_ok, hsel, hfree]
    rfl
  · change r.1.analyses ++ [r.2] = _
    rw [he.analyses]
  · refine ⟨?_, he.id, ?_, ?_, ?_, ?_, ?_, ?_, ?_, ?_, he.previous⟩
    · rw [he.kind]; exact hk
    · rw [he.label, label_of_rep hl hr]
    · intro n
      rw [he.constraints, ← chosen_of_rep hr]
      simp [ckey]
    · intro n
      rw [he.constraints, ← chosen_of_rep hr]
      simp [ckey]
    · intro n
      rw [he.constraints]
      simp [ckey]
    · intro n
      rw [he.loads, ← chosen_of_rep hr]
      simp [lkey]
    · intro n
      rw [he.loads, ← chosen_of_rep hr]
      simp [lkey]
    · intro n
      rw [he.loads, ← chosen_of_rep hr]
      simp [lkey]
    · intro n
      rw [he.outputs]
      simp only [← chosen_of_rep hr]
      simp
  · exact ⟨he.known (by simp), he.knownLoads (by simp)⟩
  · intro x hx
    exact ⟨fun e h => he.kept.1 (hx.1 h), fun e h => he.kept.2 (hx.2 h)⟩

/-! ## Lines -/

theorem blanks_sep {b : Line} (h : Blanks b) : ∀ c ∈ b, isSep c = true := by
  intro c hc
  rcases h c hc with rfl | rfl <;> decide

theorem separates_sep {m : Line} (h : Separates m) : m ≠ [] ∧ ∀ c ∈ m, isSep c = true := by
  rcases h with ⟨a, b, rfl, ha, hb⟩ | ⟨hne, hs⟩
  · refine ⟨by simp, ?_⟩
    intro c hc
    simp only [List.mem_append, List.mem_cons] at hc
    rcases hc with h | rfl | h
    · exact blanks_sep ha c h
    · decide
    · exact blanks_sep hb c h
  · exact ⟨hne, fun c hc => by rw [hs c hc]; decide⟩

theorem selects_line {w m v : Line} (hw : Word w) (hm : Separates m) (hv : Word v) {b b' : Line} (hb : Blanks b) (hb' : Blanks b') :
    trim (b ++ (w ++ m ++ v) ++ b') = w ++ m ++ v ∧ splitRuns isSep false (w ++ m ++ v) = [w, v] :=
  ⟨trim_tight (blanks_space hb) (hw.tight.append hv.tight) (blanks_space hb'),
    split_two isSep false hw.1 (fun c hc => (hw.2 c hc).1) (separates_sep hm).1 (separates_sep hm).2 hv.1
      (fun c hc => (hv.2 c hc).1)⟩

/-- The place of the reader after the keyword of a line `k v`. -/
def atValue (w m v : Line) (rest : List Line) : Tok := ⟨w ++ m ++ v, ⟨[w, v], 1, .field⟩, rest⟩

theorem word_no {w : Line} (hw : Word w) {p : Char → Bool} {x : Char} (hp : ∀ c, p c = true → c = x) (hx : isSep x = true) :
    ∀ c ∈ w, p c = false := by
  intro c hc
  cases h : p c with
  | false => rfl
  | true =>
    have := hp c h
    subst this
    rw [(hw.2 c hc).1] at hx
    exact nomatch hx

/-- Above the subcases, a command puts its value into the context. -/
theorem command_put {w m v : Line} (hw : Word w) (hm : Separates m) (hv : Word v) (rest : List Line) (c : Context) :
    ∃ b, Blanks b ∧ command (toUpper w) (atValue w m v rest) c = .ok (put (toUpper w) (b ++ v) c) := by
  unfold command atValue
  simp only [ne_eq, not_true_eq_false, if_false]
  have heq : ∀ c : Char, (decide (c = '=')) = true → c = '=' := fun c h => by simpa using h
  have hsp : ∀ c : Char, (decide (c = ' ')) = true → c = ' ' := fun c h => by simpa using h
  rcases hm with ⟨a, b, rfl, ha, hb⟩ | ⟨hne, hs⟩
  · refine ⟨b, hb, ?_⟩
    have h1 : w ++ (a ++ '=' :: b) ++ v = (w ++ a) ++ '=' :: (b ++ v) := by simp
    have hno : ∀ {x : Line}, Blanks x → ∀ c ∈ x, (decide (c = '=')) = false := by
      intro x hx c hc
      rcases hx c hc with rfl | rfl <;> decide
    rw [h1, split_cons (fun c => decide (c = '=')) (by decide) (b ++ v) (w ++ a) false (by simp [hw.1]) (by
      intro c hc
      rcases List.mem_append.mp hc with h | h
      · exact word_no hw heq (by decide) c h
      · exact hno ha c h)]
    rw [split_word (fun c => decide (c = '=')) (b ++ v) true (by simp [hv.1]) (by
      intro c hc
      rcases List.mem_append.mp hc with h | h
      · exact hno hb c h
      · exact word_no hv heq (by decide) c h)]
    have ht : trim (w ++ a) = w := by
      have := trim_tight (a := []) (by simp) hw.tight (blanks_space ha)
      simpa using this
    simp only [ht]
  · refine ⟨[], by intro c hc; simp at hc, ?_⟩
    rw [split_word (fun c => decide (c = '=')) (w ++ m ++ v) false (by simp [hw.1]) (by
      intro c hc
      simp only [List.mem_append] at hc
      rcases hc with (h | h) | h
      · exact word_no hw heq (by decide) c h
      · rw [hs c h]; decide
      · exact word_no hv heq (by decide) c h)]
    have h2 := split_two (fun c => decide (c = ' ')) false hw.1 (word_no hw hsp (by decide)) hne (fun c hc => by rw [hs c hc]; decide)
      hv.1 (word_no hv hsp (by decide))
    simp only [h2, List.nil_append]

end Case
end Vega
