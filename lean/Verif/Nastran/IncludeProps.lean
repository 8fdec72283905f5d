import Verif.Nastran.Include
import Verif.Nastran.CommentProps
import Verif.Nastran.FreeProps
import Verif.NastranWrite.CardLemmas

/-! # C141: files that include other files -/
namespace Vega

/-! ## Specification -/
namespace IncludeSpec
open Nastran

/-- The first character does not make the line a continuation. -/
def Begins (name : Line) : Prop := name.head? ≠ some '+' ∧ name.head? ≠ some '*'

/-- The text of a card and its fields, the name first: in fixed format, on short or long lines, or in
free format, on any number of lines. -/
inductive IsCard : List Line → List Line → Prop where
  | fixed {lf : Bool} {style : FixedSpec.Style} {name : Line} {rows : List (List Line)} :
      FixedSpec.Name lf name → Begins name → FixedSpec.RowsOk (FixedSpec.perLine lf) style rows →
      (∀ r ∈ rows, ∀ v ∈ r, FixedSpec.Value (FixedSpec.dataWidth lf) v) →
      IsCard (FixedSpec.writeCard (FixedSpec.dataWidth lf) (FixedSpec.label style)
          (FixedSpec.contHead lf style) (FixedSpec.firstField lf name) rows)
        (name :: FixedSpec.valuesOf (FixedSpec.perLine lf) rows)
  | free {style : FreeSpec.Style} {name : Line} {rows : List (List Line)} :
      FreeSpec.Name name → Begins name → FreeSpec.RowsOk rows →
      (∀ r ∈ rows, ∀ v ∈ r, FreeSpec.Plain v) →
      IsCard (FreeSpec.writeCard style name rows) (name :: rows.flatten)

/-- A file: cards, lines that say nothing, and inclusions of files, which are such files too. -/
inductive Deck where
  | nil
  | card (lines : List Line) (fields : List Line) (rest : Deck)
  | comment (line : Line) (rest : Deck)
  | include (name : Line) (file : Deck) (rest : Deck)

/-- The line that includes a file. -/
def includeLine (name : Line) : Line := "INCLUDE '".toList ++ name ++ ['\'']

/-- The lines of the file itself. -/
def Deck.text : Deck → List Line
  | .nil => []
  | .card lines _ rest => lines ++ rest.text
  | .comment line rest => line :: rest.text
  | .include name _ rest => includeLine name :: rest.text

/-- The file with the contents of the files it includes in place of the inclusions. -/
def Deck.flat : Deck → List Line
  | .nil => []
  | .card lines _ rest => lines ++ rest.flat
  | .comment line rest => line :: rest.flat
  | .include _ file rest => file.flat ++ rest.flat

/-- The cards, in the order of the text, those of a file where it is included. -/
def Deck.cards : Deck → List (List Line)
  | .nil => []
  | .card _ fields rest => fields :: rest.cards
  | .comment _ rest => rest.cards
  | .include _ file rest => file.cards ++ rest.cards

/-- Cards are well written and are not inclusions themselves; the lines that say nothing are comments and
empty lines; the names fit, with their quotes, in the 72 columns of a card. -/
def Deck.Ok : Deck → Prop
  | .nil => True
  | .card lines fields rest => IsCard lines fields ∧
      (∀ name, fields.head? = some name → toUpper name ≠ "INCLUDE".toList) ∧ rest.Ok
  | .comment line rest => (line = [] ∨ line.head? = some '$') ∧ rest.Ok
  | .include name file rest => name.length ≤ 62 ∧ '$' ∉ name ∧ '\t' ∉ name ∧ file.Ok ∧ rest.Ok

/-- The files are where their names say. -/
def Stored {Path : Type} (disk : Disk Path) : Path → Deck → Prop
  | _, .nil => True
  | path, .card _ _ rest => Stored disk path rest
  | path, .comment _ rest => Stored disk path rest
  | path, .include name file rest =>
    disk.content (disk.resolve path name) = some file.text ∧
      Stored disk (disk.resolve path name) file ∧ Stored disk path rest

end IncludeSpec

namespace Nastran
open IncludeSpec FixedSpec CommentSpec

/-! ## Helper lemmas -/

theorem include_bind_ok_iff {α β : Type} {x : Outcome α} {f : α → Outcome β} {b : β} :
    (x >>= f) = .ok b ↔ ∃ a, x = .ok a ∧ f a = .ok b := by
  cases x <;> simp [bind, Outcome.bind]

/-- The next line begins no continuation, in fixed or free format. -/
def Fresh (rest : List Line) : Prop := FixedSpec.NewCard rest ∧ FreeSpec.NewCard rest

theorem fresh_cons {l : Line} {rest : List Line} (h : l.head? ≠ some '$') (h1 : l.head? ≠ some ' ')
    (h2 : l.head? ≠ some '+') (h3 : l.head? ≠ some '*') (h4 : l.head? ≠ some '\t')
    (h5 : l.head? ≠ some ',') : Fresh (l :: rest) := by
  refine ⟨?_, ?_⟩
  · rw [FixedSpec.NewCard, if_neg h]
    exact ⟨h1, h2, h3, h4⟩
  · intro l' hl'
    simp only [List.head?_cons, Option.some.injEq] at hl'
    subst hl'
    exact ⟨h5, h2, h3⟩

theorem fresh_append {a b : List Line} (hne : a ≠ []) (hd : ∀ l, a.head? = some l → l.head? ≠ some '$')
    (h : Fresh a) : Fresh (a ++ b) := by
  cases a with
  | nil => exact absurd rfl hne
  | cons l a =>
    have hl := hd l rfl
    refine ⟨?_, ?_⟩
    · have h1 := h.1
      rw [FixedSpec.NewCard, if_neg hl] at h1
      rw [List.cons_append, FixedSpec.NewCard, if_neg hl]
      exact h1
    · exact h.2

theorem head_plain {name : Line} (hne : name ≠ []) (t : Line) :
    (name ++ t).head? = name.head? := by
  cases name with
  | nil => exact absurd rfl hne
  | cons c cs => rfl

theorem name_head {name : Line} {c : Char} (h : name.head? = some c) : c ∈ name := by
  cases name with
  | nil => cases h
  | cons d ds => simp at h; subst h; simp

theorem isCard_fresh {lines fields : List Line} (h : IsCard lines fields) (rest : List Line) :
    Fresh (lines ++ rest) := by
  cases h with
  | @fixed lf style name rows hname hb hrows hval =>
    have hne : rows ≠ [] := by rintro rfl; exact hrows
    obtain ⟨r, lab, more, e, -, -⟩ := writeCard_head (lf := lf) (style := style)
      (firstField lf name) hne
    rw [e, List.cons_append]
    have hh : (rowLine lf (firstField lf name) r lab).head? = name.head? := by
      unfold rowLine pad firstField
      have : name ≠ [] := hname.nonempty
      cases lf <;> simp [hname.nonempty, List.head?_append] <;>
        (cases name with
          | nil => exact absurd rfl this
          | cons c cs => simp)
    have hp : ∀ c, (rowLine lf (firstField lf name) r lab).head? = some c →
        isSpace c = false ∧ c ≠ ',' ∧ c ≠ '*' ∧ c ≠ '$' := by
      intro c hc
      rw [hh] at hc
      exact hname.plain c (name_head hc)
    refine fresh_cons ?_ ?_ ?_ ?_ ?_ ?_
    · intro h; exact (hp _ h).2.2.2 rfl
    · intro h; exact absurd (hp _ h).1 (by decide)
    · rw [hh]; exact hb.1
    · intro h; exact (hp _ h).2.2.1 rfl
    · intro h; exact absurd (hp _ h).1 (by decide)
    · intro h; exact (hp _ h).2.1 rfl
  | @free style name rows hname hb hrows hval =>
    have hne : rows ≠ [] := by rintro rfl; exact hrows
    obtain ⟨r, ms, more, e, -, -⟩ := freeCard_head style name hne
    rw [e, List.cons_append]
    have hh : (FreeSpec.joinComma (name :: r ++ ms)).head? = name.head? := by
      have : name ≠ [] := hname.nonempty
      cases name with
      | nil => exact absurd rfl this
      | cons c cs =>
        rw [List.cons_append]
        cases hr : r ++ ms with
        | nil => rfl
        | cons g gs => rw [FreeSpec.joinComma] <;> simp
    have hp : ∀ c, (FreeSpec.joinComma (name :: r ++ ms)).head? = some c →
        isSpace c = false ∧ c ≠ ',' ∧ c ≠ '$' := by
      intro c hc
      rw [hh] at hc
      exact hname.plain c (name_head hc)
    refine fresh_cons ?_ ?_ ?_ ?_ ?_ ?_
    · intro h; exact (hp _ h).2.2 rfl
    · intro h; exact absurd (hp _ h).1 (by decide)
    · rw [hh]; exact hb.1
    · rw [hh]; exact hb.2
    · intro h; exact absurd (hp _ h).1 (by decide)
    · intro h; exact (hp _ h).2.1 rfl

theorem fresh_comment {l : Line} {rest : List Line} (h : l = [] ∨ l.head? = some '$')
    (hr : Fresh rest) : Fresh (l :: rest) := by
  rcases h with rfl | h
  · exact fresh_cons (by simp) (by simp) (by simp) (by simp) (by simp) (by simp)
  · refine ⟨?_, ?_⟩
    · rw [FixedSpec.NewCard, if_pos h]; exact hr.1
    · intro l' hl'
      simp only [List.head?_cons, Option.some.injEq] at hl'
      subst hl'
      rw [h]
      simp

theorem fresh_text : ∀ (d : Deck), d.Ok → Fresh d.text
  | .nil, _ => ⟨trivial, by intro l h; cases h⟩
  | .card lines fields rest, h => isCard_fresh h.1 _
  | .comment line rest, h => fresh_comment h.1 (fresh_text rest h.2)
  | .include name file rest, h => by
    have : (includeLine name).head? = some 'I' := rfl
    exact fresh_cons (by rw [this]; decide) (by rw [this]; decide) (by rw [this]; decide)
      (by rw [this]; decide) (by rw [this]; decide) (by rw [this]; decide)

theorem fresh_flat : ∀ (d : Deck) (more : List Line), d.Ok → Fresh more → Fresh (d.flat ++ more)
  | .nil, more, _, hm => hm
  | .card lines fields rest, more, h, _ => by
    rw [Deck.flat, List.append_assoc]
    exact isCard_fresh h.1 _
  | .comment line rest, more, h, hm => by
    rw [Deck.flat, List.cons_append]
    exact fresh_comment h.1 (fresh_flat rest more h.2 hm)
  | .include name file rest, more, h, hm => by
    rw [Deck.flat, List.append_assoc]
    exact fresh_flat file _ h.2.2.2.1 (fresh_flat rest more h.2.2.2.2 hm)

theorem readLine_afterComments (rest : List Line) :
    readLine true (afterComments rest) = readLine true rest := by
  induction rest with
  | nil => rfl
  | cons l rest ih =>
    rw [afterComments]
    by_cases h : l.head? = some '$'
    · rw [if_pos h, ih, readLine_true_cons, dollar_not_significant h]
      simp
    · rw [if_neg h]

theorem readFile_afterComments {Path : Type} (disk : Disk Path) (fuel : Nat) (path : Path)
    (rest : List Line) :
    readFile disk fuel path (afterComments rest) = readFile disk fuel path rest := by
  cases fuel with
  | zero => rfl
  | succ n => simp only [readFile, readLine_afterComments]

theorem nextLine_afterComments (rest : List Line) :
    nextLine (afterComments rest) = nextLine rest := by
  simp only [nextLine, readLine_afterComments]

theorem cards_afterComments (fuel : Nat) (rest : List Line) :
    cards fuel (afterComments rest) = cards fuel rest := by
  cases fuel with
  | zero => rfl
  | succ n => simp only [cards, nextLine_afterComments]

/-- A card is read, up to what follows it. -/
theorem isCard_read {lines fields : List Line} (h : IsCard lines fields) {rest : List Line}
    (hf : Fresh rest) : ∃ rest', nextLine (lines ++ rest) = .ok (some (fields, rest')) ∧
      (rest' = rest ∨ rest' = afterComments rest) := by
  cases h with
  | fixed hname hb hrows hval => exact ⟨_, C22_round_trip _ _ _ _ _ hname hrows hval hf.1, Or.inr rfl⟩
  | free hname hb hrows hval =>
    exact ⟨_, C23_round_trip_partial _ _ _ _ hname hrows hval hf.2, Or.inl rfl⟩

theorem toUpper_plain {name : Line} (h : ∀ c ∈ name, isSpace c = false) :
    ∀ c ∈ toUpper name, isSpace c = false := by
  intro c hc
  unfold toUpper at hc
  obtain ⟨d, hd, rfl⟩ := List.mem_map.1 hc
  have := h d hd
  unfold isSpace at *
  simp only [Bool.or_eq_false_iff, decide_eq_false_iff_not] at *
  have key : ∀ x : Char, x.toNat < 65 → d.toUpper = x → d = x := by
    intro x hx e
    unfold Char.toUpper at e
    split at e
    · rename_i hlow
      exfalso
      subst e
      have hr := hlow
      simp only [Char.toNat] at hx
      rcases hr with ⟨h1, h2⟩
      have h1' : 97 ≤ d.val.toNat := by simpa using UInt32.le_iff_toNat_le.1 h1
      have h2' : d.val.toNat ≤ 122 := by simpa using UInt32.le_iff_toNat_le.1 h2
      have h3 : d.toNat = d.val.toNat := rfl
      simp [UInt32.toNat_add] at hx
      omega
    · exact e
  refine ⟨⟨⟨⟨⟨?_, ?_⟩, ?_⟩, ?_⟩, ?_⟩, ?_⟩ <;> intro e
  · exact this.1.1.1.1.1 (key _ (by decide) e)
  · exact this.1.1.1.1.2 (key _ (by decide) e)
  · exact this.1.1.1.2 (key _ (by decide) e)
  · exact this.1.1.2 (key _ (by decide) e)
  · exact this.1.2 (key _ (by decide) e)
  · exact this.2 (key _ (by decide) e)

theorem charUpper_idem (c : Char) : c.toUpper.toUpper = c.toUpper := by
  by_cases h : c.val ≥ 'a'.val ∧ c.val ≤ 'z'.val
  · have h1' : 97 ≤ c.val.toNat := by simpa using UInt32.le_iff_toNat_le.1 h.1
    have h2' : c.val.toNat ≤ 122 := by simpa using UInt32.le_iff_toNat_le.1 h.2
    have hv : c.toUpper.val.toNat = c.val.toNat - 32 := by
      unfold Char.toUpper
      rw [dif_pos h]
      have e : c.toNat = c.val.toNat := rfl
      simp [UInt32.toNat_add]
      omega
    generalize c.toUpper = y at hv ⊢
    unfold Char.toUpper
    rw [dif_neg]
    intro h3
    have := UInt32.le_iff_toNat_le.1 h3.1
    simp at this
    have e : y.toNat = y.val.toNat := rfl
    omega
  · have : c.toUpper = c := by unfold Char.toUpper; rw [dif_neg h]
    rw [this, this]

theorem toUpper_idem (l : Line) : toUpper (toUpper l) = toUpper l := by
  unfold toUpper
  rw [List.map_map]
  exact List.map_congr_left fun c _ => charUpper_idem c

theorem keywordOf_plain {name : Line} (hne : name ≠ []) (h : ∀ c ∈ name, isSpace c = false)
    (rest : List Line) : keywordOf (name :: rest) = .ok (toUpper name) := by
  have h1 : trimRight name = name := by
    have := trim_plain h
    unfold trim at this
    have hd : name.dropWhile isSpace = name := by
      rw [List.dropWhile_eq_self_iff]
      intro hl
      have := h _ (List.getElem_mem hl)
      simpa using this
    rwa [hd] at this
  have h2 : trim (toUpper name) = toUpper name := trim_plain (toUpper_plain h)
  unfold keywordOf nextString nextSymbolString Cursor.start
  simp only [List.getElem?_cons_zero, if_true, h1, h2, toUpper_idem]
  have : (toUpper name).isEmpty = false := by
    cases name with
    | nil => exact absurd rfl hne
    | cons c cs => rfl
  simp [this]

theorem isCard_name {lines fields : List Line} (h : IsCard lines fields) :
    ∃ name rest, fields = name :: rest ∧ name ≠ [] ∧ ∀ c ∈ name, isSpace c = false := by
  cases h with
  | fixed hname _ _ _ => exact ⟨_, _, rfl, hname.nonempty, fun c hc => (hname.plain c hc).1⟩
  | free hname _ _ _ => exact ⟨_, _, rfl, hname.nonempty, fun c hc => (hname.plain c hc).1⟩

theorem includeLine_eq (name : Line) : includeLine name =
    ['I', 'N', 'C', 'L', 'U', 'D', 'E', ' '] ++ '\'' :: (name ++ ['\'']) := by
  have : "INCLUDE '".toList = ['I', 'N', 'C', 'L', 'U', 'D', 'E', ' ', '\''] := by decide
  unfold includeLine
  rw [this]
  rfl

theorem includeLine_take (name : Line) : (includeLine name).take 8 =
    ['I', 'N', 'C', 'L', 'U', 'D', 'E', ' '] := by
  rw [includeLine_eq, List.take_left' (by rfl)]

theorem includeLine_type (name : Line) : getLineType (includeLine name) = .short := by
  unfold getLineType
  rw [includeLine_take]
  decide

theorem includeLine_trim (name : Line) : trim ((includeLine name).take 8) = "INCLUDE".toList := by
  rw [includeLine_take]
  decide

theorem includeLine_blank (name : Line) : blank (includeLine name) = false := by
  rw [includeLine_eq]
  rfl

/-- The first line of an inclusion, and what follows. -/
theorem include_read {name : Line} (h1 : name.length ≤ 62) (h2 : '$' ∉ name) (h3 : '\t' ∉ name)
    {rest : List Line} (hf : FixedSpec.NewCard rest) :
    readLine true (includeLine name :: rest) = some (includeLine name, rest) ∧
      ∃ fields, parseBulkLine (includeLine name) rest = .ok (fields, afterComments rest) ∧
        keywordOf fields = .ok "INCLUDE".toList := by
  have hd : '$' ∉ includeLine name := by
    unfold includeLine
    simp [h2]
  have ht : '\t' ∉ includeLine name := by
    unfold includeLine
    simp [h3]
  have hb := includeLine_blank name
  refine ⟨readLine_true hd hb rest, ?_⟩
  have hlt := includeLine_type name
  have hx : LineSpec.Expands (LineSpec.Stop false) 0 (includeLine name) (includeLine name) := by
    have := C21_expand false (includeLine name)
    rwa [replaceTabs_noTab false ht] at this
  have hlen : (includeLine name).length ≤ 72 := by
    unfold includeLine
    simp
    omega
  have h8 := includeLine_trim name
  have hpos : 0 < (includeLine name).length := by
    rw [includeLine_eq]
    simp
  generalize includeLine name = l at *
  have hcont : trim ((l.drop 72).take 8) = [] := by
    rw [List.drop_eq_nil_of_le hlen, List.take_nil]
    exact trim_plain (by simp)
  obtain ⟨fields, hp, hk⟩ := C22_columns l l rest false
    (by rw [hlt]; simp) (by rw [hlt]; simp) hx hcont hf
  refine ⟨fields, hp, ?_⟩
  have h0 := hk 0
  rw [if_pos ⟨by omega, by simpa [start] using hpos⟩] at h0
  simp only [start, width, List.drop_zero, Bool.false_eq_true, if_false, Bool.false_and, if_true,
    Nat.mul_zero, h8] at h0
  cases fields with
  | nil => cases h0
  | cons f fs =>
    simp only [List.getElem?_cons_zero, Option.some.injEq] at h0
    have hfn : f = "INCLUDE".toList := by rw [h0]; decide
    subst hfn
    rw [keywordOf_plain (by decide) (by decide)]
    decide

theorem includeName_line (name : Line) :
    includeName (includeLine name) = .ok name := by
  have hdrop : (includeLine name).drop 7 = ' ' :: '\'' :: (name ++ ['\'']) := rfl
  have htrim : trim ((includeLine name).drop 7) = '\'' :: (name ++ ['\'']) := by
    rw [hdrop]
    unfold trim trimRight
    rw [List.dropWhile_cons, if_pos (by decide), List.dropWhile_cons, if_neg (by decide)]
    rw [List.reverse_cons, List.reverse_append]
    simp [isSpace]
  have hlen : ¬ (includeLine name).length < 7 := by
    unfold includeLine
    simp
  unfold includeName
  rw [if_neg hlen]
  simp only [htrim]
  rw [if_pos]
  · simp
  · constructor
    · rfl
    · simp only [List.length_cons, List.length_append, List.length_nil]
      have : name.length + (0 + 1) + 1 - 1 = ('\'' :: name).length := by simp
      rw [this, ← List.cons_append, List.drop_left]

theorem readFile_card {Path : Type} (disk : Disk Path) {fuel : Nat} {path : Path}
    {text rest fields : List Line} {cs : List (List Line)} {kw : Line}
    (h : nextLine text = .ok (some (fields, rest))) (hk : keywordOf fields = .ok kw)
    (hne : kw ≠ "INCLUDE".toList) (hr : readFile disk fuel path rest = .ok cs) :
    readFile disk (fuel + 1) path text = .ok (fields :: cs) := by
  unfold nextLine at h
  rw [readFile]
  cases hl : readLine true text with
  | none => rw [hl] at h; simp at h
  | some p =>
    obtain ⟨line, rest1⟩ := p
    rw [hl] at h
    simp only at h ⊢
    obtain ⟨r, hr1, hr2⟩ := include_bind_ok_iff.1 h
    simp only [Outcome.ok.injEq, Option.some.injEq] at hr2
    subst hr2
    rw [hr1]
    simp only [Outcome.bind_ok, hk, if_neg hne, hr]

theorem readFile_skip {Path : Type} (disk : Disk Path) (fuel : Nat) (path : Path) {l : Line}
    (rest : List Line) (h : l = [] ∨ l.head? = some '$') :
    readFile disk fuel path (l :: rest) = readFile disk fuel path rest := by
  have hs : significant l = false := by
    rcases h with rfl | h
    · rfl
    · exact dollar_not_significant h
  cases fuel with
  | zero => rfl
  | succ n => simp only [readFile, readLine_true_cons, hs, Bool.false_eq_true, if_false]

theorem readFile_deck {Path : Type} (disk : Disk Path) : ∀ (d : Deck) (path : Path), d.Ok →
    Stored disk path d → ∃ n, ∀ fuel, n ≤ fuel → readFile disk fuel path d.text = .ok d.cards
  | .nil, path, _, _ => ⟨1, fun fuel hn => by
      obtain ⟨m, rfl⟩ : ∃ m, fuel = m + 1 := ⟨fuel - 1, by omega⟩
      rfl⟩
  | .card lines fields rest, path, h, hs => by
    obtain ⟨n, hn⟩ := readFile_deck disk rest path h.2.2 hs
    refine ⟨n + 1, fun fuel hf => ?_⟩
    obtain ⟨m, rfl⟩ : ∃ m, fuel = m + 1 := ⟨fuel - 1, by omega⟩
    obtain ⟨rest', hr, hr'⟩ := isCard_read h.1 (fresh_text rest h.2.2)
    obtain ⟨name, vs, rfl, hne, hpl⟩ := isCard_name h.1
    refine readFile_card disk hr (keywordOf_plain hne hpl vs) (h.2.1 name rfl) ?_
    rcases hr' with rfl | rfl
    · exact hn m (by omega)
    · rw [readFile_afterComments]
      exact hn m (by omega)
  | .comment line rest, path, h, hs => by
    obtain ⟨n, hn⟩ := readFile_deck disk rest path h.2 hs
    refine ⟨n, fun fuel hf => ?_⟩
    rw [Deck.text, readFile_skip disk fuel path _ h.1]
    exact hn fuel hf
  | .include name file rest, path, h, hs => by
    obtain ⟨h1, h2, h3, hfile, hrest⟩ := h
    obtain ⟨hc, hs1, hs2⟩ := hs
    obtain ⟨n1, hn1⟩ := readFile_deck disk file (disk.resolve path name) hfile hs1
    obtain ⟨n2, hn2⟩ := readFile_deck disk rest path hrest hs2
    refine ⟨max n1 n2 + 1, fun fuel hf => ?_⟩
    obtain ⟨m, rfl⟩ : ∃ m, fuel = m + 1 := ⟨fuel - 1, by omega⟩
    obtain ⟨hl, fields, hp, hk⟩ := include_read h1 h2 h3 (fresh_text rest hrest).1
    rw [Deck.text, readFile, hl]
    simp only [hp, Outcome.bind_ok, hk, if_true, includeName_line, hc,
      hn1 m (by omega), readFile_afterComments, hn2 m (by omega)]
    rfl

theorem cards_flat : ∀ (d : Deck) (more : List Line) (cs : List (List Line)), d.Ok → Fresh more →
    (∃ n, ∀ fuel, n ≤ fuel → cards fuel more = .ok cs) →
    ∃ n, ∀ fuel, n ≤ fuel → cards fuel (d.flat ++ more) = .ok (d.cards ++ cs)
  | .nil, more, cs, _, _, h => h
  | .card lines fields rest, more, cs, h, hm, hcs => by
    obtain ⟨n, hn⟩ := cards_flat rest more cs h.2.2 hm hcs
    refine ⟨n + 1, fun fuel hf => ?_⟩
    obtain ⟨m, rfl⟩ : ∃ m, fuel = m + 1 := ⟨fuel - 1, by omega⟩
    obtain ⟨rest', hr, hr'⟩ := isCard_read h.1 (fresh_flat rest more h.2.2 hm)
    have hk : cards m rest' = .ok (rest.cards ++ cs) := by
      rcases hr' with rfl | rfl
      · exact hn m (by omega)
      · rw [cards_afterComments]
        exact hn m (by omega)
    rw [Deck.flat, List.append_assoc, cards, hr]
    simp only [Outcome.bind_ok, hk]
    rfl
  | .comment line rest, more, cs, h, hm, hcs => by
    obtain ⟨n, hn⟩ := cards_flat rest more cs h.2 hm hcs
    refine ⟨n, fun fuel hf => ?_⟩
    have hs : significant line = false := by
      rcases h.1 with e | e
      · rw [e]; rfl
      · exact dollar_not_significant e
    have : cards fuel (line :: (rest.flat ++ more)) = cards fuel (rest.flat ++ more) := by
      cases fuel with
      | zero => rfl
      | succ n => simp only [cards, nextLine, readLine_true_cons, hs, Bool.false_eq_true, if_false]
    rw [Deck.flat, List.cons_append, this]
    exact hn fuel hf
  | .include name file rest, more, cs, h, hm, hcs => by
    obtain ⟨h1, h2, h3, hfile, hrest⟩ := h
    have := cards_flat rest more cs hrest hm hcs
    have := cards_flat file _ _ hfile (fresh_flat rest more hrest hm) this
    simpa [Deck.flat, Deck.cards, List.append_assoc] using this

/-! ## C141 -/

/-- **C141, partial.** A file that includes others, which may include others in turn, gives the cards of
all of them in the order of the text, those of a file at the place where it is included, each
name being taken from the file that includes it. Missing, and false (see below): names that reach
column 73, and lines after an inclusion that continue it. Files that do not exist are refused
(`C141_missing`). -/
theorem C141_order_partial {Path : Type} (disk : Disk Path) (d : Deck) (path : Path) (hd : d.Ok)
    (hs : Stored disk path d) :
    ∃ n, ∀ fuel, n ≤ fuel → readFile disk fuel path d.text = .ok d.cards :=
  readFile_deck disk d path hd hs

/-- **C141, partial.** It is read as the single file that has the contents in place of the inclusions. -/
theorem C141_flat_partial {Path : Type} (disk : Disk Path) (d : Deck) (path : Path) (hd : d.Ok)
    (hs : Stored disk path d) :
    ∃ n, ∀ fuel, n ≤ fuel → readFile disk fuel path d.text = cards fuel d.flat := by
  obtain ⟨n1, h1⟩ := C141_order_partial disk d path hd hs
  obtain ⟨n2, h2⟩ := cards_flat d [] [] hd ⟨trivial, by intro l h; cases h⟩
    ⟨1, fun fuel hf => by
      obtain ⟨m, rfl⟩ : ∃ m, fuel = m + 1 := ⟨fuel - 1, by omega⟩
      rfl⟩
  refine ⟨max n1 n2, fun fuel hf => ?_⟩
  have := h2 fuel (by omega)
  rw [List.append_nil, List.append_nil] at this
  rw [h1 fuel (by omega), this]

/-- A card with one value. -/
def sampleCard (n : Line) : List Line := FixedSpec.writeCard 8 ['+'] ['+'] "GRID".toList [[n]]

theorem sample_card (c : Char) (h1 : isSpace c = false) (h2 : c ≠ '$') :
    IsCard (sampleCard [c]) ["GRID".toList, [c]] := by
  refine IsCard.fixed (lf := false) (style := .plus) (name := "GRID".toList) (rows := [[[c]]])
    ⟨by decide, by decide, by decide⟩ ⟨by decide, by decide⟩ (by simp [FixedSpec.RowsOk, perLine]) ?_
  intro r hr v hv
  simp only [List.mem_singleton] at hr
  subst hr
  simp only [List.mem_singleton] at hv
  subst hv
  refine ⟨by simp [dataWidth], trim_plain (by simpa using h1), ?_, ?_⟩
  · simp only [List.mem_singleton]
    rintro rfl
    exact absurd h1 (by decide)
  · simp only [List.mem_singleton]
    exact fun e => h2 e.symm

/-- A disk with two files: the first includes the second. -/
def sampleDisk : Disk Line where
  resolve := fun _ name => name
  content := fun path =>
    if path = "a.bdf".toList then
      some (sampleCard ['2'] ++ includeLine "b.bdf".toList :: sampleCard ['4'])
    else if path = "b.bdf".toList then some ("$ nodes".toList :: sampleCard ['3'])
    else none

/-- The file that includes them. -/
def sampleDeck : Deck :=
  .card (sampleCard ['1']) ["GRID".toList, ['1']] <|
  .include "a.bdf".toList
    (.card (sampleCard ['2']) ["GRID".toList, ['2']] <|
      .include "b.bdf".toList
        (.comment "$ nodes".toList <|
          .card (sampleCard ['3']) ["GRID".toList, ['3']] .nil) <|
      .card (sampleCard ['4']) ["GRID".toList, ['4']] .nil) <|
  .comment [] <| .card (sampleCard ['5']) ["GRID".toList, ['5']] .nil

example : sampleDeck.Ok ∧ Stored sampleDisk "m.bdf".toList sampleDeck := by
  have hc : ∀ c : Char, isSpace c = false → c ≠ '$' → IsCard (sampleCard [c]) ["GRID".toList, [c]] :=
    fun c h1 h2 => sample_card c h1 h2
  have hn : ∀ (v : Line) (name : Line), ["GRID".toList, v].head? = some name →
      toUpper name ≠ "INCLUDE".toList := by
    intro v name h
    simp only [List.head?_cons, Option.some.injEq] at h
    subst h
    decide
  refine ⟨⟨hc _ (by decide) (by decide), hn _, by decide, by decide, by decide,
    ⟨hc _ (by decide) (by decide), hn _, by decide, by decide, by decide,
      ⟨Or.inr rfl, hc _ (by decide) (by decide), hn _, trivial⟩,
      hc _ (by decide) (by decide), hn _, trivial⟩,
    Or.inl rfl, hc _ (by decide) (by decide), hn _, trivial⟩, ?_⟩
  exact ⟨rfl, ⟨rfl, trivial, trivial⟩, trivial⟩

example : sampleDeck.cards = ["1", "2", "3", "4", "5"].map fun v => ["GRID".toList, v.toList] := rfl

example : readFile sampleDisk 9 "m.bdf".toList sampleDeck.text = .ok sampleDeck.cards ∧
    cards 9 sampleDeck.flat = .ok sampleDeck.cards := by decide +kernel

/-- **C141.** The name of the file is read from the line, with or without quotes around it, whatever blanks
stand before and after it. -/
theorem C141_name (name : Line) (n m : Nat) :
    includeName ("INCLUDE".toList ++ List.replicate n ' ' ++ ('\'' :: name ++ ['\'']) ++
      List.replicate m ' ') = .ok name ∧
    (trim name = name → name.head? ≠ some '\'' →
      includeName ("INCLUDE".toList ++ List.replicate n ' ' ++ name ++ List.replicate m ' ') = .ok name) := by
  have hI : "INCLUDE".toList.length = 7 := by decide
  have hdrop : ∀ t : Line, ("INCLUDE".toList ++ List.replicate n ' ' ++ t ++
      List.replicate m ' ').drop 7 = List.replicate n ' ' ++ t ++ List.replicate m ' ' := by
    intro t
    rw [List.append_assoc, List.append_assoc, List.drop_left' hI, List.append_assoc]
  have hlen : ∀ t : Line, ¬ ("INCLUDE".toList ++ List.replicate n ' ' ++ t ++
      List.replicate m ' ').length < 7 := by
    intro t
    simp only [List.length_append, hI]
    omega
  have hlead : ∀ (k : Nat) (t : Line), (List.replicate k ' ' ++ t).dropWhile isSpace = t.dropWhile isSpace := by
    intro k t
    induction k with
    | zero => rfl
    | succ k ih =>
      rw [List.replicate_succ, List.cons_append, List.dropWhile_cons, if_pos (by decide), ih]
  have htr : ∀ (k : Nat) (t : Line), trimRight (t ++ List.replicate k ' ') = trimRight t := by
    intro k t
    unfold trimRight
    rw [List.reverse_append, List.reverse_replicate, hlead]
  have htrim : ∀ t : Line, trim t = t →
      trim (List.replicate n ' ' ++ t ++ List.replicate m ' ') = t := by
    intro t ht
    by_cases h0 : t = []
    · subst h0
      unfold trim
      rw [List.append_nil, hlead]
      have := hlead m []
      rw [List.append_nil] at this
      rw [this]
      rfl
    · unfold trim at ht ⊢
      rw [List.append_assoc, hlead]
      have hd : t.dropWhile isSpace ≠ [] := by
        intro e
        rw [e] at ht
        exact h0 ht.symm
      rw [dropWhile_append_ne hd, htr, ht]
  unfold includeName
  simp only [if_neg (hlen _), hdrop]
  constructor
  · have hq : trim ('\'' :: name ++ ['\'']) = '\'' :: name ++ ['\''] := by
      unfold trim trimRight
      rw [List.cons_append, List.dropWhile_cons, if_neg (by decide), List.reverse_cons,
        List.reverse_append]
      simp [isSpace]
    rw [htrim _ hq, if_pos]
    · simp
    · constructor
      · rfl
      · have : ('\'' :: name ++ ['\'']).length - 1 = ('\'' :: name).length := by simp
        rw [this, List.drop_left]
  · intro ht hq
    rw [htrim _ ht, if_neg]
    intro h
    apply hq
    cases name with
    | nil => simp at h
    | cons c cs => simpa using h.1

example : includeName "INCLUDE '../a b.bdf'  ".toList = .ok "../a b.bdf".toList ∧
    includeName "INCLUDE a.bdf".toList = .ok "a.bdf".toList := by decide +kernel

/-- **C141.** A file that does not exist is refused, whatever follows. -/
theorem C141_missing {Path : Type} (disk : Disk Path) (path : Path) (name : Line) (rest : List Line)
    (fuel : Nat) (h1 : name.length ≤ 62) (h2 : '$' ∉ name) (h3 : '\t' ∉ name)
    (hr : FixedSpec.NewCard rest) (hc : disk.content (disk.resolve path name) = none) :
    readFile disk (fuel + 1) path (includeLine name :: rest) = .throw := by
  obtain ⟨hl, fields, hp, hk⟩ := include_read h1 h2 h3 hr
  rw [readFile, hl]
  simp only [hp, Outcome.bind_ok, hk, if_true, includeName_line, hc]

example : readFile sampleDisk 9 "m.bdf".toList [includeLine "c.bdf".toList, "GRID    1".toList] = .throw := by
  decide +kernel

/-- **C141, false in full.** A file that includes itself, directly, is read without end. -/
theorem C141_itself_false {Path : Type} (disk : Disk Path) (path : Path) (name : Line) (rest : List Line)
    (h1 : name.length ≤ 62) (h2 : '$' ∉ name) (h3 : '\t' ∉ name) (hr : FixedSpec.NewCard rest)
    (hp : disk.resolve path name = path)
    (hc : disk.content path = some (includeLine name :: rest)) (fuel : Nat) :
    readFile disk fuel path (includeLine name :: rest) = .diverges := by
  induction fuel with
  | zero => rfl
  | succ n ih =>
    obtain ⟨hl, fields, hpb, hk⟩ := include_read h1 h2 h3 hr
    rw [readFile, hl]
    simp only [hpb, Outcome.bind_ok, hk, if_true, includeName_line, hp, hc, ih]
    rfl

example : ({ resolve := fun _ n => n,
             content := fun _ => some [includeLine "a".toList] } : Disk Line).resolve "a".toList "a".toList =
    "a".toList := rfl

/-- **C141, false in full.** When the name reaches column 73, the mark that the reader sees there makes the next line a continuation:
the card that follows the inclusion is lost without a word. -/
theorem C141_long_name_false :
    let name := List.replicate 64 'a'
    let disk : Disk Line := { resolve := fun _ n => n,
                              content := fun p => if p = name then some ["GRID    1".toList] else none }
    (readFile disk 9 [] [includeLine name, "GRID    2".toList, "GRID    3".toList] =
      .ok [["GRID".toList, "1".toList], ["GRID".toList, "3".toList]]) ∧
    cards 9 ["GRID    1".toList, "GRID    2".toList, "GRID    3".toList] =
      .ok [["GRID".toList, "1".toList], ["GRID".toList, "2".toList], ["GRID".toList, "3".toList]] := by
  decide +kernel

/-- **C141, false in full.** A line that continues the last card of the included file is taken for a continuation of the
inclusion and lost. -/
theorem C141_continuation_false :
    let disk : Disk Line := { resolve := fun _ n => n,
                              content := fun p => if p = "a".toList then some ["GRID    1".toList] else none }
    readFile disk 9 [] [includeLine "a".toList, "+       7".toList] = .ok [["GRID".toList, "1".toList]] ∧
    cards 9 ["GRID    1".toList, "+       7".toList] = .ok [["GRID".toList, "1".toList, "7".toList]] := by
  decide +kernel

/-- **C141, false in full.** The end of the data does not end the reading: the keyword `ENDDATA` is only in the table of those that are
ignored (NastranParser.h 891-900), and the cards that follow it are read, in any file. -/
theorem C141_enddata_false {Path : Type} (disk : Disk Path) (d : Deck) (path : Path) (hd : d.Ok)
    (hs : Stored disk path d) :
    ∃ n, ∀ fuel, n ≤ fuel →
      readFile disk fuel path ("ENDDATA".toList :: d.text) = .ok (["ENDDATA".toList] :: d.cards) := by
  obtain ⟨n, hn⟩ := C141_order_partial disk d path hd hs
  obtain ⟨fields, hp, hk⟩ := C22_columns "ENDDATA".toList "ENDDATA".toList d.text false (by decide)
    (by decide) (C21_expand false "ENDDATA".toList) (by decide) (fresh_text d hd).1
  have hf : fields = ["ENDDATA".toList] := by
    cases fields with
    | nil => have := hk 0; simp [start, perLine] at this
    | cons f fs =>
      have h0 := hk 0
      have h1 := hk 1
      rw [if_pos (by decide)] at h0
      rw [if_neg (by decide)] at h1
      cases fs with
      | nil =>
        simp only [List.getElem?_cons_zero, Option.some.injEq] at h0
        rw [h0]
        decide
      | cons g gs => simp at h1
  subst hf
  refine ⟨n + 1, fun fuel hfu => ?_⟩
  obtain ⟨m, rfl⟩ : ∃ m, fuel = m + 1 := ⟨fuel - 1, by omega⟩
  have hnl : nextLine ("ENDDATA".toList :: d.text) = .ok (some (["ENDDATA".toList], afterComments d.text)) := by
    rw [nextLine, readLine_true (by decide) (by decide)]
    simp only [hp, Outcome.bind_ok]
  refine readFile_card disk hnl (keywordOf_plain (by decide) (by decide) []) (by decide) ?_
  rw [readFile_afterComments]
  exact hn m (by omega)

end Nastran
end Vega
