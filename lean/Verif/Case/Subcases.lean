import Verif.Case.ControlProps

/-! # The loop over the commands, and C97 -/
namespace Vega
namespace Case
open Nastran (Line isSpace isBlank blank trim trimRight toUpper Cursor Symbol nextString nextInt intMin intMax natOf)
open F06 (has)
open CaseSpec
open F06Spec (Digits)

/-! ## Between commands -/

/-- The reader between two lines. -/
def between (rest : List Line) : Tok := ⟨[], ⟨[], 0, .keyword⟩, rest⟩

/-- The keyword of the next line, and the place after it. -/
def keyOf (rest : List Line) : Line := (keyword (nextLine (between rest)).cur).1

def afterKey (rest : List Line) : Tok := { nextLine (between rest) with cur := (keyword (nextLine (between rest)).cur).2 }

theorem next_between (t : Tok) : nextLine t = nextLine (between t.rest) := rfl

/-- The loop over the commands from a new line on. -/
def resume (cfg : Config) (fuel : Nat) (found : Bool) (rest : List Line) (c : Context) (d : Deck) : Outcome Deck :=
  if (nextLine (between rest)).cur.sym = .eof then .ok d
  else sectionLoop cfg fuel (keyOf rest) found (afterKey rest) c d

theorem section_none {cfg : Config} {kw : Line} {found : Bool} {t : Tok} {c : Context} {d : Deck} {r : Done} (fuel : Nat)
    (h : commandStep cfg kw found t c d = .ok r) (hn : r.next = none) (hs : r.stop = false) :
    sectionLoop cfg (fuel + 1) kw found t c d = resume cfg fuel (found || r.subcase) r.tok.rest r.context r.deck := by
  rw [sectionLoop, h]
  simp only [Outcome.bind_ok, hn, hs, Bool.false_or, decide_eq_true_eq]
  rfl

theorem section_stop {cfg : Config} {kw : Line} {found : Bool} {t : Tok} {c : Context} {d : Deck} {r : Done} (fuel : Nat)
    (h : commandStep cfg kw found t c d = .ok r) (hs : r.stop = true) : sectionLoop cfg (fuel + 1) kw found t c d = .ok r.deck := by
  rw [sectionLoop, h]
  simp only [Outcome.bind_ok, hs, Bool.true_or, if_true]
  cases r.next <;> rfl

theorem section_next {cfg : Config} {kw : Line} {found : Bool} {t : Tok} {c : Context} {d : Deck} {r : Done} {k : Line} (fuel : Nat)
    (h : commandStep cfg kw found t c d = .ok r) (hn : r.next = some k) (hs : r.stop = false) (he : r.tok.cur.sym ≠ .eof) :
    sectionLoop cfg (fuel + 1) kw found t c d = sectionLoop cfg fuel k true r.tok r.context r.deck := by
  rw [sectionLoop, h]
  simp only [Outcome.bind_ok, hn, hs, Bool.false_or, decide_eq_true_eq]
  rw [if_neg he]

/-! ## What a line gives -/

theorem next_selects {ls : List Line} {w m v b b' : Line} (hw : Word w) (hm : Separates m) (hv : Word v) (hb : Blanks b)
    (hb' : Blanks b') (hg : Gives ls (b ++ (w ++ m ++ v) ++ b')) (rest : List Line) :
    nextLine (between (ls ++ rest)) = ⟨w ++ m ++ v, Cursor.start [w, v], rest⟩ := by
  unfold between
  rw [gives_next hg rest, (selects_line hw hm hv hb hb').1, (selects_line hw hm hv hb hb').2]

theorem after_selects {ls : List Line} {w m v b b' : Line} (hw : Word w) (hm : Separates m) (hv : Word v) (hb : Blanks b)
    (hb' : Blanks b') (hg : Gives ls (b ++ (w ++ m ++ v) ++ b')) (rest : List Line) :
    keyOf (ls ++ rest) = toUpper w ∧ afterKey (ls ++ rest) = atValue w m v rest := by
  unfold keyOf afterKey
  rw [next_selects hw hm hv hb hb' hg rest]
  simp only [keyword_first hw [v]]
  refine ⟨trivial, ?_⟩
  unfold atValue
  simp

theorem next_alone {ls : List Line} {w b b' : Line} (hw : Word w) (hb : Blanks b) (hb' : Blanks b')
    (hg : Gives ls (b ++ w ++ b')) (rest : List Line) :
    nextLine (between (ls ++ rest)) = ⟨w, Cursor.start [w], rest⟩ := by
  unfold between
  rw [gives_next hg rest, trim_tight (blanks_space hb) hw.tight (blanks_space hb'),
    split_word isSep w false hw.1 (fun c hc => (hw.2 c hc).1)]

theorem next_begins {ls : List Line} {w s t b b' : Line} (hw : Word w) (hs : Blanks s) (ht : Word t) (hb : Blanks b)
    (hb' : Blanks b') (hg : Gives ls (b ++ (w ++ (' ' :: s ++ t)) ++ b')) (rest : List Line) :
    nextLine (between (ls ++ rest)) = ⟨w ++ (' ' :: s ++ t), Cursor.start [w, t], rest⟩ := by
  unfold between
  have hre : w ++ (' ' :: s ++ t) = w ++ (' ' :: s) ++ t := by simp
  rw [hre] at hg ⊢
  rw [gives_next hg rest, trim_tight (blanks_space hb) (hw.tight.append ht.tight) (blanks_space hb'),
    split_two isSep false hw.1 (fun c hc => (hw.2 c hc).1) (by simp) (by
      intro c hc
      rcases List.mem_cons.mp hc with rfl | hc
      · decide
      · exact blanks_sep hs c hc) ht.1 (fun c hc => (ht.2 c hc).1)]

/-! ## Commands above the subcases -/

theorem plain_has {k : Line} (h : ¬ "BEGIN".toList <:+: k) : has "BEGIN".toList k = false := by
  cases hh : has "BEGIN".toList k with
  | false => rfl
  | true => exact absurd (F06.has_iff.mp hh) h

/-- A command with a value, and none of the special ones. -/
theorem step_command (cfg : Config) {kw v : Line} (hab : AllowedAbove kw v) (hk : kw ≠ []) (found : Bool) (t : Tok) (c c' : Context) (d : Deck)
    (hc : command kw t c = .ok c') : commandStep cfg kw found t c d = .ok ⟨t, c', d, none, false, false, false⟩ := by
  have hp := hab.1.plain
  have hne : kw.isEmpty = false := by simpa using hk
  have hn : ∀ x ∈ ownWay, kw ≠ x := fun x hx he => hab.2 (he ▸ hx)
  have hq : ∀ x ∈ parts, kw ≠ x := fun x hx he => hp.1 (he ▸ hx)
  unfold commandStep
  rw [hne, plain_has hp.2]
  simp only [Bool.false_eq_true, if_false]
  rw [if_neg (hn _ (by simp [ownWay])),
    if_neg (hn _ (by simp [ownWay])),
    if_neg (hn _ (by simp [ownWay])),
    if_neg (hn _ (by simp [ownWay])),
    if_neg (hq _ (by simp [parts])),
    if_neg (hq _ (by simp [parts])),
    if_neg (hn _ (by simp [ownWay])),
    if_neg (hn _ (by simp [ownWay])),
    if_neg (hq _ (by simp [parts])), hc]
  rfl

theorem step_cend (cfg : Config) (found : Bool) (t : Tok) (c : Context) (d : Deck) :
    commandStep cfg "CEND".toList found t c d = .ok ⟨{ t with cur := Nastran.skipToNextKeyword t.cur }, c, d, none, false, false, false⟩ := by
  unfold commandStep
  rw [if_neg (by decide), if_neg (by decide), if_neg (by decide), if_pos rfl]

def Item.given : Item → List (Line × Line)
  | .sel k v => [(k, v)]
  | .cend => []

theorem given_cons (i : Item) (items : List Item) : given (i :: items) = Item.given i ++ given items := by
  cases i <;> simp [given, Item.given]

theorem resume_item (cfg : Config) {i : Item} {text : Line} {ls : List Line} (hg : Gives ls text) (ht : i.Text text)
    (ha : ∀ e ∈ Item.given i, AllowedAbove e.1 e.2) {c : Context} {sels : List (Line × Line)} (hr : Rep c sels) (fuel : Nat) (found : Bool)
    (rest : List Line) (d : Deck) :
    ∃ c', Rep c' (sels ++ Item.given i) ∧ resume cfg (fuel + 1) found (ls ++ rest) c d = resume cfg fuel found rest c' d := by
  cases i with
  | sel k v =>
    obtain ⟨b, w, m, b', rfl, hb, hw, rfl, hm, hv, hb'⟩ := ht
    obtain ⟨x, hx, hcmd⟩ := command_put hw hm hv rest c
    have hal := ha (toUpper w, v) (by simp [Item.given])
    refine ⟨_, rep_put hr hx hw.upper hv hal.1, ?_⟩
    unfold resume
    rw [next_selects hw hm hv hb hb' hg rest, if_neg (by simp [Cursor.start])]
    rw [(after_selects hw hm hv hb hb' hg rest).1, (after_selects hw hm hv hb hb' hg rest).2]
    rw [section_none fuel (step_command cfg hal hw.upper.1 found _ c _ d hcmd) rfl rfl, Bool.or_false]
    rfl
  | cend =>
    obtain ⟨b, w, b', rfl, hb, hw, hup, hb'⟩ := ht
    refine ⟨c, by simpa [Item.given] using hr, ?_⟩
    unfold resume
    have hn := next_alone hw hb hb' hg rest
    have hkey : keyOf (ls ++ rest) = "CEND".toList := by
      unfold keyOf
      rw [hn]
      simp only [keyword_first hw [], hup]
    have haft : (afterKey (ls ++ rest)).rest = rest := by
      unfold afterKey
      rw [hn]
    rw [hkey, section_none fuel (step_cend cfg found _ c d) rfl rfl, Bool.or_false, hn, if_neg (by simp [Cursor.start])]
    simp only [haft]
    rfl

theorem resume_above (cfg : Config) {items : List Item} {front : List Line} (h : Above items front) :
    ∀ {c : Context} {sels : List (Line × Line)} (_ : Rep c sels) (_ : ∀ e ∈ given items, AllowedAbove e.1 e.2) (fuel : Nat) (found : Bool)
      (rest : List Line) (d : Deck),
    ∃ c', Rep c' (sels ++ given items) ∧
      resume cfg (fuel + front.length) found (front ++ rest) c d = resume cfg (fuel + (front.length - items.length)) found rest c' d ∧
      items.length ≤ front.length := by
  induction h with
  | nil =>
    intro c sels hr _ fuel found rest d
    exact ⟨c, by simpa [given] using hr, by simp, by simp⟩
  | cons i text ls items front hg ht hab ih =>
    intro c sels hr ha fuel found rest d
    have hlen := gives_length hg
    rw [given_cons] at ha
    have key : ∃ n, fuel + (ls ++ front).length = n + 1 + front.length ∧ n = fuel + (ls.length - 1) :=
      ⟨fuel + (ls.length - 1), by rw [List.length_append]; omega, rfl⟩
    obtain ⟨n, hn, hn2⟩ := key
    obtain ⟨c1, hr1, h1⟩ := resume_item cfg hg ht (fun e he => ha e (by simp [he])) hr (n + front.length) found (front ++ rest) d
    obtain ⟨c2, hr2, h2, hle⟩ := ih hr1 (fun e he => ha e (by simp [he])) n found rest d
    refine ⟨c2, ?_, ?_, ?_⟩
    · rw [given_cons, ← List.append_assoc]
      exact hr2
    · rw [hn, List.append_assoc, show n + 1 + front.length = n + front.length + 1 by omega, h1, h2]
      congr 1
      rw [List.length_append, List.length_cons]
      omega
    · rw [List.length_append, List.length_cons]
      omega

/-! ## The commands of a subcase -/

/-- What follows ends a subcase. -/
structure Ends (rest : List Line) : Prop where
  ends : endsSubcase (keyOf rest) = true
  set : keyOf rest ≠ "SET".toList
  there : (nextLine (between rest)).cur.sym ≠ .eof
  after : (afterKey rest).cur.sym ≠ .eof

theorem loop_end (cfg : Config) {rest : List Line} (h : Ends rest) (fuel : Nat) (t : Tok) (ht : t.rest = rest) (kw : Line) (c : Context)
    (d : Deck) : subcaseLoop cfg true (fuel + 1) t kw c d = .ok (afterKey rest, d, some (keyOf rest, c)) := by
  rw [subcaseLoop, next_between, ht]
  rw [if_neg h.there]
  change (if (true && decide (keyOf rest = "SET".toList)) = true then _ else if endsSubcase (keyOf rest) = true then
    Outcome.ok (afterKey rest, d, some (keyOf rest, c)) else _) = _
  rw [if_neg (by rw [decide_eq_false h.set]; simp), if_pos h.ends]

theorem allowed_ends {k v : Line} (h : Allowed k v) (hk : k ≠ []) : endsSubcase k = false := by
  have hne : k.isEmpty = false := by simpa using hk
  have h1 : k ≠ "BEGIN".toList := by
    rintro rfl
    exact h.plain.2 (List.infix_refl _)
  have h2 : k ≠ "SUBCASE".toList := fun e => h.plain.1 (e ▸ by simp [parts])
  have h3 : k ≠ "SUBCOM".toList := fun e => h.plain.1 (e ▸ by simp [parts])
  unfold endsSubcase
  rw [hne, decide_eq_false h1, decide_eq_false h2, decide_eq_false h3]
  rfl

theorem words_split {ws : List Line} {t : Line} (h : Words ws t) : (∀ b, splitRuns isSep b t = ws) ∧ Tight t ∧ ∀ w ∈ ws, Word w := by
  induction h with
  | one w hw =>
    refine ⟨fun b => split_word isSep w b hw.1 (fun c hc => (hw.2 c hc).1), hw.tight, ?_⟩
    intro x hx
    rw [List.mem_singleton.mp hx]
    exact hw
  | cons w s t ws hw hs hsc _ ih =>
    refine ⟨?_, hw.tight.append ih.2.1, ?_⟩
    · intro b
      cases s with
      | nil => exact absurd rfl hs
      | cons x s =>
        have hsep : ∀ c ∈ x :: s, isSep c = true := by
          intro c hc
          rcases hsc c hc with rfl | rfl | rfl <;> decide
        rw [List.append_assoc, List.cons_append, split_cons isSep (hsep x (by simp)) _ w b hw.1 (fun c hc => (hw.2 c hc).1),
          split_run isSep t s (fun c hc => hsep c (by simp [hc])), ih.1]
    · intro x hx
      rcases List.mem_cons.mp hx with rfl | hx
      · exact hw
      · exact ih.2.2 x hx

theorem joined_word : ∀ {ws : List Line}, ws ≠ [] → (∀ w ∈ ws, Word w) → Word (joinedWords ws) := by
  intro ws
  induction ws with
  | nil => intro h; exact absurd rfl h
  | cons w ws ih =>
    intro _ h
    have hw := (h w (by simp)).upper
    cases ws with
    | nil => exact hw
    | cons x xs =>
      have hx := ih (by simp) (fun y hy => h y (by simp [hy]))
      refine ⟨by simp [joinedWords], ?_⟩
      intro c hc
      simp only [joinedWords, List.mem_append, List.mem_cons] at hc
      rcases hc with hc | rfl | hc
      · exact hw.2 c hc
      · decide
      · exact hx.2 c hc

theorem nextString_at {pre : List Line} {v : Line} (hv : Word v) (fs : List Line) :
    nextString (some []) ⟨pre ++ v :: fs, pre.length, .field⟩ =
      .ok (toUpper v, ⟨pre ++ v :: fs, pre.length + 1, if fs = [] then .keyword else .field⟩) := by
  have hu := hv.upper
  unfold nextString Nastran.nextSymbolString
  have hget : (pre ++ v :: fs)[pre.length]? = some v := by simp
  simp only [hget, reduceCtorEq, if_false, trimRight_self hv.tight, trim_self hv.tight]
  have hne : (toUpper v).isEmpty = false := by
    have := hu.1
    simpa using this
  rw [if_neg (by simp [hne])]
  have : (if pre.length + 1 ≥ (pre ++ v :: fs).length then Symbol.keyword else Symbol.field) = if fs = [] then .keyword else .field := by
    rw [List.length_append, List.length_cons]
    cases fs with
    | nil => simp
    | cons f fs => simp
  rw [this]

/-- All the words left are joined. -/
theorem wordsLeft_all : ∀ (ws : List Line) (pre : List Line) (fuel : Nat) (before : Line), ws ≠ [] → (∀ w ∈ ws, Word w) → ws.length < fuel →
    wordsLeft ['_'] fuel before ⟨pre ++ ws, pre.length, .field⟩ = (before ++ joinedWords ws, ⟨pre ++ ws, pre.length + ws.length, .keyword⟩) := by
  intro ws
  induction ws with
  | nil => intro _ _ _ h; exact absurd rfl h
  | cons w ws ih =>
    intro pre fuel before _ hw hf
    obtain ⟨n, rfl⟩ : ∃ n, fuel = n + 1 := ⟨fuel - 1, by omega⟩
    rw [wordsLeft, if_pos rfl, nextString_at (hw w (by simp)) ws]
    cases ws with
    | nil =>
      simp only [if_true]
      cases n with
      | zero => simp at hf
      | succ n =>
        rw [wordsLeft, if_neg (by simp)]
        simp [joinedWords]
    | cons x xs =>
      rw [if_neg (by simp)]
      have hih := ih (pre ++ [w]) n ['_'] (by simp) (fun y hy => hw y (by simp [hy])) (by simp only [List.length_cons] at hf ⊢; omega)
      rw [List.append_assoc, List.singleton_append, List.length_append, List.length_singleton] at hih
      simp only [hih]
      refine Prod.ext ?_ ?_
      · simp [joinedWords]
      · simp only [List.length_cons]
        congr 1
        omega

theorem loop_own (cfg : Config) {own : List (Line × Line)} {ls : List Line} (h : Own own ls) :
    ∀ {c : Context} {sels : List (Line × Line)} (_ : Rep c sels) (_ : ∀ e ∈ own, Allowed e.1 e.2) {rest : List Line} (_ : Ends rest)
      (fuel : Nat) (_ : ls.length < fuel) (t : Tok) (_ : t.rest = ls ++ rest) (kw : Line) (d : Deck),
    ∃ c', Rep c' (sels ++ own) ∧ subcaseLoop cfg true fuel t kw c d = .ok (afterKey rest, d, some (keyOf rest, c')) := by
  induction h with
  | nil =>
    intro c sels hr _ rest he fuel hf t ht kw d
    obtain ⟨n, rfl⟩ : ∃ n, fuel = n + 1 := ⟨fuel - 1, by simp at hf; omega⟩
    exact ⟨c, by simpa using hr, loop_end cfg he n t (by simpa using ht) kw c d⟩
  | cons k v text ls own more hg hsel hown ih =>
    intro c sels hr ha rest he fuel hf t ht kw d
    have hlen := gives_length hg
    rw [List.length_append] at hf
    obtain ⟨n, rfl⟩ : ∃ n, fuel = n + 1 := ⟨fuel - 1, by omega⟩
    obtain ⟨b, w, ws, t0, b', rfl, hb, hws, hne, rfl, rfl, hb'⟩ := hsel
    obtain ⟨hsplit, htight, hword⟩ := words_split hws
    have hw : Word w := hword w (by simp)
    have hv : Word (joinedWords ws) := joined_word hne (fun x hx => hword x (by simp [hx]))
    have hal := ha (toUpper w, joinedWords ws) (by simp)
    have hput : Rep (put (toUpper w) (joinedWords ws) c) (sels ++ [(toUpper w, joinedWords ws)]) :=
      rep_put (b := []) hr (by intro c hc; simp at hc) hw.upper hv hal
    obtain ⟨c', hr', hl⟩ := ih hput (fun e hm => ha e (by simp [hm])) he n (by omega)
      ⟨t0, ⟨w :: ws, 1 + ws.length, .keyword⟩, more ++ rest⟩ rfl (toUpper w) d
    refine ⟨c', by simpa using hr', ?_⟩
    have hnext : nextLine (between (ls ++ (more ++ rest))) = ⟨t0, Cursor.start (w :: ws), more ++ rest⟩ := by
      unfold between
      rw [gives_next hg (more ++ rest), trim_tight (blanks_space hb) htight (blanks_space hb'), hsplit]
    rw [subcaseLoop, next_between, ht, List.append_assoc, hnext]
    rw [if_neg (by simp [Cursor.start])]
    simp only [keyword_first hw ws, hne, if_false]
    have hset : toUpper w ≠ "SET".toList := fun e => hal.plain.1 (e ▸ by simp [parts])
    rw [if_neg (by rw [decide_eq_false hset]; simp), if_neg (by rw [allowed_ends hal hw.upper.1]; simp)]
    have hwl := wordsLeft_all ws [w] (w :: ws).length [] hne (fun x hx => hword x (by simp [hx])) (by simp)
    simp only [List.singleton_append, List.length_singleton, List.nil_append] at hwl
    rw [hwl]
    exact hl

/-! ## Subcases -/

theorem step_subcase (cfg : Config) (found : Bool) (t : Tok) (c : Context) (d : Deck) :
    commandStep cfg "SUBCASE".toList found t c d = (do
      match ← parseSubcase cfg t c d with
      | (t, d, some k) => .ok ⟨t, c, d, some k, true, false, false⟩
      | (t, d, none) => .ok ⟨t, c, d, none, false, false, true⟩) := by
  unfold commandStep
  rw [if_neg (by decide), if_neg (by decide), if_neg (by decide), if_neg (by decide), if_neg (by decide), if_neg (by decide), if_pos rfl]
  rfl

theorem resume_subcase {cfg : Config} (hgnu : cfg.gnu = true) (hl : ∀ i, cfg.loadstep i = none) {ls own rest : List Line} {text v : Line} {s : Sub}
    (hg : Gives ls text) (ht : Selects text "SUBCASE".toList v) (hd : Digits v s.id) (ho : Own s.sels own) (he : Ends rest)
    {c : Context} {sels : List (Line × Line)} (hr : Rep c sels) (ha : ∀ e ∈ s.sels, Allowed e.1 e.2)
    (hk : ∃ kind, HasKind (lastFor (sels ++ s.sels)) kind) (fuel : Nat) (found : Bool) (d : Deck) (hn : ∀ b ∈ d.analyses, b.id ≠ s.id) :
    ∃ d' a, resume cfg (fuel + 1) found (ls ++ own ++ rest) c d = resume cfg fuel true rest c d' ∧ d'.analyses = d.analyses ++ [a] ∧ d'.sets = d.sets ∧
      Made (lastFor (sels ++ s.sels)) s.id ("Analysis_".toList ++ (toString s.id).toList) (lastOf d.analyses) a ∧ Known d' a ∧
      ∀ x, Known d x → Known d' x := by
  obtain ⟨b, w, m, b', rfl, hb, hw, hup, hm, hv, hb'⟩ := ht
  obtain ⟨kind, hk⟩ := hk
  obtain ⟨c', hr', hloop⟩ := loop_own cfg ho hr ha he (own ++ rest).length.succ (by rw [List.length_append]; omega)
    ⟨w ++ m ++ v, ⟨[w, v], 2, .keyword⟩, own ++ rest⟩ rfl [] d
  obtain ⟨d', a, hadd, han, hset, hmade, hkn, hkeep⟩ := addAnalysis_made hgnu hl hr' hk (s.id : Int) d fun _ => hn
  have hid : ((s.id : Nat) : Int) ≠ noId := by unfold noId intMin; omega
  rw [if_pos hid] at hmade
  refine ⟨d', a, ?_, han, hset, hmade, hkn, hkeep⟩
  have hparse : parseSubcase cfg (atValue w m v (own ++ rest)) c d = .ok (afterKey rest, d', some (keyOf rest)) := by
    unfold parseSubcase atValue
    simp only [nextInt_second hd [], if_true]
    have h2 : subcaseLoop cfg true ((own ++ rest).length + 1) ⟨w ++ m ++ v, ⟨[w, v], 2, .keyword⟩, own ++ rest⟩ [] c d =
      .ok (afterKey rest, d, some (keyOf rest, c')) := hloop
    rw [h2]
    simp only [Outcome.bind_ok, hadd]
  have hstep : commandStep cfg "SUBCASE".toList found (atValue w m v (own ++ rest)) c d =
      .ok ⟨afterKey rest, c, d', some (keyOf rest), true, false, false⟩ := by
    rw [step_subcase, hparse]
    rfl
  rw [List.append_assoc]
  conv_lhs => unfold resume
  rw [next_selects hw hm hv hb hb' hg (own ++ rest), if_neg (by simp [Cursor.start])]
  rw [(after_selects hw hm hv hb hb' hg (own ++ rest)).1, (after_selects hw hm hv hb hb' hg (own ++ rest)).2, hup,
    section_next fuel hstep rfl rfl he.after]
  unfold resume
  rw [if_neg he.there]

theorem ends_subcase {ls rest : List Line} {text v : Line} (hg : Gives ls text) (ht : Selects text "SUBCASE".toList v) : Ends (ls ++ rest) := by
  obtain ⟨b, w, m, b', rfl, hb, hw, hup, hm, hv, hb'⟩ := ht
  have h := after_selects hw hm hv hb hb' hg rest
  refine ⟨?_, ?_, ?_, ?_⟩
  · rw [h.1, hup]; decide
  · rw [h.1, hup]; decide
  · rw [next_selects hw hm hv hb hb' hg rest]; simp [Cursor.start]
  · rw [h.2]; simp [atValue]

theorem key_begin {ls : List Line} {text k : Line} (hg : Gives ls text) (ht : BeginsWith text k) (rest : List Line) :
    keyOf (ls ++ rest) = k ∧ (nextLine (between (ls ++ rest))).cur.sym ≠ .eof ∧ (afterKey (ls ++ rest)).cur.sym ≠ .eof := by
  obtain ⟨b, w, s, t, b', rfl, hb, hw, hup, hs, ht, hb'⟩ := ht
  have hn := next_begins hw hs ht hb hb' hg rest
  refine ⟨?_, ?_, ?_⟩
  · unfold keyOf
    rw [hn]
    simp only [keyword_first hw [t], hup]
  · rw [hn]; simp [Cursor.start]
  · unfold afterKey
    rw [hn]
    simp [keyword_first hw [t]]

theorem ends_begin {ls rest : List Line} {text : Line} (hg : Gives ls text) (ht : BeginsWith text "BEGIN".toList) : Ends (ls ++ rest) := by
  obtain ⟨h1, h2, h3⟩ := key_begin hg ht rest
  exact ⟨by rw [h1]; decide, by rw [h1]; decide, h2, h3⟩

theorem resume_begin_found (cfg : Config) {ls : List Line} {text : Line} (hg : Gives ls text) (ht : BeginsWith text "BEGIN".toList)
    (rest : List Line) (fuel : Nat) (c : Context) (d : Deck) : resume cfg (fuel + 1) true (ls ++ rest) c d = .ok d := by
  obtain ⟨h1, h2, h3⟩ := key_begin hg ht rest
  unfold resume
  rw [if_neg h2, h1]
  have hs : commandStep cfg "BEGIN".toList true (afterKey (ls ++ rest)) c d = .ok ⟨afterKey (ls ++ rest), c, d, none, false, true, false⟩ := by
    unfold commandStep
    rw [if_neg (by decide), if_pos (by decide), if_pos rfl]
  rw [section_stop fuel hs rfl]

theorem resume_begin_new (cfg : Config) {ls : List Line} {text : Line} (hg : Gives ls text) (ht : BeginsWith text "BEGIN".toList)
    (rest : List Line) (fuel : Nat) (c : Context) (d d' : Deck) (ha : addAnalysis cfg c noId d = .ok (some d')) :
    resume cfg (fuel + 1) false (ls ++ rest) c d = .ok d' := by
  obtain ⟨h1, h2, h3⟩ := key_begin hg ht rest
  unfold resume
  rw [if_neg h2, h1]
  have hs : commandStep cfg "BEGIN".toList false (afterKey (ls ++ rest)) c d = .ok ⟨afterKey (ls ++ rest), c, d', none, false, true, false⟩ := by
    unfold commandStep
    rw [if_neg (by decide), if_pos (by decide), if_neg (by simp), ha]
    rfl
  rw [section_stop fuel hs rfl]

theorem lastOf_length (l : List Analysis) : lastOf l = if l.length = 0 then none else some (l.length - 1) := by
  cases l <;> simp [lastOf]

theorem resume_subs {cfg : Config} (hgnu : cfg.gnu = true) (hl : ∀ i, cfg.loadstep i = none) {subs : List Sub} {mid : List Line}
    (h : Subcases subs mid) {last : List Line} {text : Line} (hb : Gives last text) (ht : BeginsWith text "BEGIN".toList) (rest : List Line)
    {c : Context} {sels : List (Line × Line)} (hr : Rep c sels) :
    ∀ (_ : ∀ s ∈ subs, ∀ e ∈ s.sels, Allowed e.1 e.2) (_ : ∀ s ∈ subs, ∃ kind, HasKind (lastFor (sels ++ s.sels)) kind)
      (fuel : Nat) (_ : mid.length < fuel) (found : Bool) (_ : found = true ∨ subs ≠ []) (d : Deck) (_ : (subs.map (·.id)).Nodup)
      (_ : ∀ s ∈ subs, ∀ b ∈ d.analyses, b.id ≠ s.id),
    ∃ d' as, resume cfg fuel found (mid ++ (last ++ rest)) c d = .ok d' ∧ d'.analyses = d.analyses ++ as ∧ d'.sets = d.sets ∧ as.length = subs.length ∧
      (∀ i s, subs[i]? = some s → ∃ a, as[i]? = some a ∧ Made (lastFor (sels ++ s.sels)) s.id ("Analysis_".toList ++ (toString s.id).toList)
        (if d.analyses.length + i = 0 then none else some (d.analyses.length + i - 1)) a ∧ Known d' a) ∧
      ∀ x, Known d x → Known d' x := by
  induction h with
  | nil =>
    intro _ _ fuel hf found hfound d _ _
    obtain ⟨n, rfl⟩ : ∃ n, fuel = n + 1 := ⟨fuel - 1, by simp at hf; omega⟩
    have : found = true := by
      rcases hfound with h | h
      · exact h
      · exact absurd rfl h
    subst this
    exact ⟨d, [], by simpa using resume_begin_found cfg hb ht rest n c d, by simp, rfl, rfl, by simp, fun x hx => hx⟩
  | cons s stext v ls own subs more hg hsel hd ho hsub ih =>
    intro ha hk fuel hf found _ d hnd hfree
    rw [List.map_cons, List.nodup_cons] at hnd
    have hlen := gives_length hg
    rw [List.length_append, List.length_append] at hf
    obtain ⟨n, rfl⟩ : ∃ n, fuel = n + 1 := ⟨fuel - 1, by omega⟩
    have hends : Ends (more ++ (last ++ rest)) := by
      cases hsub with
      | nil => simpa using ends_begin (rest := rest) hb ht
      | cons s' text' v' ls' own' subs' more' hg' hsel' hd' ho' hsub' =>
        rw [List.append_assoc, List.append_assoc]
        exact ends_subcase hg' hsel'
    obtain ⟨d1, a, h1, han, hst, hmade, hkn, hkeep⟩ := resume_subcase hgnu hl hg hsel hd ho hends hr (ha s (by simp)) (hk s (by simp)) n found d
      (hfree s (by simp))
    obtain ⟨d2, as, h2, han2, hst2, hlen2, hall, hkeep2⟩ := ih (fun s hs => ha s (by simp [hs])) (fun s hs => hk s (by simp [hs])) n (by omega) true
      (Or.inl rfl) d1 hnd.2 (by
        intro s' hs' b hb
        rw [han] at hb
        rcases List.mem_append.mp hb with h | h
        · exact hfree s' (by simp [hs']) b h
        · rw [List.mem_singleton] at h
          subst h
          rw [hmade.id]
          intro he
          exact hnd.1 (List.mem_map.mpr ⟨s', hs', by exact_mod_cast he.symm⟩))
    refine ⟨d2, a :: as, ?_, ?_, by rw [hst2, hst], by simp [hlen2], ?_, fun x hx => hkeep2 x (hkeep x hx)⟩
    · rw [List.append_assoc, h1, h2]
    · rw [han2, han, List.append_assoc]; rfl
    · intro i s' hs'
      cases i with
      | zero =>
        simp only [List.getElem?_cons_zero, Option.some.injEq] at hs'
        subst hs'
        refine ⟨a, rfl, ?_, hkeep2 a hkn⟩
        rw [lastOf_length] at hmade
        exact hmade
      | succ i =>
        rw [List.getElem?_cons_succ] at hs'
        obtain ⟨a', ha', hm', hk'⟩ := hall i s' hs'
        refine ⟨a', by simpa using ha', ?_, hk'⟩
        rw [han, List.length_append, List.length_singleton] at hm'
        rw [show d.analyses.length + (i + 1) = d.analyses.length + 1 + i by omega]
        exact hm'

theorem readSection_resume (cfg : Config) (lines : List Line) (h : (nextLine (between lines)).cur.sym ≠ .eof) :
    readSection cfg lines = resume cfg (lines.length + 2) false lines [] Deck.empty := by
  unfold resume
  rw [if_neg h]
  rfl

theorem front_there {items : List Item} {front : List Line} (h : Above items front) (rest : List Line)
    (hr : (nextLine (between rest)).cur.sym ≠ .eof) : (nextLine (between (front ++ rest))).cur.sym ≠ .eof := by
  cases h with
  | nil => simpa using hr
  | cons i text ls items more hg ht hab =>
    rw [List.append_assoc]
    cases i with
    | sel k v =>
      obtain ⟨b, w, m, b', rfl, hb, hw, hup, hm, hv, hb'⟩ := ht
      rw [next_selects hw hm hv hb hb' hg (more ++ rest)]
      simp [Cursor.start]
    | cend =>
      obtain ⟨b, w, b', rfl, hb, hw, hup, hb'⟩ := ht
      rw [next_alone hw hb hb' hg (more ++ rest)]
      simp [Cursor.start]

/-! ## C97 -/

/-- C97. In a file made of commands above the subcases, subcases with different numbers and `BEGIN BULK`, one analysis is made for each subcase, in
their order. It has the number of the subcase, the kind that `SOL` asks for, and refers to the sets that the subcase names, or
that are named above when the subcase does not; and to no others. The sets that it refers to are in the model. Missing: commands
with options, the solutions for buckling, frequencies and complex modes, `SUBCOM`, lists in a subcase, titles above the
subcases and matrices. -/
theorem C97_subcases_partial (cfg : Config) (hgnu : cfg.gnu = true) (hl : ∀ i, cfg.loadstep i = none) (items : List Item) (subs : List Sub)
    (front mid last rest : List Line) (text : Line) (hf : Above items front) (hm : Subcases subs mid) (hne : subs ≠ [])
    (hb : Gives last text) (ht : BeginsWith text "BEGIN".toList) (ha : ∀ e ∈ given items, AllowedAbove e.1 e.2)
    (hnum : (subs.map (·.id)).Nodup) (hs : ∀ s ∈ subs, ∀ e ∈ s.sels, Allowed e.1 e.2) (hk : ∀ s ∈ subs, ∃ kind, HasKind (lastFor (given items ++ s.sels)) kind) :
    ∃ d, readSection cfg (front ++ (mid ++ (last ++ rest))) = .ok d ∧ d.analyses.length = subs.length ∧
      ∀ i s, subs[i]? = some s → ∃ a, d.analyses[i]? = some a ∧
        Made (lastFor (given items ++ s.sels)) s.id ("Analysis_".toList ++ (toString s.id).toList) (if i = 0 then none else some (i - 1)) a ∧
        (∀ x ∈ a.constraints, x ∈ d.constraintSets) ∧ ∀ x ∈ a.loads, x ∈ d.loadSets := by
  have hends : Ends (mid ++ (last ++ rest)) := by
    cases hm with
    | nil => exact absurd rfl hne
    | cons s' text' v' ls' own' subs' more' hg' hsel' hd' ho' hsub' =>
      rw [List.append_assoc, List.append_assoc]
      exact ends_subcase hg' hsel'
  rw [readSection_resume cfg _ (front_there hf _ hends.there)]
  obtain ⟨c, hr, h1, hle⟩ := resume_above cfg hf rep_nil ha ((mid ++ (last ++ rest)).length + 2) false (mid ++ (last ++ rest)) Deck.empty
  rw [List.nil_append] at hr
  obtain ⟨d, as, h2, han, _, hlen, hall, _⟩ := resume_subs hgnu hl hm hb ht rest hr hs hk
    ((mid ++ (last ++ rest)).length + 2 + (front.length - items.length)) (by rw [List.length_append]; omega) false (Or.inr hne) Deck.empty hnum
    (by intro _ _ b hb; exact absurd hb (by simp [Deck.empty]))
  refine ⟨d, ?_, ?_, ?_⟩
  · rw [List.length_append, show front.length + (mid ++ (last ++ rest)).length + 2 = (mid ++ (last ++ rest)).length + 2 + front.length by omega,
      h1, h2]
  · rw [han]; simpa [Deck.empty] using hlen
  · intro i s hi
    obtain ⟨a, haa, hma, hkn⟩ := hall i s hi
    refine ⟨a, by rw [han]; simpa [Deck.empty] using haa, ?_, hkn.1, hkn.2⟩
    simpa [Deck.empty] using hma

/-- C97. Without subcases there is one analysis, of what is given, without a number. -/
theorem C97_single_partial (cfg : Config) (hgnu : cfg.gnu = true) (hl : ∀ i, cfg.loadstep i = none) (items : List Item)
    (front last rest : List Line) (text : Line) (hf : Above items front) (hb : Gives last text) (ht : BeginsWith text "BEGIN".toList)
    (ha : ∀ e ∈ given items, AllowedAbove e.1 e.2) (hk : ∃ kind, HasKind (lastFor (given items)) kind) :
    ∃ d a, readSection cfg (front ++ (last ++ rest)) = .ok d ∧ d.analyses = [a] ∧ Made (lastFor (given items)) noId [] none a ∧
      (∀ x ∈ a.constraints, x ∈ d.constraintSets) ∧ ∀ x ∈ a.loads, x ∈ d.loadSets := by
  have hends : Ends (last ++ rest) := ends_begin hb ht
  rw [readSection_resume cfg _ (front_there hf _ hends.there)]
  obtain ⟨c, hr, h1, hle⟩ := resume_above cfg hf rep_nil ha ((last ++ rest).length + 2) false (last ++ rest) Deck.empty
  rw [List.nil_append] at hr
  obtain ⟨kind, hk⟩ := hk
  obtain ⟨d, a, hadd, han, _, hmade, hkn, _⟩ := addAnalysis_made hgnu hl hr hk noId Deck.empty fun h => absurd rfl h
  refine ⟨d, a, ?_, ?_, ?_, hkn.1, hkn.2⟩
  · rw [List.length_append, show front.length + (last ++ rest).length + 2 = (last ++ rest).length + 2 + front.length by omega, h1,
      show (last ++ rest).length + 2 + (front.length - items.length) = ((last ++ rest).length + 1 + (front.length - items.length)) + 1 by omega]
    exact resume_begin_new cfg hb ht rest _ c Deck.empty d hadd
  · rw [han]; rfl
  · rw [if_neg (by simp)] at hmade
    exact hmade

end Case
end Vega
