import Verif.Case.ListsProps
import Verif.NastranWrite.LineProps

/-! # The reading of the case control section ends (C101) -/
namespace Vega

namespace CaseSpec
open Nastran (Line trim)

/-- The text of a line: without comment and without blanks around it. -/
def textOf (l : Line) : Line := trim (l.takeWhile (· ≠ '$'))

/-- The texts of a file that are not empty. -/
def texts (lines : List Line) : List Line := (lines.map textOf).filter fun t => !t.isEmpty

/-- The last text of the file does not end with a comma. -/
def Closed (lines : List Line) : Prop := ∀ t, (texts lines).getLast? = some t → t.getLast? ≠ some ','

end CaseSpec

namespace Case
open Nastran (Line isSpace isBlank blank trim trimRight toUpper Cursor Symbol nextString nextInt intMin intMax natOf)
open NastranWrite (trim_trim)
open F06 (has)
open CaseSpec

/-! ## Outcomes -/

def Stops (x : Outcome α) : Prop := x ≠ .diverges

theorem ends_ok (a : α) : Stops (.ok a) := fun h => nomatch h
theorem ends_throw : Stops (.throw : Outcome α) := fun h => nomatch h
theorem ends_ub : Stops (.ub : Outcome α) := fun h => nomatch h

theorem ends_bind {x : Outcome α} {f : α → Outcome β} (hx : Stops x) (hf : ∀ a, x = .ok a → Stops (f a)) : Stops (x.bind f) := by
  cases x with
  | ok a => exact hf a rfl
  | throw => exact ends_throw
  | ub => exact ends_ub
  | diverges => exact absurd rfl hx

theorem ends_ite {p : Prop} [Decidable p] {x y : Outcome α} (hx : Stops x) (hy : Stops y) : Stops (if p then x else y) := by
  split
  · exact hx
  · exact hy

theorem ends_fail (cfg : Config) : Stops (fail cfg : Outcome (Option α)) := by
  unfold fail
  split
  · exact ends_throw
  · exact ends_ok _

theorem ends_number (v : Line) : Stops (number v) := by
  unfold number
  split
  · exact ends_ok _
  · exact ends_throw

/-! ## Analyses -/

theorem ends_firstWith (w : Line) : ∀ c, Stops (firstWith w c) := by
  intro c
  induction c with
  | nil => exact ends_ok _
  | cons e c ih =>
    obtain ⟨k, v⟩ := e
    rw [firstWith]
    split
    · exact ends_bind (ends_number v) fun a _ => ends_ok _
    · exact ih

theorem ends_lastFrom (w : Line) : ∀ c old, Stops (lastFrom w old c) := by
  intro c
  induction c with
  | nil => intro old; exact ends_ok _
  | cons e c ih =>
    intro old
    obtain ⟨k, v⟩ := e
    rw [lastFrom]
    split
    · exact ends_bind (ends_number v) fun a _ => ih a
    · exact ih old

theorem ends_bucklingNumbers : ∀ c r, Stops (bucklingNumbers r c) := by
  intro c
  induction c with
  | nil => intro r; exact ends_ok _
  | cons e c ih =>
    intro r
    obtain ⟨k, v⟩ := e
    obtain ⟨m, s⟩ := r
    rw [bucklingNumbers]
    have hs : ∀ m : Int, Stops (if (has "STATSUB".toList k && !has "PRELOAD".toList k) = true then (number v).bind fun s => bucklingNumbers (m, s) c
        else (Outcome.ok s).bind fun s => bucklingNumbers (m, s) c) :=
      fun m => ends_ite (ends_bind (ends_number v) fun s _ => ih _) (ends_bind (ends_ok _) fun s _ => ih _)
    exact ends_ite (ends_bind (ends_number v) fun m _ => hs m) (ends_bind (ends_ok _) fun m _ => hs m)

theorem ends_kindOf (cfg : Config) (l : List Analysis) (c : Context) (s : Solution) : Stops (kindOf cfg l c s) := by
  cases s with
  | static => exact ends_ok _
  | buckl =>
    exact ends_ite (ends_ok _) (ends_bind (ends_bucklingNumbers c _) fun r _ =>
      ends_ite (ends_fail cfg) (ends_ite (ends_ok _) (ends_ite (ends_ok _) (ends_fail cfg))))
  | mceig =>
    refine ends_bind (ends_firstWith _ c) fun r _ => ?_
    cases r with
    | none => exact ends_fail cfg
    | some m =>
      refine ends_bind (ends_firstWith _ c) fun r _ => ?_
      cases r with
      | none => exact ends_fail cfg
      | some k => exact ends_ok _
  | modes =>
    refine ends_bind (ends_firstWith _ c) fun r _ => ?_
    cases r with
    | none => exact ends_fail cfg
    | some k => exact ends_ok _
  | nlstatic =>
    unfold kindOf
    simp only
    split
    · exact ends_fail cfg
    · exact ends_bind (ends_number _) fun _ _ => ends_ok _
  | dfreq =>
    refine ends_bind (ends_lastFrom _ c _) fun r _ => ?_
    split
    · exact ends_fail cfg
    · exact ends_ok _
  | mfreq =>
    refine ends_bind (ends_lastFrom _ c _) fun _ _ => ends_bind (ends_lastFrom _ c _) fun _ _ => ends_bind (ends_lastFrom _ c _) fun _ _ => ?_
    split
    · exact ends_fail cfg
    · split
      · exact ends_fail cfg
      · exact ends_ok _
  | dtran => exact ends_fail cfg
  | mtran => exact ends_fail cfg
  | desopt => exact ends_fail cfg

theorem ends_keyOptions (cfg : Config) (k : Line) : Stops (keyOptions cfg k) := by
  unfold keyOptions
  refine ends_bind ?_ fun r _ => ?_
  · unfold cleanOptions
    split
    · split
      · exact ends_ok _
      · exact ends_ub
    · exact ends_ok _
  · split <;> exact ends_ok _

theorem ends_valueId (v : Line) : Stops (valueId v) := by
  unfold valueId
  simp only
  split
  · exact ends_number _
  · exact ends_ok _

theorem ends_select (cfg : Config) (e : Line × Line) (d : Deck) (a : Analysis) : Stops (select cfg e d a) := by
  refine ends_bind (ends_valueId _) fun id _ => ends_bind (ends_keyOptions cfg _) fun r _ => ?_
  obtain ⟨key, options⟩ := r
  exact ends_ite (ends_ok _) (ends_ite (ends_ok _) (ends_ite (ends_ok _) (ends_ite (ends_ok _) (ends_ite (ends_ok _) (ends_ite (ends_ok _)
    (ends_ite (ends_ite (ends_ok _) (ends_ok _)) (ends_ite (ends_ite (ends_ok _) (ends_ok _))
      (ends_ite (ends_ite (ends_ok _) (ends_ite (ends_ok _) ends_ub)) (ends_ok _)))))))))

theorem ends_selectAll (cfg : Config) : ∀ (c : Context) (d : Deck) (a : Analysis), Stops (selectAll cfg c d a) := by
  intro c
  induction c with
  | nil => intro d a; exact ends_ok _
  | cons e c ih =>
    intro d a
    exact ends_bind (ends_select cfg e d a) fun r _ => ih r.1 r.2

theorem ends_addAnalysis (cfg : Config) (c : Context) (id : Int) (d : Deck) : Stops (addAnalysis cfg c id d) := by
  unfold addAnalysis
  refine ends_ite (ends_ok _) ?_
  split
  · exact ends_fail cfg
  · refine ends_bind (ends_kindOf _ _ _ _) fun k _ => ?_
    cases k with
    | none => exact ends_ok _
    | some k => exact ends_bind (ends_selectAll _ _ _ _) fun _ _ => ends_ite ends_throw (ends_ok _)

theorem ends_coefficients (size : Nat) : ∀ (l : List Line) (i : Nat), Stops (coefficients size i l)
  | [], _ => ends_ok _
  | [s], i => by
    rw [coefficients]
    refine ends_ite ?_ ends_ub
    split
    · exact ends_ok _
    · exact ends_throw
  | s :: _ :: l, i => by
    rw [coefficients]
    refine ends_ite ?_ ends_ub
    split
    · exact ends_bind (ends_coefficients size l (i + 2)) fun _ _ => ends_ok _
    · exact ends_throw

theorem ends_addCombination (cfg : Config) (c : Context) (id : Int) (d : Deck) : Stops (addCombination cfg c id d) := by
  unfold addCombination
  split
  · exact ends_ub
  · exact ends_bind (ends_coefficients _ _ _) fun _ _ => ends_ite ends_throw (ends_ok _)

/-! ## Lines -/

theorem blank_trim {l : Line} (h : blank l = true) : trim l = [] := by
  have hs : ∀ c ∈ l, isSpace c = true := by
    intro c hc
    unfold blank at h
    rw [List.all_eq_true] at h
    cases hb : isSpace c with
    | true => rfl
    | false =>
      have := h c hc
      unfold isBlank at this
      unfold isSpace at hb
      simp only [Bool.or_eq_true, decide_eq_true_eq, Bool.or_eq_false_iff, decide_eq_false_iff_not] at this hb
      tauto
  unfold trim
  rw [List.dropWhile_eq_nil_iff.mpr hs]
  rfl

theorem texts_cons (l : Line) (rest : List Line) : texts (l :: rest) = (if textOf l = [] then [] else [textOf l]) ++ texts rest := by
  unfold texts
  rw [List.map_cons, List.filter_cons]
  by_cases h : textOf l = []
  · simp [h]
  · simp [h]

theorem readLine_texts : ∀ (lines : List Line), (Nastran.readLine true lines = none → texts lines = []) ∧
    ∀ l rest, Nastran.readLine true lines = some (l, rest) → rest.length < lines.length ∧
      texts lines = (if trim l = [] then [] else [trim l]) ++ texts rest := by
  intro lines
  induction lines with
  | nil => exact ⟨fun _ => rfl, fun l rest h => nomatch h⟩
  | cons x xs ih =>
    cases hb : blank (x.takeWhile (· ≠ '$')) with
    | true =>
      have ht : textOf x = [] := blank_trim hb
      have he : texts (x :: xs) = texts xs := by rw [texts_cons, ht]; rfl
      have hi : Nastran.readLine true (x :: xs) = Nastran.readLine true xs := readLine_ignored hb xs
      rw [hi, he]
      refine ⟨ih.1, fun l rest h => ?_⟩
      obtain ⟨h1, h2⟩ := ih.2 l rest h
      exact ⟨by rw [List.length_cons]; omega, h2⟩
    | false =>
      rw [readLine_data hb]
      refine ⟨(fun h => nomatch h), fun l rest h => ?_⟩
      cases h
      exact ⟨by simp, texts_cons x xs⟩

/-- A text at the end of which, or in the lines after it, a list ends. -/
def Fine (line : Line) (rest : List Line) : Prop := ∀ t, (line :: texts rest).getLast? = some t → t.getLast? ≠ some ','

theorem closed_append {a : List Line} {lines rest : List Line} (h : Closed lines) (he : texts lines = a ++ texts rest) : Closed rest := by
  intro t ht
  refine h t ?_
  rw [he, List.getLast?_append, ht]
  rfl

theorem fine_of_closed {l : Line} {lines rest : List Line} (h : Closed lines)
    (he : texts lines = (if l = [] then [] else [l]) ++ texts rest) : Fine l rest := by
  intro t ht
  by_cases hl : l = []
  · subst hl
    rw [if_pos rfl, List.nil_append] at he
    cases hr : (texts rest).getLast? with
    | none =>
      rw [List.getLast?_eq_none_iff.mp hr] at ht
      cases ht
      simp
    | some x =>
      have : ([] :: texts rest).getLast? = some x := by
        rw [← List.singleton_append, List.getLast?_append, hr]; rfl
      rw [this] at ht
      cases ht
      exact h _ (by rw [he, hr])
  · rw [if_neg hl] at he
    exact h t (by rw [he]; exact ht)

theorem fine_closed {l : Line} {rest : List Line} (h : Fine l rest) : Closed rest := by
  intro t ht
  refine h t ?_
  rw [← List.singleton_append, List.getLast?_append, ht]; rfl

/-- The next line: the end of the file, or a line less. -/
theorem nextLine_cases (t : Tok) (h : Closed t.rest) :
    ((nextLine t).cur.sym = .eof ∧ (nextLine t).rest = [] ∧ (nextLine t).raw = [] ∧ texts t.rest = []) ∨
    ((nextLine t).rest.length < t.rest.length ∧ Closed (nextLine t).rest ∧ Fine (trim (nextLine t).raw) (nextLine t).rest ∧
      texts t.rest = (if trim (nextLine t).raw = [] then [] else [trim (nextLine t).raw]) ++ texts (nextLine t).rest) := by
  unfold nextLine
  cases hr : Nastran.readLine true t.rest with
  | none => exact Or.inl ⟨rfl, rfl, rfl, (readLine_texts t.rest).1 hr⟩
  | some p =>
    obtain ⟨l, rest⟩ := p
    obtain ⟨h1, h2⟩ := (readLine_texts t.rest).2 l rest hr
    refine Or.inr ⟨h1, closed_append h h2, ?_, ?_⟩
    · simp only [trim_trim]
      exact fine_of_closed h h2
    · simp only [trim_trim]
      exact h2

/-! ## Lists -/

theorem setText_ends : ∀ (fuel : Nat) (t : Tok) (line : Line), t.rest.length < fuel → Fine line t.rest →
    Stops (setText fuel t line) ∧ ∀ x t', setText fuel t line = .ok (x, t') → t'.rest.length ≤ t.rest.length ∧ Closed t'.rest := by
  intro fuel
  induction fuel with
  | zero => intro t line h; exact absurd h (Nat.not_lt_zero _)
  | succ n ih =>
    intro t line hlen hf
    rw [setText]
    by_cases hc : line.getLast? = some ','
    · rw [if_pos hc]
      simp only
      have hcl := fine_closed hf
      rcases nextLine_cases t hcl with ⟨_, _, _, h4⟩ | ⟨h1, h2, h3, h4⟩
      · exact absurd hc (hf line (by rw [h4]; rfl))
      · have hfine : Fine (line ++ trim (nextLine t).raw) (nextLine t).rest := by
          intro x hx
          by_cases hn : texts (nextLine t).rest = []
          · rw [hn] at hx h4
            have hx : line ++ trim (nextLine t).raw = x := Option.some.inj hx
            subst hx
            by_cases hr : trim (nextLine t).raw = []
            · rw [if_pos hr] at h4
              exact absurd hc (hf line (by rw [h4]; rfl))
            · rw [if_neg hr] at h4
              have := hf (trim (nextLine t).raw) (by rw [h4]; rfl)
              rw [List.getLast?_append]
              intro he
              cases hg : (trim (nextLine t).raw).getLast? with
              | none => exact hr (List.getLast?_eq_none_iff.mp hg)
              | some c =>
                rw [hg] at he this
                exact this he
          · refine hcl x ?_
            rw [h4, List.getLast?_append]
            rw [← List.singleton_append, List.getLast?_append] at hx
            cases hg : (texts (nextLine t).rest).getLast? with
            | none => exact absurd (List.getLast?_eq_none_iff.mp hg) hn
            | some y =>
              rw [hg] at hx
              rw [← hx]
              rfl
        obtain ⟨h5, h6⟩ := ih (nextLine t) _ (by omega) hfine
        refine ⟨h5, fun x t' hx => ?_⟩
        obtain ⟨h7, h8⟩ := h6 x t' hx
        exact ⟨by omega, h8⟩
    · rw [if_neg hc]
      refine ⟨ends_ok _, fun x t' hx => ?_⟩
      cases hx
      exact ⟨Nat.le_refl _, fine_closed hf⟩

theorem ends_setRange (a b : Int) : Stops (setRange a b) := by
  unfold setRange
  exact ends_ite ends_ub (ends_ok _)

theorem ends_setValues : ∀ l, Stops (setValues l)
  | [] => ends_ok _
  | [a] => ends_bind (ends_number a) fun _ _ => ends_ok _
  | [a, b] => ends_bind (ends_number a) fun _ _ => ends_bind (ends_number b) fun _ _ => ends_ok _
  | a :: b :: c :: l => by
    rw [setValues]
    refine ends_ite ?_ ?_
    · exact ends_bind (ends_number a) fun _ _ => ends_bind (ends_number c) fun _ _ => ends_bind (ends_setRange _ _) fun _ _ =>
        ends_bind (ends_setValues l) fun _ _ => ends_ok _
    · exact ends_bind (ends_number a) fun _ _ => ends_bind (ends_setValues (b :: c :: l)) fun _ _ => ends_ok _

theorem ends_setValue (text : Line) : Stops (setValue text) := by
  unfold setValue
  simp only
  refine ends_ite (ends_ok _) (ends_ite (ends_ok _) (ends_ite (ends_ok _) (ends_ite (ends_ok _) ?_)))
  exact ends_bind (ends_setValues _) fun _ _ => ends_ok _

theorem addSet_ends (cfg : Config) (t : Tok) (d : Deck) (hf : Fine (trim t.raw) t.rest) :
    Stops (addSet cfg t d) ∧ ∀ t' d', addSet cfg t d = .ok (t', d') → t'.rest.length ≤ t.rest.length ∧ Closed t'.rest := by
  obtain ⟨h1, h2⟩ := setText_ends (t.rest.length + 2) t (trim t.raw) (by omega) hf
  unfold addSet
  constructor
  · refine ends_bind h1 fun r hr => ?_
    obtain ⟨line, t1⟩ := r
    simp only
    split
    · exact ends_ite ends_throw (ends_ok _)
    · refine ends_ite ends_throw (ends_bind (ends_number _) fun id _ => ends_bind (ends_setValue _) fun v _ => ?_)
      cases v with
      | none => exact ends_ok _
      | some v => exact ends_ite ends_throw (ends_ok _)
  · intro t' d' h
    obtain ⟨⟨line, t1⟩, h3, h⟩ := bind_eq_ok h
    have key : t' = t1 := by
      simp only at h
      split at h
      · split at h
        · exact nomatch h
        · cases h; rfl
      · split at h
        · exact nomatch h
        · obtain ⟨id, _, h⟩ := bind_eq_ok h
          obtain ⟨v, _, h⟩ := bind_eq_ok h
          cases v with
          | none => cases h; rfl
          | some v =>
            simp only at h
            split at h
            · exact nomatch h
            · cases h; rfl
    subst key
    exact h2 _ _ h3

/-! ## Subcases -/

theorem subcaseLoop_ends (cfg : Config) (sets : Bool) : ∀ (fuel : Nat) (t : Tok) (kw : Line) (c : Context) (d : Deck),
    t.rest.length < fuel → Closed t.rest → Stops (subcaseLoop cfg sets fuel t kw c d) ∧
      ∀ t' d' r, subcaseLoop cfg sets fuel t kw c d = .ok (t', d', r) →
        (t'.cur.sym = .eof ∨ t'.rest.length < t.rest.length) ∧ t'.rest.length ≤ t.rest.length ∧ Closed t'.rest ∧
          (r.isSome = true → Fine (trim t'.raw) t'.rest) := by
  intro fuel
  induction fuel with
  | zero => intro t kw c d h; exact absurd h (Nat.not_lt_zero _)
  | succ n ih =>
    intro t kw c d hlen hcl
    rw [subcaseLoop]
    simp only
    rcases nextLine_cases t hcl with ⟨h1, h2, h3, _⟩ | ⟨h1, h2, h3, _⟩
    · rw [if_pos h1]
      refine ⟨ends_ok _, fun t' d' r h => ?_⟩
      cases h
      rw [h2, h3]
      refine ⟨Or.inl h1, Nat.zero_le _, (fun t h => nomatch h : Closed []), fun _ x hx => ?_⟩
      cases hx
      decide
    · generalize hn : nextLine t = s at *
      by_cases he : s.cur.sym = .eof
      · rw [if_pos he]
        refine ⟨ends_ok _, fun t' d' r h => ?_⟩
        cases h
        exact ⟨Or.inl he, by omega, h2, fun _ => h3⟩
      · rw [if_neg he]
        cases hs : (sets && decide ((keyword s.cur).1 = "SET".toList)) with
        | true =>
          simp only [if_true]
          obtain ⟨a1, a2⟩ := addSet_ends cfg { s with cur := (keyword s.cur).2 } d h3
          constructor
          · refine ends_bind a1 fun r hr => ?_
            obtain ⟨t1, d1⟩ := r
            obtain ⟨a3, a4⟩ := a2 t1 d1 hr
            simp only at a3
            cases d1 with
            | none => exact ends_ok _
            | some d1 => exact (ih t1 _ c d1 (by omega) a4).1
          · intro t' d' r h
            obtain ⟨⟨t1, d1⟩, hr, h⟩ := bind_eq_ok h
            obtain ⟨a3, a4⟩ := a2 t1 d1 hr
            simp only at a3
            cases d1 with
            | none =>
              cases h
              exact ⟨Or.inr (by omega), by omega, a4, fun h => nomatch h⟩
            | some d1 =>
              obtain ⟨b1, b2, b3, b4⟩ := (ih t1 _ c d1 (by omega) a4).2 t' d' r h
              exact ⟨b1.imp id (fun h => by omega), by omega, b3, b4⟩
        | false =>
          simp only [Bool.false_eq_true, if_false]
          by_cases hk : endsSubcase (keyword s.cur).1 = true
          · rw [if_pos hk]
            refine ⟨ends_ok _, fun t' d' r h => ?_⟩
            cases h
            exact ⟨Or.inr h1, by simp only; omega, h2, fun _ => h3⟩
          · rw [if_neg hk]
            obtain ⟨b1, b2⟩ := ih { s with cur := (wordsLeft ['_'] (keyword s.cur).2.fields.length [] (keyword s.cur).2).2 }
              (keyword s.cur).1 (put (keyword s.cur).1 (wordsLeft ['_'] (keyword s.cur).2.fields.length [] (keyword s.cur).2).1 c) d
              (by simp only; omega) h2
            refine ⟨b1, fun t' d' r h => ?_⟩
            obtain ⟨c1, c2, c3, c4⟩ := b2 t' d' r h
            simp only at c1 c2
            exact ⟨c1.imp id (fun h => by omega), by omega, c3, c4⟩

/-- What a subcase leaves. -/
def Left (t : Tok) (t' : Tok) (k : Option Line) : Prop :=
  t'.rest.length ≤ t.rest.length ∧ Closed t'.rest ∧
    (k.isSome = true → (t'.cur.sym = .eof ∨ t'.rest.length < t.rest.length) ∧ Fine (trim t'.raw) t'.rest)

theorem parseSubcase_ends (cfg : Config) (t : Tok) (c : Context) (d : Deck) (hcl : Closed t.rest) :
    Stops (parseSubcase cfg t c d) ∧ ∀ t' d' k, parseSubcase cfg t c d = .ok (t', d', k) → Left t t' k := by
  unfold parseSubcase
  split
  · rename_i id cur _
    obtain ⟨h1, h2⟩ := subcaseLoop_ends cfg true (t.rest.length + 1) { t with cur := cur } [] c d (by simp only; omega) hcl
    constructor
    · refine ends_bind h1 fun r _ => ?_
      obtain ⟨t1, d1, k⟩ := r
      cases k with
      | none => exact ends_ok _
      | some k =>
        obtain ⟨k, c1⟩ := k
        refine ends_bind (ends_addAnalysis _ _ _ _) fun x _ => ?_
        cases x <;> exact ends_ok _
    · intro t' d' k h
      obtain ⟨⟨t1, d1, k1⟩, hr, h⟩ := bind_eq_ok h
      obtain ⟨b1, b2, b3, b4⟩ := h2 t1 d1 k1 hr
      simp only at b1 b2
      cases k1 with
      | none =>
        cases h
        exact ⟨b2, b3, fun h => nomatch h⟩
      | some k1 =>
        obtain ⟨k1, c1⟩ := k1
        obtain ⟨x, _, h⟩ := bind_eq_ok h
        cases x <;> cases h <;> exact ⟨b2, b3, fun _ => ⟨b1, b4 rfl⟩⟩
  · refine ⟨ends_ite ends_throw (ends_ok _), fun t' d' k h => ?_⟩
    split at h
    · exact nomatch h
    · cases h
      exact ⟨Nat.le_refl _, hcl, fun h => nomatch h⟩

theorem parseSubcom_ends (cfg : Config) (t : Tok) (c : Context) (d : Deck) (hcl : Closed t.rest) :
    Stops (parseSubcom cfg t c d) ∧ ∀ t' d' k, parseSubcom cfg t c d = .ok (t', d', k) → Left t t' k := by
  unfold parseSubcom
  split
  · rename_i id cur _
    obtain ⟨h1, h2⟩ := subcaseLoop_ends cfg false (t.rest.length + 1) { t with cur := cur } [] c d (by simp only; omega) hcl
    constructor
    · refine ends_bind h1 fun r _ => ?_
      obtain ⟨t1, d1, k⟩ := r
      cases k with
      | none => exact ends_ok _
      | some k =>
        obtain ⟨k, c1⟩ := k
        exact ends_bind (ends_addCombination _ _ _ _) fun x _ => ends_ok _
    · intro t' d' k h
      obtain ⟨⟨t1, d1, k1⟩, hr, h⟩ := bind_eq_ok h
      obtain ⟨b1, b2, b3, b4⟩ := h2 t1 d1 k1 hr
      simp only at b1 b2
      cases k1 with
      | none =>
        cases h
        exact ⟨b2, b3, fun h => nomatch h⟩
      | some k1 =>
        obtain ⟨k1, c1⟩ := k1
        obtain ⟨x, _, h⟩ := bind_eq_ok h
        cases h
        exact ⟨b2, b3, fun _ => ⟨b1, b4 rfl⟩⟩
  · refine ⟨ends_ite ends_throw (ends_ok _), fun t' d' k h => ?_⟩
    split at h
    · exact nomatch h
    · cases h
      exact ⟨Nat.le_refl _, hcl, fun h => nomatch h⟩

/-! ## The section -/

/-- A command ends, and leaves no more lines than there were; a subcase leaves less, or the end of the file. -/
def Leaves (t : Tok) (x : Outcome Done) : Prop := Stops x ∧ ∀ r, x = .ok r → Left t r.tok r.next

theorem leaves_same {t t' : Tok} (h : Closed t.rest) {x : Done} (hx : x.tok = t') (ht : t'.rest = t.rest) (hn : x.next = none) :
    Leaves t (.ok x) := by
  refine ⟨ends_ok _, fun r hr => ?_⟩
  cases hr
  rw [hx, hn]
  exact ⟨by rw [ht], by rw [ht]; exact h, fun h => nomatch h⟩

theorem leaves_throw (t : Tok) : Leaves t .throw := ⟨ends_throw, fun _ h => nomatch h⟩

theorem leaves_ite {t : Tok} {p : Prop} [Decidable p] {x y : Outcome Done} (hx : p → Leaves t x) (hy : ¬ p → Leaves t y) :
    Leaves t (if p then x else y) := by
  split
  · exact hx ‹_›
  · exact hy ‹_›

theorem leaves_bind {t : Tok} {x : Outcome α} {f : α → Outcome Done} (hx : Stops x) (hf : ∀ a, x = .ok a → Leaves t (f a)) :
    Leaves t (x.bind f) := by
  refine ⟨ends_bind hx fun a ha => (hf a ha).1, fun r hr => ?_⟩
  obtain ⟨a, h1, h2⟩ := bind_eq_ok hr
  exact (hf a h1).2 r h2

theorem leaves_matrix (cfg : Config) (k : MatrixKind) (q : Bool) (t : Tok) (c : Context) (d : Deck) (h : Closed t.rest) :
    Leaves t (matrixCommand cfg k q t c d) := by
  unfold matrixCommand
  refine leaves_ite (fun _ => leaves_ite (fun _ => leaves_throw t) fun _ => leaves_same h rfl rfl rfl) fun _ => ?_
  simp only
  split
  · exact leaves_ite (fun _ => leaves_throw t) fun _ => leaves_same h rfl rfl rfl
  · exact leaves_same h rfl rfl rfl

theorem leaves_command (kw : Line) (t : Tok) (c : Context) : Stops (command kw t c) := by
  unfold command
  refine ends_ite (ends_ok _) ?_
  split
  · split
    · exact ends_ok _
    · exact ends_ub
  · exact ends_ok _
  · exact ends_ub

theorem commandStep_ends (cfg : Config) (kw : Line) (found : Bool) (t : Tok) (c : Context) (d : Deck) (hf : Fine (trim t.raw) t.rest) :
    Leaves t (commandStep cfg kw found t c d) := by
  have h := fine_closed hf
  unfold commandStep
  refine leaves_ite (fun _ => leaves_same h rfl rfl rfl) fun _ => ?_
  refine leaves_ite (fun _ => leaves_ite (fun _ => leaves_same h rfl rfl rfl) fun _ => ?_) fun _ => ?_
  · refine leaves_bind (ends_addAnalysis _ _ _ _) fun x _ => ?_
    cases x <;> exact leaves_same h rfl rfl rfl
  refine leaves_ite (fun _ => leaves_matrix _ _ _ _ _ _ h) fun _ => ?_
  refine leaves_ite (fun _ => leaves_same h rfl rfl rfl) fun _ => ?_
  refine leaves_ite (fun _ => leaves_matrix _ _ _ _ _ _ h) fun _ => ?_
  refine leaves_ite (fun _ => leaves_matrix _ _ _ _ _ _ h) fun _ => ?_
  refine leaves_ite (fun _ => ?_) fun _ => ?_
  · obtain ⟨h1, h2⟩ := parseSubcase_ends cfg t c d h
    refine leaves_bind h1 fun x hx => ?_
    obtain ⟨t1, d1, k⟩ := x
    have := h2 t1 d1 k hx
    cases k with
    | none => exact ⟨ends_ok _, fun r hr => by cases hr; exact this⟩
    | some k => exact ⟨ends_ok _, fun r hr => by cases hr; exact this⟩
  refine leaves_ite (fun _ => ?_) fun _ => ?_
  · obtain ⟨h1, h2⟩ := parseSubcom_ends cfg t c d h
    refine leaves_bind h1 fun x hx => ?_
    obtain ⟨t1, d1, k⟩ := x
    have := h2 t1 d1 k hx
    cases k with
    | none => exact ⟨ends_ok _, fun r hr => by cases hr; exact this⟩
    | some k => exact ⟨ends_ok _, fun r hr => by cases hr; exact this⟩
  refine leaves_ite (fun _ => leaves_same h rfl rfl rfl) fun _ => ?_
  refine leaves_ite (fun _ => leaves_same h rfl rfl rfl) fun _ => ?_
  refine leaves_ite (fun _ => ?_) fun _ => ?_
  · obtain ⟨h1, h2⟩ := addSet_ends cfg t d hf
    refine leaves_bind h1 fun x hx => ?_
    obtain ⟨t1, d1⟩ := x
    obtain ⟨h3, h4⟩ := h2 t1 d1 hx
    have : Left t t1 none := ⟨h3, h4, fun h => nomatch h⟩
    cases d1 with
    | none => exact ⟨ends_ok _, fun r hr => by cases hr; exact this⟩
    | some k => exact ⟨ends_ok _, fun r hr => by cases hr; exact this⟩
  · exact leaves_bind (leaves_command _ _ _) fun _ _ => leaves_same h rfl rfl rfl

theorem sectionLoop_ends (cfg : Config) : ∀ (fuel : Nat) (kw : Line) (found : Bool) (t : Tok) (c : Context) (d : Deck),
    t.rest.length < fuel → Fine (trim t.raw) t.rest → Stops (sectionLoop cfg fuel kw found t c d) := by
  intro fuel
  induction fuel with
  | zero => intro kw found t c d h; exact absurd h (Nat.not_lt_zero _)
  | succ n ih =>
    intro kw found t c d hlen hf
    rw [sectionLoop]
    obtain ⟨h1, h2⟩ := commandStep_ends cfg kw found t c d hf
    refine ends_bind h1 fun r hr => ?_
    obtain ⟨h3, h4, h5⟩ := h2 r hr
    cases hn : r.next with
    | some k =>
      simp only
      rw [hn] at h5
      obtain ⟨h6, h7⟩ := h5 rfl
      split
      · exact ends_ok _
      · rename_i he
        refine ih _ _ _ _ _ ?_ h7
        rcases h6 with h6 | h6
        · exact absurd (by rw [h6]; simp) he
        · omega
    | none =>
      simp only
      split
      · exact ends_ok _
      · rename_i he
        rcases nextLine_cases r.tok h4 with ⟨a1, _⟩ | ⟨a1, a2, a3, _⟩
        · exact absurd (by rw [a1]; simp) he
        · exact ih _ _ _ _ _ (by simp only; omega) a3

/-! ## C101 -/

/-- C101: the reading of the section ends for every file whose last text does not end with a comma: whatever the commands, their
order, and the options of the program. -/
theorem C101_ends_partial (cfg : Config) (lines : List Line) (h : Closed lines) : readSection cfg lines ≠ .diverges := by
  unfold readSection
  simp only
  rcases nextLine_cases ⟨[], ⟨[], 0, .keyword⟩, lines⟩ h with ⟨_, h2, h3, _⟩ | ⟨h1, h2, h3, _⟩
  · refine sectionLoop_ends cfg _ _ _ _ _ _ (by simp only [h2]; simp) ?_
    simp only [h2, h3]
    intro x hx
    cases hx
    decide
  · refine sectionLoop_ends cfg _ _ _ _ _ _ ?_ h3
    simp only at h1 ⊢
    omega

/-- C101 is false of files that end with a comma in a list. (For the list itself, and any number of turns: `C99_comma_false`.) -/
theorem C101_comma_false : readSection gnu ["SOL 101".toList, "SET 1 = 5, 6,".toList] = .diverges ∧
    readSection gnu ["SOL 101".toList, "SUBCASE 1".toList, "SET 1 = 5, 6, $ all".toList, "".toList, "$".toList] = .diverges := by decide +kernel

theorem closed_of {lines : List Line} (h : (texts lines).getLast?.bind List.getLast? ≠ some ',') : Closed lines := by
  intro t ht hc
  rw [ht] at h
  exact h hc

/-- A list goes on over three lines; the file ends with a comment that ends with a comma. -/
example : readSection gnu ["SOL 101".toList, "SET 1 = 5, 6,".toList, "7,".toList, " ".toList, " 8".toList, "SUBCASE 1".toList, "LOAD = 3 $ a,".toList] ≠
    .diverges := C101_ends_partial gnu _ (closed_of (by decide +kernel))

end Case
end Vega
