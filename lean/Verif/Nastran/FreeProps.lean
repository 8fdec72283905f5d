import Verif.Nastran.FixedProps

/-! # C23: free format cards -/
namespace Vega

/-! ## Specification -/
namespace FreeSpec
open Nastran

/-- Fields joined by commas. -/
def joinComma : List Line → Line
  | [] => []
  | [f] => f
  | f :: fs => f ++ ',' :: joinComma fs

/-- Text usable as a field. -/
def Plain (f : Line) : Prop := ',' ∉ f ∧ '$' ∉ f

/-- Does not begin, blanks apart, with a plus sign. -/
def NoPlus (f : Line) : Prop := (f.dropWhile isSpace).head? ≠ some '+'

/-- The two ways to continue a card. -/
inductive Style where
  | plus | automatic
  deriving DecidableEq

def marks : Style → List Line
  | .plus => [['+']]
  | .automatic => []

def contHead : Style → Line
  | .plus => ['+']
  | .automatic => []

/-- The lines of a card. -/
def writeCard (style : Style) : Line → List (List Line) → List Line
  | _, [] => []
  | first, [r] => [joinComma (first :: r)]
  | first, r :: rs => joinComma (first :: r ++ marks style) :: writeCard style (contHead style) rs

/-- Eight values on each line but the last, at least one on the last, and no value that begins with a plus sign first
on its line. -/
def RowsOk : List (List Line) → Prop
  | [] => False
  | [r] => 0 < r.length ∧ r.length ≤ 8 ∧ ∀ v, r.head? = some v → NoPlus v
  | r :: rs => r.length = 8 ∧ (∀ v, r.head? = some v → NoPlus v) ∧ RowsOk rs

/-- The next line does not continue a free format card. -/
def NewCard (rest : List Line) : Prop :=
  ∀ l, rest.head? = some l → l.head? ≠ some ',' ∧ l.head? ≠ some '+' ∧ l.head? ≠ some '*'

/-- Name of a card. -/
structure Name (name : Line) : Prop where
  nonempty : name ≠ []
  fits : name.length ≤ 7
  plain : ∀ c ∈ name, isSpace c = false ∧ c ≠ ',' ∧ c ≠ '$'

end FreeSpec

namespace Nastran
open FreeSpec

/-! ## Helper lemmas -/

theorem splitComma_plain {f : Line} (h : ',' ∉ f) : splitComma f = [f] := by
  induction f with
  | nil => rfl
  | cons c cs ih =>
    simp only [List.mem_cons, not_or] at h
    have hc : ¬ c = ',' := fun e => h.1 e.symm
    rw [splitComma, if_neg hc, ih h.2]

theorem splitComma_append {f : Line} (h : ',' ∉ f) (l : Line) :
    splitComma (f ++ ',' :: l) = f :: splitComma l := by
  induction f with
  | nil => simp [splitComma]
  | cons c cs ih =>
    simp only [List.mem_cons, not_or] at h
    have hc : ¬ c = ',' := fun e => h.1 e.symm
    rw [List.cons_append, splitComma, if_neg hc, ih h.2]

theorem split_join : ∀ {fs : List Line}, fs ≠ [] → (∀ f ∈ fs, ',' ∉ f) →
    splitComma (joinComma fs) = fs := by
  intro fs
  induction fs with
  | nil => intro h; exact absurd rfl h
  | cons f fs ih =>
    intro _ h
    cases fs with
    | nil => exact splitComma_plain (h f (by simp))
    | cons g gs =>
      rw [joinComma, splitComma_append (h f (by simp)), ih (by simp) (fun x hx => h x (by simp [hx]))]
      simp

theorem afterComma_join {f : Line} (h : ',' ∉ f) {fs : List Line} (hfs : fs ≠ []) :
    afterComma (joinComma (f :: fs)) = joinComma fs := by
  cases fs with
  | nil => exact absurd rfl hfs
  | cons g gs =>
    rw [joinComma]
    · have : (f ++ ',' :: joinComma (g :: gs)).dropWhile (· ≠ ',') = ',' :: joinComma (g :: gs) := by
        induction f with
        | nil => simp
        | cons c cs ih =>
          simp only [List.mem_cons, not_or] at h
          have hc : ¬ c = ',' := fun e => h.1 e.symm
          rw [List.cons_append, List.dropWhile_cons]
          simp only [hc, ne_eq, not_false_eq_true, decide_true, if_true]
          exact ih h.2
      rw [afterComma, this]
    · simp

theorem mem_join {fs : List Line} {c : Char} (hc : c ≠ ',') (h : ∀ f ∈ fs, c ∉ f) :
    c ∉ joinComma fs := by
  induction fs with
  | nil => simp [joinComma]
  | cons f fs ih =>
    cases fs with
    | nil => exact h f (by simp)
    | cons g gs =>
      rw [joinComma]
      · have := ih fun x hx => h x (by simp [hx])
        simp [this, hc, h f (by simp)]
      · simp

theorem startsPlus_of {v : Line} (h : NoPlus v) : startsPlus v = false := by
  unfold startsPlus
  unfold NoPlus at h
  unfold trim trimRight
  generalize v.dropWhile isSpace = m at *
  cases m with
  | nil => decide
  | cons c cs =>
    simp only [List.head?_cons, ne_eq, Option.some.injEq] at h
    have key : ∀ (w : Line), (∃ u, c :: cs = w ++ u) → w.head? ≠ some '+' := by
      rintro w ⟨u, hu⟩ hw
      cases w with
      | nil => simp at hw
      | cons d ds =>
        simp at hw hu
        exact h (hu.1.trans hw)
    have : ∃ u, c :: cs = ((c :: cs).reverse.dropWhile isSpace).reverse ++ u := by
      refine ⟨((c :: cs).reverse.takeWhile isSpace).reverse, ?_⟩
      rw [← List.reverse_append, List.takeWhile_append_dropWhile, List.reverse_reverse]
    simpa using key _ this

theorem dropPlus_skip (xs : List Line) (X : List Line) :
    dropPlus xs.length (xs ++ X) = (xs ++ (dropPlus 0 X).1, (dropPlus 0 X).2) := by
  induction xs with
  | nil => rfl
  | cons x xs ih => rw [List.length_cons, List.cons_append, dropPlus, ih]; rfl

theorem dropPlus_short : ∀ (xs : List Line) (k : Nat), xs.length ≤ k → dropPlus k xs = (xs, false) := by
  intro xs
  induction xs with
  | nil => intro k _; cases k <;> rfl
  | cons x xs ih =>
    intro k hk
    cases k with
    | zero => simp at hk
    | succ k => rw [dropPlus, ih k (by simpa using hk)]

theorem dropPlus_row {r : List Line} (hr : r.length = 8) (hp : ∀ v, r.head? = some v → NoPlus v)
    (X : List Line) : dropPlus 0 (r ++ X) = (r ++ (dropPlus 0 X).1, (dropPlus 0 X).2) := by
  cases r with
  | nil => simp at hr
  | cons v vs =>
    have h7 : vs.length = 7 := by simpa using hr
    rw [List.cons_append, dropPlus, startsPlus_of (hp v rfl)]
    rw [if_neg (by simp)]
    rw [← h7, dropPlus_skip]
    rfl

theorem dropPlus_rows {done : List (List Line)} (h : ∀ r ∈ done, r.length = 8 ∧
    ∀ v, r.head? = some v → NoPlus v) (X : List Line) :
    dropPlus 0 (done.flatten ++ X) = (done.flatten ++ (dropPlus 0 X).1, (dropPlus 0 X).2) := by
  induction done with
  | nil => rfl
  | cons r rs ih =>
    have hr := h r (by simp)
    rw [List.flatten_cons, List.append_assoc, dropPlus_row hr.1 hr.2,
      ih fun x hx => h x (by simp [hx])]
    simp

theorem dropPlus_last {r : List Line} (hr : r.length ≤ 8) (hp : ∀ v, r.head? = some v → NoPlus v) :
    dropPlus 0 r = (r, false) := by
  cases r with
  | nil => rfl
  | cons v vs =>
    rw [dropPlus, startsPlus_of (hp v rfl), if_neg (by simp), dropPlus_short vs 7 (by simpa using hr)]

theorem free_newCard_peek {rest : List Line} (h : FreeSpec.NewCard rest) :
    peek rest ≠ some ',' ∧ peek rest ≠ some '+' ∧ peek rest ≠ some '*' := by
  cases rest with
  | nil => simp [peek]
  | cons l rest =>
    have := h l rfl
    cases l with
    | nil => simp [peek]
    | cons c cs => simpa [peek] using this

theorem freeCard_cons (style : FreeSpec.Style) (first : Line) (r r' : List Line) (rs : List (List Line)) :
    FreeSpec.writeCard style first (r :: r' :: rs) =
      joinComma (first :: r ++ marks style) :: FreeSpec.writeCard style (FreeSpec.contHead style) (r' :: rs) := rfl

theorem freeCard_head (style : FreeSpec.Style) (first : Line) {rows : List (List Line)} (h : rows ≠ []) :
    ∃ r ms more, FreeSpec.writeCard style first rows = joinComma (first :: r ++ ms) :: more ∧ r ∈ rows ∧
      (ms = [] ∨ ms = marks style) := by
  match rows, h with
  | [r], _ => exact ⟨r, [], [], by simp [FreeSpec.writeCard], by simp, .inl rfl⟩
  | r :: r' :: rs, _ => exact ⟨r, _, _, rfl, by simp, .inr rfl⟩

theorem marks_plain (style : FreeSpec.Style) : ∀ f ∈ marks style, Plain f := by
  cases style <;> simp [marks, Plain]

theorem rowsOk_pos {rows : List (List Line)} (h : FreeSpec.RowsOk rows) : ∀ r ∈ rows, r ≠ [] := by
  induction rows with
  | nil => simp
  | cons r rs ih =>
    cases rs with
    | nil =>
      intro x hx
      simp only [List.mem_singleton] at hx
      subst hx
      rintro rfl
      exact absurd h.1 (by simp)
    | cons r' rs =>
      intro x hx
      rcases List.mem_cons.1 hx with rfl | hx
      · rintro rfl
        exact absurd h.1 (by simp)
      · exact ih h.2.2 x hx

/-- Reading the lines of a card from one of its lines on. `done` are the lines already read. -/
theorem read_free (style : FreeSpec.Style) (name : Line) (rest : List Line) (hnew : FreeSpec.NewCard rest) :
    ∀ (rows done : List (List Line)) (first line : Line) (more : List Line) (fl : Bool) (fuel : Nat)
      (vec : List Line),
    FreeSpec.RowsOk rows → (∀ r ∈ rows, ∀ v ∈ r, Plain v) → Plain first →
    (∀ r ∈ done, r.length = 8 ∧ ∀ v, r.head? = some v → NoPlus v) →
    (if fl then first = name ∧ done = [] else vec = name :: done.flatten) →
    rows.length ≤ fuel → FreeSpec.writeCard style first rows = line :: more →
    splitFree fuel line fl (more ++ rest) vec = .ok (name :: (done.flatten ++ rows.flatten), rest) := by
  intro rows
  induction rows with
  | nil => intro done first line more fl fuel vec h; exact h.elim
  | cons r rs ih =>
    intro done first line more fl fuel vec hok hval hfirst hdone hfl hfuel hw
    obtain ⟨n, rfl⟩ : ∃ n, fuel = n + 1 := ⟨fuel - 1, by simp at hfuel; omega⟩
    -- the vector after splitting this line
    have hsplit : ∀ ms : List Line, (∀ f ∈ ms, Plain f) → r ≠ [] →
        (if fl then splitComma (joinComma (first :: r ++ ms))
          else vec ++ splitComma (afterComma (joinComma (first :: r ++ ms)))) =
        [name] ++ (done.flatten ++ (r ++ ms)) := by
      intro ms hms hr
      have hplain : ∀ f ∈ r ++ ms, ',' ∉ f := by
        intro f hf
        rcases List.mem_append.1 hf with hf | hf
        · exact (hval r (by simp) f hf).1
        · exact (hms f hf).1
      cases fl
      · simp only [Bool.false_eq_true, if_false] at hfl ⊢
        rw [List.cons_append, afterComma_join hfirst.1 (by simp [hr]), split_join (by simp [hr]) hplain, hfl]
        simp
      · simp only [if_true] at hfl ⊢
        rw [List.cons_append, split_join (by simp) (by
          intro f hf
          rcases List.mem_cons.1 hf with rfl | hf
          · exact hfirst.1
          · exact hplain f hf), hfl.1, hfl.2]
        rfl
    have hdrop : ∀ X, dropPlus 1 ([name] ++ X) = ([name] ++ (dropPlus 0 X).1, (dropPlus 0 X).2) :=
      fun X => dropPlus_skip [name] X
    cases rs with
    | nil =>
      obtain ⟨h0, h8, hp⟩ := hok
      cases hw
      have hs := hsplit [] (by simp) (by rintro rfl; simp at h0)
      rw [List.append_nil, List.append_nil] at hs
      rw [splitFree]
      obtain ⟨p1, p2, p3⟩ := free_newCard_peek hnew
      simp only [hs, hdrop, dropPlus_rows hdone, dropPlus_last h8 hp, List.nil_append, p1, p2, p3]
      simp
    | cons r' rs =>
      obtain ⟨h8, hp, hok'⟩ := hok
      rw [freeCard_cons] at hw
      injection hw with hline hmore
      obtain ⟨r2, ms2, more2, e, hr2, hm2⟩ := freeCard_head style (FreeSpec.contHead style)
        (rows := r' :: rs) (by simp)
      rw [e] at hmore
      subst hmore
      subst hline
      have hne2 : r2 ≠ [] := rowsOk_pos hok' r2 hr2
      have hch : Plain (FreeSpec.contHead style) := by
        cases style <;> simp [FreeSpec.contHead, Plain]
      have hd2 : '$' ∉ joinComma (FreeSpec.contHead style :: r2 ++ ms2) := by
        refine mem_join (by decide) fun f hf => ?_
        rw [List.cons_append] at hf
        rcases List.mem_cons.1 hf with rfl | hf
        · exact hch.2
        · rcases List.mem_append.1 hf with hf | hf
          · exact (hval r2 (List.mem_cons_of_mem _ hr2) f hf).2
          · rcases hm2 with rfl | rfl
            · simp at hf
            · exact (marks_plain style f hf).2
      have hs := hsplit (marks style) (marks_plain style) (by rintro rfl; simp at h8)
      have hrec := ih (done ++ [r]) (FreeSpec.contHead style) _ _ false n
        (name :: (done ++ [r]).flatten) hok' (fun r hr => hval r (List.mem_cons_of_mem _ hr)) hch (by
          intro x hx
          rcases List.mem_append.1 hx with hx | hx
          · exact hdone x hx
          · simp only [List.mem_singleton] at hx
            subst hx
            exact ⟨h8, hp⟩) (by simp) (by simp at hfuel ⊢; omega) e
      have hpk : style = .automatic →
          peek (joinComma (FreeSpec.contHead style :: r2 ++ ms2) :: (more2 ++ rest)) = some ',' := by
        rintro rfl
        cases r2 with
        | nil => exact absurd rfl hne2
        | cons v vs => rfl
      generalize joinComma (first :: r ++ marks style) = L at hs ⊢
      clear e
      generalize joinComma (FreeSpec.contHead style :: r2 ++ ms2) = L2 at hd2 hrec hpk ⊢
      have hvec : [name] ++ (done.flatten ++ (r ++ [])) = name :: (done ++ [r]).flatten := by simp
      have hres : Outcome.ok (name :: ((done ++ [r]).flatten ++ (r' :: rs).flatten), rest) =
          Outcome.ok (name :: (done.flatten ++ (r :: r' :: rs).flatten), rest) := by simp
      rw [List.cons_append, splitFree]
      simp only [hs, hdrop, dropPlus_rows hdone, dropPlus_row h8 hp, readLine_false hd2]
      cases style with
      | plus =>
        have hm : dropPlus 0 (marks .plus) = ([], true) := by decide
        simp only [hm, Bool.true_or, if_true, hvec, hrec, hres]
      | automatic =>
        have hm : dropPlus 0 (marks .automatic) = ([], false) := rfl
        simp only [hm, hpk rfl, decide_true, Bool.or_true, Bool.true_or, if_true, hvec, hrec, hres]

/-! ## C23 -/

/-- **C23.** Cutting a free format line at its commas gives back the fields it was made of. -/
theorem C23_split (fs : List Line) (h : fs ≠ []) (hc : ∀ f ∈ fs, ',' ∉ f) :
    splitComma (joinComma fs) = fs := split_join h hc

/-- **C23, partial.** A card written in free format, on any number of lines of eight values, continued
with marks or by lines beginning with a comma, is read back: its name, then its values, in order,
nothing else; reading goes on with the next line. Missing, and false (see below): values that begin
with a plus sign and stand first on their line, and continued lines with fewer than eight values. -/
theorem C23_round_trip_partial (style : FreeSpec.Style) (name : Line) (rows : List (List Line))
    (rest : List Line) (hname : FreeSpec.Name name) (hrows : FreeSpec.RowsOk rows)
    (hval : ∀ r ∈ rows, ∀ v ∈ r, Plain v) (hnew : FreeSpec.NewCard rest) :
    nextLine (FreeSpec.writeCard style name rows ++ rest) = .ok (some (name :: rows.flatten, rest)) := by
  have hne : rows ≠ [] := by rintro rfl; exact hrows
  obtain ⟨r, ms, more, e, hr, hm⟩ := freeCard_head style name hne
  have hrne : r ≠ [] := rowsOk_pos hrows r hr
  have hnp : Plain name := ⟨fun h => (hname.plain _ h).2.1 rfl, fun h => (hname.plain _ h).2.2 rfl⟩
  have hmp : ∀ f ∈ ms, Plain f := by
    rcases hm with rfl | rfl
    · simp
    · exact marks_plain style
  have hd : '$' ∉ joinComma (name :: r ++ ms) := by
    refine mem_join (by decide) fun f hf => ?_
    rw [List.cons_append] at hf
    rcases List.mem_cons.1 hf with rfl | hf
    · exact hnp.2
    · rcases List.mem_append.1 hf with hf | hf
      · exact (hval r hr f hf).2
      · exact (hmp f hf).2
  obtain ⟨v, vs, hv⟩ : ∃ v vs, r ++ ms = v :: vs := by
    cases r with
    | nil => exact absurd rfl hrne
    | cons v vs => exact ⟨v, vs ++ ms, rfl⟩
  have hline : joinComma (name :: r ++ ms) = name ++ ',' :: joinComma (v :: vs) := by
    rw [List.cons_append, hv, joinComma]
    simp
  have hb : blank (joinComma (name :: r ++ ms)) = false := by
    rw [hline]
    simp [blank, isBlank]
  have htype : getLineType (joinComma (name :: r ++ ms)) = .free := by
    rw [(C24_format _).1, hline]
    refine ⟨name.length, by simp, Nat.lt_succ_of_le hname.fits, ?_⟩
    simp
  have hlen : rows.length = 1 + more.length := by
    have := congrArg List.length e
    have hwl : ∀ (rows : List (List Line)) (f : Line),
        (FreeSpec.writeCard style f rows).length = rows.length := by
      intro rows
      induction rows with
      | nil => intro f; rfl
      | cons r rs ih =>
        intro f
        cases rs with
        | nil => rfl
        | cons r' rs => rw [freeCard_cons, List.length_cons, ih]; rfl
    rw [hwl, List.length_cons] at this
    omega
  have hfuel : rows.length ≤ fuelFor (joinComma (name :: r ++ ms)) (more ++ rest) := by
    have hs : ∀ ls : List Line, ls.length ≤ (ls.map fun l => l.length + 1).sum := by
      intro ls
      induction ls with
      | nil => simp
      | cons l ls ih => simp; omega
    have := hs (more ++ rest)
    rw [List.length_append] at this
    unfold fuelFor
    omega
  have hread := read_free style name rest hnew rows [] name _ more true
    (fuelFor (joinComma (name :: r ++ ms)) (more ++ rest)) [] hrows hval hnp (by simp) (by simp) hfuel e
  rw [e, List.cons_append, nextLine, readLine_true hd hb]
  simp only [parseBulkLine, htype, hread]
  simp

/-- A concrete card on two lines. -/
def sampleFree : List (List Line) :=
  [["1", "+2.5", "", "3", " 4 ", "5", "6", "7"].map String.toList, ["8".toList, "THRU".toList]]

example : FreeSpec.Name "SPC1".toList := ⟨by decide, by decide, by decide⟩
example : FreeSpec.RowsOk sampleFree := by
  simp [sampleFree, FreeSpec.RowsOk, NoPlus]
  decide
example : ∀ r ∈ sampleFree, ∀ v ∈ r, Plain v := by
  unfold Plain
  decide
example : FreeSpec.NewCard ["GRID,1".toList] := by simp [FreeSpec.NewCard]
example : nextLine ["SPC1,1,+2.5,,3, 4 ,5,6,7,+".toList, "+,8,THRU".toList, "GRID,1".toList] =
    .ok (some ("SPC1".toList :: sampleFree.flatten, ["GRID,1".toList])) := by decide +kernel

/-- **C23, false in full.** A first value written with its plus sign is taken for a continuation mark: it is
lost, and the next card is swallowed. -/
theorem C23_plus_value_false :
    nextLine ["A,+5,2".toList, "B,7".toList] =
      .ok (some (["A".toList, "2".toList, "7".toList], [])) := by decide +kernel

/-- **C23, false in full.** When such a value stands on a full line with its continuation mark, the value is lost and the mark is
taken for a value, whatever the values are. -/
theorem C23_plus_mark_false (name v m : Line) (vals : List Line) (hv : startsPlus v = true) (h7 : vals.length = 7) :
    dropPlus 1 (name :: v :: vals ++ [m]) = (name :: vals ++ [m], true) := by
  have h : dropPlus 8 (vals ++ [m]) = (vals ++ [m], false) := dropPlus_short _ _ (by simp [h7])
  simp [dropPlus, hv, h]

example : nextLine ["A,+5,2,3,4,5,6,7,8,+M".toList, "+M,9".toList] =
    .ok (some (["A", "2", "3", "4", "5", "6", "7", "8", "+M", "9"].map String.toList, [])) := by decide +kernel

/-- **C23, false in full.** When a line with fewer than eight values is continued, the values of the
continuation do not begin at the ninth. -/
theorem C23_short_line_false :
    nextLine ["A,1,2".toList, ",3".toList] =
      .ok (some (["A".toList, "1".toList, "2".toList, "3".toList], [])) := by decide +kernel

end Nastran
end Vega
