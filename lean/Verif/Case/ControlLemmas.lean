import Verif.Case.Control
import Verif.Results.F06Props
import Verif.Nastran.FieldProps

/-! # Lemmas on lines of the case control section -/
namespace Vega
namespace Case
open Nastran (Line isSpace isBlank blank trim trimRight toUpper Cursor Symbol nextString nextInt intMin intMax natOf parseInt digits? digit?)
open F06 (has)

/-! ## Trimming -/

/-- A text that begins and ends with characters that are no spaces. -/
def Tight (w : Line) : Prop := (∃ a, w.head? = some a ∧ isSpace a = false) ∧ ∃ b, w.getLast? = some b ∧ isSpace b = false

theorem trimRight_tail {w b : Line} (hw : ∃ c, w.getLast? = some c ∧ isSpace c = false) (hb : ∀ c ∈ b, isSpace c = true) :
    trimRight (w ++ b) = w := by
  obtain ⟨c, hc, hs⟩ := hw
  obtain ⟨a, rfl⟩ : ∃ a, w = a ++ [c] := ⟨w.dropLast, (List.dropLast_append_getLast? c hc).symm⟩
  exact F06.trimRight_append a b hs hb

theorem trim_tight {a w b : Line} (ha : ∀ c ∈ a, isSpace c = true) (hw : Tight w) (hb : ∀ c ∈ b, isSpace c = true) :
    trim (a ++ w ++ b) = w := by
  obtain ⟨⟨x, hx, hxs⟩, hl⟩ := hw
  unfold trim
  rw [List.append_assoc, F06.dropWhile_all a _ ha]
  obtain ⟨t, rfl⟩ : ∃ t, w = x :: t := by
    cases w with
    | nil => simp at hx
    | cons y t => simp only [List.head?_cons, Option.some.injEq] at hx; exact ⟨t, by rw [hx]⟩
  rw [List.cons_append, List.dropWhile_cons, if_neg (by simp [hxs]), ← List.cons_append]
  exact trimRight_tail hl hb

theorem trim_self {w : Line} (hw : Tight w) : trim w = w := by
  have := trim_tight (a := []) (b := []) (by simp) hw (by simp)
  simpa using this

theorem trimRight_self {w : Line} (hw : Tight w) : trimRight w = w := by
  have := trimRight_tail (b := []) hw.2 (by simp)
  simpa using this

/-- A word: no separators, no spaces, no dollar. -/
def Word (w : Line) : Prop := w ≠ [] ∧ ∀ c ∈ w, isSep c = false ∧ isSpace c = false ∧ c ≠ '$'

theorem Word.tight {w : Line} (h : Word w) : Tight w := by
  obtain ⟨hne, hc⟩ := h
  refine ⟨?_, ?_⟩
  · cases w with
    | nil => exact absurd rfl hne
    | cons a t => exact ⟨a, rfl, (hc a (by simp)).2.1⟩
  · exact ⟨w.getLast hne, List.getLast?_eq_some_getLast hne, (hc _ (List.getLast_mem hne)).2.1⟩

theorem Tight.append {u m v : Line} (hu : Tight u) (hv : Tight v) : Tight (u ++ m ++ v) := by
  obtain ⟨⟨a, ha, has⟩, _⟩ := hu
  obtain ⟨_, b, hb, hbs⟩ := hv
  refine ⟨⟨a, ?_, has⟩, b, ?_, hbs⟩
  · simp [List.head?_append, ha]
  · simp [List.getLast?_append, hb]

theorem toUpper_length (l : Line) : (toUpper l).length = l.length := by simp [toUpper]

/-! ## Upper case -/

theorem lowerRange {c : Char} (h : c.toUpper ≠ c) : 'a'.val ≤ c.val ∧ c.val ≤ 'z'.val := by
  by_contra hn
  exact h (by unfold Char.toUpper; rw [dif_neg hn])

/-- A property that holds of all capitals, and of a character, holds of its capital. -/
theorem upper_cases (P : Char → Prop) (hP : ∀ n : Fin 26, P (Char.ofNat (65 + n.1))) {c : Char} (h : P c) : P c.toUpper := by
  by_cases he : c.toUpper = c
  · rwa [he]
  · have hr := lowerRange he
    have h1 : 97 ≤ c.toNat := hr.1
    have h2 : c.toNat ≤ 122 := hr.2
    have hu : c.toUpper = Char.ofNat (65 + (c.toNat - 97)) := by
      obtain ⟨k, hk⟩ : ∃ k : Fin 26, c.toNat = 97 + k.1 := ⟨⟨c.toNat - 97, by omega⟩, by simp; omega⟩
      have hc : c = Char.ofNat (97 + k.1) := by rw [← hk, Char.ofNat_toNat]
      have hall : ∀ k : Fin 26, (Char.ofNat (97 + k.1)).toUpper = Char.ofNat (65 + k.1) := by decide
      rw [hk, hc, hall k]
      congr 2
      omega
    rw [hu]
    exact hP ⟨c.toNat - 97, by omega⟩

theorem upper_upper (c : Char) : c.toUpper.toUpper = c.toUpper := by
  by_cases he : c.toUpper = c
  · rw [he, he]
  · have hr := lowerRange he
    obtain ⟨k, hk⟩ : ∃ k : Fin 26, c.toNat = 97 + k.1 := by
      have h1 : 97 ≤ c.toNat := hr.1
      have h2 : c.toNat ≤ 122 := hr.2
      exact ⟨⟨c.toNat - 97, by omega⟩, by simp; omega⟩
    have hc : c = Char.ofNat (97 + k.1) := by rw [← hk, Char.ofNat_toNat]
    have hall : ∀ k : Fin 26, (Char.ofNat (97 + k.1)).toUpper.toUpper = (Char.ofNat (97 + k.1)).toUpper := by decide
    rw [hc, hall k]

theorem toUpper_toUpper (l : Line) : toUpper (toUpper l) = toUpper l := by
  simp [toUpper, upper_upper]

theorem Word.upper {w : Line} (h : Word w) : Word (toUpper w) := by
  refine ⟨by simpa [toUpper] using h.1, ?_⟩
  intro c hc
  obtain ⟨d, hd, rfl⟩ := List.mem_map.mp hc
  exact upper_cases (fun c => isSep c = false ∧ isSpace c = false ∧ c ≠ '$') (by decide) (h.2 d hd)

theorem digit_upper {c : Char} (h : c.isDigit = true) : c.toUpper = c := by
  by_contra he
  have hr := lowerRange he
  have h1 : 97 ≤ c.toNat := hr.1
  simp only [Char.isDigit, Bool.and_eq_true, decide_eq_true_eq] at h
  have h2 : c.val.toNat ≤ 57 := h.2
  have h3 : c.toNat = c.val.toNat := rfl
  omega

theorem toUpper_digits {l : Line} (h : ∀ c ∈ l, c.isDigit = true) : toUpper l = l := by
  unfold toUpper
  conv_rhs => rw [← List.map_id l]
  exact List.map_congr_left (fun c hc => digit_upper (h c hc))

theorem digit_word_char {c : Char} (h : c.isDigit = true) : isSep c = false ∧ isSpace c = false ∧ c ≠ '$' := by
  refine ⟨?_, F06.digit_space h, ?_⟩
  · simp only [isSep, Bool.or_eq_false_iff, beq_eq_false_iff_ne, ne_eq]
    refine ⟨⟨⟨?_, ?_⟩, ?_⟩, ?_⟩ <;> (rintro rfl; exact absurd h (by decide))
  · rintro rfl; exact absurd h (by decide)

theorem digits_word {l : Line} (hne : l ≠ []) (h : ∀ c ∈ l, c.isDigit = true) : Word l :=
  ⟨hne, fun c hc => digit_word_char (h c hc)⟩

/-! ## Splitting -/

theorem split_word (sep : Char → Bool) : ∀ (w : Line) (b : Bool), w ≠ [] → (∀ c ∈ w, sep c = false) → splitRuns sep b w = [w] := by
  intro w
  induction w with
  | nil => intro _ h; exact absurd rfl h
  | cons c t ih =>
    intro b _ hc
    rw [splitRuns, if_neg (by simp [hc c (by simp)])]
    by_cases ht : t = []
    · subst ht; rfl
    · rw [ih false ht (fun d hd => hc d (by simp [hd]))]

theorem split_cons (sep : Char → Bool) {s : Char} (hs : sep s = true) (t : Line) : ∀ (w : Line) (b : Bool), w ≠ [] →
    (∀ c ∈ w, sep c = false) → splitRuns sep b (w ++ s :: t) = w :: splitRuns sep true t := by
  intro w
  induction w with
  | nil => intro _ h; exact absurd rfl h
  | cons c w ih =>
    intro b _ hc
    rw [List.cons_append, splitRuns, if_neg (by simp [hc c (by simp)])]
    by_cases hw : w = []
    · subst hw
      rw [List.nil_append, splitRuns, if_pos hs, if_neg (by simp)]
    · rw [ih false hw (fun d hd => hc d (by simp [hd]))]

theorem split_run (sep : Char → Bool) (t : Line) : ∀ (r : Line), (∀ c ∈ r, sep c = true) →
    splitRuns sep true (r ++ t) = splitRuns sep true t := by
  intro r
  induction r with
  | nil => intro _; rfl
  | cons c r ih =>
    intro h
    rw [List.cons_append, splitRuns, if_pos (h c (by simp)), if_pos rfl, ih (fun d hd => h d (by simp [hd]))]

/-- A word, a run of separators, and another word. -/
theorem split_two (sep : Char → Bool) {u m v : Line} (b : Bool) (hu : u ≠ []) (huc : ∀ c ∈ u, sep c = false) (hm : m ≠ [])
    (hmc : ∀ c ∈ m, sep c = true) (hv : v ≠ []) (hvc : ∀ c ∈ v, sep c = false) :
    splitRuns sep b (u ++ m ++ v) = [u, v] := by
  cases m with
  | nil => exact absurd rfl hm
  | cons s m =>
    rw [List.append_assoc, List.cons_append, split_cons sep (hmc s (by simp)) _ u b hu huc,
      split_run sep v m (fun c hc => hmc c (by simp [hc])), split_word sep v true hv hvc]

/-! ## Reading a line -/

/-- A line without data. -/
def Ignored (l : Line) : Prop := blank (l.takeWhile (· ≠ '$')) = true

theorem readLine_ignored {l : Line} (h : Ignored l) (rest : List Line) : Nastran.readLine true (l :: rest) = Nastran.readLine true rest := by
  rw [Nastran.readLine]
  unfold Ignored at h
  have hif : ∀ (x : Option (Line × List Line)) , (if (!blank (l.takeWhile (· ≠ '$'))) = true then x else
      Nastran.readLine true rest) = Nastran.readLine true rest := by
    intro x
    rw [if_neg (by rw [h]; decide)]
  rw [hif]
  split
  · rfl
  · rw [if_neg (by simp)]

theorem readLine_data {l : Line} (h : blank (l.takeWhile (· ≠ '$')) = false) (rest : List Line) :
    Nastran.readLine true (l :: rest) = some (l.takeWhile (· ≠ '$'), rest) := by
  have hne : l ≠ [] := by rintro rfl; simp [blank] at h
  have hh : l.head? ≠ some '$' := by
    intro hd
    cases l with
    | nil => simp at hd
    | cons c t => simp only [List.head?_cons, Option.some.injEq] at hd; subst hd; simp [blank] at h
  have hb : blank l = false := by
    cases hbl : blank l with
    | false => rfl
    | true =>
      have : blank (l.takeWhile (· ≠ '$')) = true := by
        unfold blank at hbl ⊢
        rw [List.all_eq_true] at hbl ⊢
        intro c hc
        exact hbl c (List.takeWhile_subset _ hc)
      rw [h] at this
      exact nomatch this
  rw [Nastran.readLine]
  have hne' : l.isEmpty = false := by simpa using hne
  rw [if_pos (by simp [hne', hb, hh])]
  rw [if_pos (by simp only [h]; rfl)]

/-- Lines of which the last has the data `body`, and the others none. -/
def Gives (ls : List Line) (body : Line) : Prop :=
  ∃ skips l, ls = skips ++ [l] ∧ (∀ s ∈ skips, Ignored s) ∧ l.takeWhile (· ≠ '$') = body ∧ blank body = false

theorem gives_read {ls : List Line} {body : Line} (h : Gives ls body) (rest : List Line) :
    Nastran.readLine true (ls ++ rest) = some (body, rest) := by
  obtain ⟨skips, l, rfl, hs, hb, hbl⟩ := h
  induction skips with
  | nil => simp only [List.nil_append, List.cons_append]; rw [readLine_data (by rw [hb, hbl]), hb]
  | cons s skips ih =>
    rw [List.cons_append, List.cons_append, readLine_ignored (hs s (by simp))]
    exact ih (fun x hx => hs x (by simp [hx]))

theorem gives_length {ls : List Line} {body : Line} (h : Gives ls body) : 1 ≤ ls.length := by
  obtain ⟨skips, l, rfl, _⟩ := h
  simp

theorem gives_next {ls : List Line} {body : Line} (h : Gives ls body) (rest : List Line) (raw : Line) (cur : Cursor) :
    nextLine ⟨raw, cur, ls ++ rest⟩ = ⟨trim body, Cursor.start (splitRuns isSep false (trim body)), rest⟩ := by
  unfold nextLine
  simp only [gives_read h rest]

/-! ## Words of a line -/

theorem keyword_first {w : Line} (hw : Word w) (fs : List Line) :
    keyword (Cursor.start (w :: fs)) = (toUpper w, ⟨w :: fs, 1, if fs = [] then .keyword else .field⟩) := by
  have hu := hw.upper
  unfold keyword nextString Nastran.nextSymbolString Cursor.start
  simp only [List.getElem?_cons_zero, if_true, trimRight_self hw.tight, trim_self hu.tight, toUpper_toUpper]
  have hne : (toUpper w).isEmpty = false := by
    have := hu.1
    simpa using this
  rw [if_neg (by simp [hne])]
  simp only [trim_self hu.tight, toUpper_toUpper]
  have : (if 0 + 1 ≥ (w :: fs).length then Symbol.keyword else Symbol.field) = if fs = [] then .keyword else .field := by
    cases fs <;> simp
  rw [this]

theorem nextString_second {w v : Line} (hv : Word v) (fs : List Line) :
    nextString (some []) ⟨w :: v :: fs, 1, .field⟩ =
      .ok (toUpper v, ⟨w :: v :: fs, 2, if fs = [] then .keyword else .field⟩) := by
  have hu := hv.upper
  unfold nextString Nastran.nextSymbolString
  simp only [List.getElem?_cons_succ, List.getElem?_cons_zero, reduceCtorEq, if_false, trimRight_self hv.tight, trim_self hv.tight]
  have hne : (toUpper v).isEmpty = false := by
    have := hu.1
    simpa using this
  rw [if_neg (by simp [hne])]
  have : (if 1 + 1 ≥ (w :: v :: fs).length then Symbol.keyword else Symbol.field) = if fs = [] then .keyword else .field := by
    cases fs <;> simp
  rw [this]

theorem wordsLeft_one (sep : Line) {w v : Line} (hv : Word v) :
    wordsLeft sep 2 [] ⟨[w, v], 1, .field⟩ = (toUpper v, ⟨[w, v], 2, .keyword⟩) := by
  rw [wordsLeft, if_pos rfl]
  simp only [nextString_second hv [], if_true]
  rw [wordsLeft, if_neg (by simp)]
  simp

/-! ## Numbers -/

theorem stoi_number {b ds : Line} {n : Nat} (hb : ∀ c ∈ b, isSpace c = true) (h : F06Spec.Digits ds n) :
    stoi (b ++ ds) = some (n : Int) := by
  unfold stoi
  rw [F06.dropWhile_all b ds hb]
  have hd : ds.dropWhile isSpace = ds := by
    obtain ⟨hne, hc, _⟩ := h
    cases ds with
    | nil => exact absurd rfl hne
    | cons c t => rw [List.dropWhile_cons, if_neg (by simp [F06.digit_space (hc c (by simp))])]
  rw [hd]
  exact F06.stoi_of_digits h

theorem digit_some {c : Char} (h : c.isDigit = true) : digit? c = some (c.toNat - 48) := by
  unfold digit?
  simp only [Char.isDigit, Bool.and_eq_true, decide_eq_true_eq] at h
  rw [if_pos ⟨h.1, h.2⟩]

theorem digits_natOf : ∀ (l : Line) (acc : Nat), (∀ c ∈ l, c.isDigit = true) →
    digits? acc l = some (l.foldl (fun a c => 10 * a + (c.toNat - 48)) acc) := by
  intro l
  induction l with
  | nil => intro acc _; rfl
  | cons c t ih =>
    intro acc h
    rw [digits?, digit_some (h c (by simp))]
    simp only [List.foldl_cons]
    rw [ih _ (fun d hd => h d (by simp [hd])), Nat.mul_comm acc 10]

theorem parseInt_digits {ds : Line} {n : Nat} (h : F06Spec.Digits ds n) : parseInt ds = some (n : Int) := by
  obtain ⟨hne, hc, hn, hm⟩ := h
  have hd : digits? 0 ds = some n := by rw [digits_natOf ds 0 hc, ← hn]; rfl
  cases ds with
  | nil => exact absurd rfl hne
  | cons c t =>
    have hcd := F06.digit_not_sign (hc c (by simp))
    unfold parseInt
    simp only [if_neg hcd.1, if_neg hcd.2, hd]
    have h0 : intMin ≤ (n : Int) := by have : intMin ≤ 0 := by decide
                                       omega
    exact if_pos ⟨h0, hm⟩

theorem nextInt_second {w ds : Line} {n : Nat} (h : F06Spec.Digits ds n) (fs : List Line) :
    nextInt (some 0) ⟨w :: ds :: fs, 1, .field⟩ =
      .ok ((n : Int), ⟨w :: ds :: fs, 2, if fs = [] then .keyword else .field⟩) := by
  have hw := digits_word h.1 h.2.1
  unfold nextInt Nastran.nextSymbolString
  simp only [List.getElem?_cons_succ, List.getElem?_cons_zero, reduceCtorEq, if_false, trimRight_self hw.tight, trim_self hw.tight]
  have hne : ds.isEmpty = false := by simpa using h.1
  rw [if_neg (by simp [hne]), parseInt_digits h]
  have : (if 1 + 1 ≥ (w :: ds :: fs).length then Symbol.keyword else Symbol.field) = if fs = [] then .keyword else .field := by
    cases fs <;> simp
  simp only [this]

/-! ## Contexts -/

theorem get_insert (k v : Line) (c : Context) (x : Line) (h : ∀ e ∈ c, e.1 ≠ k) :
    get (insertKey k v c) x = if x = k then some v else get c x := by
  unfold get
  induction c with
  | nil =>
    simp only [insertKey, Map.find]
    by_cases hx : k = x
    · rw [if_pos hx, if_pos hx.symm]
    · rw [if_neg hx, if_neg (fun h => hx h.symm)]
  | cons e c ih =>
    obtain ⟨k', v'⟩ := e
    have hk : k' ≠ k := h (k', v') (by simp)
    have ih := ih (fun e he => h e (by simp [he]))
    simp only [insertKey]
    split
    · simp only [Map.find]
      by_cases hx : k = x
      · rw [if_pos hx, if_pos hx.symm]
      · have hx' : ¬ x = k := fun h => hx h.symm
        rw [if_neg hx, if_neg hx']
    · simp only [Map.find]
      by_cases hx : k' = x
      · rw [if_pos hx, if_neg (by rw [← hx]; exact hk), if_pos hx]
      · rw [if_neg hx, ih, if_neg hx]

theorem get_filter (k : Line) (c : Context) (x : Line) (h : x ≠ k) : get (c.filter fun e => e.1 ≠ k) x = get c x := by
  unfold get
  induction c with
  | nil => rfl
  | cons e c ih =>
    obtain ⟨k', v'⟩ := e
    by_cases hk : k' = k
    · subst hk
      simp only [Map.find]
      rw [if_neg (fun hx => h hx.symm)]
      simpa using ih
    · rw [List.filter_cons_of_pos (by simpa using hk)]
      simp only [Map.find]
      by_cases hx : k' = x
      · rw [if_pos hx, if_pos hx]
      · rw [if_neg hx, if_neg hx, ih]

theorem get_put (k v : Line) (c : Context) (x : Line) : get (put k v c) x = if x = k then some v else get c x := by
  unfold put
  rw [get_insert k v _ x (by intro e he; simpa using (List.mem_filter.mp he).2)]
  by_cases hx : x = k
  · rw [if_pos hx, if_pos hx]
  · rw [if_neg hx, if_neg hx, get_filter k c x hx]

theorem mem_insert (k v : Line) (c : Context) (e : Line × Line) : e ∈ insertKey k v c ↔ e = (k, v) ∨ e ∈ c := by
  induction c with
  | nil => simp [insertKey]
  | cons x c ih =>
    simp only [insertKey]
    split
    · simp
    · simp only [List.mem_cons, ih]
      tauto

theorem mem_put {k v : Line} {c : Context} {e : Line × Line} (h : e ∈ put k v c) : e = (k, v) ∨ e ∈ c := by
  rcases (mem_insert k v _ e).mp h with h | h
  · exact Or.inl h
  · exact Or.inr (List.mem_of_mem_filter h)

/-- The keys are different. -/
def Distinct (c : Context) : Prop := (c.map (·.1)).Nodup

theorem distinct_insert {k v : Line} {c : Context} (h : Distinct c) (hk : ∀ e ∈ c, e.1 ≠ k) : Distinct (insertKey k v c) := by
  unfold Distinct at *
  induction c with
  | nil => simp [insertKey]
  | cons x c ih =>
    simp only [List.map_cons, List.nodup_cons] at h
    simp only [insertKey]
    split
    · simp only [List.map_cons, List.nodup_cons]
      refine ⟨?_, h⟩
      rw [← List.map_cons (f := Prod.fst), List.mem_map]
      rintro ⟨e, he, hek⟩
      exact hk e he hek
    · simp only [List.map_cons, List.nodup_cons]
      refine ⟨?_, ih h.2 (fun e he => hk e (by simp [he]))⟩
      rw [List.mem_map]
      rintro ⟨e, he, hex⟩
      rcases (mem_insert k v c e).mp he with rfl | he
      · exact hk x (by simp) hex.symm
      · exact h.1 (List.mem_map.mpr ⟨e, he, hex⟩)

theorem distinct_put {k v : Line} {c : Context} (h : Distinct c) : Distinct (put k v c) := by
  refine distinct_insert ?_ (by intro e he; simpa using (List.mem_filter.mp he).2)
  exact List.Sublist.nodup (List.Sublist.map _ List.filter_sublist) h

/-- With different keys, an entry is what is found for its key. -/
theorem mem_iff_get {c : Context} (h : Distinct c) (k v : Line) : (k, v) ∈ c ↔ get c k = some v := by
  unfold Distinct at h
  unfold get
  induction c with
  | nil => simp
  | cons x c ih =>
    obtain ⟨k', v'⟩ := x
    simp only [List.map_cons, List.nodup_cons] at h
    simp only [List.mem_cons, Map.find, Prod.mk.injEq]
    by_cases hk : k' = k
    · subst hk
      rw [if_pos rfl]
      constructor
      · rintro (⟨_, rfl⟩ | hm)
        · rfl
        · exact absurd (List.mem_map.mpr ⟨_, hm, rfl⟩) h.1
      · intro he
        exact Or.inl ⟨rfl, (Option.some.inj he).symm⟩
    · rw [if_neg hk, ← ih h.2]
      constructor
      · rintro (⟨h1, _⟩ | hm)
        · exact absurd h1.symm hk
        · exact hm
      · exact Or.inr

end Case
end Vega
