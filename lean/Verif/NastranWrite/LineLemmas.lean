import Verif.NastranWrite.Line
import Verif.Nastran.FixedProps
import Verif.Nastran.FieldProps

/-! # Lemmas on written cards: how the reader cuts them -/
namespace Vega
namespace NastranWrite
open Nastran FixedSpec FieldSpec

theorem showNat_eq (n : Nat) : showNat n = digitsOf n := by
  induction n using showNat.induct with
  | case1 n h => rw [showNat, digitsOf, if_pos h, if_pos h]
  | case2 n h ih => rw [showNat, digitsOf, if_neg h, if_neg h, ih]

theorem showNat_length_le : ∀ (k n : Nat), n < 10 ^ (k + 1) → (showNat n).length ≤ k + 1 := by
  intro k
  induction k with
  | zero =>
    intro n h
    rw [showNat, if_pos (by simpa using h)]
    simp
  | succ k ih =>
    intro n h
    rw [showNat]
    split
    · simp
    · have := ih (n / 10) (by rw [Nat.div_lt_iff_lt_mul (by norm_num)]; rw [pow_succ] at h; exact h)
      simpa using this

theorem showNat_char {n : Nat} {c : Char} (h : c ∈ showNat n) : ∃ d < 10, c = Char.ofNat (48 + d) :=
  digitsOf_mem n c (showNat_eq n ▸ h)

theorem digit_facts : ∀ d : Fin 10, isSpace (Char.ofNat (48 + d.1)) = false ∧
    Char.ofNat (48 + d.1) ≠ '$' ∧ Char.ofNat (48 + d.1) ≠ '\t' ∧ (Char.ofNat (48 + d.1)).isDigit = true ∧
    Char.ofNat (48 + d.1) ≠ ' ' ∧ Char.ofNat (48 + d.1) ≠ '.' := by decide

theorem showNat_plain {n : Nat} {c : Char} (h : c ∈ showNat n) :
    isSpace c = false ∧ c ≠ '$' ∧ c ≠ '\t' ∧ c.isDigit = true := by
  obtain ⟨d, hd, rfl⟩ := showNat_char h
  have := digit_facts ⟨d, hd⟩
  exact ⟨this.1, this.2.1, this.2.2.1, this.2.2.2.1⟩

theorem fillAfter_eq (w : Nat) (s : Text) : fillAfter w s = pad w s := rfl

theorem fillBefore_length {w : Nat} {s : Text} (h : s.length ≤ w) : (fillBefore w s).length = w := by
  simp [fillBefore]; omega

theorem trim_fillBefore (w : Nat) (s : Text) : trim (fillBefore w s) = trim s := by
  unfold fillBefore trim
  congr 1
  induction w - s.length with
  | zero => rfl
  | succ n ih => rw [List.replicate_succ, List.cons_append, List.dropWhile_cons, if_pos (by decide), ih]

/-- A piece of a line: eight columns, no tabulation, no dollar. -/
structure Piece (p : Text) : Prop where
  length : p.length = 8
  noTab : '\t' ∉ p
  noDollar : '$' ∉ p

/-- How the reader takes a short line made of pieces, with a mark after the last one. -/
theorem short_parse {first lab : Text} {ps : List Text} (fl : Bool) (h1 : Piece first) (h2 : ∀ p ∈ ps, Piece p)
    (hn : ps.length ≤ 8)
    (h3 : lab = [] ∨ (lab.length ≤ 8 ∧ trim lab ≠ [] ∧ '\t' ∉ lab ∧ ps.length = 8)) :
    (cut (offsets false) (replaceTabs false (first ++ ps.flatten ++ lab))).isEmpty = false ∧
    (if fl then fieldLoop (fieldMax false) (cut (offsets false) (replaceTabs false (first ++ ps.flatten ++ lab))) 0
      else fieldLoop (fieldMax false)
        ((cut (offsets false) (replaceTabs false (first ++ ps.flatten ++ lab))).drop 1) 1) =
    ((if fl then [eraseStars (trim first)] else []) ++ ps.map trim, 1 + ps.length, !lab.isEmpty) := by
  have hlt : '\t' ∉ lab := by
    rcases h3 with rfl | h
    · simp
    · exact h.2.2.1
  have htab : '\t' ∉ first ++ ps.flatten ++ lab := by
    simp only [List.mem_append, List.mem_flatten, not_or]
    exact ⟨⟨h1.noTab, fun ⟨p, hp, h⟩ => (h2 p hp).noTab h⟩, hlt⟩
  have hcut : cut (offsets false) (first ++ ps.flatten ++ lab) =
      first :: (ps ++ if lab.isEmpty then [] else [lab]) := by
    have key := cut_pieces (offsets false) (first :: ps) lab (by simp [offsets]; omega) ?_ (by decide) ?_
    · simpa using key
    · intro k hk
      have hk' : k < fieldMax false := by simp [fieldMax] at hk ⊢; omega
      rw [offsets_getD false k hk']
      have : (first :: ps)[k] ∈ first :: ps := List.getElem_mem hk
      have hp : ∀ p ∈ first :: ps, p.length = 8 := by
        intro p hp
        rcases List.mem_cons.1 hp with rfl | hp
        · exact h1.length
        · exact (h2 p hp).length
      rw [hp _ this]
      simp [width]
    · rcases h3 with rfl | ⟨h, _, _, h8⟩
      · simp
      · simp [offsets, h8, h]
  rw [replaceTabs_noTab false htab, hcut]
  refine ⟨by simp, ?_⟩
  have e2 : ((ps ++ if lab.isEmpty then [] else [lab]).take 8).map trim = ps.map trim := by
    rcases h3 with rfl | ⟨_, _, _, h8⟩
    · simp [List.take_of_length_le hn]
    · rw [List.take_append_of_le_length (by omega), List.take_of_length_le hn]
  have e3 : 1 + min (ps ++ if lab.isEmpty then [] else [lab]).length 8 = 1 + ps.length := by
    rcases h3 with rfl | ⟨_, _, _, h8⟩ <;> simp <;> omega
  have e4 : (match (ps ++ if lab.isEmpty then [] else [lab])[8]? with
      | some t => !(trim t).isEmpty
      | none => false) = !lab.isEmpty := by
    rcases h3 with rfl | ⟨_, hne, _, h8⟩
    · have : (ps ++ if ([] : Text).isEmpty then [] else [[]])[8]? = none := by
        simp only [List.isEmpty_nil, if_true, List.append_nil]
        exact List.getElem?_eq_none hn
      rw [this]; rfl
    · have hl : lab ≠ [] := by rintro rfl; exact hne rfl
      have hl' : lab.isEmpty = false := by simpa using hl
      have : (ps ++ if lab.isEmpty then [] else [lab])[8]? = some lab := by
        rw [List.getElem?_append_right (by omega)]
        simp [h8, hl']
      rw [this, hl']
      simpa using hne
  cases fl
  · simp only [Bool.false_eq_true, if_false, List.drop_one, List.tail_cons, List.nil_append]
    rw [fieldLoop_cont _ _ 1 (by omega) (by decide)]
    exact Prod.ext e2 (Prod.ext e3 e4)
  · simp only [if_true]
    rw [fieldLoop_first _ (by decide)]
    refine Prod.ext ?_ (Prod.ext e3 e4)
    exact congrArg (eraseStars (trim first) :: ·) e2

theorem separator_facts {n : Nat} (h : n < 10 ^ 7) : (separator n).length ≤ 8 ∧ '\t' ∉ separator n ∧
    '$' ∉ separator n ∧ trim (separator n) ≠ [] ∧ (separator n).head? = some '+' := by
  have hp : ∀ c ∈ separator n, isSpace c = false ∧ c ≠ '$' ∧ c ≠ '\t' := by
    intro c hc
    rcases List.mem_cons.1 hc with rfl | hc
    · decide
    · exact ⟨(showNat_plain hc).1, (showNat_plain hc).2.1, (showNat_plain hc).2.2.1⟩
  have := showNat_length_le 6 n h
  refine ⟨by simp [separator]; omega, fun h => (hp _ h).2.2 rfl, fun h => (hp _ h).2.1 rfl, ?_, rfl⟩
  rw [trim_plain fun c hc => (hp c hc).1]
  simp [separator]

theorem fillAfter_piece {s : Text} (hl : s.length ≤ 8) (ht : '\t' ∉ s) (hd : '$' ∉ s) :
    Piece (fillAfter 8 s) := by
  refine ⟨pad_length hl, ?_, ?_⟩
  · simp [fillAfter, ht]
  · simp [fillAfter, hd]

/-- Reading what the loop of `operator<<` writes. -/
theorem read_emit (rest : List Nastran.Line) (hnew : NewCard rest) : ∀ (fs : List Text) (count n : Nat)
    (first : Text) (ps : List Text) (fl : Bool), Piece first → (∀ p ∈ ps, Piece p) → (∀ f ∈ fs, Piece f) →
    ps.length = count % 9 → n + (ps.length + fs.length - 1) / 8 < 10 ^ 7 →
    ∃ tail more, (emitLoop 8 9 fs count n (first ++ ps.flatten)).1 = (first ++ tail) :: more ∧
      '$' ∉ first ++ tail ∧
      ∀ (fuel : Nat) (vec : List Nastran.Line), more.length < fuel →
        splitFixed fuel (first ++ tail) false fl (more ++ rest) vec =
          .ok (vec ++ (if fl then [eraseStars (trim first)] else []) ++ ps.map trim ++ fs.map trim,
            afterComments rest) := by
  intro fs
  induction fs with
  | nil =>
    intro count n first ps fl h1 h2 _ hc hn
    refine ⟨ps.flatten, [], rfl, ?_, ?_⟩
    · simp only [List.mem_append, List.mem_flatten, not_or]
      exact ⟨h1.noDollar, fun ⟨p, hp, h⟩ => (h2 p hp).noDollar h⟩
    · intro fuel vec hf
      obtain ⟨k, rfl⟩ : ∃ k, fuel = k + 1 := ⟨fuel - 1, by simp at hf; omega⟩
      obtain ⟨hne, hparse⟩ := short_parse (lab := []) fl h1 h2 (by omega) (.inl rfl)
      rw [List.append_nil] at hne hparse
      rw [splitFixed]
      simp only [hne, Bool.and_false, Bool.false_eq_true, if_false, hparse]
      have p1 := newCard_peek hnew '+' (by simp)
      have p2 := newCard_peek hnew ' ' (by simp)
      have p3 := newCard_peek hnew '*' (by simp)
      have p4 := newCard_peek hnew '\t' (by simp)
      simp [p1, p2, p3, p4, ← skipDollar_eq]
  | cons f fs ih =>
    intro count n first ps fl h1 h2 h3 hc hn
    simp only [List.length_cons] at hn
    have hf := h3 f (by simp)
    have h3' : ∀ g ∈ fs, Piece g := fun g hg => h3 g (by simp [hg])
    by_cases hz : (count + 1) % 9 = 0
    · obtain ⟨s1, s2, s3, s4, s5⟩ := separator_facts (n := n + 1) (by omega)
      have hp8 : ps.length = 8 := by omega
      have hsep := fillAfter_piece s1 s2 s3
      obtain ⟨tail, more, e, hd, hr⟩ := ih (count + 2) (n + 1) (fillAfter 8 (separator (n + 1))) [f] false
        hsep (by simpa using hf) h3' (by simp; omega) (by simp; omega)
      have e0 : (emitLoop 8 9 (f :: fs) count n (first ++ ps.flatten)).1 =
          (first ++ (ps.flatten ++ separator (n + 1))) ::
            (fillAfter 8 (separator (n + 1)) ++ tail) :: more := by
        rw [emitLoop, if_pos hz, ← List.append_assoc]
        simp only [List.flatten_cons, List.flatten_nil, List.append_nil] at e
        simp only [e]
      refine ⟨_, _, e0, ?_, ?_⟩
      · simp only [List.mem_append, List.mem_flatten, not_or]
        exact ⟨h1.noDollar, fun ⟨p, hp, h⟩ => (h2 p hp).noDollar h, s3⟩
      · intro fuel vec hf
        obtain ⟨k, rfl⟩ : ∃ k, fuel = k + 1 := ⟨fuel - 1, by simp at hf; omega⟩
        obtain ⟨hne, hparse⟩ := short_parse (lab := separator (n + 1)) fl h1 h2 (by omega)
          (.inr ⟨s1, s4, s2, hp8⟩)
        rw [← List.append_assoc, splitFixed]
        have hse : (separator (n + 1)).isEmpty = false := rfl
        simp only [hne, Bool.and_false, Bool.false_eq_true, if_false, hparse, hse, Bool.not_false, Bool.true_or,
          if_true, List.cons_append, skipDollar_cons hd, readLine_false hd]
        rw [hr k _ (by simp at hf; omega)]
        simp
    · have e0 : emitLoop 8 9 (f :: fs) count n (first ++ ps.flatten) =
          emitLoop 8 9 fs (count + 1) n (first ++ (ps ++ [f]).flatten) := by
        rw [emitLoop, if_neg hz]
        simp
      rw [e0]
      have hlen : (ps ++ [f]).length = (count + 1) % 9 := by simp; omega
      obtain ⟨tail, more, e, hd, hr⟩ := ih (count + 1) n first (ps ++ [f]) fl h1
        (by
          intro p hp
          rcases List.mem_append.1 hp with hp | hp
          · exact h2 p hp
          · rw [List.mem_singleton.1 hp]; exact hf)
        h3' hlen (by simp; omega)
      refine ⟨tail, more, e, hd, ?_⟩
      intro fuel vec hf
      rw [hr fuel vec hf]
      simp

end NastranWrite
end Vega
