import Verif.NastranWrite.Connection
import Verif.NastranWrite.RigidProps

/-! # C163: rigid connections are read with all their nodes, or refused -/
namespace Vega.ConnectionSpec
open Nastran NastranWrite FieldSpec

/-! ## Specification -/

/-- The texts in the fields that are not blank. -/
def filled (fs : List Line) : List Line := (fs.map trim).filter fun t => !t.isEmpty

/-- The texts are these integers. -/
def Ints : List Line → List Int → Prop := List.Forall₂ fun t n => parseInt t = some n

/-- The text is a real. -/
def IsReal (t : Line) : Prop := ∃ x, lexicalDouble (normReal t) = some x

/-- The texts are groups of a weight, a code of degrees of freedom and nodes; the nodes, with the degrees of freedom and the weight of
their groups. -/
inductive Groups : List Line → List (Int × Dofs × Dbl) → Prop
  | nil : Groups [] []
  | cons {w k : Line} {ts us : List Line} {x : Dbl} {code : Int} {dofs : Dofs} {ns : List Int} {l : List (Int × Dofs × Dbl)} :
      lexicalDouble (normReal w) = some x → parseInt k = some code → Dofs.nastranCodeToDOFS code = .ok dofs → Ints ts ns →
      Groups us l → Groups (w :: k :: (ts ++ us)) (ns.map (fun n => (n, dofs, x)) ++ l)

/-! ## Lemmas -/

theorem filled_cons (f : Line) (fs : List Line) :
    filled (f :: fs) = if (trim f).isEmpty then filled fs else trim f :: filled fs := by
  unfold filled
  rw [List.map_cons, List.filter_cons]
  cases (trim f).isEmpty <;> rfl

theorem filled_blank {f : Line} (h : (trim f).isEmpty = true) (fs : List Line) : filled (f :: fs) = filled fs := by
  rw [filled_cons, if_pos h]

theorem filled_some {f : Line} (h : (trim f).isEmpty = false) (fs : List Line) : filled (f :: fs) = trim f :: filled fs := by
  rw [filled_cons, if_neg (by simp [h])]

/-- An integer that is required was in the next field. -/
theorem nextInt_took {pre rest : List Line} {n : Int} {c : Cursor} (h : nextInt none (after pre rest) = .ok (n, c)) :
    ∃ t r, rest = t :: r ∧ c = after (pre ++ [t]) r ∧ (trim t).isEmpty = false ∧ parseInt (trim t) = some n := by
  unfold nextInt at h
  cases rest with
  | nil =>
    have e : nextSymbolString (after pre []) = ([], { after pre [] with sym := .keyword }) := by
      unfold nextSymbolString after
      simp
    rw [e] at h
    simp [trim, trimRight] at h
  | cons t r =>
    rw [next_after] at h
    simp only [trim_trimRight] at h
    split at h
    · cases h
    · rename_i hne
      cases e : parseInt (trim t) with
      | none => rw [e] at h; cases h
      | some m =>
        rw [e] at h
        cases h
        exact ⟨t, r, rfl, rfl, by simpa using hne, e⟩

/-- The nodes that the loop read; it stopped where there is no integer. -/
theorem slaves_took : ∀ (fuel : Nat) (pre rest : List Line) (ns : List Int) (c : Cursor),
    slavesLoop fuel (after pre rest) = .ok (ns, c) →
    ∃ pre' rest' ts, c = after pre' rest' ∧ filled rest = ts ++ filled rest' ∧ Ints ts ns ∧
      ∀ t ∈ rest'.head?, (trim t).isEmpty = true ∨ (trim t).all intChar = false
  | 0, _, _, _, _, h => by cases h
  | fuel + 1, pre, rest, ns, c, h => by
    unfold slavesLoop at h
    cases rest with
    | nil =>
      rw [isNextInt_end] at h
      simp only [Outcome.bind_ok, Bool.false_eq_true, if_false] at h
      cases h
      exact ⟨pre, [], [], rfl, rfl, .nil, by simp⟩
    | cons t r =>
      rw [isNextInt_after] at h
      simp only [Outcome.bind_ok] at h
      split at h
      · rename_i hb
        cases e : nextInt none (after pre (t :: r)) with
        | throw => rw [e] at h; cases h
        | ub => rw [e] at h; cases h
        | diverges => rw [e] at h; cases h
        | ok a =>
          obtain ⟨n, c1⟩ := a
          obtain ⟨t', r', e1, e2, e3, e4⟩ := nextInt_took e
          cases e1
          rw [e] at h
          simp only [Outcome.bind_ok] at h
          subst e2
          cases e5 : slavesLoop fuel (after (pre ++ [t]) r) with
          | throw => rw [e5] at h; cases h
          | ub => rw [e5] at h; cases h
          | diverges => rw [e5] at h; cases h
          | ok a =>
            obtain ⟨ms, c2⟩ := a
            rw [e5] at h
            simp only [Outcome.bind_ok] at h
            cases h
            obtain ⟨p', r'', ts, a1, a2, a3, a4⟩ := slaves_took fuel _ _ _ _ e5
            refine ⟨p', r'', trim t :: ts, a1, ?_, .cons e4 a3, a4⟩
            rw [filled_some e3, a2]
            rfl
      · rename_i hb
        cases h
        refine ⟨pre, t :: r, [], rfl, rfl, .nil, ?_⟩
        intro u hu
        cases hu
        cases hq : (trim t).isEmpty
        · right
          simpa [hq] using hb
        · exact .inl rfl

/-- Nothing is left over. -/
theorem nothing_left {pre rest : List Line} (h : isEmptyUntilNextKeyword (after pre rest) = true) : filled rest = [] := by
  unfold filled
  rw [List.filter_eq_nil_iff]
  intro t ht
  obtain ⟨f, hf, rfl⟩ := List.mem_map.mp ht
  cases e : (trim f).isEmpty with
  | true => simp
  | false => rw [isEmpty_after_false hf e] at h; cases h

/-- What `bind` gives a value. -/
theorem bind_ok_inv {α β : Type} {x : Outcome α} {f : α → Outcome β} {b : β} (h : (x >>= f) = .ok b) :
    ∃ a, x = .ok a ∧ f a = .ok b := by
  cases x with
  | ok a => exact ⟨a, rfl, h⟩
  | throw => cases h
  | ub => cases h
  | diverges => cases h

theorem isNextEmpty_after (pre : List Line) (f : Line) (rest : List Line) :
    isNextEmpty 1 (after pre (f :: rest)) = .ok (trim f).isEmpty := by
  simp only [isNextEmpty, isNextEmptyLoop, sym_after_cons, ne_eq, not_true_eq_false, if_false, fieldAt_after, Outcome.bind_ok,
    Bool.and_true]

/-! ## Properties -/

/-- **C163.** A rigid body `CRIGD1` that is accepted in strict mode has the number, the master and the slaves of the card: all the
fields that are not blank are integers, and they are these, in this order. -/
theorem C163_crigd1 (fs : List Line) (r : LinkRead) (h : readBulk parseCRIGD1 ("CRIGD1".toList :: fs) = .ok r) :
    r.dofs = Dofs.ALL_DOFS ∧ ∃ m, r.master = some m ∧ Ints (filled fs) (r.id :: m :: r.slaves) := by
  unfold readBulk at h
  rw [keyword_read (by decide) (by decide)] at h
  simp only [Outcome.bind_ok] at h
  obtain ⟨⟨r', c⟩, h1, h2⟩ := bind_ok_inv h
  simp only at h2
  split at h2
  · rename_i hempty
    cases h2
    unfold parseCRIGD1 at h1
    obtain ⟨⟨id, c1⟩, k1, h1⟩ := bind_ok_inv h1
    obtain ⟨t0, r0, rfl, rfl, e0, p0⟩ := nextInt_took k1
    simp only at h1
    obtain ⟨c2, k2, h1⟩ := bind_ok_inv h1
    unfold skipBlank at k2
    obtain ⟨b, k2, k3⟩ := bind_ok_inv k2
    have key : ∃ pre r1, c2 = after pre r1 ∧ filled r0 = filled r1 := by
      cases r0 with
      | nil =>
        have : b = false := by
          have e : isNextEmpty 1 (after (["CRIGD1".toList] ++ [t0]) []) = .ok false := rfl
          rw [e] at k2
          cases k2
          rfl
        subst this
        simp only [Bool.false_eq_true, if_false] at k3
        cases k3
        exact ⟨_, _, rfl, rfl⟩
      | cons f r1 =>
        rw [isNextEmpty_after] at k2
        cases hb : (trim f).isEmpty with
        | true =>
          rw [hb] at k2
          cases k2
          simp only [if_true] at k3
          rw [skip_after] at k3
          cases k3
          exact ⟨_, r1, rfl, filled_blank hb r1⟩
        | false =>
          rw [hb] at k2
          cases k2
          simp only [Bool.false_eq_true, if_false] at k3
          cases k3
          exact ⟨_, _, rfl, rfl⟩
    obtain ⟨pre, r1, rfl, hr1⟩ := key
    obtain ⟨⟨m, c3⟩, k4, h1⟩ := bind_ok_inv h1
    obtain ⟨t1, r2, rfl, rfl, e1, p1⟩ := nextInt_took k4
    simp only at h1
    obtain ⟨⟨ns, c4⟩, k5, h1⟩ := bind_ok_inv h1
    obtain ⟨pre', rest', ts, rfl, a2, a3, -⟩ := slaves_took _ _ _ _ _ k5
    simp only at h1
    cases h1
    refine ⟨rfl, m, rfl, ?_⟩
    rw [filled_some e0, hr1, filled_some e1, a2, nothing_left hempty, List.append_nil]
    exact .cons p0 (.cons p1 a3)
  · cases h2

/-- **C163.** The same for `RBE2`: the number, the master, the code of the degrees of freedom and the slaves; at most one more field,
a real, is dismissed. -/
theorem C163_rbe2 (fs : List Line) (r : LinkRead) (h : readBulk parseRBE2 ("RBE2".toList :: fs) = .ok r) :
    ∃ m code ts last, r.master = some m ∧ Dofs.nastranCodeToDOFS code = .ok r.dofs ∧ filled fs = ts ++ last ∧
      Ints ts (r.id :: m :: code :: r.slaves) ∧ last.length ≤ 1 ∧ ∀ t ∈ last, IsReal t ∧ t.all intChar = false := by
  unfold readBulk at h
  rw [keyword_read (by decide) (by decide)] at h
  simp only [Outcome.bind_ok] at h
  obtain ⟨⟨r', c⟩, h1, h2⟩ := bind_ok_inv h
  simp only at h2
  split at h2
  · rename_i hempty
    cases h2
    unfold parseRBE2 at h1
    obtain ⟨⟨id, c1⟩, k1, h1⟩ := bind_ok_inv h1
    obtain ⟨t0, r0, rfl, rfl, e0, p0⟩ := nextInt_took k1
    simp only at h1
    obtain ⟨⟨m, c3⟩, k4, h1⟩ := bind_ok_inv h1
    obtain ⟨t1, r2, rfl, rfl, e1, p1⟩ := nextInt_took k4
    simp only at h1
    obtain ⟨⟨code, c5⟩, k6, h1⟩ := bind_ok_inv h1
    obtain ⟨t2, r3, rfl, rfl, e2, p2⟩ := nextInt_took k6
    simp only at h1
    obtain ⟨dofs, k7, h1⟩ := bind_ok_inv h1
    obtain ⟨⟨ns, c4⟩, k5, h1⟩ := bind_ok_inv h1
    obtain ⟨pre', rest', ts, rfl, a2, a3, a4⟩ := slaves_took _ _ _ _ _ k5
    simp only at h1
    obtain ⟨⟨x, c6⟩, k8, h1⟩ := bind_ok_inv h1
    simp only at h1
    cases h1
    have hfs : filled (t0 :: t1 :: t2 :: r3) = (trim t0 :: trim t1 :: trim t2 :: ts) ++ filled rest' := by
      rw [filled_some e0, filled_some e1, filled_some e2, a2]
      rfl
    refine ⟨m, code, trim t0 :: trim t1 :: trim t2 :: ts, filled rest', rfl, k7, hfs, .cons p0 (.cons p1 (.cons p2 a3)), ?_⟩
    cases rest' with
    | nil => simp [filled]
    | cons f r4 =>
      rw [nextDouble_text] at k8
      obtain ⟨y, k9, k10⟩ := bind_ok_inv k8
      cases k10
      have hr : filled r4 = [] := nothing_left hempty
      cases hb : (trim f).isEmpty with
      | true =>
        rw [filled_blank hb, hr]
        simp
      | false =>
        rw [filled_some hb, hr]
        refine ⟨by simp, fun t ht => ?_⟩
        rw [List.mem_singleton] at ht
        subst ht
        refine ⟨?_, ?_⟩
        · unfold textReal nextDouble at k9
          rw [next_after] at k9
          simp only [trim_trimRight, hb, Bool.false_eq_true, if_false] at k9
          cases e : lexicalDouble (normReal (trim f)) with
          | none => rw [e] at k9; cases k9
          | some z => exact ⟨z, e⟩
        · rcases a4 f (by simp) with k | k
          · rw [hb] at k; cases k
          · exact k
  · cases h2

/-- A real that is required was in the next field. -/
theorem nextDouble_took {pre rest : List Line} {x : Dbl} {c : Cursor} (h : nextDouble none (after pre rest) = .ok (x, c)) :
    ∃ t r, rest = t :: r ∧ c = after (pre ++ [t]) r ∧ (trim t).isEmpty = false ∧ lexicalDouble (normReal (trim t)) = some x := by
  unfold nextDouble at h
  cases rest with
  | nil =>
    have e : nextSymbolString (after pre []) = ([], { after pre [] with sym := .keyword }) := by
      unfold nextSymbolString after
      simp
    rw [e] at h
    simp [trim, trimRight] at h
  | cons t r =>
    rw [next_after] at h
    simp only [trim_trimRight] at h
    split at h
    · cases h
    · rename_i hne
      cases e : lexicalDouble (normReal (trim t)) with
      | none => rw [e] at h; cases h
      | some m =>
        rw [e] at h
        cases h
        exact ⟨t, r, rfl, rfl, by simpa using hne, e⟩

/-- The groups of a card that has nothing left over. -/
theorem groups_took : ∀ (fuel : Nat) (pre rest : List Line) (l : List (Int × Dofs × Dbl)) (c : Cursor),
    rbe3Loop fuel (after pre rest) = .ok (l, c) → isEmptyUntilNextKeyword c = true → Groups (filled rest) l
  | 0, _, _, _, _, h, _ => by cases h
  | fuel + 1, pre, rest, l, c, h, hempty => by
    unfold rbe3Loop at h
    obtain ⟨b, k0, h⟩ := bind_ok_inv h
    split at h
    · obtain ⟨⟨x, c1⟩, k1, h⟩ := bind_ok_inv h
      obtain ⟨t0, r0, rfl, rfl, e0, p0⟩ := nextDouble_took k1
      simp only at h
      obtain ⟨⟨code, c2⟩, k2, h⟩ := bind_ok_inv h
      obtain ⟨t1, r1, rfl, rfl, e1, p1⟩ := nextInt_took k2
      simp only at h
      obtain ⟨dofs, k3, h⟩ := bind_ok_inv h
      obtain ⟨⟨ns, c4⟩, k4, h⟩ := bind_ok_inv h
      obtain ⟨pre', rest', ts, rfl, a2, a3, -⟩ := slaves_took _ _ _ _ _ k4
      simp only at h
      obtain ⟨⟨l', c5⟩, k5, h⟩ := bind_ok_inv h
      simp only at h
      cases h
      rw [filled_some e0, filled_some e1, a2]
      exact .cons p0 p1 k3 a3 (groups_took fuel _ _ _ _ k5 hempty)
    · cases h
      rw [nothing_left hempty]
      exact .nil

/-- **C163.** The same for `RBE3`, whose third field is not read: the number, the master, the code of its degrees of freedom, and groups
of a weight, a code and nodes. -/
theorem C163_rbe3 (f0 f1 : Line) (fs : List Line) (r : MeanRead)
    (h : readBulk parseRBE3 ("RBE3".toList :: f0 :: f1 :: fs) = .ok r) :
    parseInt (trim f0) = some r.id ∧ ∃ t0 t1 code us, filled fs = t0 :: t1 :: us ∧ parseInt t0 = some r.master ∧
      parseInt t1 = some code ∧ Dofs.nastranCodeToDOFS code = .ok r.dofs ∧ Groups us r.slaves := by
  unfold readBulk at h
  rw [keyword_read (by decide) (by decide)] at h
  simp only [Outcome.bind_ok] at h
  obtain ⟨⟨r', c⟩, h1, h2⟩ := bind_ok_inv h
  simp only at h2
  split at h2
  · rename_i hempty
    cases h2
    unfold parseRBE3 at h1
    obtain ⟨⟨id, c1⟩, k1, h1⟩ := bind_ok_inv h1
    obtain ⟨t0, r0, e, rfl, e0, p0⟩ := nextInt_took k1
    cases e
    simp only [skip_after, Outcome.bind_ok, List.drop_succ_cons, List.drop_zero] at h1
    obtain ⟨⟨m, c3⟩, k4, h1⟩ := bind_ok_inv h1
    obtain ⟨t1, r2, rfl, rfl, e1, p1⟩ := nextInt_took k4
    simp only at h1
    obtain ⟨⟨code, c5⟩, k6, h1⟩ := bind_ok_inv h1
    obtain ⟨t2, r3, rfl, rfl, e2, p2⟩ := nextInt_took k6
    simp only at h1
    obtain ⟨dofs, k7, h1⟩ := bind_ok_inv h1
    obtain ⟨⟨l, c6⟩, k8, h1⟩ := bind_ok_inv h1
    simp only at h1
    cases h1
    refine ⟨p0, trim t1, trim t2, code, filled r3, by rw [filled_some e1, filled_some e2], p1, p2, k7, ?_⟩
    exact groups_took _ _ _ _ _ k8 hempty
  · cases h2

/-- Blank fields at the end change nothing. -/
theorem left_blank {pre rest : List Line} (h : ∀ f ∈ rest, (trim f).isEmpty = true) :
    isEmptyUntilNextKeyword (after pre rest) = true := by
  unfold isEmptyUntilNextKeyword
  split
  · rfl
  · split
    · rfl
    · have : (after pre rest).fields.drop (after pre rest).pos = rest := by simp [after]
      rw [this, List.all_eq_true]
      exact h

theorem loop_blank {rest : List Line} (h : ∀ f ∈ rest, (trim f).isEmpty = true) (pre : List Line) :
    isNextInt (after pre rest) = .ok false := by
  cases rest with
  | nil => exact isNextInt_end pre
  | cons f r =>
    rw [isNextInt_after, h f (by simp)]
    rfl

/-- **C163.** Such a card is accepted: a number, a blank field or none, the master, any number of slaves, in decimal notation, and blank
fields. -/
theorem C163_read (id m : Int) (ns : List Int) (blank : List Line) (rest : List Line) (hb : blank = [] ∨ blank = [[]])
    (h0 : CellSpec.Number id) (h1 : CellSpec.Number m) (hn : ∀ n ∈ ns, CellSpec.Number n)
    (hrest : ∀ f ∈ rest, (trim f).isEmpty = true) :
    readBulk parseCRIGD1 ("CRIGD1".toList :: decimal id :: (blank ++ decimal m :: (ns.map decimal ++ rest))) =
      .ok ⟨id, some m, Dofs.ALL_DOFS, ns⟩ := by
  have hs : ∀ l : List Int, List.Forall₂ WriteSpec.Says (l.map Arg.int) (l.map decimal) := by
    intro l
    induction l with
    | nil => exact .nil
    | cons a l ih => exact .cons rfl ih
  have hne : (trim (decimal m)).isEmpty = false := says_int_ne (n := m) rfl
  unfold readBulk
  rw [keyword_read (by decide) (by decide)]
  simp only [Outcome.bind_ok, parseCRIGD1, skipBlank]
  rw [says_int_read (n := id) rfl h0]
  simp only [Outcome.bind_ok]
  rcases hb with rfl | rfl
  · have hl := slavesLoop_read hn (hs ns) rest (loop_blank hrest)
      ((after (["CRIGD1".toList] ++ [decimal id] ++ [decimal m]) (ns.map decimal ++ rest)).fields.length + 1)
      (["CRIGD1".toList] ++ [decimal id] ++ [decimal m]) (by rw [after_length]; simp; omega)
    simp only [List.nil_append, isNextEmpty_after, hne, Outcome.bind_ok, Bool.false_eq_true, if_false]
    rw [says_int_read (n := m) rfl h1]
    simp only [Outcome.bind_ok, hl, left_blank hrest, if_true]
  · have hl := slavesLoop_read hn (hs ns) rest (loop_blank hrest)
      ((after (["CRIGD1".toList] ++ [decimal id] ++ [[]] ++ [decimal m]) (ns.map decimal ++ rest)).fields.length + 1)
      (["CRIGD1".toList] ++ [decimal id] ++ [[]] ++ [decimal m]) (by rw [after_length]; simp; omega)
    have hz : (trim ([] : Line)).isEmpty = true := by decide
    simp only [List.cons_append, List.nil_append, isNextEmpty_after, hz, Outcome.bind_ok, if_true, skip_after, List.take_succ_cons,
      List.take_zero, List.drop_succ_cons, List.drop_zero]
    simp only [List.cons_append, List.nil_append] at hl
    rw [says_int_read (n := m) rfl h1]
    simp only [List.cons_append, List.nil_append, Outcome.bind_ok, hl, left_blank hrest, if_true]

/-- A range of slaves, which the manual of this version of Nastran has (as generally known), is refused. -/
theorem C163_range (fs : List Line) (h : "THRU".toList ∈ filled fs) (r : LinkRead) :
    readBulk parseCRIGD1 ("CRIGD1".toList :: fs) ≠ .ok r := by
  intro k
  obtain ⟨-, m, -, hi⟩ := C163_crigd1 fs r k
  obtain ⟨i, hlt, e⟩ := List.getElem_of_mem h
  have := (List.forall₂_iff_get.mp hi).2 i hlt (by rw [← hi.length_eq]; exact hlt)
  rw [List.get_eq_getElem, e] at this
  exact absurd this (by simp [parseInt, digits?, digit?])

example : readBulk parseCRIGD1 (["CRIGD1", "1", "", "81", "5001", "5002", "", ""].map String.toList) =
      .ok ⟨1, some 81, Dofs.ALL_DOFS, [5001, 5002]⟩ ∧
    readBulk parseCRIGD1 (["CRIGD1", "1", "81", "5001"].map String.toList) = .ok ⟨1, some 81, Dofs.ALL_DOFS, [5001]⟩ ∧
    readBulk parseCRIGD1 (["CRIGD1", "1", "", "81", "5001", "", "5002"].map String.toList) = .throw ∧
    readBulk parseRBE2 (["RBE2", "7", "81", "123", "5001", " 5002", "1.e-5"].map String.toList) =
      .ok ⟨7, some 81, ⟨7⟩, [5001, 5002]⟩ ∧
    readBulk parseRBE3 (["RBE3", "7", "", "81", "123", "1.0", "12", "5", "6", "0.5", "3", "8", ""].map String.toList) =
      .ok ⟨7, 81, ⟨7⟩, [(5, ⟨3⟩, 1), (6, ⟨3⟩, 1), (8, ⟨4⟩, 1/2)]⟩ := by decide +kernel

/-- Outside strict mode the card of a range is reported, but the nodes before the range stay connected: `model.add` comes first
(NastranParser.cpp 1333, 558-560). -/
theorem C163_kept : ∃ c, parseCRIGD1 (after ["CRIGD1".toList] (["1", "", "81", "5001", "THRU", "5009"].map String.toList)) =
    .ok (⟨1, some 81, Dofs.ALL_DOFS, [5001]⟩, c) ∧ isEmptyUntilNextKeyword c = false := by
  refine ⟨_, rfl, by decide +kernel⟩

end Vega.ConnectionSpec
