import Verif.Dof.Lemmas
import Mathlib.Data.List.Induction

/-!
# Properties of DOF sets (C01, C02)

Specification: a set of degrees of freedom is a predicate on the six constants.
-/
namespace Vega.DofSpec

/-- Specification: a subset of the six degrees of freedom. -/
abbrev DofSet := Dof → Prop

/-- How a client can build a `DOFS` value: a constructor, or an operator applied to
values built before. -/
inductive Expr where
  | none
  | all
  | translations
  | rotations
  | bools (dx dy dz rx ry rz : Bool)
  | single (d : Dof)
  | plus (a b : Expr)
  | plusDof (a : Expr) (d : Dof)
  | minus (a b : Expr)
  | minusDof (a : Expr) (d : Dof)
  | inter (a b : Expr)

/-- What the program computes. -/
def Expr.run : Expr → Dofs
  | none => Dofs.NO_DOFS
  | all => Dofs.ALL_DOFS
  | translations => Dofs.TRANSLATIONS
  | rotations => Dofs.ROTATIONS
  | bools a b c d e f => Dofs.combineCodes a b c d e f
  | single d => Dofs.ofDof d
  | plus a b => a.run.union b.run
  | plusDof a d => a.run.addDof d
  | minus a b => a.run.diff b.run
  | minusDof a d => a.run.subDof d
  | inter a b => a.run.inter b.run

/-- What it means. -/
def Expr.denote : Expr → DofSet
  | none => fun _ => False
  | all => fun _ => True
  | translations => fun d => d = .DX ∨ d = .DY ∨ d = .DZ
  | rotations => fun d => d = .RX ∨ d = .RY ∨ d = .RZ
  | bools dx dy dz rx ry rz => fun d => match d with
      | .DX => dx | .DY => dy | .DZ => dz | .RX => rx | .RY => ry | .RZ => rz
  | single e => fun d => d = e
  | plus a b => fun d => a.denote d ∨ b.denote d
  | plusDof a e => fun d => a.denote d ∨ d = e
  | minus a b => fun d => a.denote d ∧ ¬ b.denote d
  | minusDof a e => fun d => a.denote d ∧ d ≠ e
  | inter a b => fun d => a.denote d ∧ b.denote d

/-- Only the six low bits are used. -/
def WF (s : Dofs) : Prop := s.dofsCode &&& 0xC0 = 0

instance (s : Dofs) : Decidable (WF s) := inferInstanceAs (Decidable (_ = _))

theorem Expr.run_wf : ∀ e : Expr, WF e.run := by
  intro e
  induction e with
  | none => decide
  | all => decide
  | translations => decide
  | rotations => decide
  | bools a b c d e f => revert a b c d e f; decide +kernel
  | single d => cases d <;> decide
  | plus a b iha ihb =>
    simp only [WF, run, Dofs.union] at *
    rw [BitVec.and_comm, BitVec.and_or_distrib_left, BitVec.and_comm, iha,
      BitVec.and_comm, ihb]; rfl
  | plusDof a d iha =>
    simp only [WF, run, Dofs.addDof] at *
    rw [BitVec.and_comm, BitVec.and_or_distrib_left, BitVec.and_comm, iha]
    cases d <;> decide
  | minus a b iha _ =>
    simp only [WF, run, Dofs.diff] at *
    rw [BitVec.and_assoc, BitVec.and_comm (~~~ _), ← BitVec.and_assoc, iha]; simp
  | minusDof a d iha =>
    simp only [WF, run, Dofs.subDof] at *
    rw [BitVec.and_assoc, BitVec.and_comm (~~~ _), ← BitVec.and_assoc, iha]; simp
  | inter a b iha _ =>
    simp only [WF, run, Dofs.inter] at *
    rw [BitVec.and_assoc, BitVec.and_comm b.run.dofsCode, ← BitVec.and_assoc, iha]; simp

/-- **C01** membership: for every expression, `contains` is membership in the set the
expression denotes. -/
theorem C01_contains_iff_mem (e : Expr) (d : Dof) :
    e.run.contains d = true ↔ e.denote d := by
  induction e with
  | none => simp [Expr.run, Expr.denote, Dofs.contains_noDofs]
  | all => cases d <;> simp [Expr.run, Expr.denote] <;> decide
  | translations => cases d <;> simp [Expr.run, Expr.denote] <;> decide
  | rotations => cases d <;> simp [Expr.run, Expr.denote] <;> decide
  | bools a b c x e f =>
    have h : ∀ a b c x e f : Bool, ∀ d : Dof, (Dofs.combineCodes a b c x e f).contains d =
      match d with
      | .DX => a | .DY => b | .DZ => c | .RX => x | .RY => e | .RZ => f := by decide +kernel
    rw [Expr.run, h]
    cases d <;> simp [Expr.denote]
  | single e => simp [Expr.run, Expr.denote, Dofs.contains_ofDof, eq_comm]
  | plus a b iha ihb => simp [Expr.run, Expr.denote, Dofs.contains_union, iha, ihb]
  | plusDof a e iha =>
    simp [Expr.run, Expr.denote, Dofs.addDof_eq, Dofs.contains_union, Dofs.contains_ofDof, iha,
      @eq_comm _ e d]
  | minus a b iha ihb => simp [Expr.run, Expr.denote, Dofs.contains_diff, iha, ← ihb]
  | minusDof a e iha =>
    simp [Expr.run, Expr.denote, Dofs.subDof_eq, Dofs.contains_diff, Dofs.contains_ofDof, iha,
      @eq_comm _ e d]
  | inter a b iha ihb => simp [Expr.run, Expr.denote, Dofs.contains_inter, iha, ihb]

/-- A well-formed code is determined by its members. -/
theorem wf_ext {s t : Dofs} (hs : WF s) (ht : WF t)
    (h : ∀ d, s.contains d = t.contains d) : s = t := by
  obtain ⟨s⟩ := s
  obtain ⟨t⟩ := t
  congr 1
  apply BitVec.eq_of_getLsbD_eq
  intro i hi
  have hb (x : BitVec 8) (hx : x &&& 0xC0 = 0) : x.getLsbD 6 = false ∧ x.getLsbD 7 = false := by
    have h6 := congrArg (fun y => y.getLsbD 6) hx
    have h7 := congrArg (fun y => y.getLsbD 7) hx
    simp only [BitVec.getLsbD_and] at h6 h7
    have e6 : (0xC0 : BitVec 8).getLsbD 6 = true := by decide
    have e7 : (0xC0 : BitVec 8).getLsbD 7 = true := by decide
    rw [e6] at h6; rw [e7] at h7
    exact ⟨by simpa using h6, by simpa using h7⟩
  have key : ∀ d : Dof, s.getLsbD d.position = t.getLsbD d.position := by
    intro d
    have := h d
    simpa [Dofs.contains_eq_getLsbD] using this
  have := hb s hs
  have := hb t ht
  match i, hi with
  | 0, _ => exact key .DX
  | 1, _ => exact key .DY
  | 2, _ => exact key .DZ
  | 3, _ => exact key .RX
  | 4, _ => exact key .RY
  | 5, _ => exact key .RZ
  | 6, _ => simp_all
  | 7, _ => simp_all

/-- **C01** equality of two DOFS values is equality of the sets. -/
theorem C01_eq_iff_same_set (a b : Expr) :
    a.run = b.run ↔ ∀ d, a.denote d ↔ b.denote d := by
  constructor
  · intro h d
    rw [← C01_contains_iff_mem, ← C01_contains_iff_mem, h]
  · intro h
    refine wf_ext a.run_wf b.run_wf fun d => ?_
    have := h d
    rw [← C01_contains_iff_mem, ← C01_contains_iff_mem] at this
    exact Bool.eq_iff_iff.mpr this

/-- **C01** `containsAll` is inclusion. -/
theorem C01_containsAll_iff_subset (a b : Expr) :
    a.run.containsAll b.run = true ↔ ∀ d, b.denote d → a.denote d := by
  have h : a.run.containsAll b.run = true ↔ (Expr.plus b a).run = a.run := by
    simp only [Dofs.containsAll, Expr.run, Dofs.union, beq_iff_eq]
    constructor
    · intro h; rw [h]
    · intro h; exact congrArg Dofs.dofsCode h
  rw [h, C01_eq_iff_same_set]
  constructor
  · intro h d hd; exact (h d).mp (Or.inl hd)
  · intro h d; exact ⟨fun hd => hd.elim (h d) id, Or.inr⟩

/-- **C01** `containsAnyOf` is having a common member. -/
theorem C01_containsAnyOf_iff_common (a b : Expr) :
    a.run.containsAnyOf b.run = true ↔ ∃ d, a.denote d ∧ b.denote d := by
  have h : a.run.containsAnyOf b.run = false ↔ (Expr.inter a b).run = Expr.none.run := by
    simp only [Dofs.containsAnyOf, Expr.run, Dofs.inter, Dofs.NO_DOFS, bne_eq_false_iff_eq]
    constructor
    · intro h; rw [h]
    · intro h; exact congrArg Dofs.dofsCode h
  rw [← Bool.not_eq_false, h, C01_eq_iff_same_set]
  simp only [Expr.denote, iff_false, not_and, Classical.not_forall, Classical.not_not]
  constructor
  · rintro ⟨d, ha, hb⟩; exact ⟨d, ha, hb⟩
  · rintro ⟨d, ha, hb⟩; exact ⟨d, ha, hb⟩

/-- **C01** `empty()` is emptiness. -/
theorem C01_empty_iff (a : Expr) : a.run.empty = true ↔ ∀ d, ¬ a.denote d := by
  have h : a.run.empty = true ↔ a.run = Expr.none.run := by
    simp only [Dofs.empty, Expr.run, Dofs.NO_DOFS, beq_iff_eq]
    constructor
    · intro h; exact congrArg Dofs.mk h
    · intro h; exact congrArg Dofs.dofsCode h
  rw [h, C01_eq_iff_same_set]
  simp [Expr.denote]

/-- Reading order of the six degrees of freedom. -/
def before (a b : Dof) : Prop := a.position < b.position

/-- **C01** iteration: the loop over a DOFS visits exactly the members, each once, in
the order DX, DY, DZ, RX, RY, RZ. -/
theorem C01_iteration (a : Expr) :
    (∀ d, d ∈ a.run.toList ↔ a.denote d) ∧ a.run.toList.Pairwise before := by
  rw [Dofs.toList_eq]
  constructor
  · intro d
    rw [List.mem_filter, ← C01_contains_iff_mem]
    simp [Dof.mem_all]
  · exact List.Pairwise.filter _ (by unfold before; decide)

/-- **C01** `size()` is the number of members (the length of the duplicate-free list of
members). -/
theorem C01_size (a : Expr) : a.run.size = a.run.toList.length := by
  rw [Dofs.toList_eq, Dofs.size]
  simp only [Dof.all, List.filter_cons, List.filter_nil]
  repeat' split <;> simp_all

-- A concrete expression using every operator: ({DX,RZ} + {DX,DY,DZ} - DX) & ROTATIONS + RX
example : (Expr.plusDof (.inter (.minusDof (.plus (.bools true false false false false true)
    .translations) .DX) .rotations) .RX).run.toList = [.RX, .RZ] := by
  rw [Dofs.toList_eq]; decide

/-! ## C02: Nastran component codes -/

/-- The decimal digits of a component code denote degrees of freedom 1..6. -/
def digitDof : Nat → Option Dof
  | 1 => some .DX | 2 => some .DY | 3 => some .DZ
  | 4 => some .RX | 5 => some .RY | 6 => some .RZ
  | _ => none

/-- The number written with the decimal digits `ds`, most significant first. -/
def ofDigits (ds : List Nat) : Nat := ds.foldl (fun n d => 10 * n + d) 0

theorem ofDigits_concat (ds : List Nat) (d : Nat) :
    ofDigits (ds ++ [d]) = 10 * ofDigits ds + d := by
  simp [ofDigits, List.foldl_append]

theorem ofNastranDigit_natCast (n : Nat) : Dof.ofNastranDigit (n : Int) = digitDof n := by
  unfold Dof.ofNastranDigit
  match n with
  | 0 => rfl | 1 => rfl | 2 => rfl | 3 => rfl | 4 => rfl | 5 => rfl | 6 => rfl
  | n + 7 =>
    have : digitDof (n + 7) = none := rfl
    rw [this]
    repeat' split
    all_goals first | rfl | omega

theorem digitDof_range {d : Nat} {e : Dof} (h : digitDof d = some e) : 1 ≤ d ∧ d ≤ 6 := by
  match d with
  | 0 => simp [digitDof] at h
  | 1 | 2 | 3 | 4 | 5 | 6 => omega
  | n + 7 => simp [digitDof] at h

/-- The loop reads the digits from the right and collects them. -/
theorem nastranLoop_digits (orig : Int) :
    ∀ (ds : List Nat) (acc : Dofs), (∀ d ∈ ds, ∃ e, digitDof d = some e) →
      ∃ r, Dofs.nastranLoop orig (ofDigits ds : Nat) acc = .ok r ∧ (WF acc → WF r) ∧
        ∀ e, r.contains e = (acc.contains e || ds.any (fun d => digitDof d == some e)) := by
  intro ds
  induction ds using List.reverseRecOn with
  | nil =>
    intro acc _
    refine ⟨acc, ?_, id, by simp⟩
    rw [Dofs.nastranLoop]; simp [ofDigits]
  | append_singleton ds d ih =>
    intro acc hall
    obtain ⟨e0, he0⟩ := hall d (by simp)
    have hr := digitDof_range he0
    have hd10 : d < 10 := by omega
    rw [ofDigits_concat, Dofs.nastranLoop]
    have hne : ((10 * ofDigits ds + d : Nat) : Int) ≠ 0 := by omega
    rw [dif_neg hne]
    have hmod : Int.tmod ((10 * ofDigits ds + d : Nat) : Int) 10 = (d : Int) := by
      rw [Int.tmod_eq_emod_of_nonneg (by omega)]; omega
    have hdiv : Int.tdiv ((10 * ofDigits ds + d : Nat) : Int) 10 = (ofDigits ds : Nat) := by
      rw [Int.tdiv_eq_ediv_of_nonneg (by omega)]; omega
    rw [hmod, hdiv, ofNastranDigit_natCast, he0]
    obtain ⟨r, h1, hw, h2⟩ := ih (acc.union (Dofs.ofDof e0))
      (fun x hx => hall x (by simp [hx]))
    refine ⟨r, h1, ?_, ?_⟩
    · intro hacc
      apply hw
      simp only [WF, Dofs.union, Dofs.ofDof] at *
      rw [BitVec.and_comm, BitVec.and_or_distrib_left, BitVec.and_comm, hacc]
      cases e0 <;> decide
    · intro e
      rw [h2, Dofs.contains_union, Dofs.contains_ofDof]
      simp only [List.any_append, List.any_cons, List.any_nil, Bool.or_false, he0]
      have : (decide (e0 = e)) = (some e0 == some e) := by
        rw [Bool.eq_iff_iff]; simp
      rw [this]
      generalize acc.contains e = a
      generalize (some e0 == some e) = b
      generalize (ds.any fun d => digitDof d == some e) = c
      cases a <;> cases b <;> cases c <;> rfl

/-- **C02** reading: a non-empty list of digits 1..6, in any order and with repetitions,
is read as exactly the set of degrees of freedom named by its digits. -/
theorem C02_read_digits (ds : List Nat) (hne : ds ≠ []) (hd : ∀ d ∈ ds, 1 ≤ d ∧ d ≤ 6) :
    ∃ r, Dofs.nastranCodeToDOFS (ofDigits ds : Nat) = .ok r ∧ WF r ∧
      ∀ e, r.contains e = true ↔ ∃ d ∈ ds, digitDof d = some e := by
  have hall : ∀ d ∈ ds, ∃ e, digitDof d = some e := by
    intro d hm
    have := hd d hm
    match d, this with
    | 1, _ => exact ⟨_, rfl⟩ | 2, _ => exact ⟨_, rfl⟩ | 3, _ => exact ⟨_, rfl⟩
    | 4, _ => exact ⟨_, rfl⟩ | 5, _ => exact ⟨_, rfl⟩ | 6, _ => exact ⟨_, rfl⟩
    | n + 7, h => omega
  have hpos : ofDigits ds ≠ 0 := by
    obtain ⟨d, ds', rfl⟩ : ∃ d ds', ds = ds' ++ [d] :=
      ⟨ds.getLast hne, ds.dropLast, (List.dropLast_concat_getLast hne).symm⟩
    have := hd d (by simp)
    rw [ofDigits_concat]; omega
  obtain ⟨r, h1, hw, h2⟩ := nastranLoop_digits (ofDigits ds : Nat) ds Dofs.NO_DOFS hall
  refine ⟨r, ?_, hw (by decide), ?_⟩
  · rw [Dofs.nastranCodeToDOFS]
    have : ((ofDigits ds : Nat) : Int) ≠ 0 := by omega
    simp only [this, if_false]
    exact h1
  · intro e
    rw [h2, Dofs.contains_noDofs]
    simp

example : Dofs.nastranCodeToDOFS (ofDigits [3, 1, 3] : Nat) = .ok ⟨5⟩ := by
  simp [ofDigits, Dofs.nastranCodeToDOFS, Dofs.nastranLoop, Dof.ofNastranDigit, Dofs.union,
    Dofs.NO_DOFS, Dofs.ofDof, Dof.code]

/-- The decimal digits of a natural number (least significant first). -/
def Digit (n : Nat) (d : Nat) : Prop := ∃ k, n / 10 ^ k ≠ 0 ∧ n / 10 ^ k % 10 = d

/-- What the loop does when some digit is not 1..6. -/
theorem nastranLoop_bad (orig : Int) (n : Nat) (acc : Dofs)
    (h : ∃ d, Digit n d ∧ ¬ (1 ≤ d ∧ d ≤ 6)) :
    Dofs.nastranLoop orig n acc = Dofs.rejectCode orig := by
  induction n using Nat.strongRecOn generalizing acc with
  | ind n ih =>
    obtain ⟨d, ⟨k, hk0, hk⟩, hd⟩ := h
    have hn : n ≠ 0 := by rintro rfl; simp at hk0
    rw [Dofs.nastranLoop, dif_neg (by omega)]
    have hmod : Int.tmod (n : Int) 10 = ((n % 10 : Nat) : Int) := by
      rw [Int.tmod_eq_emod_of_nonneg (by omega)]; omega
    have hdiv : Int.tdiv (n : Int) 10 = ((n / 10 : Nat) : Int) := by
      rw [Int.tdiv_eq_ediv_of_nonneg (by omega)]; omega
    rw [hmod, hdiv, ofNastranDigit_natCast]
    cases hx : digitDof (n % 10) with
    | none => rfl
    | some e =>
      have hr := digitDof_range hx
      cases k with
      | zero => simp at hk; omega
      | succ k =>
        refine ih (n / 10) (by omega) _ ⟨d, ⟨k, ?_, ?_⟩, hd⟩
        · rwa [Nat.div_div_eq_div_mul, ← Nat.pow_succ']
        · rwa [Nat.div_div_eq_div_mul, ← Nat.pow_succ']

/-- **C02** rejection: a positive code with a digit other than 1..6 never yields a set of
degrees of freedom; up to 22 it is reported by an exception. -/
theorem C02_bad_digit_rejected_partial (n : Nat) (h : ∃ d, Digit n d ∧ ¬ (1 ≤ d ∧ d ≤ 6)) :
    (∀ r, Dofs.nastranCodeToDOFS n ≠ .ok r) ∧
    (n ≤ 22 → Dofs.nastranCodeToDOFS n = .throw) := by
  have hn : (n : Int) ≠ 0 := by
    obtain ⟨d, ⟨k, hk0, _⟩, _⟩ := h
    rintro h0
    have : n = 0 := by omega
    subst this; simp at hk0
  have : Dofs.nastranCodeToDOFS n = Dofs.rejectCode n := by
    simp only [Dofs.nastranCodeToDOFS, hn, if_false]
    exact nastranLoop_bad _ _ _ h
  rw [this]
  unfold Dofs.rejectCode
  constructor
  · intro r; split <;> simp
  · intro h22
    have : (0 : Int) ≤ n ∧ (n : Int) ≤ 22 := by omega
    simp [this]

example : ∃ d, Digit 17 d ∧ ¬ (1 ≤ d ∧ d ≤ 6) := ⟨7, ⟨0, by decide⟩, by decide⟩

/-- A negative code is never read as a set of degrees of freedom. -/
theorem C02_negative_rejected_partial (n : Int) (h : n < 0) :
    ∀ r, Dofs.nastranCodeToDOFS n ≠ .ok r := by
  intro r
  have hn : n ≠ 0 := by omega
  simp only [Dofs.nastranCodeToDOFS, hn, if_false]
  rw [Dofs.nastranLoop, dif_neg hn]
  have : Dof.ofNastranDigit (Int.tmod n 10) = none := by
    have h1 : Int.tmod n 10 ≤ 0 := by
      have := Int.neg_tmod (a := n) (b := 10)
      have h2 := Int.tmod_nonneg 10 (a := -n) (by omega)
      omega
    unfold Dof.ofNastranDigit
    repeat' split
    all_goals first | rfl | omega
  rw [this]
  simp only [Dofs.rejectCode]
  split <;> simp

/-- The English property asks that every bad code be rejected. It is not: from 23 on the
message is built by reading outside a string literal. Witness: code 127. -/
theorem C02_bad_digit_clean_rejection_false :
    ¬ ∀ n : Nat, (∃ d, Digit n d ∧ ¬ (1 ≤ d ∧ d ≤ 6)) → Dofs.nastranCodeToDOFS n = .throw := by
  intro h
  have h127 := h 127 ⟨7, ⟨0, by decide⟩, by decide⟩
  simp [Dofs.nastranCodeToDOFS, Dofs.nastranLoop, Dof.ofNastranDigit, Dofs.rejectCode] at h127

/-- **C02** round trip: for every non-empty set of degrees of freedom, the written code is
read back as the same set. -/
theorem C02_round_trip (a : Expr) (h : ∃ d, a.denote d) :
    Dofs.nastranCodeToDOFS a.run.nastranCode = .ok a.run := by
  -- the written code is the number with the digits of the members in ascending order
  let dig : Dof → Nat := fun d => d.position + 1
  have hdig : ∀ d, digitDof (dig d) = some d := by intro d; cases d <;> rfl
  have hcode : ∀ (l : List Dof) (n : Nat),
      (l.foldl (fun (n : Int) d => 10 * n + d.nastranDigit) (n : Int)) =
        (((l.map dig).foldl (fun n d => 10 * n + d) n : Nat) : Int) := by
    intro l
    induction l with
    | nil => intro n; rfl
    | cons d l ih =>
      intro n
      simp only [List.foldl_cons, List.map_cons]
      have : 10 * (n : Int) + d.nastranDigit = ((10 * n + dig d : Nat) : Int) := by
        cases d <;> simp [dig, Dof.nastranDigit, Dof.position]
      rw [this, ih]
  have hc : a.run.nastranCode = ((ofDigits (a.run.toList.map dig) : Nat) : Int) := by
    have := hcode a.run.toList 0
    simpa [Dofs.nastranCode, ofDigits] using this
  obtain ⟨d0, hd0⟩ := h
  have hmem : ∀ d, d ∈ a.run.toList ↔ a.denote d := (C01_iteration a).1
  obtain ⟨r, h1, hw, h2⟩ := C02_read_digits (a.run.toList.map dig)
    (by
      have := (hmem d0).mpr hd0
      intro hnil
      rw [List.map_eq_nil_iff] at hnil
      rw [hnil] at this
      simp at this)
    (by
      intro x hx
      obtain ⟨d, _, rfl⟩ := List.mem_map.mp hx
      cases d <;> simp [dig, Dof.position])
  rw [hc, h1]
  congr 1
  refine wf_ext hw a.run_wf fun e => ?_
  rw [Bool.eq_iff_iff, h2, C01_contains_iff_mem, ← hmem]
  constructor
  · rintro ⟨x, hx, hxe⟩
    obtain ⟨d, hd, rfl⟩ := List.mem_map.mp hx
    rw [hdig] at hxe
    cases hxe
    exact hd
  · intro he
    exact ⟨dig e, List.mem_map.mpr ⟨e, he, rfl⟩, hdig e⟩

example : ∃ d, (Expr.bools true false false false false true).denote d := ⟨.DX, by simp [Expr.denote]⟩

/-- Why the round trip needs a non-empty set: the empty set is written 0, and 0 is read
as DX (scalar points). -/
theorem C02_empty_reads_as_DX :
    Dofs.nastranCodeToDOFS Dofs.NO_DOFS.nastranCode = .ok (Dofs.ofDof .DX) := by
  have : Dofs.NO_DOFS.nastranCode = 0 := by
    rw [Dofs.nastranCode, Dofs.toList_eq]; decide
  rw [this]
  simp [Dofs.nastranCodeToDOFS, Dofs.nastranLoop, Dof.ofNastranDigit, Dofs.union, Dofs.NO_DOFS,
    Dofs.ofDof, Dof.code]

end Vega.DofSpec
