import Verif.Nastran.Lines
import Mathlib.Data.List.Basic

/-! # C21, C24: tabulations and the format of a line -/
namespace Vega

/-! ## Specification -/
namespace LineSpec
open Nastran

/-- Columns (from 0) at which a field starts: every 8 columns in the short format, one field of 8 and
then fields of 16 in the long format. -/
def Stop (longFormat : Bool) (c : Nat) : Prop :=
  if longFormat then c = 0 ∨ (8 ≤ c ∧ (c - 8) % 16 = 0) else c % 8 = 0

/-- `Expands stop col l m`: `m` is `l`, written from column `col` on, with each tabulation
replaced by blanks up to the next stop strictly after it. -/
inductive Expands (stop : Nat → Prop) : Nat → Line → Line → Prop where
  | nil (col : Nat) : Expands stop col [] []
  | char {col : Nat} {c : Char} {l m : Line} : c ≠ '\t' → Expands stop (col + 1) l m →
      Expands stop col (c :: l) (c :: m)
  | tab {col n : Nat} {l m : Line} : 0 < n → stop (col + n) →
      (∀ k, 0 < k → k < n → ¬ stop (col + k)) → Expands stop (col + n) l m →
      Expands stop col ('\t' :: l) (List.replicate n ' ' ++ m)

end LineSpec

namespace Nastran
open LineSpec

/-! ## Helper lemmas -/

theorem numSpaces_pos (lf : Bool) (p : Nat) : 0 < numSpacesNeeded lf p := by
  unfold numSpacesNeeded
  split <;> omega

theorem numSpaces_stop (lf : Bool) (p : Nat) : Stop lf (p + numSpacesNeeded lf p) := by
  unfold numSpacesNeeded Stop
  cases lf
  · simp; omega
  · by_cases h : p > 7
    · simp [h]; omega
    · simp [h]; omega

theorem numSpaces_first (lf : Bool) (p k : Nat) (h0 : 0 < k) (hk : k < numSpacesNeeded lf p) :
    ¬ Stop lf (p + k) := by
  unfold numSpacesNeeded at hk
  unfold Stop
  cases lf
  · simp at *; omega
  · by_cases h : p > 7
    · simp [h] at hk ⊢; omega
    · have h' : p + k < 8 := by simp [h] at hk; omega
      simp; omega

theorem dropWhile_noTab {pre l : Line} (h : '\t' ∉ pre) :
    (pre ++ l).dropWhile (· ≠ '\t') = l.dropWhile (· ≠ '\t') := by
  induction pre with
  | nil => rfl
  | cons c cs ih =>
    simp only [List.mem_cons, not_or] at h
    have hc : c ≠ '\t' := fun e => h.1 e.symm
    simp [hc] at *
    exact ih h.2

theorem takeWhile_noTab {pre l : Line} (h : '\t' ∉ pre) :
    (pre ++ '\t' :: l).takeWhile (· ≠ '\t') = pre := by
  induction pre with
  | nil => simp
  | cons c cs ih =>
    simp only [List.mem_cons, not_or] at h
    have hc : c ≠ '\t' := fun e => h.1 e.symm
    simp [hc] at *
    exact ih h.2

theorem loop_noTab (lf : Bool) (fuel : Nat) {l : Line} (h : '\t' ∉ l) :
    replaceTabsLoop lf fuel l = l := by
  cases fuel with
  | zero => rfl
  | succ n =>
    have := dropWhile_noTab (l := []) h
    simp only [List.append_nil, List.dropWhile_nil] at this
    rw [replaceTabsLoop, this]

theorem replaceTabs_noTab (lf : Bool) {l : Line} (h : '\t' ∉ l) : replaceTabs lf l = l :=
  loop_noTab lf _ h

theorem loop_expands (lf : Bool) (r : Line) : ∀ (pre : Line) (fuel : Nat), '\t' ∉ pre →
    tabs r ≤ fuel →
    ∃ m, replaceTabsLoop lf fuel (pre ++ r) = pre ++ m ∧ Expands (Stop lf) pre.length r m := by
  induction r with
  | nil =>
    intro pre fuel h _
    exact ⟨[], by simpa using loop_noTab lf fuel h, .nil _⟩
  | cons c r ih =>
    intro pre fuel h hf
    by_cases hc : c = '\t'
    · subst hc
      cases fuel with
      | zero => simp [tabs] at hf
      | succ n =>
        have h1 := dropWhile_noTab (l := '\t' :: r) h
        have h2 := takeWhile_noTab (l := r) h
        obtain ⟨m, hm, hE⟩ := ih (pre ++ List.replicate (numSpacesNeeded lf pre.length) ' ') n
          (by simp [h]) (by simpa [tabs] using hf)
        refine ⟨List.replicate (numSpacesNeeded lf pre.length) ' ' ++ m, ?_, ?_⟩
        · rw [replaceTabsLoop, h1, h2]
          simpa using hm
        · refine .tab (numSpaces_pos _ _) (numSpaces_stop _ _) (numSpaces_first _ _) ?_
          simpa using hE
    · obtain ⟨m, hm, hE⟩ := ih (pre ++ [c]) fuel (by simp [h, Ne.symm hc])
        (by simpa [tabs, List.count_cons, hc] using hf)
      refine ⟨c :: m, by simpa using hm, .char hc (by simpa using hE)⟩

theorem expands_unique {stop : Nat → Prop} {col : Nat} {l m : Line} (h : Expands stop col l m) :
    ∀ {m'}, Expands stop col l m' → m = m' := by
  induction h with
  | nil => intro m' h'; cases h'; rfl
  | char hc _ ih =>
    intro m' h'
    cases h' with
    | char _ h' => rw [ih h']
    | tab => exact absurd rfl hc
  | @tab col n l m h0 hs hk _ ih =>
    intro m' h'
    cases h' with
    | char hc => exact absurd rfl hc
    | @tab _ n' _ m'' h0' hs' hk' h' =>
      have : n = n' := by
        rcases Nat.lt_trichotomy n n' with hlt | heq | hgt
        · exact absurd hs (hk' n h0 hlt)
        · exact heq
        · exact absurd hs' (hk n' h0' hgt)
      subst this
      rw [ih h']

theorem expands_noTab {stop : Nat → Prop} {col : Nat} {l m : Line} (h : Expands stop col l m) :
    '\t' ∉ m := by
  induction h with
  | nil => simp
  | char hc _ ih => simp [ih, Ne.symm hc]
  | tab _ _ _ _ ih => simp [ih]

/-! ## C21 -/

/-- **C21.** Expanding the tabulations of a line gives exactly the line in which every
tabulation moves to the next field boundary of its format. -/
theorem C21_expand (longFormat : Bool) (line : Line) :
    Expands (Stop longFormat) 0 line (replaceTabs longFormat line) := by
  obtain ⟨m, hm, hE⟩ := loop_expands longFormat line [] (tabs line) (by simp) (Nat.le_refl _)
  have : replaceTabs longFormat line = m := by simpa [replaceTabs] using hm
  rw [this]
  exact hE

/-- **C21.** That expansion is the only one, and holds no tabulation. -/
theorem C21_unique (longFormat : Bool) (line m : Line) (h : Expands (Stop longFormat) 0 line m) :
    m = replaceTabs longFormat line ∧ '\t' ∉ replaceTabs longFormat line :=
  ⟨expands_unique h (C21_expand _ _), expands_noTab (C21_expand _ _)⟩

/-- **C21.** Lines without tabulations are left alone, so expanding twice is expanding once. -/
theorem C21_idempotent (longFormat longFormat' : Bool) (line : Line) :
    replaceTabs longFormat' (replaceTabs longFormat line) = replaceTabs longFormat line :=
  replaceTabs_noTab _ (expands_noTab (C21_expand _ _))

example : replaceTabs false "GRID\t1\t\t2".toList = "GRID    1               2".toList := by decide
example : replaceTabs true "GRID*\t1\t2".toList = "GRID*   1               2".toList := by decide

/-! ## C24 -/

/-- **C24.** Free format exactly when a comma lies in the first eight columns, otherwise
long exactly when an asterisk does. -/
theorem C24_format (line : Line) :
    (getLineType line = .free ↔ ∃ k, ∃ h : k < line.length, k < 8 ∧ line[k] = ',') ∧
    (getLineType line = .long ↔ (∃ k, ∃ h : k < line.length, k < 8 ∧ line[k] = '*') ∧
      ¬ ∃ k, ∃ h : k < line.length, k < 8 ∧ line[k] = ',') ∧
    (getLineType line = .short ↔ ∀ k, (h : k < line.length) → k < 8 →
      line[k] ≠ ',' ∧ line[k] ≠ '*') := by
  have key : ∀ c : Char, (line.take 8).contains c = true ↔
      ∃ k, ∃ h : k < line.length, k < 8 ∧ line[k] = c := by
    intro c
    rw [List.contains_iff_mem, List.mem_iff_getElem]
    constructor
    · rintro ⟨k, hk, e⟩
      rw [List.length_take] at hk
      refine ⟨k, by omega, by omega, ?_⟩
      simpa using e
    · rintro ⟨k, hk, h8, e⟩
      exact ⟨k, by rw [List.length_take]; omega, by simpa using e⟩
  have k1 := key ','
  have k2 := key '*'
  unfold getLineType
  dsimp only
  generalize (line.take 8).contains ',' = b1 at *
  generalize (line.take 8).contains '*' = b2 at *
  have k3 : (∀ k, (h : k < line.length) → k < 8 → line[k] ≠ ',' ∧ line[k] ≠ '*') ↔
      b1 = false ∧ b2 = false := by
    constructor
    · intro h
      constructor
      · by_contra hb
        obtain ⟨k, hk, h8, e⟩ := k1.1 (by simpa using hb)
        exact (h k hk h8).1 e
      · by_contra hb
        obtain ⟨k, hk, h8, e⟩ := k2.1 (by simpa using hb)
        exact (h k hk h8).2 e
    · rintro ⟨rfl, rfl⟩ k hk h8
      exact ⟨fun e => by simpa using k1.2 ⟨k, hk, h8, e⟩, fun e => by simpa using k2.2 ⟨k, hk, h8, e⟩⟩
  rw [← k1, ← k2, k3]
  cases b1 <;> cases b2 <;> simp

example : getLineType "GRID*   1".toList = .long := by decide
example : getLineType "GRID,1,*".toList = .free := by decide
example : getLineType "GRID    1,2*".toList = .short := by decide

end Nastran
end Vega
