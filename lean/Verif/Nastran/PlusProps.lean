import Verif.Nastran.FreeProps

/-! # C23: first values with a plus sign -/
namespace Vega.Nastran
open FreeSpec

/-- **C23, false in full.** Whatever the card, a first value written with its plus sign is lost, and the next
line, whatever it is, is read as a continuation of the card: only what follows its first comma is kept,
after the other values. -/
theorem C23_plus_always_false (fuel : Nat) (name v line2 : Line) (vals rest : List Line)
    (hc : ∀ f ∈ name :: v :: vals, ',' ∉ f) (hv : startsPlus v = true) (h7 : vals.length ≤ 7)
    (hd : '$' ∉ line2) :
    splitFree (fuel + 1) (joinComma (name :: v :: vals)) true (line2 :: rest) [] =
      splitFree fuel line2 false rest (name :: vals) := by
  have hs : dropPlus 1 (name :: v :: vals) = (name :: vals, true) := by
    have h : dropPlus 8 vals = (vals, false) := dropPlus_short _ _ (by omega)
    simp [dropPlus, hv, h]
  rw [splitFree]
  simp only [if_true, split_join (by simp) hc, hs, Bool.true_or, readLine_false hd]

/-- The line `A,+5,2` before the card `B,7`. -/
example : (∀ f ∈ ["A".toList, "+5".toList, "2".toList], ',' ∉ f) ∧ startsPlus "+5".toList = true ∧
    '$' ∉ "B,7".toList ∧
    splitFree 3 "A,+5,2".toList true ["B,7".toList] [] = .ok (["A", "2", "7"].map String.toList, []) := by
  decide +kernel

end Vega.Nastran
