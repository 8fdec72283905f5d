import Verif.Ref.Model

/-!
# References as map keys (C06)
-/
namespace Vega.RefSpec
open Ref

/-- **C06** `<` is irreflexive. -/
theorem C06_irrefl (a : Ref) : a.lt a = false := by
  unfold lt; split <;> simp_all <;> split <;> simp_all

/-- **C06** `<` is transitive. -/
theorem C06_trans (a b c : Ref) (h1 : a.lt b = true) (h2 : b.lt c = true) : a.lt c = true := by
  unfold lt at *
  generalize NO_ID = n at *
  obtain ⟨ta, oa, ia⟩ := a
  obtain ⟨tb, ob, ib⟩ := b
  obtain ⟨tc, oc, ic⟩ := c
  simp only at *
  grind

/-- **C06** exactly one of a < b, b < a, a == b: the equivalence of the order is `==`. -/
theorem C06_trichotomy (a b : Ref) :
    (a.lt b = true ∧ b.lt a = false ∧ a.beq b = false) ∨
    (a.lt b = false ∧ b.lt a = true ∧ a.beq b = false) ∨
    (a.lt b = false ∧ b.lt a = false ∧ a.beq b = true) := by
  unfold lt beq
  generalize NO_ID = n at *
  obtain ⟨ta, oa, ia⟩ := a
  obtain ⟨tb, ob, ib⟩ := b
  simp only
  grind

/-- **C06** `==` is an equivalence relation. -/
theorem C06_equivalence :
    (∀ a : Ref, a.beq a = true) ∧ (∀ a b : Ref, a.beq b = true → b.beq a = true) ∧
    (∀ a b c : Ref, a.beq b = true → b.beq c = true → a.beq c = true) := by
  refine ⟨?_, ?_, ?_⟩
  · intro a; unfold beq; grind
  · intro a b; unfold beq; grind
  · intro a b c; unfold beq; grind

/-- **C06** references of different types are never equal. -/
theorem C06_types (a b : Ref) (h : a.type ≠ b.type) : a.beq b = false := by
  simp [beq, h]

/-- **C06** `==` is a congruence for `<`: equal keys sort alike. -/
theorem C06_lt_congr (a a' b b' : Ref) (ha : a.beq a' = true) (hb : b.beq b' = true) :
    a.lt b = a'.lt b' := by
  unfold lt beq at *
  generalize NO_ID = n at *
  obtain ⟨ta, oa, ia⟩ := a
  obtain ⟨ta', oa', ia'⟩ := a'
  obtain ⟨tb, ob, ib⟩ := b
  obtain ⟨tb', ob', ib'⟩ := b'
  simp only at *
  grind

/-- Refutation of "equal references have equal hashes": whatever the string hash, as soon as
the integer hash and the second argument of `hash_combine` are injective (both are, in
libstdc++ and boost), two equal references with an original id and different automatic ids
hash differently. -/
theorem C06_hash_false {H : Type} (combine : H → H → H) (zero : H) (typeHash : Nat → H)
    (intHash : Int → H) (hc : ∀ s x y, combine s x = combine s y → x = y)
    (hi : ∀ x y, intHash x = intHash y → x = y) (t : Nat) (o i j : Int)
    (ho : o ≠ NO_ID) (hij : i ≠ j) :
    (⟨t, o, i⟩ : Ref).beq ⟨t, o, j⟩ = true ∧
    hash combine zero typeHash intHash ⟨t, o, i⟩ ≠ hash combine zero typeHash intHash ⟨t, o, j⟩ := by
  constructor
  · simp [beq, ho]
  · intro h
    exact hij (hi _ _ (hc _ _ _ h))

-- the hypotheses of the refutation are met by boost's combine on 64-bit words (the integer
-- hash of libstdc++ is the conversion to size_t, injective on the range of int; here the
-- identity on the integers with an exclusive-or-like combine)
example : ∃ (combine : Int → Int → Int) (intHash : Int → Int),
    (∀ s x y, combine s x = combine s y → x = y) ∧ (∀ x y, intHash x = intHash y → x = y) :=
  ⟨fun s x => s * 64 + x, id, fun s x y h => Int.add_left_cancel h, fun _ _ h => h⟩

/-- boost's `hash_combine` (64 bits, `seed ^= h + 0x9e3779b9 + (seed<<6) + (seed>>2)`) is
injective in the hashed value, as `C06_hash_false` requires. -/
theorem boost_combine_injective (s x y : BitVec 64)
    (h : s ^^^ (x + 0x9e3779b9#64 + (s <<< 6) + (s >>> 2)) =
      s ^^^ (y + 0x9e3779b9#64 + (s <<< 6) + (s >>> 2))) : x = y := by
  have h1 := congrArg (s ^^^ ·) h
  simp only [← BitVec.xor_assoc, BitVec.xor_self, BitVec.zero_xor] at h1
  have h2 := congrArg (· - (s >>> 2)) h1
  simp only [BitVec.add_sub_cancel] at h2
  have h3 := congrArg (· - (s <<< 6)) h2
  simp only [BitVec.add_sub_cancel] at h3
  have h4 := congrArg (· - 0x9e3779b9#64) h3
  simpa only [BitVec.add_sub_cancel] using h4

/-- **C06** what remains true of hashing: equal references with the same automatic id (and
all equal references without original id) have equal hashes. Missing: equal references with
different automatic ids. -/
theorem C06_hash_partial {H : Type} (combine : H → H → H) (zero : H) (typeHash : Nat → H)
    (intHash : Int → H) (a b : Ref) (h : a.beq b = true)
    (hid : a.id = b.id ∨ (a.hasOriginalId = false ∧ b.hasOriginalId = false)) :
    hash combine zero typeHash intHash a = hash combine zero typeHash intHash b := by
  have : a = b := by
    obtain ⟨ta, oa, ia⟩ := a
    obtain ⟨tb, ob, ib⟩ := b
    simp only [beq, hasOriginalId] at *
    grind
  rw [this]

example : (⟨2, 7, 100⟩ : Ref).beq ⟨2, 7, NO_ID⟩ = true ∧ (⟨2, 7, 100⟩ : Ref).lt ⟨2, NO_ID, 5⟩ = true := by
  decide

end Vega.RefSpec
