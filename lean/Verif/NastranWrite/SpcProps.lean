import Verif.NastranWrite.RigidProps
import Verif.NastranWrite.Spc
import Verif.Constraint.SpcProps

/-! # C84: single point constraints written to Nastran and read from Nastran -/
namespace Vega

/-! ## Specification -/
namespace SpcCardSpec
open NastranWrite WriteSpec

/-- A node, its blocked degrees of freedom and the displacement imposed on them. -/
structure Imposed where
  node : Int
  dofs : Dofs
  value : ℚ

/-- The fields of the card SPC after the number of the set: node, components, displacement, again and again, and blanks
at the end. -/
def fields (l : List Imposed) (blanks : Nat) : List Arg :=
  l.flatMap (fun i => [.int i.node, .int i.dofs.nastranCode, .real i.value]) ++ List.replicate blanks .blank

end SpcCardSpec

namespace NastranWrite
open Nastran FieldSpec FixedSpec WriteSpec RigidSpec SpcCardSpec
open CellSpec (Number)

/-! ## Helper lemmas -/

theorem spc1_name : Name false "SPC1".toList := ⟨by decide, by decide, by decide⟩
theorem spc_name : Name false "SPC".toList := ⟨by decide, by decide, by decide⟩

theorem nextInt_blank (d : Int) (pre rest : List Nastran.Line) :
    nextInt (some d) (after pre ([] :: rest)) = .ok (d, after (pre ++ [[]]) rest) := by
  unfold nextInt
  rw [next_after]
  rfl

theorem spcLoop_blanks (set : Int) (k : Nat) : ∀ (fuel : Nat) (pre : List Nastran.Line), k < fuel →
    spcLoop set fuel (after pre (List.replicate k [])) = .ok ([], after (pre ++ List.replicate k []) []) := by
  induction k with
  | zero =>
    intro fuel pre hf
    cases fuel with
    | zero => omega
    | succ f => simp [spcLoop, sym_after_nil]
  | succ k ih =>
    intro fuel pre hf
    cases fuel with
    | zero => omega
    | succ f =>
      rw [List.replicate_succ, spcLoop, sym_after_cons]
      simp only [if_true, nextInt_blank, Outcome.bind_ok]
      rw [ih f _ (by omega)]
      simp

theorem number_available {n : Int} (h : Number n) : n ≠ unavailableInt := by
  have := h.1
  unfold unavailableInt intMin
  omega

theorem blanks_texts {k : Nat} {ts : List Text} (h : List.Forall₂ Says (List.replicate k Arg.blank) ts) :
    ts = List.replicate k [] := by
  induction k generalizing ts with
  | zero => simpa using h
  | succ k ih =>
    rw [List.replicate_succ] at h
    cases h with
    | cons h1 h2 =>
      have : _ = [] := h1
      rw [this, ih h2, List.replicate_succ]

theorem spcLoop_read (set : Int) {l : List Imposed} (hl : ∀ i ∈ l, Number i.node ∧ SomeDofs i.dofs) (k : Nat)
    {ts : List Text} (hs : List.Forall₂ Says (fields l k) ts) :
    ∀ (fuel : Nat) (pre : List Nastran.Line), ts.length < fuel →
      ∃ out, spcLoop set fuel (after pre ts) = .ok (out, after (pre ++ ts) []) ∧
        List.Forall₂ (fun i r => r.set = set ∧ r.nodes = [i.node] ∧ r.dofs = i.dofs ∧ Near i.value r.value) l out := by
  induction l generalizing ts with
  | nil =>
    intro fuel pre hf
    have : ts = List.replicate k [] := blanks_texts (by simpa [fields] using hs)
    subst this
    exact ⟨[], spcLoop_blanks set k fuel pre (by simpa using hf), .nil⟩
  | cons i l ih =>
    intro fuel pre hf
    simp only [fields, List.flatMap_cons, List.cons_append, List.nil_append] at hs
    obtain _ | ⟨k0, hs⟩ := hs
    obtain _ | ⟨k1, hs⟩ := hs
    obtain _ | ⟨k2, hs⟩ := hs
    rename_i t0 t1 t2 ts
    obtain ⟨hn, hd⟩ := hl i (by simp)
    obtain ⟨hc1, -, hc2⟩ := dofs_code i.dofs hd
    cases fuel with
    | zero => simp at hf
    | succ f =>
      obtain ⟨y, hy, hread⟩ := k2.2.2 (pre ++ [t0] ++ [t1]) ts (some 0)
      obtain ⟨out, ho, hsame⟩ := ih (fun j hj => hl j (by simp [hj])) hs f (pre ++ [t0] ++ [t1] ++ [t2])
        (by simp at hf; omega)
      refine ⟨⟨set, i.dofs, y, [i.node]⟩ :: out, ?_, .cons ⟨rfl, rfl, rfl, hy⟩ hsame⟩
      rw [spcLoop, sym_after_cons]
      simp only [if_true, says_int_read k0 hn, Outcome.bind_ok, number_available hn, if_false, says_int_read k1 hc1, hread,
        hc2, ho]
      simp only [List.append_assoc, List.cons_append, List.nil_append]

theorem wf_dofsBelow (s : Spc) (n : Nat) : DofSpec.WF (s.dofsBelow n) := by
  have step : ∀ (x : Dofs) (d : Dof), DofSpec.WF x → DofSpec.WF (x.addDof d) := by
    intro x d hx
    rcases x with ⟨b⟩
    revert b
    cases d <;> decide +kernel
  induction n with
  | zero => exact (by decide : DofSpec.WF Dofs.NO_DOFS)
  | succ n ih =>
    unfold Spc.dofsBelow
    cases Dof.findByPosition n with
    | ok d =>
      simp only
      split_ifs
      · exact step _ _ ih
      · exact ih
    | throw => exact ih
    | ub => exact ih
    | diverges => exact ih

theorem someDofs_of_contains {s : Dofs} (h : DofSpec.WF s) {d : Dof} (hd : s.contains d = true) : SomeDofs s := by
  refine ⟨h, ?_⟩
  rintro rfl
  cases d <;> revert hd <;> decide

/-! ## C84: nodes, degrees of freedom and imposed displacements of single point constraints -/

/-- **C84 (partial).** A card SPC with any number of triples node, components, displacement is read as these
triples, in this order, with the number of the set; blanks at the end play no role. -/
theorem C84_read_partial (counter : Nat) (set : Int) (l : List Imposed) (blanks : Nat) (rest : List Nastran.Line)
    (hset : Number set) (hl : ∀ i ∈ l, Number i.node ∧ SomeDofs i.dofs ∧ |i.value| ≤ dblMax)
    (hc : counter + 3 * l.length + blanks + 1 < 10 ^ 7) (hnew : NewCard rest) :
    ∃ lines counter' texts out, writeCard counter "SPC".toList (.int set :: fields l blanks) = some (lines, counter') ∧
      nextLine (lines ++ rest) = .ok (some (texts, afterComments rest)) ∧ readBulk parseSPC texts = .ok out ∧
      List.Forall₂ (fun i r => r.set = set ∧ r.nodes = [i.node] ∧ r.dofs = i.dofs ∧ Near i.value r.value) l out := by
  have hfit : ∀ a ∈ Arg.int set :: fields l blanks, Fits a := by
    intro a ha
    simp only [fields, List.mem_cons, List.mem_append, List.mem_flatMap, List.mem_replicate, List.not_mem_nil,
      or_false] at ha
    rcases ha with rfl | ⟨i, hi, rfl | rfl | rfl⟩ | ⟨-, rfl⟩
    · exact hset
    · exact (hl i hi).1
    · exact (dofs_code _ (hl i hi).2.1).1
    · exact (hl i hi).2.2
    · trivial
  have hlen : (fields l blanks).length = 3 * l.length + blanks := by
    simp [fields, List.length_flatMap]; omega
  obtain ⟨lines, counter', texts, g1, g2, -, -, g5⟩ := C78_card_partial counter "SPC".toList _ rest spc_name hfit
    (by simp only [List.length_cons, hlen]; omega) hnew
  obtain _ | ⟨k0, hs⟩ := g2
  rename_i t0 ts
  obtain ⟨out, ho, hsame⟩ := spcLoop_read set (fun i hi => ⟨(hl i hi).1, (hl i hi).2.1⟩) blanks hs
    ((after (["SPC".toList] ++ [t0]) ts).fields.length + 1) (["SPC".toList] ++ [t0]) (by rw [after_length]; omega)
  refine ⟨lines, counter', _, out, g1, g5, ?_, hsame⟩
  unfold readBulk
  rw [keyword_read (by decide) (by decide)]
  simp only [Outcome.bind_ok, parseSPC, says_int_read k0 hset, ho, isEmpty_end, if_true]

example : ∀ i ∈ [(⟨5, ⟨0x07⟩, 0⟩ : Imposed), ⟨6, ⟨0x01⟩, 1 / 4⟩], Number i.node ∧ SomeDofs i.dofs ∧ |i.value| ≤ dblMax := by
  intro i hi
  simp only [List.mem_cons, List.not_mem_nil, or_false] at hi
  rcases hi with rfl | rfl
  · exact ⟨by decide, by decide, by decide +kernel⟩
  · exact ⟨by decide, by decide, by decide +kernel⟩

/-- **C84 (partial).** A single point constraint that blocks something is written on one card for each of its nodes,
and each card is read back with the number of the set, these degrees of freedom and this node. (The displacement is
lost, see `C84_value_false`.) -/
theorem C84_write_partial (nodeIds : List Int) (set : Ids) (s : Spc) (ps : List Nat) (ns : List Int)
    (hset : Number set.bestId) (hids : AllNumbers nodeIds) (hns : Named nodeIds ps ns)
    (hs : ∃ d, (s.spcs d).beq .EMPTY = false) :
    ∃ cards, spcCards nodeIds set s ps = .ok cards ∧
      List.Forall₂ (fun card n => ∀ (counter : Nat) (rest : List Nastran.Line), counter + 1 < 10 ^ 7 → NewCard rest →
        ∃ lines counter' texts dofs, writeCard counter "SPC1".toList card = some (lines, counter') ∧
          nextLine (lines ++ rest) = .ok (some (texts, afterComments rest)) ∧
          readBulk parseSPC1 texts = .ok ⟨set.bestId, dofs, 0, [n]⟩ ∧
          ∀ d, dofs.contains d = true ↔ (s.spcs d).beq .EMPTY = false) cards ns := by
  obtain ⟨d0, hd0⟩ := hs
  have hsome : ∀ p, SomeDofs (s.getDOFSForNode p) := fun p =>
    someDofs_of_contains (wf_dofsBelow s 6) (d := d0) (by rw [SpcSpec.dofs_contains, hd0]; rfl)
  induction hns with
  | nil => exact ⟨[], rfl, .nil⟩
  | cons h1 hns ih =>
    rename_i p n ps ns
    obtain ⟨cards, hcards, hall⟩ := ih
    refine ⟨[.int set.bestId, .int (s.getDOFSForNode p).nastranCode, .int n] :: cards, by simp only [spcCards, idAt, h1, hcards, Outcome.bind_ok], .cons ?_ hall⟩
    intro counter rest hc hnew
    have hn : Number n := hids _ (List.mem_of_getElem? h1)
    obtain ⟨hc1, -, hc2⟩ := dofs_code _ (hsome p)
    have hfit : ∀ a ∈ [Arg.int set.bestId, .int (s.getDOFSForNode p).nastranCode, .int n], Fits a := by
      intro a ha
      simp only [List.mem_cons, List.not_mem_nil, or_false] at ha
      rcases ha with rfl | rfl | rfl
      · exact hset
      · exact hc1
      · exact hn
    obtain ⟨lines, counter', texts, g1, g2, -, -, g5⟩ := C78_card_partial counter "SPC1".toList _ rest spc1_name hfit
      (by simp only [List.length_cons, List.length_nil]; omega) hnew
    refine ⟨lines, counter', _, s.getDOFSForNode p, g1, g5, ?_, fun d => by rw [SpcSpec.dofs_contains]; simp⟩
    obtain _ | ⟨k0, g2⟩ := g2
    obtain _ | ⟨k1, g2⟩ := g2
    rename_i t0 t1 ts
    have hts : ts = [n].map decimal := by
      obtain _ | ⟨k2, g2⟩ := g2
      cases g2
      have : _ = decimal n := k2
      rw [this]; rfl
    subst hts
    unfold readBulk
    rw [keyword_read (by decide) (by decide)]
    simp only [Outcome.bind_ok, parseSPC1, says_int_read k0 hset, says_int_read k1 hc1, hc2,
      nextInts_decimals (ns := [n]) (fun m hm => by simp_all), isEmpty_end, if_true]

example : ((Spc.ofDofs ⟨0x07⟩ (1 / 4)).spcs .DX).beq .EMPTY = false := by decide +kernel

/-- **C84 is false for imposed displacements.** The cards are the same whatever value is imposed, so that two constraints
with different values on the same degrees of freedom cannot be told apart in the file; by `C84_write_partial` both are
read as zero displacements. -/
theorem C84_value_false (nodeIds : List Int) (set : Ids) (dofs : Dofs) (x y : Dbl) (ps : List Nat) :
    spcCards nodeIds set (Spc.ofDofs dofs x) ps = spcCards nodeIds set (Spc.ofDofs dofs y) ps := by
  have h : ∀ p, (Spc.ofDofs dofs x).getDOFSForNode p = (Spc.ofDofs dofs y).getDOFSForNode p := by
    intro p
    refine DofSpec.wf_ext (wf_dofsBelow _ 6) (wf_dofsBelow _ 6) fun d => ?_
    have h1 := (SpcSpec.C38_constructors dofs x .EMPTY .EMPTY .EMPTY (fun _ => .EMPTY) p d).1
    have h2 := (SpcSpec.C38_constructors dofs y .EMPTY .EMPTY .EMPTY (fun _ => .EMPTY) p d).1
    have e : ((Spc.ofDofs dofs x).getDOFSForNode p).contains d = ((Spc.ofDofs dofs y).getDOFSForNode p).contains d :=
      h1.trans h2.symm
    exact e
  induction ps with
  | nil => rfl
  | cons p ps ih => simp only [spcCards, ih, h]

/-- A ground node pushed by one millimetre becomes a clamped node. -/
example : (Spc.ofDofs ⟨0x01⟩ (1 / 1000)).getDoubleForDOF .DX = .ok (1 / 1000) :=
  (SpcSpec.C38_constructors ⟨0x01⟩ (1 / 1000) .EMPTY .EMPTY .EMPTY (fun _ => .EMPTY) 0 .DX).2.1 (by decide)

end NastranWrite
end Vega
