import Verif.NastranWrite.CardLemmas
import Verif.NastranWrite.Rigid
import Verif.Dof.Props

/-! # C83: rigid connections written to Nastran and read from Nastran -/
namespace Vega

/-! ## Specification -/
namespace RigidSpec
open NastranWrite WriteSpec
open CellSpec (Number)

/-- A set of degrees of freedom that has at least one. -/
def SomeDofs (s : Dofs) : Prop := DofSpec.WF s ∧ s ≠ ⟨0⟩

instance (s : Dofs) : Decidable (SomeDofs s) := inferInstanceAs (Decidable (_ ∧ _))

/-- The nodes at these positions have these numbers. -/
def Named (nodeIds : List Int) : List Nat → List Int → Prop :=
  List.Forall₂ fun p n => nodeIds[p]? = some n

/-- All numbers of nodes fit in a field. -/
def AllNumbers (nodeIds : List Int) : Prop := ∀ n ∈ nodeIds, Number n

/-- The slaves that were read are those of the connection: same node, same degrees of freedom, same coefficient up to
the precision of a field. -/
def SameSlaves (nodeIds : List Int) : List Slave → List (Int × Dofs × Dbl) → Prop :=
  List.Forall₂ fun s r => nodeIds[s.pos]? = some r.1 ∧ r.2.1 = s.dofs ∧ Near s.coef r.2.2

/-- An RBE3 whose data can be written. -/
structure ProperMean (r : Mean) : Prop where
  different : (r.slaves.map (·.pos)).Nodup
  notMaster : ∀ s ∈ r.slaves, s.pos ≠ r.master
  dofs : SomeDofs r.dofs
  slaveDofs : ∀ s ∈ r.slaves, SomeDofs s.dofs
  finite : ∀ s ∈ r.slaves, |s.coef| ≤ dblMax
  number : Number r.ids.bestId

end RigidSpec

namespace NastranWrite
open Nastran FieldSpec FixedSpec WriteSpec RigidSpec
open CellSpec (Number)

/-! ## Helper lemmas -/

theorem dofs_code (s : Dofs) (h : SomeDofs s) :
    Number s.nastranCode ∧ s.nastranCode ≠ 0 ∧ Dofs.nastranCodeToDOFS s.nastranCode = .ok s := by
  have key : ∀ b : BitVec 8, b &&& 0xC0 = 0 → b ≠ 0 →
      Number (⟨b⟩ : Dofs).nastranCode ∧ (⟨b⟩ : Dofs).nastranCode ≠ 0 ∧
        Dofs.nastranCodeToDOFS (⟨b⟩ : Dofs).nastranCode = .ok ⟨b⟩ := by
    decide +kernel
  rcases s with ⟨b⟩
  exact key b h.1 fun hb => h.2 (by rw [hb])

theorem idsAt_named {nodeIds : List Int} {ps : List Nat} {ns : List Int} (h : Named nodeIds ps ns) :
    idsAt nodeIds ps = .ok ns := by
  induction h with
  | nil => rfl
  | cons h1 _ ih => simp only [idsAt, idAt, h1, ih, Outcome.bind_ok]

theorem named_numbers {nodeIds : List Int} {ps : List Nat} {ns : List Int} (h : Named nodeIds ps ns)
    (hn : AllNumbers nodeIds) : ∀ n ∈ ns, Number n := by
  induction h with
  | nil => simp
  | cons h1 _ ih =>
    intro n hmem
    rcases List.mem_cons.1 hmem with rfl | hmem
    · exact hn _ (List.mem_of_getElem? h1)
    · exact ih n hmem

/-- The loop stops at a text that is not an integer or at the end. -/
theorem slavesLoop_read {ns : List Int} (hn : ∀ n ∈ ns, Number n) {ts : List Text}
    (hs : List.Forall₂ Says (ns.map Arg.int) ts) (rest : List Nastran.Line)
    (hrest : ∀ pre, isNextInt (after pre rest) = .ok false) :
    ∀ (fuel : Nat) (pre : List Nastran.Line), ts.length < fuel →
      slavesLoop fuel (after pre (ts ++ rest)) = .ok (ns, after (pre ++ ts) rest) := by
  induction ns generalizing ts with
  | nil =>
    intro fuel pre hf
    cases hs
    cases fuel with
    | zero => omega
    | succ f => simp [slavesLoop, hrest]
  | cons n ns ih =>
    intro fuel pre hf
    cases hs with
    | cons h1 h2 =>
      rename_i t ts
      cases fuel with
      | zero => simp at hf
      | succ f =>
        simp only [slavesLoop, List.cons_append, says_int_isInt h1, Outcome.bind_ok, if_true,
          says_int_read h1 (hn n (by simp)), ih (fun m hm => hn m (by simp [hm])) h2 f (pre ++ [t]) (by simpa using hf),
          List.append_assoc, List.nil_append]

theorem after_length (pre rest : List Nastran.Line) : (after pre rest).fields.length = pre.length + rest.length := by
  simp [after]

theorem rbe2_name : Name false "RBE2".toList := by
  exact ⟨by decide, by decide, by decide⟩

theorem rbe3_name : Name false "RBE3".toList := by
  exact ⟨by decide, by decide, by decide⟩

theorem read_rbe2 {number m : Int} {dofs : Dofs} {ns : List Int} {texts : List Text} (h0 : Number number) (h1 : Number m)
    (hd : SomeDofs dofs) (hn : ∀ n ∈ ns, Number n)
    (hs : List.Forall₂ Says (.int number :: .int m :: .int dofs.nastranCode :: ns.map .int) texts) :
    readBulk parseRBE2 ("RBE2".toList :: texts) = .ok ⟨number, some m, dofs, ns⟩ := by
  obtain ⟨hc1, -, hc2⟩ := dofs_code dofs hd
  cases hs with
  | cons k0 hs =>
    cases hs with
    | cons k1 hs =>
      cases hs with
      | cons k2 hs =>
        rename_i t0 t1 t2 ts
        have hl := slavesLoop_read hn hs [] isNextInt_end
          ((after (["RBE2".toList] ++ [t0] ++ [t1] ++ [t2]) ts).fields.length + 1)
          (["RBE2".toList] ++ [t0] ++ [t1] ++ [t2]) (by rw [after_length]; omega)
        rw [List.append_nil] at hl
        unfold readBulk
        rw [keyword_read (by decide) (by decide)]
        simp only [Outcome.bind_ok, parseRBE2, says_int_read k0 h0, says_int_read k1 h1, says_int_read k2 hc1, hc2, hl,
          nextDouble_end, isEmpty_end, if_true]

theorem rbe2_card (counter : Nat) (number m : Int) (dofs : Dofs) (ns : List Int) (rest : List Nastran.Line)
    (h0 : Number number) (h1 : Number m) (hd : SomeDofs dofs) (hn : ∀ n ∈ ns, Number n)
    (hc : counter + ns.length + 3 < 10 ^ 7) (hnew : NewCard rest) :
    ∃ lines counter' fields,
      writeCard counter "RBE2".toList (.int number :: .int m :: .int dofs.nastranCode :: ns.map .int) =
        some (lines, counter') ∧
      nextLine (lines ++ rest) = .ok (some (fields, afterComments rest)) ∧
      readBulk parseRBE2 fields = .ok ⟨number, some m, dofs, ns⟩ := by
  have hfit : ∀ a ∈ Arg.int number :: .int m :: .int dofs.nastranCode :: ns.map .int, Fits a := by
    intro a ha
    simp only [List.mem_cons, List.mem_map] at ha
    rcases ha with rfl | rfl | rfl | ⟨n, hn', rfl⟩
    · exact h0
    · exact h1
    · exact (dofs_code dofs hd).1
    · exact hn n hn'
  obtain ⟨lines, counter', texts, g1, g2, -, -, g5⟩ := C78_card_partial counter "RBE2".toList _ rest rbe2_name hfit
    (by simp only [List.length_cons, List.length_map]; omega) hnew
  exact ⟨lines, counter', _, g1, g5, read_rbe2 h0 h1 hd hn g2⟩

theorem rbe2Fields_named {nodeIds : List Int} {l : Link} {p : Nat} {m : Int} {ns : List Int} (number : Int) (dofs : Dofs)
    (hp : l.master = some p) (hm : nodeIds[p]? = some m) (hns : Named nodeIds l.slaves ns) :
    rbe2Fields nodeIds number dofs l = .ok (.int number :: .int m :: .int dofs.nastranCode :: ns.map .int) := by
  simp only [rbe2Fields, getMaster, hp, idAt, hm, idsAt_named hns, Outcome.bind_ok]

/-! ## C83: a rigid connection written to Nastran keeps its nodes, its degrees of freedom and its coefficients -/

/-- **C83 (partial).** A rigid connection of a master and any number of slaves is written on a card that is read back
as the same connection: same number, same master, same slaves, all degrees of freedom. (Read back as quasi rigid.) -/
theorem C83_rigid_partial (counter : Nat) (nodeIds : List Int) (l : Link) (p : Nat) (m : Int) (ns : List Int)
    (rest : List Nastran.Line) (hp : l.master = some p) (hm : nodeIds[p]? = some m) (hns : Named nodeIds l.slaves ns)
    (hids : AllNumbers nodeIds) (hid : Number l.ids.bestId) (hc : counter + ns.length + 3 < 10 ^ 7)
    (hnew : NewCard rest) :
    ∃ args lines counter' fields, rigidArgs nodeIds l = .ok args ∧
      writeCard counter "RBE2".toList args = some (lines, counter') ∧
      nextLine (lines ++ rest) = .ok (some (fields, afterComments rest)) ∧
      readBulk parseRBE2 fields = .ok ⟨l.ids.bestId, some m, ⟨0x3F⟩, ns⟩ := by
  obtain ⟨lines, counter', fields, h1, h2, h3⟩ := rbe2_card counter l.ids.bestId m Dofs.ALL_DOFS ns rest hid
    (hids _ (List.mem_of_getElem? hm)) (by decide) (named_numbers hns hids) hc hnew
  exact ⟨_, lines, counter', fields, rbe2Fields_named _ _ hp hm hns, h1, h2, h3⟩

/-- **C83 (partial).** A quasi rigid connection with a master is read back with the same master, slaves and degrees of
freedom. (Its number becomes that of its set, see `C83_number_false`; connections without master: `C83_bar_false`.) -/
theorem C83_quasi_partial (counter : Nat) (nodeIds : List Int) (masterDofs : Nat → Dofs) (set : Ids) (l : Link) (p : Nat)
    (m : Int) (ns : List Int) (rest : List Nastran.Line) (hp : l.master = some p) (hm : nodeIds[p]? = some m)
    (hns : Named nodeIds l.slaves ns) (hids : AllNumbers nodeIds) (hid : Number set.bestId) (hd : SomeDofs l.dofs)
    (hc : counter + ns.length + 3 < 10 ^ 7) (hnew : NewCard rest) :
    ∃ args lines counter' fields, quasiArgs nodeIds masterDofs set l = .ok ("RBE2".toList, args) ∧
      writeCard counter "RBE2".toList args = some (lines, counter') ∧
      nextLine (lines ++ rest) = .ok (some (fields, afterComments rest)) ∧
      readBulk parseRBE2 fields = .ok ⟨set.bestId, some m, l.dofs, ns⟩ := by
  obtain ⟨lines, counter', fields, h1, h2, h3⟩ := rbe2_card counter set.bestId m l.dofs ns rest hid
    (hids _ (List.mem_of_getElem? hm)) hd (named_numbers hns hids) hc hnew
  refine ⟨_, lines, counter', fields, ?_, h1, h2, h3⟩
  simp only [quasiArgs, hp, reduceCtorEq, false_and, if_false, rbe2Fields_named _ _ hp hm hns, Outcome.bind_ok]

example : (⟨⟨1, some 7⟩, ⟨0x07⟩, some 0, [1, 2]⟩ : Link).master = some 0 ∧ ([10, 20, 30] : List Int)[0]? = some 10 ∧
    Named [10, 20, 30] [1, 2] [20, 30] ∧ AllNumbers [10, 20, 30] ∧ SomeDofs ⟨0x07⟩ ∧ NewCard [] := by
  refine ⟨rfl, rfl, .cons rfl (.cons rfl .nil), ?_, by decide, trivial⟩
  unfold AllNumbers; decide

/-- **C83 is false for numbers.** Two quasi rigid connections of one set are written with the same number, whatever
their own numbers are. -/
theorem C83_number_false (nodeIds : List Int) (masterDofs : Nat → Dofs) (set : Ids) (l₁ l₂ : Link) (p₁ p₂ : Nat)
    (m₁ m₂ : Int) (ns₁ ns₂ : List Int) (hp₁ : l₁.master = some p₁) (hp₂ : l₂.master = some p₂)
    (hm₁ : nodeIds[p₁]? = some m₁) (hm₂ : nodeIds[p₂]? = some m₂) (hn₁ : Named nodeIds l₁.slaves ns₁)
    (hn₂ : Named nodeIds l₂.slaves ns₂) :
    ∃ rest₁ rest₂, quasiArgs nodeIds masterDofs set l₁ = .ok ("RBE2".toList, .int set.bestId :: rest₁) ∧
      quasiArgs nodeIds masterDofs set l₂ = .ok ("RBE2".toList, .int set.bestId :: rest₂) := by
  refine ⟨.int m₁ :: .int l₁.dofs.nastranCode :: ns₁.map .int, .int m₂ :: .int l₂.dofs.nastranCode :: ns₂.map .int, ?_, ?_⟩
  · simp only [quasiArgs, hp₁, reduceCtorEq, false_and, if_false, rbe2Fields_named _ _ hp₁ hm₁ hn₁, Outcome.bind_ok]
  · simp only [quasiArgs, hp₂, reduceCtorEq, false_and, if_false, rbe2Fields_named _ _ hp₂ hm₂ hn₂, Outcome.bind_ok]

/-- **C83 is false without master.** A connection without master (as read from RBAR1) is never written: the
writer stops with an exception, or reads outside the mesh when a node is not in it. -/
theorem C83_bar_false (nodeIds : List Int) (masterDofs : Nat → Dofs) (set : Ids) (l : Link) (h : l.master = none) :
    (∀ card, quasiArgs nodeIds masterDofs set l ≠ .ok card) ∧
    (∀ ns, Named nodeIds l.slaves ns → quasiArgs nodeIds masterDofs set l = .throw) := by
  have key : ∀ ns, Named nodeIds l.slaves ns → quasiArgs nodeIds masterDofs set l = .throw := by
    intro ns hns
    unfold quasiArgs
    split_ifs with hl
    · simp only [idsAt_named hns, Outcome.bind_ok]
      obtain ⟨a, b, hab⟩ : ∃ a b, l.slaves = [a, b] := by
        match l.slaves, hl.2 with
        | [a, b], _ => exact ⟨a, b, rfl⟩
      simp [hab, quasiDofsAt, quasiDofs, h, calcMasterDOFS]
    · simp [rbe2Fields, getMaster, h]
  refine ⟨fun card hcard => ?_, key⟩
  unfold quasiArgs at hcard
  split_ifs at hcard with hl
  · obtain ⟨a, b, hab⟩ : ∃ a b, l.slaves = [a, b] := by
      match l.slaves, hl.2 with
      | [a, b], _ => exact ⟨a, b, rfl⟩
    have : quasiDofsAt masterDofs l l.slaves = .throw := by
      simp [hab, quasiDofsAt, quasiDofs, h, calcMasterDOFS]
    rw [this] at hcard
    cases hi : idsAt nodeIds l.slaves <;> rw [hi] at hcard <;> cases hcard
  · simp [rbe2Fields, getMaster, h] at hcard

example : quasiArgs [10, 20] (fun _ => ⟨0x3F⟩) ⟨1, none⟩ ⟨⟨2, none⟩, ⟨0x3F⟩, none, [0, 1]⟩ = .throw :=
  (C83_bar_false _ _ _ _ rfl).2 [10, 20] (.cons rfl (.cons rfl .nil))

/-- **C83.** The components that a quasi rigid connection takes at a node other than its master are at most those that it connects. -/
theorem C83_components (masterDofs : Nat → Dofs) (l : Link) (p : Nat) (hp : l.master ≠ some p) (d : Dofs)
    (h : quasiDofs masterDofs l p = .ok d) : l.dofs.containsAll d = true := by
  have hi : ∀ e, l.dofs.containsAll (l.dofs.inter e) = true := by
    intro e
    simp only [Dofs.containsAll, Dofs.inter, beq_iff_eq]
    ext i hi
    simp only [BitVec.getElem_or, BitVec.getElem_and]
    cases l.dofs.dofsCode[i] <;> cases e.dofsCode[i] <;> rfl
  unfold quasiDofs at h
  rw [if_neg hp] at h
  split at h
  · unfold calcMasterDOFS at h
    cases hm : l.master with
    | none => rw [hm] at h; exact nomatch h
    | some q =>
      rw [hm] at h
      injection h with h
      exact h ▸ hi (masterDofs q)
  · injection h with h
    rw [← h]
    simp [Dofs.containsAll, Dofs.NO_DOFS]

/-- Its hypotheses hold at a slave. -/
example : quasiDofs (fun _ => Dofs.ALL_DOFS) ⟨⟨1, none⟩, ⟨3⟩, some 0, [1]⟩ 1 = .ok ⟨3⟩ := by decide +kernel

/-- What RBAR1 gives: a connection without master between the two nodes. -/
theorem C83_rbar1_partial (id ga gb : Int) (dofs : Dofs) (hi : Number id) (ha : Number ga) (hb : Number gb)
    (hd : SomeDofs dofs) :
    readBulk parseRBAR1 ["RBAR1".toList, decimal id, decimal ga, decimal gb, decimal dofs.nastranCode] =
      .ok ⟨id, none, dofs, [ga, gb]⟩ := by
  obtain ⟨hc1, -, hc2⟩ := dofs_code dofs hd
  have hu : isEqual unavailable unavailable = true := by
    simp [isEqual, tol_pos.le]
  unfold readBulk
  rw [keyword_read (by decide) (by decide)]
  simp only [Outcome.bind_ok, parseRBAR1, nextInt_decimal hi, nextInt_decimal ha, nextInt_decimal hb,
    nextInt_decimal hc1, hc2, nextDouble_end, hu, isEmpty_end, if_true]

/-- **C83 is false for the ends of a bar.** A bar RBAR whose independent degrees of freedom are those of its second end
is read with the first end as master. -/
theorem C83_end_false (id ga gb : Int) (dofs : Dofs) (hi : Number id) (ha : Number ga) (hb : Number gb)
    (hd : SomeDofs dofs) :
    readBulk parseRBAR ["RBAR".toList, decimal id, decimal ga, decimal gb, [], decimal dofs.nastranCode] =
      .ok ⟨id, some ga, dofs, [gb]⟩ := by
  obtain ⟨hc1, hc0, hc2⟩ := dofs_code dofs hd
  have hb0 : ∀ pre rest, nextInt (some 0) (after pre ([] :: rest)) = .ok (0, after (pre ++ [[]]) rest) := by
    intro pre rest
    unfold nextInt
    rw [next_after]
    rfl
  unfold readBulk
  rw [keyword_read (by decide) (by decide)]
  simp only [Outcome.bind_ok, parseRBAR, nextInt_decimal hi, nextInt_decimal ha, nextInt_decimal hb, hb0,
    nextInt_decimal hc1, nextInt_end, rbarCode, hc0, hc2, nextDouble_end, isEmpty_end, if_true, ne_eq, not_true,
    false_and, and_false, if_false]

example : Number 5 ∧ Number 10 ∧ Number 20 ∧ SomeDofs ⟨0x3F⟩ := by decide

/-! ### RBE3 -/

theorem dofsAt_master (r : Mean) : r.dofsAt r.master = r.dofs := by simp [Mean.dofsAt]

theorem slave_at {r : Mean} (hr : ProperMean r) {s : Slave} (hs : s ∈ r.slaves) :
    r.dofsAt s.pos = s.dofs ∧ r.coefAt s.pos = s.coef := by
  have hf : r.slaves.find? (fun t => t.pos = s.pos) = some s := by
    have hd := hr.different
    revert hd hs
    generalize r.slaves = l
    intro hs hd
    induction l with
    | nil => simp at hs
    | cons a l ih =>
      simp only [List.map_cons, List.nodup_cons] at hd
      rcases List.mem_cons.1 hs with rfl | hs
      · simp
      · have : a.pos ≠ s.pos := fun h => hd.1 (by rw [h]; exact List.mem_map_of_mem hs)
        rw [List.find?_cons_of_neg (by simpa using this)]
        exact ih hs hd.2
  simp [Mean.dofsAt, Mean.coefAt, hr.notMaster s hs, hf]

/-- The fields of a slave as they should be. -/
def slaveFields (s : Slave) (n : Int) : List Arg := [.real s.coef, .int s.dofs.nastranCode, .int n]

theorem rbe3Slaves_named {nodeIds : List Int} {r : Mean} (hr : ProperMean r) {l : List Slave} (hl : ∀ s ∈ l, s ∈ r.slaves)
    {ns : List Int} (h : Named nodeIds (l.map (·.pos)) ns) :
    rbe3Slaves nodeIds r (l.map (·.pos)) = .ok (List.zipWith slaveFields l ns).flatten := by
  induction l generalizing ns with
  | nil => cases h; rfl
  | cons s l ih =>
    simp only [List.map_cons] at h
    cases h with
    | cons h1 h2 =>
      obtain ⟨e1, e2⟩ := slave_at hr (hl s (by simp))
      simp only [List.map_cons, rbe3Slaves, idAt, h1, ih (fun t ht => hl t (by simp [ht])) h2, Outcome.bind_ok, e1, e2,
        List.zipWith_cons_cons, List.flatten_cons, slaveFields, List.cons_append, List.nil_append]

theorem isNextInt_slaves {l : List Slave} {ns : List Int} {ts : List Text}
    (hs : List.Forall₂ Says (List.zipWith slaveFields l ns).flatten ts) (pre : List Nastran.Line) :
    isNextInt (after pre ts) = .ok false := by
  cases l with
  | nil => simp at hs; subst hs; exact isNextInt_end pre
  | cons s l =>
    cases ns with
    | nil => simp at hs; subst hs; exact isNextInt_end pre
    | cons n ns =>
      simp only [List.zipWith_cons_cons, List.flatten_cons, slaveFields, List.cons_append, List.nil_append] at hs
      cases hs with
      | cons k0 _ => exact says_real_notInt k0 _ _

theorem rbe3Loop_read {nodeIds : List Int} {l : List Slave} {ns : List Int} (h : Named nodeIds (l.map (·.pos)) ns)
    (hn : ∀ n ∈ ns, Number n) (hd : ∀ s ∈ l, SomeDofs s.dofs) {ts : List Text}
    (hs : List.Forall₂ Says (List.zipWith slaveFields l ns).flatten ts) :
    ∀ (fuel : Nat) (pre : List Nastran.Line), ts.length < fuel →
      ∃ out, rbe3Loop fuel (after pre ts) = .ok (out, after (pre ++ ts) []) ∧ SameSlaves nodeIds l out := by
  induction l generalizing ns ts with
  | nil =>
    intro fuel pre hf
    simp only [List.zipWith_nil_left, List.flatten_nil, List.forall₂_nil_left_iff] at hs
    subst hs
    cases fuel with
    | zero => omega
    | succ f => exact ⟨[], by simp [rbe3Loop, isNextDouble_end], .nil⟩
  | cons s l ih =>
    intro fuel pre hf
    simp only [List.map_cons] at h
    cases h with
    | cons h1 h2 =>
      rename_i n ns
      simp only [List.zipWith_cons_cons, List.flatten_cons, slaveFields, List.cons_append, List.nil_append] at hs
      cases hs with
      | cons k0 hs =>
        cases hs with
        | cons k1 hs =>
          cases hs with
          | cons k2 hs =>
            rename_i t0 t1 t2 ts
            cases fuel with
            | zero => simp at hf
            | succ f =>
              obtain ⟨hc1, -, hc2⟩ := dofs_code s.dofs (hd s (by simp))
              obtain ⟨y, hy, hread⟩ := k0.2.2 pre (t1 :: t2 :: ts) none
              have hn' : ∀ m ∈ [n], Number m := fun m hm => hn m (by simp_all)
              have hl : slavesLoop ((after (pre ++ [t0] ++ [t1]) (t2 :: ts)).fields.length + 1)
                  (after (pre ++ [t0] ++ [t1]) (t2 :: ts)) = .ok ([n], after (pre ++ [t0] ++ [t1] ++ [t2]) ts) :=
                slavesLoop_read hn' (ts := [t2]) (.cons k2 .nil) ts (fun pre => isNextInt_slaves hs pre) _ _
                  (by rw [after_length]; simp)
              obtain ⟨out, ho, hsame⟩ := ih h2 (fun m hm => hn m (by simp [hm])) (fun t ht => hd t (by simp [ht])) hs f
                (pre ++ [t0] ++ [t1] ++ [t2]) (by simp at hf; omega)
              refine ⟨(n, s.dofs, y) :: out, ?_, .cons ⟨h1, rfl, hy⟩ hsame⟩
              simp only [rbe3Loop, says_real_isDouble k0, Outcome.bind_ok, if_true, hread, says_int_read k1 hc1, hc2, hl,
                ho, List.map_cons, List.map_nil]
              simp only [List.append_assoc, List.cons_append, List.nil_append]

theorem slaveFields_fit {l : List Slave} {ns : List Int} (hn : ∀ n ∈ ns, Number n) (hd : ∀ s ∈ l, SomeDofs s.dofs)
    (hf : ∀ s ∈ l, |s.coef| ≤ dblMax) : ∀ a ∈ (List.zipWith slaveFields l ns).flatten, Fits a := by
  induction l generalizing ns with
  | nil => simp
  | cons s l ih =>
    cases ns with
    | nil => simp
    | cons n ns =>
      intro a ha
      simp only [List.zipWith_cons_cons, List.flatten_cons, slaveFields, List.cons_append, List.nil_append,
        List.mem_cons] at ha
      rcases ha with rfl | rfl | rfl | ha
      · exact hf s (by simp)
      · exact (dofs_code _ (hd s (by simp))).1
      · exact hn n (by simp)
      · exact ih (fun m hm => hn m (by simp [hm])) (fun t ht => hd t (by simp [ht])) (fun t ht => hf t (by simp [ht])) a ha

theorem slaveFields_length (l : List Slave) (ns : List Int) :
    (List.zipWith slaveFields l ns).flatten.length ≤ 3 * l.length := by
  induction l generalizing ns with
  | nil => simp
  | cons s l ih =>
    cases ns with
    | nil => simp
    | cons n ns =>
      have := ih ns
      simp only [List.zipWith_cons_cons, List.flatten_cons, slaveFields, List.cons_append, List.nil_append,
        List.length_cons]
      omega

theorem rbe3_card (counter : Nat) (nodeIds : List Int) (r : Mean) (m : Int) (dofs : Dofs) (ns : List Int)
    (rest : List Nastran.Line) (hr : ProperMean r) (hids : AllNumbers nodeIds) (hm : Number m) (hd : SomeDofs dofs)
    (hns : Named nodeIds (r.slaves.map (·.pos)) ns) (hc : counter + 3 * r.slaves.length + 4 < 10 ^ 7)
    (hnew : NewCard rest) :
    ∃ lines counter' fields slaves,
      writeCard counter "RBE3".toList (.int r.ids.bestId :: .blank :: .int m :: .int dofs.nastranCode ::
        (List.zipWith slaveFields r.slaves ns).flatten) = some (lines, counter') ∧
      nextLine (lines ++ rest) = .ok (some (fields, afterComments rest)) ∧
      readBulk parseRBE3 fields = .ok ⟨r.ids.bestId, m, dofs, slaves⟩ ∧ SameSlaves nodeIds r.slaves slaves := by
  have hn := named_numbers hns hids
  obtain ⟨hc1, -, hc2⟩ := dofs_code dofs hd
  have hfit : ∀ a ∈ Arg.int r.ids.bestId :: .blank :: .int m :: .int dofs.nastranCode ::
      (List.zipWith slaveFields r.slaves ns).flatten, Fits a := by
    intro a ha
    simp only [List.mem_cons] at ha
    rcases ha with rfl | rfl | rfl | rfl | ha
    · exact hr.number
    · trivial
    · exact hm
    · exact hc1
    · exact slaveFields_fit hn hr.slaveDofs hr.finite a ha
  have hlen := slaveFields_length r.slaves ns
  obtain ⟨lines, counter', texts, g1, g2, -, -, g5⟩ := C78_card_partial counter "RBE3".toList _ rest rbe3_name hfit
    (by simp only [List.length_cons]; omega) hnew
  cases g2 with
  | cons k0 hs =>
    cases hs with
    | cons k1 hs =>
      cases hs with
      | cons k2 hs =>
        cases hs with
        | cons k3 hs =>
          rename_i t0 t1 t2 t3 ts
          obtain ⟨out, ho, hsame⟩ := rbe3Loop_read hns hn hr.slaveDofs hs
            ((after (["RBE3".toList] ++ [t0] ++ [t1] ++ [t2] ++ [t3]) ts).fields.length + 1)
            (["RBE3".toList] ++ [t0] ++ [t1] ++ [t2] ++ [t3]) (by rw [after_length]; omega)
          refine ⟨lines, counter', _, out, g1, g5, ?_, hsame⟩
          unfold readBulk
          rw [keyword_read (by decide) (by decide)]
          simp only [Outcome.bind_ok, parseRBE3, says_int_read k0 hr.number, skip_after, List.take_succ_cons,
            List.take_zero, List.drop_succ_cons, List.drop_zero, says_int_read k2 hm,
            says_int_read k3 hc1, hc2, ho, isEmpty_end, if_true]

/-- **C83 (partial).** An RBE3 is read back with the same number, the same slaves and, for each, the same degrees of
freedom and the same coefficient up to the precision of C79. Its master and the degrees of freedom of the master are
kept when the number of the master is also its position in the mesh (otherwise `C83_mean_false`). -/
theorem C83_mean_partial (counter : Nat) (nodeIds : List Int) (r : Mean) (ns : List Int)
    (rest : List Nastran.Line) (hr : ProperMean r) (hids : AllNumbers nodeIds) (hm : nodeIds[r.master]? = some (r.master : Int))
    (hns : Named nodeIds (r.slaves.map (·.pos)) ns) (hc : counter + 3 * r.slaves.length + 4 < 10 ^ 7)
    (hnew : NewCard rest) :
    ∃ args lines counter' fields slaves, rbe3Args nodeIds r = .ok args ∧
      writeCard counter "RBE3".toList args = some (lines, counter') ∧
      nextLine (lines ++ rest) = .ok (some (fields, afterComments rest)) ∧
      readBulk parseRBE3 fields = .ok ⟨r.ids.bestId, r.master, r.dofs, slaves⟩ ∧ SameSlaves nodeIds r.slaves slaves := by
  obtain ⟨lines, counter', fields, slaves, h1, h2, h3, h4⟩ := rbe3_card counter nodeIds r r.master r.dofs ns rest hr hids
    (hids _ (List.mem_of_getElem? hm)) hr.dofs hns hc hnew
  refine ⟨_, lines, counter', fields, slaves, ?_, h1, h2, h3, h4⟩
  have hneg : ¬ ((r.master : Int) < 0) := by omega
  simp only [rbe3Args, idAt, hm, Outcome.bind_ok, hneg, if_false, Int.toNat_natCast, dofsAt_master,
    rbe3Slaves_named hr (fun s hs => hs) hns]

example : ProperMean ⟨⟨1, some 7⟩, ⟨0x07⟩, 1, [⟨0, ⟨0x07⟩, 1⟩, ⟨2, ⟨0x3F⟩, 1 / 2⟩]⟩ ∧ AllNumbers [10, 1, 30] ∧
    ([10, 1, 30] : List Int)[1]? = some ((1 : Nat) : Int) ∧ Named [10, 1, 30] [0, 2] [10, 30] := by
  refine ⟨⟨by decide, by decide, by decide, by decide, by decide +kernel, by decide⟩, ?_, rfl, .cons rfl (.cons rfl .nil)⟩
  · unfold AllNumbers; decide

/-- **C83 is false for the master of an RBE3.** When the nodes have different numbers and the number of the master is not
its position, then the card names another node as master, or the writer reads outside the mesh. -/
theorem C83_mean_false (nodeIds : List Int) (r : Mean) (m : Int) (hnd : nodeIds.Nodup)
    (hm : nodeIds[r.master]? = some m) (hne : m ≠ r.master) :
    (∀ number dofs rest, rbe3Args nodeIds r ≠ .ok (.int number :: .blank :: .int m :: dofs :: rest)) ∧
    ((nodeIds.length : Int) ≤ m → rbe3Args nodeIds r = .ub) := by
  constructor
  · intro number dofs rest h
    simp only [rbe3Args, idAt, hm, Outcome.bind_ok] at h
    split_ifs at h with hneg
    cases hw : nodeIds[m.toNat]? with
    | none => simp [hw] at h
    | some w =>
      simp only [hw, Outcome.bind_ok] at h
      have hwm : w = m := by
        cases hs : rbe3Slaves nodeIds r (r.slaves.map (·.pos)) with
        | ok l =>
          rw [hs] at h
          simp only [Outcome.bind_ok, Outcome.ok.injEq, List.cons.injEq, Arg.int.injEq] at h
          exact h.2.2.1
        | throw => rw [hs] at h; simp at h
        | ub => rw [hs] at h; simp at h
        | diverges => rw [hs] at h; cases h
      rw [hwm] at hw
      have hlt : m.toNat < nodeIds.length := by
        rw [List.getElem?_eq_some_iff] at hw; exact hw.1
      have := (List.getElem?_inj hlt hnd).1 (hw.trans hm.symm)
      omega
  · intro hge
    have h0 : ¬ m < 0 := by omega
    have : nodeIds[m.toNat]? = none := by
      rw [List.getElem?_eq_none_iff]; omega
    simp only [rbe3Args, idAt, hm, Outcome.bind_ok, h0, if_false, this, Outcome.bind_ub]

/-- The usual case: the nodes are numbered 1, 2, ..., `k` in the order of the file. The card names the node after the
master, and for the last node the writer reads outside the mesh. -/
theorem C83_mean_next_false (k : Nat) (r : Mean) (hr : ProperMean r) (hk : r.master < k)
    (hs : ∀ s ∈ r.slaves, s.pos < k) :
    let nodeIds := (List.range k).map fun (i : Nat) => (i : Int) + 1
    if r.master + 1 = k then rbe3Args nodeIds r = .ub
    else ∃ dofs rest, rbe3Args nodeIds r = .ok (.int r.ids.bestId :: .blank :: .int (r.master + 2) :: dofs :: rest) := by
  intro nodeIds
  have hat : ∀ p, p < k → nodeIds[p]? = some ((p : Int) + 1) := by
    intro p hp
    simp [nodeIds, hp]
  have hlen : nodeIds.length = k := by simp [nodeIds]
  split_ifs with h
  · refine (C83_mean_false nodeIds r ((r.master : Int) + 1) ?_ (hat _ hk) (by omega)).2 (by omega)
    refine (List.nodup_range (n := k)).map fun a b hab => ?_
    omega
  · have hnamed : Named nodeIds (r.slaves.map (·.pos)) (r.slaves.map fun s => (s.pos : Int) + 1) := by
      unfold Named
      rw [List.forall₂_map_left_iff, List.forall₂_map_right_iff, List.forall₂_same]
      exact fun s hmem => hat _ (hs s hmem)
    have h0 : ¬ ((r.master : Int) + 1 < 0) := by omega
    have ht : ((r.master : Int) + 1).toNat = r.master + 1 := by omega
    have h2 : ((r.master + 1 : Nat) : Int) + 1 = r.master + 2 := by omega
    refine ⟨.int (r.dofsAt (r.master + 1)).nastranCode,
      (List.zipWith slaveFields r.slaves (r.slaves.map fun s => (s.pos : Int) + 1)).flatten, ?_⟩
    simp only [rbe3Args, idAt, hat _ hk, Outcome.bind_ok, h0, if_false, ht, hat (r.master + 1) (by omega),
      rbe3Slaves_named hr (fun s hs => hs) hnamed, h2]

example : ProperMean ⟨⟨1, some 7⟩, ⟨0x07⟩, 0, [⟨1, ⟨0x07⟩, 1⟩, ⟨2, ⟨0x3F⟩, 1 / 2⟩]⟩ :=
  ⟨by decide, by decide, by decide, by decide, by decide +kernel, by decide⟩

end NastranWrite
end Vega
