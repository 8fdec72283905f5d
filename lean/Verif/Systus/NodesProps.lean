import Verif.Dof.Lemmas
import Verif.Systus.Nodes

/-! # C136: nodes written to Systus are held as the model says, in their own axes -/
namespace Vega

/-! ## Specification -/
namespace SystusNodesSpec
open SystusNodes

/-- The weight of a component in the code of a node: 1, 2, 4 for translations and 8, 16, 32 for rotations. -/
def weight : Dof → Int
  | .DX => 1
  | .DY => 2
  | .DZ => 4
  | .RX => 8
  | .RY => 16
  | .RZ => 32

/-- The code of a node holds a component. -/
def Says (code : Int) (d : Dof) : Prop := code / weight d % 2 = 1

/-- A constraint of the first analysis holds a component of the node at a position. -/
def Held (analyses : List (List (List Spc))) (p : Nat) (d : Dof) : Prop :=
  ∃ sets ∈ analyses.head?, ∃ set ∈ sets, ∃ s ∈ set, p ∈ s.nodes ∧ s.dofs.contains d = true

/-- The rotation around an axis, and the translation along an axis. -/
def rotationOf : Dof → Dof
  | .DX => .RX
  | .DY => .RY
  | .DZ => .RZ
  | d => d

/-- The angles of a system at a node, if it has any that can be written. -/
def anglesAt {α : Type} (s : System α) (n : Node α) : Option (α × α × α) :=
  match s with
  | .cartesian a => some a
  | .cylindrical f => some (f (n.x, n.y, n.z))
  | .spherical => none
  | .other => none

end SystusNodesSpec

/-! ## Lemmas -/
namespace SystusNodes
open SystusNodesSpec

theorem bind_ok_iff {α β : Type} (x : Outcome α) (f : α → Outcome β) (b : β) :
    x.bind f = .ok b ↔ ∃ a, x = .ok a ∧ f a = .ok b := by
  cases x <;> simp [Outcome.bind]

/-- Whether an entry holds a component. -/
def bit (m : Map Nat (BitVec 8)) (p : Nat) (d : Dof) : Bool :=
  match m.find p with
  | some b => b.getLsbD d.position
  | none => false

/-- The components that the option has. -/
def avail (continuous : Bool) (d : Dof) : Bool := !continuous || d.isTranslation

theorem mask_bit (continuous : Bool) (d : Dof) : (mask continuous).getLsbD d.position = avail continuous d := by
  revert continuous d; decide +kernel

theorem bit_block (continuous : Bool) (m : Map Nat (BitVec 8)) (q p : Nat) (s : Dofs) (d : Dof) :
    bit (block continuous m q s) p d = (bit m p d || (decide (q = p) && s.contains d && avail continuous d)) := by
  unfold block
  split
  · rename_i h
    unfold bit
    rw [Map.find_set]
    by_cases e : q = p
    · subst e
      simp [h, BitVec.getLsbD_and, mask_bit, Dofs.contains_eq_getLsbD]
    · simp [e]
  · rename_i old h
    unfold bit
    rw [Map.find_set]
    by_cases e : q = p
    · subst e
      simp [h, BitVec.getLsbD_and, BitVec.getLsbD_or, mask_bit, Dofs.contains_eq_getLsbD, Bool.or_comm]
    · simp [e]

/-- Every entry is made of available components. -/
def Inv (continuous : Bool) (m : Map Nat (BitVec 8)) : Prop := ∀ p b, m.find p = some b → b &&& mask continuous = b

theorem and_mask (a b : BitVec 8) : a &&& b &&& b = a &&& b := by
  rw [BitVec.and_assoc, BitVec.and_self]

theorem inv_block (continuous : Bool) (m : Map Nat (BitVec 8)) (q : Nat) (s : Dofs) (h : Inv continuous m) :
    Inv continuous (block continuous m q s) := by
  intro p b hb
  unfold block at hb
  split at hb
  · rw [Map.find_set] at hb
    split at hb
    · cases hb
      exact and_mask _ _
    · exact h p b hb
  · rename_i old ho
    rw [Map.find_set] at hb
    split at hb
    · cases hb
      have h1 := h q old ho
      apply BitVec.eq_of_getLsbD_eq
      intro i hi
      have h2 : (old &&& mask continuous).getLsbD i = old.getLsbD i := by rw [h1]
      simp only [BitVec.getLsbD_and, BitVec.getLsbD_or] at h2 ⊢
      cases h3 : old.getLsbD i <;> cases h4 : (mask continuous).getLsbD i <;> simp_all
    · exact h p b hb

theorem code_shell : ∀ b : BitVec 8, b &&& mask false = b →
    0 ≤ b.toInt ∧ b.toInt < 64 ∧ ∀ d : Dof, (b.toInt / weight d % 2 = 1 ↔ b.getLsbD d.position = true) := by
  decide +kernel

theorem code_solid : ∀ b : BitVec 8, b &&& mask true = b →
    0 ≤ b.toInt ∧ b.toInt < 8 ∧ ∀ d : Dof, (b.toInt / weight d % 2 = 1 ↔ b.getLsbD d.position = true) := by
  decide +kernel

theorem code_zero (d : Dof) : ¬ ((0 : Int) / weight d % 2 = 1) := by cases d <;> decide

/-- The code that is written. -/
theorem iconst_spec (continuous : Bool) (m : Map Nat (BitVec 8)) (h : Inv continuous m) (p : Nat) :
    0 ≤ iconst m p ∧ iconst m p < (if continuous then 8 else 64) ∧ ∀ d, Says (iconst m p) d ↔ bit m p d = true := by
  unfold iconst bit Says
  cases e : m.find p with
  | none =>
    refine ⟨le_refl _, by cases continuous <;> decide, fun d => ?_⟩
    simp [code_zero d]
  | some b =>
    have h1 := h p b e
    cases continuous with
    | false => exact code_shell b h1
    | true => exact code_solid b h1

/-- What one node of one constraint holds: itself, and the rotations of the node of rotations. -/
def Gives (c : Config) (q : Nat) (s : Dofs) (p : Nat) (d : Dof) : Prop :=
  (q = p ∧ s.contains d = true ∧ avail c.continuous d = true) ∨
    (c.continuous = true ∧ ∃ id r, c.ids[q]? = some id ∧ c.rot.find id = some r ∧ position c.ids r = p ∧
      (rotated s).contains d = true ∧ avail c.continuous d = true)

theorem blockNode_spec (c : Config) (m m' : Map Nat (BitVec 8)) (q : Nat) (s : Dofs) (hm : Inv c.continuous m)
    (h : blockNode c m q s = .ok m') :
    Inv c.continuous m' ∧ ∀ p d, bit m' p d = true ↔ bit m p d = true ∨ Gives c q s p d := by
  unfold blockNode at h
  simp only at h
  split at h
  · rename_i hc
    split at h
    · cases h
    · rename_i id hid
      split at h
      · rename_i hr
        cases h
        refine ⟨inv_block _ _ _ _ hm, fun p d => ?_⟩
        rw [bit_block]
        unfold Gives
        simp only [Bool.or_eq_true, Bool.and_eq_true, decide_eq_true_eq, and_assoc]
        constructor
        · rintro (h1 | h1)
          · exact .inl h1
          · exact .inr (.inl h1)
        · rintro (h1 | h1 | ⟨_, id', r, h2, h3, _⟩)
          · exact .inl h1
          · exact .inr h1
          · rw [hid] at h2
            cases h2
            rw [hr] at h3
            cases h3
      · rename_i r hr
        cases h
        refine ⟨inv_block _ _ _ _ (inv_block _ _ _ _ hm), fun p d => ?_⟩
        rw [bit_block, bit_block]
        unfold Gives
        simp only [Bool.or_eq_true, Bool.and_eq_true, decide_eq_true_eq, and_assoc]
        constructor
        · rintro ((h1 | h1) | h1)
          · exact .inl h1
          · exact .inr (.inl h1)
          · exact .inr (.inr ⟨hc, id, r, hid, hr, h1⟩)
        · rintro (h1 | h1 | ⟨_, id', r', h2, h3, h4⟩)
          · exact .inl (.inl h1)
          · exact .inl (.inr h1)
          · rw [hid] at h2
            cases h2
            rw [hr] at h3
            cases h3
            exact .inr h4
  · rename_i hc
    cases h
    refine ⟨inv_block _ _ _ _ hm, fun p d => ?_⟩
    rw [bit_block]
    unfold Gives
    simp only [Bool.or_eq_true, Bool.and_eq_true, decide_eq_true_eq, and_assoc]
    constructor
    · rintro (h1 | h1)
      · exact .inl h1
      · exact .inr (.inl h1)
    · rintro (h1 | h1 | ⟨h2, _⟩)
      · exact .inl h1
      · exact .inr h1
      · exact absurd h2 hc

theorem blockNodes_spec (c : Config) (s : Dofs) : ∀ (qs : List Nat) (m m' : Map Nat (BitVec 8)), Inv c.continuous m →
    blockNodes c s qs m = .ok m' →
    Inv c.continuous m' ∧ ∀ p d, bit m' p d = true ↔ bit m p d = true ∨ ∃ q ∈ qs, Gives c q s p d := by
  intro qs
  induction qs with
  | nil =>
    intro m m' hm h
    cases h
    exact ⟨hm, fun p d => by simp⟩
  | cons q r ih =>
    intro m m' hm h
    simp only [blockNodes] at h
    obtain ⟨m1, h1, h2⟩ := (bind_ok_iff _ _ _).mp h
    obtain ⟨i1, b1⟩ := blockNode_spec c m m1 q s hm h1
    obtain ⟨i2, b2⟩ := ih m1 m' i1 h2
    refine ⟨i2, fun p d => ?_⟩
    rw [b2, b1]
    simp only [List.mem_cons, exists_eq_or_imp, or_assoc]

theorem blockSet_spec (c : Config) : ∀ (ss : List Spc) (m m' : Map Nat (BitVec 8)), Inv c.continuous m →
    blockSet c ss m = .ok m' →
    Inv c.continuous m' ∧ ∀ p d, bit m' p d = true ↔ bit m p d = true ∨ ∃ s ∈ ss, ∃ q ∈ s.nodes, Gives c q s.dofs p d := by
  intro ss
  induction ss with
  | nil =>
    intro m m' hm h
    cases h
    exact ⟨hm, fun p d => by simp⟩
  | cons s r ih =>
    intro m m' hm h
    simp only [blockSet] at h
    obtain ⟨m1, h1, h2⟩ := (bind_ok_iff _ _ _).mp h
    obtain ⟨i1, b1⟩ := blockNodes_spec c _ _ m m1 hm h1
    obtain ⟨i2, b2⟩ := ih m1 m' i1 h2
    refine ⟨i2, fun p d => ?_⟩
    rw [b2, b1]
    simp only [List.mem_cons, exists_eq_or_imp, or_assoc]

theorem blockSets_spec (c : Config) : ∀ (ts : List (List Spc)) (m m' : Map Nat (BitVec 8)), Inv c.continuous m →
    blockSets c ts m = .ok m' →
    Inv c.continuous m' ∧ ∀ p d, bit m' p d = true ↔
      bit m p d = true ∨ ∃ t ∈ ts, ∃ s ∈ t, ∃ q ∈ s.nodes, Gives c q s.dofs p d := by
  intro ts
  induction ts with
  | nil =>
    intro m m' hm h
    cases h
    exact ⟨hm, fun p d => by simp⟩
  | cons t r ih =>
    intro m m' hm h
    simp only [blockSets] at h
    obtain ⟨m1, h1, h2⟩ := (bind_ok_iff _ _ _).mp h
    obtain ⟨i1, b1⟩ := blockSet_spec c _ m m1 hm h1
    obtain ⟨i2, b2⟩ := ih m1 m' i1 h2
    refine ⟨i2, fun p d => ?_⟩
    rw [b2, b1]
    simp only [List.mem_cons, exists_eq_or_imp, or_assoc]

theorem fill_spec (c : Config) (as : List (List (List Spc))) (m' : Map Nat (BitVec 8))
    (h : fillConstraintsNodes c as = .ok m') :
    Inv c.continuous m' ∧ ∀ p d, bit m' p d = true ↔
      ∃ ts ∈ as.head?, ∃ t ∈ ts, ∃ s ∈ t, ∃ q ∈ s.nodes, Gives c q s.dofs p d := by
  have h0 : Inv c.continuous [] := fun p b hb => by cases hb
  cases as with
  | nil =>
    cases h
    exact ⟨h0, fun p d => by simp [bit]⟩
  | cons ts r =>
    obtain ⟨i, b⟩ := blockSets_spec c ts [] m' h0 h
    refine ⟨i, fun p d => ?_⟩
    rw [b]
    simp [bit]

theorem rotated_contains (s : Dofs) (d : Dof) :
    ((rotated s).contains d && avail true d) = (d.isTranslation && s.contains (rotationOf d)) := by
  have h : ∀ (x y z : Bool) (d : Dof), (Dofs.combineCodes x y z false false false).contains d =
      (match d with | .DX => x | .DY => y | .DZ => z | _ => false) := by decide +kernel
  unfold rotated
  rw [h]
  cases d <;> simp [avail, Dof.isTranslation, rotationOf]

variable {α : Type} [Zero α]

theorem lines_get (m : Map Nat (BitVec 8)) (b : Map Nat Nat) : ∀ (ns : List (Node α)) (k p : Nat),
    (lines m b k ns)[p]? = ns[p]?.map fun n => ⟨n.id, iconst m (k + p), iangl b (k + p) n, n.x, n.y, n.z⟩ := by
  intro ns
  induction ns with
  | nil => intro k p; simp [lines]
  | cons n r ih =>
    intro k p
    cases p with
    | zero => simp [lines]
    | succ p => simp only [lines, List.getElem?_cons_succ, ih]; rw [show k + 1 + p = k + (p + 1) by omega]

theorem lines_length (m : Map Nat (BitVec 8)) (b : Map Nat Nat) : ∀ (ns : List (Node α)) (k : Nat),
    (lines m b k ns).length = ns.length := by
  intro ns
  induction ns with
  | nil => intro k; rfl
  | cons n r ih => intro k; simp [lines, ih]

theorem write_eq (continuous : Bool) (rot : Map Nat Nat) (systems : Map Nat (Option (System α))) (nodes : List (Node α))
    (analyses : List (List (List Spc))) (vectors : Map Nat (List α)) (w : Written α)
    (h : write continuous rot systems nodes analyses vectors = .ok w) :
    ∃ m st, fillConstraintsNodes ⟨continuous, nodes.map (·.id), rot⟩ analyses = .ok m ∧
      fillCoordinatesVectors systems nodes vectors = .ok st ∧ w = ⟨nodes.length, lines m st.byNode 0 nodes, st.vectors⟩ := by
  obtain ⟨m, h1, h2⟩ := (bind_ok_iff _ _ _).mp h
  obtain ⟨st, h3, h4⟩ := (bind_ok_iff _ _ _).mp h2
  exact ⟨m, st, h1, h3, by cases h4; rfl⟩

/-! ### Axes -/

/-- What is true of the axes after the nodes below a position. -/
structure AInv (systems : Map Nat (Option (System α))) (nodes : List (Node α)) (vectors : Map Nat (List α)) (k : Nat)
    (st : Axes α) : Prop where
  low : ∀ v, vectors.length + 1 ≤ st.next ∧ (∀ x, st.vectors.find v = some x → v < st.next)
  old : ∀ v x, vectors.find v = some x → st.vectors.find v = some x
  frames : ∀ f v, st.byFrame.find f = some v → ∃ a, systems.find f = some (some (.cartesian a)) ∧ 0 < v ∧
    st.vectors.find v = some (nine a)
  nodes : ∀ p n, p < k → nodes[p]? = some n → n.frame ≠ 0 → ∃ v s, st.byNode.find p = some v ∧ 0 < v ∧
    systems.find n.frame = some (some s) ∧ st.vectors.find v = some (nine ((anglesAt s n).getD (0, 0, 0)))

theorem find_add (st : Axes α) (v : List α) (h : ∀ i x, st.vectors.find i = some x → i < st.next) (i : Nat) (x : List α)
    (hx : st.vectors.find i = some x) : (st.vectors.set st.next v).find i = some x := by
  rw [Map.find_set]
  split
  · rename_i e
    have := h i x hx
    omega
  · exact hx

theorem ainv_add {systems : Map Nat (Option (System α))} {nodes : List (Node α)} {vectors : Map Nat (List α)} {k : Nat}
    {st : Axes α} (h : AInv systems nodes vectors k st) (n : Node α) (hn : nodes[k]? = some n) (s : System α)
    (hs : systems.find n.frame = some (some s)) (byFrame : Map Nat Nat)
    (hf : ∀ f v, byFrame.find f = some v → st.byFrame.find f = some v ∨
      (f = n.frame ∧ v = st.next ∧ ∃ a, s = .cartesian a)) :
    AInv systems nodes vectors (k + 1)
      (addVector { st with byFrame := byFrame } k (nine ((anglesAt s n).getD (0, 0, 0)))) := by
  have low := fun v => (h.low v).2
  have hfind := find_add st (nine ((anglesAt s n).getD (0, 0, 0))) low
  have hpos : 0 < st.next := by have := (h.low 0).1; omega
  constructor
  · intro v
    refine ⟨by have := (h.low v).1; simp only [addVector]; omega, fun x hx => ?_⟩
    simp only [addVector] at hx ⊢
    rw [Map.find_set] at hx
    split at hx
    · omega
    · have := low v x hx
      omega
  · intro v x hx
    exact hfind v x (h.old v x hx)
  · intro f v hv
    rcases hf f v hv with h1 | ⟨rfl, rfl, a, rfl⟩
    · obtain ⟨a, h2, h3, h4⟩ := h.frames f v h1
      exact ⟨a, h2, h3, hfind v _ h4⟩
    · refine ⟨a, hs, hpos, ?_⟩
      simp [addVector, anglesAt]
  · intro p n' hp hn' hfr
    by_cases e : p = k
    · subst e
      rw [hn] at hn'
      cases hn'
      refine ⟨st.next, s, ?_, hpos, hs, ?_⟩
      · simp [addVector]
      · simp [addVector]
    · obtain ⟨v, s', h1, h2, h3, h4⟩ := h.nodes p n' (by omega) hn' hfr
      refine ⟨v, s', ?_, h2, h3, hfind v _ h4⟩
      simp only [addVector]
      rw [Map.find_set_ne _ _ (fun h => e h.symm)]
      exact h1

theorem frameStep_spec {systems : Map Nat (Option (System α))} {nodes : List (Node α)} {vectors : Map Nat (List α)} {k : Nat}
    {st st' : Axes α} (h : AInv systems nodes vectors k st) (n : Node α) (hn : nodes[k]? = some n)
    (hs : frameStep systems st k n = .ok st') : AInv systems nodes vectors (k + 1) st' := by
  unfold frameStep at hs
  split at hs
  · rename_i h0
    cases hs
    refine ⟨h.low, h.old, h.frames, fun p n' hp hn' hf => ?_⟩
    by_cases e : p = k
    · subst e
      rw [hn] at hn'
      cases hn'
      exact absurd h0 hf
    · exact h.nodes p n' (by omega) hn' hf
  · split at hs
    · rename_i v hv
      cases hs
      refine ⟨h.low, h.old, h.frames, fun p n' hp hn' hf => ?_⟩
      by_cases e : p = k
      · subst e
        rw [hn] at hn'
        cases hn'
        obtain ⟨a, h1, h2, h3⟩ := h.frames n.frame v hv
        exact ⟨v, .cartesian a, by simp, h2, h1, by simpa [anglesAt] using h3⟩
      · obtain ⟨v', s', h1, h2, h3, h4⟩ := h.nodes p n' (by omega) hn' hf
        refine ⟨v', s', ?_, h2, h3, h4⟩
        simp only
        rw [Map.find_set_ne _ _ (fun h => e h.symm)]
        exact h1
    · rename_i hnone
      obtain ⟨s, h1, h2⟩ := (bind_ok_iff _ _ _).mp hs
      have hfind : systems.find n.frame = some (some s) := by
        unfold findFrame at h1
        split at h1
        · cases h1
        · cases h1
        · rename_i s' e
          cases h1
          exact e
      cases s with
      | cartesian a =>
        cases h2
        refine ainv_add h n hn _ hfind _ fun f v hv => ?_
        rw [Map.find_set] at hv
        split at hv
        · rename_i e
          cases hv
          exact .inr ⟨e.symm, rfl, a, rfl⟩
        · exact .inl hv
      | cylindrical f =>
        cases h2
        exact ainv_add h n hn _ hfind st.byFrame fun f v hv => .inl hv
      | spherical => cases h2
      | other =>
        cases h2
        exact ainv_add h n hn _ hfind st.byFrame fun f v hv => .inl hv

theorem frameLoop_spec {systems : Map Nat (Option (System α))} {nodes : List (Node α)} {vectors : Map Nat (List α)} :
    ∀ (ns : List (Node α)) (k : Nat) (st st' : Axes α), AInv systems nodes vectors k st → nodes.drop k = ns →
      frameLoop systems k ns st = .ok st' → AInv systems nodes vectors (k + ns.length) st' := by
  intro ns
  induction ns with
  | nil =>
    intro k st st' h _ hs
    cases hs
    exact h
  | cons n r ih =>
    intro k st st' h hd hs
    simp only [frameLoop] at hs
    obtain ⟨st1, h1, h2⟩ := (bind_ok_iff _ _ _).mp hs
    have hn : nodes[k]? = some n := by
      have := congrArg (fun l => l[0]?) hd
      simpa using this
    have hr : nodes.drop (k + 1) = r := by
      rw [← List.tail_drop, hd]
      rfl
    have := ih (k + 1) st1 st' (frameStep_spec h n hn h1) hr h2
    rw [show k + (n :: r).length = k + 1 + r.length by simp; omega]
    exact this

/-- No node so far is in a spherical system. -/
theorem frameLoop_spherical {systems : Map Nat (Option (System α))} {nodes : List (Node α)} {vectors : Map Nat (List α)} :
    ∀ (ns : List (Node α)) (k : Nat) (st st' : Axes α), AInv systems nodes vectors k st → nodes.drop k = ns →
      frameLoop systems k ns st = .ok st' → ∀ n ∈ ns, n.frame ≠ 0 → systems.find n.frame ≠ some (some .spherical) := by
  intro ns
  induction ns with
  | nil => intro k st st' _ _ _ n hn; cases hn
  | cons n r ih =>
    intro k st st' h hd hs
    simp only [frameLoop] at hs
    obtain ⟨st1, h1, h2⟩ := (bind_ok_iff _ _ _).mp hs
    have hn : nodes[k]? = some n := by
      have := congrArg (fun l => l[0]?) hd
      simpa using this
    have hr : nodes.drop (k + 1) = r := by
      rw [← List.tail_drop, hd]
      rfl
    intro m hm hf
    rcases List.mem_cons.mp hm with rfl | hm
    · intro e
      unfold frameStep at h1
      rw [if_neg hf] at h1
      split at h1
      · rename_i v hv
        obtain ⟨a, h3, _⟩ := h.frames m.frame v hv
        rw [e] at h3
        cases h3
      · obtain ⟨s, h3, h4⟩ := (bind_ok_iff _ _ _).mp h1
        simp only [findFrame, e] at h3
        cases h3
        cases h4
    · exact ih (k + 1) st1 st' (frameStep_spec h n hn h1) hr h2 m hm hf

theorem coordinates_spec {systems : Map Nat (Option (System α))} {nodes : List (Node α)} {vectors : Map Nat (List α)}
    (hv : ∀ v x, vectors.find v = some x → v ≤ vectors.length) (st : Axes α)
    (h : fillCoordinatesVectors systems nodes vectors = .ok st) : AInv systems nodes vectors nodes.length st := by
  have h0 : AInv systems nodes vectors 0 (⟨vectors, [], [], vectors.length + 1⟩ : Axes α) := by
    refine ⟨fun v => ⟨le_refl _, fun x hx => ?_⟩, fun v x hx => hx, fun f v hf => (by cases hf), fun p n hp => by omega⟩
    have := hv v x hx
    simp only
    omega
  have := frameLoop_spec nodes 0 _ st h0 (by simp) h
  simpa using this

end SystusNodes

/-! ## Properties -/
open SystusNodes SystusNodesSpec

/-- **C136** (with six components): the code of every node holds exactly the components that a constraint of the analysis holds. -/
theorem C136_held_partial {α : Type} [Zero α] (rot : Map Nat Nat) (systems : Map Nat (Option (System α))) (nodes : List (Node α))
    (analyses : List (List (List Spc))) (vectors : Map Nat (List α)) (w : Written α)
    (h : write false rot systems nodes analyses vectors = .ok w) :
    ∀ p line, w.lines[p]? = some line →
      0 ≤ line.iconst ∧ line.iconst < 64 ∧ ∀ d, Says line.iconst d ↔ Held analyses p d := by
  obtain ⟨m, st, h1, _, rfl⟩ := write_eq _ _ _ _ _ _ _ h
  obtain ⟨i, b⟩ := fill_spec _ _ _ h1
  intro p line hl
  simp only [lines_get, Nat.zero_add] at hl
  obtain ⟨n, _, rfl⟩ := Option.map_eq_some_iff.mp hl
  obtain ⟨c1, c2, c3⟩ := iconst_spec false m i p
  refine ⟨c1, by simpa using c2, fun d => ?_⟩
  simp only
  rw [c3, b]
  unfold Held
  constructor
  · rintro ⟨ts, h1, t, h2, s, h3, q, h4, h5⟩
    rcases h5 with ⟨rfl, h6, _⟩ | ⟨h6, _⟩
    · exact ⟨ts, h1, t, h2, s, h3, h4, h6⟩
    · cases h6
  · rintro ⟨ts, h1, t, h2, s, h3, h4, h6⟩
    exact ⟨ts, h1, t, h2, s, h3, p, h4, .inl ⟨rfl, h6, rfl⟩⟩

/-- **C136** (with three components): the code of every node holds exactly the translations that a constraint of the analysis holds,
and those that stand for held rotations of a node of which it is the node of rotations. -/
theorem C136_held_solid_partial {α : Type} [Zero α] (rot : Map Nat Nat) (systems : Map Nat (Option (System α)))
    (nodes : List (Node α)) (analyses : List (List (List Spc))) (vectors : Map Nat (List α)) (w : Written α)
    (hids : (nodes.map (·.id)).Nodup) (hrot : ∀ i r, rot.find i = some r → r ∈ nodes.map (·.id))
    (h : write true rot systems nodes analyses vectors = .ok w) :
    ∀ p line, w.lines[p]? = some line → 0 ≤ line.iconst ∧ line.iconst < 8 ∧
      ∀ d, Says line.iconst d ↔ d.isTranslation = true ∧ (Held analyses p d ∨
        ∃ q n, nodes[q]? = some n ∧ rot.find n.id = some line.nid ∧ Held analyses q (rotationOf d)) := by
  obtain ⟨m, st, h1, _, rfl⟩ := write_eq _ _ _ _ _ _ _ h
  obtain ⟨i, b⟩ := fill_spec _ _ _ h1
  intro p line hl
  simp only [lines_get, Nat.zero_add] at hl
  obtain ⟨np, hnp, rfl⟩ := Option.map_eq_some_iff.mp hl
  obtain ⟨c1, c2, c3⟩ := iconst_spec true m i p
  refine ⟨c1, by simpa using c2, fun d => ?_⟩
  simp only
  rw [c3, b]
  unfold Held
  have hp : (nodes.map (·.id))[p]? = some np.id := by simp [hnp]
  have hpos : position (nodes.map (·.id)) np.id = p := by
    unfold position
    rw [if_pos (List.mem_of_getElem? hp)]
    obtain ⟨hlt, he⟩ := List.getElem?_eq_some_iff.mp hp
    rw [← he]
    exact hids.idxOf_getElem p hlt
  constructor
  · rintro ⟨ts, h1, t, h2, s, h3, q, h4, h5⟩
    rcases h5 with ⟨rfl, h6, h7⟩ | ⟨_, id, r, h6, h7, h8, h9, h10⟩
    · exact ⟨by simpa [avail] using h7, .inl ⟨ts, h1, t, h2, s, h3, h4, h6⟩⟩
    · have hb : ((rotated s.dofs).contains d && avail true d) = true := by
        simp only [Bool.and_eq_true]
        exact ⟨h9, h10⟩
      rw [rotated_contains, Bool.and_eq_true] at hb
      obtain ⟨n, hn, rfl⟩ : ∃ n, nodes[q]? = some n ∧ n.id = id := by simpa using h6
      have hr := hrot _ _ h7
      have : r = np.id := by
        simp only at h8
        unfold position at h8
        rw [if_pos hr] at h8
        obtain ⟨hlt, he⟩ := List.getElem?_eq_some_iff.mp hp
        rw [← he]
        have h11 := List.getElem_idxOf (List.idxOf_lt_length_iff.mpr hr)
        rw [← h11]
        congr 1
      subst this
      exact ⟨hb.1, .inr ⟨q, n, hn, h7, ts, h1, t, h2, s, h3, h4, hb.2⟩⟩
  · rintro ⟨hd, ⟨ts, h1, t, h2, s, h3, h4, h6⟩ | ⟨q, n, hn, hr, ts, h1, t, h2, s, h3, h4, h6⟩⟩
    · exact ⟨ts, h1, t, h2, s, h3, p, h4, .inl ⟨rfl, h6, by simpa [avail] using hd⟩⟩
    · have hb : ((rotated s.dofs).contains d && avail true d) = true := by
        rw [rotated_contains, hd, h6]
        rfl
      rw [Bool.and_eq_true] at hb
      exact ⟨ts, h1, t, h2, s, h3, q, h4, .inr ⟨rfl, n.id, np.id, by simp [hn], hr, hpos, hb.1, hb.2⟩⟩

/-- **C136** (axes): every node is written once, in order, with its number and coordinates; without number of axes if it is in the
global system; otherwise with the number of a vector that has the angles of its system at this node, if these can be written. The
vectors of loads are not changed. -/
theorem C136_axes_partial {α : Type} [Zero α] (continuous : Bool) (rot : Map Nat Nat) (systems : Map Nat (Option (System α)))
    (nodes : List (Node α)) (analyses : List (List (List Spc))) (vectors : Map Nat (List α)) (w : Written α)
    (hv : ∀ v x, vectors.find v = some x → v ≤ vectors.length)
    (h : write continuous rot systems nodes analyses vectors = .ok w) :
    w.count = nodes.length ∧ w.lines.length = nodes.length ∧ (∀ v x, vectors.find v = some x → w.vectors.find v = some x) ∧
      ∀ (p : Nat) (n : Node α), nodes[p]? = some n → ∃ line : Line α, w.lines[p]? = some line ∧
        line.nid = n.id ∧ line.x = n.x ∧ line.y = n.y ∧ line.z = n.z ∧ (n.frame = 0 → line.iangl = 0) ∧
        (n.frame ≠ 0 → ∃ s, systems.find n.frame = some (some s) ∧ line.iangl ≠ 0 ∧
          ∀ a b c, anglesAt s n = some (a, b, c) → w.vectors.find line.iangl = some [0, 0, 0, 0, 0, 0, a, b, c]) := by
  obtain ⟨m, st, _, h2, rfl⟩ := write_eq _ _ _ _ _ _ _ h
  have ha := coordinates_spec hv st h2
  refine ⟨rfl, lines_length _ _ _ _, ha.old, fun p n hn => ?_⟩
  refine ⟨⟨n.id, iconst m p, iangl st.byNode p n, n.x, n.y, n.z⟩, ?_, rfl, rfl, rfl, rfl, ?_, ?_⟩
  · simp [lines_get, hn]
  · intro h0
    simp [iangl, h0]
  · intro h0
    obtain ⟨hlt, _⟩ := List.getElem?_eq_some_iff.mp hn
    obtain ⟨v, s, h3, h4, h5, h6⟩ := ha.nodes p n hlt hn h0
    have he : iangl st.byNode p n = v := by simp [iangl, h0, h3]
    refine ⟨s, h5, by simp only [he]; omega, fun a b c habc => ?_⟩
    simp only [he]
    rw [h6, habc]
    rfl

/-- No model with a node whose displacements are given in a spherical system is written. -/
theorem C136_spherical_false {α : Type} [Zero α] (continuous : Bool) (rot : Map Nat Nat) (systems : Map Nat (Option (System α)))
    (nodes : List (Node α)) (analyses : List (List (List Spc))) (vectors : Map Nat (List α))
    (hv : ∀ v x, vectors.find v = some x → v ≤ vectors.length) (n : Node α) (hn : n ∈ nodes)
    (hf : n.frame ≠ 0) (hs : systems.find n.frame = some (some .spherical)) :
    ∀ w, write continuous rot systems nodes analyses vectors ≠ .ok w := by
  intro w h
  obtain ⟨m, st, _, h2, rfl⟩ := write_eq _ _ _ _ _ _ _ h
  have h0 : AInv systems nodes vectors 0 (⟨vectors, [], [], vectors.length + 1⟩ : Axes α) := by
    refine ⟨fun v => ⟨le_refl _, fun x hx => ?_⟩, fun v x hx => hx, fun f v hf => (by cases hf), fun p n hp => by omega⟩
    have := hv v x hx
    simp only
    omega
  exact frameLoop_spherical nodes 0 _ st h0 (by simp) h2 n hn hf hs

/-- A position in the hypotheses: six components, two constraints on a node, a node in a Cartesian system shared by two nodes and a
node in a cylindrical one. -/
def C136_nodes : List (Node Int) := [⟨11, 0, 1, 2, 3⟩, ⟨12, 1, 4, 5, 6⟩, ⟨13, 1, 7, 8, 9⟩, ⟨14, 2, 1, 1, 1⟩, ⟨15, 3, 0, 0, 0⟩]

def C136_systems : Map Nat (Option (System Int)) :=
  [(1, some (.cartesian (30, 40, 50))), (2, some (.cylindrical fun v => (v.1, v.2.1 + 1, 0))), (3, some .other)]

example : (write false [] C136_systems C136_nodes [[[⟨[0, 1], ⟨1⟩⟩, ⟨[1], ⟨6⟩⟩], [⟨[3], ⟨63⟩⟩]], [[⟨[2], ⟨63⟩⟩]]] [(1, [7])]).bind
    (fun w => .ok (w.lines.map (fun l => (l.nid, l.iconst, l.iangl)), w.vectors)) =
    .ok ([(11, 1, 0), (12, 7, 2), (13, 0, 2), (14, 63, 3), (15, 0, 4)],
      [(1, [7]), (2, [0, 0, 0, 0, 0, 0, 30, 40, 50]), (3, [0, 0, 0, 0, 0, 0, 1, 2, 0]), (4, [0, 0, 0, 0, 0, 0, 0, 0, 0])]) := by
  decide +kernel

/-- Three components: node 12 is the node of rotations of node 11. -/
example : (write true [(11, 12)] [] ([⟨11, 0, 1, 2, 3⟩, ⟨12, 0, 1, 2, 3⟩] : List (Node Int)) [[[⟨[0], ⟨63⟩⟩]]] []).bind
    (fun w => .ok (w.lines.map fun l => (l.nid, l.iconst))) = .ok [(11, 7), (12, 7)] := by
  decide +kernel

/-- The node of rotations of a body is not held if its master is held and is also the master of a later body: two rigid bodies with
the master 1, whose rotations are held; the node of rotations of the first, 4, stays free and that of the second, 5, is held. -/
theorem C136_bodies_false :
    let sets : List Rigid.RSet := [⟨.rbar, 1, [[1, 2]]⟩, ⟨.rbar, 1, [[1, 3]]⟩]
    let g := Rigid.generate ⟨true, false⟩ 4 sets
    g.2.map (·.cells) = [[[1, 2, 4]], [[1, 3, 5]]] ∧
    (write true g.1.rot [] ([⟨1, 0, 0, 0, 0⟩, ⟨2, 0, 1, 0, 0⟩, ⟨3, 0, 2, 0, 0⟩, ⟨4, 0, 0, 0, 0⟩, ⟨5, 0, 0, 0, 0⟩] : List (Node Int))
      [[[⟨[0], ⟨63⟩⟩]]] []).bind (fun w => .ok (w.lines.map fun l => (l.nid, l.iconst))) =
      .ok [(1, 7), (2, 0), (3, 0), (4, 0), (5, 7)] := by
  decide +kernel

end Vega
