import Mathlib.Data.List.Forall2
import Verif.Element.Dmig
import Verif.Element.DirectProps
import Verif.Load.CardsProps

/-!
# Direct matrices have the coefficients of their DMIG cards (C132)
-/
namespace Vega

namespace DmigSpec
open Nastran BarsSpec LoadCardsSpec

/-- A coefficient given for two components of nodes. -/
structure Given where
  x : Int × Dof
  y : Int × Dof
  v : Dbl
  deriving DecidableEq

/-- The coefficient is about these two components, in whichever order. -/
def Given.about (e : Given) (x y : Int × Dof) : Prop := (e.x = x ∧ e.y = y) ∨ (e.x = y ∧ e.y = x)

instance (e : Given) (x y : Int × Dof) : Decidable (e.about x y) := by
  unfold Given.about; infer_instance

/-- The last coefficient given for two components. -/
def last (l : List Given) (x y : Int × Dof) : Option Dbl :=
  l.foldl (fun r e => if e.about x y then some e.v else r) none

/-- The coefficient that a matrix has for two components: those of the nodes with these numbers. -/
def Has (ns : NodeStore) (m : DirectMatrix) (x y : Int × Dof) (v : Dbl) : Prop :=
  ∃ p q : Nat, ns.ids[p]? = some x.1 ∧ ns.ids[q]? = some y.1 ∧ DirectSpec.Reads m (p, x.2) (q, y.2) v

/-- A field with one component: its digit, or zero for the only component of a scalar point. -/
def Component (card : List Line) (i : Nat) (d : Dof) : Prop :=
  ∃ n, IsInt card i n ∧ (n = d.nastranDigit ∨ n = 0 ∧ d = .DX)

/-- The terms of a column: node, component, real part, and a field for the imaginary part. -/
inductive Terms (card : List Line) : Nat → List (Int × Dof × Dbl) → Prop where
  | nil (p : Nat) (h : Ends card p) : Terms card p []
  | cons (p : Nat) (g : Int) (d : Dof) (a : Dbl) (rest : List (Int × Dof × Dbl)) (h1 : Plain card p g)
      (h2 : Component card (p + 1) d) (h3 : IsReal card (p + 2) a) (h : Terms card (p + 4) rest) :
      Terms card p ((g, d, a) :: rest)

/-- The name on a card. -/
def nameOf (card : List Line) : Line := toUpper (field card 1)

/-- The names of matrices that are not for the model. -/
def Reserved (n : Line) : Prop := n = "UACCEL".toList ∨ n = "CDSHUT".toList

/-- The header of a symmetric real matrix. -/
structure Header (card : List Line) : Prop where
  zero : IsInt card 2 0
  form : IsInt card 3 6
  input : IsInt card 4 1 ∨ IsInt card 4 2
  output : IntOr card 5 0 0
  polar : IntOr card 6 0 0
  columns : IntOrBlank card 8
  ends : Ends card 9

/-- What a card gives, when the matrices with some names are used. -/
inductive Says (used : Line → Prop) (card : List Line) : List Given → Prop where
  | reserved (h : Reserved (nameOf card)) : Says used card []
  | unused (n : Int) (h1 : nameOf card ≠ []) (h2 : ¬ Reserved (nameOf card)) (h3 : ¬ used (nameOf card))
      (h4 : IsInt card 2 n) : Says used card []
  | header (h1 : nameOf card ≠ []) (h2 : ¬ Reserved (nameOf card)) (h3 : used (nameOf card)) (h4 : Header card) :
      Says used card []
  | column (g : Int) (d : Dof) (ts : List (Int × Dof × Dbl)) (h1 : nameOf card ≠ []) (h2 : ¬ Reserved (nameOf card))
      (h3 : used (nameOf card)) (h4 : IsInt card 2 g) (h5 : g ≠ 0) (h6 : Component card 3 d) (h7 : Terms card 5 ts) :
      Says used card (ts.map fun t => ⟨(g, d), (t.1, t.2.1), t.2.2⟩)

/-- One component in each field for it, and no node with the number that stands for no number. -/
structure Usual (card : List Line) : Prop where
  one : ∀ i n, (i = 3 ∨ ∃ k, i = 4 * k + 6) → IsInt card i n → n < 10
  numbered : ∀ i, ¬ IsInt card i AUTO_ID

/-- What the cards with a name give, one card after the other. -/
def about (name : Line) : List (List Line) → List (List Given) → List Given
  | card :: cards, gs :: rest => (if nameOf card = name then gs else []) ++ about name cards rest
  | _, _ => []

/-- The matrix is the first that is selected by this name. -/
def First (selects : List (Case.MatrixKind × Line)) (i : Nat) (k : Case.MatrixKind) (name : Line) : Prop :=
  selects[i]? = some (k, name) ∧ ∀ j k', j < i → selects[j]? ≠ some (k', name)

end DmigSpec

namespace Dmig
open Nastran BarsSpec Bars MaterialsSpec LoadCardsSpec LoadCards DmigSpec

/-! ## Lemmas -/

theorem ofDigit_neg {a : Int} (h : a ≤ 0) : Dof.ofNastranDigit a = none := by
  unfold Dof.ofNastranDigit
  rw [if_neg (by omega), if_neg (by omega), if_neg (by omega), if_neg (by omega), if_neg (by omega), if_neg (by omega)]

theorem firstDof_iff {n : Int} {d : Dof} (h : n < 10) :
    firstDof n = .ok d ↔ (n = d.nastranDigit ∨ n = 0 ∧ d = .DX) := by
  by_cases hn : n < 0
  · have h0 : n ≠ 0 := by omega
    have h1 : Dofs.nastranCodeToDOFS n = .ub := by
      unfold Dofs.nastranCodeToDOFS
      simp only [h0, if_false]
      unfold Dofs.nastranLoop
      rw [dif_neg h0, ofDigit_neg]
      · unfold Dofs.rejectCode
        rw [if_neg (by omega)]
      · have : Int.tmod n 10 = -(Int.tmod (-n) 10) := by rw [Int.neg_tmod, neg_neg]
        rw [this]
        have := Int.tmod_nonneg (a := -n) 10 (by omega)
        omega
    unfold firstDof
    rw [h1]
    constructor
    · intro h; cases h
    · rintro (h | ⟨h, _⟩)
      · cases d <;> simp [Dof.nastranDigit] at h <;> omega
      · omega
  · have : n = 0 ∨ n = 1 ∨ n = 2 ∨ n = 3 ∨ n = 4 ∨ n = 5 ∨ n = 6 ∨ n = 7 ∨ n = 8 ∨ n = 9 := by omega
    rcases this with rfl | rfl | rfl | rfl | rfl | rfl | rfl | rfl | rfl | rfl <;> cases d <;> decide +kernel

theorem digit_lt (d : Dof) : d.nastranDigit < 10 := by cases d <;> decide

theorem component_read {card : List Line} {i : Nat} {n : Int} {d : Dof} (h : IsInt card i n) (hn : n < 10)
    (hd : firstDof n = .ok d) : Component card i d := ⟨n, h, (firstDof_iff hn).mp hd⟩

theorem read_component {card : List Line} {i : Nat} {d : Dof} (h : Component card i d) :
    ∃ n, IsInt card i n ∧ firstDof n = .ok d := by
  obtain ⟨n, h1, h2⟩ := h
  refine ⟨n, h1, (firstDof_iff ?_).mpr h2⟩
  rcases h2 with rfl | ⟨rfl, _⟩
  · exact digit_lt d
  · decide

/-- A coefficient as `addComponent` takes it. -/
def tup (e : Given) : Int × Dof × Int × Dof × Dbl := (e.x.1, e.x.2, e.y.1, e.y.2, e.v)

/-- A term of a column. -/
def term (g : Int) (d : Dof) (t : Int × Dof × Dbl) : Given := ⟨(g, d), (t.1, t.2.1), t.2.2⟩

theorem loop_sound (gj : Int) (dj : Dof) {fields : List Line} (hu : Usual fields) : ∀ (fuel p : Nat) {ns : NodeStore}
    {m : DirectMatrix} {r : (NodeStore × DirectMatrix) × Cursor}, (∃ k, p + 1 = 4 * k + 6) →
    columnLoop gj dj fuel ns m (at' fields p) = .ok r → ∃ q, r.2 = at' fields q ∧
      (Ends fields q → ∃ ts, Terms fields p ts ∧
        DirectSpec.runIds ns m ((ts.map (term gj dj)).map tup) = .ok r.1)
  | 0, _, _, _, _, _, h => by cases h
  | fuel + 1, p, ns, m, r, hp, h => by
    unfold columnLoop at h
    rw [isNextInt_at, Outcome.bind_ok] at h
    split at h
    · rename_i hl
      simp only [nextInt_at, nextDouble_at, skip_at, bind_assoc', Outcome.bind_ok] at h
      obtain ⟨g, hg, h⟩ := bind_ok_iff.mp h
      obtain ⟨c1, hc, h⟩ := bind_ok_iff.mp h
      obtain ⟨d, hd, h⟩ := bind_ok_iff.mp h
      obtain ⟨a, ha, h⟩ := bind_ok_iff.mp h
      obtain ⟨nm, hnm, h⟩ := bind_ok_iff.mp h
      obtain ⟨q, hq, ih⟩ := loop_sound gj dj hu fuel (p + 1 + 1 + 1 + 1)
        (by obtain ⟨k, hk⟩ := hp; exact ⟨k + 1, by omega⟩) h
      refine ⟨q, hq, fun he => ?_⟩
      obtain ⟨ts, h1, h2⟩ := ih he
      have hci := readInt_given.mp hc
      refine ⟨(g, d, a) :: ts, .cons p g d a ts (like_plain hl (readInt_given.mp hg))
        (component_read hci (hu.one _ _ (.inr hp) hci) hd) (readReal_given.mp ha) h1, ?_⟩
      simp only [List.map_cons, tup, term, DirectSpec.runIds, hnm, Outcome.bind_ok]
      exact h2
    · cases h
      exact ⟨p, rfl, fun he => ⟨[], .nil p he, rfl⟩⟩

theorem loop_complete (gj : Int) (dj : Dof) {fields : List Line} {p : Nat} {ts : List (Int × Dof × Dbl)}
    (h : Terms fields p ts) : ∀ (fuel : Nat) {ns : NodeStore} {m : DirectMatrix} {r : NodeStore × DirectMatrix},
    ts.length < fuel → DirectSpec.runIds ns m ((ts.map (term gj dj)).map tup) = .ok r →
    ∃ q, Ends fields q ∧ columnLoop gj dj fuel ns m (at' fields p) = .ok (r, at' fields q) := by
  induction h with
  | nil p he =>
    intro fuel ns m r hf hr
    cases fuel with
    | zero => cases hf
    | succ fuel =>
      refine ⟨p, he, ?_⟩
      unfold columnLoop
      rw [isNextInt_at, Outcome.bind_ok, blank_intLike (he p (Nat.le_refl _))]
      cases hr
      rfl
  | cons p g d a rest h1 h2 h3 _ ih =>
    intro fuel ns m r hf hr
    cases fuel with
    | zero => cases hf
    | succ fuel =>
      simp only [List.map_cons, tup, term, DirectSpec.runIds] at hr
      obtain ⟨nm, hnm, hr⟩ := bind_ok_iff.mp hr
      obtain ⟨q, hq, e⟩ := ih fuel (by simpa using hf) hr
      obtain ⟨n, hn, hd⟩ := read_component h2
      refine ⟨q, hq, ?_⟩
      unfold columnLoop
      rw [isNextInt_at, Outcome.bind_ok, plain_like h1, if_pos rfl]
      simp only [nextInt_at, nextDouble_at, skip_at, bind_assoc', Outcome.bind_ok]
      rw [readInt_given.mpr h1.1, Outcome.bind_ok, readInt_given.mpr hn, Outcome.bind_ok, hd, Outcome.bind_ok,
        readReal_given.mpr h3, Outcome.bind_ok, hnm, Outcome.bind_ok]
      exact e

theorem terms_length {fields : List Line} {p : Nat} {ts : List (Int × Dof × Dbl)} (h : Terms fields p ts) :
    ts.length ≤ fields.length - p := by
  induction h with
  | nil => simp
  | cons p g d a rest h1 h2 h3 _ ih =>
    have := isInt_lt h1.1
    simp only [List.length_cons]
    omega

theorem nextString_given (fields : List Line) (p : Nat) (w : Line) (c : Cursor) :
    nextString none (at' fields p) = .ok (w, c) ↔ w ≠ [] ∧ w = toUpper (field fields p) ∧ c = at' fields (p + 1) := by
  unfold nextString field
  rw [next_at]
  simp only [trim_trimRight]
  generalize trim (fields.getD p []) = f
  split
  · rename_i h
    constructor
    · intro h; cases h
    · rintro ⟨h1, rfl, _⟩
      exact absurd (by simpa using h) h1
  · rename_i h
    constructor
    · intro h'; cases h'
      exact ⟨by simpa using h, rfl, rfl⟩
    · rintro ⟨h1, rfl, rfl⟩
      rfl

theorem skipKeyword_at (fields : List Line) (p : Nat) :
    skipToNextKeyword (at' fields p) = at' fields fields.length := by
  unfold skipToNextKeyword at'
  simp

theorem ends_length (fields : List Line) : Ends fields fields.length := fun _ hi => field_out (by omega)

/-! ## What the state says of the matrices -/

/-- The matrices are those of the selections, filled with the coefficients given by name. -/
structure Holds (selects : List (Case.MatrixKind × Line)) (s : State) (hist : Line → List Given) : Prop where
  nodes : s.nodes.Inv
  length : s.matrices.length = selects.length
  names : ∀ n i, s.byName.find n = some i ↔ ∃ k, First selects i k n
  filled : ∀ i k n, First selects i k n → ∃ m q, s.matrices[i]? = some (k, m) ∧
    DirectSpec.Located s.nodes.ids ((hist n).map tup) q ∧ DirectSpec.run (DirectMatrix.new .SYMMETRIC) q = .ok m
  empty : ∀ i k n, selects[i]? = some (k, n) → ¬ First selects i k n →
    s.matrices[i]? = some (k, DirectMatrix.new .SYMMETRIC)

theorem first_unique {selects : List (Case.MatrixKind × Line)} {i j : Nat} {k k' : Case.MatrixKind} {n : Line}
    (h : First selects i k n) (h' : First selects j k' n) : i = j := by
  rcases Nat.lt_trichotomy i j with hl | hl | hl
  · exact absurd h.1 (h'.2 i k hl)
  · exact hl
  · exact absurd h'.1 (h.2 j k' hl)

theorem first_name {selects : List (Case.MatrixKind × Line)} {i : Nat} {k k' : Case.MatrixKind} {n n' : Line}
    (h : First selects i k n) (h' : First selects i k' n') : n = n' := by
  have := h.1.symm.trans h'.1
  cases this
  rfl

theorem first_append (l : List (Case.MatrixKind × Line)) (a : Case.MatrixKind × Line) (i : Nat) (k : Case.MatrixKind)
    (n : Line) : First (l ++ [a]) i k n ↔
      First l i k n ∨ i = l.length ∧ a = (k, n) ∧ ∀ (j : Nat) k', l[j]? ≠ some (k', n) := by
  unfold First
  constructor
  · rintro ⟨h1, h2⟩
    by_cases hi : i < l.length
    · rw [List.getElem?_append_left hi] at h1
      refine .inl ⟨h1, fun j k' hj => ?_⟩
      have := h2 j k' hj
      rwa [List.getElem?_append_left (by omega)] at this
    · rw [List.getElem?_append_right (by omega)] at h1
      have h0 : i - l.length = 0 := by
        by_contra h0
        rw [List.getElem?_eq_none (by simp; omega)] at h1
        cases h1
      have hi' : i = l.length := by omega
      subst hi'
      simp at h1
      refine .inr ⟨rfl, h1, fun j k' => ?_⟩
      by_cases hj : j < l.length
      · have := h2 j k' hj
        rwa [List.getElem?_append_left hj] at this
      · rw [List.getElem?_eq_none (by omega)]
        intro h; cases h
  · rintro (⟨h1, h2⟩ | ⟨rfl, rfl, h⟩)
    · have hi := (List.getElem?_eq_some_iff.mp h1).1
      rw [List.getElem?_append_left hi]
      refine ⟨h1, fun j k' hj => ?_⟩
      rw [List.getElem?_append_left (by omega)]
      exact h2 j k' hj
    · refine ⟨by simp, fun j k' hj => ?_⟩
      rw [List.getElem?_append_left hj]
      exact h j k'

theorem first_exists {l : List (Case.MatrixKind × Line)} {n : Line} :
    (∃ i k, First l i k n) ↔ ∃ k, (k, n) ∈ l := by
  induction l using List.reverseRecOn with
  | nil => simp [First]
  | append_singleton l a ih =>
    simp only [first_append, List.mem_append, List.mem_singleton]
    constructor
    · rintro ⟨i, k, h | ⟨_, rfl, _⟩⟩
      · obtain ⟨k, hk⟩ := ih.mp ⟨i, k, h⟩
        exact ⟨k, .inl hk⟩
      · exact ⟨k, .inr rfl⟩
    · rintro ⟨k, h | rfl⟩
      · obtain ⟨i, k, hk⟩ := ih.mpr ⟨k, h⟩
        exact ⟨i, k, .inl hk⟩
      · by_cases h : ∃ k, (k, n) ∈ l
        · obtain ⟨i, k, hk⟩ := ih.mpr h
          exact ⟨i, k, .inl hk⟩
        · exact ⟨l.length, k, .inr ⟨rfl, rfl, fun j k' hj => h ⟨k', List.mem_of_getElem? hj⟩⟩⟩

theorem start_append (ns : NodeStore) (l : List (Case.MatrixKind × Line)) (a : Case.MatrixKind × Line) :
    start ns (l ++ [a]) = select (start ns l) a := by
  simp [start]

theorem start_nodes (ns : NodeStore) (l : List (Case.MatrixKind × Line)) : (start ns l).nodes = ns := by
  induction l using List.reverseRecOn with
  | nil => rfl
  | append_singleton l a ih => rw [start_append]; exact ih

theorem holds_start (ns : NodeStore) (hns : ns.Inv) (l : List (Case.MatrixKind × Line)) :
    Holds l (start ns l) fun _ => [] := by
  induction l using List.reverseRecOn with
  | nil =>
    refine ⟨hns, rfl, ?_, ?_, ?_⟩
    · intro n i
      simp [start, First]
    · rintro i k n ⟨h, _⟩
      simp at h
    · rintro i k n h
      simp at h
  | append_singleton l a ih =>
    rw [start_append]
    generalize start ns l = s at ih
    obtain ⟨ka, na⟩ := a
    have hlen : (s.matrices ++ [(ka, DirectMatrix.new .SYMMETRIC)]).length = (l ++ [(ka, na)]).length := by
      simp [ih.length]
    refine ⟨ih.nodes, hlen, ?_, ?_, ?_⟩
    · intro n i
      simp only [select, first_append]
      cases hf : s.byName.find na with
      | some j =>
        simp only
        rw [ih.names]
        obtain ⟨kj, hj⟩ := (ih.names na j).mp hf
        constructor
        · rintro ⟨k, hk⟩; exact ⟨k, .inl hk⟩
        · rintro ⟨k, hk | ⟨_, e, h⟩⟩
          · exact ⟨k, hk⟩
          · cases e
            exact absurd hj.1 (h j kj)
      | none =>
        simp only
        rw [Map.find_set]
        have hno : ∀ (j : Nat) k', l[j]? ≠ some (k', na) := by
          intro j k' hj
          obtain ⟨i', k'', hi⟩ := first_exists.mpr ⟨k', List.mem_of_getElem? hj⟩
          have := (ih.names na i').mpr ⟨k'', hi⟩
          rw [hf] at this
          cases this
        split
        · rename_i e
          subst e
          rw [ih.length]
          constructor
          · intro h
            cases h
            exact ⟨ka, .inr ⟨rfl, rfl, hno⟩⟩
          · rintro ⟨k, h | ⟨h, _, _⟩⟩
            · exact absurd h.1 (hno i k)
            · rw [h]
        · rename_i hne
          rw [ih.names]
          constructor
          · rintro ⟨k, hk⟩; exact ⟨k, .inl hk⟩
          · rintro ⟨k, hk | ⟨_, e, h⟩⟩
            · exact ⟨k, hk⟩
            · cases e
              exact absurd rfl hne
    · intro i k n h
      rcases (first_append _ _ _ _ _).mp h with h | ⟨rfl, e, _⟩
      · obtain ⟨m, q, h1, h2, h3⟩ := ih.filled i k n h
        refine ⟨m, q, ?_, h2, h3⟩
        simp only [select]
        rw [List.getElem?_append_left (List.getElem?_eq_some_iff.mp h1).1]
        exact h1
      · cases e
        refine ⟨DirectMatrix.new .SYMMETRIC, [], ?_, List.Forall₂.nil, rfl⟩
        simp only [select]
        rw [← ih.length]
        simp
    · intro i k n h hf
      simp only [select]
      by_cases hi : i < l.length
      · rw [List.getElem?_append_left hi] at h
        rw [List.getElem?_append_left (by rw [ih.length]; exact hi)]
        exact ih.empty i k n h (fun hx => hf ((first_append _ _ _ _ _).mpr (.inl hx)))
      · rw [List.getElem?_append_right (by omega)] at h
        rw [List.getElem?_append_right (by rw [ih.length]; omega), ih.length]
        generalize i - l.length = j at h
        cases j with
        | zero => simp at h; simp [h.1]
        | succ j => simp at h

theorem located_mono {ids ids' : List Int} {h : List (Int × Dof × Int × Dof × Dbl)} {q : List DirectSpec.Entry}
    (hp : ids <+: ids') (hl : DirectSpec.Located ids h q) : DirectSpec.Located ids' h q :=
  List.Forall₂.imp (fun _ _ he => ⟨DirectSpec.prefix_get hp _ _ he.1, he.2.1, DirectSpec.prefix_get hp _ _ he.2.2.1,
    he.2.2.2⟩) hl

theorem run_append (m : DirectMatrix) (q q' : List DirectSpec.Entry) :
    DirectSpec.run m (q ++ q') = (DirectSpec.run m q >>= fun m => DirectSpec.run m q') := by
  induction q generalizing m with
  | nil => rfl
  | cons e q ih =>
    simp only [List.cons_append, DirectSpec.run, bind_assoc', ih]

/-- Coefficients added to the matrix with a name. -/
theorem holds_add {selects : List (Case.MatrixKind × Line)} {s : State} {hist : Line → List Given}
    (hs : Holds selects s hist) {i : Nat} {k : Case.MatrixKind} {n : Line} (hf : First selects i k n) {m : DirectMatrix}
    (hm : s.matrices[i]? = some (k, m)) (gs : List Given) (hg : ∀ e ∈ gs, e.x.1 ≠ AUTO_ID ∧ e.y.1 ≠ AUTO_ID) :
    ∃ ns' m', DirectSpec.runIds s.nodes m (gs.map tup) = .ok (ns', m') ∧
      Holds selects ⟨ns', s.matrices.set i (k, m'), s.byName⟩
        (fun n' => if n = n' then hist n' ++ gs else hist n') := by
  obtain ⟨m0, q, h1, h2, h3⟩ := hs.filled i k n hf
  rw [hm] at h1
  cases h1
  have hmi : DirectSpec.Inv m := by
    obtain ⟨m'', a1, a2, _⟩ := DirectSpec.run_eq q _ DirectSpec.inv_new
    rw [h3] at a1
    cases a1
    exact a2
  obtain ⟨ns', m', q', b1, b2, b3, b4, b5⟩ := DirectSpec.C51_ids (gs.map tup) s.nodes hs.nodes
    (by
      intro e he
      obtain ⟨g, hg', rfl⟩ := List.mem_map.mp he
      exact hg g hg') m hmi
  refine ⟨ns', m', b1, b2, by simp [hs.length], hs.names, ?_, ?_⟩
  swap
  · intro j k' n' hj hnf
    have hij : i ≠ j := by
      rintro rfl
      have := hf.1.symm.trans hj
      cases this
      exact hnf hf
    simp only
    rw [List.getElem?_set_ne hij]
    exact hs.empty j k' n' hj hnf
  intro j k' n' hj
  by_cases hn : n = n'
  · subst hn
    have hij := first_unique hf hj
    subst hij
    have hk : k = k' := by
      have := hf.1.symm.trans hj.1
      cases this
      rfl
    subst hk
    refine ⟨m', q ++ q', ?_, ?_, ?_⟩
    · simp only
      rw [List.getElem?_set_self (List.getElem?_eq_some_iff.mp hm).1]
    · simp only [if_true]
      rw [List.map_append]
      exact List.rel_append (located_mono b3 h2) b4
    · rw [run_append, h3, Outcome.bind_ok, b5]
  · have hij : i ≠ j := by
      rintro rfl
      exact hn (first_name hf hj)
    obtain ⟨mj, qj, c1, c2, c3⟩ := hs.filled j k' n' hj
    refine ⟨mj, qj, ?_, ?_, c3⟩
    · simp only
      rw [List.getElem?_set_ne hij]
      exact c1
    · simp only [hn, if_false]
      exact located_mono b3 c2

theorem holds_same {selects : List (Case.MatrixKind × Line)} {s : State} {hist : Line → List Given}
    (hs : Holds selects s hist) (n : Line) :
    Holds selects s (fun n' => if n = n' then hist n' ++ [] else hist n') := by
  have : (fun n' => if n = n' then hist n' ++ [] else hist n') = hist := by
    funext n'
    split
    · exact List.append_nil _
    · rfl
  rw [this]
  exact hs

/-- The names of the matrices that are selected. -/
def Used (selects : List (Case.MatrixKind × Line)) (n : Line) : Prop := ∃ k, (k, n) ∈ selects

theorem find_none {selects : List (Case.MatrixKind × Line)} {s : State} {hist : Line → List Given}
    (hs : Holds selects s hist) (n : Line) : s.byName.find n = none ↔ ¬ Used selects n := by
  unfold Used
  rw [← first_exists]
  constructor
  · rintro h ⟨i, k, hk⟩
    rw [(hs.names n i).mpr ⟨k, hk⟩] at h
    cases h
  · intro h
    cases hf : s.byName.find n with
    | none => rfl
    | some i =>
      obtain ⟨k, hk⟩ := (hs.names n i).mp hf
      exact absurd ⟨i, k, hk⟩ h

theorem not_reserved {n : Line} : ¬ Reserved n ↔ n ≠ "UACCEL".toList ∧ n ≠ "CDSHUT".toList := by
  unfold Reserved
  rw [not_or]

/-- The header, as it is read. -/
theorem header_iff (s s' : State) (card : List Line) :
    (header s (at' card 3) >>= fun r => if isEmptyUntilNextKeyword r.2 then Outcome.ok r.1 else .throw) = .ok s' ↔
      IsInt card 3 6 ∧ (IsInt card 4 1 ∨ IsInt card 4 2) ∧ IntOr card 5 0 0 ∧ IntOr card 6 0 0 ∧ IntOrBlank card 8 ∧
        Ends card 9 ∧ s = s' := by
  have hb : (∃ n, IntOr card 8 0 n) ↔ IntOrBlank card 8 := by
    unfold IntOr IntOrBlank
    constructor
    · rintro ⟨n, h | ⟨h, _⟩⟩
      · exact .inr ⟨n, h⟩
      · exact .inl h
    · rintro (h | ⟨n, h⟩)
      · exact ⟨0, .inr ⟨h, rfl⟩⟩
      · exact ⟨n, .inl h⟩
  unfold header
  simp only [nextInt_at, bind_assoc', Outcome.bind_ok]
  constructor
  · intro h
    obtain ⟨ifo, h1, h⟩ := bind_ok_iff.mp h
    split at h
    · cases h
    rename_i hifo
    simp only [nextInt_at, bind_assoc', Outcome.bind_ok] at h
    obtain ⟨tin, h2, h⟩ := bind_ok_iff.mp h
    split at h
    · cases h
    rename_i htin
    simp only [nextInt_at, bind_assoc', Outcome.bind_ok] at h
    obtain ⟨tout, h3, h⟩ := bind_ok_iff.mp h
    split at h
    · cases h
    rename_i htout
    simp only [nextInt_at, bind_assoc', Outcome.bind_ok] at h
    obtain ⟨polar, h4, h⟩ := bind_ok_iff.mp h
    split at h
    · cases h
    rename_i hpolar
    simp only [nextInt_at, skip_at, bind_assoc', Outcome.bind_ok] at h
    obtain ⟨n, h5, h⟩ := bind_ok_iff.mp h
    obtain ⟨h6, h7⟩ := end_iff.mp h
    rw [not_not] at hifo htout hpolar
    subst hifo htout hpolar
    refine ⟨readInt_given.mp h1, ?_, readInt_default.mp h3, readInt_default.mp h4, hb.mp ⟨n, readInt_default.mp h5⟩,
      h6, h7⟩
    have h2 := readInt_given.mp h2
    by_cases e : tin = 1
    · subst e; exact .inl h2
    · have : tin = 2 := by
        by_contra e'
        exact htin ⟨e, e'⟩
      subst this; exact .inr h2
  · rintro ⟨h1, h2, h3, h4, h5, h6, rfl⟩
    obtain ⟨n, h5⟩ := hb.mpr h5
    rw [readInt_given.mpr h1, Outcome.bind_ok, if_neg (by simp)]
    simp only [nextInt_at, bind_assoc', Outcome.bind_ok]
    have h2' : ∃ tin, IsInt card 4 tin ∧ ¬ (tin ≠ 1 ∧ tin ≠ 2) := by
      rcases h2 with h | h
      · exact ⟨1, h, by simp⟩
      · exact ⟨2, h, by simp⟩
    obtain ⟨tin, h2, ht⟩ := h2'
    rw [readInt_given.mpr h2, Outcome.bind_ok, if_neg ht]
    simp only [nextInt_at, bind_assoc', Outcome.bind_ok]
    rw [readInt_default.mpr h3, Outcome.bind_ok, if_neg (by simp)]
    simp only [nextInt_at, bind_assoc', Outcome.bind_ok]
    rw [readInt_default.mpr h4, Outcome.bind_ok, if_neg (by simp)]
    simp only [nextInt_at, skip_at, bind_assoc', Outcome.bind_ok]
    rw [readInt_default.mpr h5, Outcome.bind_ok]
    exact end_iff.mpr ⟨h6, rfl⟩

theorem terms_numbered {card : List Line} (hu : Usual card) {p : Nat} {ts : List (Int × Dof × Dbl)}
    (h : Terms card p ts) : ∀ t ∈ ts, t.1 ≠ AUTO_ID := by
  induction h with
  | nil => simp
  | cons p g d a rest h1 h2 h3 _ ih =>
    intro t ht
    rcases List.mem_cons.mp ht with rfl | ht
    · rintro e
      simp only at e
      subst e
      exact hu.numbered p h1.1
    · exact ih t ht

/-- A card that is read says what is added. -/
theorem card_sound {selects : List (Case.MatrixKind × Line)} {s s' : State} {hist : Line → List Given}
    (hs : Holds selects s hist) {card : List Line} (hu : Usual card)
    (h : Bars.runCard (parseDMIG s) card = .ok s') :
    ∃ gs, Says (Used selects) card gs ∧
      Holds selects s' (fun n' => if nameOf card = n' then hist n' ++ gs else hist n') := by
  rw [start_at] at h
  unfold parseDMIG at h
  simp only [bind_assoc'] at h
  obtain ⟨⟨w, c⟩, hws, h⟩ := bind_ok_iff.mp h
  obtain ⟨hne, hw, rfl⟩ := (nextString_given _ _ _ _).mp hws
  clear hws
  change w = nameOf card at hw
  subst hw
  simp only at h
  split at h
  · rename_i hr
    rw [Outcome.bind_ok, skipKeyword_at] at h
    obtain ⟨_, rfl⟩ := end_iff.mp h
    exact ⟨[], .reserved (.inl hr), holds_same hs _⟩
  rename_i hr1
  split at h
  · rename_i hr
    rw [Outcome.bind_ok, skipKeyword_at] at h
    obtain ⟨_, rfl⟩ := end_iff.mp h
    exact ⟨[], .reserved (.inr hr), holds_same hs _⟩
  rename_i hr2
  have hr : ¬ Reserved (nameOf card) := not_reserved.mpr ⟨hr1, hr2⟩
  simp only [nextInt_at, bind_assoc', Outcome.bind_ok] at h
  obtain ⟨g, hg, h⟩ := bind_ok_iff.mp h
  have hg := readInt_given.mp hg
  cases hf : s.byName.find (nameOf card) with
  | none =>
    rw [hf] at h
    simp only at h
    rw [Outcome.bind_ok, skipKeyword_at] at h
    obtain ⟨_, rfl⟩ := end_iff.mp h
    exact ⟨[], .unused g hne hr ((find_none hs _).mp hf) hg, holds_same hs _⟩
  | some i =>
    rw [hf] at h
    simp only at h
    obtain ⟨k, hk⟩ := (hs.names _ i).mp hf
    have hused : Used selects (nameOf card) := by
      by_contra hx
      rw [(find_none hs _).mpr hx] at hf
      cases hf
    split at h
    · rename_i h0
      subst h0
      obtain ⟨h1, h2, h3, h4, h5, h6, rfl⟩ := (header_iff _ _ _).mp h
      exact ⟨[], .header hne hr hused ⟨hg, h1, h2, h3, h4, h5, h6⟩, holds_same hs _⟩
    · rename_i h0
      obtain ⟨m, q, hm, _, _⟩ := hs.filled i k _ hk
      unfold column at h
      rw [hm] at h
      simp only [nextInt_at, skip_at, bind_assoc', Outcome.bind_ok] at h
      obtain ⟨cj, hc, h⟩ := bind_ok_iff.mp h
      obtain ⟨d, hd, h⟩ := bind_ok_iff.mp h
      have hc := readInt_given.mp hc
      obtain ⟨⟨⟨ns', m'⟩, c'⟩, hl, h⟩ := bind_ok_iff.mp h
      obtain ⟨p, hp, hterms⟩ := loop_sound g d hu _ 5 ⟨0, rfl⟩ hl
      simp only at hp
      subst hp
      simp only at h
      obtain ⟨he, rfl⟩ := end_iff.mp h
      obtain ⟨ts, ht, hrun⟩ := hterms he
      have hgs : ∀ e ∈ ts.map (term g d), e.x.1 ≠ AUTO_ID ∧ e.y.1 ≠ AUTO_ID := by
        intro e he'
        obtain ⟨t, ht', rfl⟩ := List.mem_map.mp he'
        refine ⟨?_, terms_numbered hu ht t ht'⟩
        rintro e
        simp only [term] at e
        subst e
        exact hu.numbered 2 hg
      obtain ⟨ns'', m'', h1, h2⟩ := holds_add hs hk hm (ts.map (term g d)) hgs
      rw [hrun] at h1
      cases h1
      exact ⟨ts.map (term g d), .column g d ts hne hr hused hg h0 (component_read hc (hu.one _ _ (.inl rfl) hc) hd) ht, h2⟩

/-- A card that says something is read. -/
theorem card_complete {selects : List (Case.MatrixKind × Line)} {s : State} {hist : Line → List Given}
    (hs : Holds selects s hist) {card : List Line} (hu : Usual card) {gs : List Given}
    (h : Says (Used selects) card gs) : ∃ s', Bars.runCard (parseDMIG s) card = .ok s' := by
  have hname : nameOf card ≠ [] → nextString none (at' card 1) = .ok (nameOf card, at' card 2) :=
    fun h => (nextString_given _ _ _ _).mpr ⟨h, rfl, rfl⟩
  rw [start_at]
  unfold parseDMIG
  simp only [bind_assoc']
  cases h with
  | reserved h =>
    have hne : nameOf card ≠ [] := by
      rcases h with h | h <;> rw [h] <;> decide
    rw [hname hne, Outcome.bind_ok]
    refine ⟨s, ?_⟩
    rcases h with h | h
    · simp only [h, if_true]
      rw [Outcome.bind_ok, skipKeyword_at]
      exact end_iff.mpr ⟨ends_length _, rfl⟩
    · simp only [h, if_true]
      rw [if_neg (by decide), Outcome.bind_ok, skipKeyword_at]
      exact end_iff.mpr ⟨ends_length _, rfl⟩
  | unused n hne hr hn h2 =>
    obtain ⟨hr1, hr2⟩ := not_reserved.mp hr
    rw [hname hne, Outcome.bind_ok]
    simp only [hr1, hr2, if_false, nextInt_at, bind_assoc', Outcome.bind_ok, readInt_given.mpr h2]
    rw [(find_none hs _).mpr hn]
    refine ⟨s, ?_⟩
    simp only
    rw [Outcome.bind_ok, skipKeyword_at]
    exact end_iff.mpr ⟨ends_length _, rfl⟩
  | header hne hr hn hh =>
    obtain ⟨hr1, hr2⟩ := not_reserved.mp hr
    rw [hname hne, Outcome.bind_ok]
    simp only [hr1, hr2, if_false, nextInt_at, bind_assoc', Outcome.bind_ok, readInt_given.mpr hh.zero]
    cases hf : s.byName.find (nameOf card) with
    | none => exact absurd hn ((find_none hs _).mp hf)
    | some i =>
      refine ⟨s, ?_⟩
      simp only [if_true]
      exact (header_iff _ _ _).mpr ⟨hh.form, hh.input, hh.output, hh.polar, hh.columns, hh.ends, rfl⟩
  | column g d ts hne hr hn h2 h0 h3 h5 =>
    obtain ⟨hr1, hr2⟩ := not_reserved.mp hr
    rw [hname hne, Outcome.bind_ok]
    simp only [hr1, hr2, if_false, nextInt_at, bind_assoc', Outcome.bind_ok, readInt_given.mpr h2]
    cases hf : s.byName.find (nameOf card) with
    | none => exact absurd hn ((find_none hs _).mp hf)
    | some i =>
      obtain ⟨k, hk⟩ := (hs.names _ i).mp hf
      obtain ⟨m, q, hm, _, _⟩ := hs.filled i k _ hk
      obtain ⟨n, hn', hd⟩ := read_component h3
      have hgs : ∀ e ∈ ts.map (term g d), e.x.1 ≠ AUTO_ID ∧ e.y.1 ≠ AUTO_ID := by
        intro e he'
        obtain ⟨t, ht', rfl⟩ := List.mem_map.mp he'
        refine ⟨?_, terms_numbered hu h5 t ht'⟩
        rintro e
        simp only [term] at e
        subst e
        exact hu.numbered 2 h2
      obtain ⟨ns', m', h1, _⟩ := holds_add hs hk hm (ts.map (term g d)) hgs
      have hl := terms_length h5
      obtain ⟨p, hp, hloop⟩ := loop_complete g d h5 (card.length + 1) (by omega) h1
      refine ⟨⟨ns', s.matrices.set i (k, m'), s.byName⟩, ?_⟩
      simp only [h0, if_false]
      unfold column
      rw [hm]
      simp only [nextInt_at, skip_at, bind_assoc', Outcome.bind_ok, readInt_given.mpr hn', hd]
      have hfl : (at' card (2 + 1 + 1 + 1)).fields.length = card.length := rfl
      rw [hfl, hloop, Outcome.bind_ok]
      exact end_iff.mpr ⟨hp, rfl⟩

theorem about_nil (n : Line) : about n [] [] = [] := rfl

theorem run_sound {selects : List (Case.MatrixKind × Line)} : ∀ (cards : List (List Line)) {s s' : State}
    {hist : Line → List Given}, Holds selects s hist → (∀ card ∈ cards, Usual card) → run s cards = .ok s' →
    ∃ said, List.Forall₂ (Says (Used selects)) cards said ∧ Holds selects s' (fun n => hist n ++ about n cards said)
  | [], s, s', hist, hs, _, h => by
    cases h
    refine ⟨[], List.Forall₂.nil, ?_⟩
    simp only [about_nil, List.append_nil]
    exact hs
  | card :: cards, s, s', hist, hs, hu, h => by
    unfold run at h
    obtain ⟨s1, h1, h⟩ := bind_ok_iff.mp h
    obtain ⟨gs, hg, hs1⟩ := card_sound hs (hu _ List.mem_cons_self) h1
    obtain ⟨said, h2, h3⟩ := run_sound cards hs1 (fun c hc => hu c (List.mem_cons_of_mem _ hc)) h
    refine ⟨gs :: said, .cons hg h2, ?_⟩
    have : (fun n => hist n ++ about n (card :: cards) (gs :: said))
        = fun n => (if nameOf card = n then hist n ++ gs else hist n) ++ about n cards said := by
      funext n
      simp only [about]
      split <;> simp
    rw [this]
    exact h3

theorem run_complete {selects : List (Case.MatrixKind × Line)} : ∀ (cards : List (List Line)) (said : List (List Given))
    {s : State} {hist : Line → List Given}, Holds selects s hist → (∀ card ∈ cards, Usual card) →
    List.Forall₂ (Says (Used selects)) cards said → ∃ s', run s cards = .ok s'
  | [], _, s, _, _, _, _ => ⟨s, rfl⟩
  | card :: cards, _, s, hist, hs, hu, .cons hg hrest => by
    obtain ⟨s1, h1⟩ := card_complete hs (hu _ List.mem_cons_self) hg
    obtain ⟨gs, _, hs1⟩ := card_sound hs (hu _ List.mem_cons_self) h1
    obtain ⟨s', h⟩ := run_complete cards _ hs1 (fun c hc => hu c (List.mem_cons_of_mem _ hc)) hrest
    exact ⟨s', by simp only [run, h1, Outcome.bind_ok, h]⟩

theorem last_mem (l : List Given) (x y : Int × Dof) (v : Dbl) : ∀ r,
    l.foldl (fun r e => if e.about x y then some e.v else r) r = some v → r = some v ∨ ∃ e ∈ l, e.about x y := by
  induction l with
  | nil => exact fun r h => .inl h
  | cons e l ih =>
    intro r h
    by_cases he : e.about x y
    · exact .inr ⟨e, List.mem_cons_self, he⟩
    · rw [List.foldl_cons, if_neg he] at h
      rcases ih r h with h | ⟨e', h1, h2⟩
      · exact .inl h
      · exact .inr ⟨e', List.mem_cons_of_mem _ h1, h2⟩

theorem get_inj {ids : List Int} (hn : ids.Nodup) {p q : Nat} {a b : Int} (hp : ids[p]? = some a)
    (hq : ids[q]? = some b) : p = q ↔ a = b := by
  constructor
  · rintro rfl
    exact Option.some.inj (hp.symm.trans hq)
  · rintro rfl
    obtain ⟨h1, h2⟩ := List.getElem?_eq_some_iff.mp hp
    obtain ⟨h3, h4⟩ := List.getElem?_eq_some_iff.mp hq
    exact (List.Nodup.getElem_inj_iff hn).mp (h2.trans h4.symm)

theorem located_about {ids : List Int} (hn : ids.Nodup) {e : Given} {f : DirectSpec.Entry}
    (he : ids[f.x.1]? = some e.x.1 ∧ f.x.2 = e.x.2 ∧ ids[f.y.1]? = some e.y.1 ∧ f.y.2 = e.y.2 ∧ f.v = e.v)
    {x y : Int × Dof} {p q : Nat} (hp : ids[p]? = some x.1) (hq : ids[q]? = some y.1) :
    f.about (p, x.2) (q, y.2) ↔ e.about x y := by
  obtain ⟨h1, h2, h3, h4, _⟩ := he
  unfold DirectSpec.Entry.about Given.about
  simp only [Prod.ext_iff, h2, h4, get_inj hn h1 hp, get_inj hn h1 hq, get_inj hn h3 hp, get_inj hn h3 hq]

theorem located_fold {ids : List Int} (hn : ids.Nodup) {x y : Int × Dof} {p q : Nat} (hp : ids[p]? = some x.1)
    (hq : ids[q]? = some y.1) (h : List Given) (l : List DirectSpec.Entry)
    (hl : DirectSpec.Located ids (h.map tup) l) (r : Option Dbl) :
    l.foldl (fun r e => if e.about (p, x.2) (q, y.2) then some e.v else r) r
      = h.foldl (fun r e => if e.about x y then some e.v else r) r := by
  induction h generalizing l r with
  | nil => cases hl; rfl
  | cons e h ih =>
    cases hl with
    | cons he hl =>
      rename_i f l
      rw [List.foldl_cons, List.foldl_cons, ih l hl]
      congr 1
      have ha := located_about hn (e := e) he hp hq
      have hv : f.v = e.v := he.2.2.2.2
      by_cases hx : e.about x y
      · rw [if_pos hx, if_pos (ha.mpr hx), hv]
      · rw [if_neg hx, if_neg (fun h => hx (ha.mp h))]

theorem located_mem {ids : List Int} {h : List Given} {l : List DirectSpec.Entry}
    (hl : DirectSpec.Located ids (h.map tup) l) {e : Given} (he : e ∈ h) :
    (∃ p : Nat, ids[p]? = some e.x.1) ∧ ∃ q : Nat, ids[q]? = some e.y.1 := by
  induction h generalizing l with
  | nil => cases he
  | cons e' h ih =>
    cases hl with
    | cons h1 h2 =>
      rcases List.mem_cons.mp he with rfl | he
      · exact ⟨⟨_, h1.1⟩, ⟨_, h1.2.2.1⟩⟩
      · exact ih h2 he

theorem has_iff {ns : NodeStore} (hns : ns.Inv) {h : List Given} {l : List DirectSpec.Entry} {m : DirectMatrix}
    (hl : DirectSpec.Located ns.ids (h.map tup) l) (hm : DirectSpec.run (DirectMatrix.new .SYMMETRIC) l = .ok m)
    (x y : Int × Dof) (v : Dbl) : Has ns m x y v ↔ last h x y = some v := by
  obtain ⟨m', h1, h2⟩ := DirectSpec.C51_last_given l
  rw [hm] at h1
  cases h1
  constructor
  · rintro ⟨p, q, hp, hq, hr⟩
    rw [h2] at hr
    unfold DirectSpec.lastGiven at hr
    rw [located_fold hns.nodup hp hq h l hl] at hr
    exact hr
  · intro hv
    have hex : ∃ p q : Nat, ns.ids[p]? = some x.1 ∧ ns.ids[q]? = some y.1 := by
      rcases last_mem h x y v none hv with h' | ⟨e, he, ha⟩
      · cases h'
      · obtain ⟨⟨p, hp⟩, q, hq⟩ := located_mem hl he
        rcases ha with ⟨rfl, rfl⟩ | ⟨rfl, rfl⟩
        · exact ⟨p, q, hp, hq⟩
        · exact ⟨q, p, hq, hp⟩
    obtain ⟨p, q, hp, hq⟩ := hex
    refine ⟨p, q, hp, hq, ?_⟩
    rw [h2]
    unfold DirectSpec.lastGiven
    rw [located_fold hns.nodup hp hq h l hl]
    exact hv

/-! ## C132 -/

/-- **C132.** When the cards are read, each of them says something, and the first matrix that is selected by a name has, for
two components of nodes, the last coefficient given for them by the cards with this name, and no other. -/
theorem C132_coefficients (ns : NodeStore) (hns : ns.Inv) (selects : List (Case.MatrixKind × Line))
    (cards : List (List Line)) (hu : ∀ card ∈ cards, Usual card) (s : State)
    (h : run (start ns selects) cards = .ok s) :
    ∃ said, List.Forall₂ (Says (Used selects)) cards said ∧
      ∀ i k name, First selects i k name → ∃ m, s.matrices[i]? = some (k, m) ∧
        ∀ x y v, Has s.nodes m x y v ↔ last (about name cards said) x y = some v := by
  obtain ⟨said, h1, h2⟩ := run_sound cards (holds_start ns hns selects) hu h
  refine ⟨said, h1, fun i k name hf => ?_⟩
  obtain ⟨m, q, hm, hq, hr⟩ := h2.filled i k name hf
  exact ⟨m, hm, fun x y v => has_iff h2.nodes hq hr x y v⟩

/-- **C132, converse.** Cards that say something are read. -/
theorem C132_read (ns : NodeStore) (hns : ns.Inv) (selects : List (Case.MatrixKind × Line)) (cards : List (List Line))
    (hu : ∀ card ∈ cards, Usual card) (said : List (List Given)) (h : List.Forall₂ (Says (Used selects)) cards said) :
    ∃ s, run (start ns selects) cards = .ok s := run_complete cards said (holds_start ns hns selects) hu h

/-! ### a case -/

/-- Two matrices, three cards for the first, in the order and with the defaults of the format, and one for the second. -/
def sampleSelects : List (Case.MatrixKind × Line) := [(.stiffness, "KAAX".toList), (.mass, "MAAX".toList)]
def sampleCards : List (List Line) :=
  [["DMIG", "KAAX", "0", "6", "1", "", "", "", "2"].map String.toList,
    ["DMIG", "kaax", "7", "1", "", "7", "1", "5.", "", "4", "6", "2.5"].map String.toList,
    ["DMIG", "MAAX", "4", "0", "", "4", "0", "9."].map String.toList,
    ["DMIG", "KAAX", "4", "6", "", "7", "1", "3."].map String.toList,
    ["DMIG", "OTHER", "4", "6", "", "7"].map String.toList]

instance (card : List Line) (i : Nat) (n : Int) : Decidable (IsInt card i n) := by
  unfold IsInt; infer_instance

theorem isInt_in {card : List Line} {P : Nat → Int → Prop}
    (h : ∀ i ∈ List.range card.length, ∀ n, parseInt (field card i) = some n → P i n) :
    ∀ i n, IsInt card i n → P i n :=
  fun i n hi => h i (List.mem_range.mpr (isInt_lt hi)) n hi

/-- Enough to see that a card is usual. -/
def usualB (card : List Line) : Bool :=
  (List.range card.length).all fun i =>
    match parseInt (field card i) with
    | none => true
    | some n => n ≠ AUTO_ID && (!(i == 3 || (i % 4 == 2 && 6 ≤ i)) || n < 10)

theorem usual_of {card : List Line} (h : usualB card = true) : Usual card := by
  unfold usualB at h
  rw [List.all_eq_true] at h
  have key : ∀ i n, IsInt card i n → n ≠ AUTO_ID ∧ ((i = 3 ∨ ∃ k, i = 4 * k + 6) → n < 10) := by
    intro i n hi
    have := h i (List.mem_range.mpr (isInt_lt hi))
    unfold IsInt at hi
    rw [hi] at this
    simp only [Bool.and_eq_true, Bool.or_eq_true, Bool.not_eq_true', decide_eq_true_eq, Bool.or_eq_false_iff,
      Bool.and_eq_false_iff, beq_eq_false_iff_ne, decide_eq_false_iff_not] at this
    refine ⟨this.1, fun hc => ?_⟩
    rcases this.2 with ⟨h1, h2⟩ | h
    · rcases hc with rfl | ⟨k, rfl⟩
      · exact absurd rfl h1
      · omega
    · exact h
  exact ⟨fun i n hc hi => (key i n hi).2 hc, fun i hi => (key i _ hi).1 rfl⟩

/-- The cards are read and the state has a property. -/
def okAnd {α : Type} (x : Outcome α) (p : α → Bool) : Bool :=
  match x with
  | .ok a => p a
  | _ => false

theorem okAnd_iff {α : Type} {x : Outcome α} {p : α → Bool} (h : okAnd x p = true) : ∃ a, x = .ok a ∧ p a = true := by
  unfold okAnd at h
  split at h
  · exact ⟨_, rfl, h⟩
  · cases h

/-- The coefficient of a stiffness matrix for two positions. -/
def coefficient (s : State) (x y : Nat × Dof) : Option Dbl :=
  match s.matrices[0]? with
  | some (Case.MatrixKind.stiffness, m) => (m.findSubmatrix x.1 y.1).componentByDofs.find (x.2, y.2)
  | _ => none

theorem has_of {s : State} {x y : Int × Dof} {p q : Nat} {v : Dbl} (hp : s.nodes.ids[p]? = some x.1)
    (hq : s.nodes.ids[q]? = some y.1) (h : coefficient s (p, x.2) (q, y.2) = some v) :
    ∃ m, s.matrices[0]? = some (.stiffness, m) ∧ Has s.nodes m x y v := by
  unfold coefficient at h
  split at h
  · rename_i m hm
    exact ⟨m, hm, p, q, hp, hq, .inl h⟩
  · cases h

example : NodeStore.init.Inv ∧ (∀ card ∈ sampleCards, Usual card) ∧
    ∃ s, run (start NodeStore.init sampleSelects) sampleCards = .ok s ∧
      (∃ m, s.matrices[0]? = some (.stiffness, m) ∧ Has s.nodes m (7, .DX) (4, .RZ) 3) ∧
      ∃ m, s.matrices[0]? = some (.stiffness, m) ∧ Has s.nodes m (7, .DX) (7, .DX) 5 := by
  refine ⟨NodeStore.inv_init, ?_, ?_⟩
  · have : ∀ card ∈ sampleCards, usualB card = true := by decide +kernel
    exact fun card hc => usual_of (this card hc)
  · have : okAnd (run (start NodeStore.init sampleSelects) sampleCards) (fun s => s.nodes.ids = [7, 4] &&
        coefficient s (0, .DX) (1, .RZ) = some 3 && coefficient s (0, .DX) (0, .DX) = some 5) = true := by decide +kernel
    obtain ⟨s, h, hp⟩ := okAnd_iff this
    simp only [Bool.and_eq_true, decide_eq_true_eq] at hp
    exact ⟨s, h, has_of (p := 0) (q := 1) (by rw [hp.1.1]; rfl) (by rw [hp.1.1]; rfl) hp.1.2,
      has_of (p := 0) (q := 0) (by rw [hp.1.1]; rfl) (by rw [hp.1.1]; rfl) hp.2⟩

/-! ### where it is false -/

/-- **C132 is false of a name selected twice**, as stiffness and as mass for instance: only the first of the matrices is
filled, whatever the cards are; the others stay empty. -/
theorem C132_shared_false (ns : NodeStore) (hns : ns.Inv) (selects : List (Case.MatrixKind × Line))
    (cards : List (List Line)) (hu : ∀ card ∈ cards, Usual card) (s : State)
    (h : run (start ns selects) cards = .ok s) (i : Nat) (k : Case.MatrixKind) (name : Line)
    (hi : selects[i]? = some (k, name)) (hn : ∃ j k', j < i ∧ selects[j]? = some (k', name)) :
    ∃ m, s.matrices[i]? = some (k, m) ∧ ∀ x y v, ¬ Has s.nodes m x y v := by
  obtain ⟨said, _, h2⟩ := run_sound cards (holds_start ns hns selects) hu h
  refine ⟨_, h2.empty i k name hi ?_, fun x y v hx => ?_⟩
  · rintro ⟨_, hf⟩
    obtain ⟨j, k', hj, e⟩ := hn
    exact hf j k' hj e
  · have := (has_iff h2.nodes (h := []) (l := []) List.Forall₂.nil rfl x y v).mp hx
    cases this

/-- The same name for the stiffness and the mass, and a card for it. -/
def twice : List (Case.MatrixKind × Line) := [(.stiffness, "KAAX".toList), (.mass, "KAAX".toList)]

example : (∃ s, run (start NodeStore.init twice) [sampleCards[1]] = .ok s) ∧ twice[1]? = some (.mass, "KAAX".toList) ∧
    ∃ j k', j < 1 ∧ twice[j]? = some (k', "KAAX".toList) := by
  have : okAnd (run (start NodeStore.init twice) [sampleCards[1]]) (fun _ => true) = true := by decide +kernel
  obtain ⟨s, h, _⟩ := okAnd_iff this
  exact ⟨⟨s, h⟩, rfl, 0, .stiffness, by decide, rfl⟩

/-- The names in a command separated by blanks, as a list of matrices to add is written. -/
def listCommand : Case.Tok := Case.nextLine ⟨[], Cursor.start [], ["K2GG = KAAX KBBX".toList]⟩

/-- **C132 is false of names separated by blanks**: they are joined, the matrix is filled by no card with one of them, and the
command is accepted, although lists of names are to be refused. -/
theorem C132_list_false : (∃ cfg r, cfg.strict = true ∧ ∃ d : Case.Deck, d.matrices = [] ∧
      Case.commandStep cfg "K2GG".toList false { listCommand with cur := (Case.keyword listCommand.cur).2 } [] d = .ok r ∧
      r.deck.matrices = [(.stiffness, "KAAXKBBX".toList)]) ∧
    ∀ (ns : NodeStore) (cards : List (List Line)) (s : State), ns.Inv → (∀ card ∈ cards, Usual card) →
      (∀ card ∈ cards, nameOf card = "KAAX".toList ∨ nameOf card = "KBBX".toList) →
      run (start ns [(.stiffness, "KAAXKBBX".toList)]) cards = .ok s →
      ∃ m, s.matrices[0]? = some (.stiffness, m) ∧ ∀ x y v, ¬ Has s.nodes m x y v := by
  constructor
  · refine ⟨⟨true, true, fun _ => none⟩, ?_⟩
    have : okAnd (Case.commandStep ⟨true, true, fun _ => none⟩ "K2GG".toList false
        { listCommand with cur := (Case.keyword listCommand.cur).2 } [] Case.Deck.empty)
        (fun r => r.deck.matrices = [(.stiffness, "KAAXKBBX".toList)]) = true := by decide +kernel
    obtain ⟨r, h, hr⟩ := okAnd_iff this
    exact ⟨r, rfl, Case.Deck.empty, rfl, h, of_decide_eq_true hr⟩
  · intro ns cards s hns hu hc h
    obtain ⟨said, h1, h2⟩ := C132_coefficients ns hns _ cards hu s h
    obtain ⟨m, hm, hh⟩ := h2 0 .stiffness "KAAXKBBX".toList ⟨rfl, fun j k' hj => by omega⟩
    refine ⟨m, hm, fun x y v hx => ?_⟩
    have : ∀ (cards : List (List Line)) (said : List (List Given)),
        (∀ card ∈ cards, nameOf card = "KAAX".toList ∨ nameOf card = "KBBX".toList) →
        about "KAAXKBBX".toList cards said = [] := by
      intro cards
      induction cards with
      | nil => intro said _; cases said <;> rfl
      | cons card cards ih =>
        intro said hc
        cases said with
        | nil => rfl
        | cons gs said =>
          unfold about
          rw [ih said (fun c hx => hc c (List.mem_cons_of_mem _ hx)), List.append_nil, if_neg]
          rcases hc card List.mem_cons_self with e | e <;> rw [e] <;> decide
    rw [hh, this cards said hc] at hx
    cases hx

/-- **C132 is false of fields with several components**, which are no components: the card is accepted and the first of them is
taken for the whole. -/
theorem C132_component_false : ∃ s m,
    run (start NodeStore.init sampleSelects) [["DMIG", "KAAX", "7", "12", "", "7", "36", "5."].map String.toList] = .ok s ∧
      s.matrices[0]? = some (.stiffness, m) ∧ Has s.nodes m (7, .DX) (7, .DZ) 5 ∧ ∀ v, ¬ Has s.nodes m (7, .DY) (7, .RZ) v := by
  have : okAnd (run (start NodeStore.init sampleSelects)
      [["DMIG", "KAAX", "7", "12", "", "7", "36", "5."].map String.toList]) (fun s => s.nodes.ids = [7] &&
        coefficient s (0, .DX) (0, .DZ) = some 5 && coefficient s (0, .DY) (0, .RZ) = none &&
        coefficient s (0, .RZ) (0, .DY) = none) = true := by decide +kernel
  obtain ⟨s, h, hp⟩ := okAnd_iff this
  simp only [Bool.and_eq_true, decide_eq_true_eq] at hp
  obtain ⟨⟨⟨h1, h2⟩, h3⟩, h4⟩ := hp
  obtain ⟨m, hm, hh⟩ := has_of (s := s) (x := (7, .DX)) (y := (7, .DZ)) (p := 0) (q := 0) (by rw [h1]; rfl) (by rw [h1]; rfl) h2
  refine ⟨s, m, h, hm, hh, ?_⟩
  rintro v ⟨p, q, hp, hq, hr⟩
  rw [h1] at hp hq
  have hp0 : p = 0 := by
    cases p with
    | zero => rfl
    | succ p => simp at hp
  have hq0 : q = 0 := by
    cases q with
    | zero => rfl
    | succ q => simp at hq
  subst hp0 hq0
  unfold coefficient at h3 h4
  rw [hm] at h3 h4
  simp only at h3 h4
  rcases hr with hr | hr
  · simp only [h3] at hr
    cases hr
  · simp only [h4] at hr
    cases hr

end Dmig
end Vega
