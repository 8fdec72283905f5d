import Verif.Systus.Relations
import Verif.Dof.CoefsProps
import Mathlib.Data.List.Forall2

/-! # Relations made elements: property C117 -/
namespace Vega

/-! ## Specification -/
namespace RelationsSpec
open Relations

/-- The coefficients agree within the tolerance of comparisons. -/
def Close (a b : DofCoefs) : Prop := ∀ d, isEqual (a.getValue d) (b.getValue d) = true

/-- The row has the coefficients of the relation at the nodes, one after the other. -/
def RowOf (l : Lmpc) (ns : List Nat) (row : List DofCoefs) : Prop :=
  List.Forall₂ (fun n c => Close (l.getDoFCoefsForNode n) c) ns row

/-- The element sets impose the relation in the analysis: a cell on its nodes is in a set of the analysis that has a row for it. -/
def Imposed (st : State) (a : Int) (l : Lmpc) : Prop :=
  ∃ e ∈ st.sets, e.analysis = a ∧ ∃ c ∈ e.cells, st.cells[c]? = some (nodes l) ∧ ∃ row ∈ e.coefs, RowOf l (nodes l) row

/-- Every row of the set is, on every cell of the set, a relation of the model: `J a l` says that `l` is imposed in `a`. -/
def Justified (J : Int → Lmpc → Prop) (st : State) (e : Elem) : Prop :=
  ∀ c ∈ e.cells, ∃ ns, st.cells[c]? = some ns ∧ ∀ row ∈ e.coefs, ∃ l, J e.analysis l ∧ nodes l = ns ∧ RowOf l ns row

/-- The relation belongs to an analysis with the number. -/
def Belongs (as : List Analysis) (a : Int) (l : Lmpc) : Prop := ∃ x ∈ as, x.id = a ∧ ∃ s ∈ x.sets, l ∈ s

end RelationsSpec

namespace Relations
open RelationsSpec

/-! ## Lemmas -/

theorem lexLt_equiv (lt : α → α → Bool) (a : List α) : ∀ b, lexLt lt a b = false → lexLt lt b a = false →
    List.Forall₂ (fun x y => lt x y = false ∧ lt y x = false) a b := by
  induction a with
  | nil =>
    intro b h1 _
    cases b with
    | nil => exact .nil
    | cons y b => cases h1
  | cons x a ih =>
    intro b h1 h2
    cases b with
    | nil => cases h2
    | cons y b =>
      simp only [lexLt] at h1 h2
      cases hxy : lt x y with
      | true => rw [hxy] at h1; cases h1
      | false =>
        cases hyx : lt y x with
        | true => rw [hyx] at h2; cases h2
        | false =>
          rw [hxy, hyx] at h1
          rw [hyx, hxy] at h2
          exact .cons ⟨hxy, hyx⟩ (ih b h1 h2)

theorem close_of (a b : DofCoefs) (h : a.lt b = false ∧ b.lt a = false) : Close a b := by
  have he : a.eq b = true := by
    rcases DofCoefsSpec.C05_trichotomy a b with h' | h' | h'
    · rw [h.1] at h'; cases h'.1
    · rw [h.2] at h'; cases h'.2.1
    · exact h'.2.2
  intro d
  unfold DofCoefs.eq at he
  rw [List.all_eq_true] at he
  exact he d (by cases d <;> decide)

/-- Two rows that agree. -/
def RowEq (a b : List DofCoefs) : Prop := List.Forall₂ Close a b

theorem keyEq_of (a b : Key) (h1 : keyLt a b = false) (h2 : keyLt b a = false) : List.Forall₂ RowEq a b := by
  refine (lexLt_equiv _ a b h1 h2).imp ?_
  intro x y h
  exact (lexLt_equiv _ x y h.1 h.2).imp fun _ _ h => close_of _ _ h

theorem close_refl (a : DofCoefs) : Close a a := fun _ => isEqual_self _

theorem rowEq_refl (a : List DofCoefs) : RowEq a a := by
  induction a with
  | nil => exact .nil
  | cons x a ih => exact .cons (close_refl x) ih

theorem keyEq_refl (a : Key) : List.Forall₂ RowEq a a := by
  induction a with
  | nil => exact .nil
  | cons x a ih => exact .cons (rowEq_refl x) ih

theorem forall₂_left {R : α → β → Prop} {a : List α} {b : List β} (h : List.Forall₂ R a b) : ∀ x ∈ a, ∃ y ∈ b, R x y := by
  induction h with
  | nil => intro x hx; cases hx
  | cons h _ ih =>
    intro x hx
    rcases List.mem_cons.1 hx with rfl | hx
    · exact ⟨_, List.mem_cons_self, h⟩
    · obtain ⟨y, hy, hr⟩ := ih x hx
      exact ⟨y, List.mem_cons_of_mem _ hy, hr⟩

theorem forall₂_right {R : α → β → Prop} {a : List α} {b : List β} (h : List.Forall₂ R a b) : ∀ y ∈ b, ∃ x ∈ a, R x y := by
  induction h with
  | nil => intro x hx; cases hx
  | cons h _ ih =>
    intro x hx
    rcases List.mem_cons.1 hx with rfl | hx
    · exact ⟨_, List.mem_cons_self, h⟩
    · obtain ⟨y, hy, hr⟩ := ih x hx
      exact ⟨y, List.mem_cons_of_mem _ hy, hr⟩

theorem rowOf_sorted (l : Lmpc) (ns : List Nat) (row : List DofCoefs) (h : RowEq (sortedCoefs ns l) row) : RowOf l ns row := by
  unfold RowEq sortedCoefs at h
  exact List.forall₂_map_left_iff.1 h

theorem appendAll_ok (k : Key) : ∀ e e', Elem.appendAll k e = .ok e' → e.coefs.length + k.length ≤ 6 ∨ k = [] := by
  induction k with
  | nil => intro _ _ _; exact .inr rfl
  | cons c r ih =>
    intro e e' h
    left
    have h' : (e.append c >>= fun e => Elem.appendAll r e) = .ok e' := h
    unfold Elem.append at h'
    split at h'
    · cases h'
    · rename_i hl
      rcases ih _ e' h' with h2 | h2
      · simp only [List.length_append, List.length_cons, List.length_nil] at h2 ⊢
        omega
      · subst h2
        simp only [List.length_cons, List.length_nil]
        omega

theorem appendAll_eq (k : Key) : ∀ e e', Elem.appendAll k e = .ok e' → e' = { e with coefs := e.coefs ++ k } := by
  induction k with
  | nil => intro e e' h; cases h; simp
  | cons c r ih =>
    intro e e' h
    have h' : (e.append c >>= fun e => Elem.appendAll r e) = .ok e' := h
    unfold Elem.append at h'
    split at h'
    · cases h'
    · rw [ih _ e' h']
      simp

/-- What later rounds keep. -/
def Grow (st st' : State) : Prop :=
  (∃ l, st'.cells = st.cells ++ l) ∧ ∀ (i : Nat) (e : Elem), st.sets[i]? = some e →
    ∃ e' : Elem, st'.sets[i]? = some e' ∧ e'.analysis = e.analysis ∧ e'.coefs = e.coefs ∧ ∀ c ∈ e.cells, c ∈ e'.cells

theorem grow_refl (st : State) : Grow st st := ⟨⟨[], by simp⟩, fun _ e h => ⟨e, h, rfl, rfl, fun _ h => h⟩⟩

theorem grow_trans {a b c : State} (h1 : Grow a b) (h2 : Grow b c) : Grow a c := by
  obtain ⟨⟨l1, e1⟩, f1⟩ := h1
  obtain ⟨⟨l2, e2⟩, f2⟩ := h2
  refine ⟨⟨l1 ++ l2, by rw [e2, e1, List.append_assoc]⟩, fun i e h => ?_⟩
  obtain ⟨e', g1, g2, g3, g4⟩ := f1 i e h
  obtain ⟨e'', k1, k2, k3, k4⟩ := f2 i e' g1
  exact ⟨e'', k1, k2.trans g2, k3.trans g3, fun c hc => k4 c (g4 c hc)⟩

theorem cells_mono {st st' : State} (h : Grow st st') (c : Nat) (ns : List Nat) (hc : st.cells[c]? = some ns) :
    st'.cells[c]? = some ns := by
  obtain ⟨⟨l, e⟩, _⟩ := h
  rw [e, List.getElem?_append_left (List.getElem?_eq_some_iff.1 hc).1, hc]

/-- A row is imposed on nodes. -/
def Covered (st : State) (a : Int) (ns : List Nat) (row : List DofCoefs) : Prop :=
  ∃ e ∈ st.sets, e.analysis = a ∧ ∃ c ∈ e.cells, st.cells[c]? = some ns ∧ ∃ r ∈ e.coefs, RowEq row r

theorem covered_mono {st st' : State} (h : Grow st st') (a : Int) (ns : List Nat) (row : List DofCoefs)
    (hc : Covered st a ns row) : Covered st' a ns row := by
  obtain ⟨e, he, ha, c, hce, hcs, r, hr, hrow⟩ := hc
  obtain ⟨i, hi⟩ := List.mem_iff_getElem?.1 he
  obtain ⟨e', g1, g2, g3, g4⟩ := h.2 i e hi
  exact ⟨e', List.mem_iff_getElem?.2 ⟨i, g1⟩, g2.trans ha, c, g4 c hce, cells_mono h c ns hcs, r, g3 ▸ hr, hrow⟩

/-- The entries of the table refer to sets of the analysis with these very coefficients. -/
def TableOk (a : Int) (t : Table) (st : State) : Prop :=
  ∀ k i, (k, i) ∈ t → ∃ e, st.sets[i]? = some e ∧ e.analysis = a ∧ e.coefs = k

theorem tableOk_mono {st st' : State} (h : Grow st st') (a : Int) (t : Table) (ht : TableOk a t st) : TableOk a t st' := by
  intro k i hk
  obtain ⟨e, h1, h2, h3⟩ := ht k i hk
  obtain ⟨e', g1, g2, g3, _⟩ := h.2 i e h1
  exact ⟨e', g1, g2.trans h2, g3.trans h3⟩

/-- All sets are justified. -/
def AllOk (J : Int → Lmpc → Prop) (st : State) : Prop := ∀ e ∈ st.sets, Justified J st e

/-- Putting a new cell in a set. -/
theorem addCell_spec (J : Int → Lmpc → Prop) (cells : List (List Nat)) (sets : List Elem) (ns : List Nat) (i : Nat) (e : Elem)
    (he : sets[i]? = some e) (hj : ∀ e ∈ sets, Justified J ⟨cells, sets⟩ e)
    (hn : ∀ row ∈ e.coefs, ∃ l, J e.analysis l ∧ nodes l = ns ∧ RowOf l ns row) :
    Grow ⟨cells, sets⟩ ⟨cells ++ [ns], addCell sets i cells.length⟩ ∧ AllOk J ⟨cells ++ [ns], addCell sets i cells.length⟩ ∧
      (addCell sets i cells.length)[i]? = some { e with cells := e.cells ++ [cells.length] } ∧
      (cells ++ [ns])[cells.length]? = some ns := by
  have hnew : (cells ++ [ns])[cells.length]? = some ns := by
    rw [List.getElem?_append_right (Nat.le_refl _), Nat.sub_self]; rfl
  have hat : (addCell sets i cells.length)[i]? = some { e with cells := e.cells ++ [cells.length] } := by
    unfold addCell
    rw [List.getElem?_modify, he]
    simp
  have hother : ∀ j, j ≠ i → (addCell sets i cells.length)[j]? = sets[j]? := by
    intro j hj
    unfold addCell
    have hij : ¬ i = j := fun h => hj h.symm
    rw [List.getElem?_modify]
    simp [hij]
  have hgrow : Grow ⟨cells, sets⟩ ⟨cells ++ [ns], addCell sets i cells.length⟩ := by
    refine ⟨⟨[ns], rfl⟩, fun j x hx => ?_⟩
    rcases Nat.decEq j i with hji | hji
    · exact ⟨x, (hother j hji).trans hx, rfl, rfl, fun _ h => h⟩
    · subst hji
      have : some e = some x := he.symm.trans hx
      cases this
      exact ⟨_, hat, rfl, rfl, fun c hc => List.mem_append_left _ hc⟩
  refine ⟨hgrow, ?_, hat, hnew⟩
  intro x hx
  obtain ⟨j, hjx⟩ := List.mem_iff_getElem?.1 hx
  have old : ∀ y ∈ sets, ∀ c ∈ y.cells, ∃ ns', (cells ++ [ns])[c]? = some ns' ∧
      ∀ row ∈ y.coefs, ∃ l, J y.analysis l ∧ nodes l = ns' ∧ RowOf l ns' row := by
    intro y hy c hc
    obtain ⟨ns', h1, h2⟩ := hj y hy c hc
    exact ⟨ns', cells_mono hgrow c ns' h1, h2⟩
  rcases Nat.decEq j i with hji | hji
  · have hjx' : sets[j]? = some x := (hother j hji).symm.trans hjx
    exact old x (List.mem_iff_getElem?.2 ⟨j, hjx'⟩)
  · subst hji
    have : some _ = some x := hat.symm.trans hjx
    cases this
    intro c hc
    rcases List.mem_append.1 hc with hc | hc
    · exact old e (List.mem_iff_getElem?.2 ⟨j, he⟩) c hc
    · rw [List.mem_singleton] at hc
      subst hc
      exact ⟨ns, hnew, hn⟩

theorem bind_ok_inv {x : Outcome α} {f : α → Outcome β} {b : β} (h : (x >>= f) = .ok b) : ∃ a, x = .ok a ∧ f a = .ok b := by
  cases x with
  | ok a => exact ⟨a, rfl, h⟩
  | throw => cases h
  | ub => cases h
  | diverges => cases h

theorem polyType_ok (n : Nat) (t : CellType) (h : CellType.polyType n = .ok t) : 1 ≤ n ∧ n ≤ 20 := by
  unfold CellType.polyType at h
  split at h
  · omega
  · omega
  · split at h
    · omega
    · cases h
  · cases h

/-- What a round does. -/
theorem slice_spec (J : Int → Lmpc → Prop) (look : Search) (hl : look.Sound) (a : Int) (ns : List Nat) (all part : Key)
    (t t' : Table) (st st' : State) (h : slice look a ns all part t st = .ok (t', st'))
    (hall : all.length ≤ 6 → part = all) (hrow : ∀ row ∈ part, ∃ l, J a l ∧ nodes l = ns ∧ row = sortedCoefs ns l)
    (ht : TableOk a t st) (hj : AllOk J st) :
    Grow st st' ∧ TableOk a t' st' ∧ AllOk J st' ∧ (1 ≤ ns.length ∧ ns.length ≤ 20) ∧ ∀ row ∈ part, Covered st' a ns row := by
  unfold slice at h
  obtain ⟨ct, hct, h⟩ := bind_ok_inv h
  have hlen := polyType_ok _ _ hct
  simp only at h
  cases hlook : look t part with
  | none =>
    simp only [hlook] at h
    obtain ⟨e, he, h⟩ := bind_ok_inv h
    cases h
    have hcount : part = all := by
      apply hall
      rcases appendAll_ok all _ e he with h' | h'
      · simpa using h'
      · rw [h']; simp
    have heq : e = ⟨a, all, []⟩ := by
      rw [appendAll_eq all _ e he]
      rfl
    have hget : (st.sets ++ [e])[st.sets.length]? = some e := by
      rw [List.getElem?_append_right (Nat.le_refl _), Nat.sub_self]; rfl
    have hmid : Grow st ⟨st.cells, st.sets ++ [e]⟩ := by
      refine ⟨⟨[], by simp⟩, fun i x hx => ⟨x, ?_, rfl, rfl, fun _ h => h⟩⟩
      show (st.sets ++ [e])[i]? = _
      rw [List.getElem?_append_left (List.getElem?_eq_some_iff.1 hx).1, hx]
    have hj' : ∀ x ∈ st.sets ++ [e], Justified J ⟨st.cells, st.sets ++ [e]⟩ x := by
      intro x hx
      rcases List.mem_append.1 hx with hx | hx
      · exact hj x hx
      · rw [List.mem_singleton] at hx
        subst hx
        intro c hc
        rw [heq] at hc
        cases hc
    obtain ⟨g1, g2, g3, g4⟩ := addCell_spec J st.cells (st.sets ++ [e]) ns st.sets.length e hget hj' (by
      intro row hr
      rw [heq] at hr ⊢
      obtain ⟨l, h1, h2, h3⟩ := hrow row (hcount ▸ hr)
      exact ⟨l, h1, h2, rowOf_sorted l ns row (h3 ▸ rowEq_refl _)⟩)
    have hg := grow_trans hmid g1
    refine ⟨hg, ?_, g2, hlen, ?_⟩
    · intro k i hk
      rcases List.mem_append.1 hk with hk | hk
      · exact tableOk_mono hg a t ht k i hk
      · rw [List.mem_singleton] at hk
        cases hk
        exact ⟨_, g3, by rw [heq], by rw [heq, hcount]⟩
    · intro row hr
      refine ⟨_, List.mem_iff_getElem?.2 ⟨_, g3⟩, by rw [heq], st.cells.length, by simp, g4, row, ?_, rowEq_refl _⟩
      rw [heq]
      exact hcount ▸ hr
  | some i =>
    simp only [hlook] at h
    cases h
    obtain ⟨k', hk', q1, q2⟩ := hl t part i hlook
    obtain ⟨e, he, ha, hc⟩ := ht k' i hk'
    have hkey := keyEq_of part k' q1 q2
    obtain ⟨g1, g2, g3, g4⟩ := addCell_spec J st.cells st.sets ns i e he hj (by
      intro row hr
      rw [hc] at hr
      obtain ⟨row', hr', hre⟩ := forall₂_right hkey row hr
      obtain ⟨l, h1, h2, h3⟩ := hrow row' hr'
      exact ⟨l, ha ▸ h1, h2, rowOf_sorted l ns row (h3 ▸ hre)⟩)
    refine ⟨g1, tableOk_mono g1 a t ht, g2, hlen, ?_⟩
    intro row hr
    obtain ⟨r, hr', hre⟩ := forall₂_left hkey row hr
    exact ⟨_, List.mem_iff_getElem?.2 ⟨_, g3⟩, ha, st.cells.length, by simp, g4, r, by rw [← hc] at hr'; exact hr', hre⟩

theorem slices_spec (J : Int → Lmpc → Prop) (look : Search) (hl : look.Sound) (a : Int) (ns : List Nat) (all : Key)
    (hrow : ∀ row ∈ all, ∃ l, J a l ∧ nodes l = ns ∧ row = sortedCoefs ns l) (n : Nat) :
    ∀ i t t' st st', all.length - i ≤ n → i % 6 = 0 → slices look a ns all i t st = .ok (t', st') → TableOk a t st → AllOk J st →
      Grow st st' ∧ TableOk a t' st' ∧ AllOk J st' ∧
        ∀ row ∈ all.drop i, Covered st' a ns row ∧ 1 ≤ ns.length ∧ ns.length ≤ 20 := by
  induction n with
  | zero =>
    intro i t t' st st' hn _ h ht hj
    unfold slices at h
    rw [if_neg (by omega)] at h
    cases h
    refine ⟨grow_refl st, ht, hj, ?_⟩
    intro row hr
    rw [List.drop_eq_nil_of_le (by omega)] at hr
    cases hr
  | succ n ih =>
    intro i t t' st st' hn hi h ht hj
    unfold slices at h
    by_cases hlt : i < all.length
    · rw [if_pos hlt] at h
      obtain ⟨⟨t₁, st₁⟩, h1, h2⟩ := bind_ok_inv h
      have hsub : ∀ row ∈ (all.drop i).take 6, row ∈ all := fun row hr => List.mem_of_mem_drop (List.mem_of_mem_take hr)
      obtain ⟨g1, g2, g3, g4, g5⟩ := slice_spec J look hl a ns all _ t t₁ st st₁ h1 (by
        intro h6
        have : i = 0 := by omega
        subst this
        rw [List.drop_zero, List.take_of_length_le h6]) (fun row hr => hrow row (hsub row hr)) ht hj
      obtain ⟨k1, k2, k3, k4⟩ := ih (i + 6) t₁ t' st₁ st' (by omega) (by omega) h2 g2 g3
      refine ⟨grow_trans g1 k1, k2, k3, ?_⟩
      intro row hr
      rw [← List.take_append_drop 6 (all.drop i), List.mem_append, List.drop_drop] at hr
      rcases hr with hr | hr
      · exact ⟨covered_mono k1 a ns row (g5 row hr), g4⟩
      · exact k4 row hr
    · rw [if_neg hlt] at h
      cases h
      refine ⟨grow_refl st, ht, hj, ?_⟩
      intro row hr
      rw [List.drop_eq_nil_of_le (by omega)] at hr
      cases hr

theorem groups_spec (J : Int → Lmpc → Prop) (look : Search) (hl : look.Sound) (a : Int) (es : List (List Nat × List Lmpc))
    (hes : ∀ x ∈ es, ∀ l ∈ x.2, J a l ∧ nodes l = x.1) :
    ∀ t st st', groups look a es t st = .ok st' → TableOk a t st → AllOk J st →
      Grow st st' ∧ AllOk J st' ∧ ∀ x ∈ es, ∀ l ∈ x.2, Imposed st' a l ∧ 1 ≤ (nodes l).length ∧ (nodes l).length ≤ 20 := by
  induction es with
  | nil =>
    intro t st st' h _ hj
    cases h
    exact ⟨grow_refl st, hj, fun x hx => by cases hx⟩
  | cons x r ih =>
    intro t st st' h ht hj
    obtain ⟨ns, ls⟩ := x
    have h' : (slices look a ns (ls.map (sortedCoefs ns)) 0 t st >>= fun q => groups look a r q.1 q.2) = .ok st' := h
    obtain ⟨⟨t₁, st₁⟩, h1, h2⟩ := bind_ok_inv h'
    have hx := hes (ns, ls) List.mem_cons_self
    obtain ⟨g1, g2, g3, g4⟩ := slices_spec J look hl a ns (ls.map (sortedCoefs ns)) (by
      intro row hr
      obtain ⟨l, hl, rfl⟩ := List.mem_map.1 hr
      exact ⟨l, (hx l hl).1, (hx l hl).2, rfl⟩) _ 0 t t₁ st st₁ (Nat.le_refl _) rfl h1 ht hj
    obtain ⟨k1, k2, k3⟩ := ih (fun y hy => hes y (List.mem_cons_of_mem _ hy)) t₁ st₁ st' h2 g2 g3
    refine ⟨grow_trans g1 k1, k2, ?_⟩
    intro y hy l hl'
    rcases List.mem_cons.1 hy with rfl | hy
    · have hn : nodes l = ns := (hx l hl').2
      obtain ⟨c1, c2⟩ := g4 (sortedCoefs ns l) (List.mem_map.2 ⟨l, hl', rfl⟩)
      obtain ⟨e, he, ha, c, hce, hcs, row, hr, hre⟩ := covered_mono k1 a ns _ c1
      rw [hn]
      refine ⟨⟨e, he, ha, c, hce, ?_, row, hr, ?_⟩, c2⟩
      · rw [hn]; exact hcs
      · rw [hn]; exact rowOf_sorted l ns row hre
    · exact k3 y hy l hl'

/-- What the grouping gives. -/
theorem group_spec (ls : List Lmpc) : ∀ m : Map (List Nat) (List Lmpc), m.WF → (ls.foldl groupStep m).WF ∧
    ∀ k, (∀ gs, (ls.foldl groupStep m).find k = some gs → ∀ l ∈ gs, (l ∈ ls ∧ nodes l = k) ∨ ∃ g0, m.find k = some g0 ∧ l ∈ g0) ∧
      (∀ g0, m.find k = some g0 → ∃ gs, (ls.foldl groupStep m).find k = some gs ∧ ∀ l ∈ g0, l ∈ gs) ∧
      (∀ l ∈ ls, nodes l = k → ∃ gs, (ls.foldl groupStep m).find k = some gs ∧ l ∈ gs) := by
  induction ls with
  | nil =>
    intro m hm
    exact ⟨hm, fun k => ⟨fun gs h l hl => .inr ⟨gs, h, hl⟩, fun g0 h => ⟨g0, h, fun _ h => h⟩, fun l hl => by cases hl⟩⟩
  | cons x ls ih =>
    intro m hm
    have hw : (groupStep m x).WF := by
      unfold groupStep
      split <;> exact Map.wf_set _ _ _ hm
    have hfind : ∀ k, (groupStep m x).find k = if nodes x = k then some ((m.find k).getD [] ++ [x]) else m.find k := by
      intro k
      unfold groupStep
      split
      · rename_i hx
        rw [Map.find_set]
        split
        · rename_i hk
          subst hk
          rw [hx]; rfl
        · rfl
      · rename_i g hx
        rw [Map.find_set]
        split
        · rename_i hk
          subst hk
          rw [hx]; rfl
        · rfl
    obtain ⟨i1, i2⟩ := ih (groupStep m x) hw
    refine ⟨i1, fun k => ?_⟩
    obtain ⟨j1, j2, j3⟩ := i2 k
    refine ⟨?_, ?_, ?_⟩
    · intro gs h l hl
      rcases j1 gs h l hl with ⟨h1, h2⟩ | ⟨g0, h1, h2⟩
      · exact .inl ⟨List.mem_cons_of_mem _ h1, h2⟩
      · rw [hfind k] at h1
        split at h1
        · rename_i hk
          cases h1
          rcases List.mem_append.1 h2 with h2 | h2
          · right
            cases hmk : m.find k with
            | none => rw [hmk] at h2; cases h2
            | some g => rw [hmk] at h2; exact ⟨g, rfl, h2⟩
          · rw [List.mem_singleton] at h2
            subst h2
            exact .inl ⟨List.mem_cons_self, hk⟩
        · exact .inr ⟨g0, h1, h2⟩
    · intro g0 h
      by_cases hk : nodes x = k
      · obtain ⟨gs, h1, h2⟩ := j2 (g0 ++ [x]) (by rw [hfind k, if_pos hk, h]; rfl)
        exact ⟨gs, h1, fun l hl => h2 l (List.mem_append_left _ hl)⟩
      · exact j2 g0 (by rw [hfind k, if_neg hk, h])
    · intro l hl hk
      rcases List.mem_cons.1 hl with rfl | hl
      · obtain ⟨gs, h1, h2⟩ := j2 _ (by rw [hfind k, if_pos hk])
        exact ⟨gs, h1, h2 l (List.mem_append_right _ List.mem_cons_self)⟩
      · exact j3 l hl hk

theorem group_mem (ls : List Lmpc) : (∀ x ∈ group ls, ∀ l ∈ x.2, l ∈ ls ∧ nodes l = x.1) ∧
    ∀ l ∈ ls, ∃ x ∈ group ls, l ∈ x.2 := by
  obtain ⟨hw, h⟩ := group_spec ls [] Map.wf_nil
  constructor
  · intro x hx l hl
    have hf := (Map.mem_iff_find _ hw x.1 x.2).1 hx
    rcases (h x.1).1 x.2 hf l hl with h' | ⟨g0, h', _⟩
    · exact h'
    · cases h'
  · intro l hl
    obtain ⟨gs, h1, h2⟩ := (h (nodes l)).2.2 l hl rfl
    exact ⟨(nodes l, gs), (Map.mem_iff_find _ hw _ _).2 h1, h2⟩

theorem sets_spec (J : Int → Lmpc → Prop) (look : Search) (hl : look.Sound) (a : Int) (ss : List (List Lmpc))
    (hss : ∀ s ∈ ss, ∀ l ∈ s, J a l) : ∀ st st', constraintSets look a ss st = .ok st' → AllOk J st →
      Grow st st' ∧ AllOk J st' ∧ ∀ s ∈ ss, ∀ l ∈ s, Imposed st' a l ∧ 1 ≤ (nodes l).length ∧ (nodes l).length ≤ 20 := by
  induction ss with
  | nil =>
    intro st st' h hj
    cases h
    exact ⟨grow_refl st, hj, fun x hx => by cases hx⟩
  | cons s r ih =>
    intro st st' h hj
    have h' : (groups look a (group s) [] st >>= fun st => constraintSets look a r st) = .ok st' := h
    obtain ⟨st₁, h1, h2⟩ := bind_ok_inv h'
    obtain ⟨m1, m2⟩ := group_mem s
    obtain ⟨g1, g2, g3⟩ := groups_spec J look hl a (group s)
      (fun x hx l hl => ⟨hss s List.mem_cons_self l (m1 x hx l hl).1, (m1 x hx l hl).2⟩) [] st st₁ h1
      (fun k i hk => by cases hk) hj
    obtain ⟨k1, k2, k3⟩ := ih (fun t ht => hss t (List.mem_cons_of_mem _ ht)) st₁ st' h2 g2
    refine ⟨grow_trans g1 k1, k2, ?_⟩
    intro t ht l hl'
    rcases List.mem_cons.1 ht with rfl | ht
    · obtain ⟨x, hx, hlx⟩ := m2 l hl'
      obtain ⟨⟨e, he, ha, c, hce, hcs, row, hr, hrow⟩, hlen⟩ := g3 x hx l hlx
      obtain ⟨i, hi⟩ := List.mem_iff_getElem?.1 he
      obtain ⟨e', q1, q2, q3, q4⟩ := k1.2 i e hi
      exact ⟨⟨e', List.mem_iff_getElem?.2 ⟨i, q1⟩, q2.trans ha, c, q4 c hce, cells_mono k1 _ _ hcs, row, q3 ▸ hr, hrow⟩, hlen⟩
    · exact k3 t ht l hl'

theorem make_spec (J : Int → Lmpc → Prop) (look : Search) (hl : look.Sound) (as : List Analysis)
    (has : ∀ a ∈ as, ∀ s ∈ a.sets, ∀ l ∈ s, J a.id l) : ∀ st st', make look as st = .ok st' → AllOk J st →
      Grow st st' ∧ AllOk J st' ∧
        ∀ a ∈ as, ∀ s ∈ a.sets, ∀ l ∈ s, Imposed st' a.id l ∧ 1 ≤ (nodes l).length ∧ (nodes l).length ≤ 20 := by
  induction as with
  | nil =>
    intro st st' h hj
    cases h
    exact ⟨grow_refl st, hj, fun x hx => by cases hx⟩
  | cons a r ih =>
    intro st st' h hj
    have h' : (constraintSets look a.id a.sets st >>= fun st => make look r st) = .ok st' := h
    obtain ⟨st₁, h1, h2⟩ := bind_ok_inv h'
    obtain ⟨g1, g2, g3⟩ := sets_spec J look hl a.id a.sets (has a List.mem_cons_self) st st₁ h1 hj
    obtain ⟨k1, k2, k3⟩ := ih (fun t ht => has t (List.mem_cons_of_mem _ ht)) st₁ st' h2 g2
    refine ⟨grow_trans g1 k1, k2, ?_⟩
    intro t ht s hs l hl'
    rcases List.mem_cons.1 ht with rfl | ht
    · obtain ⟨⟨e, he, ha, c, hce, hcs, row, hr, hrow⟩, hlen⟩ := g3 s hs l hl'
      obtain ⟨i, hi⟩ := List.mem_iff_getElem?.1 he
      obtain ⟨e', q1, q2, q3, q4⟩ := k1.2 i e hi
      exact ⟨⟨e', List.mem_iff_getElem?.2 ⟨i, q1⟩, q2.trans ha, c, q4 c hce, cells_mono k1 _ _ hcs, row, q3 ▸ hr, hrow⟩, hlen⟩
    · exact k3 t ht s hs l hl'

/-! ## C117 -/

/-- **C117.** If the relations are translated at all, every relation of every analysis is imposed by an element of that analysis. -/
theorem C117_imposed_partial (look : Search) (hl : look.Sound) (as : List Analysis) (st : State)
    (h : make look as ⟨[], []⟩ = .ok st) (a : Int) (l : Lmpc) (hb : Belongs as a l) : Imposed st a l := by
  obtain ⟨x, hx, rfl, s, hs, hls⟩ := hb
  exact ((make_spec (fun _ _ => True) look hl as (fun _ _ _ _ _ _ => trivial) _ st h
    (fun e he => by cases he)).2.2 x hx s hs l hls).1

/-- **C117, converse.** Nothing else is imposed: every row of an element set is, on every cell of the set, a relation of the analysis
of the set. -/
theorem C117_justified (look : Search) (hl : look.Sound) (as : List Analysis) (st : State)
    (h : make look as ⟨[], []⟩ = .ok st) : ∀ e ∈ st.sets, Justified (Belongs as) st e :=
  (make_spec (Belongs as) look hl as (fun a ha s hs l hl => ⟨a, ha, rfl, s, hs, hl⟩) _ st h (fun e he => by cases he)).2.1

/-- **C117, nodes.** The nodes of the cell of a relation are those of the relation, in increasing order. -/
theorem C117_nodes (l : Lmpc) : (nodes l).Perm l.nodePositions ∧ (nodes l).Pairwise (· ≤ ·) :=
  ⟨List.perm_insertionSort _ _, List.pairwise_insertionSort _ _⟩

/-- **C117 is false of relations of more than twenty nodes:** a model with one is not translated. -/
theorem C117_long_false (look : Search) (hl : look.Sound) (as : List Analysis) (a : Int) (l : Lmpc) (hb : Belongs as a l)
    (hn : 20 < l.nodePositions.length) (st : State) : make look as ⟨[], []⟩ ≠ .ok st := by
  intro h
  obtain ⟨x, hx, rfl, s, hs, hls⟩ := hb
  have := ((make_spec (fun _ _ => True) look hl as (fun _ _ _ _ _ _ => trivial) _ st h
    (fun e he => by cases he)).2.2 x hx s hs l hls).2.2
  rw [(C117_nodes l).1.length_eq] at this
  omega

theorem appendAll_throw (k : Key) : ∀ e : Elem, e.coefs.length ≤ 6 → 6 < e.coefs.length + k.length → Elem.appendAll k e = .throw := by
  induction k with
  | nil => intro e h1 h2; simp only [List.length_nil] at h2; omega
  | cons c r ih =>
    intro e h1 h2
    show (e.append c >>= fun e => Elem.appendAll r e) = .throw
    unfold Elem.append
    split
    · rfl
    · rename_i hl
      simp only [Outcome.bind_ok]
      refine ih _ ?_ ?_
      · simp only [List.length_append, List.length_cons, List.length_nil]; omega
      · simp only [List.length_append, List.length_cons, List.length_nil] at h2 ⊢; omega

theorem group_same (ls : List Lmpc) (ns : List Nat) (h : ∀ l ∈ ls, nodes l = ns) : ∀ g0 : List Lmpc,
    ls.foldl groupStep [(ns, g0)] = [(ns, g0 ++ ls)] := by
  induction ls with
  | nil => intro g0; simp
  | cons x r ih =>
    intro g0
    have hx := h x List.mem_cons_self
    have : groupStep [(ns, g0)] x = [(ns, g0 ++ [x])] := by
      unfold groupStep
      rw [hx]
      simp [Map.find, Map.set]
    rw [List.foldl_cons, this, ih (fun l hl => h l (List.mem_cons_of_mem _ hl))]
    simp

/-- **C117 is false of more than six relations between the same nodes:** although they are cut into slices of six, an element set is
given all of them, and refuses the seventh. -/
theorem C117_many_false (look : Search) (hl : look.Sound) (a : Int) (ls : List Lmpc) (ns : List Nat) (hns : ∀ l ∈ ls, nodes l = ns)
    (hlen : 1 ≤ ns.length ∧ ns.length ≤ 20) (hmany : 6 < ls.length) (rest : List (List Lmpc)) (as : List Analysis) (st : State) :
    make look (⟨a, ls :: rest⟩ :: as) st = .throw := by
  have hg : group ls = [(ns, ls)] := by
    cases ls with
    | nil => simp at hmany
    | cons x r =>
      have hx := hns x List.mem_cons_self
      unfold group
      have h0 : groupStep [] x = [(ns, [x])] := by
        unfold groupStep
        rw [hx]
        rfl
      rw [List.foldl_cons, h0, group_same r ns (fun l hl => hns l (List.mem_cons_of_mem _ hl))]
      rfl
  have hlook : ∀ k, look [] k = none := by
    intro k
    cases hk : look [] k with
    | none => rfl
    | some i =>
      obtain ⟨_, h', _⟩ := hl [] k i hk
      cases h'
  have hpoly : ∃ t, CellType.polyType ns.length = .ok t := by
    unfold CellType.polyType
    split
    · exact ⟨_, rfl⟩
    · exact ⟨_, rfl⟩
    · rw [dif_pos (by omega)]; exact ⟨_, rfl⟩
    · omega
  obtain ⟨ct, hct⟩ := hpoly
  have hs : ∀ part, slice look a ns (ls.map (sortedCoefs ns)) part [] st = .throw := by
    intro part
    unfold slice
    rw [hct]
    simp only [Outcome.bind_ok, hlook]
    rw [appendAll_throw _ _ (by simp) (by simpa using hmany)]
    rfl
  have hsl : slices look a ns (ls.map (sortedCoefs ns)) 0 [] st = .throw := by
    unfold slices
    rw [if_pos (by rw [List.length_map]; omega), hs]
    rfl
  show ((groups look a (group ls) [] st >>= fun st => constraintSets look a rest st) >>= fun st => make look as st) = .throw
  rw [hg]
  show (((slices look a ns (ls.map (sortedCoefs ns)) 0 [] st >>= fun q => groups look a [] q.1 q.2) >>= fun st =>
    constraintSets look a rest st) >>= fun st => make look as st) = .throw
  rw [hsl]
  rfl

/-- The same relations with other right-hand sides. -/
def reset (v : Lmpc → Dbl) (l : Lmpc) : Lmpc := { l with coefImpo := v l }

theorem group_reset (v : Lmpc → Dbl) (ls : List Lmpc) : ∀ m : Map (List Nat) (List Lmpc),
    (ls.map (reset v)).foldl groupStep (m.map fun x => (x.1, x.2.map (reset v))) =
      (ls.foldl groupStep m).map fun x => (x.1, x.2.map (reset v)) := by
  induction ls with
  | nil => intro m; rfl
  | cons x r ih =>
    intro m
    have hfind : ∀ (m : Map (List Nat) (List Lmpc)) k, Map.find (m.map fun x => (x.1, x.2.map (reset v))) k = (m.find k).map (·.map (reset v)) := by
      intro m k
      induction m with
      | nil => rfl
      | cons y m ih2 =>
        obtain ⟨k', g⟩ := y
        simp only [List.map_cons, Map.find]
        split
        · rfl
        · exact ih2
    have hset : ∀ (m : Map (List Nat) (List Lmpc)) k g, Map.set (m.map fun x => (x.1, x.2.map (reset v))) k (g.map (reset v)) =
        (m.set k g).map fun x => (x.1, x.2.map (reset v)) := by
      intro m k g
      induction m with
      | nil => rfl
      | cons y m ih2 =>
        obtain ⟨k', g'⟩ := y
        simp only [List.map_cons, Map.set]
        split
        · rfl
        · rw [List.map_cons, ih2]
    have hstep : groupStep (m.map fun x => (x.1, x.2.map (reset v))) (reset v x) = (groupStep m x).map fun x => (x.1, x.2.map (reset v)) := by
      have hn : nodes (reset v x) = nodes x := rfl
      unfold groupStep
      rw [hn, hfind]
      cases m.find (nodes x) with
      | none => exact hset m (nodes x) [x]
      | some g =>
        show Map.set _ _ (g.map (reset v) ++ [reset v x]) = _
        have : g.map (reset v) ++ [reset v x] = (g ++ [x]).map (reset v) := by simp
        rw [this, hset]
    rw [List.map_cons, List.foldl_cons, hstep, ih, List.foldl_cons]

theorem groups_reset (look : Search) (a : Int) (v : Lmpc → Dbl) (es : List (List Nat × List Lmpc)) : ∀ t st,
    groups look a (es.map fun x => (x.1, x.2.map (reset v))) t st = groups look a es t st := by
  induction es with
  | nil => intro _ _; rfl
  | cons x r ih =>
    intro t st
    obtain ⟨ns, ls⟩ := x
    show (slices look a ns ((ls.map (reset v)).map (sortedCoefs ns)) 0 t st >>= fun q => groups look a (r.map fun x => (x.1, x.2.map (reset v))) q.1 q.2) = (slices look a ns (ls.map (sortedCoefs ns)) 0 t st >>= fun q => groups look a r q.1 q.2)
    have : (ls.map (reset v)).map (sortedCoefs ns) = ls.map (sortedCoefs ns) := by
      rw [List.map_map]
      rfl
    rw [this]
    simp only [ih]

theorem sets_reset (look : Search) (a : Int) (v : Lmpc → Dbl) (ss : List (List Lmpc)) : ∀ st,
    constraintSets look a (ss.map (·.map (reset v))) st = constraintSets look a ss st := by
  induction ss with
  | nil => intro _; rfl
  | cons s r ih =>
    intro st
    show (groups look a (group (s.map (reset v))) [] st >>= fun st => constraintSets look a (r.map (·.map (reset v))) st) =
      (groups look a (group s) [] st >>= fun st => constraintSets look a r st)
    have : group (s.map (reset v)) = (group s).map fun x => (x.1, x.2.map (reset v)) := group_reset v s []
    rw [this, groups_reset]
    simp only [ih]

/-- **C117 is false of relations with a right-hand side:** whatever the right-hand sides, the elements are the same. -/
theorem C117_value_false (look : Search) (v : Lmpc → Dbl) (as : List Analysis) : ∀ st,
    make look (as.map fun a => ⟨a.id, a.sets.map (·.map (reset v))⟩) st = make look as st := by
  induction as with
  | nil => intro _; rfl
  | cons a r ih =>
    intro st
    show (constraintSets look a.id (a.sets.map (·.map (reset v))) st >>= fun st => make look (r.map fun a => ⟨a.id, a.sets.map (·.map (reset v))⟩) st) =
      (constraintSets look a.id a.sets st >>= fun st => make look r st)
    rw [sets_reset]
    simp only [ih]

theorem flatMap_get (f : α → List β) (n : Nat) (l : List α) (hn : ∀ x ∈ l, (f x).length = n) : ∀ i j x, l[i]? = some x → j < n →
    (l.flatMap f)[i * n + j]? = (f x)[j]? := by
  induction l with
  | nil => intro i j x h; simp at h
  | cons y l ih =>
    intro i j x h hj
    have hy := hn y List.mem_cons_self
    rw [List.flatMap_cons]
    cases i with
    | zero =>
      have : y = x := by simpa using h
      subst this
      rw [List.getElem?_append_left (by omega)]
      congr 1
      omega
    | succ i =>
      have h' : l[i]? = some x := by simpa using h
      have hs : (i + 1) * n + j = n + (i * n + j) := by rw [Nat.add_mul]; omega
      rw [hs, List.getElem?_append_right (by omega), hy, Nat.add_sub_cancel_left]
      exact ih (fun z hz => hn z (List.mem_cons_of_mem _ hz)) i j x h' hj

theorem flatMap_length (f : α → List β) (n : Nat) (l : List α) (hn : ∀ x ∈ l, (f x).length = n) : (l.flatMap f).length = l.length * n := by
  induction l with
  | nil => simp
  | cons y l ih =>
    rw [List.flatMap_cons, List.length_append, hn y List.mem_cons_self, ih (fun z hz => hn z (List.mem_cons_of_mem _ hz)),
      List.length_cons, Nat.add_mul]
    omega

/-- **C117, tables.** The table of a set whose relations have `n` nodes has the coefficient of relation `r`, node `i` and component `j`
at the place `(r n + i) nb + j`, if nodes have `nb` components. -/
theorem C117_table (nb n : Nat) (hnb : nb ≤ 6) (e : Elem) (hn : ∀ row ∈ e.coefs, row.length = n) (r i j : Nat)
    (row : List DofCoefs) (c : DofCoefs) (d : Dof) (hr : e.coefs[r]? = some row) (hi : row[i]? = some c) (hj : (dofList nb)[j]? = some d) :
    (table nb e)[(r * n + i) * nb + j]? = some (c.getValue d) ∧ (table nb e).length = e.coefs.length * n * nb := by
  have hd : (dofList nb).length = nb := by
    unfold dofList
    rw [List.length_take]
    simp only [List.length_cons, List.length_nil]
    omega
  have hinner : ∀ c : DofCoefs, ((dofList nb).map c.getValue).length = nb := fun c => by rw [List.length_map, hd]
  have hrow : ∀ x ∈ e.coefs, (x.flatMap fun c => (dofList nb).map c.getValue).length = n * nb := by
    intro x hx
    rw [flatMap_length _ nb x (fun c _ => hinner c), hn x hx]
  have hj' : j < nb := hd ▸ (List.getElem?_eq_some_iff.1 hj).1
  have hi' : i < n := hn row (List.mem_of_getElem? hr) ▸ (List.getElem?_eq_some_iff.1 hi).1
  constructor
  · have hlt : i * nb + j < n * nb := by
      have : (i + 1) * nb ≤ n * nb := Nat.mul_le_mul_right nb hi'
      rw [Nat.add_mul] at this
      omega
    have hs : (r * n + i) * nb + j = r * (n * nb) + (i * nb + j) := by
      rw [Nat.add_mul, Nat.mul_assoc]; omega
    unfold table
    rw [hs, flatMap_get _ (n * nb) e.coefs hrow r (i * nb + j) row hr hlt,
      flatMap_get _ nb row (fun c _ => hinner c) i j c hi hj', List.getElem?_map, hj]
    rfl
  · unfold table
    rw [flatMap_length _ (n * nb) e.coefs hrow, Nat.mul_assoc]

/-! ## The hypotheses are satisfiable -/

/-- The search that finds the first equivalent entry. -/
def first : Search := fun t k => (t.find? fun x => !keyLt k x.1 && !keyLt x.1 k).map (·.2)

theorem first_sound : first.Sound := by
  intro t k i h
  unfold first at h
  cases hf : t.find? fun x => !keyLt k x.1 && !keyLt x.1 k with
  | none => rw [hf] at h; cases h
  | some x =>
    rw [hf] at h
    cases h
    have h1 := List.mem_of_find?_eq_some hf
    have h2 := List.find?_some hf
    simp only [Bool.and_eq_true, Bool.not_eq_true'] at h2
    exact ⟨x.1, h1, h2.1, h2.2⟩

/-- Two relations `u₁ = u₂` and `u₃ = u₄` with the same coefficients, one with three nodes. -/
def exRelations : List Lmpc :=
  [⟨[(2, .ofValues (-1) 0 0 0 0 0), (1, .ofValues 1 0 0 0 0 0)], 0⟩, ⟨[(3, .ofValues 1 0 0 0 0 0), (4, .ofValues (-1) 0 0 0 0 0)], 5⟩,
    ⟨[(1, .ofValues 1 0 0 0 0 0), (2, .ofValues 1 0 0 0 0 0), (3, .ofValues 0 0 1 0 0 0)], 0⟩]

/-- What is looked at of the result. -/
def shown : Outcome State → Option (List (List Nat) × List (Int × List Nat × Nat))
  | .ok st => some (st.cells, st.sets.map fun e => (e.analysis, e.cells, e.coefs.length))
  | _ => none

/-- The translation succeeds, and puts the two relations with the same coefficients in one set. -/
example : shown (make first [⟨1, [exRelations]⟩, ⟨2, [exRelations]⟩] ⟨[], []⟩) =
    some ([[1, 2], [3, 4], [1, 2, 3], [1, 2], [3, 4], [1, 2, 3]], [(1, [0, 1], 1), (1, [2], 1), (2, [3, 4], 1), (2, [5], 1)]) := by
  decide +kernel

example : Belongs [⟨1, [exRelations]⟩] 1 ⟨[(3, .ofValues 1 0 0 0 0 0), (4, .ofValues (-1) 0 0 0 0 0)], 5⟩ :=
  ⟨_, List.mem_cons_self, rfl, _, List.mem_cons_self, List.mem_cons_of_mem _ List.mem_cons_self⟩

/-- Seven relations between the nodes 1 and 2. -/
example : shown (make first [⟨1, [(List.range 7).map fun i =>
    ⟨[(1, .ofValues (i + 1 : Nat) 0 0 0 0 0), (2, .ofValues 1 0 0 0 0 0)], 0⟩]⟩] ⟨[], []⟩) = none := by
  decide +kernel

end Relations
end Vega
