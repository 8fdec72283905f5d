import Verif.Mesh.Named
import Verif.Mesh.CellProps

/-! # C134: elements named by loads and groups -/
namespace Vega
namespace NamedSpec
open Named

/-- The elements of a part of the file, in order. -/
def elements : List Card → List Element
  | [] => []
  | .element e :: cs => e :: elements cs
  | .names _ _ :: cs => elements cs

/-- A file whose elements have the right number of nodes and numbers of their own. -/
structure Sound (deck : List Card) : Prop where
  nodes : ∀ e ∈ elements deck, e.nodeIds.length = e.type.numNodes ∧ ∀ i ∈ e.nodeIds, i ≠ AUTO_ID
  ids : ∀ e ∈ elements deck, e.id ≠ AUTO_ID
  distinct : ((elements deck).map (·.id)).Nodup

/-- Some card of the owner names this element. -/
def Names (deck : List Card) (owner i : Int) : Prop :=
  ∃ before l after, deck = before ++ .names owner l :: after ∧ i ∈ l

/-- Some card of the owner names this element, and the element stands before this card. -/
def NamesAfter (deck : List Card) (owner i : Int) : Prop :=
  ∃ before l after, deck = before ++ .names owner l :: after ∧ i ∈ l ∧ ∃ e ∈ elements before, e.id = i

/-- Some card of the owner names this element, and the element does not stand before this card. -/
def NamesBefore (deck : List Card) (owner i : Int) : Prop :=
  ∃ before l after, deck = before ++ .names owner l :: after ∧ i ∈ l ∧ ¬ ∃ e ∈ elements before, e.id = i

/-- This cell of the mesh is this element of the file. -/
def Shows (v : CellView) (e : Element) : Prop :=
  v.id = e.id ∧ v.type = e.type ∧ v.nodeIds = e.nodeIds ∧ v.elementId = e.part

end NamedSpec

namespace Named
open NamedSpec CellSpec

/-! ## Lemmas -/

def given (e : Element) : Given := ⟨e.id, e.type, e.nodeIds, e.part, e.offset⟩

theorem elements_append (a b : List Card) : elements (a ++ b) = elements a ++ elements b := by
  induction a with
  | nil => rfl
  | cons c cs ih => cases c <;> simp [elements, ih]

theorem run_append (s : State) (a b : List Card) : run s (a ++ b) = (run s a >>= fun s => run s b) := by
  induction a generalizing s with
  | nil => rfl
  | cons c cs ih =>
    simp only [List.cons_append, run]
    cases step s c with
    | ok s' => simp only [Outcome.bind_ok]; exact ih s'
    | _ => rfl

theorem mem_addCellIds (m : Mesh) (l : List Int) (b : Box) (x : Option Nat) :
    x ∈ addCellIds m b l ↔ x ∈ b ∨ ∃ i ∈ l, m.findCellPosition i = x := by
  induction l generalizing b with
  | nil => simp [addCellIds]
  | cons i is ih =>
    simp only [addCellIds]
    rw [ih]
    by_cases h : m.findCellPosition i ∈ b
    · rw [if_pos h]
      constructor
      · rintro (h1 | ⟨j, h1, h2⟩)
        · exact .inl h1
        · exact .inr ⟨j, by simp [h1], h2⟩
      · rintro (h1 | ⟨j, h1, h2⟩)
        · exact .inl h1
        · rcases List.mem_cons.mp h1 with rfl | h1
          · exact .inl (h2 ▸ h)
          · exact .inr ⟨j, h1, h2⟩
    · rw [if_neg h]
      simp only [List.mem_append, List.mem_cons, List.not_mem_nil, or_false, or_assoc, exists_eq_or_imp]
      constructor
      · rintro (h1 | h1 | h1)
        · exact .inl h1
        · exact .inr (.inl h1.symm)
        · exact .inr (.inr h1)
      · rintro (h1 | h1 | h1)
        · exact .inl h1
        · exact .inr (.inl h1.symm)
        · exact .inr (.inr h1)

/-- What a position in the container of an owner means. -/
def Means (before : List Card) (i : Int) : Option Nat → Prop
  | some p => ∃ e, (elements before)[p]? = some e ∧ e.id = i
  | none => ¬ ∃ e ∈ elements before, e.id = i

structure Inv (deck : List Card) (s : State) : Prop where
  mesh : CInv s.mesh ((elements deck).map given)
  boxes : ∀ o x, x ∈ s.box o ↔ ∃ before l after i, deck = before ++ .names o l :: after ∧ i ∈ l ∧ Means before i x

theorem position {deck : List Card} {m : Mesh} (h : CInv m ((elements deck).map given))
    (hd : ((elements deck).map (·.id)).Nodup) (i : Int) (x : Option Nat) : m.findCellPosition i = x ↔ Means deck i x := by
  have key : ∀ p, m.findCellPosition i = some p ↔ ∃ e, (elements deck)[p]? = some e ∧ e.id = i := by
    intro p
    unfold Mesh.findCellPosition
    rw [h.index]
    constructor
    · rintro ⟨⟨c, h1, h2⟩, _⟩
      rw [List.getElem?_map] at h1
      cases he : (elements deck)[p]? with
      | none => rw [he] at h1; cases h1
      | some e =>
        rw [he] at h1
        cases h1
        exact ⟨e, rfl, h2⟩
    · rintro ⟨e, h1, h2⟩
      refine ⟨⟨given e, by rw [List.getElem?_map, h1]; rfl, h2⟩, ?_⟩
      intro q c hq h3 h4
      rw [List.getElem?_map] at h3
      cases he : (elements deck)[q]? with
      | none => rw [he] at h3; cases h3
      | some e' =>
        rw [he] at h3
        cases h3
        have hp' : ((elements deck).map (·.id))[p]? = some i := by rw [List.getElem?_map, h1]; simp [h2]
        have hq' : ((elements deck).map (·.id))[q]? = some i := by rw [List.getElem?_map, he]; exact congrArg some h4
        have hlt : p < ((elements deck).map (·.id)).length := by
          by_contra hc
          rw [List.getElem?_eq_none (by omega)] at hp'
          cases hp'
        have := (List.getElem?_inj hlt hd).mp (hp'.trans hq'.symm)
        omega
  cases x with
  | some p => exact key p
  | none =>
    constructor
    · rintro hn ⟨e, he, hi⟩
      obtain ⟨p, hp⟩ := List.getElem?_of_mem he
      rw [(key p).mpr ⟨e, hp, hi⟩] at hn
      cases hn
    · intro hn
      cases hf : m.findCellPosition i with
      | none => rfl
      | some p =>
        obtain ⟨e, he, hi⟩ := (key p).mp hf
        exact absurd ⟨e, List.mem_of_getElem? he, hi⟩ hn

theorem snoc_eq {α : Type} {a before after : List α} {b x : α} (h : a ++ [b] = before ++ x :: after) :
    (after = [] ∧ a = before ∧ b = x) ∨ ∃ after', after = after' ++ [b] ∧ a = before ++ x :: after' := by
  rcases List.eq_nil_or_concat after with rfl | ⟨l, y, rfl⟩
  · have := List.append_inj' h rfl
    exact .inl ⟨rfl, this.1, by simpa using this.2⟩
  · rw [List.concat_eq_append] at h ⊢
    have h' : a ++ [b] = (before ++ x :: l) ++ [y] := by simpa using h
    have := List.append_inj' h' rfl
    have hb : b = y := by simpa using this.2
    exact .inr ⟨l, by rw [hb], this.1⟩

def start (auto part autoCell : Int) : State := ⟨Mesh.init (NodeSpec.empty auto part) autoCell, []⟩

theorem inv_start (auto part autoCell : Int) : Inv [] (start auto part autoCell) := by
  refine ⟨(Reach.empty auto part autoCell).cinv, ?_⟩
  intro o x
  simp [start, State.box]

theorem box_set (s : State) (o o' : Int) (b : Box) :
    ({ s with boxes := s.boxes.set o b } : State).box o' = if o' = o then b else s.box o' := by
  unfold State.box
  simp only [Map.find_set]
  by_cases h : o' = o
  · subst h; simp
  · simp [h, Ne.symm h]

theorem inv_run (auto part autoCell : Int) (deck : List Card) (hs : Sound deck) :
    ∃ s, run (start auto part autoCell) deck = .ok s ∧ Inv deck s := by
  induction deck using List.reverseRecOn with
  | nil => exact ⟨_, rfl, inv_start auto part autoCell⟩
  | append_singleton deck c ih =>
    have hs' : Sound deck := by
      have he := elements_append deck [c]
      refine ⟨fun e h => hs.nodes e (by rw [he]; simp [h]), fun e h => hs.ids e (by rw [he]; simp [h]), ?_⟩
      have := hs.distinct
      rw [he, List.map_append, List.nodup_append] at this
      exact this.1
    obtain ⟨s, hr, hi⟩ := ih hs'
    rw [run_append, hr, Outcome.bind_ok]
    cases c with
    | element e =>
      have he : elements (deck ++ [.element e]) = elements deck ++ [e] := elements_append _ _
      have hv : (given e).Valid := hs.nodes e (by rw [he]; simp)
      have hid : (given e).id ≠ AUTO_ID := hs.ids e (by rw [he]; simp)
      obtain ⟨cid, auto', h1, h2, _⟩ := pickCellId_spec s.mesh e.id
      obtain ⟨m', h3, _, h5⟩ := addCell_eq hi.mesh e.id (given e) hv cid auto' h1
      have h4 : s.mesh.addCell e.id e.type e.nodeIds e.part e.offset = .ok (m', ((elements deck).map given).length) := h3
      refine ⟨{ s with mesh := m' }, ?_, ?_, ?_⟩
      · simp only [run, step, h4, Outcome.bind_ok]
      · rw [he, List.map_append]
        rw [h2 hid] at h5
        exact h5
      · intro o x
        refine (hi.boxes o x).trans ⟨?_, ?_⟩
        · rintro ⟨b, l, a, i, h1, h2, h3⟩
          exact ⟨b, l, a ++ [.element e], i, by rw [h1]; simp, h2, h3⟩
        · rintro ⟨b, l, a, i, h1, h2, h3⟩
          rcases snoc_eq h1 with ⟨_, _, hc⟩ | ⟨a', _, h1⟩
          · cases hc
          · exact ⟨b, l, a', i, h1, h2, h3⟩
    | names o l =>
      have he : elements (deck ++ [.names o l]) = elements deck := by rw [elements_append]; simp [elements]
      refine ⟨_, rfl, ?_, ?_⟩
      · rw [he]; exact hi.mesh
      · intro o' x
        rw [box_set]
        have hold : x ∈ s.box o' → ∃ before l' after i, deck ++ [.names o l] = before ++ .names o' l' :: after ∧ i ∈ l' ∧
            Means before i x := by
          intro h
          obtain ⟨b, l', a, i, h1, h2, h3⟩ := (hi.boxes o' x).mp h
          exact ⟨b, l', a ++ [.names o l], i, by rw [h1]; simp, h2, h3⟩
        by_cases ho : o' = o
        · subst ho
          rw [if_pos rfl, mem_addCellIds]
          constructor
          · rintro (h | ⟨i, h1, h2⟩)
            · exact hold h
            · exact ⟨deck, l, [], i, rfl, h1, (position hi.mesh hs'.distinct i x).mp h2⟩
          · rintro ⟨b, l', a, i, h1, h2, h3⟩
            rcases snoc_eq h1 with ⟨_, rfl, hc⟩ | ⟨a', _, h1⟩
            · cases hc
              exact .inr ⟨i, h2, (position hi.mesh hs'.distinct i x).mpr h3⟩
            · exact .inl ((hi.boxes o' x).mpr ⟨b, l', a', i, h1, h2, h3⟩)
        · rw [if_neg ho]
          constructor
          · exact hold
          · rintro ⟨b, l', a, i, h1, h2, h3⟩
            rcases snoc_eq h1 with ⟨_, _, hc⟩ | ⟨a', _, h1⟩
            · cases hc; exact absurd rfl ho
            · exact (hi.boxes o' x).mpr ⟨b, l', a', i, h1, h2, h3⟩

theorem prefix_get {before l after : List Card} {p : Nat} {e : Element} (h : l = before ++ after)
    (hp : (elements before)[p]? = some e) : (elements l)[p]? = some e := by
  rw [h, elements_append, List.getElem?_append_left]
  · exact hp
  · by_contra hc
    rw [List.getElem?_eq_none (by omega)] at hp
    cases hp

theorem shown {deck : List Card} {m : Mesh} (h : CInv m ((elements deck).map given)) {p : Nat} {e : Element}
    (hp : (elements deck)[p]? = some e) : (∃ v, m.findCell p = .ok v ∧ Shows v e) ∧ m.findCellId p = .ok e.id := by
  have hg : ((elements deck).map given)[p]? = some (given e) := by rw [List.getElem?_map, hp]; rfl
  obtain ⟨v, h1, h2, h3, h4, _, h6, _⟩ := findCell_spec h p _ hg
  exact ⟨⟨v, h1, h2, h3, h4, h6⟩, h.findCellId p _ hg⟩

/-- Every position of a container that is not missing is that of an element. -/
def Fine (deck : List Card) (b : Box) : Prop := ∀ p, some p ∈ b → ∃ e, (elements deck)[p]? = some e

theorem grouped_ok {deck : List Card} {m : Mesh} (h : CInv m ((elements deck).map given)) (b : Box) (hf : Fine deck b) :
    ∃ vs, grouped m b = .ok vs ∧ (∀ v ∈ vs, ∃ p e, some p ∈ b ∧ (elements deck)[p]? = some e ∧ Shows v e) ∧
      ∀ p e, some p ∈ b → (elements deck)[p]? = some e → ∃ v ∈ vs, Shows v e := by
  induction b with
  | nil => exact ⟨[], rfl, by simp, by simp⟩
  | cons x b ih =>
    obtain ⟨vs, h1, h2, h3⟩ := ih (fun p hp => hf p (by simp [hp]))
    cases x with
    | none =>
      refine ⟨vs, h1, ?_, ?_⟩
      · intro v hv
        obtain ⟨p, e, hp, he, hs⟩ := h2 v hv
        exact ⟨p, e, by simp [hp], he, hs⟩
      · intro p e hp he
        exact h3 p e (by simpa using hp) he
    | some q =>
      obtain ⟨e, he⟩ := hf q (by simp)
      obtain ⟨⟨v, hv, hs⟩, _⟩ := shown h he
      refine ⟨v :: vs, by simp only [grouped, hv, Outcome.bind_ok, h1], ?_, ?_⟩
      · intro w hw
        rcases List.mem_cons.mp hw with rfl | hw
        · exact ⟨q, e, by simp, he, hs⟩
        · obtain ⟨p, e, hp, he, hs⟩ := h2 w hw
          exact ⟨p, e, by simp [hp], he, hs⟩
      · intro p e' hp he'
        rcases List.mem_cons.mp hp with hpq | hp
        · cases hpq
          rw [he] at he'
          cases he'
          exact ⟨v, by simp, hs⟩
        · obtain ⟨w, hw, hs⟩ := h3 p e' hp he'
          exact ⟨w, by simp [hw], hs⟩

theorem cells_eq (m : Mesh) (b : Box) (h : none ∉ b) : cells m b = grouped m b := by
  induction b with
  | nil => rfl
  | cons x b ih =>
    cases x with
    | none => simp at h
    | some p => simp only [cells, grouped, ih (by simpa using h)]

theorem cells_throw {deck : List Card} {m : Mesh} (h : CInv m ((elements deck).map given)) (b : Box) (hf : Fine deck b)
    (hn : none ∈ b) : cells m b = .throw := by
  induction b with
  | nil => cases hn
  | cons x b ih =>
    cases x with
    | none => rfl
    | some p =>
      obtain ⟨e, he⟩ := hf p (by simp)
      obtain ⟨⟨v, hv, _⟩, _⟩ := shown h he
      simp only [cells, hv, Outcome.bind_ok, ih (fun p hp => hf p (by simp [hp])) (by simpa using hn), Outcome.bind_throw]

theorem ids_ub {deck : List Card} {m : Mesh} (h : CInv m ((elements deck).map given)) (b : Box) (hf : Fine deck b)
    (hn : none ∈ b) : ids m b = .ub := by
  induction b with
  | nil => cases hn
  | cons x b ih =>
    cases x with
    | none => rfl
    | some p =>
      obtain ⟨e, he⟩ := hf p (by simp)
      simp only [ids, (shown h he).2, Outcome.bind_ok, ih (fun p hp => hf p (by simp [hp])) (by simpa using hn), Outcome.bind_ub]

theorem ids_ok {deck : List Card} {m : Mesh} (h : CInv m ((elements deck).map given)) (b : Box) (hf : Fine deck b)
    (hn : none ∉ b) : ∃ l, ids m b = .ok l ∧ ∀ i, i ∈ l ↔ ∃ p e, some p ∈ b ∧ (elements deck)[p]? = some e ∧ e.id = i := by
  induction b with
  | nil => exact ⟨[], rfl, by simp⟩
  | cons x b ih =>
    cases x with
    | none => simp at hn
    | some q =>
      obtain ⟨l, h1, h2⟩ := ih (fun p hp => hf p (by simp [hp])) (by simpa using hn)
      obtain ⟨e, he⟩ := hf q (by simp)
      refine ⟨e.id :: l, by simp only [ids, (shown h he).2, Outcome.bind_ok, h1], ?_⟩
      intro i
      rw [List.mem_cons, h2]
      constructor
      · rintro (rfl | ⟨p, e', hp, he', hi⟩)
        · exact ⟨q, e, by simp, he, rfl⟩
        · exact ⟨p, e', by simp [hp], he', hi⟩
      · rintro ⟨p, e', hp, he', hi⟩
        rcases List.mem_cons.mp hp with hpq | hp
        · cases hpq
          rw [he] at he'
          cases he'
          exact .inl hi.symm
        · exact .inr ⟨p, e', hp, he', hi⟩

theorem inv_fine {deck : List Card} {s : State} (h : Inv deck s) (o : Int) : Fine deck (s.box o) := by
  intro p hp
  obtain ⟨b, l, a, i, h1, _, e, h3, _⟩ := (h.boxes o _).mp hp
  exact ⟨e, prefix_get h1 h3⟩

theorem inv_some {deck : List Card} {s : State} (h : Inv deck s) (hs : Sound deck) (o : Int) (p : Nat) (e : Element)
    (he : (elements deck)[p]? = some e) : some p ∈ s.box o ↔ NamesAfter deck o e.id := by
  rw [h.boxes]
  constructor
  · rintro ⟨b, l, a, i, h1, h2, e', h3, h4⟩
    have := prefix_get h1 h3
    rw [he] at this
    cases this
    exact ⟨b, l, a, h1, h4 ▸ h2, e, List.mem_of_getElem? h3, rfl⟩
  · rintro ⟨b, l, a, h1, h2, e', h3, h4⟩
    obtain ⟨q, hq⟩ := List.getElem?_of_mem h3
    have hq' := prefix_get h1 hq
    have e1 : ((elements deck).map (·.id))[p]? = some e.id := by rw [List.getElem?_map, he]; rfl
    have e2 : ((elements deck).map (·.id))[q]? = some e.id := by rw [List.getElem?_map, hq']; simpa using h4
    have hlt : p < ((elements deck).map (·.id)).length := by
      by_contra hc
      rw [List.getElem?_eq_none (by omega)] at e1
      cases e1
    have hpq := (List.getElem?_inj hlt hs.distinct).mp (e1.trans e2.symm)
    subst hpq
    exact ⟨b, l, a, e.id, h1, h2, e', hq, h4⟩

theorem inv_none {deck : List Card} {s : State} (h : Inv deck s) (o : Int) :
    none ∈ s.box o ↔ ∃ i, NamesBefore deck o i := by
  rw [h.boxes]
  constructor
  · rintro ⟨b, l, a, i, h1, h2, h3⟩
    exact ⟨i, b, l, a, h1, h2, h3⟩
  · rintro ⟨i, b, l, a, h1, h2, h3⟩
    exact ⟨b, l, a, i, h1, h2, h3⟩

theorem mem_names {deck : List Card} {o i : Int} :
    Names deck o i ↔ NamesAfter deck o i ∨ NamesBefore deck o i := by
  constructor
  · rintro ⟨b, l, a, h1, h2⟩
    by_cases h : ∃ e ∈ elements b, e.id = i
    · exact .inl ⟨b, l, a, h1, h2, h⟩
    · exact .inr ⟨b, l, a, h1, h2, h⟩
  · rintro (⟨b, l, a, h1, h2, _⟩ | ⟨b, l, a, h1, h2, _⟩) <;> exact ⟨b, l, a, h1, h2⟩

theorem after_mem {deck : List Card} {o i : Int} (h : NamesAfter deck o i) : ∃ e ∈ elements deck, e.id = i := by
  obtain ⟨b, l, a, h1, _, e, h3, h4⟩ := h
  exact ⟨e, by rw [h1, elements_append]; simp [h3], h4⟩

/-! ## Properties -/

/-- **C134.** When every card that names elements stands after them, a load or a group has exactly the elements its cards name:
those written with their numbers, with their nodes and in the groups of the MED file. -/
theorem C134_named_partial (auto part autoCell : Int) (deck : List Card) (hs : Sound deck) (o : Int)
    (hk : ∀ i, ¬ NamesBefore deck o i) :
    ∃ s, run (start auto part autoCell) deck = .ok s ∧
      (∃ l, ids s.mesh (s.box o) = .ok l ∧ ∀ i, i ∈ l ↔ Names deck o i) ∧
      (∃ vs, cells s.mesh (s.box o) = .ok vs ∧ grouped s.mesh (s.box o) = .ok vs ∧
        (∀ v ∈ vs, ∃ e ∈ elements deck, Shows v e ∧ Names deck o e.id) ∧
        ∀ e ∈ elements deck, Names deck o e.id → ∃ v ∈ vs, Shows v e) ∧
      ∀ k, k ∈ maille (s.box o) ↔ ∃ p e, k = p + 1 ∧ (∃ v, s.mesh.findCell p = .ok v ∧ Shows v e) ∧ e ∈ elements deck ∧
        s.mesh.findCellPosition e.id = some p ∧ Names deck o e.id := by
  obtain ⟨s, hr, hi⟩ := inv_run auto part autoCell deck hs
  have hf := inv_fine hi o
  have hn : none ∉ s.box o := fun h => by
    obtain ⟨i, h⟩ := (inv_none hi o).mp h
    exact hk i h
  have hiff : ∀ i, Names deck o i ↔ NamesAfter deck o i := fun i =>
    mem_names.trans ⟨fun h => h.resolve_right (hk i), .inl⟩
  refine ⟨s, hr, ?_, ?_, ?_⟩
  · obtain ⟨l, h1, h2⟩ := ids_ok hi.mesh _ hf hn
    refine ⟨l, h1, fun i => (h2 i).trans ⟨?_, ?_⟩⟩
    · rintro ⟨p, e, hp, he, rfl⟩
      exact (hiff _).mpr ((inv_some hi hs o p e he).mp hp)
    · intro h
      have h := (hiff _).mp h
      obtain ⟨e, he, rfl⟩ := after_mem h
      obtain ⟨p, hp⟩ := List.getElem?_of_mem he
      exact ⟨p, e, (inv_some hi hs o p e hp).mpr h, hp, rfl⟩
  · obtain ⟨vs, h1, h2, h3⟩ := grouped_ok hi.mesh _ hf
    refine ⟨vs, (cells_eq _ _ hn).trans h1, h1, ?_, ?_⟩
    · intro v hv
      obtain ⟨p, e, hp, he, hsh⟩ := h2 v hv
      exact ⟨e, List.mem_of_getElem? he, hsh, (hiff _).mpr ((inv_some hi hs o p e he).mp hp)⟩
    · intro e he h
      obtain ⟨p, hp⟩ := List.getElem?_of_mem he
      exact h3 p e ((inv_some hi hs o p e hp).mpr ((hiff _).mp h)) hp
  · intro k
    unfold maille
    rw [List.mem_map]
    constructor
    · rintro ⟨x, hx, rfl⟩
      cases x with
      | none => exact absurd hx hn
      | some p =>
        obtain ⟨e, he⟩ := hf p hx
        exact ⟨p, e, rfl, (shown hi.mesh he).1, List.mem_of_getElem? he,
          (position hi.mesh hs.distinct e.id (some p)).mpr ⟨e, he, rfl⟩, (hiff _).mpr ((inv_some hi hs o p e he).mp hx)⟩
    · rintro ⟨p, e, rfl, _, _, hp, hnm⟩
      obtain ⟨e', he', hid⟩ := (position hi.mesh hs.distinct e.id (some p)).mp hp
      exact ⟨some p, (inv_some hi hs o p e' he').mpr ((hiff _).mp (hid ▸ hnm)), rfl⟩

/-- **C134.** The group of the MED file has, for every file, exactly the elements that stand before a card naming them. -/
theorem C134_group_partial (auto part autoCell : Int) (deck : List Card) (hs : Sound deck) (o : Int) :
    ∃ s vs, run (start auto part autoCell) deck = .ok s ∧ grouped s.mesh (s.box o) = .ok vs ∧
      (∀ v ∈ vs, ∃ e ∈ elements deck, Shows v e ∧ NamesAfter deck o e.id) ∧
      ∀ e ∈ elements deck, (∃ v ∈ vs, v.id = e.id) ↔ NamesAfter deck o e.id := by
  obtain ⟨s, hr, hi⟩ := inv_run auto part autoCell deck hs
  obtain ⟨vs, h1, h2, h3⟩ := grouped_ok hi.mesh _ (inv_fine hi o)
  refine ⟨s, vs, hr, h1, ?_, ?_⟩
  · intro v hv
    obtain ⟨p, e, hp, he, hsh⟩ := h2 v hv
    exact ⟨e, List.mem_of_getElem? he, hsh, (inv_some hi hs o p e he).mp hp⟩
  · intro e he
    constructor
    · rintro ⟨v, hv, hid⟩
      obtain ⟨p, e', hp, he', hsh⟩ := h2 v hv
      have := (inv_some hi hs o p e' he').mp hp
      rwa [← hsh.1, hid] at this
    · intro h
      obtain ⟨p, hp⟩ := List.getElem?_of_mem he
      obtain ⟨v, hv, hsh⟩ := h3 p e ((inv_some hi hs o p e hp).mpr h) hp
      exact ⟨v, hv, hsh.1⟩

/-- A load with an element that does not stand before its card, wherever this element is defined and whatever its other
elements are: the program ends when it asks for the cells, its behaviour is undefined when it asks for their numbers, and the
cell M2147483648 is written in the place of the element. -/
theorem C134_later_false (auto part autoCell : Int) (deck : List Card) (hs : Sound deck) (o i : Int)
    (h : NamesBefore deck o i) :
    ∃ s, run (start auto part autoCell) deck = .ok s ∧ cells s.mesh (s.box o) = .throw ∧ ids s.mesh (s.box o) = .ub ∧
      2147483648 ∈ maille (s.box o) := by
  obtain ⟨s, hr, hi⟩ := inv_run auto part autoCell deck hs
  have hf := inv_fine hi o
  have hn := (inv_none hi o).mpr ⟨i, h⟩
  refine ⟨s, hr, cells_throw hi.mesh _ hf hn, ids_ub hi.mesh _ hf hn, ?_⟩
  exact List.mem_map.mpr ⟨none, hn, rfl⟩

/-- A group loses, without a word, the elements of the file that stand behind the cards naming them. -/
theorem C134_lost_false (auto part autoCell : Int) (deck : List Card) (hs : Sound deck) (o : Int) (e : Element)
    (he : e ∈ elements deck) (hn : Names deck o e.id) (hl : ¬ NamesAfter deck o e.id) :
    Names deck o e.id ∧ ∃ s vs, run (start auto part autoCell) deck = .ok s ∧ grouped s.mesh (s.box o) = .ok vs ∧
      ∀ v ∈ vs, v.id ≠ e.id := by
  obtain ⟨s, vs, h1, h2, _, h4⟩ := C134_group_partial auto part autoCell deck hs o
  exact ⟨hn, s, vs, h1, h2, fun v hv hid => hl ((h4 e he).mp ⟨v, hv, hid⟩)⟩

theorem mem_range (first : Int) (n : Nat) (i : Int) : i ∈ range first n ↔ first ≤ i ∧ i < first + n := by
  induction n generalizing first with
  | zero => simp [range]
  | succ n ih =>
    simp only [range, List.mem_cons, ih]
    push_cast
    omega

/-- A pressure on a range of numbers ends the program unless every number of the range is that of an element standing
before. -/
theorem C134_range_false (auto part autoCell : Int) (before after : List Card) (first i : Int) (n : Nat) (o : Int)
    (hs : Sound (before ++ .names o (range first n) :: after)) (h1 : first ≤ i) (h2 : i < first + n)
    (hi : ¬ ∃ e ∈ elements before, e.id = i) :
    ∃ s, run (start auto part autoCell) (before ++ .names o (range first n) :: after) = .ok s ∧
      cells s.mesh (s.box o) = .throw :=
  have ⟨s, hr, hc, _⟩ := C134_later_false auto part autoCell _ hs o i
    ⟨before, _, after, rfl, (mem_range first n i).mpr ⟨h1, h2⟩, hi⟩
  ⟨s, hr, hc⟩

/-! ## Examples -/

def quad (id a b c d : Int) : Element := ⟨id, .quad4, [a, b, c, d], some 1, 0⟩

/-- Two quadrangles, then a pressure on both (owner 1) and a set of the second (owner 2). -/
def sampleDeck : List Card :=
  [.element (quad 10 1 2 3 4), .element (quad 20 2 5 6 3), .names 1 [10, 20], .names 2 [20]]

/-- The same with the pressure between the elements. -/
def sampleLate : List Card :=
  [.element (quad 10 1 2 3 4), .names 1 [10, 20], .element (quad 20 2 5 6 3), .names 2 [20]]

theorem sample_sound : Sound sampleDeck ∧ Sound sampleLate :=
  ⟨⟨by decide, by decide, by decide⟩, ⟨by decide, by decide, by decide⟩⟩

theorem names_late : NamesBefore sampleLate 1 20 :=
  ⟨[.element (quad 10 1 2 3 4)], [10, 20], [.element (quad 20 2 5 6 3), .names 2 [20]], rfl, by decide, by decide⟩

/-- The hypotheses of `C134_named_partial` are met. -/
example : Sound sampleDeck ∧ Names sampleDeck 1 20 ∧ ∃ s, run (start 99 9 99) sampleDeck = .ok s ∧
    ids s.mesh (s.box 1) = .ok [10, 20] ∧ ids s.mesh (s.box 2) = .ok [20] ∧ maille (s.box 2) = [2] :=
  ⟨sample_sound.1, ⟨[.element (quad 10 1 2 3 4), .element (quad 20 2 5 6 3)], [10, 20], [.names 2 [20]], rfl, by decide⟩,
    _, rfl, rfl, rfl, rfl⟩

/-- The order of the cards matters: the same cards in another order are an abort instead of a pressure, and the set of the MED
file loses an element. -/
theorem C134_order_false : sampleLate.Perm sampleDeck ∧ Sound sampleDeck ∧ Sound sampleLate ∧
    ∃ s s', run (start 99 9 99) sampleDeck = .ok s ∧ run (start 99 9 99) sampleLate = .ok s' ∧
      ids s.mesh (s.box 1) = .ok [10, 20] ∧ cells s'.mesh (s'.box 1) = .throw ∧ ids s'.mesh (s'.box 1) = .ub ∧
      maille (s'.box 1) = [1, 2147483648] ∧ ∃ v, grouped s'.mesh (s'.box 1) = .ok [v] ∧ v.id = 10 :=
  ⟨by decide, sample_sound.1, sample_sound.2, _, _, rfl, rfl, rfl, rfl, rfl, rfl, _, rfl, rfl⟩

/-- A range with a gap. -/
example : Sound ([.element (quad 10 1 2 3 4), .element (quad 12 2 5 6 3)] ++ .names 1 (range 10 3) :: []) ∧
    ¬ ∃ e ∈ elements [.element (quad 10 1 2 3 4), .element (quad 12 2 5 6 3)], e.id = 11 :=
  ⟨⟨by decide, by decide, by decide⟩, by decide⟩

end Named
end Vega
