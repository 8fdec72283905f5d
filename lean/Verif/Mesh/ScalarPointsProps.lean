import Mathlib.Tactic.ByContra
import Verif.Mesh.ScalarPoints
import Verif.Mesh.NodeLemmas
import Verif.Nastran.FieldProps
import Verif.Constraint.SpcProps

/-! # C147: scalar points

A scalar point has a single degree of freedom. Each point an `SPOINT` card names becomes a node of which the first degree of
freedom is left free and the five others are held at zero, by a constraint that applies to every subcase. -/
namespace Vega

/-! ## Specification -/
namespace ScalarPointsSpec
open Nastran FieldSpec

/-- The two forms of the card: a list of points, or the points from `a` to `b`. -/
inductive Card where
  | list (n : Int) (ns : List Int)
  | thru (a b : Int)

/-- The points a card names. -/
def Card.Names : Card → Int → Prop
  | .list n ns, k => k = n ∨ k ∈ ns
  | .thru a b, k => a ≤ k ∧ k ≤ b

/-- The numbers a point may have (as generally known, 1 to 99999999). -/
def Number (n : Int) : Prop := 1 ≤ n ∧ n ≤ 99999999

def Card.Legal : Card → Prop
  | .list n ns => Number n ∧ ∀ k ∈ ns, Number k
  | .thru a b => Number a ∧ Number b ∧ a ≤ b

def Blank (f : Line) : Prop := trim f = []

/-- The fields of a card: blanks around the texts do not matter, nor does the case of `THRU`; fields left over are blank. -/
inductive Card.Written : Card → List Line → Prop where
  | list {n : Int} {ns : List Int} {k f : Line} {fs rest : List Line} : trim f = decimal n →
      List.Forall₂ (fun f m => trim f = decimal m) fs ns → (∀ g ∈ rest, Blank g) →
      Card.Written (.list n ns) (k :: f :: (fs ++ rest))
  | thru {a b : Int} {k f t g : Line} {rest : List Line} : trim f = decimal a →
      toUpper (trim t) = ['T', 'H', 'R', 'U'] → trim g = decimal b → (∀ g ∈ rest, Blank g) →
      Card.Written (.thru a b) (k :: f :: t :: g :: rest)

/-- The node of number `n` is there, with these data. -/
def NodeIs (s : NodeStore) (n : Int) (d : NodeData) : Prop :=
  ∃ p, s.findNodePosition n = some p ∧ s.findNode (some p) = .ok d

/-- At the origin of the global system. -/
def AtOrigin (n : Int) (d : NodeData) : Prop :=
  d.id = n ∧ d.x = 0 ∧ d.y = 0 ∧ d.z = 0 ∧ d.cpPos = 0 ∧ d.cdPos = 0

/-- A constraint that holds at zero all degrees of freedom but the first. -/
def FirstOnly (c : Spc) : Prop :=
  ∀ node d, ((c.getDOFSForNode node).contains d = true ↔ d ≠ .DX) ∧ (d ≠ .DX → c.getDoubleForDOF d = .ok 0)

/-- The node at position `p` has a number among those `names` holds of. -/
def Among (s : NodeStore) (names : Int → Prop) (p : Nat) : Prop := ∃ n, names n ∧ s.findNodePosition n = some p

/-- What a card that names these points does. -/
structure Built (names : Int → Prop) (s s' : ScalarPoints.State) : Prop where
  points : ∀ n, names n → ∃ d, NodeIs s'.nodes n d ∧ AtOrigin n d
  others : ∀ n d, ¬ names n → (NodeIs s'.nodes n d ↔ NodeIs s.nodes n d)
  places : ∀ n p, s.nodes.findNodePosition n = some p → s'.nodes.findNodePosition n = some p
  constraint : ∃ c ps, s'.constraints = s.constraints ++ [(c, ps)] ∧ FirstOnly c ∧ ∀ p, p ∈ ps ↔ Among s'.nodes names p
  group : ∀ p, p ∈ s'.group ↔ p ∈ s.group ∨ Among s'.nodes names p

end ScalarPointsSpec

/-! ## Lemmas -/
namespace ScalarPoints
open ScalarPointsSpec Nastran FieldSpec NodeStore

/-- The effect of adding points. -/
structure Grown (ids : List Int) (s s' : State) (mine mine' : List Nat) : Prop where
  inv : Inv s'.nodes
  extra : ∃ e, s'.nodes.ids = s.nodes.ids ++ e
  mem : ∀ n, n ∈ s'.nodes.ids ↔ n ∈ s.nodes.ids ∨ n ∈ ids
  data : ∀ n ∈ ids, ∃ (p : Nat) (np : Int), s'.nodes.nodeDatas[p]? = some (⟨n, 0, 0, 0, 0, 0, np⟩ : NodeData)
  kept : ∀ (p : Nat) (d : NodeData), s.nodes.nodeDatas[p]? = some d → d.id ∉ ids → s'.nodes.nodeDatas[p]? = some d
  group : ∀ q, q ∈ s'.group ↔ q ∈ s.group ∨ ∃ n ∈ ids, s'.nodes.ids[q]? = some n
  mine : ∀ q, q ∈ mine' ↔ q ∈ mine ∨ ∃ n ∈ ids, s'.nodes.ids[q]? = some n
  constraints : s'.constraints = s.constraints

theorem Grown.nil {s : State} (h : Inv s.nodes) (mine : List Nat) : Grown [] s s mine mine :=
  ⟨h, ⟨[], by simp⟩, by simp, by simp, fun _ _ h _ => h, by simp, by simp, rfl⟩

theorem Grown.at_iff {ids : List Int} {s s' : State} {m m' : List Nat} (g : Grown ids s s' m m') {n : Int} (h : n ∈ s.nodes.ids)
    (q : Nat) : s'.nodes.ids[q]? = some n ↔ s.nodes.ids[q]? = some n := by
  obtain ⟨e, he⟩ := g.extra
  obtain ⟨p, hp⟩ := List.getElem?_of_mem h
  have hlt := (List.getElem?_eq_some_iff.mp hp).1
  have hp' : s'.nodes.ids[p]? = some n := by rw [he, List.getElem?_append_left hlt]; exact hp
  constructor
  · intro hq
    have : q = p := by
      have hq' := (List.getElem?_eq_some_iff.mp hq)
      have hpp := (List.getElem?_eq_some_iff.mp hp')
      exact (List.Nodup.getElem_inj_iff g.inv.nodup).mp (hq'.2.trans hpp.2.symm)
    rw [this]; exact hp
  · intro hq
    rw [he, List.getElem?_append_left (List.getElem?_eq_some_iff.mp hq).1]; exact hq

theorem Grown.trans {a b : List Int} {s t u : State} {l m n : List Nat} (g : Grown a s t l m) (h : Grown b t u m n) :
    Grown (a ++ b) s u l n := by
  have key : ∀ q : Nat, (∃ n ∈ a, t.nodes.ids[q]? = some n) ↔ ∃ n ∈ a, u.nodes.ids[q]? = some n := by
    intro q
    constructor
    · rintro ⟨k, hk, e⟩
      exact ⟨k, hk, (h.at_iff ((g.mem k).mpr (Or.inr hk)) q).mpr e⟩
    · rintro ⟨k, hk, e⟩
      exact ⟨k, hk, (h.at_iff ((g.mem k).mpr (Or.inr hk)) q).mp e⟩
  have split : ∀ q : Nat, (∃ n ∈ a ++ b, u.nodes.ids[q]? = some n) ↔
      (∃ n ∈ a, u.nodes.ids[q]? = some n) ∨ ∃ n ∈ b, u.nodes.ids[q]? = some n := by
    intro q
    constructor
    · rintro ⟨k, hk, e⟩
      rcases List.mem_append.mp hk with hk | hk
      · exact Or.inl ⟨k, hk, e⟩
      · exact Or.inr ⟨k, hk, e⟩
    · rintro (⟨k, hk, e⟩ | ⟨k, hk, e⟩)
      · exact ⟨k, List.mem_append.mpr (Or.inl hk), e⟩
      · exact ⟨k, List.mem_append.mpr (Or.inr hk), e⟩
  refine ⟨h.inv, ?_, ?_, ?_, ?_, ?_, ?_, h.constraints.trans g.constraints⟩
  · obtain ⟨e, he⟩ := g.extra
    obtain ⟨f, hf⟩ := h.extra
    exact ⟨e ++ f, by rw [hf, he, List.append_assoc]⟩
  · intro k
    rw [h.mem, g.mem, List.mem_append, or_assoc]
  · intro k hk
    by_cases hb : k ∈ b
    · exact h.data k hb
    · obtain ⟨p, np, hp⟩ := g.data k ((List.mem_append.mp hk).resolve_right hb)
      exact ⟨p, np, h.kept p _ hp hb⟩
  · intro p d hp hd
    rw [List.mem_append, not_or] at hd
    exact h.kept p d (g.kept p d hp hd.1) hd.2
  · intro q
    rw [h.group, g.group, key, split, or_assoc]
  · intro q
    rw [h.mine, g.mine, key, split, or_assoc]

theorem addNodeId_known {s : NodeStore} (h : Inv s) {id : Int} {p : Nat} (hp : s.ids[p]? = some id) (members : List Nat) :
    addNodeId s members id = .ok (s, members.insert p) := by
  have hf := (h.find id p).mpr hp
  simp [addNodeId, findOrReserveNode, mainPart, findNodePosition, hf]

theorem addPoint_grown (s : State) (mine : List Nat) (id : Int) (h : Inv s.nodes) (hid : id ≠ AUTO_ID) :
    ∃ s' mine', addPoint s mine id = .ok (s', mine') ∧ Grown [id] s s' mine mine' := by
  obtain ⟨t, p, e, hi, hp, hids, ⟨np, hd⟩, hframe⟩ := addNode_spec h id hid 0 0 0 0 0 0
  refine ⟨{ s with nodes := t, group := s.group.insert p }, mine.insert p, ?_, ?_⟩
  · unfold addPoint
    simp only [e, Outcome.bind_ok, addNodeId_known hi hp]
  · have only : ∀ q, (∃ n ∈ [id], t.ids[q]? = some n) ↔ q = p := by
      intro q
      constructor
      · rintro ⟨n, hn, hq⟩
        rw [List.mem_singleton] at hn
        subst hn
        exact (List.Nodup.getElem_inj_iff hi.nodup).mp
          ((List.getElem?_eq_some_iff.mp hq).2.trans (List.getElem?_eq_some_iff.mp hp).2.symm)
      · rintro rfl
        exact ⟨id, by simp, hp⟩
    refine ⟨hi, ?_, ?_, ?_, ?_, ?_, ?_, rfl⟩
    · by_cases hm : id ∈ s.nodes.ids
      · exact ⟨[], by simp only [hids, if_pos hm, List.append_nil]⟩
      · exact ⟨[id], by simp only [hids, if_neg hm]⟩
    · intro n
      show n ∈ t.ids ↔ _
      rw [hids]
      split
      · rename_i hm
        rw [List.mem_singleton]
        constructor
        · exact Or.inl
        · rintro (hn | rfl)
          · exact hn
          · exact hm
      · simp
    · intro n hn
      rw [List.mem_singleton] at hn
      subst hn
      exact ⟨p, np, hd⟩
    · intro q d hq hne
      show t.nodeDatas[q]? = some d
      by_cases hqp : q = p
      · subst hqp
        exfalso
        apply hne
        rw [List.mem_singleton]
        have hm : d.id ∈ s.nodes.ids := List.mem_map.mpr ⟨d, List.mem_of_getElem? hq, rfl⟩
        have hsid : s.nodes.ids[q]? = some d.id := by simp [ids, hq]
        have : t.ids[q]? = some d.id := by
          rw [hids]
          split
          · exact hsid
          · rw [List.getElem?_append_left (List.getElem?_eq_some_iff.mp hsid).1]; exact hsid
        rw [hp] at this
        exact (Option.some.inj this).symm
      · rw [hframe q hqp]; exact hq
    · intro q
      show q ∈ s.group.insert p ↔ q ∈ s.group ∨ ∃ n ∈ [id], t.ids[q]? = some n
      rw [only, List.mem_insert_iff, or_comm]
    · intro q
      show q ∈ mine.insert p ↔ q ∈ mine ∨ ∃ n ∈ [id], t.ids[q]? = some n
      rw [only, List.mem_insert_iff, or_comm]

theorem addPoints_grown : ∀ (ids : List Int) (s : State) (mine : List Nat), Inv s.nodes → (∀ i ∈ ids, i ≠ AUTO_ID) →
    ∃ s' mine', addPoints s mine ids = .ok (s', mine') ∧ Grown ids s s' mine mine'
  | [], s, mine, h, _ => ⟨s, mine, rfl, Grown.nil h mine⟩
  | i :: is, s, mine, h, hn => by
    obtain ⟨t, m, e, g⟩ := addPoint_grown s mine i h (hn i (by simp))
    obtain ⟨u, m', e', g'⟩ := addPoints_grown is t m g.inv (fun j hj => hn j (by simp [hj]))
    refine ⟨u, m', ?_, ?_⟩
    · simp only [addPoints, e, Outcome.bind_ok, e']
    · simpa using g.trans g'

theorem isNextInt_blank (pre : List Line) {rest : List Line} (h : ∀ g ∈ rest, Blank g) :
    isNextInt (after pre rest) = .ok false := by
  cases rest with
  | nil => rfl
  | cons f fs =>
    rw [isNextInt_after]
    have : trim f = [] := h f (by simp)
    simp [this]

theorem listLoop_grown {rest : List Line} (hr : ∀ g ∈ rest, Blank g) : ∀ {ns : List Int} {fs : List Line},
    List.Forall₂ (fun f m => trim f = decimal m) fs ns → (∀ k ∈ ns, Number k) →
    ∀ (fuel : Nat) (s : State) (mine : List Nat) (pre : List Line), Inv s.nodes → fs.length < fuel →
    ∃ s' mine', listLoop fuel s mine (after pre (fs ++ rest)) = .ok (s', mine') ∧ Grown ns s s' mine mine' := by
  intro ns fs hw
  induction hw with
  | nil =>
    intro _ fuel s mine pre h hf
    obtain ⟨k, rfl⟩ : ∃ k, fuel = k + 1 := ⟨fuel - 1, by simp at hf; omega⟩
    refine ⟨s, mine, ?_, Grown.nil h mine⟩
    rw [List.nil_append, listLoop, isNextInt_blank pre hr]
    rfl
  | @cons f n fs ns hfn hw ih =>
    intro hn fuel s mine pre h hf
    obtain ⟨k, rfl⟩ : ∃ k, fuel = k + 1 := ⟨fuel - 1, by simp at hf; omega⟩
    have hnn : Number n := hn n (by simp)
    unfold Number at hnn
    obtain ⟨t, m, e, g⟩ := addPoint_grown s mine n h (by unfold AUTO_ID; omega)
    obtain ⟨u, m', e', g'⟩ := ih (fun j hj => hn j (by simp [hj])) k t m (pre ++ [f]) g.inv (by simp at hf; omega)
    refine ⟨u, m', ?_, by simpa using g.trans g'⟩
    have hint : isNextInt (after pre (f :: (fs ++ rest))) = .ok true := by
      rw [isNextInt_after, hfn]
      congr 1
      exact decimal_int n
    rw [List.cons_append, listLoop, hint]
    simp only [Outcome.bind_ok, if_true,
      nextInt_after hfn (show intMin ≤ n by unfold intMin; omega) (show n ≤ intMax by unfold intMax; omega), e]
    exact e'

theorem firstOnly_blocked : FirstOnly blocked := by
  intro node d
  have h := SpcSpec.C38_constructors (Dofs.ALL_DOFS.subDof .DX) 0 ValOrRef.EMPTY ValOrRef.EMPTY ValOrRef.EMPTY
    (fun _ => ValOrRef.EMPTY) node d
  have hc : (Dofs.ALL_DOFS.subDof .DX).contains d = true ↔ d ≠ .DX := by cases d <;> decide
  constructor
  · unfold blocked
    rw [h.1]; exact hc
  · intro hd
    exact h.2.1 (hc.mpr hd)

theorem nodeIs_iff {s : NodeStore} (h : Inv s) (n : Int) (d : NodeData) :
    NodeIs s n d ↔ ∃ p : Nat, s.nodeDatas[p]? = some d ∧ d.id = n := by
  unfold NodeIs findNodePosition
  constructor
  · rintro ⟨p, hp, hd⟩
    have := (h.find n p).mp hp
    unfold findNode at hd
    cases hq : s.nodeDatas[p]? with
    | none => simp [hq] at hd
    | some d' =>
      simp only [hq, Outcome.ok.injEq] at hd
      subst hd
      refine ⟨p, hq, ?_⟩
      simpa [ids, hq] using this
  · rintro ⟨p, hp, rfl⟩
    refine ⟨p, (h.find _ p).mpr (by simp [ids, hp]), ?_⟩
    simp [findNode, hp]

theorem grown_built {ids : List Int} {names : Int → Prop} {s s' : State} {mine : List Nat} (h : Inv s.nodes)
    (g : Grown ids s s' [] mine) (hn : ∀ n, names n ↔ n ∈ ids) :
    Built names s { s' with constraints := s'.constraints ++ [(blocked, mine)] } := by
  have among : ∀ p, Among s'.nodes names p ↔ ∃ n ∈ ids, s'.nodes.ids[p]? = some n := by
    intro p
    unfold Among findNodePosition
    constructor
    · rintro ⟨n, h1, h2⟩
      exact ⟨n, (hn n).mp h1, (g.inv.find n p).mp h2⟩
    · rintro ⟨n, h1, h2⟩
      exact ⟨n, (hn n).mpr h1, (g.inv.find n p).mpr h2⟩
  refine ⟨?_, ?_, ?_, ⟨blocked, mine, ?_, firstOnly_blocked, ?_⟩, ?_⟩
  · intro n hk
    obtain ⟨p, np, hp⟩ := g.data n ((hn n).mp hk)
    exact ⟨_, (nodeIs_iff g.inv n _).mpr ⟨p, hp, rfl⟩, rfl, rfl, rfl, rfl, rfl, rfl⟩
  · intro n d hk
    have hk' : n ∉ ids := fun hc => hk ((hn n).mpr hc)
    show NodeIs s'.nodes n d ↔ _
    rw [nodeIs_iff g.inv, nodeIs_iff h]
    constructor
    · rintro ⟨p, hp, rfl⟩
      have hm : d.id ∈ s'.nodes.ids := List.mem_map.mpr ⟨d, List.mem_of_getElem? hp, rfl⟩
      have hm' := ((g.mem _).mp hm).resolve_right hk'
      have hq : s'.nodes.ids[p]? = some d.id := by simp [NodeStore.ids, hp]
      have hq' := (g.at_iff hm' p).mp hq
      unfold NodeStore.ids at hq'
      rw [List.getElem?_map] at hq'
      cases hd : s.nodes.nodeDatas[p]? with
      | none => simp [hd] at hq'
      | some d' =>
        rw [hd] at hq'
        simp only [Option.map_some, Option.some.injEq] at hq'
        have := g.kept p d' hd (by rw [hq']; exact hk')
        rw [hp] at this
        exact ⟨p, by rw [hd, Option.some.inj this], rfl⟩
    · rintro ⟨p, hp, rfl⟩
      exact ⟨p, g.kept p d hp hk', rfl⟩
  · intro n p hp
    show s'.nodes.findNodePosition n = some p
    unfold findNodePosition at hp ⊢
    have h1 := (h.find n p).mp hp
    exact (g.inv.find n p).mpr ((g.at_iff (List.mem_of_getElem? h1) p).mpr h1)
  · show s'.constraints ++ _ = _
    rw [g.constraints]
  · intro p
    show _ ↔ Among s'.nodes names p
    rw [among, g.mine]
    simp
  · intro p
    show p ∈ s'.group ↔ _
    rw [g.group, ← among]

theorem card_built (c : Card) (fields : List Line) (hl : c.Legal) (hw : c.Written fields) (s : State) (h : Inv s.nodes) :
    ∃ s', readCard s fields = .ok s' ∧ Inv s'.nodes ∧ Built c.Names s s' := by
  cases hw with
  | @list n ns k f fs rest hf hfs hr =>
    obtain ⟨h1, h2⟩ := hl
    have hnn := h1
    unfold Number at hnn
    obtain ⟨t, m, e, g⟩ := addPoint_grown s [] n h (by unfold AUTO_ID; omega)
    obtain ⟨u, m', e', g'⟩ := listLoop_grown hr hfs h2 ((k :: f :: (fs ++ rest)).length + 1) t m [k, f] g.inv
      (by simp; omega)
    refine ⟨_, ?_, ?_, grown_built h (g.trans g') (names := Card.Names (.list n ns)) (by intro j; simp [Card.Names])⟩
    · show parseSPOINT s (after [k] (f :: (fs ++ rest))) = _
      unfold parseSPOINT
      simp only [nextInt_after hf (show intMin ≤ n by unfold intMin; omega) (show n ≤ intMax by unfold intMax; omega),
        Outcome.bind_ok, e]
      have hb : ∃ b, isNextInt (after ([k] ++ [f]) (fs ++ rest)) = .ok b ∧
          (b || isEmptyUntilNextKeyword (after ([k] ++ [f]) (fs ++ rest))) = true := by
        cases hfs with
        | nil =>
          refine ⟨false, isNextInt_blank _ hr, ?_⟩
          rw [Bool.false_or]
          unfold isEmptyUntilNextKeyword
          cases rest with
          | nil => rfl
          | cons g gs =>
            simp only [after, List.nil_append, List.isEmpty_cons, Bool.false_eq_true, if_false, reduceCtorEq]
            rw [List.all_eq_true]
            intro x hx
            rw [List.drop_left] at hx
            have : trim x = [] := hr x hx
            simp [this]
        | @cons g j gs js hg hgs =>
          refine ⟨true, ?_, rfl⟩
          show isNextInt (after ([k] ++ [f]) (g :: (gs ++ rest))) = _
          rw [isNextInt_after, hg]
          congr 1
          exact decimal_int j
      obtain ⟨b, hb1, hb2⟩ := hb
      rw [hb1, Outcome.bind_ok, if_pos hb2]
      have e'' : listLoop ((after ([k] ++ [f]) (fs ++ rest)).fields.length + 1) t m (after ([k] ++ [f]) (fs ++ rest)) =
          .ok (u, m') := e'
      rw [e'', Outcome.bind_ok]
    · exact g'.inv
  | @thru a b k f t w rest hf ht hw' hr =>
    obtain ⟨h1, h2, h3⟩ := hl
    unfold Number at h1 h2
    obtain ⟨s1, m, e, g⟩ := addPoint_grown s [] a h (by unfold AUTO_ID; omega)
    obtain ⟨u, m', e', g'⟩ := addPoints_grown (between (a + 1) b) s1 m g.inv (by
      intro i hi
      rw [C25_between] at hi
      unfold AUTO_ID
      omega)
    refine ⟨_, ?_, ?_, grown_built h (g.trans g') (names := Card.Names (.thru a b)) (by
      intro j
      simp only [Card.Names, List.mem_append, List.mem_singleton, C25_between]
      omega)⟩
    · show parseSPOINT s (after [k] (f :: t :: w :: rest)) = _
      unfold parseSPOINT
      simp only [nextInt_after hf (show intMin ≤ a by unfold intMin; omega) (show a ≤ intMax by unfold intMax; omega),
        Outcome.bind_ok, e]
      have hni : isNextInt (after ([k] ++ [f]) (t :: w :: rest)) = .ok false := by
        rw [isNextInt_after]
        congr 1
        exact thru_not_int ht
      have hne : isEmptyUntilNextKeyword (after ([k] ++ [f]) (t :: w :: rest)) = false := by
        unfold isEmptyUntilNextKeyword
        simp only [after, List.isEmpty_cons, Bool.false_eq_true, if_false, reduceCtorEq]
        rw [List.drop_left, List.all_cons]
        have : (trim t).isEmpty = false := by
          cases hc : trim t with
          | nil => rw [hc] at ht; simp [toUpper] at ht
          | cons _ _ => rfl
        rw [this, Bool.false_and]
      rw [hni, Outcome.bind_ok, hne]
      simp only [Bool.or_false, Bool.false_eq_true, if_false]
      have hs : nextString none (after ([k] ++ [f]) (t :: w :: rest)) =
          .ok (['T', 'H', 'R', 'U'], after ([k] ++ [f] ++ [t]) (w :: rest)) := by
        unfold nextString
        rw [next_after]
        simp [trim_trimRight, ht]
      have hup : toUpper ['T', 'H', 'R', 'U'] = ['T', 'H', 'R', 'U'] := by decide
      simp only [hs, Outcome.bind_ok, hup, if_true,
        nextInt_after hw' (show intMin ≤ b by unfold intMin; omega) (show b ≤ intMax by unfold intMax; omega),
        pushRange_one h3 (show b < intMax by unfold intMax; omega) (show intMin ≤ a by unfold intMin; omega), e']
    · exact g'.inv

theorem cards_built : ∀ (cs : List (Card × List Line)), (∀ c ∈ cs, c.1.Legal ∧ c.1.Written c.2) → ∀ s : State, Inv s.nodes →
    (∀ x ∈ s.constraints, FirstOnly x.1) → (∀ p, (∃ x ∈ s.constraints, p ∈ x.2) → ∃ n, s.nodes.findNodePosition n = some p) →
    ∃ s', readCards s (cs.map (·.2)) = .ok s' ∧ Inv s'.nodes ∧ (∀ x ∈ s'.constraints, FirstOnly x.1) ∧
      (∀ n p, s.nodes.findNodePosition n = some p → s'.nodes.findNodePosition n = some p) ∧
      (∀ p, (∃ x ∈ s'.constraints, p ∈ x.2) ↔ (∃ x ∈ s.constraints, p ∈ x.2) ∨
        Among s'.nodes (fun n => ∃ c ∈ cs, c.1.Names n) p) ∧
      (∀ n, (∃ c ∈ cs, c.1.Names n) → ∃ d, NodeIs s'.nodes n d ∧ AtOrigin n d) ∧
      (∀ n d, (¬ ∃ c ∈ cs, c.1.Names n) → (NodeIs s'.nodes n d ↔ NodeIs s.nodes n d))
  | [], _, s, h, hf, _ => by
    refine ⟨s, rfl, h, hf, fun _ _ h => h, ?_, ?_, ?_⟩
    · intro p
      constructor
      · exact Or.inl
      · rintro (h | ⟨n, ⟨c, hc, _⟩, _⟩)
        · exact h
        · simp at hc
    · rintro n ⟨c, hc, _⟩
      simp at hc
    · intros; rfl
  | c :: cs, hl, s, h, hf, hp => by
    obtain ⟨t, e, hi, b⟩ := card_built c.1 c.2 (hl c (by simp)).1 (hl c (by simp)).2 s h
    obtain ⟨k, ps, hk, hfirst, hps⟩ := b.constraint
    have hft : ∀ x ∈ t.constraints, FirstOnly x.1 := by
      intro x hx
      rw [hk, List.mem_append, List.mem_singleton] at hx
      rcases hx with hx | rfl
      · exact hf x hx
      · exact hfirst
    have hpt : ∀ p, (∃ x ∈ t.constraints, p ∈ x.2) ↔ (∃ x ∈ s.constraints, p ∈ x.2) ∨ Among t.nodes c.1.Names p := by
      intro p
      rw [hk]
      constructor
      · rintro ⟨x, hx, hpx⟩
        rw [List.mem_append, List.mem_singleton] at hx
        rcases hx with hx | rfl
        · exact Or.inl ⟨x, hx, hpx⟩
        · exact Or.inr ((hps p).mp hpx)
      · rintro (⟨x, hx, hpx⟩ | ha)
        · exact ⟨x, by simp [hx], hpx⟩
        · exact ⟨(k, ps), by simp, (hps p).mpr ha⟩
    have hknown : ∀ p, (∃ x ∈ t.constraints, p ∈ x.2) → ∃ n, t.nodes.findNodePosition n = some p := by
      intro p hpx
      rcases (hpt p).mp hpx with h' | ⟨n, _, hn⟩
      · obtain ⟨n, hn⟩ := hp p h'
        exact ⟨n, b.places n p hn⟩
      · exact ⟨n, hn⟩
    obtain ⟨u, e', hu, hfu, hplaces, hcons, hpts, hoth⟩ := cards_built cs (fun c hc => hl c (by simp [hc])) t hi hft hknown
    have point : ∀ {n : Int} {p : Nat}, c.1.Names n → u.nodes.findNodePosition n = some p → t.nodes.findNodePosition n = some p := by
      intro n p hn hup
      obtain ⟨d, ⟨q, hq, _⟩, _⟩ := b.points n hn
      have := hplaces n q hq
      rw [hup] at this
      rw [hq, Option.some.inj this]
    refine ⟨u, ?_, hu, hfu, fun n p hn => hplaces n p (b.places n p hn), ?_, ?_, ?_⟩
    · simp only [List.map_cons, readCards, e, Outcome.bind_ok, e']
    · intro p
      rw [hcons, hpt]
      constructor
      · rintro ((h' | ⟨n, hn, hnp⟩) | ⟨n, ⟨x, hx, hxn⟩, hnp⟩)
        · exact Or.inl h'
        · exact Or.inr ⟨n, ⟨c, by simp, hn⟩, hplaces n p hnp⟩
        · exact Or.inr ⟨n, ⟨x, by simp [hx], hxn⟩, hnp⟩
      · rintro (h' | ⟨n, ⟨x, hx, hxn⟩, hnp⟩)
        · exact Or.inl (Or.inl h')
        · rcases List.mem_cons.mp hx with rfl | hx
          · exact Or.inl (Or.inr ⟨n, hxn, point hxn hnp⟩)
          · exact Or.inr ⟨n, ⟨x, hx, hxn⟩, hnp⟩
    · rintro n ⟨x, hx, hxn⟩
      by_cases hin : ∃ c ∈ cs, c.1.Names n
      · exact hpts n hin
      · rcases List.mem_cons.mp hx with rfl | hx
        · obtain ⟨d, hd, ho⟩ := b.points n hxn
          exact ⟨d, (hoth n d hin).mpr hd, ho⟩
        · exact absurd ⟨x, hx, hxn⟩ hin
    · intro n d hn
      rw [hoth n d (fun ⟨x, hx, hxn⟩ => hn ⟨x, by simp [hx], hxn⟩)]
      exact b.others n d (fun hc => hn ⟨c, by simp, hc⟩)

/-! ## C147 -/

/-- **C147** each point of a legal `SPOINT` card becomes a node at the origin; one constraint is added, which applies to the
points of the card and to no other node, and holds at zero all their degrees of freedom but the first. No other node changes. -/
theorem C147_card (c : Card) (fields : List Line) (hl : c.Legal) (hw : c.Written fields) (s : State) (h : Inv s.nodes) :
    ∃ s', readCard s fields = .ok s' ∧ Inv s'.nodes ∧ Built c.Names s s' := card_built c fields hl hw s h

/-- **C147** the cards of a file: in the end the nodes held are exactly the points the cards name, whatever their order and
their number, and all of them are at the origin. -/
theorem C147_cards (cs : List (Card × List Line)) (hl : ∀ c ∈ cs, c.1.Legal ∧ c.1.Written c.2) :
    ∃ s, readCards State.init (cs.map (·.2)) = .ok s ∧ (∀ x ∈ s.constraints, FirstOnly x.1) ∧
      (∀ p, (∃ x ∈ s.constraints, p ∈ x.2) ↔ Among s.nodes (fun n => ∃ c ∈ cs, c.1.Names n) p) ∧
      (∀ n, (∃ c ∈ cs, c.1.Names n) ↔ ∃ d, NodeIs s.nodes n d) ∧
      (∀ n d, NodeIs s.nodes n d → AtOrigin n d) := by
  obtain ⟨s, e, hi, hf, _, hc, hp, ho⟩ := cards_built cs hl State.init inv_init (by simp [State.init]) (by simp [State.init])
  have empty : ∀ n d, ¬ NodeIs State.init.nodes n d := by
    rintro n d ⟨p, hp, _⟩
    simp [State.init, NodeStore.init, findNodePosition, Map.find] at hp
  refine ⟨s, e, hf, ?_, ?_, ?_⟩
  · intro p
    rw [hc]
    simp [State.init]
  · intro n
    constructor
    · intro hn
      obtain ⟨d, hd, _⟩ := hp n hn
      exact ⟨d, hd⟩
    · rintro ⟨d, hd⟩
      by_cases hn : ∃ c ∈ cs, c.1.Names n
      · exact hn
      · exact absurd ((ho n d hn).mp hd) (empty n d)
  · intro n d hd
    by_cases hn : ∃ c ∈ cs, c.1.Names n
    · obtain ⟨d', hd', ha⟩ := hp n hn
      obtain ⟨p, hp1, hp2⟩ := hd
      obtain ⟨q, hq1, hq2⟩ := hd'
      rw [hp1] at hq1
      cases hq1
      rw [hp2] at hq2
      cases hq2
      exact ha
    · exact absurd ((ho n d hn).mp hd) (empty n d)

/-- **C147, not so** when the number of a point is that of a node of the mesh: instead of an error, the node is moved to the
origin and held there. For every point, every model. -/
theorem C147_clash_false (n : Int) (hn : Number n) (s : State) (h : Inv s.nodes) (d : NodeData) (hd : NodeIs s.nodes n d)
    (k f : Line) (hf : trim f = decimal n) :
    ∃ s', readCard s [k, f] = .ok s' ∧ NodeIs s'.nodes n { d with x := 0, y := 0, z := 0, cpPos := 0, cdPos := 0 } := by
  obtain ⟨s', e, hi, b⟩ := card_built (.list n []) [k, f] ⟨hn, by simp⟩
    (Card.Written.list (fs := []) (rest := []) hf List.Forall₂.nil (by simp)) s h
  refine ⟨s', e, ?_⟩
  unfold Number at hn
  obtain ⟨p, hp, rfl⟩ := (nodeIs_iff h n d).mp hd
  have hsid : s.nodes.positionById.find d.id = some p := (h.find _ _).mpr (by simp [ids, hp])
  have : readCard s [k, f] = parseSPOINT s (after [k] [f]) := rfl
  rw [this] at e
  unfold parseSPOINT at e
  have hne : d.id ≠ AUTO_ID := by unfold AUTO_ID; omega
  simp only [nextInt_after hf (show intMin ≤ d.id by unfold intMin; omega) (show d.id ≤ intMax by unfold intMax; omega),
    Outcome.bind_ok, addPoint, addNode, pickId, if_neg hne, hsid, hp, addNodeId, findOrReserveNode, mainPart,
    findNodePosition] at e
  have hr : isNextInt (after ([k] ++ [f]) []) = .ok false := rfl
  have hr2 : isEmptyUntilNextKeyword (after ([k] ++ [f]) []) = true := rfl
  simp only [hr, hr2, Outcome.bind_ok, Bool.or_true, if_true, listLoop, Bool.false_eq_true, if_false] at e
  cases e
  refine (nodeIs_iff hi _ _).mpr ⟨p, ?_, rfl⟩
  have hlt := (List.getElem?_eq_some_iff.mp hp).1
  simp [List.getElem?_set, hlt]

/-- **C147, not so** for a list in which a range follows other numbers: the points of the range are not created and no error
is reported. -/
theorem C147_mixed_false :
    ∃ s, readCard State.init (["SPOINT", "1", "3", "THRU", "5"].map String.toList) = .ok s ∧
      ∀ n d, NodeIs s.nodes n d → n = 1 ∨ n = 3 := by
  obtain ⟨s, e, hi, b⟩ := card_built (.list 1 [3]) (["SPOINT", "1", "3"].map String.toList) (by
    refine ⟨by unfold Number; omega, ?_⟩
    intro k hk
    simp only [List.mem_singleton] at hk
    subst hk
    unfold Number; omega)
    (Card.Written.list (fs := [['3']]) (rest := []) (by decide +kernel) (List.Forall₂.cons (by decide +kernel) List.Forall₂.nil)
      (by simp)) State.init inv_init
  refine ⟨s, ?_, ?_⟩
  · rw [← e]; rfl
  · intro n d hd
    by_contra hc
    have hn : ¬ (Card.list 1 [3]).Names n := by
      intro h
      apply hc
      simpa [Card.Names] using h
    obtain ⟨p, hp, _⟩ := (b.others n d hn).mp hd
    simp [State.init, NodeStore.init, findNodePosition, Map.find] at hp

/-- **C147, not so** when a field is left blank between two numbers: the points after it are not created and no error is
reported. -/
theorem C147_blank_false :
    ∃ s, readCard State.init (["SPOINT", "1", "3", "", "5"].map String.toList) = .ok s ∧
      ∀ n d, NodeIs s.nodes n d → n = 1 ∨ n = 3 := by
  obtain ⟨s, e, h⟩ := C147_mixed_false
  exact ⟨s, by rw [← e]; rfl, h⟩

/-- The hypotheses of `C147_card` and `C147_cards` are met: a list with blank fields after it, and a range. -/
def exCards : List (Card × List Line) :=
  [(.list 101 [104], ["SPOINT", "101", "104", "", ""].map String.toList),
   (.thru 7 9, ["spoint", " 7", "thru", "9 "].map String.toList)]

example : ∀ c ∈ exCards, c.1.Legal ∧ c.1.Written c.2 := by
  intro c hc
  simp only [exCards, List.mem_cons, List.not_mem_nil, or_false] at hc
  rcases hc with rfl | rfl
  · refine ⟨⟨by unfold Number; omega, ?_⟩, ?_⟩
    · intro k hk
      simp only [List.mem_singleton] at hk
      subst hk
      unfold Number; omega
    · exact Card.Written.list (fs := [['1', '0', '4']]) (rest := [[], []]) (by decide +kernel)
        (List.Forall₂.cons (by decide +kernel) List.Forall₂.nil) (by
          intro g hg
          simp only [List.mem_cons, List.not_mem_nil, or_false, or_self] at hg
          subst hg
          rfl)
  · exact ⟨⟨by unfold Number; omega, by unfold Number; omega, by omega⟩,
      Card.Written.thru (rest := []) (by decide +kernel) (by decide +kernel) (by decide +kernel) (by simp)⟩

example : ∃ s, readCards State.init (exCards.map (·.2)) = .ok s ∧ s.nodes.ids = [101, 104, 7, 8, 9] ∧
    s.constraints.map (·.2) = [[1, 0], [4, 3, 2]] ∧ s.group = [4, 3, 2, 1, 0] := ⟨_, rfl, rfl, rfl, rfl⟩

/-- A node that clashes. -/
example : ∃ s : State, NodeIs s.nodes 5 ⟨5, 1, 2, 3, 0, 0, 0⟩ ∧ Inv s.nodes := by
  obtain ⟨s', p, e, hi, hp, hids, ⟨np, hd⟩, hframe⟩ := addNode_spec inv_init 5 (by decide) 1 2 3 0 0 0
  refine ⟨(⟨s', [], []⟩ : State), ?_, hi⟩
  have : s' = ⟨[⟨5, 1, 2, 3, 0, 0, 0⟩], [(5, 0)], 9999999, 0, [], [], [], []⟩ := by
    have e2 : NodeStore.init.addNode 5 1 2 3 0 0 0 =
      .ok (⟨[⟨5, 1, 2, 3, 0, 0, 0⟩], [(5, 0)], 9999999, 0, [], [], [], []⟩, 0) := rfl
    rw [e] at e2
    simp only [Outcome.ok.injEq, Prod.mk.injEq] at e2
    exact e2.1
  subst this
  exact (nodeIs_iff hi _ _).mpr ⟨0, rfl, rfl⟩

end ScalarPoints
end Vega
