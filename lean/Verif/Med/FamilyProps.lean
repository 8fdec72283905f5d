import Verif.Med.CellLoops
import Mathlib.Data.List.Range

/-! # C94: the mesh written for Code_Aster -/
namespace Vega.MedSpec
open Vega.Med Vega.CellSpec

/-- In a MED file the number of the family of a node or a cell says to which groups it belongs: 0 stands for no group, and
another number for the groups of the family with this number. -/
def Belongs (fams : List Family) (num : Int) (names : List Text) : Prop :=
  (num = 0 ∧ names = []) ∨ (num ≠ 0 ∧ ∃ f ∈ fams, f.num = num ∧ f.groups = names)

/-- The names of the groups with the member, in the order of the groups. -/
def namesAt {κ : Type} [DecidableEq κ] (gs : List (Text × List κ)) (k : κ) : List Text :=
  (gs.filter fun e => k ∈ e.2).map (·.1)

/-! ## Helpers -/

theorem belongs_of {σ : Int} {label : Text} {past : List Text} {g : Text} {s : Numbering}
    (h : Good σ label past g s) {ids : List Int} (hk : ∀ n ∈ ids, Known s n) {n : Int} (hn : n ∈ ids)
    {names : List Text} (hg : groupsOf s n = names) : Belongs (familiesInUse s.byId ids) n names := by
  by_cases h0 : n = 0
  · left
    subst h0
    refine ⟨rfl, ?_⟩
    rw [← hg]
    simp [groupsOf, h.zero, oldGroups]
  · right
    refine ⟨h0, ?_⟩
    rcases hk n hn with h1 | ⟨f, hf⟩
    · exact absurd h1 h0
    · refine ⟨f, (mem_familiesInUse hk).mpr ⟨n, hn, h0, hf⟩, (h.keys n f hf).1, ?_⟩
      rw [← hg]
      simp [groupsOf, hf, oldGroups]

theorem node_run (n : Nat) (gs : List (Text × List Nat)) (hn : 0 < n) (hne : gs ≠ []) (hnames : (gs.map (·.1)).Nodup)
    (hset : ∀ e ∈ gs, e.2.Nodup) (hin : ∀ e ∈ gs, ∀ p ∈ e.2, p < n) :
    ∃ nodes s past g, nodeFamilies n gs = .ok (familiesInUse s.byId nodes, nodes) ∧ past ++ [g] = gs.map (·.1) ∧
      Good 1 "Family".toList past g s ∧ nodes.length = n ∧ (∀ k ∈ nodes, Known s k) ∧
      ∀ p, p < n → ∃ k, nodes[p]? = some k ∧ groupsOf s k = namesAt gs p := by
  obtain ⟨⟨past, g, h1, h2⟩, h3, h4⟩ := groupLoop_init (κ := Nat) (.inl rfl) (label := "Family".toList) gs hne hnames hset
  obtain ⟨nodes, e1, e2, e3⟩ := nodeGroupsLoop_eq gs (List.replicate n 0) (fun _ => 0) Numbering.init
    (fun e he p hp => by rw [List.length_replicate]; exact hin e he p hp)
    (fun p hp => by rw [List.length_replicate] at hp; simp [hp])
  rw [List.length_replicate] at e2 e3
  refine ⟨nodes, _, past, g, ?_, h1, h2, e2, ?_, fun p hp => ⟨_, e3 p hp, h4 p⟩⟩
  · unfold nodeFamilies
    rw [if_pos ⟨hn, by cases gs with | nil => exact absurd rfl hne | cons a l => simp⟩, e1]
    rfl
  · intro k hk
    obtain ⟨i, hi, hik⟩ := List.mem_iff_getElem.mp hk
    have := e3 i (by omega)
    rw [List.getElem?_eq_getElem hi, hik] at this
    rw [Option.some.inj this]
    exact h3 i

theorem positions_place {m : Mesh} {g : List Given} (h : CInv m g) (t : CellType) (i p : Nat)
    (hi : (m.positionsByType t)[i]? = some p) : ∃ c, g[p]? = some c ∧ c.type = t ∧ place g p t = i := by
  rw [h.pos t] at hi
  clear h
  induction g using List.reverseRecOn with
  | nil => simp at hi
  | append_singleton g c ih =>
    rw [List.zipIdx_append, List.filter_append, List.map_append] at hi
    have hlen : ((g.zipIdx.filter fun e => e.1.type = t).map (·.2)).length = (ofType g t).length := by
      rw [List.length_map, ofType]
      have : ∀ (l : List Given) (n : Nat), ((l.zipIdx n).filter fun e => e.1.type = t).length =
          (l.filter fun c => c.type = t).length := by
        intro l
        induction l with
        | nil => intro n; simp
        | cons x l ih =>
          intro n
          simp only [List.zipIdx_cons, List.filter_cons]
          split <;> simp [ih]
      exact this g 0
    by_cases hlt : i < (ofType g t).length
    · rw [List.getElem?_append_left (by omega)] at hi
      obtain ⟨d, h1, h2, h3⟩ := ih hi
      have hp : p < g.length := by
        by_contra hn
        rw [List.getElem?_eq_none (by omega)] at h1
        cases h1
      refine ⟨d, by rw [List.getElem?_append_left hp, h1], h2, ?_⟩
      unfold place at h3 ⊢
      rw [List.take_append_of_le_length (by omega), h3]
    · rw [List.getElem?_append_right (by omega)] at hi
      simp only [List.zipIdx_cons, List.zipIdx_nil, List.filter_cons, List.filter_nil] at hi
      split at hi
      · rename_i ht
        simp only [decide_eq_true_eq] at ht
        rw [hlen] at hi
        have h0 : i - (ofType g t).length = 0 := by
          by_contra hc
          rw [List.getElem?_eq_none (by simp; omega)] at hi
          cases hi
        rw [h0] at hi
        simp only [List.map_cons, List.map_nil, List.getElem?_cons_zero, Option.some.injEq, Nat.zero_add] at hi
        subst hi
        refine ⟨c, by simp, ht, ?_⟩
        unfold place
        rw [List.take_left]
        omega
      · simp at hi

theorem cell_run {m : Mesh} {g : List Given} (h : CInv m g) (gs : List (Text × List (Option Nat))) (hne : gs ≠ [])
    (hnames : (gs.map (·.1)).Nodup) (hset : ∀ e ∈ gs, e.2.Nodup) (hin : ∀ e ∈ gs, ∀ p, some p ∈ e.2 → p < g.length) :
    ∃ fams s past g', cellFamilies m gs = .ok (familiesInUse s.byId (usedNumbers fams), fams) ∧
      past ++ [g'] = gs.map (·.1) ∧ Good (-1) "CELLFamily".toList past g' s ∧
      (∀ k ∈ usedNumbers fams, Known s k) ∧
      ∃ F : Nat → Int, Stands g fams F ∧ ∀ p, groupsOf s (F p) = namesAt gs (some p) := by
  have hav : available gs ≠ [] := by
    intro he
    exact hne (List.map_eq_nil_iff.mp he)
  have hmap : (available gs).map (·.1) = gs.map (·.1) := by simp [available]
  obtain ⟨⟨past, g', h1, h2⟩, h3, h4⟩ := groupLoop_init (κ := Nat) (.inr rfl) (label := "CELLFamily".toList)
    (available gs) hav (by rw [hmap]; exact hnames) (by
      intro e he
      obtain ⟨e', he', rfl⟩ := List.mem_map.mp he
      refine List.Nodup.filterMap ?_ (hset e' he')
      intro a a' b hb hb'
      simp at hb hb'
      rw [hb, hb'])
  obtain ⟨fams, e1, e2⟩ := cellGroupsLoop_eq h gs (initialFamilies m) (fun _ => 0) Numbering.init hin (stands_init h)
  refine ⟨fams, _, past, g', ?_, by rw [h1, hmap], h2, ?_, _, e2, ?_⟩
  · unfold cellFamilies
    rw [e1]
    rfl
  · intro k hk
    obtain ⟨p, _, rfl⟩ := mem_usedNumbers e2 k hk
    exact h3 p
  · intro p
    rw [h4 p]
    unfold namesAt available
    rw [List.filter_map, List.map_map]
    congr 1
    apply List.filter_congr
    intro e _
    simp

theorem takeWhile_all {α : Type} (p : α → Bool) (l : List α) (h : ∀ x ∈ l, p x = true) : l.takeWhile p = l := by
  induction l with
  | nil => rfl
  | cons a l ih => rw [List.takeWhile_cons, if_pos (h a (by simp)), ih (fun x hx => h x (by simp [hx]))]

/-! ## Properties -/

/-- **C94**, nodes: the number written for each node says exactly the groups that contain it; the families have different
numbers, positive, each used by a node, and no two have the same groups. -/
theorem C94_nodes (n : Nat) (gs : List (Text × List Nat)) (hn : 0 < n) (hne : gs ≠ []) (hnames : (gs.map (·.1)).Nodup)
    (hset : ∀ e ∈ gs, e.2.Nodup) (hin : ∀ e ∈ gs, ∀ p ∈ e.2, p < n) :
    ∃ fams nodes, nodeFamilies n gs = .ok (fams, nodes) ∧ nodes.length = n ∧
      (∀ p, p < n → ∃ num, nodes[p]? = some num ∧ Belongs fams num (namesAt gs p)) ∧
      (fams.map (·.num)).Nodup ∧ (∀ f ∈ fams, 0 < f.num ∧ f.num ∈ nodes) ∧
      (∀ f ∈ fams, ∀ f' ∈ fams, f.groups = f'.groups → f = f') := by
  obtain ⟨nodes, s, past, g, h1, _, h3, h4, h5, h6⟩ := node_run n gs hn hne hnames hset hin
  refine ⟨_, nodes, h1, h4, ?_, nums_familiesInUse h5 (fun n f hf => (h3.keys n f hf).1), ?_, ?_⟩
  · intro p hp
    obtain ⟨k, e1, e2⟩ := h6 p hp
    exact ⟨k, e1, belongs_of h3 h5 (List.mem_of_getElem? e1) e2⟩
  · intro f hf
    obtain ⟨k, k1, k2, k3⟩ := (mem_familiesInUse h5).mp hf
    obtain ⟨e1, e2, _⟩ := h3.keys k f k3
    rw [e1]
    exact ⟨by omega, k1⟩
  · intro f hf f' hf' he
    obtain ⟨k, k1, k2, k3⟩ := (mem_familiesInUse h5).mp hf
    obtain ⟨k', k1', k2', k3'⟩ := (mem_familiesInUse h5).mp hf'
    have := h3.inj k k' (h5 k k1) (h5 k' k1') (by simp [groupsOf, k3, k3', oldGroups, he])
    subst this
    exact Option.some.inj (k3.symm.trans k3')

/-- Three groups over four nodes: nodes 1 and 2 are in two groups, node 3 in none. -/
example : nodeFamilies 4 [("A".toList, [0, 1]), ("B".toList, [1, 2]), ("C".toList, [2])] =
    .ok ([⟨["A".toList], "A".toList, 1⟩, ⟨["A".toList, "B".toList], "A_B".toList, 2⟩,
      ⟨["B".toList, "C".toList], "B_C".toList, 4⟩], [1, 2, 4, 0]) := by decide +kernel

/-- **C94**, cells: the same for each cell of a type, the families of a type being in the order of its connectivities. Positions
of cells that do not exist (`none`) are left out. -/
theorem C94_cells {m : Mesh} {g : List Given} (r : Reach m g) (gs : List (Text × List (Option Nat))) (hne : gs ≠ [])
    (hnames : (gs.map (·.1)).Nodup) (hset : ∀ e ∈ gs, e.2.Nodup) (hin : ∀ e ∈ gs, ∀ p, some p ∈ e.2 → p < g.length) :
    ∃ fams byType, cellFamilies m gs = .ok (fams, byType) ∧
      (∀ (t : CellType) (i p : Nat), (m.positionsByType t)[i]? = some p →
        ∃ (l : List Int) (num : Int), byType t = some l ∧ l.length = m.countCellsOfType t ∧ l[i]? = some num ∧
          Belongs fams num (namesAt gs (some p))) ∧
      (fams.map (·.num)).Nodup ∧ (∀ f ∈ fams, f.num < 0) ∧
      (∀ f ∈ fams, ∀ f' ∈ fams, f.groups = f'.groups → f = f') := by
  obtain ⟨fams, s, past, g', h1, _, h3, h4, F, h5, h6⟩ := cell_run r.cinv gs hne hnames hset hin
  refine ⟨_, fams, h1, ?_, nums_familiesInUse h4 (fun n f hf => (h3.keys n f hf).1), ?_, ?_⟩
  · intro t i p hp
    obtain ⟨c, c1, c2, c3⟩ := positions_place r.cinv t i p hp
    have hlt : p < g.length := by
      by_contra hn
      rw [List.getElem?_eq_none (by omega)] at c1
      cases c1
    obtain ⟨l, l1, l2⟩ := h5.at_ p c c1
    rw [c2] at l1 l2
    rw [c3] at l2
    refine ⟨l, F p, l1, ?_, l2, belongs_of h3 h4 (usedNumbers_mem h5 hlt) (h6 p)⟩
    rw [h5.size t l l1]
    exact (r.cinv.countType t).symm
  · intro f hf
    obtain ⟨k, k1, k2, k3⟩ := (mem_familiesInUse h4).mp hf
    obtain ⟨e1, e2, _⟩ := h3.keys k f k3
    rw [e1]
    omega
  · intro f hf f' hf' he
    obtain ⟨k, k1, k2, k3⟩ := (mem_familiesInUse h4).mp hf
    obtain ⟨k', k1', k2', k3'⟩ := (mem_familiesInUse h4).mp hf'
    have := h3.inj k k' (h4 k k1) (h4 k' k1') (by simp [groupsOf, k3, k3', oldGroups, he])
    subst this
    exact Option.some.inj (k3.symm.trans k3')

/-- The names of the groups as they are in the file: pieces of 80 characters, of which those before the first zero count. -/
def namesInFile (s : Text) : Nat → List Text
  | 0 => []
  | n + 1 => (s.take 80).takeWhile (· ≠ '\x00') :: namesInFile (s.drop 80) n

/-- **C94**, names of groups: a family in the file has the names of its groups, if they have at most 80 characters (and no
zero character). -/
theorem C94_group_names_partial (f : Family) (h : ∀ x ∈ f.groups, x.length ≤ 80 ∧ '\x00' ∉ x) :
    namesInFile (groupNames f) f.groups.length = f.groups := by
  unfold groupNames
  generalize ['\x00'] = rest
  generalize f.groups = gs at h ⊢
  induction gs with
  | nil => rfl
  | cons x gs ih =>
    obtain ⟨hx, hz⟩ := h x (by simp)
    have e1 : (x.takeWhile (· ≠ '\x00')) = x := by
      apply takeWhile_all
      intro c hc
      simp only [ne_eq, decide_not, Bool.not_eq_eq_eq_not, Bool.not_true, decide_eq_false_iff_not]
      rintro rfl
      exact hz hc
    have e2 : groupField x = x ++ List.replicate (80 - x.length) '\x00' := by
      unfold groupField lnameSize
      rw [e1, List.take_of_length_le hx]
    have hlen : (groupField x).length = 80 := by
      rw [e2, List.length_append, List.length_replicate]
      omega
    simp only [List.length_cons, namesInFile, List.flatMap_cons, List.append_assoc]
    rw [List.drop_left' hlen, List.take_left' hlen, ih (fun y hy => h y (by simp [hy]))]
    congr 1
    rw [e2, List.takeWhile_append_of_pos]
    · have hrep : ∀ k, (List.replicate k '\x00').takeWhile (· ≠ '\x00') = [] := by
        intro k
        cases k <;> simp [List.replicate_succ]
      rw [hrep, List.append_nil]
    · intro c hc
      simp only [ne_eq, decide_not, Bool.not_eq_eq_eq_not, Bool.not_true, decide_eq_false_iff_not]
      rintro rfl
      exact hz hc

example : namesInFile (groupNames ⟨["GROUP1".toList, "B".toList], "F".toList, 1⟩) 2 = ["GROUP1".toList, "B".toList] := by
  decide +kernel

/-- Two groups whose names differ after 80 characters have the same name in the file. -/
theorem C94_long_names_false : ∃ x y : Text, x ≠ y ∧
    ∀ f f' : Family, f.groups = [x] → f'.groups = [y] → groupNames f = groupNames f' := by
  refine ⟨List.replicate 80 'A' ++ ['1'], List.replicate 80 'A' ++ ['2'], by decide +kernel, ?_⟩
  intro f f' hf hf'
  unfold groupNames
  rw [hf, hf']
  decide +kernel

/-- **C94**, names of families: those of nodes and of cells, which are all in the same list of the file, are different, if the
names of the groups are different, have no underscore and are not like the names made up for families. -/
theorem C94_family_names_partial {m : Mesh} {g : List Given} (r : Reach m g) (n : Nat) (ngs : List (Text × List Nat))
    (cgs : List (Text × List (Option Nat))) (hn : 0 < n) (hngs : ngs ≠ []) (hcgs : cgs ≠ [])
    (hnames : (ngs.map (·.1) ++ cgs.map (·.1)).Nodup)
    (hset : ∀ e ∈ ngs, e.2.Nodup) (hin : ∀ e ∈ ngs, ∀ p ∈ e.2, p < n)
    (hset' : ∀ e ∈ cgs, e.2.Nodup) (hin' : ∀ e ∈ cgs, ∀ p, some p ∈ e.2 → p < g.length)
    (hbar : ∀ x ∈ ngs.map (·.1) ++ cgs.map (·.1), '_' ∉ x)
    (hmade : ∀ x ∈ ngs.map (·.1) ++ cgs.map (·.1), ∀ k, x ≠ "Family".toList ++ decimal k ∧
      x ≠ "CELLFamily".toList ++ decimal k) :
    ∃ fams nodes fams' byType, nodeFamilies n ngs = .ok (fams, nodes) ∧ cellFamilies m cgs = .ok (fams', byType) ∧
      ((fams ++ fams').map (·.name)).Nodup := by
  rw [List.nodup_append] at hnames
  obtain ⟨hn1, hn2, hn3⟩ := hnames
  obtain ⟨nodes, s, past, g1, h1, h2, h3, _, h5, _⟩ := node_run n ngs hn hngs hn1 hset hin
  obtain ⟨byType, s', past', g1', k1, k2, k3, k4, _⟩ := cell_run r.cinv cgs hcgs hn2 hset' hin'
  refine ⟨_, _, _, _, h1, k1, ?_⟩
  rw [List.map_append, List.nodup_append]
  refine ⟨?_, ?_, ?_⟩
  · apply names_familiesInUse h5
    intro i j f f' hi hj he
    exact names_differ (.inl rfl) h3 (by decide) (fun x hx => hbar x (by rw [h2] at hx; simp only [List.mem_append]; exact .inl hx))
      (fun x hx k => (hmade x (by rw [h2] at hx; simp only [List.mem_append]; exact .inl hx) k).1) hi hj he
  · apply names_familiesInUse k4
    intro i j f f' hi hj he
    exact names_differ (.inr rfl) k3 (by decide) (fun x hx => hbar x (by rw [k2] at hx; simp only [List.mem_append]; exact .inr hx))
      (fun x hx k => (hmade x (by rw [k2] at hx; simp only [List.mem_append]; exact .inr hx) k).2) hi hj he
  · intro a ha b hb hab
    subst hab
    obtain ⟨f, hf, rfl⟩ := List.mem_map.mp ha
    obtain ⟨f', hf', he⟩ := List.mem_map.mp hb
    obtain ⟨i, _, _, hi⟩ := (mem_familiesInUse h5).mp hf
    obtain ⟨j, _, _, hj⟩ := (mem_familiesInUse k4).mp hf'
    obtain ⟨toks, t1, t2, t3⟩ := h3.named i f hi
    obtain ⟨toks', t1', t2', t3'⟩ := k3.named j f' hj
    have mem1 : ∀ n f, s.byId.find n = some f → ∀ x ∈ f.groups, x ∈ ngs.map (·.1) := by
      intro n f hf x hx
      rw [← h2]
      simpa using h3.sub n f hf x hx
    have mem2 : ∀ n f, s'.byId.find n = some f → ∀ x ∈ f.groups, x ∈ cgs.map (·.1) := by
      intro n f hf x hx
      rw [← k2]
      simpa using k3.sub n f hf x hx
    have nobar : ∀ (label : Text) (k : Nat), '_' ∉ label → '_' ∉ label ++ decimal k := by
      intro label k hl hc
      rcases List.mem_append.mp hc with hc | hc
      · exact hl hc
      · exact decimal_bar _ hc
    -- the first tokens
    have first1 : ∃ x l, toks = x :: l ∧ (x ∈ ngs.map (·.1) ∨ ∃ k, x = "Family".toList ++ decimal k) ∧
        ∀ y ∈ toks, '_' ∉ y := by
      rcases t3 with t3 | ⟨mm, fm, l, hm, t3, hl⟩
      · cases toks with
        | nil => exact absurd rfl t1
        | cons x l =>
          have hmem : ∀ y ∈ x :: l, y ∈ ngs.map (·.1) := fun y hy => mem1 i f hi y (by rw [← t3]; exact hy)
          exact ⟨x, l, rfl, .inl (hmem x (by simp)), fun y hy => hbar y (List.mem_append.mpr (.inl (hmem y hy)))⟩
      · refine ⟨_, l, t3, .inr ⟨_, rfl⟩, ?_⟩
        intro y hy
        rw [t3] at hy
        rcases List.mem_cons.mp hy with rfl | hy
        · exact nobar _ _ (by decide)
        · exact hbar y (List.mem_append.mpr (.inl (mem1 i f hi y (by rw [hl]; exact List.mem_append.mpr (.inr hy)))))
    have first2 : ∃ x l, toks' = x :: l ∧ (x ∈ cgs.map (·.1) ∨ ∃ k, x = "CELLFamily".toList ++ decimal k) ∧
        ∀ y ∈ toks', '_' ∉ y := by
      rcases t3' with t3 | ⟨mm, fm, l, hm, t3, hl⟩
      · cases toks' with
        | nil => exact absurd rfl t1'
        | cons x l =>
          have hmem : ∀ y ∈ x :: l, y ∈ cgs.map (·.1) := fun y hy => mem2 j f' hj y (by rw [← t3]; exact hy)
          exact ⟨x, l, rfl, .inl (hmem x (by simp)), fun y hy => hbar y (List.mem_append.mpr (.inr (hmem y hy)))⟩
      · refine ⟨_, l, t3, .inr ⟨_, rfl⟩, ?_⟩
        intro y hy
        rw [t3] at hy
        rcases List.mem_cons.mp hy with rfl | hy
        · exact nobar _ _ (by decide)
        · exact hbar y (List.mem_append.mpr (.inr (mem2 j f' hj y (by rw [hl]; exact List.mem_append.mpr (.inr hy)))))
    obtain ⟨x, l, f1, f2, f3⟩ := first1
    obtain ⟨x', l', f1', f2', f3'⟩ := first2
    have htoks : toks = toks' := join_inj t1 t1' f3 f3' (by rw [← t2, ← t2', he])
    rw [f1, f1', List.cons.injEq] at htoks
    have hxx := htoks.1
    rcases f2 with f2 | ⟨k, f2⟩ <;> rcases f2' with f2' | ⟨k', f2'⟩
    · exact hn3 x f2 x' f2' hxx
    · exact (hmade x (List.mem_append.mpr (.inl f2)) k').2 (hxx.trans f2')
    · exact (hmade x' (List.mem_append.mpr (.inr f2')) k).1 (hxx.symm.trans f2)
    · rw [f2, f2'] at hxx
      have := congrArg List.head? hxx
      simp at this

/-- Groups `A`, `B` and `A_B`: two families with the same name, which the MED library does not allow in a mesh. -/
theorem C94_family_names_false : ∃ (gs : List (Text × List Nat)) (fams : List Family) (nodes : List Int) (f f' : Family),
    (gs.map (·.1)).Nodup ∧ nodeFamilies 2 gs = .ok (fams, nodes) ∧ f ∈ fams ∧ f' ∈ fams ∧ f.num ≠ f'.num ∧
      f.name = f'.name :=
  ⟨[("A".toList, [0]), ("A_B".toList, [1]), ("B".toList, [0])],
    [⟨["A_B".toList], "A_B".toList, 2⟩, ⟨["A".toList, "B".toList], "A_B".toList, 3⟩], [3, 2],
    ⟨["A_B".toList], "A_B".toList, 2⟩, ⟨["A".toList, "B".toList], "A_B".toList, 3⟩, by decide +kernel⟩

/-- The name of a family may have more than the 64 characters of `MED_NAME_SIZE`: combined names are made shorter from 80
characters on, and the name of a single group never is. -/
theorem C94_family_name_length_false : ∃ (gs : List (Text × List Nat)) (fams : List Family) (nodes : List Int),
    (∀ e ∈ gs, e.1.length ≤ 64) ∧ nodeFamilies 1 gs = .ok (fams, nodes) ∧ ∃ f ∈ fams, 64 < f.name.length :=
  ⟨[(List.replicate 40 'A', [0]), (List.replicate 38 'B', [0])],
    [⟨[List.replicate 40 'A', List.replicate 38 'B'], List.replicate 40 'A' ++ '_' :: List.replicate 38 'B', 2⟩], [2],
    by decide +kernel⟩

/-- **C94**, connectivities: for each type, those of its cells one after the other, with numbers of nodes that are positions
plus one; the numbers of the cells are in the same order. -/
theorem C94_connectivity {m : Mesh} {g : List Given} (r : Reach m g) (t : CellType) :
    (∃ l, connectivity m t = .ok l ∧ (∀ n ∈ l, 1 ≤ n) ∧
      l.map (fun n => m.nodes.findNodeId (n - 1)) = ((g.filter fun c => c.type = t).flatMap (·.nodeIds)).map .ok) ∧
    cellNumbers m t = (g.zipIdx.filter fun e => e.1.type = t).map (fun e => e.2 + 1) := by
  constructor
  · unfold connectivity
    rw [r.cinv.pos t]
    have hcell := (C13_connectivity r).2
    have key : ∀ (l : List (Given × Nat)), (∀ e ∈ l, g[e.2]? = some e.1) →
        ∃ l', connectivityOf m (l.map (·.2)) = .ok l' ∧ (∀ n ∈ l', 1 ≤ n) ∧
          l'.map (fun n => m.nodes.findNodeId (n - 1)) = (l.flatMap (·.1.nodeIds)).map .ok := by
      intro l
      induction l with
      | nil => intro _; exact ⟨[], rfl, by simp, rfl⟩
      | cons e l ih =>
        intro he
        obtain ⟨l', i1, i2, i3⟩ := ih (fun e' he' => he e' (by simp [he']))
        obtain ⟨v, v1, _, _, _, _, _, v7⟩ := hcell e.2 e.1 (he e (by simp))
        refine ⟨v.nodePositions.map (· + 1) ++ l', ?_, ?_, ?_⟩
        · simp only [List.map_cons, connectivityOf, v1, i1, Outcome.bind_ok]
        · intro n hn
          rcases List.mem_append.mp hn with hn | hn
          · obtain ⟨q, _, rfl⟩ := List.mem_map.mp hn
            omega
          · exact i2 n hn
        · rw [List.map_append, i3, List.flatMap_cons, List.map_append, List.map_map, ← v7]
          congr 1
    obtain ⟨l', h1, h2, h3⟩ := key (g.zipIdx.filter fun e => e.1.type = t) (by
      intro e he
      have := (List.mem_filter.mp he).1
      rw [List.mem_zipIdx_iff_getElem?] at this
      exact this)
    refine ⟨l', h1, h2, ?_⟩
    rw [h3]
    congr 1
    have : ∀ (l : List Given) (n : Nat), ((l.zipIdx n).filter fun e => e.1.type = t).flatMap (·.1.nodeIds) =
        (l.filter fun c => c.type = t).flatMap (·.nodeIds) := by
      intro l
      induction l with
      | nil => intro n; simp
      | cons x l ih =>
        intro n
        simp only [List.zipIdx_cons, List.filter_cons]
        split <;> simp [ih]
    exact this g 0
  · unfold cellNumbers
    rw [r.cinv.pos t, List.map_map]
    rfl

/-- The numbers of the cells are those from 1 to the number of cells, each once. -/
theorem C94_cell_numbers {m : Mesh} {g : List Given} (r : Reach m g) :
    (∀ k, (∃ t, k ∈ cellNumbers m t) ↔ 1 ≤ k ∧ k ≤ g.length) ∧ (∀ t, (cellNumbers m t).Nodup) ∧
    (∀ t t' k, k ∈ cellNumbers m t → k ∈ cellNumbers m t' → t = t') := by
  have hmem : ∀ t k, k ∈ cellNumbers m t ↔ ∃ c, 1 ≤ k ∧ g[k - 1]? = some c ∧ c.type = t := by
    intro t k
    rw [(C94_connectivity r t).2]
    simp only [List.mem_map, List.mem_filter, decide_eq_true_eq, List.mem_zipIdx_iff_getElem?]
    constructor
    · rintro ⟨⟨c, i⟩, ⟨h1, h2⟩, rfl⟩
      exact ⟨c, by omega, by simpa using h1, h2⟩
    · rintro ⟨c, h1, h2, h3⟩
      exact ⟨(c, k - 1), ⟨h2, h3⟩, by simp; omega⟩
  refine ⟨?_, ?_, ?_⟩
  · intro k
    constructor
    · rintro ⟨t, ht⟩
      obtain ⟨c, h1, h2, _⟩ := (hmem t k).mp ht
      refine ⟨h1, ?_⟩
      by_contra hn
      rw [List.getElem?_eq_none (by omega)] at h2
      cases h2
    · rintro ⟨h1, h2⟩
      exact ⟨_, (hmem _ k).mpr ⟨g[k - 1], h1, List.getElem?_eq_getElem (by omega), rfl⟩⟩
  · intro t
    rw [(C94_connectivity r t).2]
    have h1 : (g.zipIdx.map (·.2)).Nodup := by
      rw [List.zipIdx_map_snd]
      exact List.nodup_range'
    have h2 : ((g.zipIdx.filter fun e => e.1.type = t).map (·.2)).Nodup :=
      h1.sublist (List.Sublist.map _ List.filter_sublist)
    have h3 := h2.map (f := (· + 1)) (fun a b h => by simpa using h)
    rw [List.map_map] at h3
    exact h3
  · intro t t' k hk hk'
    obtain ⟨c, _, h2, h3⟩ := (hmem t k).mp hk
    obtain ⟨c', _, h2', h3'⟩ := (hmem t' k).mp hk'
    rw [← h3, ← h3', Option.some.inj (h2.symm.trans h2')]

/-- Different nodes, and different cells, have different names in the command file. -/
theorem C94_names (letter letter' : Char) (p q : Nat) (h : medName letter p = medName letter' q) :
    letter = letter' ∧ p = q := by
  unfold medName at h
  simp only [List.cons.injEq] at h
  exact ⟨h.1, by have := decimal_inj h.2; omega⟩

/-- A reachable mesh with a segment and a triangle, both in a group, and the segment in another one. -/
example : ∃ m g, Reach m g ∧ g.length = 2 ∧
    (cellFamilies m [("A".toList, [some 0, none, some 1]), ("B".toList, [some 0])]).toOption.map (·.1) =
      some [⟨["A".toList, "B".toList], "A_B".toList, -2⟩, ⟨["A".toList], "A".toList, -1⟩] ∧
    connectivity m .seg2 = .ok [1, 2] ∧ connectivity m .tri3 = .ok [2, 3, 1] := by
  have r0 := Reach.empty 9999999 1 9999999
  have r1 := Reach.add r0 ⟨1, .seg2, [10, 20], none, 0⟩ ⟨rfl, by decide⟩ (by decide) rfl rfl
  have r2 := Reach.add r1 ⟨2, .tri3, [20, 30, 10], none, 0⟩ ⟨rfl, by decide⟩ (by decide) rfl rfl
  exact ⟨_, _, r2, rfl, by decide +kernel, rfl, rfl⟩

end Vega.MedSpec
