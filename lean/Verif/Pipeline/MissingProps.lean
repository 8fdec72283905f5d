import Verif.Pipeline.Missing
import Mathlib.Tactic.Tauto
import Mathlib.Tactic.ByContra

/-!
# C146: what a case asks for and the file does not contain
-/
namespace Vega
namespace MissingSpec
open Missing

/-- A file as its user reads it: the set `n` has a force, -/
def HasForce (f : File) (n : Int) : Prop := ∃ c z, Card.force n c z ∈ f.cards

/-- a force that is not zero, -/
def HasEffective (f : File) (n : Int) : Prop := ∃ c, Card.force n c false ∈ f.cards

/-- a support; -/
def HasSupport (f : File) (n : Int) : Prop := Card.spc n ∈ f.cards

/-- the coordinate system `c` is the global one or defined. -/
def Known (f : File) (c : Int) : Prop := c = 0 ∨ Card.cord c ∈ f.cards

/-- A case selects the set of loads `n`. -/
def Selected (f : File) (n : Int) : Prop := ∃ k ∈ f.cases, k.load = some n

/-- Every method that a case selects is in the file. -/
def Methods (f : File) : Prop := ∀ k ∈ f.cases, ∀ m, k.method = some m → Card.eigrl m ∈ f.cards

/-- Every force is in a coordinate system that is known. -/
def Systems (f : File) : Prop := ∀ n c z, Card.force n c z ∈ f.cards → Known f c

/-- The case as its statements say it. -/
def asGiven (k : Case) : Analysis := ⟨k.id, k.load.toList, k.spc.toList, k.method⟩

/-- The case without the sets of loads and supports that do not have a property. -/
def without (p q : Int → Prop) [DecidablePred p] [DecidablePred q] (k : Case) : Analysis :=
  ⟨k.id, k.load.toList.filter p, k.spc.toList.filter q, k.method⟩

end MissingSpec

namespace Missing
open MissingSpec

/-! ## The model that is read -/

/-- The references agree with the loadings, and every loading is in a set of the model. -/
structure Inv (s : State) : Prop where
  members : s.members = s.loads.map fun l => (l.set, l.id)
  nodup : (s.loads.map (·.id)).Nodup
  closed : ∀ l ∈ s.loads, l.set ∈ s.loadSets

theorem mem_addSet {n m : Int} {l : List Int} : m ∈ addSet n l ↔ m = n ∨ m ∈ l := by
  unfold addSet
  split
  · constructor
    · exact Or.inr
    · rintro (rfl | h)
      · assumption
      · exact h
  · simp [or_comm]

theorem mem_addSelected {o : Option Int} {m : Int} {l : List Int} : m ∈ addSelected o l ↔ o = some m ∨ m ∈ l := by
  cases o with
  | none => simp [addSelected]
  | some n => simp [addSelected, mem_addSet, eq_comm]

/-- What the case control section leaves. -/
theorem cases_state (ks : List Case) : ∀ s : State,
    (ks.foldl readCase s).loads = s.loads ∧ (ks.foldl readCase s).members = s.members ∧
    (ks.foldl readCase s).systems = s.systems ∧ (ks.foldl readCase s).supports = s.supports ∧
    (ks.foldl readCase s).searches = s.searches ∧
    (ks.foldl readCase s).analyses = s.analyses ++ ks.map asGiven ∧
    (∀ n, n ∈ (ks.foldl readCase s).loadSets ↔ (∃ k ∈ ks, k.load = some n) ∨ n ∈ s.loadSets) ∧
    (∀ n, n ∈ (ks.foldl readCase s).constraintSets ↔ (∃ k ∈ ks, k.spc = some n) ∨ n ∈ s.constraintSets) := by
  induction ks with
  | nil => intro s; simp
  | cons k ks ih =>
    intro s
    obtain ⟨h1, h2, h3, h4, h5, h6, h7, h8⟩ := ih (readCase s k)
    simp only [List.foldl_cons]
    refine ⟨h1, h2, h3, h4, h5, ?_, ?_, ?_⟩
    · rw [h6]; simp [readCase, asGiven]
    · intro n
      rw [h7]
      simp only [readCase, mem_addSelected, List.mem_cons, exists_eq_or_imp]
      rw [or_left_comm, or_assoc]
    · intro n
      rw [h8]
      simp only [readCase, mem_addSelected, List.mem_cons, exists_eq_or_imp]
      rw [or_left_comm, or_assoc]

/-- What the cards add. -/
theorem cards_state (cs : List Card) : ∀ s : State,
    Inv s → (s.loads.map (·.id) = List.range s.loads.length) →
    Inv (cs.foldl readCard s) ∧
    (cs.foldl readCard s).analyses = s.analyses ∧
    (∀ n c z, (∃ l ∈ (cs.foldl readCard s).loads, l.set = n ∧ l.system = c ∧ l.zero = z) ↔
      (∃ l ∈ s.loads, l.set = n ∧ l.system = c ∧ l.zero = z) ∨ Card.force n c z ∈ cs) ∧
    (∀ n, n ∈ (cs.foldl readCard s).loadSets ↔ n ∈ s.loadSets ∨ ∃ c z, Card.force n c z ∈ cs) ∧
    (∀ n, n ∈ (cs.foldl readCard s).supports ↔ n ∈ s.supports ∨ Card.spc n ∈ cs) ∧
    (∀ n, n ∈ (cs.foldl readCard s).constraintSets ↔ n ∈ s.constraintSets ∨ Card.spc n ∈ cs) ∧
    (∀ n, n ∈ (cs.foldl readCard s).searches ↔ n ∈ s.searches ∨ Card.eigrl n ∈ cs) ∧
    (∀ n, n ∈ (cs.foldl readCard s).systems ↔ n ∈ s.systems ∨ Card.cord n ∈ cs) := by
  induction cs with
  | nil => intro s hi _; exact ⟨hi, by simp⟩
  | cons c cs ih =>
    intro s hi hr
    have hi' : Inv (readCard s c) := by
      obtain ⟨hm, hn, hc⟩ := hi
      cases c with
      | force n c z =>
        refine ⟨by simp [readCard, hm], ?_, ?_⟩
        · simp only [readCard, List.map_append, hr, List.map_cons, List.map_nil]
          rw [← List.range_succ]
          exact List.nodup_range
        · intro l hl
          simp only [readCard, List.mem_append, List.mem_singleton] at hl
          simp only [readCard, mem_addSet]
          rcases hl with hl | rfl
          · exact Or.inr (hc l hl)
          · exact Or.inl rfl
      | spc n => exact ⟨hm, hn, hc⟩
      | eigrl n => exact ⟨hm, hn, hc⟩
      | cord n => exact ⟨hm, hn, hc⟩
    have hr' : (readCard s c).loads.map (·.id) = List.range (readCard s c).loads.length := by
      cases c with
      | force n c z => simp [readCard, hr, List.range_succ]
      | spc n => exact hr
      | eigrl n => exact hr
      | cord n => exact hr
    obtain ⟨h1, h2, h3, h4, h5, h6, h7, h8⟩ := ih _ hi' hr'
    simp only [List.foldl_cons]
    refine ⟨h1, ?_, ?_, ?_, ?_, ?_, ?_, ?_⟩
    · rw [h2]; cases c <;> rfl
    · intro n d z
      rw [h3]
      cases c with
      | force n' d' z' =>
        simp only [readCard, List.mem_append, List.mem_cons, List.not_mem_nil, or_false, Card.force.injEq]
        constructor
        · rintro (⟨l, (hl | rfl), h⟩ | h)
          · exact Or.inl ⟨l, hl, h⟩
          · obtain ⟨rfl, rfl, rfl⟩ := h; exact Or.inr (Or.inl ⟨rfl, rfl, rfl⟩)
          · exact Or.inr (Or.inr h)
        · rintro (⟨l, hl, h⟩ | (⟨rfl, rfl, rfl⟩ | h))
          · exact Or.inl ⟨l, Or.inl hl, h⟩
          · exact Or.inl ⟨_, Or.inr rfl, rfl, rfl, rfl⟩
          · exact Or.inr h
      | spc n => simp [readCard]
      | eigrl n => simp [readCard]
      | cord n => simp [readCard]
    · intro n
      rw [h4]
      cases c with
      | force n' d' z' =>
        simp only [readCard, mem_addSet, List.mem_cons, Card.force.injEq]
        constructor
        · rintro ((rfl | h) | ⟨c, z, h⟩)
          · exact Or.inr ⟨d', z', Or.inl ⟨rfl, rfl, rfl⟩⟩
          · exact Or.inl h
          · exact Or.inr ⟨c, z, Or.inr h⟩
        · rintro (h | ⟨c, z, ⟨rfl, _, _⟩ | h⟩)
          · exact Or.inl (Or.inr h)
          · exact Or.inl (Or.inl rfl)
          · exact Or.inr ⟨c, z, h⟩
      | spc n => simp [readCard]
      | eigrl n => simp [readCard]
      | cord n => simp [readCard]
    · intro n
      rw [h5]
      cases c <;> simp [readCard, or_assoc]
    · intro n
      rw [h6]
      cases c <;> simp [readCard, mem_addSet]
      tauto
    · intro n
      rw [h7]
      cases c <;> simp [readCard, or_assoc]
    · intro n
      rw [h8]
      cases c <;> simp [readCard, or_assoc]

/-- The model of a file. -/
theorem read_state (f : File) :
    Inv (read f) ∧ (read f).analyses = f.cases.map asGiven ∧
    (∀ n c z, (∃ l ∈ (read f).loads, l.set = n ∧ l.system = c ∧ l.zero = z) ↔ Card.force n c z ∈ f.cards) ∧
    (∀ n, n ∈ (read f).loadSets ↔ Selected f n ∨ HasForce f n) ∧
    (∀ n, n ∈ (read f).supports ↔ HasSupport f n) ∧
    (∀ n, n ∈ (read f).constraintSets ↔ (∃ k ∈ f.cases, k.spc = some n) ∨ HasSupport f n) ∧
    (∀ n, n ∈ (read f).searches ↔ Card.eigrl n ∈ f.cards) ∧
    (∀ n, n ∈ (read f).systems ↔ Card.cord n ∈ f.cards) := by
  obtain ⟨c1, c2, c3, c4, c5, c6, c7, c8⟩ := cases_state f.cases State.init
  have hi : Inv (f.cases.foldl readCase State.init) := by
    refine ⟨?_, ?_, ?_⟩
    · rw [c1, c2]; rfl
    · rw [c1]; exact List.nodup_nil
    · intro l hl; rw [c1] at hl; cases hl
  obtain ⟨h1, h2, h3, h4, h5, h6, h7, h8⟩ := cards_state f.cards _ hi (by rw [c1]; rfl)
  refine ⟨h1, ?_, ?_, ?_, ?_, ?_, ?_, ?_⟩
  · show (f.cards.foldl readCard _).analyses = _
    rw [h2, c6]; rfl
  · intro n c z
    have := h3 n c z
    rw [c1] at this
    rw [show read f = f.cards.foldl readCard (f.cases.foldl readCase State.init) from rfl, this]
    simp [State.init]
  · intro n
    have := h4 n
    rw [c7] at this
    rw [show read f = f.cards.foldl readCard (f.cases.foldl readCase State.init) from rfl, this]
    simp [State.init, Selected, HasForce]
  · intro n
    have := h5 n
    rw [c4] at this
    rw [show read f = f.cards.foldl readCard (f.cases.foldl readCase State.init) from rfl, this]
    simp [State.init, HasSupport]
  · intro n
    have := h6 n
    rw [c8] at this
    rw [show read f = f.cards.foldl readCard (f.cases.foldl readCase State.init) from rfl, this]
    simp [State.init, HasSupport]
  · intro n
    have := h7 n
    rw [c5] at this
    rw [show read f = f.cards.foldl readCard (f.cases.foldl readCase State.init) from rfl, this]
    simp [State.init]
  · intro n
    have := h8 n
    rw [c3] at this
    rw [show read f = f.cards.foldl readCard (f.cases.foldl readCase State.init) from rfl, this]
    simp [State.init]

/-! ## The loads of a set -/

/-- With numbers that differ, the one that is looked for is found. -/
theorem find_id {ls : List Load} (hn : (ls.map (·.id)).Nodup) {l : Load} (h : l ∈ ls) :
    ls.find? (fun x => x.id = l.id) = some l := by
  induction ls with
  | nil => cases h
  | cons a ls ih =>
    simp only [List.map_cons, List.nodup_cons, List.mem_map, not_exists, not_and] at hn
    rcases List.mem_cons.mp h with rfl | h'
    · simp
    · have : a.id ≠ l.id := fun e => hn.1 l h' e.symm
      rw [List.find?_cons_of_neg (by simpa using this)]
      exact ih hn.2 h'

theorem mapM_find {ls : List Load} (hn : (ls.map (·.id)).Nodup) : ∀ sub : List Load, (∀ l ∈ sub, l ∈ ls) →
    (sub.map (·.id)).mapM (fun i => ls.find? fun l => l.id = i) = some sub
  | [], _ => rfl
  | a :: sub, h => by
    have ih := mapM_find hn sub fun l hl => h l (List.mem_cons_of_mem _ hl)
    have ha := find_id hn (h a List.mem_cons_self)
    simp only [List.map_cons, List.mapM_cons, ha, ih]
    rfl

theorem loadsOf_eq {s : State} (h : Inv s) (n : Int) : loadsOf s n = some (s.loads.filter fun l => l.set = n) := by
  unfold loadsOf
  have : (s.members.filter fun m => m.1 = n).map (·.2) = (s.loads.filter fun l => l.set = n).map (·.id) := by
    rw [h.members, List.filter_map, List.map_map]
    rfl
  rw [this]
  exact mapM_find h.nodup _ fun l hl => (List.mem_filter.mp hl).1

/-- The sets without loads. -/
def Empty (s : State) (n : Int) : Bool := s.loads.all fun l => l.set ≠ n

theorem emptySets_eq {s : State} (h : Inv s) : ∀ ns, emptySets s ns = .go (ns.filter (Empty s))
  | [] => rfl
  | n :: ns => by
    simp only [emptySets, loadsOf_eq h, emptySets_eq h ns, Run.bind]
    congr 1
    by_cases he : Empty s n = true
    · rw [List.filter_cons_of_pos he, if_pos]
      rw [List.filter_eq_nil_iff]
      intro l hl
      have := List.all_eq_true.mp he l hl
      simpa using this
    · rw [List.filter_cons_of_neg he, if_neg]
      intro hf
      apply he
      rw [List.filter_eq_nil_iff] at hf
      rw [Empty, List.all_eq_true]
      intro l hl
      simpa using hf l hl

theorem mapM_loadsOf {s : State} (h : Inv s) : ∀ ns : List Int,
    ns.mapM (loadsOf s) = some (ns.map fun n => s.loads.filter fun l => l.set = n)
  | [] => rfl
  | n :: ns => by
    simp only [List.mapM_cons, loadsOf_eq h, mapM_loadsOf h ns, List.map_cons]
    rfl

/-- The forces of the selected sets decide about `boundary`. -/
theorem boundary_go {s : State} (h : Inv s) : ∀ as : List Analysis,
    (∀ a ∈ as, ∀ n ∈ a.loads, n ∈ s.loadSets → ∀ l ∈ s.loads, l.set = n → okSystem s l = true) → boundary s as = .go ()
  | [], _ => rfl
  | a :: as, ha => by
    simp only [boundary, mapM_loadsOf h]
    rw [if_pos]
    · exact boundary_go h as fun b hb => ha b (List.mem_cons_of_mem _ hb)
    · rw [List.all_eq_true]
      intro l hl
      simp only [List.mem_flatten, List.mem_map, List.mem_filter, decide_eq_true_eq] at hl
      obtain ⟨_, ⟨n, ⟨hn, hs⟩, rfl⟩, hl⟩ := hl
      simp only [List.mem_filter, decide_eq_true_eq] at hl
      exact ha a List.mem_cons_self n hn hs l hl.1 hl.2

theorem boundary_ended {s : State} (h : Inv s) : ∀ as : List Analysis,
    (∃ a ∈ as, ∃ n ∈ a.loads, n ∈ s.loadSets ∧ ∃ l ∈ s.loads, l.set = n ∧ okSystem s l = false) → boundary s as = .ended
  | [], ⟨_, h, _⟩ => by cases h
  | a :: as, ha => by
    simp only [boundary, mapM_loadsOf h]
    split
    · rename_i hall
      apply boundary_ended h as
      obtain ⟨b, hb, n, hn, hs, l, hl, hln, hb'⟩ := ha
      rcases List.mem_cons.mp hb with rfl | hb
      · rw [List.all_eq_true] at hall
        have := hall l (by
          simp only [List.mem_flatten, List.mem_map, List.mem_filter, decide_eq_true_eq]
          exact ⟨_, ⟨n, ⟨hn, hs⟩, rfl⟩, by simpa using ⟨hl, hln⟩⟩)
        rw [hb'] at this
        cases this
      · exact ⟨b, hb, n, hn, hs, l, hl, hln, hb'⟩
    · rfl

/-! ## Removal of what is ineffective -/

theorem removeZero_inv {s : State} (h : Inv s) : Inv (removeZero s) := by
  refine ⟨?_, ?_, ?_⟩
  · simp only [removeZero, h.members, List.filter_map]
    congr 1
    apply List.filter_congr
    intro l hl
    simp only [Function.comp, List.any_filter]
    congr 1
    by_cases hz : l.zero = true
    · rw [hz, List.any_eq_true]
      exact ⟨l, hl, by simp [hz]⟩
    · rw [Bool.not_eq_true] at hz
      rw [hz, List.any_eq_false]
      intro x hx hcon
      simp only [Bool.and_eq_true, decide_eq_true_eq] at hcon
      have hxl : some x = some l := by rw [← find_id h.nodup hx, ← find_id h.nodup hl, hcon.2]
      cases hxl
      rw [hz] at hcon
      exact absurd hcon.1 (by simp)
  · exact (List.filter_sublist.map _).nodup h.nodup
  · intro l hl
    exact h.closed l (List.mem_filter.mp hl).1

/-- The sets that `removeIneffectives` leaves. -/
def effective (s : State) : State := removeConstraintSets (removeLoadSets (removeZero s) (s.loadSets.filter (Empty (removeZero s))))

theorem removeIneffectives_eq {s : State} (h : Inv s) : removeIneffectives s = .go (effective s) := by
  simp only [removeIneffectives, emptySets_eq (removeZero_inv h), Run.bind]
  rfl

theorem effective_inv {s : State} (h : Inv s) : Inv (effective s) := by
  have hz := removeZero_inv h
  refine ⟨hz.members, hz.nodup, ?_⟩
  intro l hl
  show l.set ∈ (s.loadSets.filter fun n => n ∉ s.loadSets.filter (Empty (removeZero s)))
  simp only [List.mem_filter, decide_eq_true_eq, not_and]
  refine ⟨h.closed l (List.mem_filter.mp hl).1, fun _ he => ?_⟩
  have := List.all_eq_true.mp he l hl
  simp at this

/-! ## Validation -/

theorem validate_strict {s : State} (h : Inv s) :
    validate .MODE_STRICT s =
      if s.analyses.all (hasSearch s) then
        .go (s.loads.all (okSystem s) && (s.loadSets.filter (Empty s)).isEmpty && s.analyses.all (validAnalysis s), s)
      else .undefined := by
  by_cases hc : s.analyses.all (hasSearch s) = true
  · simp only [validate, validateLoads, validateLoadSets, emptySets_eq h, Run.bind, validateAnalyses, if_pos hc]
  · simp only [validate, validateLoads, validateLoadSets, emptySets_eq h, Run.bind, validateAnalyses, if_neg hc]

/-- After removing the loads that are not valid, a set that contained one of them cannot be asked for its size. -/
theorem emptySets_terminated {s : State} (h : Inv s) {l : Load} (hl : l ∈ s.loads) (hb : okSystem s l = false) :
    ∀ ns, l.set ∈ ns → emptySets { s with loads := s.loads.filter (okSystem s) } ns = .terminated
  | [], hm => by cases hm
  | n :: ns, hm => by
    simp only [emptySets]
    split
    · rfl
    · rename_i ls hls
      rcases List.mem_cons.mp hm with rfl | hm'
      · exfalso
        unfold loadsOf at hls
        have hex : l.id ∈ ((s.members.filter fun m => m.1 = l.set).map (·.2)) := by
          rw [h.members]
          simp only [List.mem_map, List.mem_filter, decide_eq_true_eq]
          exact ⟨(l.set, l.id), ⟨⟨l, hl, rfl⟩, rfl⟩, rfl⟩
        have hnone : (s.loads.filter (okSystem s)).find? (fun x => x.id = l.id) = none := by
          rw [List.find?_eq_none]
          intro x hx hid
          simp only [decide_eq_true_eq] at hid
          obtain ⟨hx1, hx2⟩ := List.mem_filter.mp hx
          have : some x = some l := by rw [← find_id h.nodup hx1, ← find_id h.nodup hl, hid]
          cases this
          rw [hb] at hx2
          cases hx2
        have key : ∀ (is : List Nat) (g : Nat → Option Load) (r : List Load) (i : Nat), i ∈ is → g i = none →
            is.mapM g = some r → False := by
          intro is g
          induction is with
          | nil => intro r i hi; cases hi
          | cons a is ih =>
            intro r i hi hg hr
            simp only [List.mapM_cons] at hr
            rcases List.mem_cons.mp hi with rfl | hi'
            · rw [hg] at hr; cases hr
            · cases hga : g a with
              | none => rw [hga] at hr; cases hr
              | some b =>
                cases hgm : is.mapM g with
                | none => rw [hga, hgm] at hr; cases hr
                | some r' => exact ih r' i hi' hg hgm
        exact key _ _ _ _ hex hnone hls
      · rw [emptySets_terminated h hl hb ns hm']
        rfl

theorem validate_terminated {s : State} (h : Inv s) {mode : TranslationMode} (hmode : mode ≠ .MODE_STRICT)
    {l : Load} (hl : l ∈ s.loads) (hb : okSystem s l = false) : validate mode s = .terminated := by
  have hr : (validateLoads mode s).2 = { s with loads := s.loads.filter (okSystem s) } := by
    cases mode <;> first | exact absurd rfl hmode | rfl
  simp only [validate, hr, validateLoadSets]
  rw [emptySets_terminated h hl hb _ (h.closed l hl)]
  rfl

/-- In the other modes, when all loads are valid: what is left. -/
def kept (s : State) : State :=
  let s2 := { s with loadSets := s.loadSets.filter fun n => n ∉ s.loadSets.filter (Empty s) }
  { s2 with analyses := s2.analyses.filter (validAnalysis s2) }

theorem validate_effort {s : State} (h : Inv s) {mode : TranslationMode} (hmode : mode ≠ .MODE_STRICT)
    (hok : ∀ l ∈ s.loads, okSystem s l = true) :
    ∃ b, validate mode s = if s.analyses.all (hasSearch s) then .go (b, kept s) else .undefined := by
  have hr : (validateLoads mode s).2 = s := by
    have : s.loads.filter (okSystem s) = s.loads := List.filter_eq_self.mpr hok
    cases mode <;> first | exact absurd rfl hmode | (simp only [validateLoads, this])
  refine ⟨(validateLoads mode s).1 && (s.loadSets.filter (Empty s)).isEmpty &&
    s.analyses.all (validAnalysis { s with loadSets := s.loadSets.filter fun n => n ∉ s.loadSets.filter (Empty s) }), ?_⟩
  simp only [validate, hr, validateLoadSets, emptySets_eq h, Run.bind]
  cases mode with
  | MODE_STRICT => exact absurd rfl hmode
  | MESH_AT_LEAST =>
    simp only [validateAnalyses]
    rw [show (s.analyses.all (hasSearch { s with loadSets := s.loadSets.filter fun n => n ∉ s.loadSets.filter (Empty s) }))
      = s.analyses.all (hasSearch s) from rfl]
    by_cases hc : s.analyses.all (hasSearch s) = true
    · simp only [if_pos hc]; rfl
    · simp only [if_neg hc]
  | BEST_EFFORT =>
    simp only [validateAnalyses]
    rw [show (s.analyses.all (hasSearch { s with loadSets := s.loadSets.filter fun n => n ∉ s.loadSets.filter (Empty s) }))
      = s.analyses.all (hasSearch s) from rfl]
    by_cases hc : s.analyses.all (hasSearch s) = true
    · simp only [if_pos hc]; rfl
    · simp only [if_neg hc]

/-! ## Translations of a file -/

section File
variable {f : File}

theorem ok_iff (l : Load) : okSystem (read f) l = true ↔ Known f l.system := by
  unfold okSystem Known
  rw [decide_eq_true_eq, (read_state f).2.2.2.2.2.2.2]

theorem force_of {l : Load} (h : l ∈ (read f).loads) : Card.force l.set l.system l.zero ∈ f.cards :=
  ((read_state f).2.2.1 _ _ _).mp ⟨l, h, rfl, rfl, rfl⟩

theorem empty_iff (n : Int) : Empty (read f) n = true ↔ ¬ HasForce f n := by
  unfold Empty
  rw [List.all_eq_true]
  constructor
  · rintro h ⟨c, z, hc⟩
    obtain ⟨l, hl, hn, _⟩ := ((read_state f).2.2.1 _ _ _).mpr hc
    simpa [hn] using h l hl
  · intro h l hl
    simp only [decide_eq_true_eq]
    rintro rfl
    exact h ⟨_, _, force_of hl⟩

theorem empty_zero_iff (n : Int) : Empty (removeZero (read f)) n = true ↔ ¬ HasEffective f n := by
  unfold Empty
  rw [List.all_eq_true]
  constructor
  · rintro h ⟨c, hc⟩
    obtain ⟨l, hl, hn, _, hz⟩ := ((read_state f).2.2.1 _ _ _).mpr hc
    simpa [hn] using h l (by simpa [removeZero, hz] using hl)
  · intro h l hl
    simp only [removeZero, List.mem_filter, Bool.not_eq_true'] at hl
    simp only [decide_eq_true_eq]
    rintro rfl
    exact h ⟨l.system, hl.2 ▸ force_of hl.1⟩

theorem search_iff : ((read f).analyses.all (hasSearch (read f)) = true) ↔ Methods f := by
  rw [(read_state f).2.1, List.all_eq_true]
  unfold Methods
  constructor
  · intro h k hk m hm
    have := h _ (List.mem_map_of_mem hk)
    simp only [hasSearch, asGiven, hm, decide_eq_true_eq] at this
    exact ((read_state f).2.2.2.2.2.2.1 m).mp this
  · intro h a ha
    obtain ⟨k, hk, rfl⟩ := List.mem_map.mp ha
    unfold hasSearch asGiven
    cases hm : k.method with
    | none => rfl
    | some m =>
      simp only [decide_eq_true_eq]
      exact ((read_state f).2.2.2.2.2.2.1 m).mpr (h k hk m hm)

/-- With known systems in the sets that are selected, `finish` goes through. -/
theorem boundary_read (h : ∀ n c z, Selected f n → Card.force n c z ∈ f.cards → Known f c) :
    boundary (read f) (read f).analyses = .go () := by
  apply boundary_go (read_state f).1
  intro a ha n hn _ l hl hs
  rw [(read_state f).2.1] at ha
  obtain ⟨k, hk, rfl⟩ := List.mem_map.mp ha
  rw [ok_iff]
  subst hs
  refine h l.set _ _ ⟨k, hk, ?_⟩ (force_of hl)
  simpa [asGiven] using hn

/-- What is left after `removeIneffectives`. -/
theorem effective_analyses [DecidablePred (HasEffective f)] [DecidablePred (HasSupport f)] :
    (effective (read f)).analyses = f.cases.map (without (HasEffective f) (HasSupport f)) := by
  simp only [effective, removeConstraintSets, removeLoadSets, removeZero, List.map_map, (read_state f).2.1]
  apply List.map_congr_left
  intro k hk
  simp only [Function.comp, asGiven, without, Analysis.mk.injEq, true_and, and_true]
  constructor
  · apply List.filter_congr
    intro n hn
    have hsel : n ∈ (read f).loadSets := ((read_state f).2.2.2.1 n).mpr (Or.inl ⟨k, hk, by simpa using hn⟩)
    rw [decide_eq_decide]
    simp only [List.mem_filter, hsel, true_and]
    exact (not_congr (empty_zero_iff (f := f) n)).trans not_not
  · apply List.filter_congr
    intro n hn
    have hsel : n ∈ (read f).constraintSets := ((read_state f).2.2.2.2.2.1 n).mpr (Or.inl ⟨k, hk, by simpa using hn⟩)
    rw [decide_eq_decide]
    simp only [List.mem_filter, hsel, true_and, decide_eq_true_eq, (read_state f).2.2.2.2.1]
    tauto

theorem effective_nonempty {s : State} : (effective s).loadSets.filter (Empty (effective s)) = [] := by
  rw [List.filter_eq_nil_iff]
  intro n hn he
  simp only [effective, removeConstraintSets, removeLoadSets, List.mem_filter, decide_eq_true_eq, not_and] at hn
  exact hn.2 hn.1 he

theorem effective_valid (a : Analysis) (ha : a ∈ (effective (read f)).analyses) : validAnalysis (effective (read f)) a = true := by
  simp only [effective, removeConstraintSets, removeLoadSets, List.map_map, List.mem_map, Function.comp] at ha
  obtain ⟨b, hb, rfl⟩ := ha
  have hb' : b ∈ (read f).analyses := hb
  rw [(read_state f).2.1] at hb'
  obtain ⟨k, hk, rfl⟩ := List.mem_map.mp hb'
  simp only [validAnalysis, Bool.and_eq_true, List.all_eq_true, decide_eq_true_eq]
  constructor
  · intro n hn
    have h2 := List.mem_filter.mp hn
    refine List.mem_filter.mpr ⟨?_, h2.2⟩
    exact ((read_state f).2.2.2.2.2.1 n).mpr (Or.inl ⟨k, hk, by simpa [asGiven] using h2.1⟩)
  · intro n hn
    have h2 := List.mem_filter.mp hn
    refine List.mem_filter.mpr ⟨?_, h2.2⟩
    exact ((read_state f).2.2.2.1 n).mpr (Or.inl ⟨k, hk, by simpa [asGiven] using h2.1⟩)

/-- What a writer finds in an analysis that is valid. -/
theorem written_valid {s : State} {a : Analysis} (h : validAnalysis s a = true) : written s a = a := by
  simp only [validAnalysis, Bool.and_eq_true, List.all_eq_true] at h
  unfold written
  rw [List.filter_eq_self.mpr h.1, List.filter_eq_self.mpr h.2]

theorem map_written {s : State} {as : List Analysis} (h : ∀ a ∈ as, validAnalysis s a = true) : as.map (written s) = as := by
  have : as.map (written s) = as.map id := List.map_congr_left fun a ha => written_valid (h a ha)
  rw [this, List.map_id]

theorem search_effective : (effective (read f)).analyses.all (hasSearch (effective (read f))) =
    (read f).analyses.all (hasSearch (read f)) := by
  simp only [effective, removeConstraintSets, removeLoadSets, List.map_map, List.all_map]
  rfl

theorem effort_of {s : State} (hi : Inv s) {mode : TranslationMode} (hmode : mode ≠ .MODE_STRICT)
    (hok : ∀ l ∈ s.loads, okSystem s l = true) (hs : s.analyses.all (hasSearch s) = true) :
    ((validate mode s).bind fun p =>
      if p.1 = false ∧ mode = .MODE_STRICT then Run.go Result.refused
      else .go (.analyses (p.2.analyses.map (written p.2)))) = .go (.analyses (kept s).analyses) := by
  obtain ⟨b, hb⟩ := validate_effort hi hmode hok
  rw [hb, if_pos hs]
  simp only [Run.bind]
  rw [if_neg fun h => hmode h.2]
  congr 2
  exact map_written fun a ha => (List.mem_filter.mp ha).2

theorem effective_ok (hs : ∀ c : Int × Int, Card.force c.1 c.2 false ∈ f.cards → Known f c.2) (l : Load)
    (hl : l ∈ (effective (read f)).loads) : okSystem (effective (read f)) l = true := by
  have hl' : l ∈ (removeZero (read f)).loads := hl
  simp only [removeZero, List.mem_filter, Bool.not_eq_true'] at hl'
  show okSystem (read f) l = true
  rw [ok_iff]
  exact hs (l.set, l.system) (hl'.2 ▸ force_of hl'.1)

theorem translate_effective {t : Target} (ht : t ≠ .NASTRAN) (mode : TranslationMode)
    (h : ∀ n c z, Selected f n → Card.force n c z ∈ f.cards → Known f c) :
    translate t mode f = (validate mode (effective (read f))).bind fun p =>
      if p.1 = false ∧ mode = .MODE_STRICT then .go .refused
      else .go (.analyses (p.2.analyses.map (written p.2))) := by
  unfold translate finish
  rw [boundary_read h]
  cases t with
  | NASTRAN => exact absurd rfl ht
  | ASTER => simp only [Run.bind, removeIneffectives_eq (read_state f).1]
  | SYSTUS => simp only [Run.bind, removeIneffectives_eq (read_state f).1]

theorem translate_nastran (mode : TranslationMode)
    (h : ∀ n c z, Selected f n → Card.force n c z ∈ f.cards → Known f c) :
    translate .NASTRAN mode f = (validate mode (read f)).bind fun p =>
      if p.1 = false ∧ mode = .MODE_STRICT then .go .refused
      else .go (.analyses (p.2.analyses.map (written p.2))) := by
  unfold translate finish
  rw [boundary_read h]
  rfl

theorem read_valid {a : Analysis} (ha : a ∈ (read f).analyses) : validAnalysis (read f) a = true := by
  rw [(read_state f).2.1] at ha
  obtain ⟨k, hk, rfl⟩ := List.mem_map.mp ha
  simp only [validAnalysis, Bool.and_eq_true, List.all_eq_true, decide_eq_true_eq]
  exact ⟨fun n hn => ((read_state f).2.2.2.2.2.1 n).mpr (Or.inl ⟨k, hk, by simpa [asGiven] using hn⟩),
    fun n hn => ((read_state f).2.2.2.1 n).mpr (Or.inl ⟨k, hk, by simpa [asGiven] using hn⟩)⟩

/-! ## The property -/

/-- **C146** for Code_Aster and Systus, when methods and coordinate systems are there: in every mode every case is written, in order,
with exactly those of its selected sets that the file fills. -/
theorem C146_cases {t : Target} (ht : t ≠ .NASTRAN) (mode : TranslationMode) [DecidablePred (HasEffective f)]
    [DecidablePred (HasSupport f)] (hs : Systems f) (hm : Methods f) :
    translate t mode f = .go (.analyses (f.cases.map (without (HasEffective f) (HasSupport f)))) := by
  have hi := effective_inv (read_state f).1
  have hok := effective_ok (f := f) fun c hc => hs _ _ _ hc
  have hse : (effective (read f)).analyses.all (hasSearch (effective (read f))) = true := by
    rw [search_effective]; exact search_iff.mpr hm
  rw [translate_effective ht mode fun n c z _ hc => hs n c z hc, ← effective_analyses]
  by_cases hmode : mode = .MODE_STRICT
  · subst hmode
    rw [validate_strict hi, if_pos hse]
    have h1 : (effective (read f)).loads.all (okSystem (effective (read f))) = true := List.all_eq_true.mpr hok
    have h2 : (effective (read f)).analyses.all (validAnalysis (effective (read f))) = true :=
      List.all_eq_true.mpr effective_valid
    simp only [Run.bind, h1, h2, effective_nonempty]
    rw [if_neg (by simp)]
    congr 2
    exact map_written effective_valid
  · rw [effort_of hi hmode hok hse]
    congr 2
    have hl : (effective (read f)).loadSets.filter (fun n => n ∉ (effective (read f)).loadSets.filter (Empty (effective (read f))))
        = (effective (read f)).loadSets := by
      rw [effective_nonempty]
      exact List.filter_eq_self.mpr fun _ _ => by simp
    unfold kept
    simp only [hl]
    exact List.filter_eq_self.mpr effective_valid

/-- **C146** nothing that is in the file gets lost: when every selected set has a load that is not zero or a support, the methods and
coordinate systems are there, then for every output and in every mode all cases are written as given. -/
theorem C146_complete (t : Target) (mode : TranslationMode) (hs : Systems f) (hm : Methods f)
    (hl : ∀ k ∈ f.cases, ∀ n, k.load = some n → HasEffective f n)
    (hc : ∀ k ∈ f.cases, ∀ n, k.spc = some n → HasSupport f n) :
    translate t mode f = .go (.analyses (f.cases.map asGiven)) := by
  classical
  by_cases ht : t = .NASTRAN
  · subst ht
    have hi := (read_state f).1
    have hok : ∀ l ∈ (read f).loads, okSystem (read f) l = true := fun l h => (ok_iff l).mpr (hs _ _ _ (force_of h))
    have hse := search_iff.mpr hm
    have hne : (read f).loadSets.filter (Empty (read f)) = [] := by
      rw [List.filter_eq_nil_iff]
      intro n hn
      rw [empty_iff, not_not]
      rcases ((read_state f).2.2.2.1 n).mp hn with ⟨k, hk, hkn⟩ | h
      · obtain ⟨c, h⟩ := hl k hk n hkn; exact ⟨c, _, h⟩
      · exact h
    rw [translate_nastran mode fun n c z _ hc => hs n c z hc, ← (read_state f).2.1]
    by_cases hmode : mode = .MODE_STRICT
    · subst hmode
      rw [validate_strict hi, if_pos hse]
      have h1 : (read f).loads.all (okSystem (read f)) = true := List.all_eq_true.mpr hok
      have h2 : (read f).analyses.all (validAnalysis (read f)) = true := List.all_eq_true.mpr fun _ => read_valid
      simp only [Run.bind, h1, h2, hne]
      rw [if_neg (by simp)]
      congr 2
      exact map_written fun _ => read_valid
    · rw [effort_of hi hmode hok hse]
      congr 2
      unfold kept
      have hl : (read f).loadSets.filter (fun n => n ∉ (read f).loadSets.filter (Empty (read f))) = (read f).loadSets := by
        rw [hne]
        exact List.filter_eq_self.mpr fun _ _ => by simp
      simp only [hl]
      exact List.filter_eq_self.mpr fun _ => read_valid
  · rw [C146_cases ht mode hs hm]
    congr 2
    apply List.map_congr_left
    intro k hk
    simp only [without, asGiven, Analysis.mk.injEq, true_and, and_true]
    constructor
    · exact List.filter_eq_self.mpr fun n hn => decide_eq_true (hl k hk n (by simpa using hn))
    · exact List.filter_eq_self.mpr fun n hn => decide_eq_true (hc k hk n (by simpa using hn))

/-- **C146** for Nastran in strict mode, when the methods are there and the coordinate systems of the selected forces: the file is
refused iff a case selects a set of loads without a load, or a force is in an unknown coordinate system; else every case is written
as given. -/
theorem C146_strict_nastran_partial (hm : Methods f)
    (hs : ∀ n c z, Selected f n → Card.force n c z ∈ f.cards → Known f c) :
    (((∃ n, Selected f n ∧ ¬ HasForce f n) ∨ ∃ n c z, Card.force n c z ∈ f.cards ∧ ¬ Known f c) →
      translate .NASTRAN .MODE_STRICT f = .go .refused) ∧
    (¬ ((∃ n, Selected f n ∧ ¬ HasForce f n) ∨ ∃ n c z, Card.force n c z ∈ f.cards ∧ ¬ Known f c) →
      translate .NASTRAN .MODE_STRICT f = .go (.analyses (f.cases.map asGiven))) := by
  have hse := search_iff.mpr hm
  have h2 : (read f).analyses.all (validAnalysis (read f)) = true := List.all_eq_true.mpr fun _ => read_valid
  rw [translate_nastran _ hs, validate_strict (read_state f).1, if_pos hse]
  simp only [Run.bind, h2, Bool.and_true, and_true]
  constructor
  · intro h
    rw [if_pos]
    rw [Bool.and_eq_false_iff]
    rcases h with ⟨n, hn, he⟩ | ⟨n, c, z, hc, hk⟩
    · right
      have : n ∈ (read f).loadSets.filter (Empty (read f)) :=
        List.mem_filter.mpr ⟨((read_state f).2.2.2.1 n).mpr (Or.inl hn), (empty_iff n).mpr he⟩
      rw [List.isEmpty_eq_false_iff]
      exact List.ne_nil_of_mem this
    · left
      obtain ⟨l, hl, _, rfl, _⟩ := ((read_state f).2.2.1 _ _ _).mpr hc
      rw [List.all_eq_false]
      exact ⟨l, hl, fun h => hk ((ok_iff l).mp h)⟩
  · intro h
    rw [not_or] at h
    rw [if_neg]
    · rw [← (read_state f).2.1]
      congr 2
      exact map_written fun _ => read_valid
    · rw [Bool.and_eq_false_iff, not_or]
      constructor
      · rw [Bool.not_eq_false, List.all_eq_true]
        intro l hl
        rw [ok_iff]
        by_contra hk
        exact h.2 ⟨_, _, _, force_of hl, hk⟩
      · rw [Bool.not_eq_false, List.isEmpty_iff, List.filter_eq_nil_iff]
        intro n hn
        rw [empty_iff, not_not]
        rcases ((read_state f).2.2.2.1 n).mp hn with hsel | hf
        · by_contra hf; exact h.1 ⟨n, hsel, hf⟩
        · exact hf

/-- **C146** is false for Code_Aster and Systus in strict mode: a case that selects loads or supports that the file does not contain is
not refused, it is translated without them. -/
theorem C146_strict_false {t : Target} (ht : t ≠ .NASTRAN) (hs : Systems f) (hm : Methods f) {k : Case} (hk : k ∈ f.cases)
    (hmiss : (∃ n, k.load = some n ∧ ¬ HasForce f n) ∨ ∃ n, k.spc = some n ∧ ¬ HasSupport f n) :
    ∃ as a, translate t .MODE_STRICT f = .go (.analyses as) ∧ a ∈ as ∧ a.id = k.id ∧ a.method = k.method ∧
      (a.loads = [] ∧ k.load.isSome = true ∨ a.spcs = [] ∧ k.spc.isSome = true) := by
  classical
  refine ⟨_, without (HasEffective f) (HasSupport f) k, C146_cases ht _ hs hm, List.mem_map_of_mem hk, rfl, rfl, ?_⟩
  rcases hmiss with ⟨n, hn, h⟩ | ⟨n, hn, h⟩
  · left
    have : ¬ HasEffective f n := fun ⟨c, hc⟩ => h ⟨c, _, hc⟩
    simp [without, hn, this]
  · right
    simp [without, hn, h]

/-- **C146** is false for Nastran outside of strict mode: a case that selects loads that the file does not contain is not written
without them, it is not written at all. -/
theorem C146_case_lost_false {mode : TranslationMode} (hmode : mode ≠ .MODE_STRICT) (hs : Systems f) (hm : Methods f)
    [DecidablePred fun k : Case => ∀ n, k.load = some n → HasForce f n] :
    translate .NASTRAN mode f =
      .go (.analyses ((f.cases.filter fun k => ∀ n, k.load = some n → HasForce f n).map asGiven)) := by
  have hok : ∀ l ∈ (read f).loads, okSystem (read f) l = true := fun l h => (ok_iff l).mpr (hs _ _ _ (force_of h))
  rw [translate_nastran mode fun n c z _ hc => hs n c z hc,
    effort_of (read_state f).1 hmode hok (search_iff.mpr hm)]
  congr 2
  unfold kept
  simp only [(read_state f).2.1, List.filter_map]
  congr 1
  apply List.filter_congr
  intro k hk
  rw [Bool.eq_iff_iff, decide_eq_true_eq]
  simp only [Function.comp, validAnalysis, asGiven, Bool.and_eq_true, List.all_eq_true, decide_eq_true_eq, Option.mem_toList,
    List.mem_filter, not_and]
  constructor
  · intro h n hn
    by_contra hf
    obtain ⟨h1, h2⟩ := h.2 n hn
    exact h2 h1 ((empty_iff n).mpr hf)
  · intro h
    refine ⟨fun n hn => ((read_state f).2.2.2.2.2.1 n).mpr (Or.inl ⟨k, hk, hn⟩), fun n hn => ?_⟩
    exact ⟨((read_state f).2.2.2.1 n).mpr (Or.inl ⟨k, hk, hn⟩), fun _ he => (empty_iff n).mp he (h n hn)⟩

/-- **C146** is false for Nastran and supports, in every mode: a case that selects supports that the file does not contain keeps the
selection. -/
theorem C146_support_false (mode : TranslationMode) (hs : Systems f) (hm : Methods f)
    (hl : ∀ k ∈ f.cases, ∀ n, k.load = some n → HasForce f n) :
    translate .NASTRAN mode f = .go (.analyses (f.cases.map asGiven)) := by
  classical
  by_cases hmode : mode = .MODE_STRICT
  · subst hmode
    refine (C146_strict_nastran_partial hm fun n c z _ hc => hs n c z hc).2 ?_
    rintro (⟨n, ⟨k, hk, hn⟩, h⟩ | ⟨n, c, z, hc, h⟩)
    · exact h (hl k hk n hn)
    · exact h (hs n c z hc)
  · rw [C146_case_lost_false hmode hs hm]
    congr 3
    exact List.filter_eq_self.mpr fun k hk => decide_eq_true (hl k hk)

/-- **C146** is false for methods: a case that selects a method that the file does not contain is neither refused nor left out, for no
output and in no mode; a null pointer is used. -/
theorem C146_method_false (t : Target) (mode : TranslationMode) (hs : Systems f) {k : Case} (hk : k ∈ f.cases) {m : Int}
    (hkm : k.method = some m) (hmiss : Card.eigrl m ∉ f.cards) : translate t mode f = .undefined := by
  have hse : ¬ ((read f).analyses.all (hasSearch (read f)) = true) := fun h => hmiss (search_iff.mp h k hk m hkm)
  by_cases ht : t = .NASTRAN
  · subst ht
    have hok : ∀ l ∈ (read f).loads, okSystem (read f) l = true := fun l h => (ok_iff l).mpr (hs _ _ _ (force_of h))
    rw [translate_nastran mode fun n c z _ hc => hs n c z hc]
    by_cases hmode : mode = .MODE_STRICT
    · subst hmode
      rw [validate_strict (read_state f).1, if_neg hse]
      rfl
    · obtain ⟨b, hb⟩ := validate_effort (read_state f).1 hmode hok
      rw [hb, if_neg hse]
      rfl
  · have hi := effective_inv (read_state f).1
    have hok := effective_ok (f := f) fun c hc => hs _ _ _ hc
    rw [translate_effective ht mode fun n c z _ hc => hs n c z hc]
    by_cases hmode : mode = .MODE_STRICT
    · subst hmode
      rw [validate_strict hi, search_effective, if_neg hse]
      rfl
    · obtain ⟨b, hb⟩ := validate_effort hi hmode hok
      rw [hb, search_effective, if_neg hse]
      rfl

/-- **C146** is false for coordinate systems: a selected force, even a zero one, in a system that the file does not contain ends the
translation with an error that is not about the validity of the model, outside of strict mode too. -/
theorem C146_system_false (t : Target) (mode : TranslationMode) {n c : Int} {z : Bool} (hc : Card.force n c z ∈ f.cards)
    (hk : ¬ Known f c) (hsel : Selected f n) : translate t mode f = .ended := by
  unfold translate finish
  rw [boundary_ended (read_state f).1]
  · rfl
  · obtain ⟨k, hkm, hkn⟩ := hsel
    obtain ⟨l, hl, hln, hlc, _⟩ := ((read_state f).2.2.1 _ _ _).mpr hc
    refine ⟨asGiven k, ?_, n, by simp [asGiven, hkn], ((read_state f).2.2.2.1 n).mpr (Or.inl ⟨k, hkm, hkn⟩), l, hl, hln, ?_⟩
    · rw [(read_state f).2.1]; exact List.mem_map_of_mem hkm
    · rw [Bool.eq_false_iff]
      intro h
      exact hk (hlc ▸ (ok_iff l).mp h)

/-- **C146** is false for forces that no case selects: outside of strict mode one that is not zero, in a system that the file does not
contain, ends the program with `std::terminate`; nothing is written. -/
theorem C146_terminate_false (t : Target) {mode : TranslationMode} (hmode : mode ≠ .MODE_STRICT) {n c : Int}
    (hc : Card.force n c false ∈ f.cards) (hk : ¬ Known f c)
    (hs : ∀ n c z, Selected f n → Card.force n c z ∈ f.cards → Known f c) : translate t mode f = .terminated := by
  obtain ⟨l, hl, _, hlc, hlz⟩ := ((read_state f).2.2.1 _ _ _).mpr hc
  have hb : okSystem (read f) l = false := by
    rw [Bool.eq_false_iff]
    intro h
    exact hk (hlc ▸ (ok_iff l).mp h)
  by_cases ht : t = .NASTRAN
  · subst ht
    rw [translate_nastran mode hs, validate_terminated (read_state f).1 hmode hl hb]
    rfl
  · rw [translate_effective ht mode hs, validate_terminated (effective_inv (read_state f).1) hmode (l := l) ?_ hb]
    · rfl
    · show l ∈ (removeZero (read f)).loads
      simpa [removeZero, hlz] using hl

end File

/-! ## Examples -/

/-- Two cases: the first selects loads and supports, the second loads that are not in the file. -/
def sample : File := ⟨⟨1, some 10, some 20, none⟩, [⟨2, some 11, some 20, some 30⟩],
  [.force 10 5 false, .cord 5, .spc 20, .eigrl 30]⟩

example : Systems sample ∧ Methods sample := by
  constructor
  · intro n c z h
    simp only [sample, List.mem_cons, Card.force.injEq, reduceCtorEq, List.not_mem_nil, or_false] at h
    obtain ⟨rfl, rfl, rfl⟩ := h
    exact Or.inr (by decide)
  · intro k hk m hm
    simp only [File.cases, sample, List.mem_cons, List.not_mem_nil, or_false] at hk
    rcases hk with rfl | rfl
    · cases hm
    · cases hm; decide

example : translate .ASTER .MODE_STRICT sample = .go (.analyses [⟨1, [10], [20], none⟩, ⟨2, [], [20], some 30⟩]) ∧
    translate .NASTRAN .MODE_STRICT sample = .go .refused ∧
    translate .NASTRAN .BEST_EFFORT sample = .go (.analyses [⟨1, [10], [20], none⟩]) := by
  refine ⟨?_, ?_, ?_⟩ <;> decide +kernel

/-- A force of a set that no case selects, in an unknown system. -/
example : translate .ASTER .BEST_EFFORT ⟨⟨1, none, none, none⟩, [], [.force 10 5 false]⟩ = .terminated ∧
    translate .ASTER .MODE_STRICT ⟨⟨1, none, none, none⟩, [], [.force 10 5 false]⟩ = .go .refused ∧
    translate .ASTER .BEST_EFFORT ⟨⟨1, some 10, none, none⟩, [], [.force 10 5 false]⟩ = .ended ∧
    translate .NASTRAN .BEST_EFFORT ⟨⟨1, none, none, some 3⟩, [], []⟩ = .undefined := by
  refine ⟨?_, ?_, ?_, ?_⟩ <;> decide +kernel

end Missing
end Vega
