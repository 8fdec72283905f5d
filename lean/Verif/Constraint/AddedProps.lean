import Verif.Constraint.Added
import Verif.Constraint.ContactsProps

/-! # C135: combined sets of supports -/
namespace Vega
namespace AddedSpec
open Nastran BarsSpec Added

/-- The card SPCADD defines this set as the union of these: field 1 is its number, the others follow up to the end. -/
def Says (fields : List Line) (id : Int) (ns : List Int) : Prop := IsInt fields 1 id ∧ ContactsSpec.Numbers fields 2 ns

/-- Some card defines set `n` as a union with `m` among its sets. -/
def Lists (cards : List Card) (n m : Int) : Prop := ∃ f ns, Card.spcadd f ∈ cards ∧ Says f n ns ∧ m ∈ ns

/-- The supports of a set: those of its cards and those of the sets it is the union of. -/
inductive Supported (cards : List Card) : Int → Nat → Prop where
  | own (n : Int) (k : Nat) (h : Card.support n k ∈ cards) : Supported cards n k
  | union (n m : Int) (k : Nat) (h : Lists cards n m) (hm : Supported cards m k) : Supported cards n k

/-- No union has a union among its sets. -/
def Flat (cards : List Card) : Prop := ∀ n m l, Lists cards n m → ¬ Lists cards m l

end AddedSpec

namespace Added
open Nastran BarsSpec LoadCardsSpec ContactsSpec LoadCards Bars Contacts AddedSpec

/-! ## Lemmas -/

theorem loop_sound {fields : List Line} {fuel p : Nat} {ns : List Int} {c : Cursor}
    (h : listLoop fuel (at' fields p) = .ok (ns, c)) :
    ∃ q, c = at' fields q ∧ (LoadCardsSpec.Ends fields q → Numbers fields p ns) := by
  induction fuel generalizing p ns with
  | zero => cases h
  | succ fuel ih =>
    unfold listLoop at h
    rw [isNextInt_at, Outcome.bind_ok] at h
    cases hl : intLike (field fields p) with
    | true =>
      rw [hl] at h
      simp only [if_true] at h
      rw [nextInt_at] at h
      simp only [bind_assoc', Outcome.bind_ok] at h
      obtain ⟨n, h1, h⟩ := bind_ok_iff.mp h
      obtain ⟨⟨ns', c'⟩, h2, h⟩ := bind_ok_iff.mp h
      cases h
      obtain ⟨q, hq, hn⟩ := ih h2
      exact ⟨q, hq, fun he => .cons p n ns' (like_plain hl (readInt_given.mp h1)) (hn he)⟩
    | false =>
      rw [hl] at h
      cases h
      exact ⟨p, rfl, fun he => .nil p he⟩

theorem loop_complete {fields : List Line} {p : Nat} {ns : List Int} (h : Numbers fields p ns) {fuel : Nat}
    (hf : ns.length < fuel) :
    ∃ q, listLoop fuel (at' fields p) = .ok (ns, at' fields q) ∧ LoadCardsSpec.Ends fields q := by
  induction h generalizing fuel with
  | nil p he =>
    obtain ⟨fuel, rfl⟩ : ∃ m, fuel = m + 1 := ⟨fuel - 1, by simp at hf; omega⟩
    refine ⟨p, ?_, he⟩
    unfold listLoop
    rw [isNextInt_at, Outcome.bind_ok, blank_intLike (he p (Nat.le_refl p))]
    rfl
  | cons p n rest h1 _ ih =>
    obtain ⟨fuel, rfl⟩ : ∃ m, fuel = m + 1 := ⟨fuel - 1, by simp at hf; omega⟩
    obtain ⟨q, h2, h3⟩ := ih (fuel := fuel) (by simp at hf; omega)
    refine ⟨q, ?_, h3⟩
    unfold listLoop
    rw [isNextInt_at, Outcome.bind_ok, plain_like h1]
    simp only [if_true]
    rw [nextInt_at]
    simp only [bind_assoc', Outcome.bind_ok]
    rw [readInt_given.mpr h1.1, Outcome.bind_ok, h2, Outcome.bind_ok]

theorem card_iff (fields : List Line) (id : Int) (ns : List Int) :
    runCard parseSPCADD fields = .ok (id, ns) ↔ Says fields id ns := by
  rw [start_at]
  unfold parseSPCADD
  rw [nextInt_at]
  simp only [bind_assoc', Outcome.bind_ok]
  constructor
  · intro h
    obtain ⟨i, h1, h⟩ := bind_ok_iff.mp h
    obtain ⟨⟨ns', c⟩, h2, h⟩ := bind_ok_iff.mp h
    obtain ⟨q, rfl, hn⟩ := loop_sound h2
    obtain ⟨he, hx⟩ := end_iff.mp h
    cases hx
    exact ⟨readInt_given.mp h1, hn he⟩
  · rintro ⟨h1, h2⟩
    have hlen := numbers_length h2
    obtain ⟨q, h3, h4⟩ := loop_complete h2 (fuel := fields.length + 1) (by omega)
    rw [readInt_given.mpr h1, Outcome.bind_ok]
    have h3' : listLoop ((at' fields 2).fields.length + 1) (at' fields 2) = .ok (ns, at' fields q) := h3
    rw [h3', Outcome.bind_ok]
    exact end_iff.mpr ⟨h4, rfl⟩

theorem list_listed (s : State) (id : Int) (ns : List Int) :
    (s.list id ns).listed = s.listed ++ ns.map (fun n => (id, n)) ∧ (s.list id ns).supports = s.supports ∧
    ∀ m, m ∈ (s.list id ns).sets ↔ m ∈ s.sets ∨ m ∈ ns := by
  induction ns generalizing s with
  | nil => simp [State.list]
  | cons n ns ih =>
    obtain ⟨h1, h2, h3⟩ := ih { s with sets := if n ∈ s.sets then s.sets else s.sets ++ [n], listed := s.listed ++ [(id, n)] }
    unfold State.list
    refine ⟨by rw [h1]; simp, h2, fun m => ?_⟩
    rw [h3]
    by_cases h : n ∈ s.sets
    · simp only [if_pos h, List.mem_cons]
      constructor
      · rintro (h | h)
        · exact .inl h
        · exact .inr (.inr h)
      · rintro (h' | rfl | h')
        · exact .inl h'
        · exact .inl h
        · exact .inr h'
    · simp only [if_neg h, List.mem_cons, List.mem_append, List.not_mem_nil, or_false, or_assoc]

structure Inv (selected : List Int) (cards : List Card) (s : State) : Prop where
  sets : ∀ m, m ∈ s.sets ↔ m ∈ selected ∨ ∃ n, Lists cards n m
  listed : ∀ n m, (n, m) ∈ s.listed ↔ Lists cards n m
  supports : ∀ n k, (n, k) ∈ s.supports ↔ Card.support n k ∈ cards

theorem inv_start (selected : List Int) : Inv selected [] (start selected) :=
  ⟨fun m => by simp [start, Lists], fun n m => by simp [start, Lists], fun n k => by simp [start]⟩

theorem numbers_unique {f : List Line} {p : Nat} {a b : List Int} (h : Numbers f p a) (h' : Numbers f p b) : a = b := by
  have no : ∀ {p : Nat} {n : Int}, Plain f p n → ¬ LoadCardsSpec.Ends f p := by
    intro p n h he
    have := plain_like h
    rw [blank_intLike (he p (Nat.le_refl p))] at this
    cases this
  induction h generalizing b with
  | nil p he =>
    cases h' with
    | nil => rfl
    | cons _ n rest h1 _ => exact absurd he (no h1)
  | cons p n rest h1 _ ih =>
    cases h' with
    | nil _ he => exact absurd he (no h1)
    | cons _ n' rest' h1' h2' =>
      have := h1.1
      unfold IsInt at this
      rw [h1'.1] at this
      cases this
      rw [ih h2']

theorem says_unique {f : List Line} {a b : Int} {l l' : List Int} (h : Says f a l) (h' : Says f b l') : a = b ∧ l = l' := by
  have := h.1
  unfold IsInt at this
  rw [h'.1] at this
  cases this
  exact ⟨rfl, numbers_unique h.2 h'.2⟩

theorem inv_step {selected : List Int} {cards : List Card} {s s' : State} {c : Card} (h : Inv selected cards s)
    (hs : step s c = .ok s') : Inv selected (cards ++ [c]) s' := by
  cases c with
  | support n k =>
    cases hs
    have e : ∀ n' m, Lists (cards ++ [.support n k]) n' m ↔ Lists cards n' m := by
      intro n' m; simp [Lists]
    refine ⟨fun m => by simp only [e]; exact h.sets m, fun n' m => by rw [e]; exact h.listed n' m, fun n' k' => ?_⟩
    simp [h.supports]
  | spcadd f =>
    unfold step at hs
    obtain ⟨⟨id, ns⟩, h1, hs⟩ := bind_ok_iff.mp hs
    have hsay := (card_iff f id ns).mp h1
    dsimp only at hs
    split at hs
    · cases hs
      obtain ⟨e1, e2, e3⟩ := list_listed s id ns
      have e : ∀ n m, Lists (cards ++ [.spcadd f]) n m ↔ Lists cards n m ∨ (n = id ∧ m ∈ ns) := by
        intro n m
        constructor
        · rintro ⟨g, l, hg, h2, h3⟩
          rcases List.mem_append.mp hg with hg | hg
          · exact .inl ⟨g, l, hg, h2, h3⟩
          · rw [List.mem_singleton] at hg
            cases hg
            obtain ⟨rfl, rfl⟩ := says_unique h2 hsay
            exact .inr ⟨rfl, h3⟩
        · rintro (⟨g, l, hg, h2, h3⟩ | ⟨rfl, h3⟩)
          · exact ⟨g, l, by simp [hg], h2, h3⟩
          · exact ⟨f, ns, by simp, hsay, h3⟩
      refine ⟨fun m => ?_, fun n m => ?_, fun n k => ?_⟩
      · rw [e3, h.sets]
        constructor
        · rintro ((h1 | ⟨n, h1⟩) | h1)
          · exact .inl h1
          · exact .inr ⟨n, (e n m).mpr (.inl h1)⟩
          · exact .inr ⟨id, (e id m).mpr (.inr ⟨rfl, h1⟩)⟩
        · rintro (h1 | ⟨n, h1⟩)
          · exact .inl (.inl h1)
          · rcases (e n m).mp h1 with h1 | ⟨_, h1⟩
            · exact .inl (.inr ⟨n, h1⟩)
            · exact .inr h1
      · rw [e1, e, List.mem_append, h.listed, List.mem_map]
        refine or_congr_right ⟨?_, ?_⟩
        · rintro ⟨x, hx, he⟩; cases he; exact ⟨rfl, hx⟩
        · rintro ⟨rfl, hx⟩; exact ⟨m, hx, rfl⟩
      · rw [e2, h.supports]; simp
    · cases hs

theorem run_snoc (s : State) (cs : List Card) (c : Card) : run s (cs ++ [c]) = (run s cs >>= fun s => step s c) := by
  induction cs generalizing s with
  | nil =>
    simp only [List.nil_append, run, Outcome.bind_ok]
    cases step s c <;> rfl
  | cons d cs ih =>
    simp only [List.cons_append, run]
    cases step s d with
    | ok s' => simp only [Outcome.bind_ok]; exact ih s'
    | _ => rfl

theorem inv_run {selected : List Int} {cards : List Card} {s : State} (h : run (start selected) cards = .ok s) :
    Inv selected cards s := by
  induction cards using List.reverseRecOn generalizing s with
  | nil => cases h; exact inv_start selected
  | append_singleton cards c ih =>
    rw [run_snoc] at h
    obtain ⟨s1, h1, h2⟩ := bind_ok_iff.mp h
    exact inv_step (ih h1) h2

theorem mem_members (s : State) (n : Int) (k : Nat) : k ∈ members s n ↔ (n, k) ∈ s.supports := by
  unfold members
  simp only [List.mem_map, List.mem_filter, decide_eq_true_eq]
  constructor
  · rintro ⟨⟨a, b⟩, ⟨h1, rfl⟩, rfl⟩; exact h1
  · intro h; exact ⟨(n, k), ⟨h, rfl⟩, rfl⟩

theorem mem_constraints {selected : List Int} {cards : List Card} {s : State} (h : Inv selected cards s) (n : Int) (k : Nat) :
    k ∈ getConstraints s n ↔ Card.support n k ∈ cards ∨ ∃ m, Lists cards n m ∧ Card.support m k ∈ cards := by
  unfold getConstraints
  rw [List.mem_append, mem_members, h.supports]
  refine or_congr_right ?_
  simp only [List.mem_flatMap, List.mem_map, List.mem_filter, decide_eq_true_eq, mem_members, h.supports]
  constructor
  · rintro ⟨m, ⟨⟨a, b⟩, ⟨h1, rfl⟩, rfl⟩, h2⟩
    exact ⟨b, (h.listed a b).mp h1, h2⟩
  · rintro ⟨m, h1, h2⟩
    exact ⟨m, ⟨(n, m), ⟨(h.listed n m).mpr h1, rfl⟩, rfl⟩, h2⟩

/-! ## Properties -/

/-- **C135.** When no union has unions among its sets, every set has exactly the supports of its cards and of the sets it is the
union of, wherever the cards stand. -/
theorem C135_union_partial (selected : List Int) (cards : List Card) (s : State)
    (h : run (start selected) cards = .ok s) (hf : Flat cards) (n : Int) (k : Nat) :
    k ∈ getConstraints s n ↔ Supported cards n k := by
  rw [mem_constraints (inv_run h)]
  constructor
  · rintro (h1 | ⟨m, h1, h2⟩)
    · exact .own n k h1
    · exact .union n m k h1 (.own m k h2)
  · intro hs
    cases hs with
    | own _ _ h1 => exact .inl h1
    | union _ m _ h1 hm =>
      cases hm with
      | own _ _ h2 => exact .inr ⟨m, h1, h2⟩
      | union _ l _ h2 _ => exact absurd h2 (hf n m l h1)

/-- **C135.** The order of the cards does not matter, as far as they are accepted in both orders. -/
theorem C135_order_partial (selected : List Int) (cards cards' : List Card) (s s' : State) (hp : cards.Perm cards')
    (h : run (start selected) cards = .ok s) (h' : run (start selected) cards' = .ok s') (n : Int) (k : Nat) :
    k ∈ getConstraints s n ↔ k ∈ getConstraints s' n := by
  rw [mem_constraints (inv_run h), mem_constraints (inv_run h')]
  unfold Lists
  simp only [hp.mem_iff]

/-- **C135.** The cards are accepted iff each SPCADD follows the format and its set is selected in the case control section or
among the sets of an SPCADD standing before. -/
theorem C135_accepted (selected : List Int) (cards : List Card) :
    (∃ s, run (start selected) cards = .ok s) ↔
      ∀ before f after, cards = before ++ .spcadd f :: after → ∃ id ns, Says f id ns ∧
        (id ∈ selected ∨ ∃ n, Lists before n id) := by
  induction cards using List.reverseRecOn with
  | nil => exact ⟨fun _ b f a h => by simp at h, fun _ => ⟨_, rfl⟩⟩
  | append_singleton cards c ih =>
    constructor
    · rintro ⟨s, h⟩
      rw [run_snoc] at h
      obtain ⟨s1, h1, h2⟩ := bind_ok_iff.mp h
      intro b f a hba
      rcases List.eq_nil_or_concat a with rfl | ⟨a', y, rfl⟩
      · have he := List.append_inj' hba rfl
        obtain ⟨rfl, hc⟩ := he
        have hc : c = .spcadd f := by simpa using hc
        subst hc
        unfold step at h2
        obtain ⟨⟨id, ns⟩, h3, h2⟩ := bind_ok_iff.mp h2
        dsimp only at h2
        split at h2
        · rename_i hm
          exact ⟨id, ns, (card_iff f id ns).mp h3, ((inv_run h1).sets id).mp hm⟩
        · cases h2
      · rw [List.concat_eq_append] at hba
        have he : cards ++ [c] = (b ++ .spcadd f :: a') ++ [y] := by simpa using hba
        exact ih.mp ⟨s1, h1⟩ b f a' (List.append_inj' he rfl).1
    · intro h
      obtain ⟨s, hs⟩ := ih.mpr (fun b f a hba => h b f (a ++ [c]) (by rw [hba]; simp))
      rw [run_snoc, hs, Outcome.bind_ok]
      cases c with
      | support n k => exact ⟨_, rfl⟩
      | spcadd f =>
        obtain ⟨id, ns, h1, h2⟩ := h cards f [] rfl
        simp only [step]
        rw [(card_iff f id ns).mpr h1, Outcome.bind_ok]
        dsimp only
        rw [if_pos (((inv_run hs).sets id).mpr h2)]
        exact ⟨_, rfl⟩

/-- A union of unions is accepted, and the supports that only its inner unions have are left out. -/
theorem C135_nested_false (selected : List Int) (cards : List Card) (s : State) (h : run (start selected) cards = .ok s)
    (n m l : Int) (k : Nat) (h1 : Lists cards n m) (h2 : Lists cards m l) (h3 : Card.support l k ∈ cards)
    (h4 : Card.support n k ∉ cards) (h5 : ∀ m', Lists cards n m' → Card.support m' k ∉ cards) :
    Supported cards n k ∧ k ∉ getConstraints s n := by
  refine ⟨.union n m k h1 (.union m l k h2 (.own l k h3)), ?_⟩
  rw [mem_constraints (inv_run h)]
  rintro (h | ⟨m', h, h'⟩)
  · exact h4 h
  · exact h5 m' h h'

/-- A card SPCADD for a set that no case selects is refused, although it would have no effect. -/
theorem C135_unselected_false (selected : List Int) (before after : List Card) (f : List Line) (id : Int) (ns : List Int)
    (h : Says f id ns) (h1 : id ∉ selected) (h2 : ∀ n, ¬ Lists before n id) (s : State) :
    run (start selected) (before ++ .spcadd f :: after) ≠ .ok s := by
  intro hr
  obtain ⟨id', ns', h3, h4⟩ := (C135_accepted selected _).mp ⟨s, hr⟩ before f after rfl
  obtain ⟨rfl, _⟩ := says_unique h h3
  rcases h4 with h4 | ⟨n, h4⟩
  · exact h1 h4
  · exact h2 n h4

/-! ## Examples -/

def card (l : List String) : List Line := l.map String.toList

def sample : List Card :=
  [.support 1 11, .spcadd (card ["SPCADD", "100", "1", "2"]), .support 2 21, .support 2 22, .support 3 31]

def sampleState : State := ⟨[100, 1, 2], [(100, 1), (100, 2)], [(1, 11), (2, 21), (2, 22), (3, 31)]⟩

theorem sample_says : Says (card ["SPCADD", "100", "1", "2"]) 100 [1, 2] :=
  (card_iff _ _ _).mp (by decide +kernel)

/-- The hypotheses of `C135_union_partial` are met. -/
example : run (start [100]) sample = .ok sampleState ∧ Flat sample ∧ Supported sample 100 21 ∧
    getConstraints sampleState 100 = [11, 21, 22] := by
  have hl : ∀ n m, Lists sample n m → n = 100 ∧ m ∈ [1, 2] := by
    rintro n m ⟨f, ns, hf, hs, hm⟩
    simp only [sample, List.mem_cons, List.not_mem_nil, or_false] at hf
    rcases hf with hf | hf | hf | hf | hf <;> cases hf
    obtain ⟨rfl, rfl⟩ := says_unique hs sample_says
    exact ⟨rfl, hm⟩
  refine ⟨by decide +kernel, ?_, .union 100 2 21 ⟨_, _, by simp [sample], sample_says, by simp⟩ (.own 2 21 (by simp [sample])),
    by decide +kernel⟩
  intro n m l h1 h2
  have := (hl n m h1).2
  rw [(hl m l h2).1] at this
  revert this
  decide

/-- A union of unions is accepted when the outer one stands first. -/
def sampleNested : List Card :=
  [.spcadd (card ["SPCADD", "100", "50"]), .spcadd (card ["SPCADD", "50", "1"]), .support 1 11]

example : ∃ s, run (start [100]) sampleNested = .ok s ∧ getConstraints s 100 = [] ∧ Lists sampleNested 100 50 ∧
    Lists sampleNested 50 1 ∧ run (start [100]) sampleNested.reverse = .throw :=
  ⟨⟨[100, 50, 1], [(100, 50), (50, 1)], [(1, 11)]⟩, by decide +kernel, by decide +kernel,
    ⟨card ["SPCADD", "100", "50"], [50], by simp [sampleNested], (card_iff _ _ _).mp (by decide +kernel), by simp⟩,
    ⟨card ["SPCADD", "50", "1"], [1], by simp [sampleNested], (card_iff _ _ _).mp (by decide +kernel), by simp⟩, by decide +kernel⟩

end Added
end Vega
