import Verif.Element.ScalarCards
import Mathlib.Tactic.NormNum

/-!
# Scalar springs and dampers have the values of their cards, in whatever order the cards come (C124)
-/
namespace Vega

namespace ScalarCardsSpec
open ScalarCards

/-- A model without springs, with other element sets of any ids. -/
def init (before after : List Int) (nextNode : Int) : State := ⟨[], before, after, [], nextNode, [], []⟩

/-- The component that a field names: 1 to 6, or 0 for the only one of a scalar point. -/
def component : Int → Option Dof
  | 0 => some .DX
  | n => Dof.ofNastranDigit n

/-- The second end is the ground. -/
def Grounded (g2 : Option Int) : Prop := g2 = none ∨ g2 = some 0

instance (g2 : Option Int) : Decidable (Grounded g2) := inferInstanceAs (Decidable (_ ∨ _))

/-- The components that the spring of a card with the property `pid` connects, with its number. -/
def connection (pid : Int) : Card → List (Int × Dof × Dof)
  | .celas1 eid p _ c1 g2 c2 | .cdamp1 eid p _ c1 g2 c2 =>
    if p = pid then
      match c1.bind component, (if Grounded g2 then c1 else c2).bind component with
      | some d1, some d2 => [(eid, d1, d2)]
      | _, _ => []
    else []
  | _ => []

/-- The fields of components are 0 to 6, where the card has them. -/
def Regular : Card → Prop
  | .celas1 _ _ _ c1 _ c2 | .cdamp1 _ _ _ c1 _ c2 => ∀ c, (c1 = some c ∨ c2 = some c) → 0 ≤ c ∧ c ≤ 6
  | _ => True

/-- The card makes an element that has no property, of the given number. -/
def Makes (eid : Int) : Card → Prop
  | .celas2 e _ _ _ _ _ _ => e = eid
  | .celas4 e _ _ _ => e = eid
  | _ => False

/-- The card PELAS of this property. -/
def Elastic (pid : Int) : Card → Prop
  | .pelas p _ _ => p = pid
  | _ => False

/-- The card PELAS or PDAMP of this property. -/
def GivesDamping (pid : Int) : Card → Prop
  | .pelas p _ _ => p = pid
  | .pdamp p _ => p = pid
  | _ => False

/-- The card uses the property or gives it a value. -/
def Names (pid : Int) : Card → Prop
  | .celas1 _ p _ _ _ _ => p = pid
  | .cdamp1 _ p _ _ _ _ => p = pid
  | .pelas p _ _ => p = pid
  | .pdamp p _ => p = pid
  | _ => False

end ScalarCardsSpec

namespace ScalarCards
open ScalarCardsSpec

/-! ## Lemmas -/

theorem run_cons (st : State) (c : Card) (l : List Card) : run st (c :: l) = (step st c >>= fun s => run s l) := rfl

theorem run_append (st : State) (l l' : List Card) : run st (l ++ l') = (run st l >>= fun s => run s l') := by
  induction l generalizing st with
  | nil => rfl
  | cons c l ih =>
    rw [List.cons_append, run_cons, run_cons]
    cases step st c with
    | ok s => exact ih s
    | throw => rfl
    | ub => rfl
    | diverges => rfl

theorem bind_ok_iff {α β : Type} {x : Outcome α} {f : α → Outcome β} {b : β} :
    (x >>= f) = .ok b ↔ ∃ a, x = .ok a ∧ f a = .ok b := by
  cases x with
  | ok a => exact ⟨fun h => ⟨a, rfl, h⟩, fun ⟨_, h1, h2⟩ => by cases h1; exact h2⟩
  | throw => exact ⟨fun h => (by cases h), fun ⟨_, h1, _⟩ => (by cases h1)⟩
  | ub => exact ⟨fun h => (by cases h), fun ⟨_, h1, _⟩ => (by cases h1)⟩
  | diverges => exact ⟨fun h => (by cases h), fun ⟨_, h1, _⟩ => (by cases h1)⟩

theorem add_ok {st st' : State} {id : Int} {s : Spring} (h : st.add id s = .ok st') :
    st.sets.find id = none ∧ st' = { st with sets := st.sets.set id s } := by
  unfold State.add at h
  cases hf : st.sets.find id with
  | none => rw [hf] at h; cases h; exact ⟨rfl, rfl⟩
  | some s => rw [hf] at h; cases h

theorem find_spring {st : State} {id : Int} {s : Spring} (h : st.find id = .spring s) : st.sets.find id = some s := by
  unfold State.find at h
  split at h
  · cases h
  · split at h
    · rename_i s' hf
      cases h
      exact hf
    · split at h <;> cases h

/-- What one card does to the set `pid`. -/
inductive Effect (pid : Int) (o o' : Option Spring) (c : Card) : Prop where
  | same (h : o' = o) (hn : ¬ Names pid c ∧ ¬ Makes pid c)
  | made (h : o = none) (s : Spring) (h' : o' = some s) (hm : Makes pid c)
  | firstElastic (k ge : Dbl) (h : o = none) (h' : o' = some ⟨k, ge, []⟩) (hc : c = .pelas pid k ge)
  | elastic (k ge : Dbl) (s : Spring) (h : o = some s) (h' : o' = some ⟨k, ge, s.cells⟩) (hc : c = .pelas pid k ge)
  | firstDamp (b : Dbl) (h : o = none) (h' : o' = some ⟨unavailable, b, []⟩) (hc : c = .pdamp pid b)
  | damp (b : Dbl) (s : Spring) (h : o = some s) (h' : o' = some { s with b := b }) (hc : c = .pdamp pid b)
  | first (x : Int × Dof × Dof) (h : o = none) (h' : o' = some ⟨0, 0, [x]⟩) (hc : Regular c → connection pid c = [x])
      (hn : Names pid c) (hg : ¬ GivesDamping pid c)
  | next (x : Int × Dof × Dof) (s : Spring) (h : o = some s) (h' : o' = some { s with cells := s.cells ++ [x] })
      (hc : Regular c → connection pid c = [x]) (hn : Names pid c) (hg : ¬ GivesDamping pid c)

theorem parse_component {r : Bool} {f : Option Int} {n : Nat} {d : Dof} (h1 : parseDOF r f = .ok n)
    (h2 : Dof.findByPosition n = .ok d) (hr : ∀ c, f = some c → 0 ≤ c ∧ c ≤ 6) : f.bind component = some d := by
  cases f with
  | none =>
    cases r with
    | true => cases h1
    | false =>
      cases h1
      cases h2
  | some c =>
    obtain ⟨h3, h4⟩ := hr c rfl
    have : c = 0 ∨ c = 1 ∨ c = 2 ∨ c = 3 ∨ c = 4 ∨ c = 5 ∨ c = 6 := by omega
    rcases this with rfl | rfl | rfl | rfl | rfl | rfl | rfl <;> cases h1 <;> cases h2 <;> rfl

theorem connect_effect {st st' : State} {eid p g1 : Int} {f1 f2 : Option Int} {c1 c2 : Nat} {g2 : Option Int} {r : Bool}
    (h1 : parseDOF true f1 = .ok c1) (h2 : parseDOF r f2 = .ok c2)
    (h : connect st eid p g1 c1 g2 c2 = .ok st') :
    ∃ d1 d2, Dof.findByPosition c1 = .ok d1 ∧ Dof.findByPosition (if Grounded g2 then c1 else c2) = .ok d2 ∧
      ((st.sets.find p = none ∧ st'.sets = st.sets.set p ⟨0, 0, [(eid, d1, d2)]⟩) ∨
        (∃ s, st.sets.find p = some s ∧
          st'.sets = st.sets.set p { s with cells := s.cells ++ [(eid, d1, d2)] })) ∧
      st'.inSets = st.inSets ∧ st'.before = st.before ∧ st'.after = st.after := by
  unfold connect at h
  by_cases hg : g2 = none ∨ g2 = some 0
  all_goals
    have hg' : Grounded g2 ↔ (g2 = none ∨ g2 = some 0) := Iff.rfl
    simp only [hg, if_true, if_false, hg'] at h ⊢
    split at h
    · obtain ⟨d1, e1, h⟩ := bind_ok_iff.mp h
      obtain ⟨d2, e2, h⟩ := bind_ok_iff.mp h
      obtain ⟨h3, rfl⟩ := add_ok h
      exact ⟨d1, d2, e1, e2, .inl ⟨h3, rfl⟩, rfl, rfl, rfl⟩
    · rename_i s hs
      obtain ⟨d1, e1, h⟩ := bind_ok_iff.mp h
      obtain ⟨d2, e2, h⟩ := bind_ok_iff.mp h
      cases h
      refine ⟨d1, d2, e1, e2, .inr ⟨s, ?_, rfl⟩, rfl, rfl, rfl⟩
      exact find_spring hs
    · cases h

theorem connection_of {f1 f2 : Option Int} {c1 c2 : Nat} {g2 : Option Int} {r : Bool} {d1 d2 : Dof}
    (h1 : parseDOF true f1 = .ok c1) (h2 : parseDOF r f2 = .ok c2) (e1 : Dof.findByPosition c1 = .ok d1)
    (e2 : Dof.findByPosition (if Grounded g2 then c1 else c2) = .ok d2)
    (hr : ∀ c, (f1 = some c ∨ f2 = some c) → 0 ≤ c ∧ c ≤ 6) :
    f1.bind component = some d1 ∧ (if Grounded g2 then f1 else f2).bind component = some d2 := by
  refine ⟨parse_component h1 e1 fun c hc => hr c (.inl hc), ?_⟩
  by_cases hg : Grounded g2
  · rw [if_pos hg] at e2 ⊢
    exact parse_component h1 e2 fun c hc => hr c (.inl hc)
  · rw [if_neg hg] at e2 ⊢
    exact parse_component h2 e2 fun c hc => hr c (.inr hc)

theorem step_effect {st st' : State} {c : Card} (h : step st c = .ok st') (pid : Int) :
    Effect pid (st.sets.find pid) (st'.sets.find pid) c ∧ st'.inSets = st.inSets := by
  have hconn : ∀ {eid p g1 : Int} {f1 g2 f2 : Option Int} {c1 c2 : Nat} (mk : Card),
      (mk = .celas1 eid p g1 f1 g2 f2 ∨ mk = .cdamp1 eid p g1 f1 g2 f2) →
      parseDOF true f1 = .ok c1 → parseDOF false f2 = .ok c2 → connect st eid p g1 c1 g2 c2 = .ok st' →
      Effect pid (st.sets.find pid) (st'.sets.find pid) mk ∧ st'.inSets = st.inSets := by
    intro eid p g1 f1 g2 f2 c1 c2 mk hmk h1 h2 h
    obtain ⟨d1, d2, e1, e2, hs, hi, -⟩ := connect_effect h1 h2 h
    refine ⟨?_, hi⟩
    by_cases hp : p = pid
    · subst hp
      have hc : Regular mk → connection p mk = [(eid, d1, d2)] := by
        intro hr
        have hr' : ∀ c, (f1 = some c ∨ f2 = some c) → 0 ≤ c ∧ c ≤ 6 := by
          rcases hmk with rfl | rfl <;> exact hr
        obtain ⟨a1, a2⟩ := connection_of h1 h2 e1 e2 hr'
        rcases hmk with rfl | rfl <;> simp only [connection, if_true, a1, a2]
      have hn : Names p mk := by rcases hmk with rfl | rfl <;> rfl
      have hg : ¬ GivesDamping p mk := by rcases hmk with rfl | rfl <;> exact id
      rcases hs with ⟨hs, he⟩ | ⟨s, hs, he⟩
      · exact .first (eid, d1, d2) hs (by rw [he, Map.find_set_self]) hc hn hg
      · exact .next (eid, d1, d2) s hs (by rw [he, Map.find_set_self]) hc hn hg
    · refine .same ?_ ?_
      · rcases hs with ⟨_, he⟩ | ⟨s, _, he⟩ <;> rw [he, Map.find_set_ne _ _ hp]
      · rcases hmk with rfl | rfl <;> exact ⟨hp, id⟩
  have hmakes : ∀ {st1 : State} {eid : Int} {s : Spring} (mk : Card), st1.sets = st.sets → st1.inSets = st.inSets →
      (Makes eid mk ∧ (∀ p, Makes p mk → p = eid) ∧ ∀ p, ¬ Names p mk) → st1.add eid s = .ok st' →
      Effect pid (st.sets.find pid) (st'.sets.find pid) mk ∧ st'.inSets = st.inSets := by
    intro st1 eid s mk hs hi hmk h
    obtain ⟨h3, rfl⟩ := add_ok h
    refine ⟨?_, hi⟩
    by_cases hp : eid = pid
    · subst hp
      exact .made (hs ▸ h3) s (by simp) hmk.1
    · exact .same (by simp only [hs]; rw [Map.find_set_ne _ _ hp]) ⟨hmk.2.2 pid, fun hm => hp (hmk.2.1 pid hm).symm⟩
  cases c with
  | celas1 eid p g1 f1 g2 f2 =>
    unfold step celas1 at h
    obtain ⟨c1, h1, h⟩ := bind_ok_iff.mp h
    obtain ⟨c2, h2, h⟩ := bind_ok_iff.mp h
    exact hconn _ (.inl rfl) h1 h2 h
  | cdamp1 eid p g1 f1 g2 f2 =>
    unfold step cdamp1 at h
    obtain ⟨c1, h1, h⟩ := bind_ok_iff.mp h
    cases g2 with
    | none => cases h
    | some g2 =>
      obtain ⟨c2, h2, h⟩ := bind_ok_iff.mp h
      exact hconn _ (.inr rfl) h1 h2 h
  | celas2 eid k g1 f1 g2 f2 ge =>
    unfold step celas2 at h
    obtain ⟨c1, h1, h⟩ := bind_ok_iff.mp h
    cases g2 with
    | none => cases h
    | some g2 =>
      obtain ⟨c2, h2, h⟩ := bind_ok_iff.mp h
      obtain ⟨d1, e1, h⟩ := bind_ok_iff.mp h
      obtain ⟨d2, e2, h⟩ := bind_ok_iff.mp h
      exact hmakes (st1 := { st with cells := st.cells ++ [(eid, g1, g2)] }) _ rfl rfl ⟨rfl, fun p hp => Eq.symm hp, fun p => id⟩ h
  | celas4 eid k s1 s2 =>
    exact hmakes (st1 := { st with cells := st.cells ++ [(eid, s1, s2)] }) _ rfl rfl ⟨rfl, fun p hp => Eq.symm hp, fun p => id⟩ h
  | pelas p k ge =>
    change pelas st p k ge = .ok st' at h
    unfold pelas at h
    split at h
    · obtain ⟨h3, rfl⟩ := add_ok h
      refine ⟨?_, rfl⟩
      by_cases hp : p = pid
      · subst hp
        exact .firstElastic k ge h3 (by simp) rfl
      · exact .same (by simp only []; rw [Map.find_set_ne _ _ hp]) ⟨hp, id⟩
    · rename_i s hs
      cases h
      refine ⟨?_, rfl⟩
      have hs' := find_spring hs
      by_cases hp : p = pid
      · subst hp
        exact .elastic k ge s hs' (by simp) rfl
      · exact .same (by simp only []; rw [Map.find_set_ne _ _ hp]) ⟨hp, id⟩
    · cases h
  | pdamp p b =>
    change pdamp st p b = .ok st' at h
    unfold pdamp at h
    split at h
    · obtain ⟨h3, rfl⟩ := add_ok h
      refine ⟨?_, rfl⟩
      by_cases hp : p = pid
      · subst hp
        exact .firstDamp b h3 (by simp) rfl
      · exact .same (by simp only []; rw [Map.find_set_ne _ _ hp]) ⟨hp, id⟩
    · rename_i s hs
      cases h
      refine ⟨?_, rfl⟩
      have hs' := find_spring hs
      by_cases hp : p = pid
      · subst hp
        exact .damp b s hs' (by simp) rfl
      · exact .same (by simp only []; rw [Map.find_set_ne _ _ hp]) ⟨hp, id⟩
    · cases h

/-- A property of a set that survives every card of a list. -/
theorem run_keeps (pid : Int) (P : Spring → Prop) (Q : Card → Prop)
    (hstep : ∀ (c : Card) (s s' : Spring), Q c → P s → Effect pid (some s) (some s') c → P s') :
    ∀ (l : List Card) (st st' : State), run st l = .ok st' → (∀ c ∈ l, Q c) →
      (∃ s, st.sets.find pid = some s ∧ P s) → ∃ s, st'.sets.find pid = some s ∧ P s
  | [], st, st', h, _, hp => by cases h; exact hp
  | c :: l, st, st', h, hq, ⟨s, hs, hp⟩ => by
    rw [run_cons] at h
    obtain ⟨st1, h1, h2⟩ := bind_ok_iff.mp h
    have he := (step_effect h1 pid).1
    rw [hs] at he
    have : ∃ s', st1.sets.find pid = some s' := by
      rcases he with ⟨h, _⟩ | ⟨h, s', h', _⟩ | ⟨k, ge, h, h', _⟩ | ⟨k, ge, s', h, h', _⟩ | ⟨b, h, h', _⟩ |
        ⟨b, s', h, h', _⟩ | ⟨x, h, h', _, _, _⟩ | ⟨x, s', h, h', _, _, _⟩ <;>
        first | exact ⟨_, h'⟩ | exact ⟨_, h⟩
    obtain ⟨s', hs'⟩ := this
    rw [hs'] at he
    exact run_keeps pid P Q hstep l st1 st' h2 (fun c' hc' => hq c' (List.mem_cons_of_mem _ hc'))
      ⟨s', hs', hstep c s s' (hq c List.mem_cons_self) hp he⟩

theorem parse_of_component {r : Bool} {c : Int} {d : Dof} (h : component c = some d) :
    ∃ n, parseDOF r (some c) = .ok n ∧ Dof.findByPosition n = .ok d := by
  have : c = 0 ∨ c = 1 ∨ c = 2 ∨ c = 3 ∨ c = 4 ∨ c = 5 ∨ c = 6 := by
    by_contra hn
    have hc : c ≠ 0 := fun e => hn (.inl e)
    unfold component at h
    split at h
    · exact hc rfl
    · unfold Dof.ofNastranDigit at h
      rw [if_neg (by omega), if_neg (by omega), if_neg (by omega), if_neg (by omega), if_neg (by omega), if_neg (by omega)] at h
      cases h
  rcases this with rfl | rfl | rfl | rfl | rfl | rfl | rfl <;> cases h <;> exact ⟨_, rfl, rfl⟩

/-! ## C124 -/

/-- **C124.** After any cards, the springs of a property have the stiffness of its last card PELAS, wherever the cards of the
elements are; and the damping, unless a card PDAMP for the property follows. -/
theorem C124_last (st0 st : State) (pid : Int) (k ge : Dbl) (l l' : List Card)
    (h : run st0 (l ++ .pelas pid k ge :: l') = .ok st) (hl : ∀ c ∈ l', ¬ Elastic pid c) :
    ∃ s, st.sets.find pid = some s ∧ s.k = k ∧ ((∀ c ∈ l', ¬ GivesDamping pid c) → s.b = ge) := by
  rw [run_append] at h
  obtain ⟨st1, _, h⟩ := bind_ok_iff.mp h
  rw [run_cons] at h
  obtain ⟨st2, h2, h⟩ := bind_ok_iff.mp h
  have h0 : ∃ s, st2.sets.find pid = some s ∧ s.k = k ∧ s.b = ge := by
    rcases (step_effect h2 pid).1 with ⟨h, hn, _⟩ | ⟨h, s', h', hm⟩ | ⟨k, ge, h, h', hc⟩ | ⟨k, ge, s', h, h', hc⟩ |
      ⟨b, h, h', hc⟩ | ⟨b, s', h, h', hc⟩ | ⟨x, h, h', _, _, hg⟩ | ⟨x, s', h, h', _, _, hg⟩
    · exact absurd rfl hn
    · exact absurd hm id
    · cases hc; exact ⟨_, h', rfl, rfl⟩
    · cases hc; exact ⟨_, h', rfl, rfl⟩
    · cases hc
    · cases hc
    · exact absurd rfl hg
    · exact absurd rfl hg
  obtain ⟨s2, hs2, hk, hb⟩ := h0
  obtain ⟨s, hs, hsk⟩ := run_keeps pid (fun s => s.k = k) (fun c => ¬ Elastic pid c) (by
    intro c s s' hq hp he
    rcases he with ⟨h, _⟩ | ⟨h, s', h', _⟩ | ⟨k, ge, h, h', _⟩ | ⟨k, ge, s', h, h', hc⟩ | ⟨b, h, h', _⟩ |
      ⟨b, s', h, h', _⟩ | ⟨x, h, h', _, _, _⟩ | ⟨x, s', h, h', _, _, _⟩
    · cases h; exact hp
    · cases h
    · cases h
    · subst hc; exact absurd rfl hq
    · cases h
    · cases h; cases h'; exact hp
    · cases h
    · cases h; cases h'; exact hp) l' st2 st h hl ⟨s2, hs2, hk⟩
  refine ⟨s, hs, hsk, fun hd => ?_⟩
  obtain ⟨s', hs', hsb⟩ := run_keeps pid (fun s => s.b = ge) (fun c => ¬ GivesDamping pid c) (by
    intro c s s' hq hp he
    rcases he with ⟨h, _⟩ | ⟨h, s', h', _⟩ | ⟨k, ge, h, h', _⟩ | ⟨k, ge, s', h, h', hc⟩ | ⟨b, h, h', _⟩ |
      ⟨b, s', h, h', hc⟩ | ⟨x, h, h', _, _, _⟩ | ⟨x, s', h, h', _, _, _⟩
    · cases h; exact hp
    · cases h
    · cases h
    · subst hc; exact absurd rfl hq
    · cases h
    · subst hc; exact absurd rfl hq
    · cases h
    · cases h; cases h'; exact hp) l' st2 st h hd ⟨s2, hs2, hb⟩
  rw [hs] at hs'
  cases hs'
  exact hsb

example : ∃ st, run (init [] [] 100) [.celas1 1 7 10 (some 1) (some 11) (some 1), .pelas 7 5 0,
    .celas1 2 7 11 (some 3) none none] = .ok st ∧ ∃ s, st.sets.find 7 = some s ∧ s.k = 5 ∧
      s.cells = [(1, .DX, .DX), (2, .DZ, .DZ)] ∧ st.cells = [(1, 10, 11), (2, 11, 100)] :=
  ⟨_, rfl, _, rfl, rfl, rfl, rfl⟩

/-- **C124.** The springs of a property are exactly those of the elements that name it, in the order of their cards, each
with the components of its card, the second being the first when the other end is the ground. -/
theorem C124_springs (before after : List Int) (n pid : Int) (l : List Card) (st : State)
    (h : run (init before after n) l = .ok st) (hr : ∀ c ∈ l, Regular c) (hm : ∀ c ∈ l, ¬ Makes pid c) :
    ((st.sets.find pid).map Spring.cells).getD [] = l.flatMap (connection pid) := by
  suffices H : ∀ (l : List Card) (st0 : State), run st0 l = .ok st → (∀ c ∈ l, Regular c) → (∀ c ∈ l, ¬ Makes pid c) →
      ((st.sets.find pid).map Spring.cells).getD [] =
        ((st0.sets.find pid).map Spring.cells).getD [] ++ l.flatMap (connection pid) from by
    simpa [init] using H l _ h hr hm
  intro l
  induction l with
  | nil => intro st0 h _ _; cases h; simp
  | cons c l ih =>
    intro st0 h hr hm
    rw [run_cons] at h
    obtain ⟨st1, h1, h2⟩ := bind_ok_iff.mp h
    rw [ih st1 h2 (fun c' hc' => hr c' (List.mem_cons_of_mem _ hc')) (fun c' hc' => hm c' (List.mem_cons_of_mem _ hc')),
      List.flatMap_cons, ← List.append_assoc]
    congr 1
    clear h
    have hr' := hr c List.mem_cons_self
    have hm' := hm c List.mem_cons_self
    rcases (step_effect h1 pid).1 with ⟨h, hn, _⟩ | ⟨h, s', h', hmm⟩ | ⟨k, ge, h, h', hc⟩ | ⟨k, ge, s', h, h', hc⟩ |
      ⟨b, h, h', hc⟩ | ⟨b, s', h, h', hc⟩ | ⟨x, h, h', hc, _, hg⟩ | ⟨x, s', h, h', hc, _, hg⟩
    · rw [h]
      have : connection pid c = [] := by
        cases c <;> simp only [connection, Names] at hn ⊢ <;> rw [if_neg hn]
      rw [this, List.append_nil]
    · exact absurd hmm hm'
    · subst hc; rw [h, h']; rfl
    · subst hc; rw [h, h']; simp [connection]
    · subst hc; rw [h, h']; rfl
    · subst hc; rw [h, h']; simp [connection]
    · rw [h, h', hc hr']; rfl
    · rw [h, h', hc hr']; rfl

/-- **C124 (false).** A property that is given by a card PDAMP before any element names it, and by no card PELAS, has the
number that stands for "no value" as its stiffness; and this number is what is written for Code_Aster. -/
theorem C124_damper_false (before after : List Int) (n pid : Int) (b : Dbl) (l l' : List Card) (st : State)
    (h : run (init before after n) (l ++ .pdamp pid b :: l') = .ok st)
    (hl : ∀ c ∈ l, ¬ Names pid c ∧ ¬ Makes pid c) (hl' : ∀ c ∈ l', ¬ Elastic pid c) :
    ∃ s, st.sets.find pid = some s ∧ s.k = -dblMax ∧
      ∀ x ∈ (s.written.toAster .stiffness).values, x = -dblMax := by
  rw [run_append] at h
  obtain ⟨st1, h1, h⟩ := bind_ok_iff.mp h
  rw [run_cons] at h
  obtain ⟨st2, h2, h⟩ := bind_ok_iff.mp h
  have h0 : st1.sets.find pid = none := by
    suffices H : ∀ (l : List Card) (st0 : State), run st0 l = .ok st1 → (∀ c ∈ l, ¬ Names pid c ∧ ¬ Makes pid c) →
        st0.sets.find pid = none → st1.sets.find pid = none from H l _ h1 hl rfl
    intro l
    induction l with
    | nil => intro st0 h _ h0; cases h; exact h0
    | cons c l ih =>
      intro st0 h hl h0
      rw [run_cons] at h
      obtain ⟨st', h', h''⟩ := bind_ok_iff.mp h
      refine ih st' h'' (fun c' hc' => hl c' (List.mem_cons_of_mem _ hc')) ?_
      obtain ⟨hn, hmm⟩ := hl c List.mem_cons_self
      rcases (step_effect h' pid).1 with ⟨h, _⟩ | ⟨h, s', h', hm⟩ | ⟨k, ge, h, h', hc⟩ | ⟨k, ge, s', h, h', hc⟩ |
        ⟨b, h, h', hc⟩ | ⟨b, s', h, h', hc⟩ | ⟨x, h, h', _, hn', hg⟩ | ⟨x, s', h, h', _, hn', hg⟩
      · rw [h, h0]
      · exact absurd hm hmm
      · subst hc; exact absurd rfl hn
      · subst hc; exact absurd rfl hn
      · subst hc; exact absurd rfl hn
      · subst hc; exact absurd rfl hn
      · exact absurd hn' hn
      · exact absurd hn' hn
  have h3 : ∃ s, st2.sets.find pid = some s ∧ s.k = -dblMax := by
    rcases (step_effect h2 pid).1 with ⟨h, hn, _⟩ | ⟨h, s', h', hm⟩ | ⟨k, ge, h, h', hc⟩ | ⟨k, ge, s', h, h', hc⟩ |
      ⟨b, h, h', hc⟩ | ⟨b, s', h, h', hc⟩ | ⟨x, h, h', _, _, hg⟩ | ⟨x, s', h, h', _, _, hg⟩
    · exact absurd rfl hn
    · exact absurd hm id
    · cases hc
    · cases hc
    · exact ⟨_, h', rfl⟩
    · rw [h0] at h; cases h
    · exact absurd rfl hg
    · exact absurd rfl hg
  obtain ⟨s, hs, hk⟩ := run_keeps pid (fun s => s.k = -dblMax) (fun c => ¬ Elastic pid c) (by
    intro c s s' hq hp he
    rcases he with ⟨h, _⟩ | ⟨h, s', h', _⟩ | ⟨k, ge, h, h', _⟩ | ⟨k, ge, s', h, h', hc⟩ | ⟨b, h, h', _⟩ |
      ⟨b, s', h, h', _⟩ | ⟨x, h, h', _, _, _⟩ | ⟨x, s', h, h', _, _, _⟩
    · cases h; exact hp
    · cases h
    · cases h
    · subst hc; exact absurd rfl hq
    · cases h
    · cases h; cases h'; exact hp
    · cases h
    · cases h; cases h'; exact hp) l' st2 st h hl' h3
  refine ⟨s, hs, hk, fun x hx => ?_⟩
  rw [List.eq_of_mem_replicate hx]
  exact hk

example : ∃ st, run (init [] [] 100) [.pdamp 7 3, .cdamp1 1 7 10 (some 1) (some 11) (some 1)] = .ok st ∧
    ∃ s, st.sets.find 7 = some s ∧ s.k = -dblMax ∧ (s.written.toAster .stiffness).values = [-dblMax, -dblMax, -dblMax] :=
  ⟨_, rfl, _, rfl, rfl, by
    have h : Dof.DX ∉ Dofs.ROTATIONS.toList := by decide +kernel
    simp [ScalarSpring.toAster, ScalarSpring.asVector, ScalarSpring.hasRotations, Spring.written, unavailable, h,
      List.replicate]⟩

/-- **C124 (false).** The same two cards the other way round give no stiffness: the order decides. -/
theorem C124_order_false (before after : List Int) (n eid pid g1 g2 : Int) (hb : pid ∉ before) (ha : pid ∉ after)
    (b : Dbl) (h0 : g2 ≠ 0) :
    ∃ st st' s s', run (init before after n) [.pdamp pid b, .cdamp1 eid pid g1 (some 1) (some g2) (some 1)] = .ok st ∧
      run (init before after n) [.cdamp1 eid pid g1 (some 1) (some g2) (some 1), .pdamp pid b] = .ok st' ∧
      st.sets.find pid = some s ∧ st'.sets.find pid = some s' ∧ s.k = -dblMax ∧ s'.k = 0 ∧ s.cells = s'.cells ∧
      s.b = s'.b := by
  refine ⟨⟨[(pid, ⟨unavailable, b, [(eid, .DX, .DX)]⟩)], before, after, [(eid, g1, g2)], n, [], []⟩,
    ⟨[(pid, ⟨0, b, [(eid, .DX, .DX)]⟩)], before, after, [(eid, g1, g2)], n, [], []⟩,
    ⟨unavailable, b, [(eid, .DX, .DX)]⟩, ⟨0, b, [(eid, .DX, .DX)]⟩, ?_, ?_, by simp [Map.find], by simp [Map.find], rfl, rfl, rfl, rfl⟩
  · simp [run, step, pdamp, cdamp1, connect, secondNode, parseDOF, init, State.find, State.add, ha, hb, h0, Map.set, Map.find,
      Dof.findByPosition]
  · simp [run, step, pdamp, cdamp1, connect, secondNode, parseDOF, init, State.find, State.add, ha, hb, h0, Map.set, Map.find,
      Dof.findByPosition]

/-- **C124 (false).** Elements that have no property are kept under their own number as if it were that of a property: a
card PELAS with that number changes the stiffness of a spring CELAS2. -/
theorem C124_element_false (st0 st : State) (eid g1 : Int) (k : Dbl) (c1 g2 c2 : Option Int) (ge k' ge' : Dbl)
    (l : List Card) (hl : ∀ c ∈ l, ¬ GivesDamping eid c)
    (h : run st0 (.celas2 eid k g1 c1 g2 c2 ge :: l ++ [.pelas eid k' ge']) = .ok st) :
    ∃ s, st.sets.find eid = some s ∧ s.k = k' ∧ ∃ d1 d2, (eid, d1, d2) ∈ s.cells := by
  rw [run_append] at h
  obtain ⟨st2, h2, h⟩ := bind_ok_iff.mp h
  rw [run_cons] at h2
  obtain ⟨st1, h1, h2⟩ := bind_ok_iff.mp h2
  have h0 : ∃ s, st1.sets.find eid = some s ∧ ∃ d1 d2, (eid, d1, d2) ∈ s.cells := by
    unfold step celas2 at h1
    obtain ⟨p1, _, h1⟩ := bind_ok_iff.mp h1
    cases g2 with
    | none => cases h1
    | some g2 =>
      obtain ⟨p2, _, h1⟩ := bind_ok_iff.mp h1
      obtain ⟨d1, _, h1⟩ := bind_ok_iff.mp h1
      obtain ⟨d2, _, h1⟩ := bind_ok_iff.mp h1
      obtain ⟨_, rfl⟩ := add_ok h1
      exact ⟨_, Map.find_set_self _ _ _, d1, d2, List.mem_singleton.mpr rfl⟩
  obtain ⟨s2, hs2, d1, d2, hm⟩ := run_keeps eid (fun s => ∃ d1 d2, (eid, d1, d2) ∈ s.cells)
    (fun c => ¬ GivesDamping eid c) (by
    intro c s s' hq hp he
    obtain ⟨d1, d2, hm⟩ := hp
    rcases he with ⟨h, _⟩ | ⟨h, s', h', _⟩ | ⟨k, ge, h, h', _⟩ | ⟨k, ge, s', h, h', hc⟩ | ⟨b, h, h', _⟩ |
      ⟨b, s', h, h', _⟩ | ⟨x, h, h', _, _, _⟩ | ⟨x, s', h, h', _, _, _⟩
    · cases h; exact ⟨d1, d2, hm⟩
    · cases h
    · cases h
    · cases h; cases h'; exact ⟨d1, d2, hm⟩
    · cases h
    · cases h; cases h'; exact ⟨d1, d2, hm⟩
    · cases h
    · cases h; cases h'; exact ⟨d1, d2, List.mem_append_left _ hm⟩) l st1 st2 h2 hl h0
  rw [run_cons] at h
  obtain ⟨st3, h3, h⟩ := bind_ok_iff.mp h
  cases h
  rcases (step_effect h3 eid).1 with ⟨h, hn, _⟩ | ⟨h, s', h', hm'⟩ | ⟨k, ge, h, h', hc⟩ | ⟨k, ge, s', h, h', hc⟩ |
    ⟨b, h, h', hc⟩ | ⟨b, s', h, h', hc⟩ | ⟨x, h, h', _, _, hg⟩ | ⟨x, s', h, h', _, _, hg⟩
  · exact absurd rfl hn
  · exact absurd hm' id
  · rw [hs2] at h; cases h
  · cases hc
    rw [hs2] at h
    cases h
    exact ⟨_, h', rfl, d1, d2, hm⟩
  · cases hc
  · cases hc
  · exact absurd rfl hg
  · exact absurd rfl hg

example : ∃ st, run (init [] [] 100) (.celas2 5 1000 10 (some 1) (some 11) (some 1) 0 :: [] ++ [.pelas 5 2 0]) = .ok st ∧
    ∃ s, st.sets.find 5 = some s ∧ s.k = 2 ∧ s.cells = [(5, .DX, .DX)] := ⟨_, rfl, _, rfl, rfl, rfl⟩

/-- **C124.** A spring CELAS1 to the ground goes from its node to a new node, for which there is a constraint of all degrees
of freedom. -/
theorem C124_ground (st st' : State) (eid pid g1 : Int) (c1 g2 c2 : Option Int) (hg : Grounded g2)
    (h : step st (.celas1 eid pid g1 c1 g2 c2) = .ok st') :
    st'.cells = st.cells ++ [(eid, g1, st.nextNode)] ∧ st'.fixed = st.fixed ++ [st.nextNode] ∧
      st'.nextNode = st.nextNode + 1 := by
  unfold step celas1 at h
  obtain ⟨p1, _, h⟩ := bind_ok_iff.mp h
  obtain ⟨p2, _, h⟩ := bind_ok_iff.mp h
  unfold connect at h
  have hn : secondNode st g2 = st.nextNode := by
    rcases hg with rfl | rfl <;> rfl
  have hg' : g2 = none ∨ g2 = some 0 := hg
  simp only [hg', if_true, hn] at h
  split at h
  · obtain ⟨d1, e1, h⟩ := bind_ok_iff.mp h
    obtain ⟨d2, e2, h⟩ := bind_ok_iff.mp h
    obtain ⟨h3, rfl⟩ := add_ok h
    exact ⟨rfl, rfl, rfl⟩
  · obtain ⟨d1, e1, h⟩ := bind_ok_iff.mp h
    obtain ⟨d2, e2, h⟩ := bind_ok_iff.mp h
    cases h
    exact ⟨rfl, rfl, rfl⟩
  · cases h

example : ∃ st', step (init [] [] 100) (.celas1 1 7 10 (some 2) none none) = .ok st' ∧ st'.fixed = [100] ∧
    st'.inSets = [] := ⟨_, rfl, rfl, rfl⟩

/-- **C124 (false).** No card puts such a constraint into a constraint set, so that no analysis has it: the other end of the
spring is free. -/
theorem C124_ground_false : ∀ (l : List Card) (st st' : State), run st l = .ok st' → st'.inSets = st.inSets
  | [], st, st', h => by cases h; rfl
  | c :: l, st, st', h => by
    rw [run_cons] at h
    obtain ⟨st1, h1, h2⟩ := bind_ok_iff.mp h
    rw [C124_ground_false l st1 st' h2, (step_effect h1 0).2]

/-- **C124 (false).** A damper CDAMP1 whose second node is left blank, and a spring CELAS2 likewise, are refused; a spring
CELAS2 with node 0 is connected to a node of the number 0, to which nothing is done. -/
theorem C124_blank_node_false (st : State) (eid pid g1 : Int) (k ge : Dbl) (c1 c2 : Option Int) :
    (∀ st', step st (.cdamp1 eid pid g1 c1 none c2) ≠ .ok st') ∧
      (∀ st', step st (.celas2 eid k g1 c1 none c2 ge) ≠ .ok st') ∧
      ∀ st', step st (.celas2 eid k g1 c1 (some 0) c2 ge) = .ok st' →
        st'.cells = st.cells ++ [(eid, g1, 0)] ∧ st'.fixed = st.fixed := by
  refine ⟨fun st' h => ?_, fun st' h => ?_, fun st' h => ?_⟩
  · unfold step cdamp1 at h
    obtain ⟨p1, _, h⟩ := bind_ok_iff.mp h
    cases h
  · unfold step celas2 at h
    obtain ⟨p1, _, h⟩ := bind_ok_iff.mp h
    cases h
  · unfold step celas2 at h
    obtain ⟨p1, _, h⟩ := bind_ok_iff.mp h
    obtain ⟨p2, _, h⟩ := bind_ok_iff.mp h
    obtain ⟨d1, _, h⟩ := bind_ok_iff.mp h
    obtain ⟨d2, _, h⟩ := bind_ok_iff.mp h
    obtain ⟨_, rfl⟩ := add_ok h
    exact ⟨rfl, rfl⟩

/-- **C124 (false).** A spring between two nodes, the second of which is a scalar point whose component is left blank, is
refused. -/
theorem C124_blank_component_false (st st' : State) (eid pid g1 g2 : Int) (c1 : Option Int) (h0 : g2 ≠ 0) :
    step st (.celas1 eid pid g1 c1 (some g2) none) ≠ .ok st' := by
  intro h
  unfold step celas1 at h
  obtain ⟨p1, h1, h⟩ := bind_ok_iff.mp h
  obtain ⟨p2, h2, h⟩ := bind_ok_iff.mp h
  obtain ⟨d1, d2, e1, e2, -⟩ := connect_effect h1 h2 h
  have hg : ¬ Grounded (some g2) := by
    rintro (h | h)
    · cases h
    · cases h; exact h0 rfl
  rw [if_neg hg] at e2
  cases h2
  cases e2

/-- **C124 (false).** Components are taken modulo 256 after a warning: 257 is read as 1. -/
theorem C124_range_false (st : State) (eid pid g1 : Int) (g2 c2 : Option Int) :
    step st (.celas1 eid pid g1 (some 257) g2 c2) = step st (.celas1 eid pid g1 (some 1) g2 c2) := rfl

/-- **C124.** A card CELAS2 whose components are 0 to 6 and whose number is free makes a set of its own number, with the stiffness and
the damping of the card and one spring between its two nodes, in the components of the card; 0, the component of a scalar point, is the first. -/
theorem C124_celas2 (st : State) (eid g1 g2 c1 c2 : Int) (k ge : Dbl) (d1 d2 : Dof) (h1 : component c1 = some d1)
    (h2 : component c2 = some d2) (hf : st.sets.find eid = none) :
    ∃ st', step st (.celas2 eid k g1 (some c1) (some g2) (some c2) ge) = .ok st' ∧
      st'.sets.find eid = some ⟨k, ge, [(eid, d1, d2)]⟩ ∧ st'.cells = st.cells ++ [(eid, g1, g2)] := by
  obtain ⟨p1, a1, b1⟩ := parse_of_component (r := true) h1
  obtain ⟨p2, a2, b2⟩ := parse_of_component (r := true) h2
  refine ⟨{ { st with cells := st.cells ++ [(eid, g1, g2)] } with sets := st.sets.set eid ⟨k, ge, [(eid, d1, d2)]⟩ }, ?_, ?_, rfl⟩
  · simp only [step, celas2, a1, a2, b1, b2, Outcome.bind_ok, State.add, hf]
  · exact Map.find_set_self ..

example : component 0 = some .DX ∧ component 5 = some .RY ∧ (init [] [] 100).sets.find 3 = none := ⟨rfl, rfl, rfl⟩

/-- **C124.** A card CELAS4 whose number is free makes a set of its own number, with the stiffness of the card, no damping, and one
spring between the first components of its two nodes. -/
theorem C124_celas4 (st : State) (eid s1 s2 : Int) (k : Dbl) (hf : st.sets.find eid = none) :
    ∃ st', step st (.celas4 eid k s1 s2) = .ok st' ∧ st'.sets.find eid = some ⟨k, 0, [(eid, .DX, .DX)]⟩ ∧
      st'.cells = st.cells ++ [(eid, s1, s2)] := by
  refine ⟨{ { st with cells := st.cells ++ [(eid, s1, s2)] } with sets := st.sets.set eid ⟨k, 0, [(eid, .DX, .DX)]⟩ }, ?_, ?_, rfl⟩
  · simp only [step, celas4, State.add, hf]
  · exact Map.find_set_self ..

/-- **C124.** A card CELAS1 between two nodes, whose components are 0 to 6 and whose property has no number of elements that are no
springs, is accepted. -/
theorem C124_celas1 (st : State) (eid pid g1 g2 c1 c2 : Int) (d1 d2 : Dof) (h1 : component c1 = some d1) (h2 : component c2 = some d2)
    (hb : pid ∉ st.before) (ha : pid ∉ st.after) (h0 : g2 ≠ 0) :
    ∃ st' s, step st (.celas1 eid pid g1 (some c1) (some g2) (some c2)) = .ok st' ∧ st'.sets.find pid = some s ∧
      (eid, d1, d2) ∈ s.cells ∧ st'.cells = st.cells ++ [(eid, g1, g2)] := by
  obtain ⟨p1, a1, b1⟩ := parse_of_component (r := true) h1
  obtain ⟨p2, a2, b2⟩ := parse_of_component (r := false) h2
  have hg : ¬ (some g2 = none ∨ some g2 = some 0) := by simp [h0]
  simp only [step, celas1, a1, a2, Outcome.bind_ok, connect, hg, if_false, secondNode, h0, State.find, ha, hb]
  cases hf : st.sets.find pid with
  | none =>
    simp only [b1, b2, Outcome.bind_ok, State.add, hf]
    exact ⟨_, _, rfl, Map.find_set_self .., List.mem_singleton_self _, rfl⟩
  | some s =>
    simp only [b1, b2, Outcome.bind_ok]
    exact ⟨_, _, rfl, Map.find_set_self .., List.mem_append_right _ (List.mem_singleton_self _), rfl⟩

end ScalarCards
end Vega
