import Verif.Mesh.Systems
import Verif.Ref.Props
import Mathlib.Data.List.Nodup

/-! # C88: coordinate systems are found whatever the order of their definitions and uses -/
namespace Vega

/-! ## Specification -/
namespace SystemsSpec
open Systems

variable {α : Type}

/-- What may happen to a storage: a system is defined, a number is used, another storage works. -/
inductive Op (α : Type)
  | define (r : Ref) (a : α)
  | use (r : Ref)
  | other

/-- The effect of an operation, and the position it gives. -/
def perform (s : Store α) : Op α → Outcome (Store α × Nat)
  | .define r a => s.add r a
  | .use r => s.findOrReserve r
  | .other => .ok (s.tick, 0)

/-- The storage after some operations. -/
def run (s : Store α) : List (Op α) → Outcome (Store α)
  | [] => .ok s
  | o :: os => do
    let r ← perform s o
    run r.1 os

/-- The last definition of a system in a history. -/
def lastDefinition (r : Ref) : List (Op α) → Option α
  | [] => none
  | .define r' a :: os => match lastDefinition r os with
    | some b => some b
    | none => if r'.beq r then some a else none
  | _ :: os => lastDefinition r os

/-- `r` is not the global coordinate system. -/
def Local (r : Ref) : Prop := r.beq globalRef = false

end SystemsSpec

namespace Systems
open SystemsSpec

variable {α : Type}

/-! ## Helper lemmas -/

theorem beq_refl (r : Ref) : r.beq r = true := RefSpec.C06_equivalence.1 r
theorem beq_symm {a b : Ref} (h : a.beq b = true) : b.beq a = true := RefSpec.C06_equivalence.2.1 a b h
theorem beq_trans {a b c : Ref} (h : a.beq b = true) (h' : b.beq c = true) : a.beq c = true := RefSpec.C06_equivalence.2.2 a b c h h'


theorem beq_right {a b c : Ref} (h : b.beq c = true) : a.beq b = a.beq c := by
  cases h1 : a.beq b <;> cases h2 : a.beq c <;> try rfl
  · rw [beq_trans h2 (beq_symm h)] at h1; cases h1
  · rw [beq_trans h1 h] at h2; cases h2

theorem beq_left {a b c : Ref} (h : a.beq b = true) : a.beq c = b.beq c := by
  cases h1 : a.beq c <;> cases h2 : b.beq c <;> try rfl
  · rw [beq_trans h h2] at h1; cases h1
  · rw [beq_trans (beq_symm h) h1] at h2; cases h2

theorem lookup_assign (r q : Ref) (a : α) (l : List (Ref × α)) :
    lookup q (assign r a l) = if r.beq q then some a else lookup q l := by
  induction l with
  | nil => by_cases h : r.beq q = true <;> simp [assign, lookup, h]
  | cons e l ih =>
    obtain ⟨k, b⟩ := e
    unfold assign
    by_cases hk : k.beq r = true
    · rw [if_pos hk]
      by_cases h : r.beq q = true
      · have hkq := beq_trans hk h
        simp [lookup, h, hkq]
      · have hkq : k.beq q = false := by rw [beq_left hk]; simpa using h
        simp [lookup, h, hkq]
    · rw [if_neg hk]
      by_cases hkq : k.beq q = true
      · have hrq : r.beq q = false := by
          cases h : r.beq q
          · rfl
          · exact absurd (beq_trans hkq (beq_symm h)) hk
        simp [lookup, hkq, hrq]
      · have : lookup q ((k, b) :: assign r a l) = lookup q (assign r a l) := by
          simp [lookup, hkq]
        rw [this, ih]
        have : lookup q ((k, b) :: l) = lookup q l := by simp [lookup, hkq]
        rw [this]

theorem lookup_congr {r q : Ref} (h : r.beq q = true) (l : List (Ref × α)) : lookup r l = lookup q l := by
  have : (fun e : Ref × α => e.1.beq r) = fun e => e.1.beq q := funext fun e => beq_right h
  simp only [lookup, this]

/-- The positions given are below the counter, are not 0, and are all different. -/
structure Good (s : Store α) : Prop where
  below : ∀ e ∈ s.refs, 0 < e.1 ∧ e.1 < s.next
  pos : 0 < s.next
  nodup : (s.refs.map (·.1)).Nodup

theorem Good.new (n : Nat) : Good (Store.new n : Store α) :=
  ⟨by simp [Store.new], by simp [Store.new]; omega, by simp [Store.new]⟩

theorem Good.fresh {s : Store α} (h : Good s) : s.refs.find? (fun e => e.1 = s.next) = none := by
  rw [List.find?_eq_none]
  intro e he
  have := (h.below e he).2
  simp; omega

theorem add_eq {s : Store α} (h : Good s) (r : Ref) (a : α) :
    s.add r a = .ok (⟨s.next + 1, s.refs ++ [(s.next, r)], assign r a s.systems⟩, s.next) := by
  have := h.fresh
  simp [Store.add, this]

theorem reserve_eq {s : Store α} (h : Good s) {r : Ref} (hr : Local r) :
    s.reserve r = .ok (⟨s.next + 1, s.refs ++ [(s.next, r)], s.systems⟩, s.next) := by
  have := h.fresh
  unfold Local at hr
  simp [Store.reserve, this, hr]

theorem Good.append {s : Store α} (h : Good s) (r : Ref) (l : List (Ref × α)) :
    Good (⟨s.next + 1, s.refs ++ [(s.next, r)], l⟩ : Store α) := by
  refine ⟨?_, by simp, ?_⟩
  · intro e he
    simp only [List.mem_append, List.mem_singleton] at he
    rcases he with he | he
    · have := h.below e he; exact ⟨this.1, by simp; omega⟩
    · subst he; exact ⟨h.pos, by simp⟩
  · simp only [List.map_append, List.map_cons, List.map_nil]
    rw [List.nodup_append]
    refine ⟨h.nodup, by simp, ?_⟩
    intro x hx y hy
    simp only [List.mem_singleton] at hy
    obtain ⟨e, he, rfl⟩ := List.mem_map.mp hx
    have := (h.below e he).2
    omega

/-- What one operation does. -/
theorem perform_spec {s : Store α} (h : Good s) (o : Op α) :
    ∃ s' p, perform s o = .ok (s', p) ∧ Good s' ∧ s.next ≤ s'.next ∧ (∃ more, s'.refs = s.refs ++ more) ∧
      (∀ q, lookup q s'.systems = (lastDefinition q [o]).or (lookup q s.systems)) ∧
      (∀ r, o = .use r → Local r → ∃ r', s'.refs.find? (fun e => e.2.beq r) = some (p, r')) := by
  cases o with
  | define r a =>
    refine ⟨_, _, add_eq h r a, h.append r _, Nat.le_succ _, ⟨_, rfl⟩, ?_, by simp⟩
    intro q
    rw [lookup_assign]
    by_cases hq : r.beq q = true <;> simp [lastDefinition, hq]
  | other =>
    refine ⟨s.tick, 0, rfl, ⟨fun e he => ⟨(h.below e he).1, Nat.lt_succ_of_lt (h.below e he).2⟩,
      Nat.succ_pos _, h.nodup⟩, Nat.le_succ _, ⟨[], by simp [Store.tick]⟩, ?_, by simp⟩
    intro q; simp [lastDefinition, Store.tick]
  | use r =>
    by_cases hg : r.beq globalRef = true
    · refine ⟨s, 0, by simp [perform, Store.findOrReserve, hg], h, Nat.le_refl _, ⟨[], by simp⟩,
        by intro q; simp [lastDefinition], ?_⟩
      intro r' e hl
      cases e
      unfold Local at hl
      rw [hg] at hl; cases hl
    · have hl : Local r := by unfold Local; simpa using hg
      cases hf : s.refs.find? (fun e => e.2.beq r) with
      | some e =>
        refine ⟨s, e.1, by simp [perform, Store.findOrReserve, Store.findPosition, hg, hf], h, Nat.le_refl _,
          ⟨[], by simp⟩, by intro q; simp [lastDefinition], ?_⟩
        intro r' he _
        cases he
        exact ⟨e.2, hf⟩
      | none =>
        refine ⟨_, s.next, ?_, h.append r s.systems, Nat.le_succ _, ⟨_, rfl⟩, by intro q; simp [lastDefinition], ?_⟩
        · have := reserve_eq h hl
          simp only [perform, Store.findOrReserve, Store.findPosition, hf]
          simp [hg, this]
        · intro r' he _
          cases he
          exact ⟨r, by rw [List.find?_append, hf]; simp [beq_refl]⟩

theorem lastDefinition_cons (q : Ref) (o : Op α) (os : List (Op α)) :
    lastDefinition q (o :: os) = (lastDefinition q os).or (lastDefinition q [o]) := by
  cases o with
  | define r a => cases h : lastDefinition q os <;> simp [lastDefinition, h]
  | use r => simp [lastDefinition]
  | other => simp [lastDefinition]

theorem run_spec {s : Store α} (h : Good s) (os : List (Op α)) :
    ∃ s', run s os = .ok s' ∧ Good s' ∧ (∃ more, s'.refs = s.refs ++ more) ∧
      (∀ q, lookup q s'.systems = (lastDefinition q os).or (lookup q s.systems)) := by
  induction os generalizing s with
  | nil => exact ⟨s, rfl, h, ⟨[], by simp⟩, by intro q; simp [lastDefinition]⟩
  | cons o os ih =>
    obtain ⟨s1, p, e1, g1, -, ⟨m1, hm1⟩, l1, -⟩ := perform_spec h o
    obtain ⟨s2, e2, g2, ⟨m2, hm2⟩, l2⟩ := ih g1
    refine ⟨s2, by simp [run, e1, e2], g2, ⟨m1 ++ m2, by rw [hm2, hm1, List.append_assoc]⟩, ?_⟩
    intro q
    rw [l2, l1, lastDefinition_cons q o os, Option.or_assoc]

theorem find_entry {l : List (Nat × Ref)} (hn : (l.map (·.1)).Nodup) {p : Nat} {r : Ref} (hm : (p, r) ∈ l) :
    l.find? (fun e => e.1 = p) = some (p, r) := by
  induction l with
  | nil => cases hm
  | cons e l ih =>
    simp only [List.map_cons, List.nodup_cons] at hn
    rw [List.mem_cons] at hm
    rcases hm with hm | hm
    · subst hm; simp
    · have : e.1 ≠ p := by
        intro hep
        exact hn.1 (List.mem_map.mpr ⟨_, hm, hep.symm⟩)
      rw [List.find?_cons_of_neg (by simpa using this)]
      exact ih hn.2 hm

theorem find_position {s : Store α} (h : Good s) {p : Nat} {r : Ref} (hm : (p, r) ∈ s.refs) :
    s.findByPosition p = .ok (lookup r s.systems) := by
  have hp : p ≠ 0 := by have := (h.below _ hm).1; simp at this; omega
  simp [Store.findByPosition, hp, find_entry h.nodup hm]

theorem run_append (s : Store α) (a b : List (Op α)) :
    run s (a ++ b) = (run s a).bind fun s' => run s' b := by
  induction a generalizing s with
  | nil => rfl
  | cons o os ih =>
    simp only [List.cons_append, run]
    cases h : perform s o with
    | ok v => simp [ih]
    | throw => rfl
    | ub => rfl
    | diverges => rfl

end Systems

open Systems SystemsSpec

/-! ## C88 -/

variable {α : Type}

/-- **C88** Whatever is defined and used, in whatever order, nothing is refused; and a coordinate system looked up by
its number is the last one defined under that number. -/
theorem C88_last (n : Nat) (os : List (Op α)) :
    ∃ s, run (Store.new n) os = .ok s ∧ ∀ r, Local r → s.find r = .ok (lastDefinition r os) := by
  obtain ⟨s, e, -, -, l⟩ := run_spec (Good.new (α := α) n) os
  refine ⟨s, e, ?_⟩
  intro r hr
  unfold Local at hr
  have h0 : lookup r (Store.new n : Store α).systems = none := rfl
  simp only [Store.find, hr, l, h0]
  simp

/-- Number 5 is used, defined, used again and redefined. -/
example : Local ⟨0, 5, Ref.NO_ID⟩ ∧
    lastDefinition ⟨0, 5, Ref.NO_ID⟩ [.use ⟨0, 5, Ref.NO_ID⟩, .define ⟨0, 5, Ref.NO_ID⟩ "a", .other,
      .define ⟨0, 7, Ref.NO_ID⟩ "c", .use ⟨0, 5, Ref.NO_ID⟩, .define ⟨0, 5, 3⟩ "b"] = some "b" := by
  refine ⟨?_, ?_⟩
  · unfold Local; decide +kernel
  · decide +kernel

/-- **C88** The position obtained for a number at any moment leads, at any later moment, to the last coordinate system
defined under that number, before or after: definitions and uses may come in any order. -/
theorem C88_position (n : Nat) (before after : List (Op α)) (r : Ref) (hr : Local r) :
    ∃ s0 s1 p s, run (Store.new n) before = .ok s0 ∧ perform s0 (.use r) = .ok (s1, p) ∧ run s1 after = .ok s ∧
      p ≠ 0 ∧ s.findByPosition p = .ok (lastDefinition r (before ++ after)) := by
  obtain ⟨s0, e0, g0, -, l0⟩ := run_spec (Good.new (α := α) n) before
  obtain ⟨s1, p, e1, g1, -, -, l1, hp⟩ := perform_spec g0 (.use r)
  obtain ⟨r', hf⟩ := hp r rfl hr
  have hm := List.mem_of_find?_eq_some hf
  have hb : r'.beq r = true := by simpa using List.find?_some hf
  obtain ⟨s, e, g, ⟨more, hmore⟩, l⟩ := run_spec g1 after
  refine ⟨s0, s1, p, s, e0, e1, e, by have := (g1.below _ hm).1; simp at this; omega, ?_⟩
  rw [find_position g (p := p) (r := r') (by rw [hmore]; exact List.mem_append_left _ hm), lookup_congr hb, l, l1, l0]
  have hd : ∀ (a b : List (Op α)), lastDefinition r (a ++ b) = (lastDefinition r b).or (lastDefinition r a) := by
    intro a b
    induction a with
    | nil => simp [lastDefinition]
    | cons o a ih =>
      rw [List.cons_append, lastDefinition_cons, ih, lastDefinition_cons r o a, Option.or_assoc]
  simp [hd, lastDefinition, Store.new, lookup]

/-- **C88** Two numbers obtain the same position exactly when they are the same, whatever happens between the two. -/
theorem C88_distinct (n : Nat) (before between : List (Op α)) (r q : Ref) (hr : Local r) (hq : Local q) :
    ∃ s0 s1 p s2 s3 p', run (Store.new n) before = .ok s0 ∧ perform s0 (.use r) = .ok (s1, p) ∧
      run s1 between = .ok s2 ∧ perform s2 (.use q) = .ok (s3, p') ∧ (p = p' ↔ r.beq q = true) := by
  obtain ⟨s0, e0, g0, -, -⟩ := run_spec (Good.new (α := α) n) before
  obtain ⟨s1, p, e1, g1, -, -, -, h1⟩ := perform_spec g0 (.use r)
  obtain ⟨s2, e2, g2, ⟨m2, hm2⟩, -⟩ := run_spec g1 between
  obtain ⟨s3, p', e3, g3, -, ⟨m3, hm3⟩, -, h3⟩ := perform_spec g2 (.use q)
  obtain ⟨r', f1⟩ := h1 r rfl hr
  obtain ⟨q', f3⟩ := h3 q rfl hq
  have f1' : s3.refs.find? (fun e => e.2.beq r) = some (p, r') := by
    rw [hm3, hm2, List.append_assoc, List.find?_append, f1]; rfl
  refine ⟨s0, s1, p, s2, s3, p', e0, e1, e2, e3, ?_, ?_⟩
  · intro h
    subst h
    have h1 := find_entry g3.nodup (List.mem_of_find?_eq_some f1')
    have h3 := find_entry g3.nodup (List.mem_of_find?_eq_some f3)
    rw [h1] at h3
    cases h3
    have b1 : r'.beq r = true := by simpa using List.find?_some f1'
    have b3 : r'.beq q = true := by simpa using List.find?_some f3
    exact beq_trans (beq_symm b1) b3
  · intro h
    have : (fun e : Nat × Ref => e.2.beq r) = fun e => e.2.beq q := funext fun e => beq_right h
    rw [this, f3] at f1'
    cases f1'
    rfl

/-- Two different numbers that meet the hypotheses. -/
example : Local ⟨0, 5, Ref.NO_ID⟩ ∧ Local ⟨0, 6, Ref.NO_ID⟩ ∧
    Ref.beq ⟨0, 5, Ref.NO_ID⟩ ⟨0, 6, Ref.NO_ID⟩ = false := by
  unfold Local; decide +kernel

/-- **C88** The global coordinate system is always at position 0, and using it changes nothing. -/
theorem C88_global (s : Store α) (r : Ref) (hr : r.beq globalRef = true) : s.findOrReserve r = .ok (s, 0) := by
  simp [Store.findOrReserve, hr]

/-- The number 0 names the global coordinate system, whatever its automatic number. -/
example : Ref.beq ⟨0, 0, 12⟩ globalRef = true := by decide +kernel

end Vega
