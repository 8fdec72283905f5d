import Verif.Systus.Rigid
import Mathlib.Data.List.Nodup

/-! # Rigid constraints made elements: property C118 -/
namespace Vega

/-! ## Specification -/
namespace RigidSpec
open Rigid

/-- The master and the nodes that follow it. Without a master, the first node is master. -/
def Follows (c : Constr) (m : Nat) (followers : List Nat) : Prop :=
  (c.master = some m ∧ followers = c.slaves) ∨
    (c.kind = .quasi ∧ c.master = none ∧ ∃ r, c.slaves = m :: r ∧ followers = c.slaves.filter (fun s => s != m))

/-- The cells of a rigid body: one for each follower, with the master first, one common node of rotations if nodes have but
translations, and a node of multipliers of its own if there are multipliers. The nodes that are added are new. -/
def Body (o : Opts) (fresh m : Nat) (followers : List Nat) (cells : List (List Nat)) : Prop :=
  ∃ rot, fresh ≤ rot ∧ ∃ mult : List Nat, mult.length = followers.length ∧ mult.Nodup ∧ (∀ x ∈ mult, fresh ≤ x ∧ (o.continuous = true → x ≠ rot)) ∧
    cells = List.zipWith (fun s x => m :: s :: ((if o.continuous then [rot] else []) ++ (if o.lagrangian then [x] else []))) followers mult

/-- The nodes that are added to the cells of an averaging element: the node of rotations, of multipliers, and of the multipliers of
rotations, or that of multipliers alone. They are new. -/
def Added (o : Opts) (fresh : Nat) (extra : List Nat) : Prop :=
  extra.length = (if o.continuous then 3 else 1) ∧ extra.Nodup ∧ ∀ x ∈ extra, fresh ≤ x

/-- The nodes added to the cells of a set. -/
def extras (e : RSet) : List Nat := e.cells.flatMap (List.drop 2)

end RigidSpec

namespace Rigid
open RigidSpec

/-! ## Lemmas -/

theorem bind_ok_inv {x : Outcome α} {f : α → Outcome β} {b : β} (h : (x >>= f) = .ok b) : ∃ a, x = .ok a ∧ f a = .ok b := by
  cases x with
  | ok a => exact ⟨a, rfl, h⟩
  | throw => cases h
  | ub => cases h
  | diverges => cases h

/-- What one constraint gives. -/
def Gives (c : Constr) (l : List RSet) : Prop :=
  (c.kind ≠ .rbe3 → ∃ m fs, Follows c m fs ∧ l = [⟨.rbar, m, fs.map fun s => [m, s]⟩]) ∧
    (c.kind = .rbe3 → ∃ m, c.master = some m ∧
      (∀ e ∈ l, ∃ s ∈ c.slaves, e = ⟨.rbe3 c.dofs (c.slaveDofs s) (c.slaveCoef s), m,
        (c.slaves.filter fun t => keyOf c t = keyOf c s).map fun t => [m, t]⟩) ∧
      ∀ s ∈ c.slaves, ⟨.rbe3 c.dofs (c.slaveDofs s) (c.slaveCoef s), m,
        (c.slaves.filter fun t => keyOf c t = keyOf c s).map fun t => [m, t]⟩ ∈ l)

theorem rbe3Slaves_spec (c : Constr) (m : Nat) (l : List Nat) : ∀ (done : List Nat) (names names' : Names) (parts parts' : Parts),
    rbe3Slaves c m l names parts = .ok (names', parts') → parts.WF →
    (∀ k, parts.find k = if (done.filter fun t => keyOf c t = k) = [] then none
      else some ((done.filter fun t => keyOf c t = k).map fun t => [m, t])) →
    parts'.WF ∧ ∀ k, parts'.find k = if ((done ++ l).filter fun t => keyOf c t = k) = [] then none
      else some (((done ++ l).filter fun t => keyOf c t = k).map fun t => [m, t]) := by
  induction l with
  | nil =>
    intro done names names' parts parts' h hw hp
    cases h
    rw [List.append_nil]
    exact ⟨hw, hp⟩
  | cons s r ih =>
    intro done names names' parts parts' h hw hp
    have h' : (rbe3Slave c m names parts s >>= fun q => rbe3Slaves c m r q.1 q.2) = .ok (names', parts') := h
    obtain ⟨⟨n₁, p₁⟩, h1, h2⟩ := bind_ok_inv h'
    have hp₁ : p₁ = parts.set (keyOf c s) (((done.filter fun t => keyOf c t = keyOf c s).map fun t => [m, t]) ++ [[m, s]]) := by
      unfold rbe3Slave at h1
      have hs := hp (keyOf c s)
      split at hs
      · rename_i he
        rw [hs] at h1
        simp only at h1
        split at h1
        · cases h1
        · cases h1
          rw [he]
          rfl
      · rw [hs] at h1
        cases h1
        rfl
    have hstep := ih (done ++ [s]) n₁ names' p₁ parts' h2 (by rw [hp₁]; exact Map.wf_set _ _ _ hw) (by
      intro k
      rw [hp₁, Map.find_set, List.filter_append]
      by_cases hk : keyOf c s = k
      · subst hk
        have : ([s].filter fun t => keyOf c t = keyOf c s) = [s] := by simp
        rw [if_pos rfl, this, if_neg (by simp), List.map_append]
        rfl
      · have : ([s].filter fun t => keyOf c t = k) = [] := by simp [hk]
        rw [if_neg hk, this, List.append_nil]
        exact hp k)
    rw [List.append_assoc] at hstep
    exact hstep

theorem makeOne_spec (c : Constr) (names names' : Names) (l : List RSet) (h : makeOne c names = .ok (names', l)) : Gives c l := by
  unfold makeOne at h
  split at h
  · rename_i hk
    obtain ⟨e, h1, h2⟩ := bind_ok_inv h
    cases h2
    refine ⟨fun _ => ?_, fun h => by rw [hk] at h; cases h⟩
    unfold makeRigid at h1
    split at h1
    · cases h1
    · rename_i m hm
      cases h1
      exact ⟨m, c.slaves, .inl ⟨hm, rfl⟩, rfl⟩
  · rename_i hk
    obtain ⟨e, h1, h2⟩ := bind_ok_inv h
    cases h2
    refine ⟨fun _ => ?_, fun h => by rw [hk] at h; cases h⟩
    unfold makeQuasi at h1
    split at h1
    · rename_i m hm
      cases h1
      exact ⟨m, c.slaves, .inl ⟨hm, rfl⟩, rfl⟩
    · rename_i hm
      split at h1
      · cases h1
      · rename_i m r hs
        cases h1
        exact ⟨m, _, .inr ⟨hk, hm, r, hs, rfl⟩, by rw [hs]⟩
  · rename_i hk
    refine ⟨fun h => absurd hk h, fun _ => ?_⟩
    unfold makeRbe3 at h
    split at h
    · cases h
    · rename_i m hm
      obtain ⟨⟨n₁, parts⟩, h1, h2⟩ := bind_ok_inv h
      cases h2
      obtain ⟨hw, hp⟩ := rbe3Slaves_spec c m c.slaves [] names n₁ [] parts h1 Map.wf_nil (fun k => rfl)
      rw [List.nil_append] at hp
      refine ⟨m, hm, ?_, ?_⟩
      · intro e he
        obtain ⟨⟨k, cells⟩, hx, rfl⟩ := List.mem_map.1 he
        have hf := (Map.mem_iff_find _ hw k cells).1 hx
        rw [hp k] at hf
        split at hf
        · cases hf
        · rename_i hne
          cases hf
          obtain ⟨s, hs⟩ := List.exists_mem_of_ne_nil _ hne
          rw [List.mem_filter] at hs
          have hks : keyOf c s = k := by simpa using hs.2
          subst hks
          exact ⟨s, hs.1, rfl⟩
      · intro s hs
        have hne : (c.slaves.filter fun t => keyOf c t = keyOf c s) ≠ [] :=
          List.ne_nil_of_mem (List.mem_filter.2 ⟨hs, by simp⟩)
        have hf := hp (keyOf c s)
        rw [if_neg hne] at hf
        exact List.mem_map.2 ⟨_, (Map.mem_iff_find _ hw _ _).2 hf, rfl⟩

theorem makeAll_spec (cs : List Constr) : ∀ names l, makeAll cs names = .ok l →
    (∀ c ∈ cs, ∃ g, Gives c g ∧ ∀ e ∈ g, e ∈ l) ∧ ∀ e ∈ l, ∃ c ∈ cs, ∃ g, Gives c g ∧ e ∈ g := by
  induction cs with
  | nil =>
    intro names l h
    cases h
    exact ⟨fun c hc => (by cases hc), fun e he => (by cases he)⟩
  | cons c r ih =>
    intro names l h
    have h' : (makeOne c names >>= fun q => makeAll r q.1 >>= fun l => .ok (q.2 ++ l)) = .ok l := h
    obtain ⟨⟨n₁, g⟩, h1, h2⟩ := bind_ok_inv h'
    obtain ⟨l₁, h3, h4⟩ := bind_ok_inv h2
    cases h4
    have hg := makeOne_spec c names n₁ g h1
    obtain ⟨i1, i2⟩ := ih n₁ l₁ h3
    constructor
    · intro x hx
      rcases List.mem_cons.1 hx with rfl | hx
      · exact ⟨g, hg, fun e he => List.mem_append_left _ he⟩
      · obtain ⟨g', q1, q2⟩ := i1 x hx
        exact ⟨g', q1, fun e he => List.mem_append_right _ (q2 e he)⟩
    · intro e he
      rcases List.mem_append.1 he with he | he
      · exact ⟨c, List.mem_cons_self, g, hg, he⟩
      · obtain ⟨x, hx, g', q1, q2⟩ := i2 e he
        exact ⟨x, List.mem_cons_of_mem _ hx, g', q1, q2⟩

theorem mem_ordered (cs : List Constr) (c : Constr) : c ∈ ordered cs ↔ c ∈ cs := by
  unfold ordered
  simp only [List.mem_append, List.mem_filter, decide_eq_true_eq]
  constructor
  · rintro ((⟨h, _⟩ | ⟨h, _⟩) | ⟨h, _⟩) <;> exact h
  · intro h
    cases hk : c.kind
    · exact .inl (.inl ⟨h, rfl⟩)
    · exact .inl (.inr ⟨h, rfl⟩)
    · exact .inr ⟨h, rfl⟩

theorem make_spec (css : List (List Constr)) (names : Names) (l : List RSet) (h : make css names = .ok l) :
    (∀ cs ∈ css, ∀ c ∈ cs, ∃ g, Gives c g ∧ ∀ e ∈ g, e ∈ l) ∧ ∀ e ∈ l, ∃ cs ∈ css, ∃ c ∈ cs, ∃ g, Gives c g ∧ e ∈ g := by
  obtain ⟨h1, h2⟩ := makeAll_spec _ names l h
  constructor
  · intro cs hcs c hc
    exact h1 c (List.mem_flatMap.2 ⟨cs, hcs, (mem_ordered cs c).2 hc⟩)
  · intro e he
    obtain ⟨c, hc, g, q1, q2⟩ := h2 e he
    obtain ⟨cs, hcs, hc⟩ := List.mem_flatMap.1 hc
    exact ⟨cs, hcs, c, (mem_ordered cs c).1 hc, g, q1, q2⟩

/-! ### Nodes that are added -/

theorem barCells_spec (o : Opts) (rot m : Nat) (fs : List Nat) : ∀ f, ∃ mult : List Nat, mult.length = fs.length ∧ mult.Nodup ∧
    (∀ x ∈ mult, f ≤ x) ∧ f ≤ (barCells o rot f (fs.map fun s => [m, s])).1 ∧
    (o.lagrangian = true → ∀ x ∈ mult, x < (barCells o rot f (fs.map fun s => [m, s])).1) ∧
    (barCells o rot f (fs.map fun s => [m, s])).2 =
      List.zipWith (fun s x => m :: s :: ((if o.continuous then [rot] else []) ++ (if o.lagrangian then [x] else []))) fs mult := by
  cases hl : o.lagrangian with
  | true =>
    induction fs with
    | nil => intro f; exact ⟨[], rfl, List.nodup_nil, fun x hx => (by cases hx), Nat.le_refl _, fun _ x hx => (by cases hx), rfl⟩
    | cons s r ih =>
      intro f
      obtain ⟨mult, h1, h2, h3, h4, h5, h6⟩ := ih (f + 1)
      have hb : barCells o rot f ((s :: r).map fun s => [m, s]) = ((barCells o rot (f + 1) (r.map fun s => [m, s])).1,
          ([m, s] ++ rotNodes o rot ++ [f]) :: (barCells o rot (f + 1) (r.map fun s => [m, s])).2) := by
        rw [List.map_cons, barCells, if_pos hl]
      rw [hb]
      refine ⟨f :: mult, by rw [List.length_cons, List.length_cons, h1], List.nodup_cons.2 ⟨fun h => ?_, h2⟩, ?_, by simp only; omega, ?_, ?_⟩
      · have := h3 f h; omega
      · intro x hx
        rcases List.mem_cons.1 hx with rfl | hx
        · exact Nat.le_refl _
        · have := h3 x hx; omega
      · intro _ x hx
        rcases List.mem_cons.1 hx with rfl | hx
        · exact h4
        · exact h5 rfl x hx
      · simp only
        rw [h6]
        rfl
  | false =>
    intro f
    have hb : ∀ (fs : List Nat) (f : Nat), barCells o rot f (fs.map fun s => [m, s]) = (f, fs.map fun s => [m, s] ++ rotNodes o rot) := by
      intro fs
      induction fs with
      | nil => intro f; rfl
      | cons s r ih =>
        intro f
        rw [List.map_cons, barCells, if_neg (by rw [hl]; decide), ih f]
        rfl
    rw [hb]
    refine ⟨(List.range fs.length).map (f + ·), by simp, ?_, ?_, Nat.le_refl _, fun h => (by cases h), ?_⟩
    · refine List.Nodup.map ?_ List.nodup_range
      intro a b h
      exact Nat.add_left_cancel h
    · intro x hx
      obtain ⟨y, _, rfl⟩ := List.mem_map.1 hx
      omega
    · simp only
      have : ∀ (fs : List Nat) (mult : List Nat), mult.length = fs.length → (fs.map fun s => [m, s] ++ rotNodes o rot) =
          List.zipWith (fun s _ => m :: s :: ((if o.continuous then [rot] else []) ++ (if false = true then [(0 : Nat)] else []))) fs mult := by
        intro fs
        induction fs with
        | nil => intro _ _; rfl
        | cons s r ih =>
          intro mult hm
          cases mult with
          | nil => cases hm
          | cons x mult =>
            rw [List.map_cons, List.zipWith_cons_cons, ← ih mult (by simpa using hm)]
            simp [rotNodes]
      exact this fs _ (by rw [List.length_map, List.length_range])

/-- What happens to a set: its cells get nodes from an interval. -/
def Changed (o : Opts) (lo hi : Nat) (e e' : RSet) : Prop :=
  e'.kind = e.kind ∧ e'.master = e.master ∧ lo ≤ hi ∧
    (e.kind = .rbar → ∀ fs : List Nat, e.cells = fs.map (fun s => [e.master, s]) → Body o lo e.master fs e'.cells) ∧
    (e.kind ≠ .rbar → ∃ extra, Added o lo extra ∧ e'.cells = e.cells.map (· ++ extra)) ∧
    ∀ fs : List Nat, e.cells = fs.map (fun s => [e.master, s]) → ∀ x ∈ extras e', lo ≤ x ∧ x < hi

theorem bar_changed (o : Opts) (st : State) (e : RSet) (hk : e.kind = .rbar) : Changed o st.fresh (bar o st e).1.fresh e (bar o st e).2 := by
  have hrot : st.fresh ≤ (addRotation o e.master st).fresh ∧ (o.continuous = true → st.fresh < (addRotation o e.master st).fresh) := by
    unfold addRotation
    split
    · exact ⟨Nat.le_succ _, fun _ => Nat.lt_succ_self _⟩
    · rename_i h; exact ⟨Nat.le_refl _, fun h' => absurd h' h⟩
  have hmono : ∀ (l : List (List Nat)) (f : Nat), f ≤ (barCells o st.fresh f l).1 := by
    intro l
    induction l with
    | nil => intro f; exact Nat.le_refl _
    | cons c r ih =>
      intro f
      rw [barCells]
      split
      · exact Nat.le_trans (Nat.le_succ f) (ih (f + 1))
      · exact ih f
  refine ⟨rfl, rfl, Nat.le_trans hrot.1 (hmono _ _), ?_, fun h => absurd hk h, ?_⟩
  · intro _ fs hfs
    obtain ⟨mult, h1, h2, h3, h4, h5, h6⟩ := barCells_spec o st.fresh e.master fs (addRotation o e.master st).fresh
    refine ⟨st.fresh, Nat.le_refl _, mult, h1, h2, ?_, ?_⟩
    · intro x hx
      have := h3 x hx
      exact ⟨by omega, fun hc => by have := hrot.2 hc; omega⟩
    · show (barCells o st.fresh _ e.cells).2 = _
      rw [hfs, h6]
  · intro fs hfs x hx
    obtain ⟨mult, h1, h2, h3, h4, h5, h6⟩ := barCells_spec o st.fresh e.master fs (addRotation o e.master st).fresh
    have hx' : x ∈ (barCells o st.fresh (addRotation o e.master st).fresh e.cells).2.flatMap (List.drop 2) := hx
    show _ ∧ x < (barCells o st.fresh (addRotation o e.master st).fresh e.cells).1
    rw [hfs] at hx' ⊢
    rw [h6] at hx'
    obtain ⟨c, hc, hxc⟩ := List.mem_flatMap.1 hx'
    rw [List.mem_iff_getElem?] at hc
    obtain ⟨i, hi⟩ := hc
    rw [List.getElem?_zipWith] at hi
    split at hi
    · rename_i s y hs hy
      cases hi
      have hy' : y ∈ mult := List.mem_of_getElem? hy
      have hxc' : x ∈ (if o.continuous then [st.fresh] else []) ++ (if o.lagrangian then [y] else []) := hxc
      rcases List.mem_append.1 hxc' with hxc' | hxc'
      · split at hxc'
        · rename_i hcont
          rw [List.mem_singleton] at hxc'
          subst hxc'
          exact ⟨Nat.le_refl _, Nat.lt_of_lt_of_le (hrot.2 hcont) h4⟩
        · cases hxc'
      · split at hxc'
        · rename_i hlag
          rw [List.mem_singleton] at hxc'
          subst hxc'
          exact ⟨Nat.le_trans hrot.1 (h3 x hy'), h5 hlag x hy'⟩
        · cases hxc'
    · cases hi

theorem average_changed (o : Opts) (st : State) (e : RSet) (hk : e.kind ≠ .rbar) :
    Changed o st.fresh (average o st e).1.fresh e (average o st e).2 := by
  have hex : ∀ (extra : List Nat) (fs : List Nat), e.cells = fs.map (fun s => [e.master, s]) →
      ∀ x ∈ (e.cells.map (· ++ extra)).flatMap (List.drop 2), x ∈ extra := by
    intro extra fs hfs x hx
    obtain ⟨c, hc, hxc⟩ := List.mem_flatMap.1 hx
    rw [hfs, List.map_map] at hc
    obtain ⟨s, _, rfl⟩ := List.mem_map.1 hc
    exact hxc
  unfold average
  cases hc : o.continuous with
  | true =>
    rw [if_pos rfl]
    refine ⟨rfl, rfl, by simp only; omega, fun h => absurd h hk, ?_, ?_⟩
    · intro _
      refine ⟨[st.fresh + 1, st.fresh, st.fresh + 2], ⟨by rw [hc]; rfl, by simp, ?_⟩, rfl⟩
      intro x hx
      simp only [List.mem_cons, List.not_mem_nil, or_false] at hx
      omega
    · intro fs hfs x hx
      have := hex _ fs hfs x hx
      simp only [List.mem_cons, List.not_mem_nil, or_false] at this
      simp only
      omega
  | false =>
    rw [if_neg (by decide)]
    refine ⟨rfl, rfl, by simp only; omega, fun h => absurd h hk, ?_, ?_⟩
    · intro _
      refine ⟨[st.fresh], ⟨by rw [hc]; rfl, by simp, ?_⟩, rfl⟩
      intro x hx
      simp only [List.mem_cons, List.not_mem_nil, or_false] at hx
      omega
    · intro fs hfs x hx
      have := hex _ fs hfs x hx
      simp only [List.mem_cons, List.not_mem_nil, or_false] at this
      simp only
      omega

theorem one_changed (o : Opts) (st : State) (e : RSet) : Changed o st.fresh (one o st e).1.fresh e (one o st e).2 := by
  unfold one
  split
  · rename_i hk; exact bar_changed o st e hk
  · rename_i hk; exact average_changed o st e (by rw [hk]; intro h; cases h)

/-- The cells are those that `make` makes. -/
def Simple (e : RSet) : Prop := ∃ fs : List Nat, e.cells = fs.map fun s => [e.master, s]

theorem run_spec (o : Opts) (l : List RSet) : ∀ st, st.fresh ≤ (run o st l).1.fresh ∧
    (∀ e ∈ l, ∃ e' ∈ (run o st l).2, ∃ lo hi, st.fresh ≤ lo ∧ Changed o lo hi e e') ∧
    (∀ e' ∈ (run o st l).2, ∃ e ∈ l, ∃ lo hi, st.fresh ≤ lo ∧ Changed o lo hi e e') ∧
    ((∀ e ∈ l, Simple e) → (∀ e' ∈ (run o st l).2, ∀ x ∈ extras e', st.fresh ≤ x) ∧
      (run o st l).2.Pairwise fun a b => ∀ x ∈ extras a, x ∉ extras b) := by
  induction l with
  | nil =>
    intro st
    exact ⟨Nat.le_refl _, fun e he => (by cases he), fun e he => (by cases he), fun _ => ⟨fun e he => (by cases he), List.Pairwise.nil⟩⟩
  | cons e r ih =>
    intro st
    have hc := one_changed o st e
    obtain ⟨i1, i2, i3, i4⟩ := ih (one o st e).1
    have hle : st.fresh ≤ (one o st e).1.fresh := hc.2.2.1
    have hrun : run o st (e :: r) = ((run o (one o st e).1 r).1, (one o st e).2 :: (run o (one o st e).1 r).2) := rfl
    rw [hrun]
    refine ⟨Nat.le_trans hle i1, ?_, ?_, ?_⟩
    · intro x hx
      rcases List.mem_cons.1 hx with rfl | hx
      · exact ⟨_, List.mem_cons_self, _, _, Nat.le_refl _, hc⟩
      · obtain ⟨e', h1, lo, hi, h2, h3⟩ := i2 x hx
        exact ⟨e', List.mem_cons_of_mem _ h1, lo, hi, Nat.le_trans hle h2, h3⟩
    · intro x hx
      rcases List.mem_cons.1 hx with rfl | hx
      · exact ⟨e, List.mem_cons_self, _, _, Nat.le_refl _, hc⟩
      · obtain ⟨e', h1, lo, hi, h2, h3⟩ := i3 x hx
        exact ⟨e', List.mem_cons_of_mem _ h1, lo, hi, Nat.le_trans hle h2, h3⟩
    · intro hs
      obtain ⟨j1, j2⟩ := i4 fun x hx => hs x (List.mem_cons_of_mem _ hx)
      obtain ⟨fs, hfs⟩ := hs e List.mem_cons_self
      have hin := hc.2.2.2.2.2 fs hfs
      constructor
      · intro x hx y hy
        rcases List.mem_cons.1 hx with rfl | hx
        · exact (hin y hy).1
        · exact Nat.le_trans hle (j1 x hx y hy)
      · refine List.pairwise_cons.2 ⟨?_, j2⟩
        intro b hb x hx hxb
        have h1 := (hin x hx).2
        have h2 := j1 b hb x hxb
        omega

theorem mem_sorted (sets : List RSet) (e : RSet) :
    e ∈ sets.filter (fun e => e.kind = .rbar) ++ sets.filter (fun e => e.kind ≠ .rbar) ↔ e ∈ sets := by
  simp only [List.mem_append, List.mem_filter, decide_eq_true_eq]
  constructor
  · rintro (⟨h, _⟩ | ⟨h, _⟩) <;> exact h
  · intro h
    by_cases hk : e.kind = .rbar
    · exact .inl ⟨h, hk⟩
    · exact .inr ⟨h, hk⟩

theorem make_simple (css : List (List Constr)) (names : Names) (sets : List RSet) (h : make css names = .ok sets) : ∀ e ∈ sets, Simple e := by
  intro e he
  obtain ⟨cs, _, c, _, g, hg, heg⟩ := (make_spec css names sets h).2 e he
  by_cases hk : c.kind = .rbe3
  · obtain ⟨m, _, h1, _⟩ := hg.2 hk
    obtain ⟨s, _, rfl⟩ := h1 e heg
    exact ⟨_, rfl⟩
  · obtain ⟨m, fs, _, rfl⟩ := hg.1 hk
    rw [List.mem_singleton] at heg
    subst heg
    exact ⟨fs, rfl⟩

theorem body_mono {o : Opts} {a b m : Nat} {fs : List Nat} {cells : List (List Nat)} (hab : a ≤ b) (h : Body o b m fs cells) :
    Body o a m fs cells := by
  obtain ⟨rot, h1, mult, h2, h3, h4, h5⟩ := h
  exact ⟨rot, Nat.le_trans hab h1, mult, h2, h3, fun x hx => ⟨Nat.le_trans hab (h4 x hx).1, (h4 x hx).2⟩, h5⟩

theorem added_mono {o : Opts} {a b : Nat} {extra : List Nat} (hab : a ≤ b) (h : Added o b extra) : Added o a extra :=
  ⟨h.1, h.2.1, fun x hx => Nat.le_trans hab (h.2.2 x hx)⟩

/-! ## C118 -/

/-- **C118, rigid bodies.** Every rigid or quasi-rigid constraint is made one rigid body: all its nodes, and nothing else, follow the
master. -/
theorem C118_rigid (css : List (List Constr)) (names : Names) (sets : List RSet) (h : make css names = .ok sets) (o : Opts) (fresh : Nat)
    (cs : List Constr) (hcs : cs ∈ css) (c : Constr) (hc : c ∈ cs) (hk : c.kind ≠ .rbe3) :
    ∃ m fs, Follows c m fs ∧ ∃ e ∈ (generate o fresh sets).2, e.kind = .rbar ∧ e.master = m ∧ Body o fresh m fs e.cells := by
  obtain ⟨g, hg, hin⟩ := (make_spec css names sets h).1 cs hcs c hc
  obtain ⟨m, fs, hf, rfl⟩ := hg.1 hk
  have he := hin _ List.mem_cons_self
  obtain ⟨e', h1, lo, hi, h2, h3⟩ := (run_spec o _ ⟨fresh, []⟩).2.1 _ ((mem_sorted sets _).2 he)
  exact ⟨m, fs, hf, e', h1, h3.1, h3.2.1, body_mono h2 (h3.2.2.2.1 rfl fs rfl)⟩

/-- **C118, averages.** Every slave of an averaging constraint has an element with the components and the coefficient of the slave. The
elements of all slaves that have the same components and coefficient, and of no other node, share the nodes that are added. -/
theorem C118_average_partial (css : List (List Constr)) (names : Names) (sets : List RSet) (h : make css names = .ok sets) (o : Opts)
    (fresh : Nat) (cs : List Constr) (hcs : cs ∈ css) (c : Constr) (hc : c ∈ cs) (hk : c.kind = .rbe3) :
    ∃ m, c.master = some m ∧ ∀ s ∈ c.slaves, ∃ e ∈ (generate o fresh sets).2,
      e.kind = .rbe3 c.dofs (c.slaveDofs s) (c.slaveCoef s) ∧ e.master = m ∧ ∃ extra, Added o fresh extra ∧
        e.cells = (c.slaves.filter fun t => c.slaveDofs t = c.slaveDofs s ∧ c.slaveCoef t = c.slaveCoef s).map fun t => m :: t :: extra := by
  obtain ⟨g, hg, hin⟩ := (make_spec css names sets h).1 cs hcs c hc
  obtain ⟨m, hm, _, hs⟩ := hg.2 hk
  refine ⟨m, hm, fun s hsl => ?_⟩
  have he := hin _ (hs s hsl)
  obtain ⟨e', h1, lo, hi, h2, h3⟩ := (run_spec o _ ⟨fresh, []⟩).2.1 _ ((mem_sorted sets _).2 he)
  obtain ⟨extra, h4, h5⟩ := h3.2.2.2.2.1 (by intro h; cases h)
  refine ⟨e', h1, h3.1, h3.2.1, extra, added_mono h2 h4, ?_⟩
  rw [h5]
  simp only [List.map_map, keyOf, Prod.mk.injEq]
  rfl

/-- **C118, converse.** Every element set that is made comes from a constraint. -/
theorem C118_justified (css : List (List Constr)) (names : Names) (sets : List RSet) (h : make css names = .ok sets) (o : Opts)
    (fresh : Nat) : ∀ e ∈ (generate o fresh sets).2, ∃ cs ∈ css, ∃ c ∈ cs,
      (c.kind ≠ .rbe3 ∧ e.kind = .rbar ∧ ∃ fs, Follows c e.master fs ∧ Body o fresh e.master fs e.cells) ∨
      (c.kind = .rbe3 ∧ c.master = some e.master ∧ ∃ s ∈ c.slaves, e.kind = .rbe3 c.dofs (c.slaveDofs s) (c.slaveCoef s) ∧
        ∃ extra, Added o fresh extra ∧ e.cells =
          (c.slaves.filter fun t => c.slaveDofs t = c.slaveDofs s ∧ c.slaveCoef t = c.slaveCoef s).map fun t => e.master :: t :: extra) := by
  intro e' he'
  obtain ⟨e, he, lo, hi, h2, h3⟩ := (run_spec o _ ⟨fresh, []⟩).2.2.1 _ he'
  obtain ⟨cs, hcs, c, hc, g, hg, heg⟩ := (make_spec css names sets h).2 e ((mem_sorted sets e).1 he)
  refine ⟨cs, hcs, c, hc, ?_⟩
  by_cases hk : c.kind = .rbe3
  · right
    obtain ⟨m, hm, h4, _⟩ := hg.2 hk
    obtain ⟨s, hs, rfl⟩ := h4 e heg
    obtain ⟨extra, h5, h6⟩ := h3.2.2.2.2.1 (by intro h; cases h)
    refine ⟨hk, by rw [hm, h3.2.1], s, hs, h3.1, extra, added_mono h2 h5, ?_⟩
    rw [h6, h3.2.1]
    simp only [List.map_map, keyOf, Prod.mk.injEq]
    rfl
  · left
    obtain ⟨m, fs, hf, rfl⟩ := hg.1 hk
    rw [List.mem_singleton] at heg
    subst heg
    refine ⟨hk, h3.1, fs, ?_, ?_⟩
    · rw [h3.2.1]; exact hf
    · rw [h3.2.1]; exact body_mono h2 (h3.2.2.2.1 rfl fs rfl)

/-- **C118, new nodes.** No node is added to the cells of two sets, and none is a node of the model. -/
theorem C118_fresh (css : List (List Constr)) (names : Names) (sets : List RSet) (h : make css names = .ok sets) (o : Opts)
    (fresh : Nat) : (∀ e ∈ (generate o fresh sets).2, ∀ x ∈ extras e, fresh ≤ x) ∧
      (generate o fresh sets).2.Pairwise fun a b => ∀ x ∈ extras a, x ∉ extras b :=
  (run_spec o _ ⟨fresh, []⟩).2.2.2 fun e he => make_simple css names sets h e ((mem_sorted sets e).1 he)

theorem apart (css : List (List Constr)) (names : Names) (sets : List RSet) (h : make css names = .ok sets) (o : Opts) (fresh i j : Nat)
    (a b : RSet) (hi : (generate o fresh sets).2[i]? = some a) (hj : (generate o fresh sets).2[j]? = some b) (hij : i ≠ j) :
    ∀ x ∈ extras a, x ∉ extras b := by
  have hp := (C118_fresh css names sets h o fresh).2
  rw [List.pairwise_iff_getElem] at hp
  obtain ⟨hi', rfl⟩ := List.getElem?_eq_some_iff.1 hi
  obtain ⟨hj', rfl⟩ := List.getElem?_eq_some_iff.1 hj
  intro x hx hxb
  rcases Nat.lt_or_gt_of_ne hij with hlt | hlt
  · exact hp i j hi' hj' hlt x hx hxb
  · exact hp j i hj' hi' hlt x hxb hx

/-- **C118 is false of averages with different coefficients or components:** the elements of two slaves that differ share no added node.
The multipliers being different, the master is not made to follow the average of all slaves, but of each part by itself. -/
theorem C118_average_false (css : List (List Constr)) (names : Names) (sets : List RSet) (h : make css names = .ok sets) (o : Opts)
    (fresh : Nat) (c : Constr) (s t : Nat) (hst : c.slaveDofs s ≠ c.slaveDofs t ∨ c.slaveCoef s ≠ c.slaveCoef t)
    (a b : RSet) (ha : a ∈ (generate o fresh sets).2) (hb : b ∈ (generate o fresh sets).2)
    (hka : a.kind = .rbe3 c.dofs (c.slaveDofs s) (c.slaveCoef s)) (hkb : b.kind = .rbe3 c.dofs (c.slaveDofs t) (c.slaveCoef t)) :
    ∀ x ∈ extras a, x ∉ extras b := by
  obtain ⟨i, hi⟩ := List.mem_iff_getElem?.1 ha
  obtain ⟨j, hj⟩ := List.mem_iff_getElem?.1 hb
  refine apart css names sets h o fresh i j a b hi hj ?_
  rintro rfl
  rw [hi] at hj
  cases hj
  rw [hka] at hkb
  injection hkb with _ h1 h2
  rcases hst with h' | h'
  · exact h' h1
  · exact h' h2

/-- **C118 is false of rotations of a common master:** if nodes have but translations, two constraints with the same master have
different nodes of rotations: each may turn by itself. -/
theorem C118_rotation_false (css : List (List Constr)) (names : Names) (sets : List RSet) (h : make css names = .ok sets) (o : Opts)
    (ho : o.continuous = true) (fresh i j : Nat) (hij : i ≠ j) (a b : RSet) (hi : (generate o fresh sets).2[i]? = some a)
    (hj : (generate o fresh sets).2[j]? = some b) : ∀ x ∈ a.cells, ∀ y ∈ b.cells, ∃ r r', x[2]? = some r ∧ y[2]? = some r' ∧ r ≠ r' := by
  have third : ∀ e ∈ (generate o fresh sets).2, ∀ x ∈ e.cells, ∃ r, x[2]? = some r ∧ r ∈ extras e := by
    intro e he x hx
    have hr : ∃ r, x[2]? = some r := by
      obtain ⟨cs, _, c, _, hd⟩ := C118_justified css names sets h o fresh e he
      rcases hd with ⟨_, _, fs, _, rot, _, mult, _, _, _, hcells⟩ | ⟨_, _, s, _, _, extra, hex, hcells⟩
      · rw [hcells] at hx
        obtain ⟨k, hk⟩ := List.mem_iff_getElem?.1 hx
        rw [List.getElem?_zipWith] at hk
        split at hk
        · cases hk
          rw [if_pos ho]
          exact ⟨rot, rfl⟩
        · cases hk
      · rw [hcells] at hx
        obtain ⟨t, _, rfl⟩ := List.mem_map.1 hx
        have hl := hex.1
        rw [if_pos ho] at hl
        cases extra with
        | nil => cases hl
        | cons r _ => exact ⟨r, rfl⟩
    obtain ⟨r, hr⟩ := hr
    refine ⟨r, hr, List.mem_flatMap.2 ⟨x, hx, ?_⟩⟩
    rw [List.mem_iff_getElem?]
    exact ⟨0, by rw [List.getElem?_drop]; exact hr⟩
  intro x hx y hy
  obtain ⟨r, h1, h2⟩ := third a (List.mem_of_getElem? hi) x hx
  obtain ⟨r', h3, h4⟩ := third b (List.mem_of_getElem? hj) y hy
  refine ⟨r, r', h1, h3, ?_⟩
  rintro rfl
  exact apart css names sets h o fresh i j a b hi hj hij r h2 h4

/-- The constraint with other components. -/
def withDofs (f : Constr → Dofs × Bool) (c : Constr) : Constr :=
  if c.kind = .quasi then { c with dofs := (f c).1, addRotations := (f c).2 } else c

theorem withDofs_kind (f : Constr → Dofs × Bool) (c : Constr) : (withDofs f c).kind = c.kind := by
  unfold withDofs
  split <;> rfl

theorem makeOne_withDofs (f : Constr → Dofs × Bool) (c : Constr) (names : Names) : makeOne (withDofs f c) names = makeOne c names := by
  unfold withDofs
  split
  · rename_i hk
    unfold makeOne
    simp only [hk]
    rfl
  · rfl

theorem makeAll_withDofs (f : Constr → Dofs × Bool) (cs : List Constr) : ∀ names, makeAll (cs.map (withDofs f)) names = makeAll cs names := by
  induction cs with
  | nil => intro _; rfl
  | cons c r ih =>
    intro names
    show (makeOne (withDofs f c) names >>= fun q => makeAll (r.map (withDofs f)) q.1 >>= fun l => .ok (q.2 ++ l)) =
      (makeOne c names >>= fun q => makeAll r q.1 >>= fun l => .ok (q.2 ++ l))
    rw [makeOne_withDofs]
    simp only [ih]

/-- **C118 is false of quasi-rigid constraints:** whatever the components they bind, they are translated as completely rigid. -/
theorem C118_quasi_false (f : Constr → Dofs × Bool) (css : List (List Constr)) (names : Names) :
    make (css.map (·.map (withDofs f))) names = make css names := by
  have hfilter : ∀ (k : Kind) (cs : List Constr), (cs.map (withDofs f)).filter (fun c => c.kind = k) = (cs.filter fun c => c.kind = k).map (withDofs f) := by
    intro k cs
    rw [List.filter_map]
    congr 1
    refine List.filter_congr fun c _ => ?_
    simp only [Function.comp_apply, withDofs_kind]
  have hord : ∀ cs : List Constr, ordered (cs.map (withDofs f)) = (ordered cs).map (withDofs f) := by
    intro cs
    unfold ordered
    rw [hfilter, hfilter, hfilter, List.map_append, List.map_append]
  unfold make
  rw [List.flatMap_map]
  simp only [hord]
  rw [← List.map_flatMap, makeAll_withDofs]

theorem makeAll_total (cs : List Constr) : ∀ names, (∀ c ∈ cs, ∃ m, c.master = some m) → (cs.map (·.id)).Nodup →
    (∀ c ∈ cs, ∀ n, (n, c.id) ∉ names) → ∃ sets, makeAll cs names = .ok sets := by
  have hslaves : ∀ (c : Constr) (m : Nat) (l : List Nat) (names : Names) (parts : Parts),
      (∀ n, (n, c.id) ∈ names → n ≤ parts.length) → ∃ names' parts', rbe3Slaves c m l names parts = .ok (names', parts') ∧
        ∀ x ∈ names', x ∈ names ∨ x.2 = c.id := by
    intro c m l
    induction l with
    | nil => intro names parts _; exact ⟨names, parts, rfl, fun x hx => .inl hx⟩
    | cons s r ih =>
      intro names parts hn
      show ∃ names' parts', (rbe3Slave c m names parts s >>= fun q => rbe3Slaves c m r q.1 q.2) = .ok (names', parts') ∧ _
      have hset : ∀ (parts : Parts) (k : Dofs × Dbl) (v : List (List Nat)), (parts.find k = none → (parts.set k v).length = parts.length + 1) ∧
          parts.length ≤ (parts.set k v).length := by
        intro parts k v
        induction parts with
        | nil => exact ⟨fun _ => rfl, Nat.zero_le _⟩
        | cons x p ihp =>
          obtain ⟨k', a⟩ := x
          simp only [Map.find, Map.set]
          split
          · exact ⟨fun h => (by cases h), Nat.le_refl _⟩
          · exact ⟨fun h => by rw [List.length_cons, ihp.1 h, List.length_cons], by simpa using ihp.2⟩
      unfold rbe3Slave
      split
      · rename_i cells hf
        simp only [Outcome.bind_ok]
        exact ih names _ fun n h => Nat.le_trans (hn n h) (hset parts _ _).2
      · rename_i hf
        rw [if_neg (fun h => by have := hn _ h; omega)]
        simp only [Outcome.bind_ok]
        obtain ⟨names', parts', h1, h2⟩ := ih ((parts.length + 1, c.id) :: names) (parts.set (keyOf c s) [[m, s]]) (by
          intro n h
          rw [(hset parts _ _).1 hf]
          rcases List.mem_cons.1 h with h | h
          · cases h; exact Nat.le_refl _
          · have := hn n h; omega)
        refine ⟨names', parts', h1, fun x hx => ?_⟩
        rcases h2 x hx with h | h
        · rcases List.mem_cons.1 h with rfl | h
          · exact .inr rfl
          · exact .inl h
        · exact .inr h
  have hone : ∀ (c : Constr) (names : Names), (∃ m, c.master = some m) → (∀ n, (n, c.id) ∉ names) →
      ∃ names' g, makeOne c names = .ok (names', g) ∧ ∀ x ∈ names', x ∈ names ∨ x.2 = c.id := by
    intro c names ⟨m, hm⟩ hn
    unfold makeOne
    cases hk : c.kind with
    | rigid =>
      unfold makeRigid
      simp only [hm, Outcome.bind_ok]
      exact ⟨names, _, rfl, fun x hx => .inl hx⟩
    | quasi =>
      unfold makeQuasi
      simp only [hm, Outcome.bind_ok]
      exact ⟨names, _, rfl, fun x hx => .inl hx⟩
    | rbe3 =>
      unfold makeRbe3
      simp only [hm]
      obtain ⟨names', parts', h1, h2⟩ := hslaves c m c.slaves names [] fun n h => absurd h (hn n)
      rw [h1]
      simp only [Outcome.bind_ok]
      exact ⟨names', _, rfl, h2⟩
  induction cs with
  | nil => intro _ _ _ _; exact ⟨[], rfl⟩
  | cons c r ih =>
    intro names hm hd hn
    obtain ⟨names', g, h1, h2⟩ := hone c names (hm c List.mem_cons_self) (hn c List.mem_cons_self)
    rw [List.map_cons, List.nodup_cons] at hd
    obtain ⟨l, h3⟩ := ih names' (fun x hx => hm x (List.mem_cons_of_mem _ hx)) hd.2 (by
      intro x hx n h
      rcases h2 _ h with h | h
      · exact hn x (List.mem_cons_of_mem _ hx) n h
      · have h' : x.id = c.id := h
        exact hd.1 (h' ▸ List.mem_map.2 ⟨x, hx, rfl⟩))
    refine ⟨g ++ l, ?_⟩
    show (makeOne c names >>= fun q => makeAll r q.1 >>= fun l => .ok (q.2 ++ l)) = _
    rw [h1]
    simp only [Outcome.bind_ok, h3]

theorem ordered_perm (cs : List Constr) : (ordered cs).Perm cs := by
  induction cs with
  | nil => exact .nil
  | cons c r ih =>
    unfold ordered at ih ⊢
    cases hk : c.kind with
    | rigid =>
      simp only [List.filter_cons, hk, decide_true, if_true, reduceCtorEq, decide_false, Bool.false_eq_true, if_false, List.cons_append]
      exact ih.cons c
    | quasi =>
      simp only [List.filter_cons, hk, decide_true, if_true, reduceCtorEq, decide_false, Bool.false_eq_true, if_false]
      rw [List.append_assoc, List.cons_append]
      rw [List.append_assoc] at ih
      exact List.perm_middle.trans (ih.cons c)
    | rbe3 =>
      simp only [List.filter_cons, hk, decide_true, if_true, reduceCtorEq, decide_false, Bool.false_eq_true, if_false]
      exact List.perm_middle.trans (ih.cons c)

/-- **C118, what is translated.** Constraints that have a master are translated, if they have different numbers and no group has a name
of theirs. -/
theorem C118_total (css : List (List Constr)) (names : Names) (hm : ∀ cs ∈ css, ∀ c ∈ cs, ∃ m, c.master = some m)
    (hd : (css.flatten.map (·.id)).Nodup) (hn : ∀ cs ∈ css, ∀ c ∈ cs, ∀ n, (n, c.id) ∉ names) : ∃ sets, make css names = .ok sets := by
  have hmem : ∀ c ∈ css.flatMap ordered, ∃ cs ∈ css, c ∈ cs := by
    intro c hc
    obtain ⟨cs, h1, h2⟩ := List.mem_flatMap.1 hc
    exact ⟨cs, h1, (mem_ordered cs c).1 h2⟩
  have hperm : (css.flatMap ordered).Perm css.flatten := by
    clear hm hd hn hmem
    induction css with
    | nil => exact .nil
    | cons cs r ih =>
      rw [List.flatMap_cons, List.flatten_cons]
      exact (ordered_perm cs).append ih
  refine makeAll_total _ names ?_ ((hperm.map (·.id)).nodup_iff.2 hd) ?_
  · intro c hc
    obtain ⟨cs, h1, h2⟩ := hmem c hc
    exact hm cs h1 c h2
  · intro c hc
    obtain ⟨cs, h1, h2⟩ := hmem c hc
    exact hn cs h1 c h2

/-! ## Examples -/

/-- A rigid constraint, one without master, and an average of three nodes with two coefficients; all of master 1 or without. -/
def exConstraints : List Constr :=
  [⟨.rbe3, 3, some 1, [4, 5, 6], Dofs.ALL_DOFS, false, fun _ => Dofs.TRANSLATIONS, fun n => if n = 6 then 2 else 1⟩,
    ⟨.rigid, 1, some 1, [2, 3], Dofs.ALL_DOFS, true, fun _ => Dofs.ALL_DOFS, fun _ => 1⟩,
    ⟨.quasi, 2, none, [7, 8], Dofs.TRANSLATIONS, true, fun _ => Dofs.ALL_DOFS, fun _ => 1⟩]

/-- The cells that are made, by the master. -/
def shown (o : Opts) (r : Outcome (List RSet)) : Option (List (Nat × List (List Nat)) × Map Nat Nat) :=
  match r with
  | .ok sets => some ((generate o 100 sets).2.map (fun e => (e.master, e.cells)), (generate o 100 sets).1.rot)
  | _ => none

/-- The constraints are translated. The map of rotations knows but the last of the three nodes of rotations of the master 1. -/
example : shown ⟨true, true⟩ (make [exConstraints] []) =
    some ([(1, [[1, 2, 100, 101], [1, 3, 100, 102]]), (7, [[7, 8, 103, 104]]), (1, [[1, 4, 106, 105, 107], [1, 5, 106, 105, 107]]),
      (1, [[1, 6, 109, 108, 110]])], [(1, 109), (7, 103)]) := by
  decide +kernel

/-- Two averages with one number are refused. -/
example : shown ⟨false, false⟩ (make [exConstraints, exConstraints] []) = none := by decide +kernel

end Rigid
end Vega
