import Verif.Load.Combined
import Mathlib.Tactic.Ring
import Mathlib.Tactic.Linarith
import Mathlib.Data.List.Nodup

/-!
# Flattening combined load sets (C31)
-/
namespace Vega.CombinedSpec
open LoadModel

/-! ## Specification -/

/-- The sum of the effects of the loadings directly in the set. -/
def direct (m : LoadModel) (s : Nat) : Dbl := ((m.members s).map m.value).sum

/-- `T` gives the load of every set: its own loadings plus the loads of the sets it combines, times
their factors. (This is what a LOAD card means, to any depth.) -/
def Loads (m : LoadModel) (T : Nat → Dbl) : Prop :=
  ∀ s, T s = direct m s + ((m.embedded s).map fun e => e.2 * T e.1).sum

/-- Sets that combine nothing. -/
def Leaf (m : LoadModel) (s : Nat) : Prop := m.embedded s = []

/-- The members taken over unscaled. -/
def unscaled (m : LoadModel) (s : Nat) : List Nat :=
  (m.embedded s).flatMap fun e => if e.2 = 1 then m.members e.1 else []

/-- The conditions under which the pass is right. -/
structure Good (m : LoadModel) : Prop where
  /-- the loadings have been numbered, no set twice -/
  ids : ∀ s, ∀ l ∈ m.members s, l < m.next
  setsNodup : m.sets.Nodup
  known : ∀ s ∈ m.sets, ∀ e ∈ m.embedded s, e.1 ∈ m.sets
  outside : ∀ s, s ∉ m.sets → Leaf m s
  /-- factors are 1 or distinguishable from 1 -/
  factors : ∀ s, ∀ e ∈ m.embedded s, e.2 = 1 ∨ isEqual e.2 1 = false
  /-- unscaled sets are not combinations, and no loading comes twice -/
  unscaledLeaf : ∀ s, ∀ e ∈ m.embedded s, e.2 = 1 → Leaf m e.1
  noTwice : ∀ s, (m.members s ++ unscaled m s).Nodup
  /-- combinations of combinations come later in the walk -/
  order : ∀ pre s post, m.sets = pre ++ s :: post → ∀ e ∈ m.embedded s, Leaf m e.1 ∨ e.1 ∈ pre

/-! ## Lemmas -/

theorem sum_map_congr {l : List Nat} {f g : Nat → Dbl} (h : ∀ x ∈ l, f x = g x) :
    (l.map f).sum = (l.map g).sum := by
  induction l with
  | nil => rfl
  | cons x l ih =>
    simp only [List.map_cons, List.sum_cons]
    rw [h x (by simp), ih fun y hy => h y (by simp [hy])]

/-- What a step on behalf of the set `s` leaves alone. -/
structure Frame (s : Nat) (m m' : LoadModel) : Prop where
  value : ∀ l, l < m.next → m'.value l = m.value l
  next : m.next ≤ m'.next
  sets : m'.sets = m.sets
  members : ∀ x, x ≠ s → m'.members x = m.members x
  embedded : m'.embedded = m.embedded

theorem Frame.refl (s : Nat) (m : LoadModel) : Frame s m m :=
  ⟨fun _ _ => rfl, le_refl _, rfl, fun _ _ => rfl, rfl⟩

theorem Frame.trans {s : Nat} {a b c : LoadModel} (h : Frame s a b) (h' : Frame s b c) :
    Frame s a c :=
  ⟨fun l hl => (h'.value l (lt_of_lt_of_le hl h.next)).trans (h.value l hl), h.next.trans h'.next,
   h'.sets.trans h.sets, fun x hx => (h'.members x hx).trans (h.members x hx),
   h'.embedded.trans h.embedded⟩

/-- One loading with a factor distinguishable from 1. -/
theorem embedOne_scaled (m : LoadModel) (s l : Nat) (c : Dbl) (hc : isEqual c 1 = false)
    (hs : ∀ x ∈ m.members s, x < m.next) :
    Frame s m (m.embedOne s c l) ∧
    (m.embedOne s c l).members s = m.members s ++ [m.next] ∧
    (m.embedOne s c l).value m.next = c * m.value l ∧ (m.embedOne s c l).next = m.next + 1 := by
  have hn : m.next ∉ m.members s := fun h => absurd (hs _ h) (lt_irrefl _)
  unfold embedOne
  rw [if_neg (by simp [hc])]
  unfold register addScaled
  refine ⟨⟨?_, by simp, rfl, ?_, rfl⟩, ?_, ?_, rfl⟩
  · intro x hx
    have : x ≠ m.next := by omega
    simp [this]
  · intro x hx; simp [hx]
  · simp [hn]
  · simp

/-- All the loadings of a set, with a factor distinguishable from 1. -/
theorem fold_scaled (L : List Nat) (c : Dbl) (hc : isEqual c 1 = false) (m : LoadModel) (s : Nat)
    (hs : ∀ x ∈ m.members s, x < m.next) (hL : ∀ x ∈ L, x < m.next) :
    Frame s m (L.foldl (fun m l => m.embedOne s c l) m) ∧
    (∀ x ∈ (L.foldl (fun m l => m.embedOne s c l) m).members s,
      x < (L.foldl (fun m l => m.embedOne s c l) m).next) ∧
    (∃ N, (L.foldl (fun m l => m.embedOne s c l) m).members s = m.members s ++ N ∧
      (∀ x ∈ N, m.next ≤ x) ∧ N.Nodup) ∧
    direct (L.foldl (fun m l => m.embedOne s c l) m) s =
      direct m s + c * (L.map m.value).sum := by
  induction L generalizing m with
  | nil => exact ⟨Frame.refl _ _, hs, ⟨[], by simp⟩, by simp⟩
  | cons l L ih =>
    rw [List.foldl_cons]
    obtain ⟨f1, e1, e2, e3⟩ := embedOne_scaled m s l c hc hs
    have hs' : ∀ x ∈ (m.embedOne s c l).members s, x < (m.embedOne s c l).next := by
      rw [e1, e3]
      intro x hx
      rcases List.mem_append.mp hx with hx | hx
      · have := hs x hx; omega
      · simp at hx; omega
    obtain ⟨g1, g2, ⟨N, gN, gN2, gN3⟩, g3⟩ := ih (m.embedOne s c l) hs'
      (fun x hx => lt_of_lt_of_le (hL x (by simp [hx])) f1.next)
    refine ⟨f1.trans g1, g2, ⟨m.next :: N, ?_, ?_, ?_⟩, ?_⟩
    · rw [gN, e1]; simp
    · intro x hx
      rcases List.mem_cons.mp hx with rfl | hx
      · exact le_refl _
      · exact f1.next.trans (gN2 x hx)
    · rw [List.nodup_cons]
      refine ⟨fun hx => ?_, gN3⟩
      have := gN2 _ hx
      omega
    · rw [g3]
      have h1 : direct (m.embedOne s c l) s = direct m s + c * m.value l := by
        unfold direct
        rw [e1, List.map_append, List.sum_append]
        simp only [List.map_cons, List.map_nil, List.sum_cons, List.sum_nil, e2, add_zero]
        rw [sum_map_congr fun x hx => f1.value x (hs x hx)]
      have h2 : (L.map (m.embedOne s c l).value).sum = (L.map m.value).sum :=
        sum_map_congr fun x hx => f1.value x (hL x (by simp [hx]))
      rw [h1, h2, List.map_cons, List.sum_cons]
      ring

/-- All the loadings of a set, with factor 1, none of them there yet. -/
theorem fold_unscaled (L : List Nat) (m : LoadModel) (s : Nat)
    (hs : ∀ x ∈ m.members s, x < m.next) (hL : ∀ x ∈ L, x < m.next)
    (hd : ∀ x ∈ L, x ∉ m.members s) (hn : L.Nodup) :
    Frame s m (L.foldl (fun m l => m.embedOne s 1 l) m) ∧
    (L.foldl (fun m l => m.embedOne s 1 l) m).members s = m.members s ++ L ∧
    (L.foldl (fun m l => m.embedOne s 1 l) m).next = m.next ∧
    direct (L.foldl (fun m l => m.embedOne s 1 l) m) s = direct m s + (L.map m.value).sum := by
  induction L generalizing m with
  | nil => exact ⟨Frame.refl _ _, by simp, rfl, by simp⟩
  | cons l L ih =>
    rw [List.foldl_cons]
    have e : m.embedOne s 1 l = m.register s l := by unfold embedOne; simp
    have hl : l ∉ m.members s := hd l (by simp)
    have e1 : (m.register s l).members s = m.members s ++ [l] := by unfold register; simp [hl]
    have f1 : Frame s m (m.register s l) :=
      ⟨fun _ _ => rfl, le_refl _, rfl, fun x hx => by simp [register, hx], rfl⟩
    rw [List.nodup_cons] at hn
    rw [e]
    obtain ⟨g1, g2, g3, g4⟩ := ih (m.register s l)
      (by
        rw [e1]; intro x hx
        rcases List.mem_append.mp hx with hx | hx
        · exact hs x hx
        · simp at hx; subst hx; exact hL x (by simp))
      (fun x hx => hL x (by simp [hx]))
      (by
        intro x hx
        rw [e1, List.mem_append, not_or]
        refine ⟨hd x (by simp [hx]), ?_⟩
        simp only [List.mem_singleton]
        rintro rfl
        exact hn.1 hx) hn.2
    refine ⟨f1.trans g1, ?_, g3, ?_⟩
    · rw [g2, e1]; simp
    · rw [g4]
      have h1 : direct (m.register s l) s = direct m s + m.value l := by
        unfold direct
        rw [e1, List.map_append, List.sum_append]
        simp [register]
      have h2 : (m.register s l).value = m.value := rfl
      rw [h1, h2, List.map_cons, List.sum_cons]
      ring

/-- The sets combined by `s`, one after the other. `m0` is the model before the pass; the sets
other than `s` have their loads `T` already or are leaves untouched so far. -/
theorem embedAll_ok (m0 : LoadModel) (T : Nat → Dbl) (s : Nat) (es : List (Nat × Dbl))
    (m : LoadModel) (hsets : m.sets = m0.sets)
    (hids : ∀ x, ∀ l ∈ m.members x, l < m.next) (hnext : m0.next ≤ m.next)
    (hknown : ∀ e ∈ es, e.1 ∈ m0.sets) (hself : ∀ e ∈ es, e.1 ≠ s)
    (hdone : ∀ e ∈ es, direct m e.1 = T e.1)
    (hfac : ∀ e ∈ es, e.2 = 1 ∨ isEqual e.2 1 = false)
    (hleaf : ∀ e ∈ es, e.2 = 1 → m.members e.1 = m0.members e.1 ∧ ∀ l ∈ m0.members e.1, l < m0.next)
    (hno : ((es.flatMap fun e => if e.2 = 1 then m0.members e.1 else [])).Nodup)
    (hdis : ∀ l ∈ m.members s, l < m0.next →
      l ∉ es.flatMap fun e => if e.2 = 1 then m0.members e.1 else []) :
    ∃ m', embedAll s es m = .ok m' ∧ Frame s m m' ∧ (∀ x, ∀ l ∈ m'.members x, l < m'.next) ∧
      direct m' s = direct m s + (es.map fun e => e.2 * T e.1).sum := by
  induction es generalizing m with
  | nil => exact ⟨m, rfl, Frame.refl _ _, hids, by simp⟩
  | cons e es ih =>
    have hk : e.1 ∈ m.sets := by rw [hsets]; exact hknown e (by simp)
    have hse : e.1 ≠ s := hself e (by simp)
    -- one set
    have hone : ∃ m1, m.embedSet s e = .ok m1 ∧ Frame s m m1 ∧
        (∀ x, ∀ l ∈ m1.members x, l < m1.next) ∧
        direct m1 s = direct m s + e.2 * T e.1 ∧
        (∀ l ∈ m1.members s, l < m0.next → l ∈ m.members s ∨
          (e.2 = 1 ∧ l ∈ m0.members e.1)) := by
      unfold embedSet
      rw [if_pos hk]
      refine ⟨_, rfl, ?_⟩
      by_cases h1 : e.2 = 1
      · obtain ⟨hm, hlt⟩ := hleaf e (by simp) h1
        have hnd : (m.members e.1).Nodup := by
          rw [hm]
          rw [List.flatMap_cons, if_pos h1] at hno
          exact (List.nodup_append.mp hno).1
        obtain ⟨g1, g2, g3, g4⟩ := fold_unscaled (m.members e.1) m s (hids s) (hids e.1)
          (by
            intro x hx hxs
            rw [hm] at hx
            refine hdis x hxs (hlt x hx) ?_
            rw [List.flatMap_cons, if_pos h1]
            exact List.mem_append.mpr (Or.inl hx)) hnd
        rw [h1]
        refine ⟨g1, ?_, ?_, ?_⟩
        · intro x l hl
          rw [g3]
          by_cases hx : x = s
          · subst hx
            rw [g2] at hl
            rcases List.mem_append.mp hl with hl | hl
            · exact hids x l hl
            · exact hids e.1 l hl
          · rw [g1.members x hx] at hl
            exact hids x l hl
        · rw [g4]
          have := hdone e (by simp)
          unfold direct at this
          rw [this]
          ring
        · intro l hl _
          rw [g2] at hl
          rcases List.mem_append.mp hl with hl | hl
          · exact Or.inl hl
          · exact Or.inr ⟨rfl, hm ▸ hl⟩
      · have hc : isEqual e.2 1 = false := (hfac e (by simp)).resolve_left h1
        obtain ⟨g1, g2, ⟨N, gN, gN2, _⟩, g3⟩ := fold_scaled (m.members e.1) e.2 hc m s (hids s) (hids e.1)
        refine ⟨g1, ?_, ?_, ?_⟩
        · intro x l hl
          by_cases hx : x = s
          · subst hx; exact g2 l hl
          · rw [g1.members x hx] at hl
            exact lt_of_lt_of_le (hids x l hl) g1.next
        · rw [g3]
          have := hdone e (by simp)
          unfold direct at this
          rw [this]
        · intro l hl hlt
          rw [gN] at hl
          rcases List.mem_append.mp hl with hl | hl
          · exact Or.inl hl
          · have := gN2 l hl; omega
    obtain ⟨m1, e1, f1, i1, d1, n1⟩ := hone
    rw [List.flatMap_cons] at hno
    have hdirect : ∀ x, x ≠ s → direct m1 x = direct m x := by
      intro x hx
      unfold direct
      rw [f1.members x hx]
      exact sum_map_congr fun l hl => f1.value l (hids x l hl)
    obtain ⟨m2, e2, f2, i2, d2⟩ := ih m1 (f1.sets.trans hsets) i1 (hnext.trans f1.next)
      (fun e' h' => hknown e' (by simp [h'])) (fun e' h' => hself e' (by simp [h']))
      (fun e' h' => by
        rw [hdirect _ (hself e' (by simp [h']))]
        exact hdone e' (by simp [h']))
      (fun e' h' => hfac e' (by simp [h']))
      (fun e' h' h1 => by
        rw [f1.members _ (hself e' (by simp [h']))]
        exact hleaf e' (by simp [h']) h1)
      (List.nodup_append.mp hno).2.1
      (by
        intro l hl hlt hc
        rcases n1 l hl hlt with h | ⟨h1, h⟩
        · refine hdis l h hlt ?_
          rw [List.flatMap_cons]
          exact List.mem_append.mpr (Or.inr hc)
        · rw [if_pos h1] at hno
          exact (List.nodup_append.mp hno).2.2 l h l hc rfl)
    refine ⟨m2, ?_, f1.trans f2, i2, ?_⟩
    · rw [embedAll, e1]; exact e2
    · rw [d2, d1, List.map_cons, List.sum_cons]; ring

/-- The state of the walk: the sets in `pre` have been processed, those in `post` not yet. -/
structure Walk (m0 : LoadModel) (T : Nat → Dbl) (pre post : List Nat) (m : LoadModel) : Prop where
  sets : m.sets = m0.sets
  ids : ∀ x, ∀ l ∈ m.members x, l < m.next
  next : m0.next ≤ m.next
  value : ∀ l, l < m0.next → m.value l = m0.value l
  done : ∀ x ∈ pre, direct m x = T x ∧ m.embedded x = []
  todo : ∀ x, x ∉ pre → m.embedded x = m0.embedded x
  /-- sets not processed, and leaves, still have their members -/
  keep : ∀ x, x ∉ pre ∨ Leaf m0 x → m.members x = m0.members x

theorem flattenLoop_ok (m0 : LoadModel) (T : Nat → Dbl) (hg : Good m0) (hT : Loads m0 T)
    (post pre : List Nat) (m : LoadModel) (hp : m0.sets = pre ++ post)
    (hw : Walk m0 T pre post m) :
    ∃ m', flattenLoop post m = .ok m' ∧ Walk m0 T (pre ++ post) [] m' := by
  induction post generalizing pre m with
  | nil => exact ⟨m, rfl, by simpa using hw⟩
  | cons s post ih =>
    have hnd := hg.setsNodup
    rw [hp] at hnd
    have hsp : s ∉ pre := by
      intro h
      exact (List.nodup_append.mp hnd).2.2 s h s (by simp) rfl
    have hemb : m.embedded s = m0.embedded s := hw.todo s hsp
    have hord := hg.order pre s post hp
    have hsin : s ∈ m0.sets := by rw [hp]; simp
    have hkeep : m.members s = m0.members s := hw.keep s (Or.inl hsp)
    have leafT : ∀ x, Leaf m0 x → T x = direct m0 x := by
      intro x hx
      rw [hT x, hx]; simp
    have hdir0 : ∀ x, x ∉ pre ∨ Leaf m0 x → direct m x = direct m0 x := by
      intro x hx
      unfold direct
      rw [hw.keep x hx]
      exact sum_map_congr fun l hl => hw.value l (hg.ids x l hl)
    obtain ⟨m1, e1, f1, i1, d1⟩ := embedAll_ok m0 T s (m0.embedded s) m hw.sets hw.ids hw.next
      (fun e he => hg.known s hsin e he)
      (by
        rintro e he heq
        rcases hord e he with h | h
        · rw [heq] at h
          unfold Leaf at h
          rw [h] at he; simp at he
        · rw [heq] at h; exact hsp h)
      (by
        intro e he
        rcases hord e he with h | h
        · rw [hdir0 _ (Or.inr h), leafT _ h]
        · exact (hw.done _ h).1)
      (fun e he => hg.factors s e he)
      (by
        intro e he h1
        have hl := hg.unscaledLeaf s e he h1
        exact ⟨hw.keep _ (Or.inr hl), hg.ids e.1⟩)
      (List.nodup_append.mp (hg.noTwice s)).2.1
      (by
        intro l hl _ hc
        rw [hkeep] at hl
        exact (List.nodup_append.mp (hg.noTwice s)).2.2 l hl l hc rfl)
    have hdirs : ∀ x, x ≠ s → direct m1 x = direct m x := by
      intro x hx
      unfold direct
      rw [f1.members x hx]
      exact sum_map_congr fun l hl => f1.value l (hw.ids x l hl)
    have hwalk : Walk m0 T (pre ++ [s]) post (m1.clear s) := by
      refine ⟨f1.sets.trans hw.sets, i1, hw.next.trans f1.next, ?_, ?_, ?_, ?_⟩
      · intro l hl
        exact (f1.value l (lt_of_lt_of_le hl hw.next)).trans (hw.value l hl)
      · intro x hx
        have hd : direct (m1.clear s) x = direct m1 x := rfl
        rw [hd]
        by_cases hxs : x = s
        · subst hxs
          refine ⟨?_, by simp [clear]⟩
          rw [d1, hdir0 _ (Or.inl hsp)]
          exact (hT x).symm
        · have hxp : x ∈ pre := by
            rcases List.mem_append.mp hx with h | h
            · exact h
            · simp at h; exact absurd h hxs
          refine ⟨(hdirs x hxs).trans (hw.done x hxp).1, ?_⟩
          simp only [clear, hxs, if_false]
          rw [f1.embedded]; exact (hw.done x hxp).2
      · intro x hx
        rw [List.mem_append, not_or, List.mem_singleton] at hx
        simp only [clear, hx.2, if_false]
        rw [f1.embedded]; exact hw.todo x hx.1
      · intro x hx
        have hm : (m1.clear s).members x = m1.members x := rfl
        rw [hm]
        by_cases hxs : x = s
        · subst hxs
          -- a leaf: nothing was added
          rcases hx with hx | hx
          · simp at hx
          · unfold Leaf at hx
            rw [hx] at e1
            simp only [embedAll, Outcome.ok.injEq] at e1
            rw [← e1]; exact hw.keep x (Or.inl hsp)
        · rw [f1.members x hxs]
          apply hw.keep
          rcases hx with hx | hx
          · left
            intro h
            exact hx (List.mem_append.mpr (Or.inl h))
          · exact Or.inr hx
    obtain ⟨m2, e2, w2⟩ := ih (pre ++ [s]) (m1.clear s) (by rw [hp]; simp) hwalk
    refine ⟨m2, ?_, by simpa using w2⟩
    rw [flattenLoop, hemb, e1]
    exact e2

/-! ## C31 -/

/-- **C31** (partial) flattening leaves every set with its load: after the pass no set combines
others, and the loadings directly in a set add up to the load the combination meant, to any depth
of combination. Missing: the cases excluded by `Good` (refuted below), factors within rounding of
1, and rounding. -/
theorem C31_flatten_partial (m : LoadModel) (T : Nat → Dbl) (hg : Good m) (hT : Loads m T) :
    ∃ m', replaceCombinedLoadSets m = .ok m' ∧
      ∀ s ∈ m.sets, direct m' s = T s ∧ m'.embedded s = [] := by
  obtain ⟨m', e, w⟩ := flattenLoop_ok m T hg hT m.sets [] m rfl
    ⟨rfl, hg.ids, le_refl _, fun _ _ => rfl, by simp, fun _ _ => rfl, fun _ _ => rfl⟩
  exact ⟨m', e, fun s hs => w.done s (by simpa using hs)⟩

/-- **C31** the existing loadings keep their values and the sets that combine nothing keep their
loadings. -/
theorem C31_frame (m : LoadModel) (T : Nat → Dbl) (hg : Good m) (hT : Loads m T) :
    ∃ m', replaceCombinedLoadSets m = .ok m' ∧ (∀ l, l < m.next → m'.value l = m.value l) ∧
      ∀ s, Leaf m s → m'.members s = m.members s := by
  obtain ⟨m', e, w⟩ := flattenLoop_ok m T hg hT m.sets [] m rfl
    ⟨rfl, hg.ids, le_refl _, fun _ _ => rfl, by simp, fun _ _ => rfl, fun _ _ => rfl⟩
  exact ⟨m', e, w.value, fun s hs => w.keep s (Or.inr hs)⟩

/-- Set 3 = 2 * set 1 + 1 * set 2, set 4 = 5 * set 3; one loading in set 1, two in set 2, one of
its own in set 3. -/
def exModel : LoadModel where
  value := fun l => if l = 0 then 10 else if l = 1 then 20 else if l = 2 then 30 else 7
  next := 4
  sets := [1, 2, 3, 4]
  members := fun s => if s = 1 then [0] else if s = 2 then [1, 2] else if s = 3 then [3] else []
  embedded := fun s => if s = 3 then [(1, 2), (2, 1)] else if s = 4 then [(3, 5)] else []

def exLoads : Nat → Dbl :=
  fun s => if s = 1 then 10 else if s = 2 then 50 else if s = 3 then 77 else if s = 4 then 385 else 0

theorem isEqual_two : isEqual 2 1 = false := by decide +kernel
theorem isEqual_five : isEqual 5 1 = false := by decide +kernel

theorem exModel_good : Good exModel := by
  refine ⟨?_, by decide, ?_, ?_, ?_, ?_, ?_, ?_⟩
  · intro s l hl
    simp only [exModel] at hl ⊢
    split at hl
    · simp at hl; omega
    · split at hl
      · simp at hl; omega
      · split at hl
        · simp at hl; omega
        · simp at hl
  · decide
  · intro s hs
    simp only [exModel, List.mem_cons, List.not_mem_nil, or_false, not_or] at hs
    simp [Leaf, exModel, hs]
  · intro s e he
    simp only [exModel] at he
    split at he
    · simp at he; rcases he with rfl | rfl
      · exact Or.inr isEqual_two
      · exact Or.inl rfl
    · split at he
      · simp at he; subst he; exact Or.inr isEqual_five
      · simp at he
  · intro s e he h1
    simp only [exModel] at he
    split at he
    · simp at he; rcases he with rfl | rfl
      · exact absurd h1 (by decide)
      · simp [Leaf, exModel]
    · split at he
      · simp at he; subst he; exact absurd h1 (by decide)
      · simp at he
  · intro s
    by_cases h : s ∈ [1, 2, 3, 4]
    · revert h
      revert s
      decide
    · simp only [List.mem_cons, List.not_mem_nil, or_false, not_or] at h
      simp [unscaled, exModel, h]
  · intro pre s post hp e he
    have h4 : e.1 = 1 ∨ e.1 = 2 ∨ (s = 4 ∧ e.1 = 3) := by
      simp only [exModel] at he
      split at he
      · simp at he; rcases he with rfl | rfl <;> simp
      · split at he
        · simp at he; subst he; right; right; exact ⟨by assumption, rfl⟩
        · simp at he
    rcases h4 with h | h | ⟨h, h'⟩
    · left; simp [Leaf, exModel, h]
    · left; simp [Leaf, exModel, h]
    · right
      subst h
      rw [h']
      match pre, hp with
      | [], hp => simp [exModel] at hp
      | [a], hp => simp [exModel] at hp
      | [a, b], hp => simp [exModel] at hp
      | [a, b, c], hp => simp [exModel] at hp; simp [hp]
      | a :: b :: c :: d :: rest, hp => simp [exModel] at hp

theorem exModel_loads : Loads exModel exLoads := by
  intro s
  by_cases h : s ∈ [1, 2, 3, 4]
  · simp only [List.mem_cons, List.not_mem_nil, or_false] at h
    rcases h with rfl | rfl | rfl | rfl <;> (simp [direct, exModel, exLoads]; try norm_num)
  · simp only [List.mem_cons, List.not_mem_nil, or_false, not_or] at h
    simp [direct, exModel, exLoads, h]

-- the hypotheses of C31 on a combination of a combination
example : Good exModel ∧ Loads exModel exLoads ∧ exLoads 4 = 385 :=
  ⟨exModel_good, exModel_loads, by simp [exLoads]⟩

/-! ### Where the pass is wrong -/

/-- The load left in a set after the pass. -/
def loadAfter (m : LoadModel) (s : Nat) : Outcome Dbl := do
  let m' ← replaceCombinedLoadSets m
  .ok (direct m' s)

/-- Refutation: a combination of a combination created before it loses the nested loads. Set 1 is
5 times set 2, set 2 is 2 times set 3, set 3 a force of 10; set 1 should be 100 and is empty. -/
theorem C31_nested_order_false :
    ∃ (m : LoadModel) (T : Nat → Dbl), Loads m T ∧ T 1 = 100 ∧ loadAfter m 1 = .ok 0 := by
  refine ⟨⟨fun _ => 10, 1, [1, 2, 3], fun s => if s = 3 then [0] else [],
    fun s => if s = 1 then [(2, 5)] else if s = 2 then [(3, 2)] else []⟩,
    fun s => if s = 1 then 100 else if s = 2 then 20 else if s = 3 then 10 else 0, ?_, by simp, ?_⟩
  · intro s
    by_cases h : s = 1 ∨ s = 2 ∨ s = 3
    · rcases h with rfl | rfl | rfl <;> (simp [direct]; try norm_num)
    · simp only [not_or] at h
      simp [direct, h]
  · decide +kernel

/-- Refutation: a set combined twice with factor 1 is counted once. Set 1 is set 2 plus set 2, a
force of 10; set 1 should be 20 and is 10. -/
theorem C31_same_set_twice_false :
    ∃ (m : LoadModel) (T : Nat → Dbl), Loads m T ∧ T 1 = 20 ∧ loadAfter m 1 = .ok 10 := by
  refine ⟨⟨fun _ => 10, 1, [1, 2], fun s => if s = 2 then [0] else [],
    fun s => if s = 1 then [(2, 1), (2, 1)] else []⟩,
    fun s => if s = 1 then 20 else if s = 2 then 10 else 0, ?_, by simp, ?_⟩
  · intro s
    by_cases h : s = 1 ∨ s = 2
    · rcases h with rfl | rfl <;> (simp [direct]; try norm_num)
    · simp only [not_or] at h
      simp [direct, h]
  · decide +kernel

/-- A combination of a set that does not exist raises an exception. -/
theorem C31_missing_set (m : LoadModel) (s : Nat) (ss : List Nat) (hs : m.sets = s :: ss)
    (e : Nat × Dbl) (es : List (Nat × Dbl)) (he : m.embedded s = e :: es) (hm : e.1 ∉ m.sets) :
    replaceCombinedLoadSets m = .throw := by
  unfold replaceCombinedLoadSets
  rw [hs, flattenLoop, he, embedAll]
  unfold embedSet
  rw [if_neg hm]
  rfl

end Vega.CombinedSpec
