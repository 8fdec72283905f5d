import Verif.Constraint.LocalSpc
import Verif.Geom.SystemsProps

/-!
# Constraints in the systems of nodes and the relations put in their place say the same (C129)
-/
namespace Vega

namespace LocalSpcSpec
open CS Vec CsSpec LocalSpc

/-- The displacement of a node: translations and rotations. -/
structure Move where
  t : Vec
  r : Vec

/-- A component, 0 to 5. -/
def Move.comp (m : Move) (i : Fin 6) : ℝ :=
  match i with
  | 0 => m.t.x
  | 1 => m.t.y
  | 2 => m.t.z
  | 3 => m.r.x
  | 4 => m.r.y
  | 5 => m.r.z

/-- The frames, innermost first, in which the displacements of a node at `p` are given: those of a Cartesian system and of the
Cartesian systems it is defined in, or the base of a cylindrical system at `p`, which is not on its axis. -/
inductive Frames (env : Env) (c : CS) (p : Vec) : List Frame → Prop
  | straight {fs : List Frame} : c.kind = .cartesian → Resolves env c fs → (∀ f ∈ fs, Direct f.a) → Frames env c p fs
  | round {a b : Axes} {o : Vec} : c.kind = .cylindrical → c.rcs = none → c.axes = some a → c.origin = some o → Direct a →
      (5 / 2 ^ 52 < |(sub p o).x| ∨ 5 / 2 ^ 52 < |(sub p o).y| ∨ 5 / 2 ^ 52 < |(sub p o).z|) →
      cross a.ez (sub p o) ≠ zero → Direct b → b.ez = a.ez → InHalfPlane a.ez (sub p o) b.ex → Frames env c p [⟨o, b⟩]

/-- The node has the displacement `l` in its own system when it has the displacement `m` in the global one. -/
def Seen (env : Env) (n : Node) (l m : Move) : Prop :=
  (n.system = none ∧ l = m) ∨
    ∃ r c fs, n.system = some r ∧ env r = some c ∧ Frames env c n.place fs ∧ throughVec fs l.t = m.t ∧ throughVec fs l.r = m.r

/-- The components have the values of the constraint. -/
def Obeys (value : Fin 6 → Value) (m : Move) : Prop := ∀ i v, value i = .number v → m.comp i = v

/-- A constraint holds, its components being those of the systems of its nodes. -/
def Local (env : Env) (node : Nat → Node) (s : Spc) (u : Nat → Move) : Prop :=
  ∀ p, p ∈ s.own ∨ p ∈ s.grouped → ∀ l, Seen env (node p) l (u p) → Obeys s.value l

/-- A constraint holds, its components being global. -/
def Global (s : Spc) (u : Nat → Move) : Prop := ∀ p, p ∈ s.own ∨ p ∈ s.grouped → Obeys s.value (u p)

/-- A relation holds. -/
def Holds (r : Relation) (u : Nat → Move) : Prop :=
  ∃ t o, r.translations = some t ∧ r.rotations = some o ∧ dot t (u r.node).t + dot o (u r.node).r = r.value

/-- What the theorem asks of a node: it has no system of its own, or one that is found, with frames. -/
def Ready (env : Env) (fuel : Nat) (n : Node) : Prop :=
  n.system = none ∨ ∃ r c fs, n.system = some r ∧ env r = some c ∧ Frames env c n.place fs ∧ fs.length ≤ fuel

end LocalSpcSpec

namespace LocalSpc
open CS Vec CsSpec LocalSpcSpec

/-! ## Lemmas -/

theorem resolves_unique {env : Env} {c : CS} {fs gs : List Frame} (h : Resolves env c fs) (g : Resolves env c gs) : fs = gs := by
  induction h generalizing gs with
  | global ho ha hr =>
    cases g with
    | global ho' ha' hr' => rw [ho] at ho'; rw [ha] at ha'; cases ho'; cases ha'; rfl
    | nested ho' ha' hr' => rw [hr] at hr'; cases hr'
  | nested ho ha hr he hk _ ih =>
    cases g with
    | global ho' ha' hr' => rw [hr] at hr'; cases hr'
    | nested ho' ha' hr' he' hk' h' =>
      rw [ho] at ho'; rw [ha] at ha'; rw [hr] at hr'
      cases ho'; cases ha'; cases hr'
      rw [he] at he'
      cases he'
      rw [ih h']

/-- A base at a point is determined. -/
theorem base_unique {z d : Vec} {b b' : Axes} (hb : Direct b) (hb' : Direct b') (hz : b.ez = z) (hz' : b'.ez = z)
    (hx : InHalfPlane z d b.ex) (hx' : InHalfPlane z d b'.ex) : b = b' := by
  obtain ⟨s, t, ht, hx⟩ := hx
  obtain ⟨s', t', ht', hx'⟩ := hx'
  have key : ∀ (s t : ℝ) (x : Vec), dot z z = 1 → dot z x = 0 → x = add (smul s z) (smul t d) →
      x = smul t (sub d (smul (dot z d) z)) := by
    intro s t x hzz hzx hx
    have hs : s = -(t * dot z d) := by
      have : dot z x = s * dot z z + t * dot z d := by rw [hx]; simp only [dot, add, smul]; ring
      rw [hzx, hzz] at this
      linarith
    rw [hx, hs]
    ext <;> simp only [add, smul, sub] <;> ring
  have hzz : dot z z = 1 := by rw [← hz]; exact hb.zz
  have e := key s t _ hzz (by rw [← hz]; exact hb.zx) hx
  have e' := key s' t' _ hzz (by rw [← hz']; exact hb'.zx) hx'
  set w := sub d (smul (dot z d) z)
  have q : t * t * dot w w = 1 := by
    have := hb.xx
    rw [e] at this
    rw [← this]; simp only [dot, smul]; ring
  have q' : t' * t' * dot w w = 1 := by
    have := hb'.xx
    rw [e'] at this
    rw [← this]; simp only [dot, smul]; ring
  have hw : dot w w ≠ 0 := by
    intro h
    rw [h, mul_zero] at q
    exact zero_ne_one q
  have htt : t * t = t' * t' := mul_right_cancel₀ hw (q.trans q'.symm)
  have ht2 : t = t' := by nlinarith
  have hex : b.ex = b'.ex := by rw [e, e', ht2]
  have hez : b.ez = b'.ez := hz.trans hz'.symm
  have hey : b.ey = b'.ey := by rw [← (direct_cross hb).2, ← (direct_cross hb').2, hex, hez]
  obtain ⟨x, y, z'⟩ := b
  obtain ⟨x', y', z''⟩ := b'
  simp only at hex hey hez
  rw [hex, hey, hez]

theorem frames_unique {env : Env} {c : CS} {p : Vec} {fs gs : List Frame} (h : Frames env c p fs) (g : Frames env c p gs) :
    fs = gs := by
  cases h with
  | straight hk hr hd =>
    cases g with
    | straight hk' hr' hd' => exact resolves_unique hr hr'
    | round hk' => rw [hk] at hk'; cases hk'
  | round hk hr ha ho hd hf hn hb hz hx =>
    cases g with
    | straight hk' => rw [hk] at hk'; cases hk'
    | round hk' hr' ha' ho' hd' hf' hn' hb' hz' hx' =>
      rw [ha] at ha'; rw [ho] at ho'
      cases ha'; cases ho'
      rw [base_unique hb hb' hz hz' hx hx']

theorem frames_direct {env : Env} {c : CS} {p : Vec} {fs : List Frame} (h : Frames env c p fs) : ∀ f ∈ fs, Direct f.a := by
  cases h with
  | straight hk hr hd => exact hd
  | round hk hr ha ho hd hf hn hb hz hx =>
    intro f hf'
    simp only [List.mem_cons, List.not_mem_nil, or_false] at hf'
    rw [hf']
    exact hb

/-- Every vector is seen through frames. -/
theorem through_onto (fs : List Frame) (hd : ∀ f ∈ fs, Direct f.a) (w : Vec) : ∃ v, throughVec fs v = w := by
  induction fs generalizing w with
  | nil => exact ⟨w, rfl⟩
  | cons f fs ih =>
    obtain ⟨v, hv⟩ := ih (fun g hg => hd g (List.mem_cons_of_mem _ hg)) w
    refine ⟨⟨dot v f.a.ex, dot v f.a.ey, dot v f.a.ez⟩, ?_⟩
    simp only [throughVec, List.foldl_cons, frame_vec]
    rw [apply_inverse (hd f List.mem_cons_self)]
    simpa only [throughVec, frame_vec] using hv

theorem through_inj (fs : List Frame) (hd : ∀ f ∈ fs, Direct f.a) (v w : Vec) (h : throughVec fs v = throughVec fs w) : v = w := by
  have e : ∀ x, dot v x = dot w x := by
    intro x
    rw [← through_dot fs hd v x, ← through_dot fs hd w x, h]
  ext
  · simpa [dot] using e ⟨1, 0, 0⟩
  · simpa [dot] using e ⟨0, 1, 0⟩
  · simpa [dot] using e ⟨0, 0, 1⟩

/-- Two sets of systems that differ by the local bases of those that are not Cartesian. -/
def Alike (env env' : Env) : Prop :=
  ∀ s, (env s = none ∧ env' s = none) ∨
    ∃ c lb, env s = some c ∧ env' s = some { c with localBase := lb } ∧ (c.kind = .cartesian → c.localBase = lb)

theorem alike_refl (env : Env) : Alike env env := by
  intro s
  cases h : env s with
  | none => exact Or.inl ⟨rfl, rfl⟩
  | some c => exact Or.inr ⟨c, c.localBase, rfl, rfl, fun _ => rfl⟩

theorem resolves_alike {env env' : Env} (h : Alike env env') {c : CS} {fs : List Frame} (hr : Resolves env c fs) :
    ∀ lb, Resolves env' { c with localBase := lb } fs := by
  induction hr with
  | global ho ha hr => exact fun lb => .global ho ha hr
  | @nested c p o a r fs ho ha hr he hk _ ih =>
    intro lb
    rcases h r with ⟨h1, -⟩ | ⟨c', lb', h1, h2, h3⟩
    · rw [he] at h1; cases h1
    · rw [he] at h1
      cases h1
      have := ih lb'
      exact .nested ho ha hr h2 hk this

theorem update_shape {c c' : CS} {p : Vec} (h : c.updateLocalBase p = .ok c') : c' = { c with localBase := c'.localBase } := by
  unfold updateLocalBase at h
  split at h
  · split at h
    · cases h; rfl
    · simp only at h
      split at h
      · cases h; rfl
      · cases h; rfl
  · cases h
  · cases h; rfl

theorem update_cartesian {c : CS} (h : c.kind = .cartesian) (p : Vec) : c.updateLocalBase p = .ok c := by
  unfold updateLocalBase
  split
  · next h' => exact absurd (h.symm.trans h') (by decide)
  · next h' => exact absurd (h.symm.trans h') (by decide)
  · rfl

/-- What is done at a node: the system is brought up to date, and converts vectors as its frames say. -/
theorem updated {env0 env : Env} (h : Alike env0 env) {r : Nat} {c0 : CS} (hc : env0 r = some c0) {p : Vec} {fs : List Frame}
    (hf : Frames env0 c0 p fs) {fuel : Nat} (hl : fs.length ≤ fuel) :
    ∃ c c', env r = some c ∧ c.updateLocalBase p = .ok c' ∧ Alike env0 (setEnv env r c') ∧
      ∀ v, vectorToGlobal (setEnv env r c') fuel c' (some v) = .ok (some (throughVec fs v)) := by
  rcases h r with ⟨h1, -⟩ | ⟨c1, lb, h1, h2, h3⟩
  · rw [hc] at h1; cases h1
  · rw [hc] at h1
    cases h1
    cases hf with
    | straight hk hr hd =>
      have hlb := h3 hk
      subst hlb
      refine ⟨_, c0, h2, ?_, ?_, ?_⟩
      · exact update_cartesian hk p
      · have : setEnv env r c0 = env := by
          funext s
          unfold setEnv
          split
          · next hs => rw [hs, h2]
          · rfl
        rw [this]
        exact h
      · intro v
        have : setEnv env r c0 = env := by
          funext s
          unfold setEnv
          split
          · next hs => rw [hs, h2]
          · rfl
        rw [this]
        exact C44_vector env c0 fs (resolves_alike h hr c0.localBase) hk fuel hl v
    | @round a b o hk hr ha ho hd hfar hoff hb hz hx =>
      obtain ⟨c', b', hu, hlb, hax, hb', hz', hx'⟩ :=
        C43_cylindrical_base { c0 with localBase := lb } a o p hk ha ho hd hfar hoff
      have hbb : b' = b := base_unique hb' hb hz' hz hx' hx
      subst hbb
      have hshape : c' = { c0 with localBase := c'.localBase } := by
        have := update_shape hu
        exact this
      refine ⟨_, c', h2, hu, ?_, ?_⟩
      · intro s
        unfold setEnv
        by_cases hs : s = r
        · refine Or.inr ⟨c0, c'.localBase, by rw [hs, hc], ?_, fun hcart => ?_⟩
          · rw [if_pos hs, ← hshape]
          · rw [hk] at hcart; cases hcart
        · rw [if_neg hs]
          exact h s
      · intro v
        obtain ⟨n, rfl⟩ : ∃ m, fuel = m + 1 := ⟨fuel - 1, by simp at hl; omega⟩
        have hk' : c'.kind = .cylindrical := by rw [hshape]; exact hk
        have hr' : c'.rcs = none := by rw [hshape]; exact hr
        simp only [vectorToGlobal, hk', upTo, hr', applyOpt, hlb, Option.bind_eq_bind, Option.bind_some, throughVec,
          List.foldl_cons, List.foldl_nil, frame_vec]

theorem axis_comp (i : Fin 6) (l : Move) :
    (i.val < 3 → dot (axis i) l.t = l.comp i) ∧ (¬ i.val < 3 → dot (axis i) l.r = l.comp i) := by
  fin_cases i <;> simp [axis, dot, Move.comp]

/-- The relations of a node. -/
theorem relations_say {env : Env} {fuel : Nat} {c : CS} {fs : List Frame} (hd : ∀ f ∈ fs, Direct f.a)
    (hv : ∀ v, vectorToGlobal env fuel c (some v) = .ok (some (throughVec fs v))) (p : Nat) (value : Fin 6 → Value)
    (hn : ∀ i, value i ≠ .reference) (is : List (Fin 6)) :
    ∃ rs, relations env fuel c p value is = .ok rs ∧
      ∀ (u : Nat → Move) (l : Move), throughVec fs l.t = (u p).t → throughVec fs l.r = (u p).r →
        ((∀ r ∈ rs, Holds r u) ↔ ∀ i ∈ is, ∀ v, value i = .number v → l.comp i = v) := by
  induction is with
  | nil => exact ⟨[], rfl, fun u l _ _ => by simp⟩
  | cons i is ih =>
    obtain ⟨rs, hrs, ih⟩ := ih
    unfold relations
    cases hi : value i with
    | reference => exact absurd hi (hn i)
    | free =>
      refine ⟨rs, hrs, fun u l ht hr => (ih u l ht hr).trans ?_⟩
      simp only [List.mem_cons, forall_eq_or_imp, hi]
      constructor
      · exact fun h => ⟨fun v hv => (by cases hv), h⟩
      · exact fun h => h.2
    | number v =>
      simp only [hv, hrs, Outcome.bind_ok]
      refine ⟨_, rfl, fun u l ht hr => ?_⟩
      simp only [List.mem_cons, forall_eq_or_imp, hi, Value.number.injEq, forall_eq']
      refine and_congr ?_ (ih u l ht hr)
      have hz : ∀ w, dot zero w = 0 := by intro w; simp [dot, zero]
      by_cases hlt : i.val < 3
      · rw [if_pos hlt]
        have e : dot (throughVec fs (axis i)) (u p).t = l.comp i := by
          rw [← ht, through_dot fs hd, (axis_comp i l).1 hlt]
        constructor
        · rintro ⟨t, o, h1, h2, h3⟩
          cases h1; cases h2
          simp only [hz, add_zero] at h3
          rw [← h3, e]
        · intro h
          exact ⟨_, _, rfl, rfl, by simp only [hz, add_zero]; rw [e, h]⟩
      · rw [if_neg hlt]
        have e : dot (throughVec fs (axis i)) (u p).r = l.comp i := by
          rw [← hr, through_dot fs hd, (axis_comp i l).2 hlt]
        constructor
        · rintro ⟨t, o, h1, h2, h3⟩
          cases h1; cases h2
          simp only [hz, zero_add] at h3
          rw [← h3, e]
        · intro h
          exact ⟨_, _, rfl, rfl, by simp only [hz, zero_add]; rw [e, h]⟩

/-- A node that is ready has one displacement in its system for each global one. -/
theorem seen_unique {env : Env} {fuel : Nat} {n : Node} (h : Ready env fuel n) (m : Move) : ∃! l, Seen env n l m := by
  rcases h with h | ⟨r, c, fs, hs, hc, hf, -⟩
  · refine ⟨m, Or.inl ⟨h, rfl⟩, ?_⟩
    rintro l (⟨-, rfl⟩ | ⟨r, c, fs, hs, -⟩)
    · rfl
    · rw [h] at hs; cases hs
  · obtain ⟨t, ht⟩ := through_onto fs (frames_direct hf) m.t
    obtain ⟨o, ho⟩ := through_onto fs (frames_direct hf) m.r
    refine ⟨⟨t, o⟩, Or.inr ⟨r, c, fs, hs, hc, hf, ht, ho⟩, ?_⟩
    rintro ⟨t', o'⟩ (⟨h, -⟩ | ⟨r', c', fs', hs', hc', hf', ht', ho'⟩)
    · rw [hs] at h; cases h
    · rw [hs] at hs'; cases hs'
      rw [hc] at hc'; cases hc'
      have := frames_unique hf hf'
      subst this
      simp only at ht' ho'
      rw [through_inj fs (frames_direct hf) t' t (ht'.trans ht.symm), through_inj fs (frames_direct hf) o' o (ho'.trans ho.symm)]

theorem loop_says {env0 : Env} {fuel : Nat} {node : Nat → Node} (ps : List Nat) (hnd : ps.Nodup) (env : Env) (s : Spc)
    (h : Alike env0 env) (hn : ∀ i, s.value i ≠ .reference) (hr : ∀ p ∈ ps, Ready env0 fuel (node p)) (hin : ∀ p ∈ ps, p ∈ s.own) :
    ∃ env' s' rs, loop fuel node ps env s = .ok (env', s', rs) ∧ Alike env0 env' ∧ s'.value = s.value ∧ s'.grouped = s.grouped ∧
      (∀ q, q ∈ s'.own ↔ q ∈ s.own ∧ (q ∈ ps → (node q).system = none)) ∧
      ∀ u, (∀ r ∈ rs, Holds r u) ↔ ∀ p ∈ ps, (node p).system ≠ none → ∀ l, Seen env0 (node p) l (u p) → Obeys s.value l := by
  induction ps generalizing env s with
  | nil => exact ⟨env, s, [], rfl, h, rfl, rfl, fun q => by simp, fun u => by simp⟩
  | cons p ps ih =>
    rw [List.nodup_cons] at hnd
    unfold loop
    rcases hr p List.mem_cons_self with hs | ⟨r, c0, fs, hs, hc, hf, hl⟩
    · obtain ⟨env', s', rs, h1, h2, h3, h4, h5, h6⟩ := ih hnd.2 env s h hn (fun q hq => hr q (List.mem_cons_of_mem _ hq))
        (fun q hq => hin q (List.mem_cons_of_mem _ hq))
      refine ⟨env', s', rs, ?_, h2, h3, h4, ?_, ?_⟩
      · rw [hs]; exact h1
      · intro q
        rw [h5]
        refine and_congr_right fun _ => ?_
        simp only [List.mem_cons]
        constructor
        · rintro hq (rfl | hq')
          · exact hs
          · exact hq hq'
        · exact fun hq hq' => hq (Or.inr hq')
      · intro u
        rw [h6]
        simp only [List.mem_cons, forall_eq_or_imp, hs, ne_eq, not_true_eq_false, IsEmpty.forall_iff, true_and]
    · obtain ⟨c, c', hc1, hu, ha, hv⟩ := updated h hc hf hl
      obtain ⟨rs, hrs, hsay⟩ := relations_say (frames_direct hf) hv p s.value hn [0, 1, 2, 3, 4, 5]
      obtain ⟨env', s', more, h1, h2, h3, h4, h5, h6⟩ := ih hnd.2 (setEnv env r c') { s with own := s.own.filter (· ≠ p) } ha hn
        (fun q hq => hr q (List.mem_cons_of_mem _ hq))
        (fun q hq => List.mem_filter.mpr ⟨hin q (List.mem_cons_of_mem _ hq), by
          have : q ≠ p := fun e => hnd.1 (e ▸ hq)
          simpa using this⟩)
      refine ⟨env', s', rs ++ more, ?_, h2, h3, h4, ?_, ?_⟩
      · simp only [hs, hc1, hu, hrs, Outcome.bind_ok, removeNode, if_pos (hin p List.mem_cons_self), h1]
      · intro q
        rw [h5]
        simp only [List.mem_filter, List.mem_cons, ne_eq, decide_not, Bool.not_eq_true', decide_eq_false_iff_not]
        constructor
        · rintro ⟨⟨hq, hne⟩, hps⟩
          exact ⟨hq, fun h => h.elim (fun e => absurd e hne) hps⟩
        · rintro ⟨hq, hps⟩
          refine ⟨⟨hq, fun e => ?_⟩, fun hq' => hps (Or.inr hq')⟩
          have := hps (Or.inl e)
          rw [e, hs] at this
          cases this
      · intro u
        simp only [List.mem_append, or_imp, forall_and]
        rw [h6]
        obtain ⟨t, ht⟩ := through_onto fs (frames_direct hf) (u p).t
        obtain ⟨o, ho⟩ := through_onto fs (frames_direct hf) (u p).r
        rw [hsay u ⟨t, o⟩ ht ho]
        simp only [List.mem_cons, forall_eq_or_imp]
        refine and_congr ?_ Iff.rfl
        have hall : (∀ i ∈ ([0, 1, 2, 3, 4, 5] : List (Fin 6)), ∀ v, s.value i = .number v → (⟨t, o⟩ : Move).comp i = v) ↔
            Obeys s.value ⟨t, o⟩ := by
          unfold Obeys
          constructor
          · intro hh i v hi
            exact hh i (by fin_cases i <;> simp) v hi
          · exact fun hh i _ v hi => hh i v hi
        simp only [List.mem_cons, forall_eq_or_imp, List.not_mem_nil, IsEmpty.forall_iff, implies_true, and_true] at hall
        have hseen : Seen env0 (node p) ⟨t, o⟩ (u p) := Or.inr ⟨r, c0, fs, hs, hc, hf, ht, ho⟩
        have huniq : ∀ l, Seen env0 (node p) l (u p) → (⟨t, o⟩ : Move) = l :=
          fun l hl' => (seen_unique (hr p List.mem_cons_self) (u p)).unique hseen hl'
        constructor
        · intro hh _ l hl'
          rw [← huniq l hl']
          exact hall.mp (by simpa using hh)
        · intro hh
          have := hall.mpr (hh (by rw [hs]; simp) _ hseen)
          simpa using this

theorem emulate_says {env0 : Env} {fuel : Nat} {node : Nat → Node} (env : Env) (s : Spc) (h : Alike env0 env)
    (hg : s.grouped = []) (hnd : s.own.Nodup) (hn : ∀ i, s.value i ≠ .reference) (hr : ∀ p ∈ s.own, Ready env0 fuel (node p)) :
    ∃ env' s' rs, emulate fuel node env s = .ok (env', s', rs) ∧ Alike env0 env' ∧ s'.grouped = [] ∧
      (∀ q ∈ s'.own, (node q).system = none) ∧
      ∀ u, Local env0 node s u ↔ (Global s' u ∧ ∀ r ∈ rs, Holds r u) := by
  obtain ⟨env', s', rs, h1, h2, h3, h4, h5, h6⟩ := loop_says s.own hnd env s h hn hr (fun _ hp => hp)
  refine ⟨env', s', rs, ?_, h2, by rw [h4, hg], fun q hq => ((h5 q).mp hq).2 ((h5 q).mp hq).1, ?_⟩
  · unfold emulate
    rw [hg, List.filter_nil, List.append_nil]
    exact h1
  · intro u
    rw [h6]
    unfold Local Global
    rw [h4, hg]
    simp only [List.not_mem_nil, or_false]
    constructor
    · intro hh
      refine ⟨fun p hp => ?_, fun p hp _ => hh p hp⟩
      rw [h3]
      exact hh p ((h5 p).mp hp).1 _ (Or.inl ⟨((h5 p).mp hp).2 ((h5 p).mp hp).1, rfl⟩)
    · rintro ⟨hg', hh⟩ p hp l hl
      by_cases hs : (node p).system = none
      · rcases hl with ⟨-, rfl⟩ | ⟨r, c, fs, hs', -⟩
        · have := hg' p ((h5 p).mpr ⟨hp, fun _ => hs⟩)
          rw [h3] at this
          exact this
        · rw [hs] at hs'; cases hs'
      · exact hh p hp hs l hl

/-! ## The properties -/

/-- **C129, in part.** In each constraint set, the constraints given in the systems of their nodes hold exactly when the constraints
left, read as global, and the relations hold; the constraints left have nodes without systems of their own. Nodes are given one by
one, values are numbers, systems are Cartesian, to any depth, or cylindrical in the global one with nodes off the axis. -/
theorem C129_same_partial (fuel : Nat) (node : Nat → Node) (ss : List (Item Spc)) (others : List (Item Relation)) (env : Env)
    (hg : ∀ s ∈ ss, s.body.grouped = []) (hnd : ∀ s ∈ ss, s.body.own.Nodup)
    (hn : ∀ s ∈ ss, ∀ i, s.body.value i ≠ .reference)
    (hr : ∀ s ∈ ss, ∀ p ∈ s.body.own, Ready env fuel (node p)) :
    ∃ left new, emulateModel fuel node ss others env = .ok (left, others ++ new) ∧
      (∀ s ∈ left, ∀ p ∈ s.body.own, (node p).system = none) ∧
      ∀ (k : Nat) (u : Nat → Move),
        (∀ s ∈ ss, k ∈ s.sets → Local env node s.body u) ↔
          (∀ s ∈ left, k ∈ s.sets → Global s.body u) ∧ ∀ r ∈ new, k ∈ r.sets → Holds r.body u := by
  suffices H : ∀ env1, Alike env env1 → ∃ left new, emulateAll fuel node ss env1 = .ok (left, new) ∧
      (∀ s ∈ left, ∀ p ∈ s.body.own, (node p).system = none) ∧
      ∀ (k : Nat) (u : Nat → Move), (∀ s ∈ ss, k ∈ s.sets → Local env node s.body u) ↔
          (∀ s ∈ left, k ∈ s.sets → Global s.body u) ∧ ∀ r ∈ new, k ∈ r.sets → Holds r.body u by
    obtain ⟨left, new, h1, h2⟩ := H env (alike_refl env)
    refine ⟨left, new, ?_, h2⟩
    simp only [emulateModel, h1, Outcome.bind_ok]
  induction ss with
  | nil => exact fun env1 _ => ⟨[], [], rfl, by simp, by simp⟩
  | cons s ss ih =>
    intro env1 ha
    obtain ⟨env', s', rs, h1, h2, h3, h4, h5⟩ := emulate_says env1 s.body ha (hg s List.mem_cons_self) (hnd s List.mem_cons_self)
      (hn s List.mem_cons_self) (hr s List.mem_cons_self)
    obtain ⟨left, new, g1, g2, g3⟩ := ih (fun x hx => hg x (List.mem_cons_of_mem _ hx))
      (fun x hx => hnd x (List.mem_cons_of_mem _ hx)) (fun x hx => hn x (List.mem_cons_of_mem _ hx))
      (fun x hx => hr x (List.mem_cons_of_mem _ hx)) env' h2
    refine ⟨if s'.isEmpty = true then left else ⟨s.sets, s'⟩ :: left, rs.map (fun r => (⟨s.sets, r⟩ : Item Relation)) ++ new,
      by simp only [emulateAll, h1, g1, Outcome.bind_ok], ?_, ?_⟩
    · intro x hx p hp
      split at hx
      · exact g2 x hx p hp
      · rcases List.mem_cons.mp hx with rfl | hx
        · exact h4 p hp
        · exact g2 x hx p hp
    · intro k u
      have hempty : s'.isEmpty = true → Global s' u := by
        intro he
        unfold Spc.isEmpty at he
        rw [Bool.and_eq_true, List.isEmpty_iff, List.isEmpty_iff] at he
        intro p hp
        rw [he.1, he.2] at hp
        simp at hp
      have hleft : (∀ x ∈ (if s'.isEmpty = true then left else ⟨s.sets, s'⟩ :: left), k ∈ x.sets → Global x.body u) ↔
          (k ∈ s.sets → Global s' u) ∧ ∀ x ∈ left, k ∈ x.sets → Global x.body u := by
        split
        · next he => exact ⟨fun h => ⟨fun _ => hempty he, h⟩, fun h => h.2⟩
        · simp only [List.mem_cons, forall_eq_or_imp]
      have hnew : (∀ r ∈ rs.map (fun r => (⟨s.sets, r⟩ : Item Relation)) ++ new, k ∈ r.sets → Holds r.body u) ↔
          (k ∈ s.sets → ∀ r ∈ rs, Holds r u) ∧ ∀ r ∈ new, k ∈ r.sets → Holds r.body u := by
        simp only [List.mem_append, List.mem_map, or_imp, forall_and, forall_exists_index, and_imp, forall_apply_eq_imp_iff₂]
        exact ⟨fun h => ⟨fun hk r hr => h.1 r hr hk, h.2⟩, fun h => ⟨fun r hr hk => h.1 hk r hr, h.2⟩⟩
      rw [hleft, hnew]
      simp only [List.mem_cons, forall_eq_or_imp]
      rw [g3 k u, h5 u]
      constructor
      · rintro ⟨a, b, c⟩
        exact ⟨⟨fun hk => (a hk).1, b⟩, fun hk => (a hk).2, c⟩
      · rintro ⟨⟨a, b⟩, c, d⟩
        exact ⟨fun hk => ⟨a hk, c hk⟩, b, d⟩

/-- **C129.** What a displacement is in the system of a node is determined. -/
theorem C129_seen (env : Env) (fuel : Nat) (n : Node) (h : Ready env fuel n) (m : Move) : ∃! l, Seen env n l m := seen_unique h m

/-! ## What is false -/

/-- **C129 is false** of nodes given by a group: erasing the node from the constraint is undefined behaviour, for every constraint
with numbers and a node with a system of its own. -/
theorem C129_group_false (fuel : Nat) (node : Nat → Node) (env : Env) (s : Spc) (p : Nat) (hs : s.own = []) (hg : s.grouped = [p])
    (hsys : (node p).system ≠ none) (hr : Ready env fuel (node p)) (hn : ∀ i, s.value i ≠ .reference) :
    emulate fuel node env s = .ub := by
  rcases hr with hr | ⟨r, c0, fs, h1, hc, hf, hl⟩
  · exact absurd hr hsys
  · obtain ⟨c, c', hc1, hu, ha, hv⟩ := updated (alike_refl env) hc hf hl
    obtain ⟨rs, hrs, -⟩ := relations_say (frames_direct hf) hv p s.value hn [0, 1, 2, 3, 4, 5]
    unfold emulate
    rw [hs, hg]
    simp only [List.nil_append, List.not_mem_nil, not_false_eq_true, decide_true, List.filter_cons_of_pos, List.filter_nil]
    simp only [loop, h1, hc1, hu, hrs, Outcome.bind_ok, removeNode, hs, List.not_mem_nil, if_false]
    rfl

/-- **C129 is false** of nodes with a spherical system: the translation ends with an error. -/
theorem C129_spherical_false (fuel : Nat) (node : Nat → Node) (env : Env) (s : Spc) (p r : Nat) (ps : List Nat) (c : CS)
    (hs : s.own = p :: ps) (hsys : (node p).system = some r) (hc : env r = some c) (hk : c.kind = .spherical) :
    emulate fuel node env s = .throw := by
  unfold emulate
  rw [hs]
  simp only [List.cons_append, loop, hsys, hc, updateLocalBase, hk]
  rfl

/-- **C129 is false** of nodes on the axis of a cylindrical system, other than its origin: the coefficients are not numbers, and
the relation never holds. -/
theorem C129_axis_false (fuel : Nat) (node : Nat → Node) (env : Env) (s : Spc) (p r : Nat) (c : CS) (a : Axes) (o : Vec)
    (hs : s.own = [p]) (hg : s.grouped = []) (hsys : (node p).system = some r) (hc : env r = some c) (hk : c.kind = .cylindrical)
    (ha : c.axes = some a) (ho : c.origin = some o) (hr : c.rcs = none)
    (hfar : 5 / 2 ^ 52 < |(sub (node p).place o).x| ∨ 5 / 2 ^ 52 < |(sub (node p).place o).y| ∨
      5 / 2 ^ 52 < |(sub (node p).place o).z|)
    (hon : cross a.ez (sub (node p).place o) = zero) (v : ℝ) (hv : ∀ i, s.value i = if i = 0 then .number v else .free) :
    ∃ env' s' rel, emulate (fuel + 1) node env s = .ok (env', s', [rel]) ∧ ∀ u, ¬ Holds rel u := by
  obtain ⟨c', hu, -⟩ := C43_axis_false c a o (node p).place hk ha ho hr hfar hon env zero
  have hsh := update_shape hu
  have hk' : c'.kind = .cylindrical := by rw [hsh]; exact hk
  have hr' : c'.rcs = none := by rw [hsh]; exact hr
  have hb' : c'.localBase = none := by
    unfold updateLocalBase at hu
    simp only [hk, ho] at hu
    rw [if_neg (by
      rintro ⟨h1, h2, h3⟩
      rcases hfar with h | h | h
      · exact absurd h1 (not_le.mpr h)
      · exact absurd h2 (not_le.mpr h)
      · exact absurd h3 (not_le.mpr h))] at hu
    simp only [localAxes, ha, hon, normalized_zero, Option.bind_eq_bind, Option.bind_some, Option.bind_none] at hu
    cases hu
    rfl
  refine ⟨setEnv env r c', { s with own := [] }, ⟨p, none, some zero, v⟩, ?_, ?_⟩
  · unfold emulate
    rw [hs, hg]
    simp [loop, hsys, hc, hu, relations, hv, vectorToGlobal, hk', hr', hb', upTo, applyOpt, removeNode, hs, hg]
  · rintro u ⟨t, o, ht, -⟩
    cases ht

/-- **C129 is false** of values given by functions: the translation ends with an error. -/
theorem C129_reference_false (fuel : Nat) (node : Nat → Node) (env : Env) (s : Spc) (p : Nat) (ps : List Nat)
    (hs : s.own = p :: ps) (hsys : (node p).system ≠ none) (hr : Ready env fuel (node p)) (hv : s.value 0 = .reference) :
    emulate fuel node env s = .throw := by
  rcases hr with hr | ⟨r, c0, fs, h1, hc, hf, hl⟩
  · exact absurd hr hsys
  · obtain ⟨c, c', hc1, hu, ha, hvec⟩ := updated (alike_refl env) hc hf hl
    unfold emulate
    rw [hs]
    simp only [List.cons_append, loop, h1, hc1, hu, Outcome.bind_ok, relations, hv, hvec]
    rfl

/-- The system of the node of the next theorem: turned by a quarter about z. -/
def turnedEnv : Env := fun r => if r = 1 then some (sys .cartesian zero turned none) else none

/-- **C129 is false** of the relations of the model (MPC): they are left as they are, although their coefficients are for the
components in the systems of their nodes. A relation says that the first component of a node is 0 in its system; after, it says that
its first global component is 0. -/
theorem C129_mpc_false : ∃ (node : Nat → Node) (rel : Relation) (u : Nat → Move),
    emulateModel 1 node [] [⟨[1], rel⟩] turnedEnv = .ok ([], [⟨[1], rel⟩]) ∧ Ready turnedEnv 1 (node 1) ∧ rel.node = 1 ∧
      (∀ l, Seen turnedEnv (node 1) l (u 1) → Holds rel fun _ => l) ∧ ¬ Holds rel u := by
  have hf : Frames turnedEnv (sys .cartesian zero turned none) zero [⟨zero, turned⟩] :=
    .straight rfl (.global rfl rfl rfl) (by
      intro f hf
      simp only [List.mem_cons, List.not_mem_nil, or_false] at hf
      rw [hf]
      exact turned_direct)
  have hready : Ready turnedEnv 1 ⟨zero, some 1⟩ := Or.inr ⟨1, _, _, rfl, rfl, hf, Nat.le_refl _⟩
  refine ⟨fun _ => ⟨zero, some 1⟩, ⟨1, some ⟨1, 0, 0⟩, some zero, 0⟩, fun _ => ⟨⟨1, 0, 0⟩, zero⟩, rfl, hready, rfl, ?_, ?_⟩
  · intro l hl
    have hs : Seen turnedEnv ⟨zero, some 1⟩ ⟨⟨0, -1, 0⟩, zero⟩ ⟨⟨1, 0, 0⟩, zero⟩ := by
      refine Or.inr ⟨1, _, _, rfl, rfl, hf, ?_, ?_⟩ <;>
        ext <;> simp [throughVec, Frame.vec, turned, add, smul, zero]
    have := (seen_unique hready _).unique hl hs
    subst this
    exact ⟨_, _, rfl, rfl, by norm_num [dot, zero]⟩
  · rintro ⟨t, o, ht, ho, h⟩
    cases ht; cases ho
    norm_num [dot, zero] at h

/-! ## Cases -/

/-- A node in the turned system and a node in the global one, both held along their first component. -/
example : ∀ p ∈ [1, 2], Ready turnedEnv 1 ((fun p => if p = 1 then (⟨zero, some 1⟩ : Node) else ⟨zero, none⟩) p) := by
  intro p hp
  simp only [List.mem_cons, List.not_mem_nil, or_false] at hp
  rcases hp with rfl | rfl
  · refine Or.inr ⟨1, _, [⟨zero, turned⟩], rfl, rfl, .straight rfl (.global rfl rfl rfl) ?_, Nat.le_refl _⟩
    intro f hf
    simp only [List.mem_cons, List.not_mem_nil, or_false] at hf
    rw [hf]
    exact turned_direct
  · exact Or.inl rfl

/-- A node off the axis of a cylindrical system: its base. -/
example : Frames turnedEnv (sys .cylindrical zero std none) ⟨0, 2, 1⟩ [⟨zero, turned⟩] := by
  refine .round rfl rfl rfl rfl std_direct (Or.inr (Or.inl ?_)) ?_ turned_direct rfl ⟨-(1 / 2), 1 / 2, by norm_num, ?_⟩
  · norm_num [sub, zero]
  · intro h
    have := congrArg Vec.x h
    norm_num [cross, std, sub, zero] at this
  · ext <;> norm_num [turned, std, add, smul, sub, zero]

end LocalSpc
end Vega
