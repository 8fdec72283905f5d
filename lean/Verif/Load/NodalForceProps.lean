import Verif.Load.NodalForce
import Verif.Geom.SystemsProps

/-!
# Nodal forces in a coordinate system (C62)
-/
namespace Vega.NodalForceSpec
open Vec CS CsSpec

/-- A point further than the tolerance from the origin along one of the axes. -/
def Far (d : Vec) : Prop := 5 / 2 ^ 52 < |d.x| ∨ 5 / 2 ^ 52 < |d.y| ∨ 5 / 2 ^ 52 < |d.z|

/-- The base (r, θ, z) at the point `p` of a cylindrical system of origin `o` and axis `z`: direct,
its first vector in the direction from the axis to the point. -/
def CylindricalBase (o z p : Vec) (b : Axes) : Prop :=
  Direct b ∧ b.ez = z ∧ InHalfPlane z (sub p o) b.ex

/-- **C62** a force without coordinate system is the force given. -/
theorem C62_global (env : Env) (n : Nat) (nodes : List Nat) (position : Nat → Vec) (node : Nat) (v : Vec)
    (hm : node ∈ nodes) :
    forceInGlobal env n none nodes position node v = .ok (env, some v) := by
  simp only [forceInGlobal, if_pos hm, localToGlobal]

/-- **C62** a force in a Cartesian system, to any nesting depth, is turned as the axes of the system
are, wherever its node is; nothing else changes. -/
theorem C62_cartesian (env : Env) (r : Nat) (c : CS) (fs : List Frame) (he : env r = some c)
    (h : Resolves env c fs) (hk : c.kind = .cartesian) (n : Nat) (hn : fs.length ≤ n)
    (nodes : List Nat) (position : Nat → Vec) (node : Nat) (v : Vec) (hm : node ∈ nodes) :
    ∃ env', forceInGlobal env n (some r) nodes position node v = .ok (env', some (throughVec fs v)) ∧
      env' = env := by
  have hset : setEnv env r c = env := by
    funext s
    simp only [setEnv]
    split
    · rename_i hs; rw [hs, he]
    · rfl
  refine ⟨env, ?_, rfl⟩
  simp only [forceInGlobal, if_pos hm, localToGlobal, he, updateLocalBase, hk, Outcome.bind_ok, hset]
  rw [C44_vector env c fs h hk n hn v]
  rfl

/-- **C62** a force in a cylindrical system given in the global one is made of its components along
the radial, tangential and axial directions at its own node, whatever was computed before. -/
theorem C62_cylindrical_partial (env : Env) (r n : Nat) (c : CS) (a : Axes) (o : Vec)
    (he : env r = some c) (hk : c.kind = .cylindrical) (ha : c.axes = some a) (ho : c.origin = some o)
    (hr : c.rcs = none) (hd : Direct a) (nodes : List Nat) (position : Nat → Vec) (node : Nat) (v : Vec)
    (hm : node ∈ nodes) (hfar : Far (sub (position node) o))
    (hoff : cross a.ez (sub (position node) o) ≠ zero) :
    ∃ env' b, forceInGlobal env (n + 1) (some r) nodes position node v =
        .ok (env', some (add (smul v.x b.ex) (add (smul v.y b.ey) (smul v.z b.ez)))) ∧
      CylindricalBase o a.ez (position node) b := by
  obtain ⟨c', b, h1, h2, _, h4, h5, h6⟩ :=
    C43_cylindrical_base c a o (position node) hk ha ho hd hfar hoff
  have hc' : c'.kind = .cylindrical ∧ c'.rcs = none := by
    unfold updateLocalBase at h1
    simp only [hk, ho] at h1
    split at h1
    · cases h1; exact ⟨hk, hr⟩
    · cases h1; exact ⟨rfl, hr⟩
  refine ⟨setEnv env r c', b, ?_, h4, h5, h6⟩
  simp only [forceInGlobal, if_pos hm, localToGlobal, he, h1, Outcome.bind_ok, vectorToGlobal, hc'.1,
    upTo, hc'.2, applyOpt, h2, Option.bind_eq_bind, Option.bind_some]
  congr 3
  ext <;> simp only [Axes.apply, add, smul] <;> ring

/-- **C62** the base is unique: two bases at the same point are the same, so the force is the one
meant. -/
theorem C62_base_unique (o z p : Vec) (b b' : Axes) (h : CylindricalBase o z p b)
    (h' : CylindricalBase o z p b') : b = b' := by
  obtain ⟨hd, hz, s, t, ht, hx⟩ := h
  obtain ⟨hd', hz', s', t', ht', hx'⟩ := h'
  -- both are t times the part of p - o orthogonal to z
  have hzz : dot z z = 1 := by rw [← hz]; exact hd.zz
  have ho : dot z b.ex = 0 := by rw [← hz]; exact hd.zx
  have ho' : dot z b'.ex = 0 := by rw [← hz']; exact hd'.zx
  set d := sub p o with hdd
  have e1 : dot z b.ex = s * dot z z + t * dot z d := by rw [hx]; simp only [dot, add, smul]; ring
  have e2 : dot z b'.ex = s' * dot z z + t' * dot z d := by rw [hx']; simp only [dot, add, smul]; ring
  rw [ho, hzz] at e1
  rw [ho', hzz] at e2
  have k1 : smul t' b.ex = smul t b'.ex := by
    rw [hx, hx']
    have hs : s = -(t * dot z d) := by linarith
    have hs' : s' = -(t' * dot z d) := by linarith
    rw [hs, hs']
    ext <;> simp only [smul, add] <;> ring
  have k2 : t' * t' = t * t := by
    have e3 := congrArg (fun v => dot v v) k1
    have e4 : ∀ (q : ℝ) (w : Vec), dot (smul q w) (smul q w) = q * q * dot w w := by
      intro q w; simp only [dot, smul]; ring
    simp only [e4] at e3
    rwa [hd.xx, hd'.xx, mul_one, mul_one] at e3
  have k3 : t' = t := by nlinarith [mul_self_eq_mul_self_iff.mp k2]
  have kx : b.ex = b'.ex := by
    rw [k3] at k1
    have f1 := congrArg Vec.x k1
    have f2 := congrArg Vec.y k1
    have f3 := congrArg Vec.z k1
    simp only [smul] at f1 f2 f3
    ext
    · exact mul_left_cancel₀ ht.ne' f1
    · exact mul_left_cancel₀ ht.ne' f2
    · exact mul_left_cancel₀ ht.ne' f3
  have kz : b.ez = b'.ez := by rw [hz, hz']
  have ky : b.ey = b'.ey := by rw [← (direct_cross hd).2, ← (direct_cross hd').2, kx, kz]
  cases b; cases b'; simp only at kx ky kz; rw [kx, ky, kz]

/-- A cylindrical system along z, a node at (0, 2, 1). -/
example : Direct std ∧ Far (sub ⟨0, 2, 1⟩ zero) ∧ cross std.ez (sub ⟨0, 2, 1⟩ zero) ≠ zero := by
  refine ⟨std_direct, Or.inr (Or.inl ?_), ?_⟩
  · norm_num [sub, zero]
  · intro e
    have := congrArg Vec.x e
    norm_num [cross, sub, zero, std] at this

/-- **C62** a force on a node that is not loaded, in a system that does not exist or in a spherical
system is refused. -/
theorem C62_refused (env : Env) (n r : Nat) (nodes : List Nat) (position : Nat → Vec) (node : Nat) (v : Vec) :
    (node ∉ nodes → ∀ csref, forceInGlobal env n csref nodes position node v = .throw) ∧
    (env r = none → forceInGlobal env n (some r) nodes position node v = .throw) ∧
    (∀ c, env r = some c → c.kind = .spherical →
      forceInGlobal env n (some r) nodes position node v = .throw) := by
  refine ⟨fun h csref => by simp only [forceInGlobal, if_neg h], fun h => ?_, fun c h hk => ?_⟩
  · simp only [forceInGlobal, localToGlobal, h]
    split <;> rfl
  · simp only [forceInGlobal, localToGlobal, h, updateLocalBase, hk, Outcome.bind_throw]
    split <;> rfl

/-! ## What fails -/

/-- System 1 is ten units away along x, the cylindrical system 2 is given in it. -/
def shifted : Env
  | 1 => some (sys .cartesian ⟨10, 0, 0⟩ std none)
  | 2 => some (sys .cylindrical zero std (some 1))
  | _ => none

/-- Refutation for a cylindrical system given in another one: the global coordinates of the node are
compared with an origin given in the other system. The system 2 is along z, ten units away; the
node at (10, 5, 0) is straight above its axis, a radial force there is along y, but is given an x
component. -/
theorem C62_nested_false : ∃ (env : Env) (c p : CS), env 2 = some c ∧ c.kind = .cylindrical ∧
    c.rcs = some 1 ∧ env 1 = some p ∧ p.kind = .cartesian ∧
    -- the node is at (5, 90°, 0) in the system 2
    positionToGlobal env 2 c (some ⟨5, 90, 0⟩) = .ok (some ⟨10, 5, 0⟩) ∧
    ∀ env' w, forceInGlobal env 2 (some 2) [7] (fun _ => ⟨10, 5, 0⟩) 7 ⟨1, 0, 0⟩ = .ok (env', some w) →
      w.x ≠ 0 := by
  refine ⟨shifted,
    sys .cylindrical zero std (some 1), sys .cartesian ⟨10, 0, 0⟩ std none, rfl, rfl, rfl, rfl, rfl, ?_, ?_⟩
  · have e1 : shifted 1 = some (sys .cartesian ⟨10, 0, 0⟩ std none) := rfl
    simp only [positionToGlobal, vectorToGlobal, sys, upTo, e1, applyOpt, Option.bind_eq_bind,
      Option.bind_some, Option.map_some, addOpt, Outcome.bind_ok, fromCylindrical, rad_90,
      Real.cos_pi_div_two, Real.sin_pi_div_two]
    congr 2
    ext <;> simp [add, Axes.apply, std, zero]
  · intro env' w h
    have hoff : cross std.ez (sub ⟨10, 5, 0⟩ zero) ≠ zero := by
      intro e
      have := congrArg Vec.x e
      norm_num [cross, sub, zero, std] at this
    obtain ⟨c', b, h1, h2, _, h4, h5, s, t, ht, h6⟩ := C43_cylindrical_base
      (sys .cylindrical zero std (some 1)) std zero ⟨10, 5, 0⟩ rfl rfl rfl std_direct
      (Or.inl (by norm_num [sub, zero])) hoff
    have hc' : c'.kind = .cylindrical ∧ c'.rcs = some 1 := by
      have h1' := h1
      unfold updateLocalBase at h1'
      simp only [sys] at h1'
      split at h1'
      · cases h1'; exact ⟨rfl, rfl⟩
      · cases h1'; exact ⟨rfl, rfl⟩
    have e1 : shifted 2 = some (sys .cylindrical zero std (some 1)) := rfl
    simp only [forceInGlobal, List.mem_singleton, if_true, localToGlobal, e1, h1, Outcome.bind_ok,
      vectorToGlobal, hc'.1, upTo, hc'.2, applyOpt, h2, Option.bind_eq_bind, Option.bind_some] at h
    have e2 : setEnv shifted 2 c' 1 = some (sys .cartesian ⟨10, 0, 0⟩ std none) := rfl
    simp only [e2, sys, Outcome.bind_ok, Option.bind_some, Outcome.ok.injEq, Prod.mk.injEq,
      Option.some.injEq] at h
    have hw := congrArg Vec.x h.2
    have hx := congrArg Vec.x h6
    simp only [Axes.apply, std, add, smul, sub, zero] at hw hx
    norm_num at hw hx
    rw [← hw, hx]
    positivity

/-- Refutation at the origin of a cylindrical system: the force depends on the node asked for
before. -/
theorem C62_history_false : ∃ (env env' : Env) (c c' : CS) (w w' : Vec) (e e' : Env), env 1 = some c ∧
    env' 1 = some c' ∧ (∃ p, c.updateLocalBase p = .ok c') ∧
    forceInGlobal env 1 (some 1) [7] (fun _ => zero) 7 ⟨1, 0, 0⟩ = .ok (e, some w) ∧
    forceInGlobal env' 1 (some 1) [7] (fun _ => zero) 7 ⟨1, 0, 0⟩ = .ok (e', some w') ∧ w ≠ w' := by
  have hoff : cross std.ez (sub ⟨-1, 0, 0⟩ zero) ≠ zero := by
    intro e
    have := congrArg Vec.y e
    norm_num [cross, sub, zero, std] at this
  obtain ⟨c', b, h1, h2, _, h4, h5, s, t, ht, h6⟩ := C43_cylindrical_base
    (sys .cylindrical zero std none) std zero ⟨-1, 0, 0⟩ rfl rfl rfl std_direct
    (Or.inl (by norm_num [sub, zero])) hoff
  have hc' : c' = { sys .cylindrical zero std none with localBase := some b } := by
    have h1' := h1
    unfold updateLocalBase at h1'
    simp only [sys] at h1'
    split at h1'
    · cases h1'
      simp only at h2
      rw [Option.some.injEq] at h2
      rw [← h2]; rfl
    · cases h1'
      simp only at h2
      rw [h2]; rfl
  refine ⟨fun r => if r = 1 then some (sys .cylindrical zero std none) else none,
    fun r => if r = 1 then some c' else none, _, c', std.apply ⟨1, 0, 0⟩, b.apply ⟨1, 0, 0⟩,
    setEnv (fun r => if r = 1 then some (sys .cylindrical zero std none) else none) 1
      (sys .cylindrical zero std none), setEnv (fun r => if r = 1 then some c' else none) 1 c', rfl, rfl,
    ⟨_, h1⟩, ?_, ?_, ?_⟩
  · have hu : (sys .cylindrical zero std none).updateLocalBase zero = .ok (sys .cylindrical zero std none) := by
      norm_num [updateLocalBase, sys, sub, zero]
    simp only [forceInGlobal, List.mem_singleton, if_true, localToGlobal, hu, Outcome.bind_ok]
    simp only [vectorToGlobal, sys, upTo, applyOpt, Option.bind_eq_bind, Option.bind_some, Outcome.bind_ok]
  · have hu : c'.updateLocalBase zero = .ok c' := by
      rw [hc']
      norm_num [updateLocalBase, sys, sub, zero]
    simp only [forceInGlobal, List.mem_singleton, if_true, localToGlobal, hu, Outcome.bind_ok]
    rw [hc']
    simp only [vectorToGlobal, sys, upTo, applyOpt, Option.bind_eq_bind, Option.bind_some, Outcome.bind_ok]
  · intro e
    have hx := congrArg Vec.x h6
    have hw := congrArg Vec.x e
    simp only [Axes.apply, std, add, smul, sub, zero] at hw hx
    norm_num at hw hx
    linarith

end Vega.NodalForceSpec
