import Mathlib.Tactic.FieldSimp
import Mathlib.Tactic.Ring
import Mathlib.Tactic.Positivity
import Verif.Aster.TsaiWu
import Verif.Aster.CommandLemmas
import Verif.Aster.MaterialsProps

/-!
# The failure indices of the plies of composites in Code_Aster (C150)
-/
namespace Vega

namespace TsaiSpec
open Tsai Materials

/-- The field `FT` of a card PCOMP, as it is generally known. -/
inductive Means : String → Theory → Prop where
  | blank : Means "" .none
  | hill : Means "HILL" .hill
  | hoff : Means "HOFF" .hoffman
  | tsai : Means "TSAI" .tsaiWu
  | stress : Means "STRESS" .maximumStress
  | strain : Means "STRAIN" .maximumStrain
  | strn : Means "STRN" .maximumStrain
  | larc : Means "LARC02" .nasaLarc
  | puck : Means "PUCK" .puckPcp
  | mct : Means "MCT" .multicontinuum

/-- Plane stresses in the axes of the element. -/
structure Stress where
  xx : ℝ
  yy : ℝ
  xy : ℝ

/-- The component of the stresses for two directions: `u · σ v`. -/
def Stress.along (σ : Stress) (u v : ℝ × ℝ) : ℝ :=
  σ.xx * u.1 * v.1 + σ.xy * (u.1 * v.2 + u.2 * v.1) + σ.yy * u.2 * v.2

/-- The axes of a ply turned by an angle in degrees: along its fibres, and across them. -/
noncomputable def fibre (θ : ℝ) : ℝ × ℝ := (Real.cos (θ * Real.pi / 180), Real.sin (θ * Real.pi / 180))
noncomputable def across (θ : ℝ) : ℝ × ℝ := (-Real.sin (θ * Real.pi / 180), Real.cos (θ * Real.pi / 180))

/-- The strengths in tension and compression along the fibres and across them, and in shear. -/
structure Strengths where
  xt : ℝ
  xc : ℝ
  yt : ℝ
  yc : ℝ
  s : ℝ

/-- The criterion of Tsai and Wu without the coefficient `F12` of interaction, as it is generally known: the ply fails when
the index reaches 1. -/
noncomputable def Strengths.index (f : Strengths) (s1 s2 s12 : ℝ) : ℝ :=
  (1 / f.xt - 1 / f.xc) * s1 + (1 / f.yt - 1 / f.yc) * s2 + s1 ^ 2 / (f.xt * f.xc) + s2 ^ 2 / (f.yt * f.yc) +
    s12 ^ 2 / f.s ^ 2

/-- The index of a ply of this angle under stresses given in the axes of the element. -/
noncomputable def Strengths.ofPly (f : Strengths) (θ : ℝ) (σ : Stress) : ℝ :=
  f.index (σ.along (fibre θ) (fibre θ)) (σ.along (across θ) (across θ)) (σ.along (fibre θ) (across θ))

def strengthsOf (o : Materials.Ortho) : Strengths := ⟨o.xt, o.xc, o.yt, o.yc, o.slt⟩

/-- The material of a ply has this orthotropic nature. -/
def PlyIs (ms : List Material) (p : Ply) (o : Materials.Ortho) : Prop :=
  ∃ m, ms.find? (·.number = p.mat) = some m ∧ m.findNature .orthotropic = some (.orthotropic o)

/-! ## What the commands do, as Code_Aster is generally known, at one point of the cells -/

/-- The value of a formula; a parameter without a value makes it fail. -/
noncomputable def value (env : Var → Option ℝ) : Expr → Option ℝ
  | .num x => some x
  | .var v => env v
  | .neg a => (value env a).map (- ·)
  | .add a b => (value env a).bind fun x => (value env b).map (x + ·)
  | .sub a b => (value env a).bind fun x => (value env b).map (x - ·)
  | .mul a b => (value env a).bind fun x => (value env b).map (x * ·)
  | .div a b => (value env a).bind fun x => (value env b).map (x / ·)
  | .square a => (value env a).map (· ^ 2)
  | .cos a => (value env a).map Real.cos
  | .sin a => (value env a).map Real.sin

/-- What a name stands for: a field on the cells of a composite (stresses, or what `CHAM_UTIL` computes), or a formula. -/
inductive Concept where
  | field (cells : Nat) (stresses : Bool) (components : Var → Option ℝ)
  | formula (value : Expr) (params : List Var)

abbrev Store := Name → Option Concept

def Store.set (s : Store) (n : Name) (c : Concept) : Store := fun m => if m = n then some c else s m

/-- The components of stresses. -/
def Stress.components (σ : Stress) : Var → Option ℝ
  | .SIXX => some σ.xx
  | .SIYY => some σ.yy
  | .SIXY => some σ.xy
  | _ => none

/-- The components `X1`, `X2`, … that `CHAM_UTIL` computes with formulas. -/
def computed (xs : List ℝ) : Var → Option ℝ
  | .X1 => xs[0]?
  | .X2 => xs[1]?
  | .X3 => xs[2]?
  | _ => none

/-- The value of the formula of a name, with its parameters. -/
noncomputable def apply (s : Store) (env : Var → Option ℝ) (n : Name) : Option ℝ :=
  match s n with
  | some (.formula e ps) => value (fun v => if v ∈ ps then env v else none) e
  | _ => none

/-- What is printed: a name, the cells and the components. -/
abbrev Printed := Name × Nat × (Var → Option ℝ)

/-- The commands one after the other; `σ` gives the stresses in the middle of a layer of a composite, in the axes of the
element. A name given again stands for the new concept. -/
noncomputable def run (σ : Nat → Nat → Stress) : Store → List Cmd → Option (List Printed)
  | _, [] => some []
  | s, .extract n cells layer :: cs => run σ (s.set n (.field cells true (σ cells layer).components)) cs
  | s, .formula n e ps :: cs => run σ (s.set n (.formula e ps)) cs
  | s, .compute n src cells stresses fs :: cs =>
    match s src with
    | some (.field cells' stresses' env) =>
      if cells = cells' ∧ stresses = stresses' then
        match fs.mapM (apply s env) with
        | some xs => run σ (s.set n (.field cells false (computed xs))) cs
        | none => none
      else none
    | _ => none
  | s, .print n :: cs =>
    match s n with
    | some (.field cells false env) => (run σ s cs).map ((n, cells, env) :: ·)
    | _ => none

/-- The names that commands give. -/
def made : List Cmd → List Name
  | [] => []
  | .extract n _ _ :: cs => n :: made cs
  | .formula n _ _ :: cs => n :: made cs
  | .compute n _ _ _ _ :: cs => n :: made cs
  | .print _ :: cs => made cs

/-- What is to be printed for a ply: the stresses in its axes, and its index. -/
noncomputable def ofPly (σ : Nat → Nat → Stress) (analysis k l : Nat) (p : Ply) (o : Materials.Ortho) : List Printed :=
  [(.local analysis k l, k, computed [(σ k l).along (fibre p.orientation) (fibre p.orientation),
      (σ k l).along (across p.orientation) (across p.orientation),
      (σ k l).along (fibre p.orientation) (across p.orientation)]),
   (.index analysis k l, k, computed [(strengthsOf o).ofPly p.orientation (σ k l)])]

end TsaiSpec

namespace Tsai
open TsaiSpec Materials Med Bars

/-! ## Formulas -/

theorem value_xx (σ : Stress) (θ : Dbl) :
    value (fun v => if v ∈ [Var.SIXX, .SIYY, .SIXY] then σ.components v else none) (exprXX θ) =
      some (σ.along (fibre θ) (fibre θ)) := by
  simp [exprXX, minus, value, Stress.components, Stress.along, fibre, Real.cos_neg, Real.sin_neg]
  ring

theorem value_yy (σ : Stress) (θ : Dbl) :
    value (fun v => if v ∈ [Var.SIXX, .SIYY, .SIXY] then σ.components v else none) (exprYY θ) =
      some (σ.along (across θ) (across θ)) := by
  simp [exprYY, minus, value, Stress.components, Stress.along, across, Real.cos_neg, Real.sin_neg]
  ring

theorem value_xy (σ : Stress) (θ : Dbl) :
    value (fun v => if v ∈ [Var.SIXX, .SIYY, .SIXY] then σ.components v else none) (exprXY θ) =
      some (σ.along (fibre θ) (across θ)) := by
  simp [exprXY, minus, value, Stress.components, Stress.along, fibre, across, Real.cos_neg, Real.sin_neg]
  ring

theorem value_tsai (o : Materials.Ortho) (a b c : ℝ) :
    value (fun v => if v ∈ [Var.X1, .X2, .X3] then computed [a, b, c] v else none) (exprTsai o) =
      some ((strengthsOf o).index a b c) := by
  simp [exprTsai, linear, lit, value, computed, Strengths.index, strengthsOf, div_pow]
  ring

/-! ## A layer -/

theorem set_same (s : Store) (n : Name) (c : Concept) : s.set n c n = some c := by simp [Store.set]

theorem set_other {s : Store} {n m : Name} {c : Concept} (h : m ≠ n) : s.set n c m = s m := by simp [Store.set, h]

/-- The names after the commands of a layer. -/
noncomputable def after (σ : Nat → Nat → Stress) (a k l : Nat) (p : Ply) (o : Materials.Ortho) (s : Store) : Store :=
  ((((((s.set (.stress k l) (.field k true (σ k l).components)).set (.locxx l)
    (.formula (exprXX p.orientation) [.SIXX, .SIYY, .SIXY])).set (.locyy l)
    (.formula (exprYY p.orientation) [.SIXX, .SIYY, .SIXY])).set (.locxy l)
    (.formula (exprXY p.orientation) [.SIXX, .SIYY, .SIXY])).set (.local a k l)
    (.field k false (computed [(σ k l).along (fibre p.orientation) (fibre p.orientation),
      (σ k l).along (across p.orientation) (across p.orientation),
      (σ k l).along (fibre p.orientation) (across p.orientation)]))).set (.tsai l)
    (.formula (exprTsai o) [.X1, .X2, .X3])).set (.index a k l)
    (.field k false (computed [(strengthsOf o).ofPly p.orientation (σ k l)]))

theorem run_layer (σ : Nat → Nat → Stress) (a k l : Nat) (p : Ply) (o : Materials.Ortho) (s : Store) :
    ∀ rest, TsaiSpec.run σ s (layerCmds a k l p.orientation o ++ rest) =
      (TsaiSpec.run σ (after σ a k l p o s) rest).map (ofPly σ a k l p o ++ ·) := by
  intro rest
  simp only [layerCmds, List.cons_append, List.nil_append, TsaiSpec.run, apply, List.mapM_cons, List.mapM_nil, Store.set,
    reduceCtorEq, if_true, if_false, and_self, value_xx, value_yy, value_xy, value_tsai, Option.pure_def,
    Option.bind_eq_bind, Option.bind_some, Option.map_map]
  rfl

theorem made_append (x y : List Cmd) : made (x ++ y) = made x ++ made y := by
  induction x with
  | nil => rfl
  | cons c cs ih => cases c <;> simp [made, ih]

theorem made_layer (a k l : Nat) (θ : Dbl) (o : Materials.Ortho) : made (layerCmds a k l θ o) = layerDestroyed a k l := rfl

/-! ## The layers of a composite, the composites of the model -/

theorem materialOf_ok {ms : List Material} {p : Ply} {m : Material} :
    materialOf ms p = .ok m ↔ ms.find? (·.number = p.mat) = some m := by
  unfold materialOf
  cases h : ms.find? (·.number = p.mat) <;> simp

theorem orthoOf_some {m : Material} {o : Materials.Ortho} :
    orthoOf m = some o ↔ m.findNature .orthotropic = some (.orthotropic o) := by
  unfold orthoOf
  cases h : m.findNature .orthotropic with
  | none => simp
  | some n => cases n <;> simp

/-- A ply that has an orthotropic nature. -/
theorem writeLayers_tsai {b : Bool} {ms : List Material} {a k l : Nat} {p : Ply} {ps : List Ply} {o : Materials.Ortho}
    (ho : PlyIs ms p o) : writeLayers b ms .tsaiWu a k l (p :: ps) =
      (do let (cmds, names) ← writeLayers b ms .tsaiWu a k (l + 1) ps
          .ok (layerCmds a k l p.orientation o ++ cmds, layerDestroyed a k l ++ names)) := by
  obtain ⟨m, h1, h2⟩ := ho
  have e : materialOf ms p = .ok m := materialOf_ok.mpr h1
  have e' : orthoOf m = some o := orthoOf_some.mpr h2
  simp only [writeLayers, e, e', Outcome.bind_ok]

theorem plyIs_unique {ms : List Material} {p : Ply} {o o' : Materials.Ortho} (h : PlyIs ms p o) (h' : PlyIs ms p o') :
    o = o' := by
  obtain ⟨m, h1, h2⟩ := h
  obtain ⟨m', h3, h4⟩ := h'
  rw [h1] at h3; cases h3
  rw [h2] at h4; cases h4; rfl

/-- What the layers of one composite print. -/
theorem layers_run {b : Bool} {ms : List Material} {a k : Nat} (σ : Nat → Nat → Stress) :
    ∀ (ps : List Ply) (l : Nat) (cmds : List Cmd) (names : List Name),
      writeLayers b ms .tsaiWu a k l ps = .ok (cmds, names) → (∀ p ∈ ps, ∃ o, PlyIs ms p o) → ∀ s : Store,
      ∃ (s' : Store) (out : List Printed), (∀ rest, TsaiSpec.run σ s (cmds ++ rest) = (TsaiSpec.run σ s' rest).map (out ++ ·)) ∧
        ∀ x, x ∈ out ↔ ∃ i p o, ps[i]? = some p ∧ PlyIs ms p o ∧ x ∈ ofPly σ a k (l + i) p o := by
  intro ps
  induction ps with
  | nil =>
    intro l cmds names h _ s
    simp only [writeLayers, Outcome.ok.injEq, Prod.mk.injEq] at h
    obtain ⟨rfl, rfl⟩ := h
    exact ⟨s, [], fun rest => by rw [List.nil_append]; cases TsaiSpec.run σ s rest <;> rfl, by simp⟩
  | cons p ps ih =>
    intro l cmds names h ho s
    obtain ⟨o, hp⟩ := ho p (by simp)
    rw [writeLayers_tsai hp] at h
    obtain ⟨⟨c2, n2⟩, h2, h⟩ := bind_ok_iff.mp h
    simp only [Outcome.ok.injEq, Prod.mk.injEq] at h
    obtain ⟨rfl, rfl⟩ := h
    obtain ⟨s', out, hr, hm⟩ := ih (l + 1) c2 n2 h2 (fun q hq => ho q (by simp [hq])) (after σ a k l p o s)
    refine ⟨s', ofPly σ a k l p o ++ out, fun rest => ?_, fun x => ?_⟩
    · rw [List.append_assoc, run_layer, hr, Option.map_map]
      congr 1
      try (funext y; exact (List.append_assoc ..).symm)
    · rw [List.mem_append, hm]
      constructor
      · rintro (hx | ⟨i, q, o', h1, h2, h3⟩)
        · exact ⟨0, p, o, by simp, hp, hx⟩
        · exact ⟨i + 1, q, o', by simpa using h1, h2, by rwa [show l + (i + 1) = l + 1 + i by omega]⟩
      · rintro ⟨i, q, o', h1, h2, h3⟩
        cases i with
        | zero =>
          simp only [List.getElem?_cons_zero, Option.some.injEq] at h1
          subst h1
          rw [plyIs_unique hp h2]
          exact Or.inl h3
        | succ i =>
          exact Or.inr ⟨i, q, o', by simpa using h1, h2, by rwa [show l + (i + 1) = l + 1 + i by omega] at h3⟩

/-- Without the theory of Tsai and Wu nothing is written. -/
theorem layers_other {b : Bool} {ms : List Material} {t : Theory} {a k : Nat} (ht : t ≠ .tsaiWu) :
    ∀ (ps : List Ply) (l : Nat) (cmds : List Cmd) (names : List Name),
      writeLayers b ms t a k l ps = .ok (cmds, names) → cmds = [] ∧ names = [] := by
  intro ps
  induction ps with
  | nil =>
    intro l cmds names h
    simp only [writeLayers, Outcome.ok.injEq, Prod.mk.injEq] at h
    exact ⟨h.1.symm, h.2.symm⟩
  | cons p ps ih =>
    intro l cmds names h
    simp only [writeLayers] at h
    obtain ⟨m, _, h⟩ := bind_ok_iff.mp h
    cases ho : orthoOf m with
    | none => simp only [ho] at h; exact ih l cmds names h
    | some o =>
      simp only [ho] at h
      cases t <;> simp only [ne_eq, not_true_eq_false] at ht h
      case none => exact ih l cmds names h
      all_goals
        cases b
        · exact ih l cmds names h
        · cases h

/-- The names given are those to be destroyed. -/
theorem layers_made {b : Bool} {ms : List Material} {t : Theory} {a k : Nat} :
    ∀ (ps : List Ply) (l : Nat) (cmds : List Cmd) (names : List Name),
      writeLayers b ms t a k l ps = .ok (cmds, names) →
      made cmds = names ∧ ∃ n, names = (List.range' l n).flatMap (layerDestroyed a k) := by
  intro ps
  by_cases ht : t = .tsaiWu
  · subst ht
    induction ps with
    | nil =>
      intro l cmds names h
      simp only [writeLayers, Outcome.ok.injEq, Prod.mk.injEq] at h
      obtain ⟨rfl, rfl⟩ := h
      exact ⟨rfl, 0, rfl⟩
    | cons p ps ih =>
      intro l cmds names h
      simp only [writeLayers] at h
      obtain ⟨m, _, h⟩ := bind_ok_iff.mp h
      cases ho : orthoOf m with
      | none => simp only [ho] at h; exact ih l cmds names h
      | some o =>
        simp only [ho] at h
        obtain ⟨⟨c2, n2⟩, h2, h⟩ := bind_ok_iff.mp h
        simp only [Outcome.ok.injEq, Prod.mk.injEq] at h
        obtain ⟨rfl, rfl⟩ := h
        obtain ⟨e, n, hn⟩ := ih (l + 1) c2 n2 h2
        refine ⟨by rw [made_append, made_layer, e], n + 1, ?_⟩
        rw [hn, List.range'_succ, List.flatMap_cons]
  · intro l cmds names h
    obtain ⟨rfl, rfl⟩ := layers_other ht ps l cmds names h
    exact ⟨rfl, 0, rfl⟩

theorem full_layers {c : Composite} {full : List Ply} (h : c.getFullLayers = .ok full) : ∀ p ∈ full, p ∈ c.layers := by
  unfold Composite.getFullLayers at h
  cases ho : c.option <;> simp only [ho] at h <;> cases h
  · intro p hp; simpa using hp
  · exact fun p hp => hp

theorem writeFrom_cons {b : Bool} {ms : List Material} {a k : Nat} {c : Panel} {cs : List Panel} {cmds : List Cmd}
    {names : List Name} (h : writeFrom b ms a k (c :: cs) = .ok (cmds, names)) :
    ∃ full c1 n1 c2 n2, c.plies.getFullLayers = .ok full ∧ writeLayers b ms c.theory a k 1 full = .ok (c1, n1) ∧
      writeFrom b ms a (k + 1) cs = .ok (c2, n2) ∧ cmds = c1 ++ c2 ∧ names = n1 ++ n2 := by
  simp only [writeFrom] at h
  obtain ⟨full, h1, h⟩ := bind_ok_iff.mp h
  obtain ⟨⟨c1, n1⟩, h2, h⟩ := bind_ok_iff.mp h
  obtain ⟨⟨c2, n2⟩, h3, h⟩ := bind_ok_iff.mp h
  simp only [Outcome.ok.injEq, Prod.mk.injEq] at h
  exact ⟨full, c1, n1, c2, n2, h1, h2, h3, h.1.symm, h.2.symm⟩

theorem from_run {b : Bool} {ms : List Material} {a : Nat} (σ : Nat → Nat → Stress) :
    ∀ (cs : List Panel) (k : Nat) (cmds : List Cmd) (names : List Name),
      writeFrom b ms a k cs = .ok (cmds, names) →
      (∀ c ∈ cs, c.theory = .tsaiWu → ∀ p ∈ c.plies.layers, ∃ o, PlyIs ms p o) → ∀ s : Store,
      ∃ out, TsaiSpec.run σ s cmds = some out ∧ ∀ x, x ∈ out ↔ ∃ j c full i p o, cs[j]? = some c ∧ c.theory = .tsaiWu ∧
        c.plies.getFullLayers = .ok full ∧ full[i]? = some p ∧ PlyIs ms p o ∧ x ∈ ofPly σ a (k + j) (i + 1) p o := by
  intro cs
  induction cs with
  | nil =>
    intro k cmds names h _ s
    simp only [writeFrom, Outcome.ok.injEq, Prod.mk.injEq] at h
    obtain ⟨rfl, rfl⟩ := h
    exact ⟨[], rfl, by simp⟩
  | cons c cs ih =>
    intro k cmds names h ho s
    obtain ⟨full, c1, n1, c2, n2, h1, h2, h3, rfl, rfl⟩ := writeFrom_cons h
    have hind := ih (k + 1) c2 n2 h3 (fun d hd => ho d (by simp [hd]))
    by_cases ht : c.theory = .tsaiWu
    · rw [ht] at h2
      obtain ⟨s', out1, hr, hm⟩ := layers_run σ full 1 c1 n1 h2
        (fun p hp => ho c (by simp) ht p (full_layers h1 p hp)) s
      obtain ⟨out2, hr2, hm2⟩ := hind s'
      refine ⟨out1 ++ out2, by rw [hr, hr2]; rfl, fun x => ?_⟩
      rw [List.mem_append, hm, hm2]
      constructor
      · rintro (⟨i, p, o, g1, g2, g3⟩ | ⟨j, d, f, i, p, o, g1, g2, g3, g4, g5, g6⟩)
        · exact ⟨0, c, full, i, p, o, by simp, ht, h1, g1, g2, by rwa [show 1 + i = i + 1 by omega] at g3⟩
        · exact ⟨j + 1, d, f, i, p, o, by simpa using g1, g2, g3, g4, g5,
            by rwa [show k + (j + 1) = k + 1 + j by omega]⟩
      · rintro ⟨j, d, f, i, p, o, g1, g2, g3, g4, g5, g6⟩
        cases j with
        | zero =>
          simp only [List.getElem?_cons_zero, Option.some.injEq] at g1
          subst g1
          rw [h1] at g3; cases g3
          exact Or.inl ⟨i, p, o, g4, g5, by rwa [show 1 + i = i + 1 by omega]⟩
        | succ j =>
          exact Or.inr ⟨j, d, f, i, p, o, by simpa using g1, g2, g3, g4, g5,
            by rwa [show k + (j + 1) = k + 1 + j by omega] at g6⟩
    · obtain ⟨rfl, rfl⟩ := layers_other ht full 1 c1 n1 h2
      obtain ⟨out2, hr2, hm2⟩ := hind s
      refine ⟨out2, by simpa using hr2, fun x => ?_⟩
      rw [hm2]
      constructor
      · rintro ⟨j, d, f, i, p, o, g1, g2, g3, g4, g5, g6⟩
        exact ⟨j + 1, d, f, i, p, o, by simpa using g1, g2, g3, g4, g5,
          by rwa [show k + (j + 1) = k + 1 + j by omega]⟩
      · rintro ⟨j, d, f, i, p, o, g1, g2, g3, g4, g5, g6⟩
        cases j with
        | zero =>
          simp only [List.getElem?_cons_zero, Option.some.injEq] at g1
          subst g1
          exact absurd g2 ht
        | succ j =>
          exact ⟨j, d, f, i, p, o, by simpa using g1, g2, g3, g4, g5,
            by rwa [show k + (j + 1) = k + 1 + j by omega] at g6⟩

/-! ## Names -/

theorem from_made {b : Bool} {ms : List Material} {a : Nat} :
    ∀ (cs : List Panel) (k : Nat) (cmds : List Cmd) (names : List Name),
      writeFrom b ms a k cs = .ok (cmds, names) → made cmds = names := by
  intro cs
  induction cs with
  | nil =>
    intro k cmds names h
    simp only [writeFrom, Outcome.ok.injEq, Prod.mk.injEq] at h
    obtain ⟨rfl, rfl⟩ := h
    rfl
  | cons c cs ih =>
    intro k cmds names h
    obtain ⟨full, c1, n1, c2, n2, h1, h2, h3, rfl, rfl⟩ := writeFrom_cons h
    rw [made_append, (layers_made full 1 c1 n1 h2).1, ih (k + 1) c2 n2 h3]

theorem layer_of_name {a k l l' : Nat} {x : Name} (h : x ∈ layerDestroyed a k l) (h' : x ∈ layerDestroyed a k l') :
    l = l' := by
  simp only [layerDestroyed, List.mem_cons, List.not_mem_nil, or_false] at h h'
  rcases h with rfl | rfl | rfl | rfl | rfl | rfl | rfl <;> simpa using h'

theorem destroyed_nodup (a k n : Nat) : ∀ l, ((List.range' l n).flatMap (layerDestroyed a k)).Nodup := by
  intro l
  rw [List.nodup_flatMap]
  refine ⟨fun x _ => by simp [layerDestroyed], ?_⟩
  refine (List.nodup_range' (s := l) (n := n)).imp ?_
  intro x y hxy z hz hz'
  exact hxy (layer_of_name hz hz')

theorem from_none {b : Bool} {ms : List Material} {a : Nat} :
    ∀ (cs : List Panel) (k : Nat) (cmds : List Cmd) (names : List Name),
      writeFrom b ms a k cs = .ok (cmds, names) → (∀ c ∈ cs, c.theory ≠ .tsaiWu) → names = [] := by
  intro cs
  induction cs with
  | nil =>
    intro k cmds names h _
    simp only [writeFrom, Outcome.ok.injEq, Prod.mk.injEq] at h
    exact h.2.symm
  | cons c cs ih =>
    intro k cmds names h hn
    obtain ⟨full, c1, n1, c2, n2, h1, h2, h3, rfl, rfl⟩ := writeFrom_cons h
    rw [(layers_other (hn c (by simp)) full 1 c1 n1 h2).2, ih (k + 1) c2 n2 h3 fun d hd => hn d (by simp [hd])]
    rfl

theorem from_nodup {b : Bool} {ms : List Material} {a : Nat} :
    ∀ (cs : List Panel) (k : Nat) (cmds : List Cmd) (names : List Name),
      writeFrom b ms a k cs = .ok (cmds, names) → (cs.filter fun c => c.theory = .tsaiWu).length ≤ 1 → names.Nodup := by
  intro cs
  induction cs with
  | nil =>
    intro k cmds names h _
    simp only [writeFrom, Outcome.ok.injEq, Prod.mk.injEq] at h
    rw [← h.2]; exact List.nodup_nil
  | cons c cs ih =>
    intro k cmds names h hn
    obtain ⟨full, c1, n1, c2, n2, h1, h2, h3, rfl, rfl⟩ := writeFrom_cons h
    by_cases ht : c.theory = .tsaiWu
    · rw [List.filter_cons_of_pos (by simpa using ht)] at hn
      have h0 : cs.filter (fun c => c.theory = .tsaiWu) = [] := List.length_eq_zero_iff.mp (by simpa using hn)
      rw [from_none cs (k + 1) c2 n2 h3 (fun d hd => by simpa using List.filter_eq_nil_iff.mp h0 d hd), List.append_nil]
      obtain ⟨_, n, e⟩ := layers_made full 1 c1 n1 h2
      rw [e]
      exact destroyed_nodup a k n 1
    · rw [List.filter_cons_of_neg (by simpa using ht)] at hn
      rw [(layers_other ht full 1 c1 n1 h2).2, List.nil_append]
      exact ih (k + 1) c2 n2 h3 hn

theorem layers_first {b : Bool} {ms : List Material} {a k : Nat} :
    ∀ (ps : List Ply) (l : Nat) (cmds : List Cmd) (names : List Name),
      writeLayers b ms .tsaiWu a k l ps = .ok (cmds, names) → (∃ p ∈ ps, ∃ o, PlyIs ms p o) → Name.locxx l ∈ names := by
  intro ps
  induction ps with
  | nil => rintro l cmds names h ⟨p, hp, _⟩; simp at hp
  | cons p ps ih =>
    rintro l cmds names h ⟨q, hq, o, ho⟩
    simp only [writeLayers] at h
    obtain ⟨m, hm, h⟩ := bind_ok_iff.mp h
    cases he : orthoOf m with
    | none =>
      simp only [he] at h
      refine ih l cmds names h ⟨q, ?_, o, ho⟩
      rcases List.mem_cons.mp hq with rfl | hq
      · obtain ⟨m', g1, g2⟩ := ho
        rw [materialOf_ok.mp hm] at g1; cases g1
        rw [orthoOf_some.mpr g2] at he; cases he
      · exact hq
    | some o' =>
      simp only [he] at h
      obtain ⟨⟨c2, n2⟩, h2, h⟩ := bind_ok_iff.mp h
      simp only [Outcome.ok.injEq, Prod.mk.injEq] at h
      rw [← h.2]
      simp [layerDestroyed]

theorem full_of_layers {c : Composite} {full : List Ply} (h : c.getFullLayers = .ok full) : ∀ p ∈ c.layers, p ∈ full := by
  unfold Composite.getFullLayers at h
  cases ho : c.option <;> simp only [ho] at h <;> cases h
  · intro p hp; simp [hp]
  · exact fun p hp => hp

theorem from_first {b : Bool} {ms : List Material} {a : Nat} :
    ∀ (cs : List Panel) (k : Nat) (cmds : List Cmd) (names : List Name),
      writeFrom b ms a k cs = .ok (cmds, names) →
      (∃ c ∈ cs, c.theory = .tsaiWu ∧ ∃ p ∈ c.plies.layers, ∃ o, PlyIs ms p o) → Name.locxx 1 ∈ names := by
  intro cs
  induction cs with
  | nil => rintro k cmds names h ⟨p, hp, _⟩; simp at hp
  | cons c cs ih =>
    rintro k cmds names h ⟨d, hd, ht, p, hp, o, ho⟩
    obtain ⟨full, c1, n1, c2, n2, h1, h2, h3, rfl, rfl⟩ := writeFrom_cons h
    rcases List.mem_cons.mp hd with rfl | hd
    · rw [ht] at h2
      exact List.mem_append_left _ (layers_first full 1 c1 n1 h2 ⟨p, full_of_layers h1 p hp, o, ho⟩)
    · exact List.mem_append_right _ (ih (k + 1) c2 n2 h3 ⟨d, hd, ht, p, hp, o, ho⟩)

/-! ## Texts -/

theorem decimal_split {a b : Nat} {c : Char} (hc : c.isDigit = false) {x y : List Char}
    (h : decimal a ++ c :: x = decimal b ++ c :: y) : a = b ∧ x = y := by
  have key : ∀ (u v : List Char), (∀ d ∈ u, d.isDigit = true) → (∀ d ∈ v, d.isDigit = true) →
      u ++ c :: x = v ++ c :: y → u = v ∧ x = y := by
    intro u
    induction u with
    | nil =>
      intro v _ hv h
      cases v with
      | nil => simpa using h
      | cons d v =>
        simp only [List.nil_append, List.cons_append, List.cons.injEq] at h
        have := hv d (by simp)
        rw [← h.1, hc] at this; cases this
    | cons d u ih =>
      intro v hu hv h
      cases v with
      | nil =>
        simp only [List.nil_append, List.cons_append, List.cons.injEq] at h
        have := hu d (by simp)
        rw [h.1, hc] at this; cases this
      | cons e v =>
        simp only [List.cons_append, List.cons.injEq] at h
        obtain ⟨r1, r2⟩ := ih v (fun d hd => hu d (by simp [hd])) (fun d hd => hv d (by simp [hd])) h.2
        exact ⟨by rw [h.1, r1], r2⟩
  obtain ⟨h1, h2⟩ := key _ _ (Aster.decimal_digits a) (Aster.decimal_digits b) h
  exact ⟨decimal_inj h1, h2⟩

end Tsai

namespace Tsai
open TsaiSpec Materials Med

/-! ## The property -/

/-- **C150** the field `FT` of a card PCOMP is read as what it means, and any other text is refused. -/
theorem C150_theory (ft : String) (t : Theory) : theoryOf ft = .ok t ↔ Means ft t := by
  constructor
  · intro h
    unfold theoryOf at h
    split at h
    · cases h; subst ft; exact .blank
    split at h
    · cases h; subst ft; exact .hill
    split at h
    · cases h; subst ft; exact .hoff
    split at h
    · cases h; subst ft; exact .tsai
    split at h
    · cases h; subst ft; exact .stress
    split at h
    · next hs => cases h; rcases hs with rfl | rfl; exacts [.strain, .strn]
    split at h
    · cases h; subst ft; exact .larc
    split at h
    · cases h; subst ft; exact .puck
    split at h
    · cases h; subst ft; exact .mct
    cases h
  · intro h
    cases h <;> decide +kernel

/-- **C150**, where every ply has an orthotropic material: the commands of an analysis print, for every layer of every
composite with the theory of Tsai and Wu and for nothing else, the stresses of that layer in its own axes and its index, for
the strengths of the nature, whatever the stresses. The strengths themselves are in `C150_blank_false` and
`C150_isotropic_false`, the names given twice in `C150_names_false`. -/
theorem C150_indices_partial (strict : Bool) (ms : List Material) (analysis : Nat) (cs : List Panel) (cmds : List Cmd)
    (names : List Name) (h : write strict ms analysis cs = .ok (cmds, names))
    (ho : ∀ c ∈ cs, c.theory = .tsaiWu → ∀ p ∈ c.plies.layers, ∃ o, PlyIs ms p o) (σ : Nat → Nat → Stress) :
    ∃ out, TsaiSpec.run σ (fun _ => none) cmds = some out ∧
      ∀ x, x ∈ out ↔ ∃ j c full i p o, cs[j]? = some c ∧ c.theory = .tsaiWu ∧ c.plies.getFullLayers = .ok full ∧
        full[i]? = some p ∧ PlyIs ms p o ∧ x ∈ ofPly σ analysis (j + 1) (i + 1) p o := by
  obtain ⟨out, h1, h2⟩ := from_run σ cs 1 cmds names h ho fun _ => none
  refine ⟨out, h1, fun x => ?_⟩
  rw [h2]
  simp only [show ∀ j, 1 + j = j + 1 from fun j => by omega]

/-- **C150** every name given by these commands is destroyed after the analysis, and no other. -/
theorem C150_destroyed (strict : Bool) (ms : List Material) (analysis : Nat) (cs : List Panel) (cmds : List Cmd)
    (names : List Name) (h : write strict ms analysis cs = .ok (cmds, names)) : made cmds = names :=
  from_made cs 1 cmds names h

/-- **C150** no name is given twice in an analysis when one composite at most has this theory. -/
theorem C150_names_partial (strict : Bool) (ms : List Material) (analysis : Nat) (cs : List Panel) (cmds : List Cmd)
    (names : List Name) (h : write strict ms analysis cs = .ok (cmds, names))
    (h1 : (cs.filter fun c => c.theory = .tsaiWu).length ≤ 1) : (made cmds).Nodup := by
  rw [from_made cs 1 cmds names h]
  exact from_nodup cs 1 cmds names h h1

/-- **C150** is false of the names as soon as two composites have this theory: the formulas are given the same names, before
those of the first composite are destroyed. -/
theorem C150_names_false (strict : Bool) (ms : List Material) (analysis : Nat) (cs ds es : List Panel) (c d : Panel)
    (cmds : List Cmd) (names : List Name)
    (h : write strict ms analysis (cs ++ c :: ds ++ d :: es) = .ok (cmds, names))
    (hc : c.theory = .tsaiWu) (hp : ∃ p ∈ c.plies.layers, ∃ o, PlyIs ms p o)
    (hd : d.theory = .tsaiWu) (hq : ∃ p ∈ d.plies.layers, ∃ o, PlyIs ms p o) : ¬ (made cmds).Nodup := by
  rw [from_made _ 1 cmds names h]
  have key : ∀ (cs : List Panel) (k : Nat) (cmds : List Cmd) (names : List Name),
      writeFrom strict ms analysis k (cs ++ c :: (ds ++ d :: es)) = .ok (cmds, names) → ¬ names.Nodup := by
    intro cs
    induction cs with
    | nil =>
      intro k cmds names h hn
      obtain ⟨full, c1, n1, c2, n2, h1, h2, h3, rfl, rfl⟩ := writeFrom_cons h
      rw [hc] at h2
      obtain ⟨p, hp, o, ho⟩ := hp
      have m1 := layers_first full 1 c1 n1 h2 ⟨p, full_of_layers h1 p hp, o, ho⟩
      have m2 := from_first _ (k + 1) c2 n2 h3 ⟨d, by simp, hd, hq⟩
      exact (List.nodup_append.mp hn).2.2 _ m1 _ m2 rfl
    | cons e cs ih =>
      intro k cmds names h hn
      obtain ⟨full, c1, n1, c2, n2, h1, h2, h3, rfl, rfl⟩ := writeFrom_cons (c := e) h
      exact ih (k + 1) c2 n2 h3 (List.nodup_append.mp hn).2.1
  rw [List.append_assoc, List.cons_append] at h
  exact key cs 1 cmds names h

/-- **C150** different names are different texts. -/
theorem C150_texts {x y : Name} (h : x.text = y.text) : x = y := by
  have hC : 'C'.isDigit = false := by decide
  have hL : 'L'.isDigit = false := by decide
  cases x <;> cases y <;> simp [Name.text] at h
  case stress.stress =>
    obtain ⟨rfl, h2⟩ := decimal_split hL h
    rw [decimal_inj h2]
  case local.local =>
    obtain ⟨rfl, h2⟩ := decimal_split hC h
    obtain ⟨rfl, h3⟩ := decimal_split hL h2
    rw [decimal_inj h3]
  case index.index =>
    obtain ⟨rfl, h2⟩ := decimal_split hC h
    obtain ⟨rfl, h3⟩ := decimal_split hL h2
    rw [decimal_inj h3]
  all_goals rw [decimal_inj h]

/-- **C150** the names of results are too long for Code_Aster, which takes 8 characters as it is generally known, when the
three numbers have two digits. -/
theorem C150_length_false (a c l : Nat) (ha : 10 ≤ a) (hc : 10 ≤ c) (hl : 10 ≤ l) : 8 < (Name.index a c l).text.length := by
  have key : ∀ n, 10 ≤ n → 2 ≤ (decimal n).length := by
    intro n hn
    have e : decimal n = Nat.toDigits 10 n := by simp [decimal, Nat.repr]
    by_contra hlt
    have : (Nat.toDigits 10 n).length ≤ 1 := by rw [← e]; omega
    rw [Nat.length_toDigits_le_iff (by omega) (by omega)] at this
    omega
  have h1 := key a ha
  have h2 := key c hc
  have h3 := key l hl
  simp only [Name.text, List.length_cons, List.length_append]
  omega

/-- **C150** the other theories are refused in strict mode. -/
theorem C150_refused (ms : List Material) (analysis : Nat) (cs : List Panel) (c : Panel) (hc : c ∈ cs)
    (h1 : c.theory ≠ .none) (h2 : c.theory ≠ .tsaiWu) (hp : ∃ p ∈ c.plies.layers, ∃ o, PlyIs ms p o) :
    ∀ r, write true ms analysis cs ≠ .ok r := by
  have inner : ∀ (ps : List Ply) (k l : Nat) (r : List Cmd × List Name), (∃ p ∈ ps, ∃ o, PlyIs ms p o) →
      writeLayers true ms c.theory analysis k l ps ≠ .ok r := by
    intro ps
    induction ps with
    | nil => rintro k l r ⟨p, hp, _⟩; simp at hp
    | cons p ps ih =>
      rintro k l r ⟨q, hq, o, ho⟩ h
      simp only [writeLayers] at h
      obtain ⟨m, hm, h⟩ := Bars.bind_ok_iff.mp h
      cases he : orthoOf m with
      | none =>
        simp only [he] at h
        refine ih k l r ⟨q, ?_, o, ho⟩ h
        rcases List.mem_cons.mp hq with rfl | hq
        · obtain ⟨m', g1, g2⟩ := ho
          rw [materialOf_ok.mp hm] at g1; cases g1
          rw [orthoOf_some.mpr g2] at he; cases he
        · exact hq
      | some o' =>
        simp only [he] at h
        cases ht : c.theory <;> simp only [ht, ne_eq, not_true_eq_false] at h h1 h2 <;> simp at h
  have outer : ∀ (cs : List Panel) (k : Nat) (r : List Cmd × List Name), c ∈ cs →
      writeFrom true ms analysis k cs ≠ .ok r := by
    intro cs
    induction cs with
    | nil => intro k r hc; simp at hc
    | cons d cs ih =>
      intro k r hc h
      obtain ⟨full, c1, n1, c2, n2, g1, g2, g3, _, _⟩ := writeFrom_cons (cmds := r.1) (names := r.2) h
      rcases List.mem_cons.mp hc with rfl | hc
      · obtain ⟨p, hp, o, ho⟩ := hp
        exact inner full k 1 _ ⟨p, full_of_layers g1 p hp, o, ho⟩ g2
      · exact ih (k + 1) _ hc g3
  exact fun r => outer cs 1 r hc

/-- **C150** is false where the strength in compression along the fibres is left blank on the card MAT8, which then stands
for that in tension, as it is generally known: whatever the compression along the fibres, the index printed is negative, and
that of the criterion is positive. -/
theorem C150_blank_false (fields : List Nastran.Line) (n : Int) (o : Materials.Ortho)
    (h : Materials.read ⟨.mat8, fields⟩ = .ok (n, .orthotropic o)) (x : Dbl) (hx : BarsSpec.IsReal fields 12 x) (h0 : 0 < x)
    (hb : BarsSpec.Blank fields 13) (s1 : ℝ) (hs : s1 < 0) :
    (strengthsOf o).index s1 0 0 < 0 ∧ 0 < ({ strengthsOf o with xc := x } : Strengths).index s1 0 0 := by
  obtain ⟨o', e, hh⟩ := Materials.read_mat8 h
  cases e
  obtain ⟨-, -, -, -, -, -, -, -, -, -, -, h12, h13, -⟩ := hh
  have ex : o.xt = x := by
    rcases h12 with h12 | h12
    · exact Materials.isReal_unique h12 hx
    · exact absurd h12.1 hx.1
  have ec : o.xc = unavailable := by
    rcases h13 with h13 | h13
    · exact absurd hb h13.1
    · exact h13.2
  have hM : (0 : ℝ) < (dblMax : ℝ) := by exact_mod_cast dblMax_pos
  have hx' : (0 : ℝ) < (x : ℝ) := by exact_mod_cast h0
  simp only [strengthsOf, Strengths.index, ex, ec, unavailable, Rat.cast_neg]
  generalize (dblMax : ℝ) = M at hM
  generalize (x : ℝ) = y at hx'
  constructor
  · have e1 : (1 / y - 1 / -M) * s1 + (1 / (o.yt : ℝ) - 1 / (o.yc : ℝ)) * 0 + s1 ^ 2 / (y * -M) +
        0 ^ 2 / ((o.yt : ℝ) * (o.yc : ℝ)) + 0 ^ 2 / (o.slt : ℝ) ^ 2 = (1 / y + 1 / M) * s1 - s1 ^ 2 / (y * M) := by
      field_simp
      ring
    rw [e1]
    have a1 : (1 / y + 1 / M) * s1 < 0 := mul_neg_of_pos_of_neg (by positivity) hs
    have a2 : 0 ≤ s1 ^ 2 / (y * M) := by positivity
    linarith
  · have e1 : (1 / y - 1 / y) * s1 + (1 / (o.yt : ℝ) - 1 / (o.yc : ℝ)) * 0 + s1 ^ 2 / (y * y) +
        0 ^ 2 / ((o.yt : ℝ) * (o.yc : ℝ)) + 0 ^ 2 / (o.slt : ℝ) ^ 2 = s1 ^ 2 / (y * y) := by
      simp
    rw [e1]
    have : s1 ≠ 0 := hs.ne
    positivity

/-- **C150** is false where the material of a ply is isotropic, which is replaced by an orthotropic one without strengths:
the index stays below 1 whatever the stresses up to 10^300, also when the card MAT1 gives strengths. -/
theorem C150_isotropic_false (o : Materials.Ortho) (s1 s2 s12 : ℝ) (h1 : |s1| ≤ 10 ^ 300) (h2 : |s2| ≤ 10 ^ 300)
    (h3 : |s12| ≤ 10 ^ 300) : (strengthsOf (replacedStrengths o)).index s1 s2 s12 < 1 := by
  have hq : (2 * 10 ^ 300 : ℚ) < dblMax := by decide +kernel
  have hM : (2 * 10 ^ 300 : ℝ) < (dblMax : ℝ) := by exact_mod_cast hq
  simp only [strengthsOf, replacedStrengths, Strengths.index, unavailable, Rat.cast_neg, sub_self, zero_mul, zero_add]
  generalize (dblMax : ℝ) = M at hM
  generalize (10 ^ 300 : ℝ) = B at *
  have hB : 0 ≤ B := le_trans (abs_nonneg _) h1
  have hM0 : 0 < M := by linarith
  have q1 : s1 ^ 2 ≤ B ^ 2 := sq_le_sq' (by linarith [neg_abs_le s1]) (by linarith [le_abs_self s1])
  have q2 : s2 ^ 2 ≤ B ^ 2 := sq_le_sq' (by linarith [neg_abs_le s2]) (by linarith [le_abs_self s2])
  have q3 : s12 ^ 2 ≤ B ^ 2 := sq_le_sq' (by linarith [neg_abs_le s12]) (by linarith [le_abs_self s12])
  have e : s1 ^ 2 / (-M * -M) + s2 ^ 2 / (-M * -M) + s12 ^ 2 / (-M) ^ 2 = (s1 ^ 2 + s2 ^ 2 + s12 ^ 2) / M ^ 2 := by
    field_simp
  rw [e, div_lt_one (by positivity)]
  nlinarith

/-! ## A composite of two plies, at 0 and 90 degrees -/

/-- The material of the example. -/
def exampleOrtho : Materials.Ortho :=
  ⟨130, 9, 3/10, 5, unavailable, unavailable, 2, unavailable, unavailable, unavailable, unavailable, 1500, 1200, 50, 200, 70⟩

def exampleMaterials : List Material := [⟨7, [.orthotropic exampleOrtho]⟩]

def examplePanel : Panel := ⟨.tsaiWu, ⟨[⟨7, 1/4, 0⟩, ⟨7, 1/4, 90⟩], .full, 0⟩⟩

theorem example_ply (p : Ply) (h : p ∈ examplePanel.plies.layers) : PlyIs exampleMaterials p exampleOrtho := by
  refine ⟨⟨7, [.orthotropic exampleOrtho]⟩, ?_, rfl⟩
  simp only [examplePanel, List.mem_cons, List.not_mem_nil, or_false] at h
  rcases h with rfl | rfl <;> rfl

theorem example_write (analysis : Nat) : write true exampleMaterials analysis [examplePanel] =
    .ok (layerCmds analysis 1 1 0 exampleOrtho ++ layerCmds analysis 1 2 90 exampleOrtho,
      layerDestroyed analysis 1 1 ++ layerDestroyed analysis 1 2) := by
  have h1 := example_ply ⟨7, 1/4, 0⟩ (by simp [examplePanel])
  have h2 := example_ply ⟨7, 1/4, 90⟩ (by simp [examplePanel])
  have e : examplePanel.plies.getFullLayers = .ok [⟨7, 1/4, 0⟩, ⟨7, 1/4, 90⟩] := rfl
  simp only [write, writeFrom, e, Outcome.bind_ok]
  show (do
    let (cmds, names) ← writeLayers true exampleMaterials .tsaiWu analysis 1 1 [⟨7, 1/4, 0⟩, ⟨7, 1/4, 90⟩]
    Outcome.ok (cmds ++ [], names ++ [])) = _
  rw [writeLayers_tsai h1, writeLayers_tsai h2]
  simp [writeLayers]

/-- The hypotheses of `C150_indices_partial` hold, and under a tension `s` along the first axis of the element the second
ply, whose fibres are across, has the index of that tension across the fibres. -/
example (s : ℝ) : ∃ out, TsaiSpec.run (fun _ _ => ⟨s, 0, 0⟩) (fun _ => none)
      (layerCmds 3 1 1 0 exampleOrtho ++ layerCmds 3 1 2 90 exampleOrtho) = some out ∧
    (Name.index 3 1 2, 1, computed [(1 / 50 - 1 / 200) * s + s ^ 2 / (50 * 200)]) ∈ out := by
  obtain ⟨out, h1, h2⟩ := C150_indices_partial true exampleMaterials 3 [examplePanel] _ _ (example_write 3)
    (fun c hc _ p hp => by
      obtain rfl := List.mem_singleton.mp hc
      exact ⟨_, example_ply p hp⟩) fun _ _ => ⟨s, 0, 0⟩
  refine ⟨out, h1, (h2 _).mpr ⟨0, examplePanel, _, 1, ⟨7, 1/4, 90⟩, exampleOrtho, rfl, rfl, rfl, rfl,
    example_ply _ (by simp [examplePanel]), ?_⟩⟩
  have e : ((90 : Dbl) : ℝ) * Real.pi / 180 = Real.pi / 2 := by push_cast; ring
  simp only [ofPly, List.mem_cons, Prod.mk.injEq, true_and, List.not_mem_nil, or_false, reduceCtorEq, false_and,
    false_or, Nat.zero_add, Strengths.ofPly, Stress.along, fibre, across, e, Real.cos_pi_div_two, Real.sin_pi_div_two,
    strengthsOf, exampleOrtho, Strengths.index]
  congr 1
  norm_num

/-- Two composites like this one: the hypotheses of `C150_names_false`. -/
example : ∃ cmds names, write true exampleMaterials 3 ([] ++ examplePanel :: [] ++ examplePanel :: []) = .ok (cmds, names) := by
  have h1 := example_ply ⟨7, 1/4, 0⟩ (by simp [examplePanel])
  have h2 := example_ply ⟨7, 1/4, 90⟩ (by simp [examplePanel])
  have e : examplePanel.plies.getFullLayers = .ok [⟨7, 1/4, 0⟩, ⟨7, 1/4, 90⟩] := rfl
  have t : examplePanel.theory = .tsaiWu := rfl
  simp only [write, writeFrom, e, t, Outcome.bind_ok, List.nil_append, List.cons_append, writeLayers_tsai h1,
    writeLayers_tsai h2, writeLayers]
  exact ⟨_, _, rfl⟩

/-- A card MAT8 with the strength in tension along the fibres and not that in compression. -/
def blankCard : Materials.Card :=
  Materials.card .mat8 ["MAT8", "7", "130.", "9.", ".3", "5.", "", "", "", "", "", "", "1500."]

example : ∃ o, Materials.read blankCard = .ok (7, .orthotropic o) ∧ BarsSpec.IsReal blankCard.fields 12 1500 ∧
    BarsSpec.Blank blankCard.fields 13 := by
  have hk : (match Materials.read blankCard with | .ok (n, .orthotropic _) => decide (n = 7) | _ => false) = true := by
    decide +kernel
  cases hr : Materials.read blankCard with
  | ok r =>
    obtain ⟨n, t⟩ := r
    rw [hr] at hk
    cases t with
    | orthotropic o =>
      obtain rfl : n = 7 := of_decide_eq_true hk
      exact ⟨o, rfl, ⟨by decide +kernel, by decide +kernel⟩, by unfold BarsSpec.Blank; decide +kernel⟩
    | _ => cases hk
  | _ => rw [hr] at hk; cases hk

end Tsai
end Vega
