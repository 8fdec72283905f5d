import Mathlib.Data.List.Nodup
import Mathlib.Tactic.NormNum
import Verif.Aster.Assign

/-!
# Each element set has one model of Code_Aster and the characteristics that go with it (C128)
-/
namespace Vega

namespace AssignSpec
open Assign

/-- A model and a block of characteristics go together, as Code_Aster is generally known. -/
def Fits (m : String) : Block → Prop
  | .discret _ rotations _ _ _ => m = if rotations then "DIS_TR" else "DIS_T"
  | .poutre => m = "POU_D_E" ∨ m = "POU_D_T" ∨ m = "POU_D_T_GD"
  | .barre => m = "BARRE"
  | .coque _ _ _ => m = "DKT"
  | .massif => m = "3D" ∨ m = "3D_SI" ∨ m = "C_PLAN" ∨ m = "D_PLAN"

/-- The types of sets that have no model in Code_Aster. -/
def foreign : List SetType :=
  [.stiffnessMatrix, .massMatrix, .dampingMatrix, .rigidSet, .rbar, .rbe3, .lmpc, .surfaceSlide, .unknown]

/-- The blocks of a set. -/
def of (out : List (Nat × Block)) (id : Nat) : List Block := (out.filter fun o => o.1 = id).map (·.2)

end AssignSpec

namespace Assign
open AssignSpec

/-! ## Lemmas -/

/-- Of what is written set by set, that of one set is found again. -/
theorem of_flatMap (es : List Elems) (hn : (es.map Elems.id).Nodup) (e : Elems) (he : e ∈ es) (p : Elems → Bool)
    (f : Elems → List (Nat × Block)) (hf : ∀ x, ∀ y ∈ f x, y.1 = x.id) :
    (((es.filter p).flatMap f).filter fun o => o.1 = e.id) = if p e then f e else [] := by
  induction es with
  | nil => cases he
  | cons x xs ih =>
    have hself : ∀ x : Elems, x.id = e.id → (f x).filter (fun o => o.1 = e.id) = f x := by
      intro x hx
      rw [List.filter_eq_self]
      intro y hy
      rw [hf x y hy, hx]
      simp
    have hother : ∀ x : Elems, x.id ≠ e.id → (f x).filter (fun o => o.1 = e.id) = [] := by
      intro x hx
      rw [List.filter_eq_nil_iff]
      intro y hy
      rw [hf x y hy]
      simpa using hx
    rw [List.map_cons, List.nodup_cons] at hn
    rcases List.mem_cons.mp he with rfl | he
    · have hrest : ((xs.filter p).flatMap f).filter (fun o => o.1 = e.id) = [] := by
        rw [List.filter_eq_nil_iff]
        intro y hy
        obtain ⟨z, hz, hy⟩ := List.mem_flatMap.mp hy
        rw [hf z y hy]
        have : z.id ≠ e.id := fun h => hn.1 (h ▸ List.mem_map_of_mem (List.mem_of_mem_filter hz))
        simpa using this
      cases hp : p e with
      | true =>
        rw [List.filter_cons, hp, if_pos rfl, List.flatMap_cons, List.filter_append, hrest, hself e rfl]
        simp
      | false =>
        rw [List.filter_cons, hp]
        simpa using hrest
    · have hx : x.id ≠ e.id := fun h => hn.1 (h ▸ List.mem_map_of_mem he)
      cases hp : p x with
      | true =>
        rw [List.filter_cons, hp, if_pos rfl, List.flatMap_cons, List.filter_append, hother x hx, ih hn.2 he]
        rfl
      | false =>
        rw [List.filter_cons, hp]
        simpa using ih hn.2 he

theorem discret_ids (l : Bool) (x : Elems) : ∀ y ∈ discretBlocks l x, y.1 = x.id := by
  intro y hy
  unfold discretBlocks at hy
  split at hy
  · simp only [List.mem_cons, List.mem_append] at hy
    rcases hy with rfl | hy | hy
    · rfl
    · split at hy
      · simp only [List.mem_cons, List.not_mem_nil, or_false] at hy; rw [hy]
      · cases hy
    · split at hy
      · simp only [List.mem_cons, List.not_mem_nil, or_false] at hy; rw [hy]
      · cases hy
  · cases hy

theorem single_ids {x : Elems} {c : Bool} {b : Block} : ∀ y ∈ (if c = true then [(x.id, b)] else []), y.1 = x.id := by
  intro y hy
  split at hy
  · simp only [List.mem_cons, List.not_mem_nil, or_false] at hy; rw [hy]
  · cases hy

/-- The blocks of a set, by its type. -/
def blocksOf (env : Env) (solids : Bool) (e : Elems) : List (Nat × Block) :=
  match e.type with
  | .discrete0d => discretBlocks false e
  | .discrete1d | .scalarSpring | .structuralSegment => discretBlocks true e
  | .nodalMass => massBlocks e
  | .circular | .tube | .rectangular | .iSection | .generic =>
    [(e.id, if e.beamModel = .truss ∧ ¬ env.large then .barre else .poutre)]
  | .shell => shellBlocks e
  | .composite => compositeBlocks e
  | .continuum => solidBlocks e
  | .skin => if solids then solidBlocks e else []
  | _ => []

theorem cara_of (env : Env) (es : List Elems) (hn : (es.map Elems.id).Nodup) (e : Elems) (he : e ∈ es) :
    ((affeCara env es).filter fun o => o.1 = e.id) = blocksOf env (!(filter es .continuum).isEmpty) e := by
  have hf := of_flatMap es hn e he
  unfold affeCara filter
  simp only [List.flatMap_append, List.filter_append]
  rw [hf _ _ (discret_ids false), hf _ _ (discret_ids true), hf _ _ (discret_ids true), hf _ _ (discret_ids true),
    hf _ massBlocks (fun x => single_ids), hf _ shellBlocks (fun x => single_ids),
    hf _ compositeBlocks (fun x => single_ids)]
  have hb : ((es.filter Elems.isBeam).map fun x => (x.id, Block.poutre)).filter (fun o => o.1 = e.id) =
      if e.isBeam then [(e.id, .poutre)] else [] := by
    rw [List.map_eq_flatMap]
    exact hf _ (fun x => [(x.id, Block.poutre)]) (fun x y hy => by
      simp only [List.mem_cons, List.not_mem_nil, or_false] at hy; rw [hy])
  have ht : ((es.filter Elems.isTruss).map fun x => (x.id, if env.large = true then Block.poutre else .barre)).filter
      (fun o => o.1 = e.id) = if e.isTruss then [(e.id, if env.large = true then .poutre else .barre)] else [] := by
    rw [List.map_eq_flatMap]
    exact hf _ (fun x => [(x.id, if env.large = true then Block.poutre else .barre)]) (fun x y hy => by
      simp only [List.mem_cons, List.not_mem_nil, or_false] at hy; rw [hy])
  rw [hb, ht]
  have hs : (if ((es.filter fun x => x.type = .continuum).isEmpty) = true then []
      else (es.filter fun x => decide (x.type = .continuum)).flatMap solidBlocks ++
        (es.filter fun x => decide (x.type = .skin)).flatMap solidBlocks).filter (fun o => o.1 = e.id) =
      if (!(es.filter fun x => x.type = .continuum).isEmpty) = true then
        (if e.type = .continuum then solidBlocks e else []) ++ (if e.type = .skin then solidBlocks e else []) else [] := by
    cases hc : (es.filter fun x => x.type = .continuum).isEmpty with
    | true => rfl
    | false =>
      simp only [Bool.false_eq_true, if_false, Bool.not_false, if_true, List.filter_append]
      rw [hf _ solidBlocks (fun x => single_ids), hf _ solidBlocks (fun x => single_ids)]
      simp only [decide_eq_true_eq]
  rw [hs]
  have hsol : e.type = .continuum → (es.filter fun x => decide (x.type = .continuum)).isEmpty = false := by
    intro h
    cases hl : es.filter fun x => decide (x.type = .continuum) with
    | nil =>
      have : e ∈ es.filter fun x => decide (x.type = .continuum) := List.mem_filter.mpr ⟨he, by simpa using h⟩
      rw [hl] at this
      cases this
    | cons => rfl
  have hsec : e.type.section = match e.type with
      | .circular | .tube | .rectangular | .iSection | .generic => true
      | _ => false := by
    cases e.type <;> rfl
  unfold Elems.isBeam Elems.isTruss
  rw [hsec]
  cases hty : e.type <;> simp [blocksOf, hty]
  case continuum =>
    intro h
    have := hsol hty
    rw [List.isEmpty_eq_false_iff, ne_eq, List.filter_eq_nil_iff] at this
    exact absurd (by simpa using h) this
  all_goals (cases hbm : e.beamModel <;> cases hl : env.large <;> rfl)

theorem mods_total (env : Env) (e : Elems) :
    (e.type ∈ foreign ∧ modelisations env e = .throw) ∨ (e.type ∉ foreign ∧ ∃ ms, modelisations env e = .ok ms) := by
  obtain ⟨id, ty, eff, mt, bm, rot, dg, sy, da, ma, th, off, la⟩ := e
  obtain ⟨nl, lg⟩ := env
  cases ty <;> simp [foreign, modelisations]
  case skin => cases mt <;> cases nl <;> simp
  case continuum => cases mt <;> cases nl <;> simp
  all_goals first
    | (cases rot <;> simp)
    | (cases bm <;> cases lg <;> simp)

theorem modele_total (env : Env) (es : List Elems) :
    ((∃ e ∈ es, e.effective = true ∧ e.type ∈ foreign) ∧ affeModele env es = .throw) ∨
      ((∀ e ∈ es, e.effective = true → e.type ∉ foreign) ∧ ∃ out, affeModele env es = .ok out) := by
  induction es with
  | nil => exact Or.inr ⟨fun e he => (by cases he), [], rfl⟩
  | cons x xs ih =>
    unfold affeModele
    cases hx : x.effective with
    | false =>
      rw [if_neg (by simp)]
      rcases ih with ⟨⟨e, he, h⟩, ho⟩ | ⟨ha, ho⟩
      · exact Or.inl ⟨⟨e, List.mem_cons_of_mem _ he, h⟩, ho⟩
      · refine Or.inr ⟨fun e he hf => ?_, ho⟩
        rcases List.mem_cons.mp he with rfl | he
        · rw [hx] at hf; cases hf
        · exact ha e he hf
    | true =>
      rw [if_pos rfl]
      rcases mods_total env x with ⟨hf, hm⟩ | ⟨hf, ms, hm⟩
      · rw [hm]
        exact Or.inl ⟨⟨x, List.mem_cons_self, hx, hf⟩, rfl⟩
      · rw [hm]
        rcases ih with ⟨⟨e, he, h⟩, ho⟩ | ⟨ha, out, ho⟩
        · rw [ho]
          exact Or.inl ⟨⟨e, List.mem_cons_of_mem _ he, h⟩, rfl⟩
        · rw [ho]
          refine Or.inr ⟨fun e he h => ?_, _, rfl⟩
          rcases List.mem_cons.mp he with rfl | he
          · exact hf
          · exact ha e he h

/-- What is written, set by set. -/
theorem modele_map (env : Env) (es : List Elems) (out : List (Nat × List String)) (h : affeModele env es = .ok out) :
    out.map (·.1) = (es.filter (·.effective)).map Elems.id ∧
      ∀ e ∈ es, e.effective = true → ∃ ms, modelisations env e = .ok ms ∧ (e.id, ms) ∈ out := by
  induction es generalizing out with
  | nil => cases h; exact ⟨rfl, fun e he => (by cases he)⟩
  | cons x xs ih =>
    unfold affeModele at h
    cases hx : x.effective with
    | false =>
      rw [hx, if_neg (by simp)] at h
      obtain ⟨h1, h2⟩ := ih out h
      refine ⟨by rw [h1]; simp [hx], fun e he hf => ?_⟩
      rcases List.mem_cons.mp he with rfl | he
      · rw [hx] at hf; cases hf
      · exact h2 e he hf
    | true =>
      rw [hx, if_pos rfl] at h
      rcases mods_total env x with ⟨-, hm⟩ | ⟨-, ms, hm⟩
      · rw [hm] at h; cases h
      · rw [hm] at h
        rcases modele_total env xs with ⟨-, ho⟩ | ⟨-, rest, ho⟩
        · rw [ho] at h; cases h
        · rw [ho] at h
          cases h
          obtain ⟨h1, h2⟩ := ih rest ho
          refine ⟨by simp [hx, h1], fun e he hf => ?_⟩
          rcases List.mem_cons.mp he with rfl | he
          · exact ⟨ms, hm, List.mem_cons_self⟩
          · obtain ⟨ms', hm', hin⟩ := h2 e he hf
            exact ⟨ms', hm', List.mem_cons_of_mem _ hin⟩

theorem blocks_fit (env : Env) (solids : Bool) (e : Elems) (ms : List String) (hm : modelisations env e = .ok ms)
    (x : Nat × Block) (hx : x ∈ blocksOf env solids e) (m : String) (hmem : m ∈ ms) : Fits m x.2 := by
  obtain ⟨id, ty, eff, mt, bm, rot, dg, sy, da, ma, th, off, la⟩ := e
  obtain ⟨nl, lg⟩ := env
  cases ty <;> simp only [blocksOf, List.not_mem_nil] at hx
  case continuum =>
    cases eff <;> simp [solidBlocks] at hx
    cases mt <;> cases nl <;> simp [modelisations] at hm <;> subst hm <;> subst hx <;> simp at hmem <;>
      simp [Fits, hmem]
    rcases hmem with rfl | rfl <;> simp
  case skin =>
    cases solids <;> cases eff <;> simp [solidBlocks] at hx
    cases mt <;> cases nl <;> simp [modelisations] at hm <;> subst hm <;> subst hx <;> simp at hmem <;>
      simp [Fits, hmem]
    rcases hmem with rfl | rfl <;> simp
  case nodalMass =>
    cases eff <;> simp [massBlocks] at hx
    cases rot <;> simp [modelisations] at hm <;> subst hm <;> subst hx <;> simp at hmem <;> simp [Fits, hmem]
  case shell =>
    cases eff <;> simp [shellBlocks] at hx
    simp [modelisations] at hm
    subst hm; subst hx
    simpa [Fits] using hmem
  case composite =>
    cases eff <;> simp [compositeBlocks] at hx
    simp [modelisations] at hm
    subst hm; subst hx
    simpa [Fits] using hmem
  all_goals first
    | (cases bm <;> cases lg <;> simp [modelisations] at hm hx <;> subst hm <;> subst hx <;> simp at hmem <;>
        simp [Fits, hmem]; done)
    | (cases eff <;> simp [discretBlocks] at hx
       cases rot <;> simp [modelisations] at hm <;> subst hm <;> simp at hmem <;> subst hmem <;>
         rcases hx with rfl | ⟨-, rfl⟩ | ⟨-, rfl⟩ <;> simp [Fits])

theorem mem_of {env : Env} {es : List Elems} (hn : (es.map Elems.id).Nodup) {e : Elems} (he : e ∈ es) {b : Block} :
    (e.id, b) ∈ affeCara env es ↔ (e.id, b) ∈ blocksOf env (!(filter es .continuum).isEmpty) e := by
  rw [← cara_of env es hn e he, List.mem_filter]
  simp

/-- The set a block belongs to. -/
theorem mem_affeCara {env : Env} {es : List Elems} {x : Nat × Block} (hx : x ∈ affeCara env es) :
    ∃ e ∈ es, e.id = x.1 ∧ (e.type.section = true ∨ e.effective = true) := by
  have hf : ∀ (p : Elems → Bool) (f : Elems → List (Nat × Block)) (_ : ∀ e, ∀ y ∈ f e, y.1 = e.id)
      (_ : ∀ e, e.effective = false → f e = []), x ∈ (es.filter p).flatMap f →
      ∃ e ∈ es, e.id = x.1 ∧ (e.type.section = true ∨ e.effective = true) := by
    intro p f hf he h
    obtain ⟨e, hin, hmem⟩ := List.mem_flatMap.mp h
    refine ⟨e, List.mem_of_mem_filter hin, (hf e x hmem).symm, Or.inr ?_⟩
    cases hc : e.effective with
    | true => rfl
    | false => rw [he e hc] at hmem; cases hmem
  have hd : ∀ l, ∀ e : Elems, e.effective = false → discretBlocks l e = [] := by
    intro l e h; simp [discretBlocks, h]
  have hs : ∀ e : Elems, e.effective = false → solidBlocks e = [] := by intro e h; simp [solidBlocks, h]
  unfold affeCara filter at hx
  simp only [List.flatMap_append, List.mem_append] at hx
  rcases hx with (((((((hx | ((hx | hx) | hx)) | hx) | hx) | hx) | hx) | hx) | hx)
  · exact hf _ _ (discret_ids false) (hd _) hx
  · exact hf _ _ (discret_ids true) (hd _) hx
  · exact hf _ _ (discret_ids true) (hd _) hx
  · exact hf _ _ (discret_ids true) (hd _) hx
  · exact hf _ massBlocks (fun x => single_ids) (fun e h => by simp [massBlocks, h]) hx
  · obtain ⟨e, hin, rfl⟩ := List.mem_map.mp hx
    obtain ⟨hin, hp⟩ := List.mem_filter.mp hin
    unfold Elems.isBeam at hp
    rw [Bool.and_eq_true] at hp
    exact ⟨e, hin, rfl, Or.inl hp.1⟩
  · obtain ⟨e, hin, rfl⟩ := List.mem_map.mp hx
    obtain ⟨hin, hp⟩ := List.mem_filter.mp hin
    unfold Elems.isTruss at hp
    rw [Bool.and_eq_true] at hp
    exact ⟨e, hin, rfl, Or.inl hp.1⟩
  · exact hf _ shellBlocks (fun x => single_ids) (fun e h => by simp [shellBlocks, h]) hx
  · exact hf _ compositeBlocks (fun x => single_ids) (fun e h => by simp [compositeBlocks, h]) hx
  · split at hx
    · cases hx
    · rcases List.mem_append.mp hx with hx | hx
      · exact hf _ solidBlocks (fun x => single_ids) hs hx
      · exact hf _ solidBlocks (fun x => single_ids) hs hx

/-! ## The properties -/

/-- **C128.** The order of models is refused exactly when a set with cells is of a kind Code_Aster has no model for; otherwise it
names the sets with cells, in their order, each once. -/
theorem C128_models (env : Env) (es : List Elems) :
    (affeModele env es = .throw ↔ ∃ e ∈ es, e.effective = true ∧ e.type ∈ foreign) ∧
      ((∀ e ∈ es, e.effective = true → e.type ∉ foreign) →
        ∃ out, affeModele env es = .ok out ∧ out.map (·.1) = (es.filter (·.effective)).map Elems.id) := by
  rcases modele_total env es with ⟨⟨e, he, h1, h2⟩, ho⟩ | ⟨ha, out, ho⟩
  · exact ⟨⟨fun _ => ⟨e, he, h1, h2⟩, fun _ => ho⟩, fun h => absurd h2 (h e he h1)⟩
  · refine ⟨⟨fun h => ?_, fun ⟨e, he, h1, h2⟩ => absurd h2 (ha e he h1)⟩, fun _ => ⟨out, ho, (modele_map env es out ho).1⟩⟩
    rw [ho] at h
    cases h

/-- **C128.** The model of Code_Aster that goes with each kind of elements: solids and skins in three dimensions or in a plane,
shells, beams by their theory, trusses, beams in large displacements, and discrete elements with or without rotations. -/
theorem C128_names (env : Env) (es : List Elems) (out : List (Nat × List String)) (h : affeModele env es = .ok out) (e : Elems)
    (he : e ∈ es) (hf : e.effective = true) :
    ∃ ms, (e.id, ms) ∈ out ∧
      (e.type = .continuum ∨ e.type = .skin →
        (e.modelType = .planeStress → ms = ["C_PLAN"]) ∧ (e.modelType = .planeStrain → ms = ["D_PLAN"]) ∧
        (e.modelType = .tridimensional → ms = ["3D"]) ∧
        (e.modelType = .tridimensionalSI → ms = if env.nonlinear then ["3D"] else ["3D", "3D_SI"])) ∧
      (e.type = .shell ∨ e.type = .composite → ms = ["DKT"]) ∧
      (e.type ∈ [.circular, .tube, .rectangular, .iSection, .generic] →
        (env.large = true → ms = ["POU_D_T_GD"]) ∧
        (env.large = false → (e.beamModel = .euler → ms = ["POU_D_E"]) ∧ (e.beamModel = .timoshenko → ms = ["POU_D_T"]) ∧
          (e.beamModel = .truss → ms = ["BARRE"]))) ∧
      (e.type ∈ [.structuralSegment, .scalarSpring, .discrete0d, .discrete1d, .nodalMass] →
        ms = [if e.rotations then "DIS_TR" else "DIS_T"]) := by
  obtain ⟨ms, hm, hin⟩ := (modele_map env es out h).2 e he hf
  refine ⟨ms, hin, ?_, ?_, ?_, ?_⟩
  · intro ht
    refine ⟨fun hx => ?_, fun hx => ?_, fun hx => ?_, fun hx => ?_⟩ <;>
      rcases ht with ht | ht <;> simp only [modelisations, ht, hx] at hm
    all_goals first
      | (cases hm; rfl)
      | (cases hn : env.nonlinear <;> simp only [hn] at hm <;> cases hm <;> rfl)
  · intro ht
    rcases ht with ht | ht <;> simp only [modelisations, ht] at hm <;> cases hm <;> rfl
  · intro ht
    simp only [List.mem_cons, List.not_mem_nil, or_false] at ht
    refine ⟨fun hl => ?_, fun hl => ⟨fun hx => ?_, fun hx => ?_, fun hx => ?_⟩⟩ <;>
      rcases ht with ht | ht | ht | ht | ht <;> simp only [modelisations, ht, hl] at hm
    all_goals first
      | (cases hm; rfl)
      | (rw [hx] at hm; cases hm; rfl)
  · intro ht
    simp only [List.mem_cons, List.not_mem_nil, or_false] at ht
    rcases ht with ht | ht | ht | ht | ht <;> simp only [modelisations, ht] at hm <;>
      cases hr : e.rotations <;> simp only [hr] at hm <;> cases hm <;> rfl

/-- **C128.** What is written of the characteristics of a set goes with the models it was given. -/
theorem C128_fits (env : Env) (es : List Elems) (hn : (es.map Elems.id).Nodup) (out : List (Nat × List String))
    (h : affeModele env es = .ok out) (e : Elems) (he : e ∈ es) (hf : e.effective = true) :
    ∃ ms, (out.filter fun o => o.1 = e.id) = [(e.id, ms)] ∧ ms ≠ [] ∧
      ∀ b ∈ of (affeCara env es) e.id, ∀ m ∈ ms, Fits m b := by
  obtain ⟨h1, h2⟩ := modele_map env es out h
  obtain ⟨ms, hm, hin⟩ := h2 e he hf
  have hnd : (out.map (·.1)).Nodup := by
    rw [h1]
    exact hn.sublist (List.filter_sublist.map _)
  refine ⟨ms, ?_, ?_, ?_⟩
  · clear h h1 h2
    induction out with
    | nil => cases hin
    | cons o os ih =>
      rw [List.map_cons, List.nodup_cons] at hnd
      rcases List.mem_cons.mp hin with rfl | hin
      · rw [List.filter_cons, if_pos (by simp), List.cons.injEq]
        refine ⟨rfl, List.filter_eq_nil_iff.mpr ?_⟩
        intro y hy
        have : y.1 ≠ e.id := fun hc => hnd.1 (hc ▸ List.mem_map_of_mem (f := (·.1)) hy)
        simpa using this
      · have : o.1 ≠ e.id := fun hc => hnd.1 (hc ▸ List.mem_map_of_mem (f := (·.1)) hin)
        rw [List.filter_cons, if_neg (by simpa using this)]
        exact ih hin hnd.2
  · rintro rfl
    clear hin
    obtain ⟨id, ty, eff, mt, bm, rot, dg, sy, da, ma, th, off, la⟩ := e
    obtain ⟨nl, lg⟩ := env
    cases ty <;> cases mt <;> cases nl <;> cases rot <;> cases bm <;> cases lg <;> cases hm
  · intro b hb m hmem
    obtain ⟨x, hx, rfl⟩ := List.mem_map.mp hb
    rw [cara_of env es hn e he] at hx
    exact blocks_fit env _ e ms hm x hx m hmem

/-- **C128.** A discrete element has one matrix of stiffness, one of damping if it damps, one of mass if it weighs, all for nodes
or all for segments; a nodal mass has one matrix of mass. -/
theorem C128_discrete (env : Env) (es : List Elems) (hn : (es.map Elems.id).Nodup) (e : Elems) (he : e ∈ es)
    (hf : e.effective = true) :
    (e.type ∈ [.discrete0d, .discrete1d, .scalarSpring, .structuralSegment] →
      ∃ d, (e.type = .discrete0d → d = false) ∧ (e.type ≠ .discrete0d → d = e.diagonal) ∧
        of (affeCara env es) e.id =
          ((['K'] ++ (if e.damping then ['A'] else []) ++ (if e.mass then ['M'] else [])).map fun c =>
            .discret c e.rotations d (!e.symmetric) (decide (e.type ≠ .discrete0d)))) ∧
      (e.type = .nodalMass → of (affeCara env es) e.id = [.discret 'M' e.rotations true false false]) := by
  unfold AssignSpec.of
  rw [cara_of env es hn e he]
  obtain ⟨id, ty, eff, mt, bm, rot, dg, sy, da, ma, th, off, la⟩ := e
  simp only at hf
  subst hf
  constructor
  · intro ht
    simp only [List.mem_cons, List.not_mem_nil, or_false] at ht
    rcases ht with rfl | rfl | rfl | rfl
    · exact ⟨false, fun _ => rfl, fun h => absurd rfl h, by cases da <;> cases ma <;> rfl⟩
    all_goals exact ⟨dg, fun h => (by cases h), fun _ => rfl, by cases da <;> cases ma <;> rfl⟩
  · intro ht
    simp only at ht
    subst ht
    rfl

/-- **C128.** A shell has one block, with its thickness, and its offset unless that is 0 within the tolerance; a composite also
has its number of layers. -/
theorem C128_shells (env : Env) (es : List Elems) (hn : (es.map Elems.id).Nodup) (e : Elems) (he : e ∈ es)
    (hf : e.effective = true) (ht : e.type = .shell ∨ e.type = .composite) :
    ∃ off, of (affeCara env es) e.id = [.coque e.thickness off (if e.type = .composite then some e.layers else none)] ∧
      (|e.offset| > tol → off = some e.offset) ∧ (|e.offset| ≤ tol → off = none) := by
  refine ⟨if isZero e.offset then none else some e.offset, ?_, ?_, ?_⟩
  · unfold AssignSpec.of
    rw [cara_of env es hn e he]
    obtain ⟨id, ty, eff, mt, bm, rot, dg, sy, da, ma, th, off, la⟩ := e
    simp only at hf ht
    subst hf
    rcases ht with rfl | rfl <;> simp [blocksOf, shellBlocks, compositeBlocks]
  · intro h
    rw [if_neg]
    unfold isZero
    simpa using h
  · intro h
    rw [if_pos]
    unfold isZero
    simpa using h

/-- **C128.** A beam, a truss and a solid have one block; a skin has one when there are solids and none otherwise. -/
theorem C128_others (env : Env) (es : List Elems) (hn : (es.map Elems.id).Nodup) (e : Elems) (he : e ∈ es)
    (hf : e.effective = true) :
    (e.type ∈ [.circular, .tube, .rectangular, .iSection, .generic] →
      of (affeCara env es) e.id = [if e.beamModel = .truss ∧ env.large = false then .barre else .poutre]) ∧
      (e.type = .continuum → of (affeCara env es) e.id = [.massif]) ∧
      (e.type = .skin → of (affeCara env es) e.id = if ∃ s ∈ es, s.type = .continuum then [.massif] else []) := by
  unfold AssignSpec.of
  rw [cara_of env es hn e he]
  refine ⟨fun ht => ?_, fun ht => ?_, fun ht => ?_⟩
  · simp only [List.mem_cons, List.not_mem_nil, or_false] at ht
    rcases ht with ht | ht | ht | ht | ht <;> simp [blocksOf, ht]
  · simp [blocksOf, ht, solidBlocks, hf]
  · have hc : (!(filter es .continuum).isEmpty) = true ↔ ∃ s ∈ es, s.type = .continuum := by
      unfold filter
      rw [Bool.not_eq_true', List.isEmpty_eq_false_iff, ne_eq, List.filter_eq_nil_iff]
      simp
    simp only [blocksOf, ht]
    by_cases hs : ∃ s ∈ es, s.type = .continuum
    · rw [if_pos hs, if_pos (hc.mpr hs)]
      simp [solidBlocks, hf]
    · rw [if_neg hs, if_neg (fun h => hs (hc.mp h))]
      rfl

/-- **C128.** Every block is that of a set, with cells if all beams have some. -/
theorem C128_only (env : Env) (es : List Elems) (x : Nat × Block) (hx : x ∈ affeCara env es) :
    ∃ e ∈ es, e.id = x.1 ∧
      (e.effective = true ∨ e.type ∈ [.circular, .tube, .rectangular, .iSection, .generic]) := by
  obtain ⟨e, he, hid, h | h⟩ := mem_affeCara hx
  · refine ⟨e, he, hid, Or.inr ?_⟩
    unfold SetType.section at h
    simpa using h
  · exact ⟨e, he, hid, Or.inl h⟩

/-- **C128.** The orientations are the coordinate systems that are relative, each with its vector and its group, in order, unless
all sets are solids. -/
theorem C128_orientations (es : List Elems) (os : List Oriented) :
    ((∃ e ∈ es, e.type ≠ .continuum) →
      orientations es os = (os.filter (·.relative)).map fun o => (o.v, o.group)) ∧
      ((∀ e ∈ es, e.type = .continuum) → orientations es os = []) := by
  have hl : (filter es .continuum).length = es.length ↔ ∀ e ∈ es, e.type = .continuum := by
    unfold filter
    rw [List.length_filter_eq_length_iff]
    simp
  constructor
  · rintro ⟨e, he, hne⟩
    have hc : ¬ (filter es .continuum).length = es.length := fun h => hne (hl.mp h e he)
    unfold orientations
    induction os with
    | nil => rfl
    | cons o os ih =>
      rw [List.flatMap_cons, ih, if_neg hc, List.filter_cons]
      cases o.relative <;> simp
  · intro h
    have hc := hl.mpr h
    unfold orientations
    rw [List.flatMap_eq_nil_iff]
    intro o _
    rw [if_pos hc]

/-! ## What is false -/

/-- **C128 is false** of beams without cells: a block is written for them, although they have no model. -/
theorem C128_beams_false : ¬ ∀ (env : Env) (es : List Elems) (out : List (Nat × List String)), (es.map Elems.id).Nodup →
    affeModele env es = .ok out → ∀ x ∈ affeCara env es, x.1 ∈ out.map (·.1) := by
  intro h
  have := h ⟨false, false⟩
    [⟨1, .circular, false, .tridimensional, .euler, true, true, true, false, false, 0, 0, 0⟩] [] (by simp) rfl
    (1, .poutre) (by simp [affeCara, filter, Elems.isBeam, Elems.isTruss, SetType.section])
  simp at this

/-- **C128 is false** of axisymmetric sets: they are given the model of solids of three dimensions. -/
theorem C128_axisymmetric_false (env : Env) (e : Elems) (ht : e.type = .continuum) (hm : e.modelType = .axisymmetric) :
    modelisations env e = .ok ["3D"] := by
  simp [modelisations, ht, hm]

/-- **C128 is false** without element sets: the order is closed but not opened. -/
theorem C128_empty_false (es : List Elems) : (brackets es).1 = (brackets es).2 ↔ es ≠ [] := by
  cases es <;> simp [brackets]

/-! ## Cases -/

/-- A point, a beam, an offset shell, a solid and its skin, a set without cells. -/
def sample : List Elems :=
  [⟨1, .discrete0d, true, .tridimensional, .euler, false, false, true, true, false, 0, 0, 0⟩,
   ⟨2, .tube, true, .tridimensional, .timoshenko, true, true, true, false, false, 0, 0, 0⟩,
   ⟨3, .shell, true, .tridimensional, .euler, true, true, true, false, false, 2, 1, 0⟩,
   ⟨4, .continuum, true, .tridimensionalSI, .euler, false, true, true, false, false, 0, 0, 0⟩,
   ⟨5, .skin, true, .tridimensional, .euler, false, true, true, false, false, 0, 0, 0⟩,
   ⟨6, .rbe3, false, .tridimensional, .euler, false, true, true, false, false, 0, 0, 0⟩]

example : (sample.map Elems.id).Nodup ∧ affeModele ⟨false, false⟩ sample =
    .ok [(1, ["DIS_T"]), (2, ["POU_D_T"]), (3, ["DKT"]), (4, ["3D", "3D_SI"]), (5, ["3D"])] := by
  decide +kernel

example : affeCara ⟨false, false⟩ sample = [(1, .discret 'K' false false false false),
    (1, .discret 'A' false false false false), (2, .poutre), (3, .coque 2 (some 1) none), (4, .massif), (5, .massif)] := by
  decide +kernel

example : ∃ e ∈ sample, e.type ≠ .continuum := by decide +kernel

example : affeModele ⟨false, false⟩
    [⟨1, .rbe3, true, .tridimensional, .euler, false, true, true, false, false, 0, 0, 0⟩] = .throw := rfl

end Assign
end Vega
