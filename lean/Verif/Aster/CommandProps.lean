import Verif.Aster.CommandLemmas

/-! # C105: the names in the command file of Code_Aster -/
namespace Vega

/-! ## Specification -/
namespace CommSpec
open Aster

/-- The number of the list of frequencies of an analysis. -/
def frequencyList : AnalysisKind → Option Nat
  | .directFreq v _ => some v
  | .modalFreq _ _ _ _ _ v => some v
  | _ => none

/-- True of the models that the program builds: numbers are not given twice, the sets of an analysis are sets of the model, the
lists of instants made for nonlinear analyses are new. -/
structure Consistent (m : CommModel) : Prop where
  analyses : (m.analyses.map (·.id)).Nodup
  constraints : (m.constraintSets.map (·.id)).Nodup
  loads : (m.loadSets.map (·.id)).Nodup
  lists : m.lists.Nodup
  tables : m.tables.Nodup
  contacts : ∀ c ∈ m.constraintSets, c.contactOnly = true → c.empty = false → c.hasContacts = true
  ownConstraints : ∀ a ∈ m.analyses, ∀ c ∈ a.constraintSets, c ∈ m.constraintSets
  ownLoads : ∀ a ∈ m.analyses, ∀ l ∈ a.loadSets, l ∈ m.loadSets
  ownPrevious : ∀ a ∈ m.analyses, ∀ v p, a.kind = .nonLinear v (some p) → ∀ l ∈ p.2, l ∈ m.loadSets
  instants : ∀ a ∈ m.analyses, ∀ v p, a.kind = .nonLinear v p → v ∉ m.lists
  newInstants : ∀ a ∈ m.analyses, ∀ v p, a.kind = .nonLinear v p → ∀ b ∈ m.analyses, frequencyList b.kind ≠ some v
  ownInstants : ∀ a ∈ m.analyses, ∀ b ∈ m.analyses, ∀ v p q, a.kind = .nonLinear v p → b.kind = .nonLinear v q → a = b

/-- The load set is written: it is not a `DLOAD`, not empty, and has more than temperatures. -/
def Written (m : CommModel) (l : LoadSet) : Prop := l ∈ m.loadSets ∧ l.skipped = false

/-- Sets of constraints that matrices can refer to. -/
def Assembled (a : Analysis) : Prop :=
  ∀ c ∈ a.constraintSets, c.empty = false ∧ c.contactOnly = false ∧ c.functions = false

/-- The excitations have written loads without functions and tables of the model. -/
def Excited (m : CommModel) (a : Analysis) : Prop :=
  (a.excitations.map (·.id)).Nodup ∧
  ∀ x ∈ a.excitations, (∃ l, Written m l ∧ l.id = x.loadSet ∧ l.functions = false) ∧ x.table ∈ m.tables

/-- The damping is absent or of type `CRIT`. -/
def DampingFine (m : CommModel) : Option (DampingKind × Nat) → Prop
  | none => True
  | some (.crit, t) => t ∈ m.tables
  | some (.g, _) => False

/-- The frequencies are a list of the model, or a spread whose number is that of its value. -/
def FrequenciesFine (m : CommModel) (excitId excitValue : Nat) : FrequencyKind → Prop
  | .spread => excitId = excitValue
  | .interpolate => False
  | .other => excitValue ∈ m.lists

/-- One of the analyses has this number. -/
def Among (pre : List Analysis) (i : Nat) : Prop := ∃ b ∈ pre, b.id = i

/-- What has to hold of the kind of an analysis that comes after the analyses `pre`. -/
def KindFine (m : CommModel) (pre : List Analysis) (a : Analysis) : AnalysisKind → Prop
  | .combination parts => m.materials = true ∧ parts.Nodup ∧ ∀ p ∈ parts, Among pre p
  | .linearStatic => (∀ l ∈ a.loadSets, l.skipped = false) ∧ ∀ c ∈ a.constraintSets, c.empty = true ∨ c.hasContacts = false
  | .nonLinear _ previous => m.contacts.length ≤ 1 ∧ (∀ l ∈ a.loadSets, l.skipped = false) ∧
      ∀ p ∈ previous, Among pre p.1 ∧ ∀ l ∈ p.2, l.skipped = false
  | .directFreq frequencies _ => Assembled a ∧ Excited m a ∧ frequencies ∈ m.lists
  | .modal _ => Assembled a
  | .modalComplex _ => False
  | .modalFreq _ _ damping excitId excitKind excitValue =>
      (m.reusableFor a = none → Assembled a) ∧ (∀ r, m.reusableFor a = some r → ∃ f, r.kind = .modal f) ∧ Excited m a ∧
      DampingFine m damping ∧ FrequenciesFine m excitId excitValue excitKind ∧ a.frequencies = []
  | .buckling _ static => Assembled a ∧ Among pre static

/-- Analyses whose frequencies can be checked. -/
def HasFrequencies : AnalysisKind → Prop
  | .modal _ => True
  | .modalFreq _ _ _ _ _ _ => True
  | .buckling _ _ => True
  | _ => False

/-- What has to hold of an analysis that comes after the analyses `pre`. -/
structure Fine (m : CommModel) (pre : List Analysis) (a : Analysis) : Prop where
  kind : KindFine m pre a a.kind
  outputs : a.displacements = true → a.frequencies = []
  assertions : .frequency true ∈ a.assertions → HasFrequencies a.kind

/-- The models whose file is claimed to be readable. -/
structure Supported (m : CommModel) : Prop where
  consistent : Consistent m
  elements : m.elements = true
  fine : ∀ pre a post, m.analyses = pre ++ a :: post → Fine m pre a

end CommSpec

namespace Aster
open CommSpec Med

/-! ## Before the analyses -/

theorem mem_globals {m : CommModel} {u : Name × Kind} :
    u ∈ defsOf (prelude m) ↔ u = (.plain .MAIL, .maillage) ∨ u = (.plain .MODMECA, .modele) ∨
      (∃ v ∈ m.lists, u = (.pad .LST v, .listReel)) ∨ (∃ v ∈ m.tables, u = (.pad .FCT v, .fonction)) ∨
      (m.materials = true ∧ u = (.plain .CHMAT, .chamMater)) ∨ (m.elements = true ∧ u = (.plain .CAEL, .caraElem)) ∨
      (∃ c ∈ m.constraintSets, c.empty = false ∧ c.contactOnly = false ∧
        u = (.set (if c.functions then .BLF else .BL) c.id, .charge)) ∨
      (∃ l ∈ m.loadSets, l.skipped = false ∧ u = (l.name, .charge)) ∨
      (∃ c ∈ m.constraintSets, c.empty = false ∧ c.hasContacts = true ∧ u = (.set .CN c.id, .contact)) := by
  have h1 : u ∈ defsOf (m.constraintSets.flatMap defineConstraints) ↔ ∃ c ∈ m.constraintSets, c.empty = false ∧
      c.contactOnly = false ∧ u = (.set (if c.functions then .BLF else .BL) c.id, .charge) := by
    rw [defsOf_flatMap, List.mem_flatMap]
    refine exists_congr fun c => and_congr_right fun _ => ?_
    unfold defineConstraints
    cases c.empty <;> cases c.contactOnly <;> simp
  have h2 : u ∈ defsOf (m.loadSets.flatMap defineLoads) ↔ ∃ l ∈ m.loadSets, l.skipped = false ∧ u = (l.name, .charge) := by
    rw [defsOf_flatMap, List.mem_flatMap]
    refine exists_congr fun c => and_congr_right fun _ => ?_
    unfold defineLoads
    cases c.skipped <;> simp
  have h3 : u ∈ defsOf (m.constraintSets.flatMap defineContact) ↔ ∃ c ∈ m.constraintSets, c.empty = false ∧
      c.hasContacts = true ∧ u = (.set .CN c.id, .contact) := by
    rw [defsOf_flatMap, List.mem_flatMap]
    refine exists_congr fun c => and_congr_right fun _ => ?_
    unfold defineContact
    cases c.empty <;> cases c.hasContacts <;> simp
  have h4 : u ∈ defsOf (m.lists.map fun v => .define (.pad .LST v) .listReel []) ↔
      ∃ v ∈ m.lists, u = (.pad .LST v, .listReel) := by
    rw [defsOf_map, List.mem_flatMap]; simp [Cmd.defs]
  have h5 : u ∈ defsOf (m.tables.map fun v => .define (.pad .FCT v) .fonction []) ↔
      ∃ v ∈ m.tables, u = (.pad .FCT v, .fonction) := by
    rw [defsOf_map, List.mem_flatMap]; simp [Cmd.defs]
  have h6 : u ∈ defsOf (if m.materials then [.define (.plain .CHMAT) .chamMater [(.plain .MAIL, .maillage)]] else []) ↔
      m.materials = true ∧ u = (.plain .CHMAT, .chamMater) := by
    cases m.materials <;> simp
  have h7 : u ∈ defsOf (if m.elements then [.define (.plain .CAEL) .caraElem [(.plain .MODMECA, .modele)]] else []) ↔
      m.elements = true ∧ u = (.plain .CAEL, .caraElem) := by
    cases m.elements <;> simp
  unfold prelude
  simp only [defsOf_append, List.mem_append, h1, h2, h3, h4, h5, h6, h7, defsOf_define, defsOf_nil, List.mem_cons,
    List.not_mem_nil, or_false, or_assoc]

theorem prelude_supplied (m : CommModel) : Supplied (fun u => Env.empty u.1 = some u.2) (prelude m) := by
  unfold prelude
  simp only [List.append_assoc]
  refine supplied_append ⟨by simp, by simp, trivial⟩ ?_
  refine supplied_of_plain ?_
  intro c hc
  simp only [List.mem_append, List.mem_map, List.mem_flatMap] at hc
  rcases hc with ⟨v, _, rfl⟩ | ⟨v, _, rfl⟩ | hc | hc | ⟨c', _, hc⟩ | ⟨l, _, hc⟩ | ⟨c', _, hc⟩
  · simp [Cmd.Plain]
  · simp [Cmd.Plain]
  · cases hm : m.materials <;> simp [hm] at hc
    subst hc; simp [Cmd.Plain]
  · cases hm : m.elements <;> simp [hm] at hc
    subst hc; simp [Cmd.Plain]
  · unfold defineConstraints at hc
    split at hc
    · cases hc
    · simp only [List.mem_singleton] at hc
      subst hc; simp [Cmd.Plain]
  · unfold defineLoads at hc
    split at hc
    · cases hc
    · simp only [List.mem_singleton] at hc
      subst hc; simp [Cmd.Plain]
  · unfold defineContact at hc
    split at hc
    · cases hc
    · simp only [List.mem_singleton] at hc
      subst hc; simp [Cmd.Plain]

theorem nodup_flatMap_of {α β γ} (l : List α) (f : α → List β) (g : α → γ) (hg : (l.map g).Nodup)
    (h1 : ∀ a ∈ l, (f a).Nodup) (h2 : ∀ a ∈ l, ∀ b ∈ l, ∀ x, x ∈ f a → x ∈ f b → g a = g b) : (l.flatMap f).Nodup := by
  induction l with
  | nil => simp
  | cons a l ih =>
    rw [List.map_cons, List.nodup_cons] at hg
    rw [List.flatMap_cons, List.nodup_append]
    refine ⟨h1 a (by simp), ih hg.2 (fun b hb => h1 b (by simp [hb])) (fun b hb c hc => h2 b (by simp [hb]) c (by simp [hc])), ?_⟩
    intro x hx y hy hxy
    subst hxy
    obtain ⟨b, hb, hxb⟩ := List.mem_flatMap.mp hy
    exact hg.1 (List.mem_map.mpr ⟨b, hb, (h2 a (by simp) b (by simp [hb]) x hx hxb).symm⟩)

theorem prelude_nodup {m : CommModel} (hc : Consistent m) : ((defsOf (prelude m)).map Prod.fst).Nodup := by
  have n1 : ((defsOf (m.constraintSets.flatMap defineConstraints)).map Prod.fst).Nodup := by
    rw [defsOf_flatMap, List.map_flatMap]
    refine nodup_flatMap_of _ _ (·.id) hc.constraints ?_ ?_
    · intro c _; unfold defineConstraints; split <;> simp
    · intro c _ d _ x hx hy
      unfold defineConstraints at hx hy
      split at hx <;> split at hy <;> simp at hx hy
      rw [hx] at hy
      simp at hy
      exact hy.2
  have n2 : ((defsOf (m.loadSets.flatMap defineLoads)).map Prod.fst).Nodup := by
    rw [defsOf_flatMap, List.map_flatMap]
    refine nodup_flatMap_of _ _ (·.id) hc.loads ?_ ?_
    · intro c _; unfold defineLoads; split <;> simp
    · intro c _ d _ x hx hy
      unfold defineLoads at hx hy
      by_cases h1 : c.skipped = true <;> by_cases h2 : d.skipped = true <;> simp [h1, h2] at hx hy
      rw [hx] at hy
      unfold LoadSet.name at hy
      cases h3 : c.functions <;> cases h4 : d.functions <;> simp [h1, h2, h3, h4] at hy <;> exact hy
  have n3 : ((defsOf (m.constraintSets.flatMap defineContact)).map Prod.fst).Nodup := by
    rw [defsOf_flatMap, List.map_flatMap]
    refine nodup_flatMap_of _ _ (·.id) hc.constraints ?_ ?_
    · intro c _; unfold defineContact; split <;> simp
    · intro c _ d _ x hx hy
      unfold defineContact at hx hy
      split at hx <;> split at hy <;> simp at hx hy
      rw [hx] at hy
      simpa using hy
  have n4 : ((defsOf (m.lists.map fun v => .define (.pad .LST v) .listReel [])).map Prod.fst).Nodup := by
    rw [defsOf_map, List.map_flatMap]
    refine nodup_flatMap_of _ _ id (by simpa using hc.lists) ?_ ?_
    · intro c _; simp [Cmd.defs]
    · intro c _ d _ x hx hy
      simp [Cmd.defs] at hx hy
      rw [hx] at hy
      simpa using hy
  have n5 : ((defsOf (m.tables.map fun v => .define (.pad .FCT v) .fonction [])).map Prod.fst).Nodup := by
    rw [defsOf_map, List.map_flatMap]
    refine nodup_flatMap_of _ _ id (by simpa using hc.tables) ?_ ?_
    · intro c _; simp [Cmd.defs]
    · intro c _ d _ x hx hy
      simp [Cmd.defs] at hx hy
      rw [hx] at hy
      simpa using hy
  -- the groups of names are apart
  let g : Name → Nat := fun
    | .plain .MAIL => 0
    | .plain .MODMECA => 0
    | .pad .LST _ => 1
    | .pad .FCT _ => 2
    | .plain .CHMAT => 3
    | .plain .CAEL => 4
    | .set .BL _ => 5
    | .set .BLF _ => 5
    | .set .CHMEC _ => 6
    | .set .CHMEF _ => 6
    | .set .CN _ => 7
    | _ => 8
  have app : ∀ (a b : List Cmd) (k : Nat), ((defsOf a).map Prod.fst).Nodup → ((defsOf b).map Prod.fst).Nodup →
      (∀ u ∈ defsOf a, g u.1 < k) → (∀ u ∈ defsOf b, g u.1 = k) → ((defsOf (a ++ b)).map Prod.fst).Nodup := by
    intro a b k ha hb hga hgb
    rw [defsOf_append, List.map_append, List.nodup_append]
    refine ⟨ha, hb, ?_⟩
    intro x hx y hy hxy
    subst hxy
    obtain ⟨u, hu, rfl⟩ := List.mem_map.mp hx
    obtain ⟨v, hv, hv'⟩ := List.mem_map.mp hy
    have h1 := hga u hu
    have h2 := hgb v hv
    rw [hv'] at h2
    omega
  have lt : ∀ (a b : List Cmd) (k : Nat), (∀ u ∈ defsOf a, g u.1 < k) → (∀ u ∈ defsOf b, g u.1 = k) →
      ∀ u ∈ defsOf (a ++ b), g u.1 < k + 1 := by
    intro a b k ha hb u hu
    rw [defsOf_append, List.mem_append] at hu
    rcases hu with hu | hu
    · exact Nat.lt_succ_of_lt (ha u hu)
    · rw [hb u hu]; omega
  have g4 : ∀ u ∈ defsOf (m.lists.map fun v => .define (.pad .LST v) .listReel []), g u.1 = 1 := by
    intro u hu; rw [defsOf_map, List.mem_flatMap] at hu; obtain ⟨v, _, hv⟩ := hu; simp [Cmd.defs] at hv; subst hv; rfl
  have g5 : ∀ u ∈ defsOf (m.tables.map fun v => .define (.pad .FCT v) .fonction []), g u.1 = 2 := by
    intro u hu; rw [defsOf_map, List.mem_flatMap] at hu; obtain ⟨v, _, hv⟩ := hu; simp [Cmd.defs] at hv; subst hv; rfl
  have g6 : ∀ u ∈ defsOf (if m.materials then [.define (.plain .CHMAT) .chamMater [(.plain .MAIL, .maillage)]] else []),
      g u.1 = 3 := by
    intro u hu; cases hm : m.materials <;> simp [hm] at hu; subst hu; rfl
  have g7 : ∀ u ∈ defsOf (if m.elements then [.define (.plain .CAEL) .caraElem [(.plain .MODMECA, .modele)]] else []),
      g u.1 = 4 := by
    intro u hu; cases hm : m.elements <;> simp [hm] at hu; subst hu; rfl
  have g1 : ∀ u ∈ defsOf (m.constraintSets.flatMap defineConstraints), g u.1 = 5 := by
    intro u hu; rw [defsOf_flatMap, List.mem_flatMap] at hu; obtain ⟨v, _, hv⟩ := hu
    unfold defineConstraints at hv
    split at hv <;> simp at hv
    subst hv; cases v.functions <;> rfl
  have g2 : ∀ u ∈ defsOf (m.loadSets.flatMap defineLoads), g u.1 = 6 := by
    intro u hu; rw [defsOf_flatMap, List.mem_flatMap] at hu; obtain ⟨v, _, hv⟩ := hu
    unfold defineLoads at hv
    by_cases h1 : v.skipped = true <;> simp [h1] at hv
    subst hv
    unfold LoadSet.name
    cases h3 : v.functions <;> simp [h1, g]
  have g3 : ∀ u ∈ defsOf (m.constraintSets.flatMap defineContact), g u.1 = 7 := by
    intro u hu; rw [defsOf_flatMap, List.mem_flatMap] at hu; obtain ⟨v, _, hv⟩ := hu
    unfold defineContact at hv
    split at hv <;> simp at hv
    subst hv; rfl
  have g0 : ∀ u ∈ defsOf [.define (.plain .MAIL) .maillage [], .define (.plain .MODMECA) .modele [(.plain .MAIL, .maillage)]],
      g u.1 < 1 := by
    intro u hu; simp at hu; rcases hu with rfl | rfl <;> simp [g]
  unfold prelude
  refine app _ _ 7 (app _ _ 6 (app _ _ 5 (app _ _ 4 (app _ _ 3 (app _ _ 2 (app _ _ 1 (by simp) n4 g0 g4) n5
    (lt _ _ 1 g0 g4) g5) (by split <;> simp) (lt _ _ 2 (lt _ _ 1 g0 g4) g5) g6) (by split <;> simp)
    (lt _ _ 3 (lt _ _ 2 (lt _ _ 1 g0 g4) g5) g6) g7) n1 ?_ g1) n2 ?_ g2) n3 ?_ g3
  · exact lt _ _ 4 (lt _ _ 3 (lt _ _ 2 (lt _ _ 1 g0 g4) g5) g6) g7
  · exact lt _ _ 5 (lt _ _ 4 (lt _ _ 3 (lt _ _ 2 (lt _ _ 1 g0 g4) g5) g6) g7) g1
  · exact lt _ _ 6 (lt _ _ 5 (lt _ _ 4 (lt _ _ 3 (lt _ _ 2 (lt _ _ 1 g0 g4) g5) g6) g7) g1) g2

/-! ## What the commands of an analysis use -/

section uses
variable {m : CommModel} {S : Name × Kind → Prop}

theorem base_modele (hg : ∀ u ∈ defsOf (prelude m), S u) : S (.plain .MODMECA, .modele) :=
  hg _ (mem_globals.mpr (by simp))

theorem base_mat (hg : ∀ u ∈ defsOf (prelude m), S u) : ∀ u ∈ m.mat, S u := by
  intro u hu
  unfold CommModel.mat at hu
  cases hm : m.materials <;> simp [hm] at hu
  subst hu
  exact hg _ (mem_globals.mpr (by simp [hm]))

theorem base_cael (hg : ∀ u ∈ defsOf (prelude m), S u) (he : m.elements = true) : S (.plain .CAEL, .caraElem) :=
  hg _ (mem_globals.mpr (by simp [he]))

theorem base_common (hg : ∀ u ∈ defsOf (prelude m), S u) (he : m.elements = true) : ∀ u ∈ m.common, S u := by
  intro u hu
  simp only [CommModel.common, List.cons_append, List.mem_cons, List.mem_append, List.not_mem_nil, or_false] at hu
  rcases hu with rfl | hu | rfl
  · exact base_modele hg
  · exact base_mat hg u hu
  · exact base_cael hg he

theorem base_list (hg : ∀ u ∈ defsOf (prelude m), S u) {v : Nat} (hv : v ∈ m.lists) : S (.pad .LST v, .listReel) :=
  hg _ (mem_globals.mpr (by simp [hv]))

theorem base_table (hg : ∀ u ∈ defsOf (prelude m), S u) {v : Nat} (hv : v ∈ m.tables) : S (.pad .FCT v, .fonction) :=
  hg _ (mem_globals.mpr (by simp [hv]))

theorem base_load (hg : ∀ u ∈ defsOf (prelude m), S u) {l : LoadSet} (hl : Written m l) : S (l.name, .charge) :=
  hg _ (mem_globals.mpr (.inr (.inr (.inr (.inr (.inr (.inr (.inr (.inl ⟨l, hl.1, hl.2, rfl⟩)))))))))

theorem base_chmec (hg : ∀ u ∈ defsOf (prelude m), S u) {l : LoadSet} (hl : Written m l) (hf : l.functions = false) :
    S (.set .CHMEC l.id, .charge) := by
  have := base_load hg hl
  rwa [LoadSet.name, hl.2, hf] at this

theorem base_bl (hg : ∀ u ∈ defsOf (prelude m), S u) {c : ConstraintSet} (hc : c ∈ m.constraintSets)
    (h1 : c.empty = false) (h2 : c.contactOnly = false) (h3 : c.functions = false) : S (.set .BL c.id, .charge) :=
  hg _ (mem_globals.mpr (.inr (.inr (.inr (.inr (.inr (.inr (.inl ⟨c, hc, h1, h2, by simp [h3]⟩))))))))

theorem base_constraint (hg : ∀ u ∈ defsOf (prelude m), S u) (hm : Consistent m) {c : ConstraintSet}
    (hc : c ∈ m.constraintSets) (h1 : c.empty = false) (h2 : c.hasContacts = false) : S (c.name, .charge) := by
  have h3 : c.contactOnly = false := by
    cases h : c.contactOnly
    · rfl
    · rw [hm.contacts c hc h h1] at h2; cases h2
  refine hg _ (mem_globals.mpr (.inr (.inr (.inr (.inr (.inr (.inr (.inl ⟨c, hc, h1, h3, ?_⟩))))))))
  unfold ConstraintSet.name
  cases h4 : c.functions <;> simp [h1, h2, h3]

theorem base_contact (hg : ∀ u ∈ defsOf (prelude m), S u) {c : ConstraintSet} (hc : c ∈ m.contacts) :
    S (c.name, .contact) := by
  simp only [CommModel.contacts, List.mem_filter, Bool.and_eq_true, Bool.not_eq_true'] at hc
  refine hg _ (mem_globals.mpr (.inr (.inr (.inr (.inr (.inr (.inr (.inr (.inr ⟨c, hc.1, hc.2.1, hc.2.2, ?_⟩)))))))))
  simp [ConstraintSet.name, hc.2.1, hc.2.2]

variable {a : Analysis}

theorem assembled_uses (hg : ∀ u ∈ defsOf (prelude m), S u) (ha : Assembled a)
    (ho : ∀ c ∈ a.constraintSets, c ∈ m.constraintSets) :
    ∀ u ∈ a.constraintSets.map fun c => ((.set .BL c.id, .charge) : Name × Kind), S u := by
  intro u hu
  obtain ⟨c, hc, rfl⟩ := List.mem_map.mp hu
  obtain ⟨h1, h2, h3⟩ := ha c hc
  exact base_bl hg (ho c hc) h1 h2 h3

theorem assembly_supplied (hg : ∀ u ∈ defsOf (prelude m), S u) (he : m.elements = true) (ha : Assembled a)
    (ho : ∀ c ∈ a.constraintSets, c ∈ m.constraintSets) (b : Bool) (hb : b = true → S (.num .FSIG a.id, .champ)) :
    Supplied S (assembly m a b) := by
  have hk := assembled_uses hg ha ho
  have hc := base_common hg he
  have hu : ∀ u ∈ assemblyUses m a, S u := by
    intro u hu
    rcases List.mem_append.mp hu with h | h
    · exact hc u h
    · exact hk u h
  have hmod := base_modele hg
  unfold assembly
  generalize assemblyUses m a = U at hu
  generalize (a.constraintSets.map fun c => ((.set .BL c.id, .charge) : Name × Kind)) = K at hk
  generalize m.common = C at hc
  cases b
  · simp only [List.cons_append, List.nil_append, Bool.false_eq_true, if_false, Supplied, List.mem_cons, List.mem_append,
      List.not_mem_nil, or_false, forall_eq_or_imp, forall_eq, and_true, or_true, true_or, true_and]
    refine ⟨⟨hmod, hk⟩, ?_, ?_, ?_⟩
    · exact fun u h => .inl (hu u h)
    · exact fun u h => .inl (.inl (.inl (hu u h)))
    · rintro u (h | rfl | rfl)
      · exact .inl (.inl (.inl (.inl (.inl (hu u h)))))
      · simp
      · simp
  · simp only [List.cons_append, List.nil_append, if_true, Supplied, List.mem_cons, List.mem_append,
      List.not_mem_nil, or_false, forall_eq_or_imp, forall_eq, and_true, or_true, true_or, true_and]
    refine ⟨⟨hmod, hk⟩, ?_, ?_⟩
    · exact fun u h => .inl (hu u h)
    · rintro u (h | rfl)
      · exact .inl (.inl (.inl (hc u h)))
      · exact .inl (.inl (.inl (hb rfl)))

theorem assembly_defs (b : Bool) : defsOf (assembly m a b) =
    [(.num .NDDL a.id, .numeDdl), (.num .RIEL a.id, .matrElem), (.num .RIGI a.id, .matrAsse)] ++
    if b then [(.num .RGEL a.id, .matrElem), (.num .RIGE a.id, .matrAsse)]
    else [(.num .MAEL a.id, .matrElem), (.num .MASS a.id, .matrAsse), (.num .AMEL a.id, .matrElem),
      (.num .AMOR a.id, .matrAsse)] := by
  cases b <;> rfl

/-- What the vectors of excitations define. -/
theorem vectors_defs (i d : Nat) (xs : List Excitation) :
    defsOf (xs.flatMap (excitationVectors m i d)) =
      xs.flatMap fun x => [(.two .VE i x.id, .vectElem), (.two .FX i x.id, .vectAsse)] := by
  rw [defsOf_flatMap]; rfl

theorem vectors_supplied (hg : ∀ u ∈ defsOf (prelude m), S u) (he : m.elements = true) (i d : Nat) {xs : List Excitation}
    (hx : ∀ x ∈ xs, (∃ l, Written m l ∧ l.id = x.loadSet ∧ l.functions = false) ∧ x.table ∈ m.tables)
    (hd : S (.num .NDDL d, .numeDdl)) : Supplied S (xs.flatMap (excitationVectors m i d)) := by
  induction xs generalizing S with
  | nil => trivial
  | cons x xs ih =>
    rw [List.flatMap_cons]
    refine supplied_append ?_ (ih (fun u hu => .inl (hg u hu)) (fun y hy => hx y (by simp [hy])) (.inl hd))
    obtain ⟨⟨l, hl, hid, hf⟩, _⟩ := hx x (by simp)
    have h1 := base_chmec hg hl hf
    rw [hid] at h1
    have h2 := base_mat hg
    have h3 := base_cael hg he
    refine ⟨?_, ?_, trivial⟩
    · intro u hu
      simp only [List.mem_append, List.mem_cons, List.not_mem_nil, or_false] at hu
      rcases hu with hu | rfl | rfl
      · exact h2 u hu
      · exact h3
      · exact h1
    · intro u hu
      simp only [List.mem_cons, List.not_mem_nil, or_false] at hu
      rcases hu with rfl | rfl
      · exact .inr rfl
      · exact .inl hd

theorem modes_defs (u r t j : Tag) : defsOf (modesOf m a u r t j) = defsOf (assembly m a false) ++
    [(.num u a.id, .resultat), (.num r a.id, .resultat), (.num t a.id, .table), (.num j a.id, .table)] := by
  simp [modesOf]

theorem modes_supplied (hg : ∀ u ∈ defsOf (prelude m), S u) (he : m.elements = true) (ha : Assembled a)
    (ho : ∀ c ∈ a.constraintSets, c ∈ m.constraintSets) (u r t j : Tag) : Supplied S (modesOf m a u r t j) := by
  unfold modesOf
  refine supplied_append (assembly_supplied hg he ha ho false (by simp)) ?_
  rw [assembly_defs]
  simp [Supplied]

theorem basis_supplied {i d : Nat} {r : Name} {residual : Bool} (h1 : S (.num .RIGI d, .matrAsse))
    (h2 : S (.num .MASS d, .matrAsse)) (h3 : S (.num .NDDL d, .numeDdl)) (h4 : S (r, .resultat)) :
    Supplied S (basis i d r residual) := by
  unfold basis
  cases residual <;> simp [Supplied, h1, h2, h3, h4]

theorem basis_modes {i d : Nat} {r : Name} {residual : Bool} :
    (Name.num .modes i, Kind.resultat) ∈ defsOf (basis i d r residual) := by
  unfold basis
  cases residual <;> simp

theorem projection_defs (i d : Nat) (damped : Bool) (xs : List Excitation) : defsOf (projection i d damped xs) =
    [(.num .NDDLG i, .numeGene), (.num .MASSG i, .matrGene), (.num .RIGIG i, .matrGene)] ++
    (if damped then [] else [(.num .AMORG i, .matrGene)]) ++ xs.map fun x => (.two .VG i x.id, .vectGene) := by
  have : defsOf (xs.map fun x => Cmd.define (.two .VG i x.id) .vectGene []) = xs.map fun x => (.two .VG i x.id, .vectGene) := by
    rw [defsOf_map]; induction xs <;> simp_all [Cmd.defs]
  unfold projection
  cases damped <;> simp [this]

theorem projection_supplied {i d : Nat} {damped : Bool} {xs : List Excitation} (h1 : S (.num .RIGI d, .matrAsse))
    (h2 : S (.num .MASS d, .matrAsse)) (h3 : S (.num .AMOR d, .matrAsse)) (h4 : S (.num .modes i, .resultat))
    (h5 : ∀ x ∈ xs, S (.two .FX i x.id, .vectAsse)) : Supplied S (projection i d damped xs) := by
  refine supplied_of_plain ?_
  intro c hc
  unfold projection at hc
  simp only [List.mem_append, List.mem_cons, List.not_mem_nil, or_false, List.mem_map] at hc
  rcases hc with ((rfl | rfl | rfl | rfl) | hc) | ⟨x, _, rfl⟩
  · intro u hu
    simp only [List.mem_append, List.mem_cons, List.not_mem_nil, or_false, List.mem_map] at hu
    rcases hu with ((rfl | rfl | rfl) | hu) | ⟨x, hx, rfl⟩
    · exact h4
    · exact h2
    · exact h1
    · cases damped <;> simp at hu
      rw [hu]; exact h3
    · exact h5 x hx
  · simp [Cmd.Plain]
  · simp [Cmd.Plain]
  · simp [Cmd.Plain]
  · cases damped <;> simp at hc
    rw [hc]; simp [Cmd.Plain]
  · simp [Cmd.Plain]

theorem damping_supplied (hg : ∀ u ∈ defsOf (prelude m), S u) {i : Nat} {d : Option (DampingKind × Nat)}
    (hd : DampingFine m d) (hp : S (.num .pfreq i, .python)) : Supplied S (dampingCmds i d) := by
  rcases d with _ | ⟨_ | _, t⟩
  · trivial
  · have := base_table hg hd
    simp [dampingCmds, Supplied, this, hp]
  · exact hd.elim

theorem frequency_supplied {i e v : Nat} {k : FrequencyKind} (hk : FrequenciesFine m e v k)
    (hp : S (.num .pfreq i, .python)) : Supplied S (frequencyCmds i e k) := by
  cases k
  · simp [frequencyCmds, Supplied, hp]
  · exact hk.elim
  · trivial

theorem harmonic_supplied (hg : ∀ u ∈ defsOf (prelude m), S u) {damped : Bool} {f : Name} (ho : a.frequencies = [])
    (hx : Excited m a) (h1 : S (.num .MASSG a.id, .matrGene)) (h2 : S (.num .RIGIG a.id, .matrGene))
    (h3 : S (if damped then (.num .AMMO a.id, .python) else (.num .AMORG a.id, .matrGene))) (h4 : S (f, .listReel))
    (h5 : ∀ x ∈ a.excitations, S (.two .VG a.id x.id, .vectGene)) : Supplied S (harmonic a damped f) := by
  unfold harmonic physical
  simp only [ho, List.isEmpty_nil, if_true]
  refine ⟨?_, by simp, trivial⟩
  intro u hu
  simp only [List.mem_append, List.mem_cons, List.not_mem_nil, or_false, List.mem_flatMap] at hu
  rcases hu with (rfl | rfl | rfl | rfl) | ⟨x, hx', rfl | rfl⟩
  · exact h1
  · exact h2
  · exact h3
  · exact h4
  · exact h5 x hx'
  · exact base_table hg (hx.2 x hx').2

theorem harmonic_defs (damped : Bool) (f : Name) (ho : a.frequencies = []) :
    defsOf (harmonic a damped f) = [(.num .GENE a.id, .harmGene), (.num .RESU a.id, .resultat)] := by
  simp [harmonic, physical, ho]

theorem response_supplied (hg : ∀ u ∈ defsOf (prelude m), S u) (he : m.elements = true) {d : Nat} {r : Name}
    {residual : Bool} {damping : Option (DampingKind × Nat)} {e v : Nat} {k : FrequencyKind}
    (hx : Excited m a) (hd : DampingFine m damping) (hf : FrequenciesFine m e v k) (ho : a.frequencies = [])
    (h1 : S (.num .RIGI d, .matrAsse)) (h2 : S (.num .MASS d, .matrAsse)) (h3 : S (.num .NDDL d, .numeDdl))
    (h4 : S (.num .AMOR d, .matrAsse)) (h5 : S (r, .resultat)) (h6 : S (.num .pfreq a.id, .python)) :
    Supplied S (response m a d r residual damping e k v) := by
  unfold response
  simp only [List.append_assoc]
  refine supplied_append (basis_supplied h1 h2 h3 h5) ?_
  refine supplied_append (vectors_supplied (fun u hu => .inl (hg u hu)) he a.id d hx.2 (.inl h3)) ?_
  refine supplied_append (projection_supplied (.inl (.inl h1)) (.inl (.inl h2)) (.inl (.inl h4)) (.inl (.inr basis_modes)) ?_) ?_
  · intro x hx'
    refine .inr ?_
    rw [vectors_defs, List.mem_flatMap]
    exact ⟨x, hx', by simp⟩
  refine supplied_append (damping_supplied (fun u hu => .inl (.inl (.inl (hg u hu)))) hd (.inl (.inl (.inl h6)))) ?_
  refine supplied_append (frequency_supplied hf (.inl (.inl (.inl (.inl h6))))) ?_
  refine harmonic_supplied (fun u hu => .inl (.inl (.inl (.inl (.inl (hg u hu)))))) ho hx ?_ ?_ ?_ ?_ ?_
  · refine .inl (.inl (.inr ?_)); rw [projection_defs]; simp
  · refine .inl (.inl (.inr ?_)); rw [projection_defs]; simp
  · rcases damping with _ | ⟨_ | _, t⟩
    · refine .inl (.inl (.inr ?_)); rw [projection_defs]; simp
    · refine .inl (.inr ?_); simp [dampingCmds]
    · exact hd.elim
  · cases k
    · have hev : e = v := hf
      refine .inr ?_
      simp [frequencyCmds, frequencyName, hev]
    · exact hf.elim
    · exact .inl (.inl (.inl (.inl (.inl (base_list hg hf)))))
  · intro x hx'
    refine .inl (.inl (.inr ?_))
    rw [projection_defs]
    simp only [List.mem_append, List.mem_map]
    exact .inr ⟨x, hx', rfl⟩

theorem combination_supplied (hg : ∀ u ∈ defsOf (prelude m), S u) {i : Nat} {parts : List Nat} (hm : m.materials = true)
    (hp : ∀ p ∈ parts, S (.num .RESU p, .resultat)) : Supplied S (combination i parts) := by
  unfold combination
  refine supplied_append (supplied_of_plain ?_) ?_
  · intro c hc
    obtain ⟨p, hp', rfl⟩ := List.mem_map.mp hc
    simp [Cmd.Plain, hp p hp']
  · have h1 := base_modele hg
    have h2 := hg (.plain .CHMAT, .chamMater) (mem_globals.mpr (by simp [hm]))
    refine ⟨?_, ?_, trivial⟩
    · intro u hu
      rcases List.mem_cons.mp hu with rfl | hu
      · exact .inl h1
      · obtain ⟨p, hp', rfl⟩ := List.mem_map.mp hu
        refine .inr ?_
        rw [defsOf_map, List.mem_flatMap]
        exact ⟨p, hp', by simp [Cmd.defs]⟩
    · intro u hu
      simp only [List.mem_cons, List.not_mem_nil, or_false] at hu
      rcases hu with rfl | rfl | rfl
      · exact .inr rfl
      · exact .inl (.inl h1)
      · exact .inl (.inl h2)

theorem static_supplied (hg : ∀ u ∈ defsOf (prelude m), S u) (hm : Consistent m) (he : m.elements = true)
    (hol : ∀ l ∈ a.loadSets, l ∈ m.loadSets) (hoc : ∀ c ∈ a.constraintSets, c ∈ m.constraintSets)
    (hl : ∀ l ∈ a.loadSets, l.skipped = false) (hc : ∀ c ∈ a.constraintSets, c.empty = true ∨ c.hasContacts = false) :
    Supplied S (linearStatic m a) := by
  refine ⟨?_, trivial⟩
  intro u hu
  simp only [List.mem_append, List.mem_map, List.mem_filter] at hu
  rcases hu with (hu | ⟨l, hl', rfl⟩) | ⟨c, ⟨hc', hce⟩, rfl⟩
  · exact base_common hg he u hu
  · exact base_load hg ⟨hol l hl', hl l hl'⟩
  · have hce' : c.empty = false := by simpa using hce
    rcases hc c hc' with h | h
    · rw [h] at hce'; cases hce'
    · exact base_constraint hg hm (hoc c hc') hce' h

theorem nonLinear_supplied (hg : ∀ u ∈ defsOf (prelude m), S u) (hm : Consistent m) (he : m.elements = true)
    (hol : ∀ l ∈ a.loadSets, l ∈ m.loadSets) (hoc : ∀ c ∈ a.constraintSets, c ∈ m.constraintSets)
    {v : Nat} {p : Option (Nat × List LoadSet)} (h1 : m.contacts.length ≤ 1) (hl : ∀ l ∈ a.loadSets, l.skipped = false)
    (hp : ∀ q ∈ p, S (.num .RESU q.1, .resultat) ∧ ∀ l ∈ q.2, Written m l) : Supplied S (nonLinear m a v p) := by
  unfold nonLinear
  simp only [List.append_assoc]
  refine supplied_append (by simp [Supplied]) ?_
  refine supplied_append (by cases p <;> simp [previousRamp, Supplied]) ?_
  rw [if_neg (by omega)]
  refine ⟨?_, trivial⟩
  intro u hu
  simp only [List.mem_append, List.mem_map, List.mem_filter, List.mem_flatMap, List.mem_cons, List.not_mem_nil, or_false,
    Bool.and_eq_true, Bool.not_eq_true'] at hu
  rcases hu with hu | hu | ⟨l, hl', rfl | rfl⟩ | ⟨c, ⟨hc', h2, h3⟩, rfl⟩ | ⟨c, hc', rfl⟩ | rfl | rfl
  · exact .inl (.inl (base_common hg he u hu))
  · cases p with
    | none => simp [previousUses] at hu
    | some q =>
      obtain ⟨hq1, hq2⟩ := hp q rfl
      simp only [previousUses, List.mem_append, List.mem_flatMap, List.mem_cons, List.not_mem_nil, or_false] at hu
      rcases hu with ⟨l, hl', rfl | rfl⟩ | rfl
      · exact .inl (.inl (base_load hg (hq2 l hl')))
      · exact .inr (by simp [previousRamp])
      · exact .inl (.inl hq1)
  · exact .inl (.inl (base_load hg ⟨hol l hl', hl l hl'⟩))
  · exact .inl (.inr (by simp))
  · exact .inl (.inl (base_constraint hg hm (hoc c hc') h3 h2))
  · exact .inl (.inl (base_contact hg hc'))
  · exact .inl (.inr (by simp))
  · exact .inl (.inr (by simp))

theorem directFreq_supplied (hg : ∀ u ∈ defsOf (prelude m), S u) (he : m.elements = true)
    (hoc : ∀ c ∈ a.constraintSets, c ∈ m.constraintSets) {v : Nat} {st : Bool} (ha : Assembled a) (hx : Excited m a)
    (hv : v ∈ m.lists) : Supplied S (directFreq m a v st) := by
  unfold directFreq
  simp only [List.append_assoc]
  refine supplied_append (assembly_supplied hg he ha hoc false (by simp)) ?_
  refine supplied_append (by cases st <;> simp [assembly_defs, Supplied]) ?_
  refine supplied_append (vectors_supplied (fun u hu => .inl (.inl (hg u hu))) he _ _ hx.2
    (.inl (.inr (by simp [assembly_defs])))) ?_
  refine ⟨?_, trivial⟩
  intro u hu
  simp only [List.mem_append, List.mem_cons, List.not_mem_nil, or_false, List.mem_flatMap] at hu
  rcases hu with (rfl | rfl | rfl | rfl) | ⟨x, hx', rfl | rfl⟩
  · exact .inl (.inl (.inr (by simp [assembly_defs])))
  · exact .inl (.inl (.inr (by simp [assembly_defs])))
  · cases st
    · exact .inl (.inl (.inr (by simp [assembly_defs])))
    · exact .inl (.inr (by simp))
  · exact .inl (.inl (.inl (base_list hg hv)))
  · refine .inr ?_
    rw [vectors_defs, List.mem_flatMap]
    exact ⟨x, hx', by simp⟩
  · exact .inl (.inl (.inl (base_table hg (hx.2 x hx').2)))

theorem buckling_supplied (hg : ∀ u ∈ defsOf (prelude m), S u) (he : m.elements = true)
    (hoc : ∀ c ∈ a.constraintSets, c ∈ m.constraintSets) {i : Nat} (ha : Assembled a)
    (hi : S (.num .RESU i, .resultat)) : Supplied S (bucklingCmds m a i) := by
  unfold bucklingCmds
  simp only [List.cons_append]
  refine ⟨by simp [hi], ?_⟩
  refine supplied_append (assembly_supplied (fun u hu => .inl (hg u hu)) he ha hoc true (fun _ => .inr rfl)) ?_
  rw [assembly_defs]
  simp [Supplied]

/-- What the analyses before supply: the results that are used later, the matrices that are reused. -/
structure Before (m : CommModel) (pre : List Analysis) (S : Name × Kind → Prop) : Prop where
  results : ∀ b ∈ pre, (m.usedInNext b = true ∨ m.canBeReused b = true) → S (.num .RESU b.id, .resultat)
  matrices : ∀ b ∈ pre, ∀ f, b.kind = .modal f → m.canBeReused b = true → S (.num .NDDL b.id, .numeDdl) ∧
    S (.num .RIGI b.id, .matrAsse) ∧ S (.num .MASS b.id, .matrAsse) ∧ S (.num .AMOR b.id, .matrAsse)

theorem reusableIn_mem {a r : Analysis} {pre post : List Analysis} (h : reusableIn a (pre ++ a :: post) = some r) :
    r ∈ pre := by
  induction pre with
  | nil => simp [reusableIn] at h
  | cons b pre ih =>
    simp only [List.cons_append, reusableIn] at h
    split at h
    · cases h
    · split at h
      · simp only [Option.some.injEq] at h; simp [h]
      · exact List.mem_cons_of_mem _ (ih h)

theorem reused_after {m : CommModel} {a r : Analysis} (hr : m.reusableFor a = some r) (hne : a.id ≠ r.id)
    {l : List Analysis} (ha : a ∈ l) : reusedIn m r true l = true := by
  induction l with
  | nil => cases ha
  | cons b l ih =>
    rw [reusedIn]
    rcases List.mem_cons.mp ha with rfl | ha
    · simp [hne, hr]
    · split
      · exact ih ha
      · simp only [Bool.not_true, Bool.false_eq_true, if_false]
        split
        · exact ih ha
        · split
          · rfl
          · exact ih ha

theorem reused_skip {m : CommModel} {r : Analysis} {p l : List Analysis} (h : r.id ∉ p.map (·.id)) :
    reusedIn m r false (p ++ r :: l) = reusedIn m r true l := by
  induction p with
  | nil => simp [reusedIn]
  | cons b p ih =>
    simp only [List.map_cons, List.mem_cons, not_or] at h
    rw [List.cons_append, reusedIn, if_neg (fun e => h.1 e.symm)]
    simpa using ih h.2

theorem canBeReused_of {m : CommModel} (hm : Consistent m) {pre post : List Analysis} {a r : Analysis}
    (hs : m.analyses = pre ++ a :: post) (hr : m.reusableFor a = some r) : r ∈ pre ∧ m.canBeReused r = true := by
  have hmem : r ∈ pre := by
    have := hr
    rw [CommModel.reusableFor, hs] at this
    exact reusableIn_mem this
  refine ⟨hmem, ?_⟩
  obtain ⟨p, q, rfl⟩ := List.append_of_mem hmem
  have hn := hm.analyses
  rw [hs] at hn
  simp only [List.append_assoc, List.cons_append, List.map_append, List.map_cons, List.nodup_append, List.nodup_cons,
    List.mem_cons, List.mem_append] at hn
  have h1 : r.id ∉ p.map (·.id) := fun h => hn.2.2 _ h _ (.inl rfl) rfl
  have h2 : a.id ≠ r.id := fun h => hn.2.1.1 (.inr (.inl h.symm))
  rw [CommModel.canBeReused, hs, List.append_assoc, List.cons_append, reused_skip h1]
  exact reused_after hr h2 (by simp)

theorem used_next {pre : List Analysis} (hb : Before m pre S) {i : Nat} (hi : Among pre i)
    (hu : ∀ b : Analysis, b.id = i → m.usedInNext b = true) : S (.num .RESU i, .resultat) := by
  obtain ⟨b, hb', rfl⟩ := hi
  exact hb.results b hb' (.inl (hu b rfl))

theorem writeAnalysis_supplied {pre post : List Analysis} (hm : Supported m) (hs : m.analyses = pre ++ a :: post)
    (hg : ∀ u ∈ defsOf (prelude m), S u) (hb : Before m pre S) : Supplied S (writeAnalysis m a) := by
  have hf := (hm.fine pre a post hs).kind
  have hc := hm.consistent
  have he := hm.elements
  have hmem : a ∈ m.analyses := by rw [hs]; simp
  have hol := hc.ownLoads a hmem
  have hoc := hc.ownConstraints a hmem
  unfold writeAnalysis
  cases hk : a.kind with
  | combination parts =>
    rw [hk] at hf
    refine combination_supplied hg hf.1 fun p hp => used_next hb (hf.2.2 p hp) ?_
    intro b hbp
    refine List.any_eq_true.mpr ⟨a, hmem, ?_⟩
    simp [hk, hbp, hp]
  | linearStatic =>
    rw [hk] at hf
    exact static_supplied hg hc he hol hoc hf.1 hf.2
  | nonLinear v p =>
    rw [hk] at hf
    refine nonLinear_supplied hg hc he hol hoc hf.1 hf.2.1 ?_
    intro q hq
    refine ⟨used_next hb (hf.2.2 q hq).1 ?_, fun l hl => ⟨?_, (hf.2.2 q hq).2 l hl⟩⟩
    swap
    · rw [Option.mem_def] at hq
      exact hc.ownPrevious a hmem v q (by rw [hk, hq]) l hl
    intro b hbp
    refine List.any_eq_true.mpr ⟨a, hmem, ?_⟩
    rw [Option.mem_def] at hq
    subst hq
    simp [hk, hbp]
  | directFreq v st =>
    rw [hk] at hf
    exact directFreq_supplied hg he hoc hf.1 hf.2.1 hf.2.2
  | modal f =>
    rw [hk] at hf
    refine supplied_append (modes_supplied hg he hf hoc _ _ _ _) ?_
    rw [modes_defs]
    simp [pfreqCmd, Supplied]
  | modalComplex f => rw [hk] at hf; exact hf.elim
  | modalFreq f residual damping e k v =>
    rw [hk] at hf
    obtain ⟨h1, h2, h3, h4, h5, h6⟩ := hf
    simp only
    cases hr : m.reusableFor a with
    | none =>
      simp only [List.append_assoc]
      refine supplied_append (modes_supplied hg he (h1 hr) hoc _ _ _ _) ?_
      refine supplied_append (by rw [modes_defs]; simp [pfreqCmd, Supplied]) ?_
      have hd : ∀ u ∈ [((.num .NDDL a.id, .numeDdl) : Name × Kind), (.num .RIGI a.id, .matrAsse), (.num .MASS a.id, .matrAsse),
          (.num .AMOR a.id, .matrAsse), (.num .MO a.id, .resultat)], u ∈ defsOf (modesOf m a .UMO .MO .IMO .JMO) := by
        rw [modes_defs, assembly_defs]; simp
      exact response_supplied (fun u hu => .inl (.inl (hg u hu))) he h3 h4 h5 h6 (.inl (.inr (hd _ (by simp))))
        (.inl (.inr (hd _ (by simp)))) (.inl (.inr (hd _ (by simp)))) (.inl (.inr (hd _ (by simp))))
        (.inl (.inr (hd _ (by simp)))) (.inr (by simp [pfreqCmd]))
    | some r =>
      obtain ⟨g, hg'⟩ := h2 r hr
      obtain ⟨hrp, hrc⟩ := canBeReused_of hc hs hr
      obtain ⟨k1, k2, k3, k4⟩ := hb.matrices r hrp g hg' hrc
      have k5 : S (reusedName r, .resultat) := by
        have := hb.results r hrp (.inr hrc)
        simpa [reusedName, hg'] using this
      simp only
      refine supplied_append (by simp [pfreqCmd, Supplied, k5]) ?_
      exact response_supplied (fun u hu => .inl (hg u hu)) he h3 h4 h5 h6 (.inl k2) (.inl k3) (.inl k1) (.inl k4) (.inl k5)
        (.inr (by simp [pfreqCmd]))
  | buckling f i =>
    rw [hk] at hf
    refine buckling_supplied hg he hoc hf.1 (used_next hb hf.2 ?_)
    intro b hbp
    refine List.any_eq_true.mpr ⟨a, hmem, ?_⟩
    simp [hk, hbp]

/-! ## After an analysis -/

theorem reusable_none {a : Analysis} (h : ∀ f b d e k v, a.kind ≠ .modalFreq f b d e k v) (m : CommModel) :
    m.reusableFor a = none := by
  have hc : ∀ b, a.canReuse b = false := by
    intro b
    unfold Analysis.canReuse
    split
    · rename_i hk; exact absurd hk (h _ _ _ _ _ _)
    · rfl
  unfold CommModel.reusableFor
  induction m.analyses with
  | nil => rfl
  | cons b l ih =>
    rw [reusableIn, hc b]
    split
    · rfl
    · simpa using ih

/-- The result of an analysis is among the names that its commands define. -/
theorem resu_defined {pre : List Analysis} (hf : Fine m pre a) :
    (Name.num .RESU a.id, Kind.resultat) ∈ defsOf (writeAnalysis m a) := by
  have hk' := hf.kind
  unfold writeAnalysis
  cases hk : a.kind with
  | combination parts => simp [combination]
  | linearStatic => simp [linearStatic]
  | nonLinear v p =>
    rw [hk] at hk'
    have : ¬ 1 < m.contacts.length := by have := hk'.1; omega
    simp [nonLinear, this]
  | directFreq v st => simp [directFreq]
  | modal f => simp [modes_defs]
  | modalComplex f => rw [hk] at hk'; exact hk'.elim
  | modalFreq f residual damping e k v =>
    rw [hk] at hk'
    have ho := hk'.2.2.2.2.2
    cases hr : m.reusableFor a <;> simp [response, pfreqCmd, harmonic_defs _ _ ho]
  | buckling f i => simp [bucklingCmds]

theorem mo_defined {f r d e k v} (hk : a.kind = .modalFreq f r d e k v) (hr : m.reusableFor a = none) :
    (Name.num .MO a.id, Kind.resultat) ∈ defsOf (writeAnalysis m a) ∧
    (Name.num .UMO a.id, Kind.resultat) ∈ defsOf (writeAnalysis m a) := by
  unfold writeAnalysis
  simp [hk, hr, modes_defs]

theorem assertions_supplied {pre post : List Analysis} (hm : Supported m) (hs : m.analyses = pre ++ a :: post)
    (hb : Before m pre S) :
    ∀ u ∈ assertionUses m a, S u ∨ u ∈ defsOf (writeAnalysis m a) := by
  have hf := hm.fine pre a post hs
  have hres := resu_defined hf
  intro u hu
  obtain ⟨k, hk, hu⟩ := List.mem_flatMap.mp hu
  cases k with
  | field =>
    simp only [List.mem_singleton] at hu
    exact .inr (hu ▸ hres)
  | frequency b =>
    cases b with
    | false => simp at hu
    | true =>
      simp only [if_true, List.mem_singleton] at hu
      subst hu
      have hh := hf.assertions hk
      cases hak : a.kind with
      | modal f =>
        have := reusable_none (a := a) (by simp [hak]) m
        right; simpa [frequencyResult, this, hak] using hres
      | buckling f i =>
        have := reusable_none (a := a) (by simp [hak]) m
        right; simpa [frequencyResult, this, hak] using hres
      | modalFreq f r d e k v =>
        cases hr : m.reusableFor a with
        | none =>
          have := (mo_defined hak hr).2
          right; simpa [frequencyResult, hr, hak] using this
        | some b =>
          have hkk := hf.kind
          rw [hak] at hkk
          obtain ⟨g, hg⟩ := hkk.2.1 b hr
          obtain ⟨h1, h2⟩ := canBeReused_of hm.consistent hs hr
          left
          have := hb.results b h1 (.inr h2)
          simpa [frequencyResult, hr, hg] using this
      | combination parts => rw [hak] at hh; exact hh.elim
      | linearStatic => rw [hak] at hh; exact hh.elim
      | nonLinear v p => rw [hak] at hh; exact hh.elim
      | directFreq v st => rw [hak] at hh; exact hh.elim
      | modalComplex f => rw [hak] at hh; exact hh.elim

theorem printed_supplied {pre : List Analysis} (hf : Fine m pre a) :
    ∀ u ∈ printed m a, u ∈ defsOf (writeAnalysis m a) := by
  have hres := resu_defined hf
  intro u hu
  unfold printed at hu
  split at hu
  · cases hu
  · rename_i hk
    rcases List.mem_append.mp hu with hu | hu
    · cases hr : m.reusableFor a with
      | none => simp only [hr, List.mem_singleton] at hu; rw [hu]; exact (mo_defined hk hr).1
      | some r => simp [hr] at hu
    · rw [List.mem_singleton.mp hu]; exact hres
  · rw [List.mem_singleton.mp hu]; exact hres

theorem tabulated_supplied {pre : List Analysis} (hf : Fine m pre a) :
    ∀ u ∈ tabulated m a, u ∈ defsOf (writeAnalysis m a) := by
  have hres := resu_defined hf
  intro u hu
  unfold tabulated at hu
  split at hu
  · cases hu
  · cases hu
  · rename_i hk
    cases hr : m.reusableFor a with
    | none => simp only [hr, List.mem_singleton] at hu; rw [hu]; exact (mo_defined hk hr).1
    | some r => simp [hr] at hu
  · rw [List.mem_singleton.mp hu]; exact hres

theorem staticPost_supplied {T : Name × Kind → Prop} (hr : T (.num .RESU a.id, .resultat)) (hc : ∀ u ∈ m.common, T u) :
    Supplied T (staticPost m a) := by
  unfold staticPost
  cases a.isStatic
  · trivial
  · cases m.beams
    · simp only [if_true, Bool.false_eq_true, if_false, List.append_nil]
      refine ⟨?_, by simp [hr], by simp, trivial⟩
      intro u hu
      rcases List.mem_cons.mp hu with rfl | hu
      · exact hr
      · exact hc u hu
    · simp only [if_true]
      refine ⟨?_, by simp [hr], by simp, by simp [hr], by simp, by simp, by simp, trivial⟩
      intro u hu
      rcases List.mem_cons.mp hu with rfl | hu
      · exact hr
      · exact hc u hu

theorem stressPost_supplied {T : Name × Kind → Prop} (hr : T (.num .RESU a.id, .resultat)) (hc : ∀ u ∈ m.common, T u)
    (hmod : T (.plain .MODMECA, .modele)) : Supplied T (stressPost m a) := by
  refine supplied_of_plain ?_
  intro c h
  unfold stressPost at h
  rcases List.mem_append.mp h with h | h
  · cases hs : m.sigma <;> simp [hs] at h
    subst h
    intro u hu
    rcases List.mem_cons.mp hu with rfl | hu
    · exact hr
    · exact hc u hu
  · cases hs : a.vonMises <;> simp [hs] at h
    subst h
    intro u hu
    simp only [List.mem_cons, List.not_mem_nil, or_false] at hu
    rcases hu with rfl | rfl
    · exact hr
    · exact hmod

theorem printPost_supplied {T : Name × Kind → Prop} (hr : T (.num .RESU a.id, .resultat)) (hp : ∀ u ∈ printed m a, T u)
    (ht : ∀ u ∈ tabulated m a, T u) (ho : a.displacements = true → a.frequencies = []) : Supplied T (printPost m a) := by
  unfold printPost
  simp only [List.cons_append, List.nil_append]
  refine ⟨hp, ?_⟩
  cases hd : a.displacements
  · simp only [Bool.false_eq_true, if_false, List.cons_append, List.nil_append]
    exact ⟨ht, by simp, by simp, by simp, trivial⟩
  · simp [displacementTable, ho hd, Supplied, hr]

theorem printPost_defs (ho : a.displacements = true → a.frequencies = []) : defsOf (printPost m a) =
    [(.num .RETB a.id, .table), (.num .unit a.id, .unite)] := by
  unfold printPost
  cases hd : a.displacements
  · simp
  · simp [displacementTable, ho hd]

theorem staticPost_defs : defsOf (staticPost m a) = if a.isStatic then
    (.num .CRESU a.id, .table) :: (if m.beams then [(.num .TBLO a.id, .table), (.num .uloc a.id, .unite)] else []) else [] := by
  unfold staticPost
  cases a.isStatic <;> cases m.beams <;> simp

theorem stressPost_defs : defsOf (stressPost m a) = [] := by
  unfold stressPost
  cases m.sigma <;> cases a.vonMises <;> simp

theorem body_supplied {pre post : List Analysis} (hm : Supported m) (hs : m.analyses = pre ++ a :: post)
    (hg : ∀ u ∈ defsOf (prelude m), S u) (hb : Before m pre S) : Supplied S (analysisBody m a) := by
  have hf := hm.fine pre a post hs
  have hres := resu_defined hf
  have hc := base_common hg hm.elements
  unfold analysisBody
  simp only [List.append_assoc]
  refine supplied_append (writeAnalysis_supplied hm hs hg hb) ?_
  refine supplied_append (staticPost_supplied (.inr hres) fun u hu => .inl (hc u hu)) ?_
  refine supplied_append (stressPost_supplied (.inl (.inr hres)) (fun u hu => .inl (.inl (hc u hu)))
    (.inl (.inl (base_modele hg)))) ?_
  rw [List.cons_append, List.nil_append]
  refine ⟨?_, ?_⟩
  · intro u hu
    exact .inl (.inl (assertions_supplied hm hs hb u hu))
  · exact printPost_supplied (.inl (.inl (.inr hres))) (fun u hu => .inl (.inl (.inr (printed_supplied hf u hu))))
      (fun u hu => .inl (.inl (.inr (tabulated_supplied hf u hu)))) hf.outputs

theorem body_defs {pre : List Analysis} (hf : Fine m pre a) : defsOf (analysisBody m a) =
    defsOf (writeAnalysis m a) ++ ((if a.isStatic then
      (.num .CRESU a.id, .table) :: (if m.beams then [(.num .TBLO a.id, .table), (.num .uloc a.id, .unite)] else []) else []) ++
    [(.num .RETB a.id, .table), (.num .unit a.id, .unite)]) := by
  simp [analysisBody, staticPost_defs, stressPost_defs, printPost_defs hf.outputs]

/-! ## The names are defined once and destroyed once -/

/-- Groups of names that are apart. -/
def group : Name → Nat
  | .num .FSIG _ => 0
  | .num .NDDL _ => 1
  | .num .RIEL _ => 1
  | .num .RIGI _ => 1
  | .num .RGEL _ => 1
  | .num .RIGE _ => 1
  | .num .MAEL _ => 1
  | .num .MASS _ => 1
  | .num .AMEL _ => 1
  | .num .AMOR _ => 1
  | .num .UMO _ => 2
  | .num .MO _ => 2
  | .num .IMO _ => 2
  | .num .JMO _ => 2
  | .num .AMST _ => 2
  | .num .pfreq _ => 3
  | .num .MOSTA _ => 4
  | .num .RESVE _ => 4
  | .num .modes _ => 4
  | .two .VE _ _ => 5
  | .two .FX _ _ => 5
  | .num .NDDLG _ => 6
  | .num .MASSG _ => 6
  | .num .RIGIG _ => 6
  | .num .AMORG _ => 6
  | .two .VG _ _ => 6
  | .num .AMMOI _ => 7
  | .num .AMMOS _ => 7
  | .num .AMMOT _ => 7
  | .num .AMMO _ => 7
  | .num .efreq _ => 8
  | .pad .LSPR _ => 8
  | .pad .LSIP _ => 8
  | .num .CRESU _ => 12
  | .num .TBLO _ => 12
  | .num .uloc _ => 12
  | .num .RETB _ => 13
  | .num .unit _ => 13
  | _ => 9

theorem nodup_groups {x y : List Name} (P : Name → Prop) (hx : x.Nodup) (hy : y.Nodup) (h1 : ∀ n ∈ x, P n)
    (h2 : ∀ n ∈ y, ¬ P n) : (x ++ y).Nodup := by
  rw [List.nodup_append]
  refine ⟨hx, hy, ?_⟩
  rintro n hn n' hn' rfl
  exact h2 n hn' (h1 n hn)

/-- The names of definitions. -/
def namesOf (cs : List Cmd) : List Name := (defsOf cs).map Prod.fst

@[simp] theorem namesOf_append (x y : List Cmd) : namesOf (x ++ y) = namesOf x ++ namesOf y := by simp [namesOf]

theorem assembly_names (b : Bool) : (namesOf (assembly m a b)).Nodup ∧ ∀ n ∈ namesOf (assembly m a b), group n = 1 := by
  rw [namesOf, assembly_defs]
  cases b <;> simp [group]

theorem vectors_names (i d : Nat) {xs : List Excitation} (hx : (xs.map (·.id)).Nodup) :
    (namesOf (xs.flatMap (excitationVectors m i d))).Nodup ∧
    ∀ n ∈ namesOf (xs.flatMap (excitationVectors m i d)), group n = 5 := by
  rw [namesOf, vectors_defs, List.map_flatMap]
  constructor
  · refine nodup_flatMap_of _ _ (·.id) hx (by simp) ?_
    intro x _ y _ n hn hn'
    simp at hn hn'
    rcases hn with rfl | rfl <;> simp at hn' <;> exact hn'
  · intro n hn
    obtain ⟨x, _, hn⟩ := List.mem_flatMap.mp hn
    simp at hn
    rcases hn with rfl | rfl <;> rfl

theorem basis_names (i d : Nat) (r : Name) (residual : Bool) :
    (namesOf (basis i d r residual)).Nodup ∧ ∀ n ∈ namesOf (basis i d r residual), group n = 4 := by
  unfold basis
  cases residual <;> simp [namesOf, group]

theorem projection_names (i d : Nat) (damped : Bool) {xs : List Excitation} (hx : (xs.map (·.id)).Nodup) :
    (namesOf (projection i d damped xs)).Nodup ∧ ∀ n ∈ namesOf (projection i d damped xs), group n = 6 := by
  have hv : (xs.map fun x => Name.two .VG i x.id).Nodup := by
    have := hx.map (f := fun s => Name.two .VG i s) (by intro p q h; simpa using h)
    simpa [List.map_map, Function.comp_def] using this
  rw [namesOf, projection_defs]
  constructor
  · simp only [List.map_append, List.map_map, Function.comp_def]
    refine nodup_groups (fun n => ∃ t, n = .num t i) ?_ hv ?_ ?_
    · cases damped <;> simp
    · cases damped <;> simp
    · simp
  · intro n hn
    cases damped
    · simp at hn
      rcases hn with rfl | rfl | rfl | rfl | ⟨x, _, rfl⟩ <;> rfl
    · simp at hn
      rcases hn with rfl | rfl | rfl | ⟨x, _, rfl⟩ <;> rfl

theorem damping_names (i : Nat) (d : Option (DampingKind × Nat)) :
    (namesOf (dampingCmds i d)).Nodup ∧ ∀ n ∈ namesOf (dampingCmds i d), group n = 7 := by
  rcases d with _ | ⟨k, t⟩ <;> simp [dampingCmds, namesOf, group]

theorem frequency_names (i e : Nat) (k : FrequencyKind) :
    (namesOf (frequencyCmds i e k)).Nodup ∧ ∀ n ∈ namesOf (frequencyCmds i e k), group n = 8 := by
  cases k <;> simp [frequencyCmds, namesOf, group]

theorem response_names {d : Nat} {r : Name} {residual : Bool} {damping : Option (DampingKind × Nat)} {e v : Nat}
    {k : FrequencyKind} (hx : (a.excitations.map (·.id)).Nodup) (ho : a.frequencies = []) :
    (namesOf (response m a d r residual damping e k v)).Nodup ∧
    ∀ n ∈ namesOf (response m a d r residual damping e k v), 4 ≤ group n ∧ group n ≤ 9 := by
  obtain ⟨b1, b2⟩ := basis_names a.id d r residual
  obtain ⟨c1, c2⟩ := vectors_names (m := m) a.id d hx
  obtain ⟨d1, d2⟩ := projection_names a.id d damping.isSome hx
  obtain ⟨e1, e2⟩ := damping_names a.id damping
  obtain ⟨f1, f2⟩ := frequency_names a.id e k
  have g1 : namesOf (harmonic a damping.isSome (frequencyName v k)) = [.num .GENE a.id, .num .RESU a.id] := by
    rw [namesOf, harmonic_defs _ _ ho]; rfl
  unfold response
  simp only [namesOf_append, g1]
  generalize namesOf (basis a.id d r residual) = B at *
  generalize namesOf (a.excitations.flatMap (excitationVectors m a.id d)) = C at *
  generalize namesOf (projection a.id d damping.isSome a.excitations) = D at *
  generalize namesOf (dampingCmds a.id damping) = E at *
  generalize namesOf (frequencyCmds a.id e k) = F at *
  have bound : ∀ n ∈ B ++ C ++ D ++ E ++ F ++ [.num .GENE a.id, .num .RESU a.id], 4 ≤ group n ∧ group n ≤ 9 := by
    intro n hn
    simp only [List.mem_append, List.mem_cons, List.not_mem_nil, or_false] at hn
    rcases hn with ((((hn | hn) | hn) | hn) | hn) | rfl | rfl
    · rw [b2 n hn]; omega
    · rw [c2 n hn]; omega
    · rw [d2 n hn]; omega
    · rw [e2 n hn]; omega
    · rw [f2 n hn]; omega
    · simp [group]
    · simp [group]
  refine ⟨?_, bound⟩
  refine nodup_groups (fun n => group n < 9) (nodup_groups (fun n => group n < 8) (nodup_groups (fun n => group n < 7)
    (nodup_groups (fun n => group n < 6) (nodup_groups (fun n => group n < 5) b1 c1 ?_ ?_) d1 ?_ ?_) e1 ?_ ?_) f1 ?_ ?_)
    (by simp) ?_ ?_ <;> intro n hn
  · rw [b2 n hn]; omega
  · rw [c2 n hn]; omega
  · rcases List.mem_append.mp hn with hn | hn
    · rw [b2 n hn]; omega
    · rw [c2 n hn]; omega
  · rw [d2 n hn]; omega
  · simp only [List.mem_append] at hn
    rcases hn with (hn | hn) | hn
    · rw [b2 n hn]; omega
    · rw [c2 n hn]; omega
    · rw [d2 n hn]; omega
  · rw [e2 n hn]; omega
  · simp only [List.mem_append] at hn
    rcases hn with ((hn | hn) | hn) | hn
    · rw [b2 n hn]; omega
    · rw [c2 n hn]; omega
    · rw [d2 n hn]; omega
    · rw [e2 n hn]; omega
  · rw [f2 n hn]; omega
  · simp only [List.mem_append] at hn
    rcases hn with (((hn | hn) | hn) | hn) | hn
    · rw [b2 n hn]; omega
    · rw [c2 n hn]; omega
    · rw [d2 n hn]; omega
    · rw [e2 n hn]; omega
    · rw [f2 n hn]; omega
  · simp at hn
    rcases hn with rfl | rfl <;> simp [group]

theorem modes_names : (namesOf (modesOf m a .UMO .MO .IMO .JMO)).Nodup ∧
    ∀ n ∈ namesOf (modesOf m a .UMO .MO .IMO .JMO), group n ≤ 2 := by
  rw [namesOf, modes_defs, assembly_defs]
  simp [group]

theorem writeAnalysis_names {pre : List Analysis} (hf : Fine m pre a) :
    (namesOf (writeAnalysis m a)).Nodup ∧ ∀ n ∈ namesOf (writeAnalysis m a), group n ≤ 9 := by
  have hk' := hf.kind
  unfold writeAnalysis
  cases hk : a.kind with
  | combination parts =>
    rw [hk] at hk'
    have hd : namesOf (combination a.id parts) =
        (parts.map fun p => Name.two .D a.id p) ++ [.num .DEP a.id, .num .RESU a.id] := by
      simp only [combination, namesOf, defsOf_append, defsOf_map, Cmd.defs, List.map_append, List.map_flatMap]
      congr 1
      clear hk hk'
      induction parts <;> simp_all
    simp only [hd]
    constructor
    · refine nodup_groups (fun n => ∃ s, n = .two .D a.id s) ?_ (by simp) (by simp) (by simp)
      exact hk'.2.1.map (by intro p q h; simpa using h)
    · simp [group, or_imp, forall_and]
  | linearStatic => simp [linearStatic, namesOf, group]
  | nonLinear v p =>
    rw [hk] at hk'
    have : ¬ 1 < m.contacts.length := by have := hk'.1; omega
    cases p <;> simp [nonLinear, namesOf, group, this, previousRamp]
  | directFreq v st =>
    rw [hk] at hk'
    obtain ⟨b1, b2⟩ := assembly_names (m := m) (a := a) false
    obtain ⟨c1, c2⟩ := vectors_names (m := m) a.id a.id hk'.2.1.1
    simp only [directFreq, namesOf_append]
    generalize namesOf (assembly m a false) = B at *
    generalize namesOf (a.excitations.flatMap (excitationVectors m a.id a.id)) = C at *
    have hs : ∀ n ∈ namesOf (if st then [.define (.num .AMST a.id) .matrAsse [(.num .RIGI a.id, .matrAsse)]] else []),
        group n = 2 := by cases st <;> simp [namesOf, group]
    constructor
    · refine nodup_groups (fun n => group n < 9) (nodup_groups (fun n => group n < 5) (nodup_groups (fun n => group n < 2)
        b1 ?_ ?_ ?_) c1 ?_ ?_) (by simp [namesOf]) ?_ ?_
      · cases st <;> simp [namesOf]
      · intro n hn; rw [b2 n hn]; omega
      · intro n hn; rw [hs n hn]; omega
      · intro n hn
        rcases List.mem_append.mp hn with hn | hn
        · rw [b2 n hn]; omega
        · rw [hs n hn]; omega
      · intro n hn; rw [c2 n hn]; omega
      · intro n hn
        simp only [List.mem_append] at hn
        rcases hn with (hn | hn) | hn
        · rw [b2 n hn]; omega
        · rw [hs n hn]; omega
        · rw [c2 n hn]; omega
      · simp [namesOf, group]
    · intro n hn
      simp only [List.mem_append] at hn
      rcases hn with ((hn | hn) | hn) | hn
      · rw [b2 n hn]; omega
      · rw [hs n hn]; omega
      · rw [c2 n hn]; omega
      · simp [namesOf] at hn; subst hn; simp [group]
  | modal f => simp [namesOf, modes_defs, assembly_defs, pfreqCmd, group]
  | modalComplex f => rw [hk] at hk'; exact hk'.elim
  | modalFreq f residual damping e k v =>
    rw [hk] at hk'
    have hx := hk'.2.2.1.1
    have ho := hk'.2.2.2.2.2
    obtain ⟨b1, b2⟩ := modes_names (m := m) (a := a)
    cases hr : m.reusableFor a with
    | none =>
      obtain ⟨c1, c2⟩ := response_names (m := m) (d := a.id) (r := .num .MO a.id) (residual := residual) (damping := damping)
        (e := e) (v := v) (k := k) hx ho
      simp only [namesOf_append]
      constructor
      · refine nodup_groups (fun n => group n < 4) (nodup_groups (fun n => group n < 3) b1 (by simp [namesOf, pfreqCmd]) ?_ ?_)
          c1 ?_ ?_
        · intro n hn; have := b2 n hn; omega
        · simp [namesOf, pfreqCmd, group]
        · intro n hn
          rcases List.mem_append.mp hn with hn | hn
          · have := b2 n hn; omega
          · simp [namesOf, pfreqCmd] at hn; subst hn; simp [group]
        · intro n hn; have := c2 n hn; omega
      · intro n hn
        simp only [List.mem_append] at hn
        rcases hn with (hn | hn) | hn
        · have := b2 n hn; omega
        · simp [namesOf, pfreqCmd] at hn; subst hn; simp [group]
        · exact (c2 n hn).2
    | some r =>
      obtain ⟨c1, c2⟩ := response_names (m := m) (d := r.id) (r := reusedName r) (residual := residual) (damping := damping)
        (e := e) (v := v) (k := k) hx ho
      simp only [namesOf_append]
      constructor
      · refine nodup_groups (fun n => group n < 4) (by simp [namesOf, pfreqCmd]) c1 ?_ ?_
        · simp [namesOf, pfreqCmd, group]
        · intro n hn; have := c2 n hn; omega
      · intro n hn
        simp only [List.mem_append] at hn
        rcases hn with hn | hn
        · simp [namesOf, pfreqCmd] at hn; subst hn; simp [group]
        · exact (c2 n hn).2
  | buckling f i =>
    have := assembly_names (m := m) (a := a) true
    simp [bucklingCmds, namesOf, assembly_defs, group]

theorem body_names {pre : List Analysis} (hf : Fine m pre a) : (namesOf (analysisBody m a)).Nodup := by
  obtain ⟨h1, h2⟩ := writeAnalysis_names hf
  rw [namesOf, body_defs hf, List.map_append]
  refine nodup_groups (fun n => group n ≤ 9) h1 ?_ h2 ?_
  · cases a.isStatic <;> cases m.beams <;> simp
  · cases a.isStatic <;> cases m.beams <;> simp [group]

/-- The names that the commands of an analysis may define. -/
def Owned (a : Analysis) : Name → Prop
  | .num _ i => i = a.id
  | .two _ i _ => i = a.id
  | .pad .LST v => ∃ p, a.kind = .nonLinear v p
  | .pad .LSPR _ => True
  | .pad .LSIP _ => True
  | _ => False

theorem assembly_owned (b : Bool) : ∀ n ∈ namesOf (assembly m a b), Owned a n := by
  rw [namesOf, assembly_defs]
  cases b <;> simp [Owned]

theorem vectors_owned (d : Nat) (xs : List Excitation) :
    ∀ n ∈ namesOf (xs.flatMap (excitationVectors m a.id d)), Owned a n := by
  rw [namesOf, vectors_defs, List.map_flatMap]
  intro n hn
  obtain ⟨x, _, hn⟩ := List.mem_flatMap.mp hn
  simp at hn
  rcases hn with rfl | rfl <;> rfl

theorem projection_owned (d : Nat) (damped : Bool) (xs : List Excitation) :
    ∀ n ∈ namesOf (projection a.id d damped xs), Owned a n := by
  rw [namesOf, projection_defs]
  intro n hn
  cases damped
  · simp at hn
    rcases hn with rfl | rfl | rfl | rfl | ⟨x, _, rfl⟩ <;> rfl
  · simp at hn
    rcases hn with rfl | rfl | rfl | ⟨x, _, rfl⟩ <;> rfl

theorem response_owned {d : Nat} {r : Name} {residual : Bool} {damping : Option (DampingKind × Nat)} {e v : Nat}
    {k : FrequencyKind} (ho : a.frequencies = []) :
    ∀ n ∈ namesOf (response m a d r residual damping e k v), Owned a n := by
  have h1 : ∀ n ∈ namesOf (basis a.id d r residual), Owned a n := by
    unfold basis; cases residual <;> simp [namesOf, Owned]
  have h2 : ∀ n ∈ namesOf (dampingCmds a.id damping), Owned a n := by
    rcases damping with _ | ⟨k, t⟩ <;> simp [dampingCmds, namesOf, Owned]
  have h3 : ∀ n ∈ namesOf (frequencyCmds a.id e k), Owned a n := by
    cases k <;> simp [frequencyCmds, namesOf, Owned]
  have h4 : namesOf (harmonic a damping.isSome (frequencyName v k)) = [.num .GENE a.id, .num .RESU a.id] := by
    rw [namesOf, harmonic_defs _ _ ho]; rfl
  intro n hn
  unfold response at hn
  simp only [namesOf_append, List.mem_append, h4, List.mem_cons, List.not_mem_nil, or_false] at hn
  rcases hn with ((((hn | hn) | hn) | hn) | hn) | rfl | rfl
  · exact h1 n hn
  · exact vectors_owned _ _ n hn
  · exact projection_owned _ _ _ n hn
  · exact h2 n hn
  · exact h3 n hn
  · rfl
  · rfl

theorem modes_owned (u r t j : Tag) : ∀ n ∈ namesOf (modesOf m a u r t j), Owned a n := by
  rw [namesOf, modes_defs, assembly_defs]
  simp [Owned]

theorem writeAnalysis_owned {pre : List Analysis} (hf : Fine m pre a) : ∀ n ∈ namesOf (writeAnalysis m a), Owned a n := by
  have hk' := hf.kind
  unfold writeAnalysis
  cases hk : a.kind with
  | combination parts =>
    intro n hn
    simp only [combination, namesOf, defsOf_append, defsOf_map, Cmd.defs, List.map_append, List.map_flatMap, List.mem_append,
      List.mem_flatMap] at hn
    rcases hn with ⟨p, _, hn⟩ | hn
    · simp at hn; subst hn; rfl
    · simp at hn; rcases hn with rfl | rfl <;> rfl
  | linearStatic => simp [linearStatic, namesOf, Owned]
  | nonLinear v p =>
    rw [hk] at hk'
    have : ¬ 1 < m.contacts.length := by have := hk'.1; omega
    cases p <;> simp [nonLinear, namesOf, Owned, this, previousRamp, hk]
  | directFreq v st =>
    intro n hn
    simp only [directFreq, namesOf_append, List.mem_append] at hn
    rcases hn with ((hn | hn) | hn) | hn
    · exact assembly_owned _ n hn
    · cases st <;> simp [namesOf] at hn
      subst hn; rfl
    · exact vectors_owned _ _ n hn
    · simp [namesOf] at hn; subst hn; rfl
  | modal f =>
    intro n hn
    simp only [namesOf_append, List.mem_append] at hn
    rcases hn with hn | hn
    · exact modes_owned _ _ _ _ n hn
    · simp [namesOf, pfreqCmd] at hn; subst hn; rfl
  | modalComplex f => rw [hk] at hk'; exact hk'.elim
  | modalFreq f residual damping e k v =>
    rw [hk] at hk'
    have ho := hk'.2.2.2.2.2
    intro n hn
    cases hr : m.reusableFor a with
    | none =>
      simp only [hr, namesOf_append, List.mem_append] at hn
      rcases hn with (hn | hn) | hn
      · exact modes_owned _ _ _ _ n hn
      · simp [namesOf, pfreqCmd] at hn; subst hn; rfl
      · exact response_owned ho n hn
    | some r =>
      simp only [hr, namesOf_append, List.mem_append] at hn
      rcases hn with hn | hn
      · simp [namesOf, pfreqCmd] at hn; subst hn; rfl
      · exact response_owned ho n hn
  | buckling f i => simp [bucklingCmds, namesOf, assembly_defs, Owned]

theorem body_names_eq {pre : List Analysis} (hf : Fine m pre a) : namesOf (analysisBody m a) =
    namesOf (writeAnalysis m a) ++ (staticDestroyed m a ++ [.num .RETB a.id, .num .unit a.id]) := by
  rw [namesOf, body_defs hf, List.map_append, namesOf, staticDestroyed]
  cases a.isStatic <;> cases m.beams <;> rfl

theorem static_names : (staticDestroyed m a).Nodup ∧ ∀ n ∈ staticDestroyed m a, group n = 12 ∧ Owned a n := by
  unfold staticDestroyed
  cases a.isStatic <;> cases m.beams <;> simp [group, Owned]

theorem body_owned {pre : List Analysis} (hf : Fine m pre a) : ∀ n ∈ namesOf (analysisBody m a), Owned a n := by
  intro n hn
  rw [body_names_eq hf] at hn
  simp only [List.mem_append, List.mem_cons, List.not_mem_nil, or_false] at hn
  rcases hn with hn | hn | rfl | rfl
  · exact writeAnalysis_owned hf n hn
  · exact (static_names.2 n hn).2
  · rfl
  · rfl

/-! ## What is destroyed -/

/-- Names that are not results of analyses, nor lists of instants. -/
def Local : Name → Prop
  | .num .RESU _ => False
  | .num _ _ => True
  | .two _ _ _ => True
  | .pad .LSPR _ => True
  | .pad .LSIP _ => True
  | _ => False

theorem assemblyDestroyed_facts (b : Bool) : (assemblyDestroyed m a b).Nodup ∧
    ∀ n ∈ assemblyDestroyed m a b, group n = 1 ∧ Local n ∧ n ∈ namesOf (assembly m a b) := by
  rw [namesOf, assembly_defs]
  unfold assemblyDestroyed
  cases m.canBeReused a <;> cases b <;> simp [group, Local]

theorem excitationDestroyed_eq (d : Nat) (xs : List Excitation) :
    xs.flatMap (excitationDestroyed a.id) = namesOf (xs.flatMap (excitationVectors m a.id d)) := by
  rw [namesOf, vectors_defs, List.map_flatMap]
  rfl

theorem vectors_local (d : Nat) (xs : List Excitation) :
    ∀ n ∈ namesOf (xs.flatMap (excitationVectors m a.id d)), Local n := by
  rw [namesOf, vectors_defs, List.map_flatMap]
  intro n hn
  obtain ⟨x, _, hn⟩ := List.mem_flatMap.mp hn
  simp at hn
  rcases hn with rfl | rfl <;> trivial

theorem modesDestroyed_facts : (modesDestroyed m a).Nodup ∧
    ∀ n ∈ modesDestroyed m a, group n ≤ 2 ∧ Local n ∧ n ∈ namesOf (modesOf m a .UMO .MO .IMO .JMO) := by
  rw [namesOf, modes_defs, assembly_defs]
  unfold modesDestroyed assemblyDestroyed
  cases m.canBeReused a <;> simp [group, Local]

theorem responseDestroyed_facts {d : Nat} {r : Name} {residual : Bool} {damping : Option (DampingKind × Nat)} {e v : Nat}
    {k : FrequencyKind} (hx : (a.excitations.map (·.id)).Nodup) (ho : a.frequencies = []) (hd : DampingFine m damping)
    (hk : FrequenciesFine m e v k) :
    (responseDestroyed a residual damping e k).Nodup ∧
    (∀ n ∈ responseDestroyed a residual damping e k, 4 ≤ group n ∧ group n ≤ 9 ∧ Local n ∧
      n ∈ namesOf (response m a d r residual damping e k v)) ∧
    ∀ n ∈ namesOf (response m a d r residual damping e k v), (∃ i, n = .pad .LSPR i) ∨ (∃ i, n = .pad .LSIP i) →
      n ∈ responseDestroyed a residual damping e k := by
  obtain ⟨c1, c2⟩ := vectors_names (m := m) a.id d hx
  have c3 := vectors_local (m := m) (a := a) d a.excitations
  have hv : (a.excitations.map fun x => Name.two .VG a.id x.id).Nodup := by
    have := hx.map (f := fun s => Name.two .VG a.id s) (by intro p q h; simpa using h)
    simpa [List.map_map, Function.comp_def] using this
  have hpn : namesOf (projection a.id d damping.isSome a.excitations) =
      [.num .NDDLG a.id, .num .MASSG a.id, .num .RIGIG a.id] ++ (if damping.isSome then [] else [.num .AMORG a.id]) ++
      a.excitations.map fun x => Name.two .VG a.id x.id := by
    rw [namesOf, projection_defs]
    cases damping.isSome <;> simp
  have hh : namesOf (harmonic a damping.isSome (frequencyName v k)) = [.num .GENE a.id, .num .RESU a.id] := by
    rw [namesOf, harmonic_defs _ _ ho]; rfl
  unfold responseDestroyed response
  rw [excitationDestroyed_eq (m := m) d]
  simp only [namesOf_append, hpn, hh]
  generalize namesOf (a.excitations.flatMap (excitationVectors m a.id d)) = C at *
  generalize hV : (a.excitations.map fun x => Name.two .VG a.id x.id) = V at *
  have v2 : ∀ n ∈ V, group n = 6 ∧ Local n ∧ ∃ s, n = .two .VG a.id s := by
    rw [← hV]; simp [group, Local]
  have res : ∀ n ∈ (if residual then [Name.num .RESVE a.id, Name.num .MOSTA a.id] else []), group n = 4 ∧ Local n ∧
      n ∈ namesOf (basis a.id d r residual) := by
    unfold basis; cases residual <;> simp [namesOf, group, Local]
  have damp : (dampingDestroyed a.id damping).Nodup ∧ ∀ n ∈ dampingDestroyed a.id damping, Local n ∧
      ((n = .num .AMORG a.id ∧ damping.isSome = false) ∨ (group n = 7 ∧ n ∈ namesOf (dampingCmds a.id damping))) := by
    rcases damping with _ | ⟨_ | _, t⟩ <;> simp [dampingDestroyed, dampingCmds, namesOf, group, Local]
  have freq : (frequencyDestroyed e k).Nodup ∧ ∀ n ∈ frequencyDestroyed e k, group n = 8 ∧ Local n ∧
      n ∈ namesOf (frequencyCmds a.id e k) := by
    cases k <;> simp [frequencyDestroyed, frequencyCmds, namesOf, group, Local]
  refine ⟨?_, ?_, ?_⟩
  · refine nodup_groups (fun n => group n < 9) (nodup_groups (fun n => group n < 8) (nodup_groups
      (fun n => group n < 7 ∧ n ≠ .num .AMORG a.id) (nodup_groups (fun n => ∀ s, n ≠ .two .VG a.id s)
      (nodup_groups (fun n => group n < 6) (nodup_groups (fun n => group n < 5) ?_ c1 ?_ ?_) (by simp) ?_ ?_) hv ?_ ?_)
      damp.1 ?_ ?_) freq.1 ?_ ?_) (by simp) ?_ ?_
    · cases residual <;> simp
    · intro n hn; have := (res n hn).1; omega
    · intro n hn; have := c2 n hn; omega
    · intro n hn
      rcases List.mem_append.mp hn with hn | hn
      · have := (res n hn).1; omega
      · have := c2 n hn; omega
    · simp [group]
    · intro n hn s hs
      simp only [List.mem_append] at hn
      subst hs
      rcases hn with (hn | hn) | hn
      · have := (res _ hn).1; simp [group] at this
      · have := c2 _ hn; simp [group] at this
      · simp at hn
    · intro n hn hs
      obtain ⟨s, rfl⟩ := (v2 n hn).2.2
      exact hs s rfl
    · intro n hn
      simp only [List.mem_append] at hn
      rcases hn with ((hn | hn) | hn) | hn
      · have := (res n hn).1; exact ⟨by omega, by rintro rfl; simp [group] at this⟩
      · have := c2 n hn; exact ⟨by omega, by rintro rfl; simp [group] at this⟩
      · simp at hn; rcases hn with rfl | rfl | rfl <;> simp [group]
      · obtain ⟨h1, _, s, rfl⟩ := v2 n hn
        exact ⟨by omega, by simp⟩
    · intro n hn hP
      rcases (damp.2 n hn).2 with ⟨rfl, _⟩ | ⟨h, _⟩
      · exact hP.2 rfl
      · have := hP.1; omega
    · intro n hn
      simp only [List.mem_append] at hn
      rcases hn with (((hn | hn) | hn) | hn) | hn
      · have := (res n hn).1; omega
      · have := c2 n hn; omega
      · simp at hn; rcases hn with rfl | rfl | rfl <;> simp [group]
      · have := (v2 n hn).1; omega
      · rcases (damp.2 n hn).2 with ⟨rfl, _⟩ | ⟨h, _⟩
        · simp [group]
        · omega
    · intro n hn; have := (freq.2 n hn).1; omega
    · intro n hn
      simp only [List.mem_append] at hn
      rcases hn with ((((hn | hn) | hn) | hn) | hn) | hn
      · have := (res n hn).1; omega
      · have := c2 n hn; omega
      · simp at hn; rcases hn with rfl | rfl | rfl <;> simp [group]
      · have := (v2 n hn).1; omega
      · rcases (damp.2 n hn).2 with ⟨rfl, _⟩ | ⟨h, _⟩
        · simp [group]
        · omega
      · have := (freq.2 n hn).1; omega
    · simp [group]
  · intro n hn
    simp only [List.mem_append] at hn ⊢
    rcases hn with (((((hn | hn) | hn) | hn) | hn) | hn) | hn
    · obtain ⟨h1, h2, h3⟩ := res n hn; exact ⟨by omega, by omega, h2, by tauto⟩
    · have := c2 n hn; exact ⟨by omega, by omega, c3 n hn, by tauto⟩
    · simp at hn; rcases hn with rfl | rfl | rfl <;> simp [group, Local]
    · obtain ⟨h1, h2, h3⟩ := v2 n hn; exact ⟨by omega, by omega, h2, by tauto⟩
    · obtain ⟨h1, h2⟩ := damp.2 n hn
      rcases h2 with ⟨rfl, h3⟩ | ⟨h3, h4⟩
      · simp [group, Local, h3]
      · exact ⟨by omega, by omega, h1, by tauto⟩
    · obtain ⟨h1, h2, h3⟩ := freq.2 n hn; exact ⟨by omega, by omega, h2, by tauto⟩
    · simp at hn; subst hn; simp [group, Local]
  · intro n hn hp
    have hg : group n = 8 := by rcases hp with ⟨i, rfl⟩ | ⟨i, rfl⟩ <;> rfl
    have hF : n ∈ namesOf (frequencyCmds a.id e k) := by
      simp only [List.mem_append] at hn
      rcases hn with ((((hn | hn) | hn) | hn) | hn) | hn
      · have := (basis_names a.id d r residual).2 n hn; omega
      · have := c2 n hn; omega
      · rcases hn with (hn | hn) | hn
        · simp at hn; rcases hn with rfl | rfl | rfl <;> simp [group] at hg
        · cases hs : damping.isSome <;> simp [hs] at hn
          subst hn; simp [group] at hg
        · have := (v2 n hn).1; omega
      · have := (damping_names a.id damping).2 n hn; omega
      · exact hn
      · simp at hn; rcases hn with rfl | rfl <;> simp [group] at hg
    have : n ∈ frequencyDestroyed e k := by
      cases k
      · simpa [frequencyCmds, frequencyDestroyed, namesOf] using hF
      · exact hk.elim
      · simp [frequencyCmds, namesOf] at hF
    simp only [List.mem_append]
    tauto

theorem analysisDestroyed_facts {pre : List Analysis} (hf : Fine m pre a) :
    (analysisDestroyed m a).Nodup ∧
    (∀ n ∈ analysisDestroyed m a, group n ≤ 9 ∧ Local n ∧ n ∈ namesOf (writeAnalysis m a)) ∧
    ∀ n ∈ namesOf (writeAnalysis m a), (∃ i, n = .pad .LSPR i) ∨ (∃ i, n = .pad .LSIP i) → n ∈ analysisDestroyed m a := by
  have hk' := hf.kind
  have small : (∀ n ∈ namesOf (writeAnalysis m a), group n ≠ 8) → ∀ n ∈ namesOf (writeAnalysis m a),
      (∃ i, n = .pad .LSPR i) ∨ (∃ i, n = .pad .LSIP i) → n ∈ analysisDestroyed m a := by
    intro h n hn hp
    exact absurd (by rcases hp with ⟨i, rfl⟩ | ⟨i, rfl⟩ <;> rfl) (h n hn)
  have asm := assembly_names (m := m) (a := a)
  obtain ⟨z1, z2⟩ := assemblyDestroyed_facts (m := m) (a := a) false
  cases hk : a.kind with
  | combination parts =>
    refine ⟨by simp [analysisDestroyed, hk], by simp [analysisDestroyed, hk], small ?_⟩
    intro n hn
    simp only [writeAnalysis, hk, combination, namesOf, defsOf_append, defsOf_map, Cmd.defs, List.map_append,
      List.map_flatMap, List.mem_append, List.mem_flatMap] at hn
    rcases hn with ⟨p, _, hn⟩ | hn
    · simp at hn; subst hn; simp [group]
    · simp at hn; rcases hn with rfl | rfl <;> simp [group]
  | linearStatic =>
    refine ⟨by simp [analysisDestroyed, hk], by simp [analysisDestroyed, hk], small ?_⟩
    simp [writeAnalysis, hk, linearStatic, namesOf, group]
  | nonLinear v p =>
    rw [hk] at hk'
    have : ¬ 1 < m.contacts.length := by have := hk'.1; omega
    refine ⟨by simp [analysisDestroyed, hk], by simp [analysisDestroyed, hk], small ?_⟩
    cases p <;> simp [writeAnalysis, hk, nonLinear, namesOf, group, this, previousRamp]
  | directFreq v st =>
    rw [hk] at hk'
    obtain ⟨c1, c2⟩ := vectors_names (m := m) a.id a.id hk'.2.1.1
    have c3 := vectors_local (m := m) (a := a) a.id a.excitations
    refine ⟨?_, ?_, small ?_⟩
    · simp only [analysisDestroyed, hk]
      rw [excitationDestroyed_eq (m := m) a.id]
      refine nodup_groups (fun n => group n < 2) z1 c1 ?_ ?_
      · intro n hn; have := (z2 n hn).1; omega
      · intro n hn; have := c2 n hn; omega
    · simp only [analysisDestroyed, hk, writeAnalysis, directFreq, namesOf_append, List.mem_append]
      rw [excitationDestroyed_eq (m := m) a.id]
      rintro n (hn | hn)
      · obtain ⟨h1, h2, h3⟩ := z2 n hn; exact ⟨by omega, h2, by tauto⟩
      · have := c2 n hn; exact ⟨by omega, c3 n hn, by tauto⟩
    · intro n hn
      simp only [writeAnalysis, hk, directFreq, namesOf_append, List.mem_append] at hn
      rcases hn with ((hn | hn) | hn) | hn
      · have := (asm false).2 n hn; omega
      · cases st <;> simp [namesOf] at hn
        subst hn; simp [group]
      · have := c2 n hn; omega
      · simp [namesOf] at hn; subst hn; simp [group]
  | modal f =>
    refine ⟨?_, ?_, small ?_⟩
    · simp only [analysisDestroyed, hk]
      refine nodup_groups (fun n => group n < 2) z1 (by simp) ?_ (by simp [group])
      intro n hn; have := (z2 n hn).1; omega
    · simp only [analysisDestroyed, hk, writeAnalysis, modesOf, namesOf_append, List.mem_append]
      rintro n (hn | hn)
      · obtain ⟨h1, h2, h3⟩ := z2 n hn; exact ⟨by omega, h2, by tauto⟩
      · simp at hn; rcases hn with rfl | rfl | rfl <;> simp [group, Local, namesOf]
    · simp [writeAnalysis, hk, namesOf, modes_defs, assembly_defs, pfreqCmd, group]
  | modalComplex f => rw [hk] at hk'; exact hk'.elim
  | modalFreq f residual damping e k v =>
    rw [hk] at hk'
    obtain ⟨b1, b2⟩ := modesDestroyed_facts (m := m) (a := a)
    cases hr : m.reusableFor a with
    | none =>
      obtain ⟨r1, r2, r3⟩ := responseDestroyed_facts (m := m) (a := a) (d := a.id) (r := .num .MO a.id) (residual := residual)
        hk'.2.2.1.1 hk'.2.2.2.2.2 hk'.2.2.2.1 hk'.2.2.2.2.1
      simp only [analysisDestroyed, hk, hr, writeAnalysis, namesOf_append, List.mem_append]
      refine ⟨nodup_groups (fun n => group n < 4) b1 r1 ?_ ?_, ?_, ?_⟩
      · intro n hn; have := (b2 n hn).1; omega
      · intro n hn; have := (r2 n hn).1; omega
      · rintro n (hn | hn)
        · obtain ⟨h1, h2, h3⟩ := b2 n hn; exact ⟨by omega, h2, by tauto⟩
        · obtain ⟨h1, h2, h3, h4⟩ := r2 n hn; exact ⟨by omega, h3, by tauto⟩
      · intro n hn hp
        have hg : group n = 8 := by rcases hp with ⟨i, rfl⟩ | ⟨i, rfl⟩ <;> rfl
        rcases hn with (hn | hn) | hn
        · have := (modes_names (m := m) (a := a)).2 n hn; omega
        · simp [namesOf, pfreqCmd] at hn; subst hn; simp [group] at hg
        · exact .inr (r3 n hn hp)
    | some r =>
      obtain ⟨r1, r2, r3⟩ := responseDestroyed_facts (m := m) (a := a) (d := r.id) (r := reusedName r) (residual := residual)
        hk'.2.2.1.1 hk'.2.2.2.2.2 hk'.2.2.2.1 hk'.2.2.2.2.1
      simp only [analysisDestroyed, hk, hr, writeAnalysis, namesOf_append, List.mem_append, List.nil_append]
      refine ⟨r1, ?_, ?_⟩
      · intro n hn
        obtain ⟨h1, h2, h3, h4⟩ := r2 n hn; exact ⟨by omega, h3, by tauto⟩
      · intro n hn hp
        have hg : group n = 8 := by rcases hp with ⟨i, rfl⟩ | ⟨i, rfl⟩ <;> rfl
        rcases hn with hn | hn
        · simp [namesOf, pfreqCmd] at hn; subst hn; simp [group] at hg
        · exact r3 n hn hp
  | buckling f i =>
    obtain ⟨y1, y2⟩ := assemblyDestroyed_facts (m := m) (a := a) true
    refine ⟨?_, ?_, small ?_⟩
    · simp only [analysisDestroyed, hk]
      refine nodup_groups (fun n => group n = 1) y1 (by simp) ?_ (by simp [group])
      intro n hn; exact (y2 n hn).1
    · have e : bucklingCmds m a i = [.define (.num .FSIG a.id) .champ [(.num .RESU i, .resultat)]] ++ assembly m a true ++
          [.define (.num .RESU a.id) .resultat [(.num .RIGI a.id, .matrAsse), (.num .RIGE a.id, .matrAsse)],
           .call [(.num .RESU a.id, .resultat)],
           .define (.num .TBCRT a.id) .table [(.num .RESU a.id, .resultat)], .call [(.num .TBCRT a.id, .table)]] := rfl
      simp only [analysisDestroyed, hk, writeAnalysis, e, namesOf_append, List.mem_append]
      rintro n (hn | hn)
      · obtain ⟨h1, h2, h3⟩ := y2 n hn; exact ⟨by omega, h2, by tauto⟩
      · simp at hn; rcases hn with rfl | rfl <;> simp [group, Local, namesOf]
    · simp [writeAnalysis, hk, bucklingCmds, namesOf, assembly_defs, group]

theorem destroyed_facts {pre : List Analysis} (hf : Fine m pre a) :
    (destroyed m a).Nodup ∧ (∀ n ∈ destroyed m a, (Local n ∨ n = .num .RESU a.id) ∧ n ∈ namesOf (analysisBody m a)) ∧
    (∀ n ∈ namesOf (analysisBody m a), (∃ i, n = .pad .LSPR i) ∨ (∃ i, n = .pad .LSIP i) → n ∈ destroyed m a) ∧
    (m.usedInNext a = true ∨ m.canBeReused a = true → Name.num .RESU a.id ∉ destroyed m a) := by
  obtain ⟨h1, h2, h3⟩ := analysisDestroyed_facts hf
  obtain ⟨s1, s2⟩ := static_names (m := m) (a := a)
  have sl : ∀ n ∈ staticDestroyed m a, Local n := by
    unfold staticDestroyed; cases a.isStatic <;> cases m.beams <;> simp [Local]
  have hres : Name.num .RESU a.id ∈ namesOf (writeAnalysis m a) := by
    have := resu_defined hf
    exact List.mem_map.mpr ⟨_, this, rfl⟩
  rw [body_names_eq hf]
  have front : ∀ n ∈ analysisDestroyed m a ++ staticDestroyed m a ++ [.num .RETB a.id, .num .unit a.id], Local n := by
    intro n hn
    simp only [List.mem_append, List.mem_cons, List.not_mem_nil, or_false] at hn
    rcases hn with (hn | hn) | rfl | rfl
    · exact (h2 n hn).2.1
    · exact sl n hn
    · trivial
    · trivial
  unfold destroyed
  refine ⟨?_, ?_, ?_, ?_⟩
  · refine nodup_groups Local (nodup_groups (fun n => group n < 13) (nodup_groups (fun n => group n < 12) h1 s1 ?_ ?_)
      (by simp) ?_ ?_) (by split <;> simp) front ?_
    · intro n hn; have := (h2 n hn).1; omega
    · intro n hn; have := (s2 n hn).1; omega
    · intro n hn
      rcases List.mem_append.mp hn with hn | hn
      · have := (h2 n hn).1; omega
      · have := (s2 n hn).1; omega
    · simp [group]
    · intro n hn
      split at hn <;> simp at hn
      subst hn; simp [Local]
  · intro n hn
    rcases List.mem_append.mp hn with hn | hn
    · refine ⟨.inl (front n hn), ?_⟩
      simp only [List.mem_append] at hn ⊢
      rcases hn with (hn | hn) | hn
      · exact .inl (h2 n hn).2.2
      · exact .inr (.inl hn)
      · exact .inr (.inr hn)
    · split at hn <;> simp at hn
      subst hn
      exact ⟨.inr rfl, List.mem_append_left _ hres⟩
  · intro n hn hp
    simp only [List.mem_append] at hn ⊢
    rcases hn with hn | hn | hn
    · exact .inl (.inl (.inl (h3 n hn hp)))
    · exact .inl (.inl (.inr hn))
    · exact .inl (.inr hn)
  · intro hu hn
    rcases List.mem_append.mp hn with hn | hn
    · exact front _ hn
    · rw [if_neg (by rcases hu with hu | hu <;> simp [hu])] at hn
      cases hn

theorem kept_matrices {f : Method} (hk : a.kind = .modal f) (hu : m.canBeReused a = true) {n : Name}
    (hn : group n = 1) : n ∉ destroyed m a := by
  have : a.isStatic = false := by simp [Analysis.isStatic, hk]
  unfold destroyed analysisDestroyed staticDestroyed assemblyDestroyed
  simp only [hk, hu, this]
  intro h
  simp at h
  rcases h with rfl | rfl | rfl | rfl | rfl <;> simp [group] at hn

/-! ## The analyses one after the other -/

/-- What holds between two analyses. -/
structure Inv (m : CommModel) (pre post : List Analysis) (e : Env) : Prop where
  glob : ∀ u ∈ defsOf (prelude m), e u.1 = some u.2
  before : Before m pre fun u => e u.1 = some u.2
  fresh : ∀ n, (∃ a ∈ post, Owned a n) → e n = none

theorem global_not_owned (hc : Consistent m) (ha : a ∈ m.analyses) {u : Name × Kind} (hu : u ∈ defsOf (prelude m)) :
    ¬ Owned a u.1 := by
  intro ho
  rcases mem_globals.mp hu with rfl | rfl | ⟨v, hv, rfl⟩ | ⟨v, _, rfl⟩ | ⟨_, rfl⟩ | ⟨_, rfl⟩ | ⟨c, _, _, _, rfl⟩ |
    ⟨l, _, hl, rfl⟩ | ⟨c, _, _, _, rfl⟩
  · exact ho
  · exact ho
  · obtain ⟨p, hp⟩ := ho
    exact hc.instants a ha v p hp hv
  · exact ho
  · exact ho
  · exact ho
  · exact ho
  · simp only [LoadSet.name, hl] at ho
    cases hf : l.functions <;> simp [hf, Owned] at ho
  · exact ho

theorem name_mem {n : Name} {cs : List Cmd} : n ∈ namesOf cs ↔ ∃ k, (n, k) ∈ defsOf cs := by
  simp [namesOf]

theorem analysis_runs {pre post : List Analysis} (hm : Supported m) (hs : m.analyses = pre ++ a :: post) {e : Env}
    (hi : Inv m pre (a :: post) e) (rest : List Cmd) :
    ∃ e', run e (analysisCmds m a ++ rest) = run e' rest ∧ Inv m (pre ++ [a]) post e' := by
  have hf := hm.fine pre a post hs
  have hc := hm.consistent
  have hmem : a ∈ m.analyses := by rw [hs]; simp
  obtain ⟨d1, d2, d3, d4⟩ := destroyed_facts hf
  have own := body_owned hf
  obtain ⟨e1, r1, r2, r3⟩ := run_supplied (e := e) (cs := analysisBody m a) (rest := [.destroy (destroyed m a)] ++ rest)
    (body_supplied hm hs hi.glob hi.before) (body_names hf)
    (fun u hu => hi.fresh u.1 ⟨a, by simp, own u.1 (name_mem.mpr ⟨u.2, hu⟩)⟩)
  obtain ⟨e2, q1, q2, q3⟩ := destroy_all (e := e1) d1 (by
    intro n hn
    obtain ⟨k, hk⟩ := name_mem.mp (d2 n hn).2
    rw [r2 _ hk]
    simp)
  -- names that are not owned do not change
  have keep : ∀ n, ¬ Owned a n → e2 n = e n := by
    intro n hn
    have h1 : n ∉ namesOf (analysisBody m a) := fun h => hn (own n h)
    rw [q3 n fun h => h1 (d2 n h).2]
    exact r3 n fun k hk => h1 (name_mem.mpr ⟨k, hk⟩)
  have hnd := hc.analyses
  rw [hs, List.map_append, List.map_cons, List.nodup_append, List.nodup_cons] at hnd
  have hpre : ∀ b ∈ pre, b.id ≠ a.id := fun b hb h => hnd.2.2 b.id (List.mem_map.mpr ⟨b, hb, rfl⟩) a.id (by simp) h
  have hpost : ∀ b ∈ post, b.id ≠ a.id := fun b hb h => hnd.2.1.1 (List.mem_map.mpr ⟨b, hb, h⟩)
  refine ⟨e2, ?_, ?_, ?_, ?_⟩
  · rw [analysisCmds, List.append_assoc, r1, List.cons_append, run, step, q1]
    rfl
  · intro u hu
    rw [keep u.1 (global_not_owned hc hmem hu)]
    exact hi.glob u hu
  · constructor
    · intro b hb hu
      rcases List.mem_append.mp hb with hb | hb
      · show e2 _ = _
        rw [keep (.num .RESU b.id) (hpre b hb)]
        exact hi.before.results b hb hu
      · rw [List.mem_singleton.mp hb] at hu ⊢
        show e2 _ = _
        rw [q3 _ (d4 hu)]
        refine r2 (Name.num .RESU a.id, Kind.resultat) ?_
        rw [body_defs hf]
        exact List.mem_append_left _ (resu_defined hf)
    · intro b hb f hk hu
      rcases List.mem_append.mp hb with hb | hb
      · have h := hi.before.matrices b hb f hk hu
        refine ⟨?_, ?_, ?_, ?_⟩
        · show e2 _ = _
          rw [keep (.num .NDDL b.id) (hpre b hb)]; exact h.1
        · show e2 _ = _
          rw [keep (.num .RIGI b.id) (hpre b hb)]; exact h.2.1
        · show e2 _ = _
          rw [keep (.num .MASS b.id) (hpre b hb)]; exact h.2.2.1
        · show e2 _ = _
          rw [keep (.num .AMOR b.id) (hpre b hb)]; exact h.2.2.2
      · rw [List.mem_singleton.mp hb] at hk hu ⊢
        have hd : ∀ u ∈ defsOf (assembly m a false), e2 u.1 = some u.2 := by
          intro u hu'
          have hg : group u.1 = 1 := (assembly_names false).2 u.1 (name_mem.mpr ⟨u.2, hu'⟩)
          rw [q3 _ (kept_matrices hk hu hg)]
          refine r2 u ?_
          rw [body_defs hf]
          refine List.mem_append_left _ ?_
          simp only [writeAnalysis, hk, modesOf, defsOf_append, List.mem_append]
          exact .inl (.inl hu')
        rw [assembly_defs] at hd
        exact ⟨hd (.num .NDDL a.id, .numeDdl) (by simp), hd (.num .RIGI a.id, .matrAsse) (by simp),
          hd (.num .MASS a.id, .matrAsse) (by simp), hd (.num .AMOR a.id, .matrAsse) (by simp)⟩
  · rintro n ⟨b, hb, hbo⟩
    have hfr : e n = none := hi.fresh n ⟨b, by simp [hb], hbo⟩
    by_cases hn : (∃ i, n = .pad .LSPR i) ∨ (∃ i, n = .pad .LSIP i)
    · by_cases hnb : n ∈ namesOf (analysisBody m a)
      · exact q2 n (d3 n hnb hn)
      · rw [q3 n fun h => hnb (d2 n h).2, r3 n fun k hk => hnb (name_mem.mpr ⟨k, hk⟩)]
        exact hfr
    · rw [keep n ?_]
      · exact hfr
      · intro hao
        cases n with
        | plain t => exact hao
        | set t i => exact hao
        | num t i => exact hpost b hb (hbo.symm.trans hao)
        | two t i j => exact hpost b hb (hbo.symm.trans hao)
        | pad t v =>
          cases t with
          | LST =>
            obtain ⟨p, hp⟩ := hao
            obtain ⟨q, hq⟩ := hbo
            have := hc.ownInstants a hmem b (by rw [hs]; simp [hb]) v p q hp hq
            exact hpost b hb (by rw [this])
          | FCT => exact hao
          | LSPR => exact hn (.inl ⟨v, rfl⟩)
          | LSIP => exact hn (.inr ⟨v, rfl⟩)

theorem analyses_run {pre post : List Analysis} (hm : Supported m) (hs : m.analyses = pre ++ post) {e : Env}
    (hi : Inv m pre post e) : ∃ e', run e (post.flatMap (analysisCmds m)) = some e' := by
  induction post generalizing pre e with
  | nil => exact ⟨e, rfl⟩
  | cons a post ih =>
    obtain ⟨e', h1, h2⟩ := analysis_runs hm hs hi (post.flatMap (analysisCmds m))
    rw [List.flatMap_cons, h1]
    exact ih (by rw [hs]; simp) h2

end uses

/-! ## C105 -/

/-- C105, the part that holds: the file of a supported model is read to its end, every name that a command uses being defined
at that point and standing for what is expected. -/
theorem C105_names_partial {m : CommModel} (hm : Supported m) : Readable (commFile m) := by
  obtain ⟨e, h1, h2, h3⟩ := run_supplied (e := Env.empty) (cs := prelude m) (rest := m.analyses.flatMap (analysisCmds m))
    (prelude_supplied m) (prelude_nodup hm.consistent) (fun _ _ => rfl)
  have hi : Inv m [] m.analyses e := by
    refine ⟨h2, ⟨by simp, by simp⟩, ?_⟩
    rintro n ⟨a, ha, ho⟩
    rw [h3 n]
    · rfl
    · intro k hk
      exact global_not_owned hm.consistent ha hk ho
  obtain ⟨e', h⟩ := analyses_run (pre := []) hm rfl hi
  exact ⟨e', by rw [commFile, h1, h]⟩

/-- Different names are different texts in the file. -/
theorem C105_texts {a b : Name} (h : a.text = b.text) : a = b := name_text_inj h

end Aster
end Vega
