import Verif.Aster.Loads
import Verif.Aster.ConstraintProps

/-! # Loads written for Code_Aster (C104) -/
namespace Vega.AsterSpec
open Aster Med
open NastranWrite (V3)

/-! ## Specification -/

/-- A component of a force (`FX` … `MZ`) as a degree of freedom. -/
def force? (s : String) : Option Dof :=
  if s = "FX" then some .DX else if s = "FY" then some .DY else if s = "FZ" then some .DZ
  else if s = "MX" then some .RX else if s = "MY" then some .RY else if s = "MZ" then some .RZ else none

/-- A component of a force and a moment. -/
def comp (f m : V3) : Dof → Dbl
  | .DX => f.x | .DY => f.y | .DZ => f.z | .RX => m.x | .RY => m.y | .RZ => m.z

/-- A cell of the place of a keyword. -/
def Covers (e : MeshEnv) (place : List Where) (p : Nat) : Prop := ∃ w ∈ place, CellInPlace e p w

/-- The value that a list of components gives to one of them. -/
def givenComp (values : List (String × Dbl)) (d : Dof) : Option Dbl :=
  (values.find? fun v => force? v.1 = some d).map fun v => v.2

/-- The rule of overload of Code_Aster: of the occurrences that give a value, the last one counts. -/
def lastGiven {β : Type} (g : Kw → Option β) (kws : List Kw) : Option β := (kws.filterMap g).getLast?

/-- The force or moment that the keywords apply to a node. -/
def nodalRead (kws : List Kw) (n : Nat) (d : Dof) : Dbl :=
  (lastGiven (fun | .forceNodale m vs => if m = medName 'N' n then givenComp vs d else none | _ => none) kws).getD 0

open scoped Classical in
/-- The traction along the normal of a face: `PRES` is positive against it (U4.44.01, 6.6). -/
noncomputable def faceRead (e : MeshEnv) (kws : List Kw) (p : Nat) : Dbl :=
  (lastGiven (fun | .presRep x place => if Covers e place p then some (-x) else none | _ => none) kws).getD 0

open scoped Classical in
/-- The traction along the normal of a shell (U4.44.01, 7.3). -/
noncomputable def shellRead (e : MeshEnv) (kws : List Kw) (p : Nat) : Dbl :=
  (lastGiven (fun | .forceCoque x place => if Covers e place p then some (-x) else none | _ => none) kws).getD 0

open scoped Classical in
/-- The force or moment on a surface. -/
noncomputable def surfaceRead (e : MeshEnv) (kws : List Kw) (p : Nat) (d : Dof) : Dbl :=
  (lastGiven (fun | .forceFace place vs => if Covers e place p then givenComp vs d else none | _ => none) kws).getD 0

open scoped Classical in
/-- The function that gives the force or moment along a line. -/
noncomputable def lineRead (e : MeshEnv) (kws : List Kw) (p : Nat) (d : Dof) : Option String :=
  lastGiven (fun | .forcePoutre c v place => if Covers e place p ∧ force? c = some d then some v else none | _ => none) kws

/-- The accelerations: the length given times the direction given. -/
def gravityRead (kws : List Kw) : List (Option V3) :=
  kws.filterMap fun
    | .pesanteur g d => some (d.map fun v => ⟨g * v.x, g * v.y, g * v.z⟩)
    | _ => none

/-- The rotations. -/
def rotationRead (kws : List Kw) : List (Dbl × V3 × V3) :=
  kws.filterMap fun | .rotation v a c => some (v, a, c) | _ => none

/-- What the imposed displacements demand of a field. -/
def ImposedRead (e : MeshEnv) (u : Field) (kws : List Kw) : Prop :=
  ∀ place vs, .ddlImpo place vs ∈ kws → ∀ n, (∃ w ∈ place, InPlace e n w) → ∀ v ∈ vs, ∃ d, ddl? v.1 = some d ∧ u n d = v.2

/-- The nodes of a container. -/
def nodesOf (e : MeshEnv) (c : NodeBox) : List Nat :=
  match c.nodesIncluding e with
  | .ok r => r
  | _ => []

/-- What the loads of the model apply to a node. -/
def nodalWanted (e : MeshEnv) (ls : List Load) (n : Nat) (d : Dof) : Dbl :=
  (ls.map fun | .nodal c f m => if n ∈ nodesOf e c then comp (f n) (m n) d else 0 | _ => 0).sum

def faceWanted (e : MeshEnv) (ls : List Load) (p : Nat) : Dbl :=
  (ls.map fun | .face x c => if p ∈ c.positionsIncluding e then x else 0 | _ => 0).sum

def shellWanted (e : MeshEnv) (ls : List Load) (p : Nat) : Dbl :=
  (ls.map fun | .shell x c => if p ∈ c.positionsIncluding e then x else 0 | _ => 0).sum

def surfaceWanted (e : MeshEnv) (ls : List Load) (p : Nat) (d : Dof) : Dbl :=
  (ls.map fun | .surface f m c => if p ∈ c.positionsIncluding e then comp f m d else 0 | _ => 0).sum

/-- A function applied along a line. -/
def LineWanted (e : MeshEnv) (ls : List Load) (p : Nat) (d : Dof) (name : String) : Prop :=
  ∃ es c, .line d (.function name) es c ∈ ls ∧ p ∈ c.positionsIncluding e

def gravityWanted (ls : List Load) : List V3 := ls.filterMap fun | .gravity a _ => some a | _ => none

def rotationWanted (ls : List Load) : List (Dbl × V3 × V3) :=
  ls.filterMap fun | .rotation v a c => some (v, a, c) | _ => none

def ImposedWanted (e : MeshEnv) (u : Field) (ls : List Load) : Prop :=
  ∀ c d, .imposed c d ∈ ls → ∀ n ∈ nodesOf e c, ∀ x, d.getDOFS.contains x = true → u n x = d.getValue x

/-- Whether a command accepts a keyword: `AFFE_CHAR_MECA_F` takes functions only, `AFFE_CHAR_MECA` numbers only. -/
def Accepts : Bool → Kw → Prop
  | withFunctions, .forcePoutre _ _ _ => withFunctions = true
  | withFunctions, _ => withFunctions = false

/-- The cells of a load of a given kind; nothing for the others. -/
structure Placed (e : MeshEnv) (l : Load) : Prop where
  nodal : ∀ c f m, l = .nodal c f m → Present e c
  imposed : ∀ c d, l = .imposed c d → Present e c
  face : ∀ x c, l = .face x c → ∀ g ∈ c.groups, ∃ ps, e.group g = some (.cell ps)
  shell : ∀ x c, l = .shell x c → ∀ g ∈ c.groups, ∃ ps, e.group g = some (.cell ps)
  surface : ∀ f m c, l = .surface f m c → ∀ g ∈ c.groups, ∃ ps, e.group g = some (.cell ps)
  line : ∀ d v es c, l = .line d v es c → ∀ g ∈ c.groups, ∃ ps, e.group g = some (.cell ps)

/-- Two loads of the same kind on the same cell (the same component, for forces on lines). -/
def Overlap (e : MeshEnv) : Load → Load → Prop
  | .face _ c, .face _ c' => ∃ p, p ∈ c.positionsIncluding e ∧ p ∈ c'.positionsIncluding e
  | .shell _ c, .shell _ c' => ∃ p, p ∈ c.positionsIncluding e ∧ p ∈ c'.positionsIncluding e
  | .surface _ _ c, .surface _ _ c' => ∃ p, p ∈ c.positionsIncluding e ∧ p ∈ c'.positionsIncluding e
  | .line d _ _ c, .line d' _ _ c' => d = d' ∧ ∃ p, p ∈ c.positionsIncluding e ∧ p ∈ c'.positionsIncluding e
  | _, _ => False

/-! ## Components -/

theorem small_of_isZero {x : Dbl} (h : isZero x = true) : |x| ≤ tol := by simpa [isZero] using h

theorem find_if {name : String} {d' : Dof} (h : force? name = some d') (b : Bool) (x : Dbl) (d : Dof) :
    (if !b then [(name, x)] else []).find? (fun v => decide (force? v.1 = some d)) =
      if b = false ∧ d' = d then some (name, x) else none := by
  cases b <;> by_cases e : d' = d <;> simp [h, e]

theorem components_given (f m : V3) (d : Dof) :
    givenComp (components f m) d = if isZero (comp f m d) = true then none else some (comp f m d) := by
  have h1 : force? "FX" = some .DX := by decide
  have h2 : force? "FY" = some .DY := by decide
  have h3 : force? "FZ" = some .DZ := by decide
  have h4 : force? "MX" = some .RX := by decide
  have h5 : force? "MY" = some .RY := by decide
  have h6 : force? "MZ" = some .RZ := by decide
  unfold givenComp components
  simp only [List.find?_append, find_if h1, find_if h2, find_if h3, find_if h4, find_if h5, find_if h6]
  cases d <;> simp only [comp, reduceCtorEq, and_false, and_true, if_false, Option.none_or, Option.or_none] <;>
    split <;> simp_all

/-! ## Sections -/

theorem writeEach_ok {β : Type} (f : Load → Option (Outcome β)) (ls : List Load)
    (h : ∀ l ∈ ls, ∀ o, f l = some o → ∃ k, o = .ok k) :
    ∃ ks, writeEach f ls = .ok ks ∧ ks.map (fun k => Outcome.ok k) = ls.filterMap f := by
  induction ls with
  | nil => exact ⟨[], rfl, rfl⟩
  | cons l ls ih =>
    obtain ⟨ks, h1, h2⟩ := ih (fun a ha => h a (List.mem_cons_of_mem _ ha))
    unfold writeEach
    cases hf : f l with
    | none => exact ⟨ks, by simpa using h1, by simp [hf, h2]⟩
    | some o =>
      obtain ⟨k, rfl⟩ := h l (by simp) o hf
      exact ⟨k :: ks, by simp [h1], by simp [hf, h2]⟩

/-- What a reading finds in a section. -/
def via {β γ : Type} (f : Load → Option (Outcome β)) (g : β → Option γ) (l : Load) : Option γ :=
  match f l with
  | some (.ok k) => g k
  | _ => none

theorem writeEach_read {β γ : Type} (f : Load → Option (Outcome β)) (g : β → Option γ) (ls : List Load) :
    ∀ ks, writeEach f ls = .ok ks → ks.filterMap g = ls.filterMap (via f g) := by
  induction ls with
  | nil => intro ks h; cases h; rfl
  | cons l ls ih =>
    intro ks h
    unfold writeEach at h
    cases hf : f l with
    | none =>
      rw [hf] at h
      simp [via, hf, ih ks h]
    | some o =>
      rw [hf] at h
      cases o with
      | ok k =>
        simp only [Outcome.bind_ok] at h
        cases hw : writeEach f ls with
        | ok ks' =>
          rw [hw] at h
          cases h
          rw [List.filterMap_cons, List.filterMap_cons, ih ks' hw]
          simp [via, hf]
        | throw => rw [hw] at h; cases h
        | ub => rw [hw] at h; cases h
        | diverges => rw [hw] at h; cases h
      | throw => cases h
      | ub => cases h
      | diverges => cases h

theorem via_none {β γ : Type} (f : Load → Option (Outcome β)) (g : β → Option γ) (ls : List Load)
    (h : ∀ l k, f l = some (.ok k) → g k = none) : ls.filterMap (via f g) = [] := by
  rw [List.filterMap_eq_nil_iff]
  intro l _
  unfold via
  split
  · rename_i k hk
    exact h l k hk
  · rfl

/-- Of the loads with a property that excludes itself, there is at most one. -/
theorem one_of {α : Type} (c : α → Prop) : ∀ (ls : List α), ls.Pairwise (fun a b => ¬(c a ∧ c b)) →
    (∀ l ∈ ls, ¬c l) ∨ ∃ a l b, ls = a ++ l :: b ∧ c l ∧ (∀ x ∈ a, ¬c x) ∧ ∀ x ∈ b, ¬c x := by
  intro ls
  induction ls with
  | nil => intro _; exact Or.inl (by simp)
  | cons l ls ih =>
    intro h
    rw [List.pairwise_cons] at h
    by_cases hl : c l
    · exact Or.inr ⟨[], l, ls, rfl, hl, by simp, fun x hx hc => h.1 x hx ⟨hl, hc⟩⟩
    · rcases ih h.2 with h2 | ⟨a, l', b, rfl, h3, h4, h5⟩
      · refine Or.inl fun x hx => ?_
        rcases List.mem_cons.mp hx with rfl | hx
        · exact hl
        · exact h2 x hx
      · refine Or.inr ⟨l :: a, l', b, rfl, h3, fun x hx => ?_, h5⟩
        rcases List.mem_cons.mp hx with rfl | hx
        · exact hl
        · exact h4 x hx

theorem filterMap_nil {α β : Type} {f : α → Option β} {l : List α} (h : ∀ x ∈ l, f x = none) : l.filterMap f = [] :=
  List.filterMap_eq_nil_iff.mpr h

theorem sum_zero {α : Type} {f : α → Dbl} {l : List α} (h : ∀ x ∈ l, f x = 0) : (l.map f).sum = 0 := by
  induction l with
  | nil => rfl
  | cons a l ih =>
    rw [List.map_cons, List.sum_cons, h a (by simp), ih (fun x hx => h x (List.mem_cons_of_mem _ hx)), add_zero]

/-- With at most one load concerned, the last value is the sum, up to the error of one. -/
theorem overload_sum {α : Type} (c : α → Prop) (g : α → Option Dbl) (w : α → Dbl) (ls : List α) (ε : Dbl) (hε : 0 ≤ ε)
    (hp : ls.Pairwise (fun a b => ¬(c a ∧ c b))) (hno : ∀ l ∈ ls, ¬c l → g l = none ∧ w l = 0)
    (hone : ∀ l ∈ ls, c l → |(g l).getD 0 - w l| ≤ ε) :
    |((ls.filterMap g).getLast?).getD 0 - (ls.map w).sum| ≤ ε := by
  rcases one_of c ls hp with h | ⟨a, l, b, rfl, h1, h2, h3⟩
  · rw [filterMap_nil (fun x hx => (hno x hx (h x hx)).1), sum_zero (fun x hx => (hno x hx (h x hx)).2)]
    simpa using hε
  · rw [List.filterMap_append, List.filterMap_cons, List.map_append, List.map_cons, List.sum_append, List.sum_cons,
      filterMap_nil (fun x hx => (hno x (by simp [hx]) (h2 x hx)).1),
      filterMap_nil (fun x hx => (hno x (by simp [hx]) (h3 x hx)).1),
      sum_zero (fun x hx => (hno x (by simp [hx]) (h2 x hx)).2),
      sum_zero (fun x hx => (hno x (by simp [hx]) (h3 x hx)).2)]
    have := hone l (by simp) h1
    cases hg : g l <;> rw [hg] at this <;> simpa using this

/-! ## Nodal forces -/

/-- What a map gives to a node. -/
def val (m : Map Nat (V3 × V3)) (n : Nat) (d : Dof) : Dbl :=
  match m.find n with
  | some (f, mo) => comp f mo d
  | none => 0

theorem comp_vadd (f g m k : V3) (d : Dof) : comp (vadd f g) (vadd m k) d = comp f m d + comp g k d := by
  cases d <;> rfl

theorem addForce_wf (f mo : Nat → V3) (m : Map Nat (V3 × V3)) (n : Nat) (h : m.WF) : (addForce f mo m n).WF := by
  unfold addForce
  split <;> exact Map.wf_set _ _ _ h

theorem addForce_val (f mo : Nat → V3) (m : Map Nat (V3 × V3)) (k n : Nat) (d : Dof) :
    val (addForce f mo m k) n d = val m n d + if k = n then comp (f n) (mo n) d else 0 := by
  unfold addForce val
  cases h : m.find k with
  | none =>
    simp only [Map.find_set]
    by_cases e : k = n
    · subst e; simp [h]
    · simp [e]
  | some p =>
    obtain ⟨a, b⟩ := p
    simp only [Map.find_set]
    by_cases e : k = n
    · subst e
      simp [h, comp_vadd, add_comm]
    · simp [e]

theorem addForces (f mo : Nat → V3) (ns : List Nat) : ∀ (m : Map Nat (V3 × V3)), ns.Nodup → m.WF →
    (ns.foldl (addForce f mo) m).WF ∧ ∀ n d, val (ns.foldl (addForce f mo) m) n d =
      val m n d + if n ∈ ns then comp (f n) (mo n) d else 0 := by
  induction ns with
  | nil => intro m _ h; exact ⟨h, by simp⟩
  | cons k ns ih =>
    intro m hn h
    rw [List.nodup_cons] at hn
    obtain ⟨h1, h2⟩ := ih (addForce f mo m k) hn.2 (addForce_wf f mo m k h)
    refine ⟨h1, fun n d => ?_⟩
    rw [List.foldl_cons, h2 n d, addForce_val]
    by_cases e : k = n
    · subst e
      simp [hn.1]
    · have : n ≠ k := fun h => e h.symm
      simp [e, this]

theorem sumForces_spec (e : MeshEnv) (ls : List Load) (hp : ∀ l ∈ ls, Placed e l) : ∀ m : Map Nat (V3 × V3), m.WF →
    ∃ m', sumForces e ls m = .ok m' ∧ m'.WF ∧ ∀ n d, val m' n d = val m n d + nodalWanted e ls n d := by
  induction ls with
  | nil => intro m h; exact ⟨m, rfl, h, by simp [nodalWanted]⟩
  | cons l ls ih =>
    intro m h
    have ih := ih (fun a ha => hp a (List.mem_cons_of_mem _ ha))
    cases l with
    | nodal c f mo =>
      obtain ⟨_, r, _, hr, _⟩ := C102_place e c ((hp _ (by simp)).nodal c f mo rfl)
      obtain ⟨h1, h2⟩ := addForces f mo r.dedup m (List.nodup_dedup r) h
      obtain ⟨m', a1, a2, a3⟩ := ih _ h1
      refine ⟨m', by simp [sumForces, hr, a1], a2, fun n d => ?_⟩
      rw [a3, h2]
      simp only [nodalWanted, List.map_cons, List.sum_cons, nodesOf, hr, List.mem_dedup]
      ring
    | _ =>
      obtain ⟨m', a1, a2, a3⟩ := ih m h
      refine ⟨m', by simpa [sumForces] using a1, a2, fun n d => ?_⟩
      rw [a3]
      simp [nodalWanted]

theorem map_last (m : Map Nat (V3 × V3)) (hw : m.WF) (n : Nat) (g : V3 × V3 → Option Dbl) :
    (m.filterMap fun p => if medName 'N' p.1 = medName 'N' n then g p.2 else none).getLast? = (m.find n).bind g := by
  induction m with
  | nil => rfl
  | cons a m ih =>
    obtain ⟨k, v⟩ := a
    have hk : (k ∉ Map.keys m) ∧ Map.WF m := by simpa [Map.WF] using hw
    rw [List.filterMap_cons]
    by_cases e : k = n
    · subst e
      have hrest : (m.filterMap fun p => if medName 'N' p.1 = medName 'N' k then g p.2 else none) = [] := by
        apply filterMap_nil
        intro p hp
        rw [if_neg]
        intro h
        have : p.1 = k := name_inj h
        exact hk.1 (this ▸ List.mem_map.mpr ⟨p, hp, rfl⟩)
      rw [hrest]
      have hf : Map.find ((k, v) :: m) k = some v := by simp [Map.find]
      rw [hf]
      cases hg : g v <;> simp [hg]
    · have : medName 'N' k ≠ medName 'N' n := fun h => e (name_inj h)
      have hf : Map.find ((k, v) :: m) n = Map.find m n := by simp [Map.find, e]
      rw [hf, ← ih hk.2]
      simp [this]

/-! ## The command -/

/-- All elements of a force on a line are beams, and there is one. -/
def Beams (es : List (Option Bool)) : Prop := some true ∈ es ∧ some false ∉ es

/-- The sets that the command can express. -/
structure Expressed (e : MeshEnv) (ls : List Load) : Prop where
  present : ∀ l ∈ ls, Placed e l
  some_load : ∃ l ∈ ls, l ≠ .temperature
  disjoint : ls.Pairwise fun a b => ¬Overlap e a b
  gravity : ∀ a norm, .gravity a norm ∈ ls → norm ≠ 0
  line : ∀ d v es c, .line d v es c ∈ ls → Beams es ∧ ∃ name, v = .function name
  uniform : (∀ l ∈ ls, l.hasFunctions = true) ∨ ∀ l ∈ ls, l.hasFunctions = false

/-- What is read in the keywords is what the loads apply. -/
structure Agrees (e : MeshEnv) (ls : List Load) (kws : List Kw) : Prop where
  nodal : ∀ n d, |nodalRead kws n d - nodalWanted e ls n d| ≤ tol
  face : ∀ p, faceRead e kws p = faceWanted e ls p
  shell : ∀ p, shellRead e kws p = shellWanted e ls p
  surface : ∀ p d, |surfaceRead e kws p d - surfaceWanted e ls p d| ≤ tol
  line : ∀ p d name, lineRead e kws p d = some name ↔ LineWanted e ls p d name
  gravity : gravityRead kws = (gravityWanted ls).map some
  rotation : rotationRead kws = rotationWanted ls
  imposed : ∀ u, ImposedRead e u kws ↔ ImposedWanted e u ls

/-- The sections of the command one by one. -/
structure Sections (e : MeshEnv) (ls : List Load) (kws : List Kw) (m : Map Nat (V3 × V3)) : Prop where
  sums : sumForces e ls [] = .ok m
  read : ∀ {γ : Type} (g : Kw → Option γ), kws.filterMap g =
    ls.filterMap (via (writeSpcd e) g) ++ (ls.filterMap (via (writePression e) g) ++
    (ls.filterMap (via (writeForceCoque e) g) ++
    ((m.filterMap fun p => g (.forceNodale (medName 'N' p.1) (components p.2.1 p.2.2))) ++
    (ls.filterMap (via (writeForceSurface e) g) ++ (ls.filterMap (via (writeForceLine e) g) ++
    (ls.filterMap (via writeGravity g) ++ ls.filterMap (via writeRotation g)))))))

theorem sections (e : MeshEnv) (ls : List Load) (hp : ∀ l ∈ ls, Placed e l) :
    ∃ kws m, writeKeywords e ls = .ok kws ∧ Sections e ls kws m := by
  have ha : ∀ l ∈ ls, ∀ o, writeSpcd e l = some o → ∃ k, o = .ok k := by
    intro l hl o ho
    cases l <;> simp only [writeSpcd, reduceCtorEq, Option.some.injEq] at ho
    rename_i c d
    obtain ⟨pl, _, h1, _, _⟩ := C102_place e c ((hp _ hl).imposed c d rfl)
    subst ho
    exact ⟨_, by rw [h1]; rfl⟩
  have hb : ∀ l ∈ ls, ∀ o, writePression e l = some o → ∃ k, o = .ok k := by
    intro l hl o ho
    cases l <;> simp only [writePression, reduceCtorEq, Option.some.injEq] at ho
    rename_i x c
    obtain ⟨pl, h1, _⟩ := cellBox_spec e c ((hp _ hl).face x c rfl)
    subst ho
    exact ⟨_, by rw [h1]; rfl⟩
  have hc : ∀ l ∈ ls, ∀ o, writeForceCoque e l = some o → ∃ k, o = .ok k := by
    intro l hl o ho
    cases l <;> simp only [writeForceCoque, reduceCtorEq, Option.some.injEq] at ho
    rename_i x c
    obtain ⟨pl, h1, _⟩ := cellBox_spec e c ((hp _ hl).shell x c rfl)
    subst ho
    exact ⟨_, by rw [h1]; rfl⟩
  have hf : ∀ l ∈ ls, ∀ o, writeForceSurface e l = some o → ∃ k, o = .ok k := by
    intro l hl o ho
    cases l <;> simp only [writeForceSurface, reduceCtorEq, Option.some.injEq] at ho
    rename_i f m c
    obtain ⟨pl, h1, _⟩ := cellBox_spec e c ((hp _ hl).surface f m c rfl)
    subst ho
    exact ⟨_, by rw [h1]; rfl⟩
  have hg : ∀ l ∈ ls, ∀ o, writeForceLine e l = some o → ∃ k, o = .ok k := by
    intro l hl o ho
    cases l <;> simp only [writeForceLine, reduceCtorEq] at ho
    rename_i d v es c
    split at ho
    · cases ho
    · obtain ⟨pl, h1, _⟩ := cellBox_spec e c ((hp _ hl).line d v es c rfl)
      cases ho
      exact ⟨_, by rw [h1]; rfl⟩
  have hh : ∀ l ∈ ls, ∀ o, writeGravity l = some o → ∃ k, o = .ok k := by
    intro l hl o ho
    cases l <;> simp only [writeGravity, reduceCtorEq, Option.some.injEq] at ho
    exact ⟨_, ho.symm⟩
  have hi : ∀ l ∈ ls, ∀ o, writeRotation l = some o → ∃ k, o = .ok k := by
    intro l hl o ho
    cases l <;> simp only [writeRotation, reduceCtorEq, Option.some.injEq] at ho
    exact ⟨_, ho.symm⟩
  obtain ⟨a, a1, _⟩ := writeEach_ok _ ls ha
  obtain ⟨b, b1, _⟩ := writeEach_ok _ ls hb
  obtain ⟨c, c1, _⟩ := writeEach_ok _ ls hc
  obtain ⟨f, f1, _⟩ := writeEach_ok _ ls hf
  obtain ⟨g, g1, _⟩ := writeEach_ok _ ls hg
  obtain ⟨h, h1, _⟩ := writeEach_ok _ ls hh
  obtain ⟨i, i1, _⟩ := writeEach_ok _ ls hi
  obtain ⟨m, m1, _⟩ := sumForces_spec e ls hp [] List.nodup_nil
  refine ⟨a ++ (b ++ (c ++ (m.map (fun p => Kw.forceNodale (medName 'N' p.1) (components p.2.1 p.2.2)) ++
    (f ++ (g ++ (h ++ i)))))), m, ?_, m1, ?_⟩
  · unfold writeKeywords writeNodalForce
    simp only [a1, b1, c1, f1, g1, h1, i1, m1, Outcome.bind_ok]
  · intro γ r
    simp only [List.filterMap_append, writeEach_read _ r _ _ a1, writeEach_read _ r _ _ b1, writeEach_read _ r _ _ c1,
      writeEach_read _ r _ _ f1, writeEach_read _ r _ _ g1, writeEach_read _ r _ _ h1, writeEach_read _ r _ _ i1,
      List.filterMap_map]
    rfl

theorem sections_none {γ : Type} (e : MeshEnv) (ls : List Load) (g : Kw → Option γ) :
    ((∀ p v, g (.ddlImpo p v) = none) → ls.filterMap (via (writeSpcd e) g) = []) ∧
    ((∀ x p, g (.presRep x p) = none) → ls.filterMap (via (writePression e) g) = []) ∧
    ((∀ x p, g (.forceCoque x p) = none) → ls.filterMap (via (writeForceCoque e) g) = []) ∧
    ((∀ p v, g (.forceFace p v) = none) → ls.filterMap (via (writeForceSurface e) g) = []) ∧
    ((∀ c v p, g (.forcePoutre c v p) = none) → ls.filterMap (via (writeForceLine e) g) = []) ∧
    ((∀ x d, g (.pesanteur x d) = none) → ls.filterMap (via writeGravity g) = []) ∧
    ((∀ x a c, g (.rotation x a c) = none) → ls.filterMap (via writeRotation g) = []) := by
  have bind_ok : ∀ {α β : Type} {o : Outcome α} {f : α → β} {k : β}, (do let x ← o; Outcome.ok (f x)) = .ok k → ∃ x, k = f x := by
    intro α β o f k h
    cases o <;> cases h
    exact ⟨_, rfl⟩
  refine ⟨?_, ?_, ?_, ?_, ?_, ?_, ?_⟩ <;> intro h <;> apply via_none <;> intro l k hk <;> cases l <;>
    simp only [writeSpcd, writePression, writeForceCoque, writeForceSurface, writeForceLine, writeGravity, writeRotation,
      reduceCtorEq, Option.some.injEq, Outcome.ok.injEq] at hk
  · obtain ⟨_, rfl⟩ := bind_ok hk; exact h _ _
  · obtain ⟨_, rfl⟩ := bind_ok hk; exact h _ _
  · obtain ⟨_, rfl⟩ := bind_ok hk; exact h _ _
  · obtain ⟨_, rfl⟩ := bind_ok hk; exact h _ _
  · split at hk
    · cases hk
    · obtain ⟨_, rfl⟩ := bind_ok (Option.some.inj hk); exact h _ _ _
  · subst hk; exact h _ _
  · subst hk; exact h _ _ _

theorem getD_neg {o : Option Dbl} : o.getD 0 - o.getD 0 = 0 := sub_self _

theorem not_overlap {e : MeshEnv} {ls : List Load} {c : Load → Prop} (h : ls.Pairwise fun a b => ¬Overlap e a b)
    (hc : ∀ a b, c a → c b → Overlap e a b) : ls.Pairwise fun a b => ¬(c a ∧ c b) :=
  h.imp fun hn hab => hn (hc _ _ hab.1 hab.2)

theorem nodal_agrees (e : MeshEnv) (ls : List Load) (kws : List Kw) (m : Map Nat (V3 × V3)) (hs : Sections e ls kws m)
    (hp : ∀ l ∈ ls, Placed e l) (n : Nat) (d : Dof) : |nodalRead kws n d - nodalWanted e ls n d| ≤ tol := by
  obtain ⟨m', h1, h2, h3⟩ := sumForces_spec e ls hp [] List.nodup_nil
  cases Outcome.ok.inj (hs.sums.symm.trans h1)
  have hv : nodalWanted e ls n d = val m n d := by rw [h3]; simp [val, Map.find]
  obtain ⟨a, b, c, f, g, h, i⟩ := sections_none e ls
    (fun | .forceNodale m vs => if m = medName 'N' n then givenComp vs d else none | _ => none)
  unfold nodalRead lastGiven
  rw [hs.read, a (fun _ _ => rfl), b (fun _ _ => rfl), c (fun _ _ => rfl), f (fun _ _ => rfl), g (fun _ _ _ => rfl),
    h (fun _ _ => rfl), i (fun _ _ _ => rfl)]
  simp only [List.nil_append, List.append_nil]
  rw [map_last m h2 n (fun p => givenComp (components p.1 p.2) d), hv]
  unfold val
  cases m.find n with
  | none => simpa using tol_pos.le
  | some v =>
    obtain ⟨x, y⟩ := v
    simp only [Option.bind_some, components_given]
    by_cases hz : isZero (comp x y d) = true
    · rw [if_pos hz]
      simpa using small_of_isZero hz
    · rw [if_neg hz]
      simpa using tol_pos.le

theorem face_agrees (e : MeshEnv) (ls : List Load) (kws : List Kw) (m : Map Nat (V3 × V3)) (hs : Sections e ls kws m)
    (hp : ∀ l ∈ ls, Placed e l) (hd : ls.Pairwise fun a b => ¬Overlap e a b) (p : Nat) :
    faceRead e kws p = faceWanted e ls p := by
  classical
  unfold faceRead lastGiven faceWanted
  set r : Kw → Option Dbl := fun | .presRep x place => if Covers e place p then some (-x) else none | _ => none with hr
  obtain ⟨a, b, c, f, g, h, i⟩ := sections_none e ls r
  rw [hs.read, a (fun _ _ => rfl), c (fun _ _ => rfl), f (fun _ _ => rfl), g (fun _ _ _ => rfl),
    h (fun _ _ => rfl), i (fun _ _ _ => rfl), filterMap_nil (fun _ _ => rfl)]
  simp only [List.nil_append, List.append_nil]
  refine sub_eq_zero.mp (abs_eq_zero.mp (le_antisymm (overload_sum
    (fun l => ∃ x c, l = .face x c ∧ p ∈ c.positionsIncluding e) _ _ ls 0 le_rfl (not_overlap hd ?_) ?_ ?_) (abs_nonneg _)))
  · rintro _ _ ⟨x, c, rfl, h1⟩ ⟨x', c', rfl, h2⟩
    exact ⟨p, h1, h2⟩
  · intro l hl hno
    cases l with
    | face x c =>
      have hpc : p ∉ c.positionsIncluding e := fun hm => hno ⟨x, c, rfl, hm⟩
      obtain ⟨pl, h1, h2, _⟩ := cellBox_spec e c ((hp _ hl).face x c rfl)
      have : ¬Covers e pl p := fun hc => hpc ((h2 p).mp hc)
      simp [via, writePression, h1, hr, this, hpc]
    | _ => exact ⟨rfl, rfl⟩
  · rintro l hl ⟨x, c, rfl, hm⟩
    obtain ⟨pl, h1, h2, _⟩ := cellBox_spec e c ((hp _ hl).face x c rfl)
    have : Covers e pl p := (h2 p).mpr hm
    simp [via, writePression, h1, hr, this, hm]

theorem shell_agrees (e : MeshEnv) (ls : List Load) (kws : List Kw) (m : Map Nat (V3 × V3)) (hs : Sections e ls kws m)
    (hp : ∀ l ∈ ls, Placed e l) (hd : ls.Pairwise fun a b => ¬Overlap e a b) (p : Nat) :
    shellRead e kws p = shellWanted e ls p := by
  classical
  unfold shellRead lastGiven shellWanted
  set r : Kw → Option Dbl := fun | .forceCoque x place => if Covers e place p then some (-x) else none | _ => none with hr
  obtain ⟨a, b, c, f, g, h, i⟩ := sections_none e ls r
  rw [hs.read, a (fun _ _ => rfl), b (fun _ _ => rfl), f (fun _ _ => rfl), g (fun _ _ _ => rfl),
    h (fun _ _ => rfl), i (fun _ _ _ => rfl), filterMap_nil (fun _ _ => rfl)]
  simp only [List.nil_append, List.append_nil]
  refine sub_eq_zero.mp (abs_eq_zero.mp (le_antisymm (overload_sum
    (fun l => ∃ x c, l = .shell x c ∧ p ∈ c.positionsIncluding e) _ _ ls 0 le_rfl (not_overlap hd ?_) ?_ ?_) (abs_nonneg _)))
  · rintro _ _ ⟨x, c, rfl, h1⟩ ⟨x', c', rfl, h2⟩
    exact ⟨p, h1, h2⟩
  · intro l hl hno
    cases l with
    | shell x c =>
      have hpc : p ∉ c.positionsIncluding e := fun hm => hno ⟨x, c, rfl, hm⟩
      obtain ⟨pl, h1, h2, _⟩ := cellBox_spec e c ((hp _ hl).shell x c rfl)
      have : ¬Covers e pl p := fun hc => hpc ((h2 p).mp hc)
      simp [via, writeForceCoque, h1, hr, this, hpc]
    | _ => exact ⟨rfl, rfl⟩
  · rintro l hl ⟨x, c, rfl, hm⟩
    obtain ⟨pl, h1, h2, _⟩ := cellBox_spec e c ((hp _ hl).shell x c rfl)
    have : Covers e pl p := (h2 p).mpr hm
    simp [via, writeForceCoque, h1, hr, this, hm]

theorem surface_agrees (e : MeshEnv) (ls : List Load) (kws : List Kw) (m : Map Nat (V3 × V3)) (hs : Sections e ls kws m)
    (hp : ∀ l ∈ ls, Placed e l) (hd : ls.Pairwise fun a b => ¬Overlap e a b) (p : Nat) (d : Dof) :
    |surfaceRead e kws p d - surfaceWanted e ls p d| ≤ tol := by
  classical
  unfold surfaceRead lastGiven surfaceWanted
  set r : Kw → Option Dbl := fun | .forceFace place vs => if Covers e place p then givenComp vs d else none | _ => none with hr
  obtain ⟨a, b, c, f, g, h, i⟩ := sections_none e ls r
  rw [hs.read, a (fun _ _ => rfl), b (fun _ _ => rfl), c (fun _ _ => rfl), g (fun _ _ _ => rfl),
    h (fun _ _ => rfl), i (fun _ _ _ => rfl), filterMap_nil (fun _ _ => rfl)]
  simp only [List.nil_append, List.append_nil]
  refine overload_sum (fun l => ∃ f m c, l = .surface f m c ∧ p ∈ c.positionsIncluding e) _ _ ls tol tol_pos.le
    (not_overlap hd ?_) ?_ ?_
  · rintro _ _ ⟨x, y, c, rfl, h1⟩ ⟨x', y', c', rfl, h2⟩
    exact ⟨p, h1, h2⟩
  · intro l hl hno
    cases l with
    | surface x y c =>
      have hpc : p ∉ c.positionsIncluding e := fun hm => hno ⟨x, y, c, rfl, hm⟩
      obtain ⟨pl, h1, h2, _⟩ := cellBox_spec e c ((hp _ hl).surface x y c rfl)
      have : ¬Covers e pl p := fun hc => hpc ((h2 p).mp hc)
      simp [via, writeForceSurface, h1, hr, this, hpc]
    | _ => exact ⟨rfl, rfl⟩
  · rintro l hl ⟨x, y, c, rfl, hm⟩
    obtain ⟨pl, h1, h2, _⟩ := cellBox_spec e c ((hp _ hl).surface x y c rfl)
    have : Covers e pl p := (h2 p).mpr hm
    simp only [via, writeForceSurface, h1, hr, Outcome.bind_ok, if_pos this, hm, if_true, components_given]
    by_cases hz : isZero (comp x y d) = true
    · rw [if_pos hz]
      simpa using small_of_isZero hz
    · rw [if_neg hz]
      simpa using tol_pos.le

theorem lineComponent_read (d : Dof) : force? (lineComponent d) = some d := by cases d <;> decide

theorem beams_geometry (es : List (Option Bool)) : ∀ o, o ≠ some false → (o = some true ∨ some true ∈ es) → some false ∉ es →
    appliedToGeometry o es = false := by
  induction es with
  | nil => rintro o _ (rfl | h) _ <;> [rfl; cases h]
  | cons a es ih =>
    intro o ho h hf
    have hf' : some false ∉ es := fun hm => hf (List.mem_cons_of_mem _ hm)
    cases a with
    | none =>
      unfold appliedToGeometry
      refine ih o ho ?_ hf'
      rcases h with h | h
      · exact Or.inl h
      · rcases List.mem_cons.mp h with h | h
        · cases h
        · exact Or.inr h
    | some b =>
      cases b with
      | true =>
        unfold appliedToGeometry
        have : (o == some false) = false := by simpa using ho
        simp only [if_true, this, Bool.false_eq_true, if_false]
        exact ih (some true) (by simp) (Or.inl rfl) hf'
      | false => exact absurd (List.mem_cons_self) hf

theorem line_agrees (e : MeshEnv) (ls : List Load) (kws : List Kw) (m : Map Nat (V3 × V3)) (hs : Sections e ls kws m)
    (hp : ∀ l ∈ ls, Placed e l) (hd : ls.Pairwise fun a b => ¬Overlap e a b)
    (hl : ∀ d v es c, .line d v es c ∈ ls → Beams es ∧ ∃ name, v = .function name) (p : Nat) (d : Dof) (name : String) :
    lineRead e kws p d = some name ↔ LineWanted e ls p d name := by
  classical
  unfold lineRead lastGiven
  set r : Kw → Option String := fun
    | .forcePoutre c v place => if Covers e place p ∧ force? c = some d then some v else none
    | _ => none with hr
  obtain ⟨sa, sb, sc, sf, _, sh, si⟩ := sections_none e ls r
  rw [hs.read, sa (fun _ _ => rfl), sb (fun _ _ => rfl), sc (fun _ _ => rfl), sf (fun _ _ => rfl),
    sh (fun _ _ => rfl), si (fun _ _ _ => rfl), filterMap_nil (fun _ _ => rfl)]
  simp only [List.nil_append, List.append_nil]
  have hno : ∀ l ∈ ls, ¬(∃ v es c, l = .line d v es c ∧ p ∈ c.positionsIncluding e) → via (writeForceLine e) r l = none := by
    intro l hm hno
    cases l with
    | line d' v es c =>
      obtain ⟨hb, _⟩ := hl _ _ _ _ hm
      have hgeo := beams_geometry es none (by simp) (Or.inr hb.1) hb.2
      obtain ⟨pl, h1, h2, _⟩ := cellBox_spec e c ((hp _ hm).line d' v es c rfl)
      have : ¬(Covers e pl p ∧ d' = d) := by
        rintro ⟨hc, rfl⟩
        exact hno ⟨v, es, c, rfl, (h2 p).mp hc⟩
      simp [via, writeForceLine, hgeo, h1, hr, lineComponent_read, this]
    | _ => rfl
  have hyes : ∀ v es c, .line d v es c ∈ ls → p ∈ c.positionsIncluding e → ∃ nm, v = .function nm ∧
      via (writeForceLine e) r (.line d v es c) = some nm := by
    intro v es c hm hpc
    obtain ⟨hb, nm, rfl⟩ := hl _ _ _ _ hm
    have hgeo := beams_geometry es none (by simp) (Or.inr hb.1) hb.2
    obtain ⟨pl, h1, h2, _⟩ := cellBox_spec e c ((hp _ hm).line d _ es c rfl)
    have : Covers e pl p := (h2 p).mpr hpc
    exact ⟨nm, rfl, by simp [via, writeForceLine, hgeo, h1, hr, lineComponent_read, this, lineName]⟩
  rcases one_of (fun l => ∃ v es c, l = .line d v es c ∧ p ∈ c.positionsIncluding e) ls (not_overlap hd (by
    rintro _ _ ⟨v, es, c, rfl, h1⟩ ⟨v', es', c', rfl, h2⟩
    exact ⟨rfl, p, h1, h2⟩)) with hall | ⟨a', l, b', he, ⟨v, es, c, rfl, hpc⟩, h2, h3⟩
  · rw [filterMap_nil (fun l hm => hno l hm (hall l hm))]
    constructor
    · intro hh; cases hh
    · rintro ⟨es, c, hm, hpc⟩
      exact absurd ⟨_, _, _, rfl, hpc⟩ (hall _ hm)
  · have hm : Load.line d v es c ∈ ls := by rw [he]; simp
    obtain ⟨nm, rfl, hv⟩ := hyes v es c hm hpc
    have hlist : ls.filterMap (via (writeForceLine e) r) = [nm] := by
      rw [he, List.filterMap_append, List.filterMap_cons, hv,
        filterMap_nil (fun l hm => hno l (by rw [he]; simp [hm]) (h2 l hm)),
        filterMap_nil (fun l hm => hno l (by rw [he]; simp [hm]) (h3 l hm))]
      rfl
    rw [hlist]
    constructor
    · intro hh
      cases hh
      exact ⟨_, _, hm, hpc⟩
    · rintro ⟨es', c', hm', hpc'⟩
      have : Load.line d (.function name) es' c' = .line d (.function nm) es c := by
        rw [he] at hm'
        rcases List.mem_append.mp hm' with h | h
        · exact absurd ⟨_, _, _, rfl, hpc'⟩ (h2 _ h)
        · rcases List.mem_cons.mp h with h | h
          · exact h
          · exact absurd ⟨_, _, _, rfl, hpc'⟩ (h3 _ h)
      cases this
      rfl

theorem gravity_agrees (e : MeshEnv) (ls : List Load) (kws : List Kw) (m : Map Nat (V3 × V3)) (hs : Sections e ls kws m)
    (hg : ∀ a norm, .gravity a norm ∈ ls → norm ≠ 0) : gravityRead kws = (gravityWanted ls).map some := by
  unfold gravityRead gravityWanted
  set r : Kw → Option (Option V3) := fun
    | .pesanteur g d => some (d.map fun v => ⟨g * v.x, g * v.y, g * v.z⟩)
    | _ => none with hr
  obtain ⟨a, b, c, f, g, h, i⟩ := sections_none e ls r
  rw [hs.read, a (fun _ _ => rfl), b (fun _ _ => rfl), c (fun _ _ => rfl), f (fun _ _ => rfl), g (fun _ _ _ => rfl),
    i (fun _ _ _ => rfl), filterMap_nil (fun _ _ => rfl)]
  simp only [List.nil_append, List.append_nil, List.map_filterMap]
  refine List.filterMap_congr fun l hl => ?_
  cases l with
  | gravity a norm =>
    have hn := hg a norm hl
    simp only [via, writeGravity, hr, if_neg hn, Option.map_some, Option.some.injEq]
    cases a
    simp only [V3.mk.injEq]
    exact ⟨mul_div_cancel₀ _ hn, mul_div_cancel₀ _ hn, mul_div_cancel₀ _ hn⟩
  | _ => rfl

theorem rotation_agrees (e : MeshEnv) (ls : List Load) (kws : List Kw) (m : Map Nat (V3 × V3)) (hs : Sections e ls kws m) :
    rotationRead kws = rotationWanted ls := by
  unfold rotationRead rotationWanted
  set r : Kw → Option (Dbl × V3 × V3) := fun | .rotation v a c => some (v, a, c) | _ => none with hr
  obtain ⟨a, b, c, f, g, h, i⟩ := sections_none e ls r
  rw [hs.read, a (fun _ _ => rfl), b (fun _ _ => rfl), c (fun _ _ => rfl), f (fun _ _ => rfl), g (fun _ _ _ => rfl),
    h (fun _ _ => rfl), filterMap_nil (fun _ _ => rfl)]
  simp only [List.nil_append]
  refine List.filterMap_congr fun l hl => ?_
  cases l <;> rfl

theorem imposed_agrees (e : MeshEnv) (ls : List Load) (kws : List Kw) (m : Map Nat (V3 × V3)) (hs : Sections e ls kws m)
    (hp : ∀ l ∈ ls, Placed e l) (u : Field) : ImposedRead e u kws ↔ ImposedWanted e u ls := by
  set r : Kw → Option (List Where × List (String × Dbl)) := fun | .ddlImpo p v => some (p, v) | _ => none with hr
  obtain ⟨a, b, c, f, g, h, i⟩ := sections_none e ls r
  have hread := hs.read r
  rw [b (fun _ _ => rfl), c (fun _ _ => rfl), f (fun _ _ => rfl), g (fun _ _ _ => rfl),
    h (fun _ _ => rfl), i (fun _ _ _ => rfl), filterMap_nil (l := m) (fun _ _ => rfl)] at hread
  simp only [List.append_nil] at hread
  have hmem : ∀ p v, .ddlImpo p v ∈ kws ↔ (p, v) ∈ ls.filterMap (via (writeSpcd e) r) := by
    intro p v
    rw [← hread, List.mem_filterMap]
    constructor
    · intro hm; exact ⟨_, hm, rfl⟩
    · rintro ⟨k, hk, hv⟩
      cases k <;> simp only [hr, reduceCtorEq, Option.some.injEq, Prod.mk.injEq] at hv
      obtain ⟨rfl, rfl⟩ := hv
      exact hk
  have hsec : ∀ c d, .imposed c d ∈ ls → ∃ pl rr, via (writeSpcd e) r (.imposed c d) = some (pl, imposedValues d) ∧
      nodesOf e c = rr ∧ ∀ n, (∃ w ∈ pl, InPlace e n w) ↔ n ∈ rr := by
    intro c d hm
    obtain ⟨pl, rr, h1, h2, h3⟩ := C102_place e c ((hp _ hm).imposed c d rfl)
    exact ⟨pl, rr, by simp [via, writeSpcd, h1, hr], by simp [nodesOf, h2], h3⟩
  unfold ImposedRead ImposedWanted
  constructor
  · intro hh c d hm n hn x hx
    obtain ⟨pl, rr, h1, h2, h3⟩ := hsec c d hm
    rw [h2] at hn
    have := hh pl (imposedValues d) ((hmem _ _).mpr (List.mem_filterMap.mpr ⟨_, hm, h1⟩)) n ((h3 n).mpr hn)
      (ddlName x, d.getValue x) (List.mem_map.mpr ⟨x, by rw [Dofs.toList_eq]; simp [hx, Dof.mem_all], rfl⟩)
    obtain ⟨d', e1, e2⟩ := this
    rw [ddl_name] at e1
    cases e1
    exact e2
  · intro hh pl vs hm n hn v hv
    obtain ⟨l, hl, hv'⟩ := List.mem_filterMap.mp ((hmem _ _).mp hm)
    cases l with
    | imposed c d =>
      obtain ⟨pl', rr, h1, h2, h3⟩ := hsec c d hl
      rw [h1] at hv'
      cases hv'
      obtain ⟨x, hx, rfl⟩ := List.mem_map.mp hv
      rw [Dofs.toList_eq, List.mem_filter] at hx
      exact ⟨x, ddl_name x, hh c d hl n (by rw [h2]; exact (h3 n).mp hn) x hx.2⟩
    | _ => simp [via, writeSpcd] at hv'

theorem sumForces_lines (e : MeshEnv) (ls : List Load) (h : ∀ l ∈ ls, l.hasFunctions = true) (m : Map Nat (V3 × V3)) :
    sumForces e ls m = .ok m := by
  induction ls with
  | nil => rfl
  | cons l ls ih =>
    have hl := h l (by simp)
    have := ih (fun a ha => h a (List.mem_cons_of_mem _ ha))
    cases l <;> simp only [Load.hasFunctions, Bool.false_eq_true] at hl
    simpa [sumForces] using this

theorem accepted (e : MeshEnv) (ls : List Load) (kws : List Kw) (m : Map Nat (V3 × V3)) (hs : Sections e ls kws m)
    (hx : Expressed e ls) : ∀ k ∈ kws, Accepts (ls.any Load.hasFunctions) k := by
  classical
  suffices hsuff : kws.filterMap (fun k => if Accepts (ls.any Load.hasFunctions) k then none else some ()) = [] by
    intro k hk
    by_contra hn
    have := List.filterMap_eq_nil_iff.mp hsuff k hk
    rw [if_neg hn] at this
    cases this
  obtain ⟨l0, hl0, _⟩ := hx.some_load
  set r : Kw → Option Unit := fun k => if Accepts (ls.any Load.hasFunctions) k then none else some () with hr
  obtain ⟨a, b, c, f, g, h, i⟩ := sections_none e ls r
  rcases hx.uniform with hu | hu
  · have hany : ls.any Load.hasFunctions = true := List.any_eq_true.mpr ⟨l0, hl0, hu l0 hl0⟩
    have hm : m = [] := Outcome.ok.inj (hs.sums.symm.trans (sumForces_lines e ls hu []))
    have hnone : ∀ {fn : Load → Option (Outcome Kw)}, (∀ d v es c, fn (.line d v es c) = none) →
        ls.filterMap (via fn r) = [] := by
      intro fn hfn
      apply filterMap_nil
      intro l hl
      have := hu l hl
      cases l <;> simp only [Load.hasFunctions, Bool.false_eq_true] at this
      simp [via, hfn]
    rw [hs.read, hm, hnone (fn := writeSpcd e) (fun _ _ _ _ => rfl), hnone (fn := writePression e) (fun _ _ _ _ => rfl),
      hnone (fn := writeForceCoque e) (fun _ _ _ _ => rfl), hnone (fn := writeForceSurface e) (fun _ _ _ _ => rfl),
      hnone (fn := writeGravity) (fun _ _ _ _ => rfl), hnone (fn := writeRotation) (fun _ _ _ _ => rfl),
      g (fun _ _ _ => by simp [hr, Accepts, hany])]
    rfl
  · have hany : ls.any Load.hasFunctions = false := by
      rw [List.any_eq_false]
      intro l hl
      simp [hu l hl]
    have hline : ls.filterMap (via (writeForceLine e) r) = [] := by
      apply filterMap_nil
      intro l hl
      cases l with
      | line d v es c =>
        obtain ⟨_, nm, rfl⟩ := hx.line d v es c hl
        have := hu _ hl
        simp [Load.hasFunctions] at this
      | _ => rfl
    rw [hs.read, a (fun _ _ => by simp [hr, Accepts, hany]), b (fun _ _ => by simp [hr, Accepts, hany]),
      c (fun _ _ => by simp [hr, Accepts, hany]), f (fun _ _ => by simp [hr, Accepts, hany]), hline,
      h (fun _ _ => by simp [hr, Accepts, hany]), i (fun _ _ _ => by simp [hr, Accepts, hany]),
      filterMap_nil (fun _ _ => by simp [hr, Accepts, hany])]
    rfl

/-- **C104**: the command written for a set of loads applies what the loads of the set apply. Partial: loads of one kind on
the same cell, functions together with numbers, forces along lines that are not beams and loads of a length 0 are left out
(see below), and forces of each node and surface are given up to the tolerance of the comparison with 0. -/
theorem C104_loads_partial (e : MeshEnv) (ls : List Load) (hx : Expressed e ls) :
    ∃ F kws, writeLoadSet e false ls = .ok (some (F, kws)) ∧ (∀ k ∈ kws, Accepts F k) ∧ Agrees e ls kws := by
  obtain ⟨kws, m, h1, hs⟩ := sections e ls hx.present
  refine ⟨ls.any Load.hasFunctions, kws, ?_, accepted e ls kws m hs hx, ?_⟩
  · obtain ⟨l, hl, hne⟩ := hx.some_load
    unfold writeLoadSet
    rw [if_neg (by simp), if_neg, if_neg, h1]
    · rfl
    · intro hlen
      have := List.length_filter_eq_length_iff.mp hlen.symm l hl
      cases l <;> simp [Load.isTemperature] at this
      exact hne rfl
    · intro he
      rw [List.isEmpty_iff] at he
      rw [he] at hl
      cases hl
  · exact ⟨nodal_agrees e ls kws m hs hx.present, face_agrees e ls kws m hs hx.present hx.disjoint,
      shell_agrees e ls kws m hs hx.present hx.disjoint, surface_agrees e ls kws m hs hx.present hx.disjoint,
      line_agrees e ls kws m hs hx.present hx.disjoint hx.line, gravity_agrees e ls kws m hs hx.gravity,
      rotation_agrees e ls kws m hs, imposed_agrees e ls kws m hs hx.present⟩

/-! ## What is not kept -/

/-- Two pressures on the same cells: each is written, and the last one counts. -/
theorem C104_overload_false (e : MeshEnv) (p : Nat) (x y : Dbl) (hx : x ≠ 0) :
    ∃ kws, writeLoadSet e false [.face x ⟨[p], []⟩, .face y ⟨[p], []⟩] = .ok (some (false, kws)) ∧
      faceRead e kws p ≠ faceWanted e [.face x ⟨[p], []⟩, .face y ⟨[p], []⟩] p := by
  classical
  refine ⟨[.presRep (-x) [.maille [medName 'M' p]], .presRep (-y) [.maille [medName 'M' p]]], rfl, ?_⟩
  have hc : Covers e [.maille [medName 'M' p]] p := ⟨_, List.mem_singleton.mpr rfl, List.mem_singleton.mpr rfl⟩
  have hr : faceRead e [.presRep (-x) [.maille [medName 'M' p]], .presRep (-y) [.maille [medName 'M' p]]] p = y := by
    simp [faceRead, lastGiven, hc]
  rw [hr]
  have hw : faceWanted e [.face x ⟨[p], []⟩, .face y ⟨[p], []⟩] p = x + y := by
    simp [faceWanted, CellBox.positionsIncluding]
  rw [hw]
  intro h
  apply hx
  linarith

/-- A function together with a number: the command does not accept both. -/
theorem C104_mixed_false (e : MeshEnv) (ls : List Load) (d : Dof) (name : String) (es : List (Option Bool)) (c : CellBox)
    (x : Dbl) (a b : V3) (hp : ∀ l ∈ ls, Placed e l) (hl : .line d (.function name) es c ∈ ls) (hr : .rotation x a b ∈ ls) :
    ∃ F kws, writeLoadSet e false ls = .ok (some (F, kws)) ∧ ∃ k ∈ kws, ¬Accepts F k := by
  obtain ⟨kws, m, h1, hs⟩ := sections e ls hp
  refine ⟨ls.any Load.hasFunctions, kws, ?_, .rotation x a b, ?_, ?_⟩
  · unfold writeLoadSet
    rw [if_neg (by simp), if_neg, if_neg, h1]
    · rfl
    · intro hlen
      have := List.length_filter_eq_length_iff.mp hlen.symm _ hr
      cases this
    · intro he
      rw [List.isEmpty_iff] at he
      rw [he] at hl
      cases hl
  · have := hs.read (fun k => some k)
    rw [List.filterMap_some] at this
    rw [this]
    simp only [List.mem_append]
    refine Or.inr (Or.inr (Or.inr (Or.inr (Or.inr (Or.inr (Or.inr ?_))))))
    exact List.mem_filterMap.mpr ⟨_, hr, rfl⟩
  · have hany : ls.any Load.hasFunctions = true := List.any_eq_true.mpr ⟨_, hl, rfl⟩
    simp [Accepts, hany]

/-- A force along lines whose first element is not a beam is not written, whatever the others are. -/
theorem C104_geometry_false (e : MeshEnv) (d : Dof) (v : LineValue) (es : List (Option Bool)) (c : CellBox) (F : Bool)
    (kws : List Kw) (h : writeLoadSet e false [.line d v (some false :: es) c] = .ok (some (F, kws))) : kws = [] := by
  have hg : ∀ es, appliedToGeometry (some false) es = true := by
    intro es
    induction es with
    | nil => rfl
    | cons a es ih =>
      cases a with
      | none => simpa [appliedToGeometry] using ih
      | some b => cases b <;> simp [appliedToGeometry, ih]
  have hgeo : appliedToGeometry none (some false :: es) = true := by
    simp [appliedToGeometry, hg]
  simp [writeLoadSet, Load.isTemperature, writeKeywords, writeEach, writeSpcd, writePression, writeForceCoque, writeNodalForce,
    sumForces, writeForceSurface, writeForceLine, hgeo, writeGravity, writeRotation] at h
  exact h.2

/-- A constant force along a line is written without its value. -/
theorem C104_constant_false (e : MeshEnv) (d : Dof) (x : Dbl) (p : Nat) :
    writeLoadSet e false [.line d (.constant x) [some true] ⟨[p], []⟩] =
      .ok (some (false, [.forcePoutre (lineComponent d) "" [.maille [medName 'M' p]]])) := rfl

/-- Temperatures are not written. -/
theorem C104_temperature_false (e : MeshEnv) (ls : List Load) (h : ∀ l ∈ ls, l = .temperature) :
    writeLoadSet e false ls = .ok none := by
  unfold writeLoadSet
  rw [if_neg (by simp)]
  split
  · rfl
  · rw [if_pos]
    symm
    rw [List.length_filter_eq_length_iff]
    intro l hl
    rw [h l hl]
    rfl

/-- A mesh with three nodes and a group of cells. -/
def loadMesh : MeshEnv where
  cellNodes p := if p < 2 then some [p, p + 1] else none
  group g := if g = "G" then some (.cell [0]) else none

/-- The hypotheses are met by a set with loads of several kinds, two of them on the same node. -/
example : Expressed loadMesh
    [.nodal ⟨⟨[], []⟩, [1], []⟩ (fun _ => ⟨1, 0, 0⟩) (fun _ => ⟨0, 0, 2⟩), .nodal ⟨⟨[0], []⟩, [], []⟩ (fun _ => ⟨0, 3, 0⟩) (fun _ => ⟨0, 0, 0⟩),
     .face 5 ⟨[], ["G"]⟩, .face 7 ⟨[1], []⟩, .shell 2 ⟨[0], []⟩, .surface ⟨1, 2, 3⟩ ⟨0, 0, 0⟩ ⟨[0], []⟩,
     .gravity ⟨0, 3, 4⟩ 5, .rotation 1 ⟨0, 0, 1⟩ ⟨0, 0, 0⟩, .temperature] := by
  have hG : ∀ g ∈ ["G"], ∃ ps, loadMesh.group g = some (.cell ps) := by
    intro g hg
    cases List.mem_singleton.mp hg
    exact ⟨[0], by simp [loadMesh]⟩
  have hp1 : Present loadMesh ⟨⟨[], []⟩, [1], []⟩ := ⟨by simp [CellBox.positionsIncluding], by simp, by simp⟩
  have hp2 : Present loadMesh ⟨⟨[0], []⟩, [], []⟩ := ⟨by simp [CellBox.positionsIncluding, loadMesh], by simp, by simp⟩
  refine ⟨?_, ⟨_, List.mem_cons_self, by simp⟩, ?_, ?_, ?_, Or.inr (by simp [Load.hasFunctions])⟩
  · intro l hl
    simp only [List.mem_cons, List.not_mem_nil, or_false] at hl
    rcases hl with rfl | rfl | rfl | rfl | rfl | rfl | rfl | rfl | rfl <;>
      refine ⟨?_, ?_, ?_, ?_, ?_, ?_⟩ <;> simp only [reduceCtorEq, false_implies, implies_true, Load.nodal.injEq,
        Load.face.injEq, Load.shell.injEq, Load.surface.injEq]
    · intro c f m h; rw [← h.1]; exact hp1
    · intro c f m h; rw [← h.1]; exact hp2
    · intro x c h; rw [← h.2]; exact hG
    · intro x c h; rw [← h.2]; simp
    · intro x c h; rw [← h.2]; simp
    · intro f m c h; rw [← h.2.2]; simp
  · simp [Overlap, CellBox.positionsIncluding, CellBox.groupCells, loadMesh]
  · simp
  · simp

/-- Forces along beams, given by functions. -/
example : Expressed loadMesh [.line .DX (.function "F") [some true] ⟨[0], []⟩, .line .DY (.function "G") [some true] ⟨[0, 1], []⟩] := by
  refine ⟨?_, ⟨_, List.mem_cons_self, by simp⟩, ?_, by simp, ?_, Or.inl (by simp [Load.hasFunctions])⟩
  · intro l hl
    simp only [List.mem_cons, List.not_mem_nil, or_false] at hl
    rcases hl with rfl | rfl <;>
      refine ⟨?_, ?_, ?_, ?_, ?_, ?_⟩ <;> simp only [reduceCtorEq, false_implies, implies_true, Load.line.injEq]
    · intro d v es c h; rw [← h.2.2.2]; simp
    · intro d v es c h; rw [← h.2.2.2]; simp
  · simp [Overlap]
  · intro d v es c h
    simp only [List.mem_cons, Load.line.injEq, List.not_mem_nil, or_false] at h
    rcases h with ⟨_, rfl, rfl, _⟩ | ⟨_, rfl, rfl, _⟩ <;> exact ⟨by simp [Beams], _, rfl⟩

end Vega.AsterSpec
