import Verif.Aster.Constraints
import Verif.Constraint.SpcProps
import Verif.Med.FamilyProps
import Verif.Mesh.BoxProps
import Mathlib.Algebra.BigOperators.Group.List.Basic
import Mathlib.Tactic.Ring
import Mathlib.Tactic.NormNum

/-! # Constraints written for Code_Aster (C102) -/
namespace Vega.AsterSpec
open Aster Med

/-! ## Specification -/

/-- A field of displacements and rotations: the value of each degree of freedom of each node. -/
abbrev Field := Nat → Dof → Dbl

/-- The conditions whose mechanical meaning is left open: a rigid body, a node that follows the weighted mean of
others, a sliding between two groups of cells. -/
structure Physics where
  rigid : (Nat → Prop) → Field → Prop
  mean : Nat → List Dof → List (Nat × List Dof × Dbl) → Field → Prop
  sliding : String → String → Field → Prop

/-- A node of a place, as Code_Aster reads the keywords. -/
def InPlace (e : MeshEnv) (n : Nat) : Where → Prop
  | .groupNo gs => ∃ g ∈ gs, ∃ ps, e.group g = some (.node ps) ∧ n ∈ ps
  | .noeud ns => medName 'N' n ∈ ns
  | .tout => True
  | .groupMa gs => ∃ g ∈ gs, ∃ ps, e.group g = some (.cell ps) ∧ ∃ p ∈ ps, ∃ ns, e.cellNodes p = some ns ∧ n ∈ ns
  | .maille ms => ∃ p, medName 'M' p ∈ ms ∧ ∃ ns, e.cellNodes p = some ns ∧ n ∈ ns

/-- The degrees of freedom of Code_Aster. -/
def ddl? (s : String) : Option Dof :=
  if s = "DX" then some .DX else if s = "DY" then some .DY else if s = "DZ" then some .DZ
  else if s = "DRX" then some .RX else if s = "DRY" then some .RY else if s = "DRZ" then some .RZ else none

/-- The parts of a text between hyphens. -/
def hyphenated : List Char → List (List Char)
  | [] => [[]]
  | c :: cs =>
    if c = '-' then [] :: hyphenated cs
    else match hyphenated cs with
      | [] => [[c]]
      | w :: ws => (c :: w) :: ws

/-- Degrees of freedom with hyphens between them; nothing stands for none. -/
def ddls? (s : String) : Option (List Dof) :=
  if s = "" then some [] else (hyphenated s.toList).mapM fun w => ddl? (String.ofList w)

/-- What an occurrence of a keyword demands of a field, as Code_Aster reads it. Lists that do not fit together, or a
text that is not a keyword, demand the impossible. -/
def Demands (P : Physics) (e : MeshEnv) (u : Field) : Factor → Prop
  | .ddlImpo place values => ∀ n, (∃ w ∈ place, InPlace e n w) → ∀ v ∈ values, ∃ d, ddl? v.1 = some d ∧ u n d = v.2
  | .message => False
  | .liaisonSolide ns => P.rigid (fun n => medName 'N' n ∈ ns) u
  | .liaisonMail m s => P.sliding m s u
  | .liaisonRbe3 m dm ns ds cs => ∃ (master : Nat) (D : List Dof) (l : List (Nat × List Dof × Dbl)),
      m = medName 'N' master ∧ dm.mapM ddl? = some D ∧ ns = l.map (fun t => medName 'N' t.1) ∧
      ds.mapM ddls? = some (l.map fun t => t.2.1) ∧ cs = l.map (fun t => t.2.2) ∧ P.mean master D l u
  | .liaisonDdl ns ds cs b => ∃ l : List (Nat × Dof × Dbl), ns = l.map (fun t => medName 'N' t.1) ∧
      ds.mapM ddl? = some (l.map fun t => t.2.1) ∧ cs = l.map (fun t => t.2.2) ∧
      (l.map fun t => t.2.2 * u t.1 t.2.1).sum = b

/-- The left side of a relation. -/
def lhs (u : Field) (l : Map Nat DofCoefs) : Dbl :=
  (l.map fun pc => (Dof.all.map fun d => pc.2.getValue d * u pc.1 d).sum).sum

/-- The slaves of a mean with their degrees of freedom and weights. -/
def slavesOf (r : Rbe3) : List (Nat × List Dof × Dbl) :=
  r.slaves.filterMap fun p =>
    match r.slaveDofs.find p, r.slaveCoefs.find p with
    | some ds, some x => some (p, ds.toList, x)
    | _, _ => none

/-- What a constraint of the model demands of a field. The contacts are no business of this command. -/
def Asks (P : Physics) (e : MeshEnv) (u : Field) : Constr → Prop
  | .spc nodes s => ∀ r, nodes.nodesIncluding e = .ok r → ∀ n ∈ r, ∀ d x, s.spcs d = .value x → u n d = x
  | .rigid ns => P.rigid (· ∈ ns) u
  | .quasiRigid ns _ _ => P.rigid (· ∈ ns) u
  | .rbe3 r => P.mean r.master r.dofs.toList (slavesOf r) u
  | .lmpc l => lhs u l.coefs = l.coefImpo
  | .slide m s => P.sliding m s u
  | .contact => True

/-- The cells and the groups that a container names are in the mesh. -/
structure Present (e : MeshEnv) (c : NodeBox) : Prop where
  cells : ∀ p ∈ c.base.positionsIncluding e, e.cellNodes p ≠ none
  cellGroups : ∀ g ∈ c.base.groups, ∃ ps, e.group g = some (.cell ps)
  nodeGroups : ∀ g ∈ c.nodeGroups, ∃ ps, e.group g = some (.node ps)

/-- The constraints that the command can express: values rather than functions, rigid bodies as a whole (the others have
been replaced by relations, Model.cpp 2261-2265), slaves with their degrees of freedom and weights, coefficients that
vanish or are above the tolerance. -/
def Plain (e : MeshEnv) : Constr → Prop
  | .spc nodes s => Present e nodes ∧ ∀ d r, s.spcs d = .ref r → (ValOrRef.ref r).beq .EMPTY = true
  | .rigid _ => True
  | .quasiRigid _ ds b => ds = Dofs.ALL_DOFS ∧ b = true
  | .rbe3 r => ∀ p ∈ r.slaves, p ≠ r.master ∧ (∃ ds, r.slaveDofs.find p = some ds) ∧ ∃ x, r.slaveCoefs.find p = some x
  | .lmpc l => l.coefs.keys.Nodup ∧ ∀ pc ∈ l.coefs, ∀ d, isZero (pc.2.getValue d) = true → pc.2.getValue d = 0
  | .slide _ _ => True
  | .contact => True

/-! ## Names -/

theorem ddl_name (d : Dof) : ddl? (ddlName d) = some d := by cases d <;> decide

theorem ddl_names (l : List Dof) : (l.map ddlName).mapM ddl? = some l := by
  induction l with
  | nil => rfl
  | cons d l ih => simp [List.map_cons, List.mapM_cons, ddl_name, ih]

theorem ddlList_eq (ds : Dofs) : ddlList ds = ds.toList.map ddlName := by
  rw [Dofs.toList_eq]
  unfold ddlList Dof.all
  simp only [List.filter_cons, List.filter_nil]
  cases ds.contains .DX <;> cases ds.contains .DY <;> cases ds.contains .DZ <;> cases ds.contains .RX <;>
    cases ds.contains .RY <;> cases ds.contains .RZ <;> rfl

theorem ddlJoined_read (ds : Dofs) : ddls? (ddlJoined ds) = some ds.toList := by
  obtain ⟨b⟩ := ds
  revert b
  decide +kernel

theorem size_toList (ds : Dofs) : ds.size = ds.toList.length := by
  obtain ⟨b⟩ := ds
  revert b
  decide +kernel

theorem name_inj {p q : Nat} (h : medName 'N' p = medName 'N' q) : p = q := (MedSpec.C94_names _ _ _ _ h).2

theorem mem_names {n : Nat} {l : List Nat} : medName 'N' n ∈ l.map (medName 'N') ↔ n ∈ l := by
  rw [List.mem_map]
  exact ⟨fun ⟨m, hm, h⟩ => name_inj h ▸ hm, fun h => ⟨n, h, rfl⟩⟩

theorem mem_cellNames {n : Nat} {l : List Nat} : medName 'M' n ∈ l.map (medName 'M') ↔ n ∈ l := by
  rw [List.mem_map]
  exact ⟨fun ⟨m, hm, h⟩ => (MedSpec.C94_names _ _ _ _ h).2 ▸ hm, fun h => ⟨n, h, rfl⟩⟩

theorem map_names_inj {α β : Type} {f : α → Nat} {g : β → Nat} : ∀ {l : List α} {m : List β},
    l.map (fun t => medName 'N' (f t)) = m.map (fun t => medName 'N' (g t)) → l.map f = m.map g
  | [], [], _ => rfl
  | [], _ :: _, h => by simp at h
  | _ :: _, [], h => by simp at h
  | a :: l, b :: m, h => by
    simp only [List.map_cons, List.cons.injEq] at h ⊢
    exact ⟨name_inj h.1, map_names_inj h.2⟩

/-! ## Places -/

theorem nodeGroupNames_spec (e : MeshEnv) (gs : List String) (h : ∀ g ∈ gs, ∃ ps, e.group g = some (.node ps)) :
    ∃ r, nodeGroupNames e gs = .ok r ∧
      ∀ n, InPlace e n (.groupNo r) ↔ ∃ g ∈ gs, ∃ ps, e.group g = some (.node ps) ∧ n ∈ ps := by
  induction gs with
  | nil => exact ⟨[], rfl, fun n => Iff.rfl⟩
  | cons g gs ih =>
    obtain ⟨r, h1, h2⟩ := ih (fun q hq => h q (List.mem_cons_of_mem _ hq))
    obtain ⟨ps, hps⟩ := h g (by simp)
    refine ⟨if ps.isEmpty then r else g :: r, by simp [nodeGroupNames, hps, h1], fun n => ?_⟩
    have h2 := h2 n
    simp only [InPlace] at h2 ⊢
    cases ps with
    | nil =>
      simp only [List.isEmpty_nil, if_true, List.mem_cons, h2]
      constructor
      · rintro ⟨g', hg, w⟩; exact ⟨g', Or.inr hg, w⟩
      · rintro ⟨g', rfl | hg, ps, w1, w2⟩
        · rw [hps] at w1; cases w1; simp at w2
        · exact ⟨g', hg, ps, w1, w2⟩
    | cons a ps => simp [h2]

theorem cellGroupNames_spec (e : MeshEnv) (gs : List String) (h : ∀ g ∈ gs, ∃ ps, e.group g = some (.cell ps)) :
    ∃ r, cellGroupNames e gs = .ok r ∧
      ∀ p, (∃ g ∈ r, ∃ ps, e.group g = some (.cell ps) ∧ p ∈ ps) ↔ p ∈ gs.flatMap (CellBox.groupCells e) := by
  induction gs with
  | nil => exact ⟨[], rfl, fun n => by simp⟩
  | cons g gs ih =>
    obtain ⟨r, h1, h2⟩ := ih (fun q hq => h q (List.mem_cons_of_mem _ hq))
    obtain ⟨ps, hps⟩ := h g (by simp)
    refine ⟨if ps.isEmpty then r else g :: r, by simp [cellGroupNames, hps, h1], fun p => ?_⟩
    have hg : CellBox.groupCells e g = ps := by simp [CellBox.groupCells, hps]
    rw [List.flatMap_cons, List.mem_append, hg, ← h2 p]
    cases ps with
    | nil => simp
    | cons a ps => simp [hps]

/-- The cells of a place. -/
def CellInPlace (e : MeshEnv) (p : Nat) : Where → Prop
  | .groupMa gs => ∃ g ∈ gs, ∃ ps, e.group g = some (.cell ps) ∧ p ∈ ps
  | .maille ms => medName 'M' p ∈ ms
  | .tout => True
  | _ => False

theorem cellBox_spec (e : MeshEnv) (c : CellBox) (h : ∀ g ∈ c.groups, ∃ ps, e.group g = some (.cell ps)) :
    ∃ pl, writeCellContainer e false c = .ok pl ∧
      (∀ p, (∃ w ∈ pl, CellInPlace e p w) ↔ p ∈ c.positionsIncluding e) ∧
      ∀ w ∈ pl, (∃ gs, w = .groupMa gs) ∨ ∃ ms, w = .maille ms := by
  obtain ⟨r, h1, h2⟩ := cellGroupNames_spec e c.groups h
  have hcells : ∀ p, (∃ w ∈ writeCells c, CellInPlace e p w) ↔ p ∈ c.cells := by
    intro p
    unfold writeCells
    cases hc : c.cells with
    | nil => simp
    | cons a l =>
      rw [if_neg (by simp)]
      simp only [List.mem_singleton, exists_eq_left, CellInPlace]
      rw [mem_cellNames]
  have hkind : ∀ w ∈ writeCells c, (∃ gs, w = .groupMa gs) ∨ ∃ ms, w = .maille ms := by
    intro w hw
    unfold writeCells at hw
    split at hw
    · simp at hw
    · exact Or.inr ⟨_, List.mem_singleton.mp hw⟩
  unfold writeCellContainer writeCellGroups
  cases hg : c.groups with
  | nil =>
    refine ⟨[] ++ writeCells c, by simp, fun p => ?_, by simpa using hkind⟩
    rw [List.nil_append, hcells p]
    simp [CellBox.positionsIncluding, hg]
  | cons g gs =>
    rw [hg] at h1 h2
    refine ⟨[.groupMa r] ++ writeCells c, by simp [h1], fun p => ?_, ?_⟩
    · simp only [List.mem_append, List.mem_singleton, or_and_right, exists_or, exists_eq_left, hcells p]
      simp only [CellInPlace, h2 p, CellBox.positionsIncluding, hg, List.mem_append]
      exact or_comm
    · intro w hw
      rcases List.mem_append.mp hw with hw | hw
      · exact Or.inl ⟨_, List.mem_singleton.mp hw⟩
      · exact hkind w hw

/-- The nodes of a place of cells are those of its cells. -/
theorem inPlace_cells (e : MeshEnv) (n : Nat) (w : Where) (h : (∃ gs, w = .groupMa gs) ∨ ∃ ms, w = .maille ms) :
    InPlace e n w ↔ ∃ p, CellInPlace e p w ∧ ∃ ns, e.cellNodes p = some ns ∧ n ∈ ns := by
  rcases h with ⟨gs, rfl⟩ | ⟨ms, rfl⟩
  · simp only [InPlace, CellInPlace]
    constructor
    · rintro ⟨g, hg, ps, h1, p, hp, w⟩; exact ⟨p, ⟨g, hg, ps, h1, hp⟩, w⟩
    · rintro ⟨p, ⟨g, hg, ps, h1, hp⟩, w⟩; exact ⟨g, hg, ps, h1, p, hp, w⟩
  · rfl

/-- The nodes of the place written for a container are the nodes of the container. -/
theorem C102_place (e : MeshEnv) (c : NodeBox) (h : Present e c) :
    ∃ pl r, writeNodeContainer e c = .ok pl ∧ c.nodesIncluding e = .ok r ∧
      ∀ n, (∃ w ∈ pl, InPlace e n w) ↔ n ∈ r := by
  obtain ⟨cl, c1, c2, c3⟩ := cellBox_spec e c.base h.cellGroups
  obtain ⟨rc, d1, d2⟩ := BoxSpec.nodesOf_spec e _ h.cells
  obtain ⟨rg, g1, g2⟩ := BoxSpec.groupNodes_spec e _ h.nodeGroups
  obtain ⟨gn, k1, k2⟩ := nodeGroupNames_spec e _ h.nodeGroups
  have hdirect : ∀ p ∈ c.base.cells, e.cellNodes p ≠ none := fun p hp =>
    h.cells p (by simp [CellBox.positionsIncluding, hp])
  obtain ⟨rd, f1, f2⟩ := BoxSpec.nodesOf_spec e _ hdirect
  obtain ⟨b, hb⟩ := BoxSpec.anyGroup_spec e _ h.cellGroups
  have hcell : ∀ n, (∃ w ∈ cl, InPlace e n w) ↔ n ∈ rc := by
    intro n
    rw [d2 n]
    constructor
    · rintro ⟨w, hw, hn⟩
      obtain ⟨p, hp, hns⟩ := (inPlace_cells e n w (c3 w hw)).mp hn
      exact ⟨p, (c2 p).mp ⟨w, hw, hp⟩, hns⟩
    · rintro ⟨p, hp, hns⟩
      obtain ⟨w, hw, hpw⟩ := (c2 p).mpr hp
      exact ⟨w, hw, (inPlace_cells e n w (c3 w hw)).mpr ⟨p, hpw, hns⟩⟩
  have hgroup : ∃ gl, writeNodeGroups e c = .ok gl ∧ ∀ n, (∃ w ∈ gl, InPlace e n w) ↔ n ∈ rg := by
    unfold writeNodeGroups
    cases hg : c.nodeGroups with
    | nil =>
      refine ⟨[], by simp, fun n => ?_⟩
      rw [g2 n, hg]
      simp
    | cons g gs =>
      rw [hg] at k1 k2
      refine ⟨[.groupNo gn], by simp [k1], fun n => ?_⟩
      rw [g2 n, hg, ← k2 n]
      simp
  have hnode : ∃ nl, writeNodes e c = .ok nl ∧ (∀ n ∈ c.nodes, ∃ w ∈ nl, InPlace e n w) ∧
      ∀ n, (∃ w ∈ nl, InPlace e n w) → n ∈ c.nodes ∨ n ∈ rd := by
    unfold writeNodes
    cases hn : c.nodes with
    | nil => exact ⟨[], by simp, by simp, by simp⟩
    | cons a l =>
      have hx : ∃ r, c.nodesExcluding e = .ok r ∧ (∀ n ∈ c.nodes, n ∈ r) ∧ ∀ n ∈ r, n ∈ c.nodes ∨ n ∈ rd := by
        unfold NodeBox.nodesExcluding CellBox.empty CellBox.hasCellsIncludingGroups CellBox.nodesExcluding
        have hemp : ∃ b, (if c.base.cells.isEmpty then CellBox.anyGroupNonEmpty e c.base.groups else .ok true) =
            Outcome.ok b := by
          split
          · exact ⟨b, hb⟩
          · exact ⟨true, rfl⟩
        obtain ⟨b', hb'⟩ := hemp
        rw [hb']
        cases b' with
        | false => exact ⟨c.nodes, by simp, fun n hn => hn, fun n hn => Or.inl hn⟩
        | true =>
          refine ⟨c.nodes ++ rd, by simp [f1], fun n hn => by simp [hn], fun n hn => by simpa using hn⟩
      obtain ⟨r, x1, x2, x3⟩ := hx
      rw [← hn]
      refine ⟨[.noeud (r.map (medName 'N'))], by simp [x1, hn], fun n hn' => ?_, fun n hw => ?_⟩
      · exact ⟨_, List.mem_singleton.mpr rfl, mem_names.mpr (x2 n hn')⟩
      · obtain ⟨w, hw, hi⟩ := hw
        cases List.mem_singleton.mp hw
        exact x3 n (mem_names.mp hi)
  obtain ⟨gl, hgl, hgn⟩ := hgroup
  obtain ⟨nl, hnl, hn1, hn2⟩ := hnode
  refine ⟨gl ++ nl ++ cl, c.nodes ++ (rg ++ rc), by simp [writeNodeContainer, hgl, hnl, c1],
    by simp [NodeBox.nodesIncluding, CellBox.nodesIncluding, g1, d1], fun n => ?_⟩
  simp only [List.mem_append, or_and_right, exists_or, hgn n, hcell n]
  constructor
  · rintro ((hh | hh) | hh)
    · exact Or.inr (Or.inl hh)
    · rcases hn2 n hh with hh | hh
      · exact Or.inl hh
      · obtain ⟨p, hp, hns⟩ := (f2 n).mp hh
        exact Or.inr (Or.inr ((d2 n).mpr ⟨p, by simp [CellBox.positionsIncluding, hp], hns⟩))
    · exact Or.inr (Or.inr hh)
  · rintro (hh | hh | hh)
    · exact Or.inl (Or.inr (hn1 n hh))
    · exact Or.inl (Or.inl hh)
    · exact Or.inr hh

/-! ## Imposed values -/

theorem spcValues_spec (s : Spc) (l : List Dof) (h : ∀ d ∈ l, ∃ x, s.spcs d = .value x) :
    ∃ r, spcValues s l = .ok r ∧
      ∀ v, v ∈ r ↔ ∃ d ∈ l, ∃ x, s.spcs d = .value x ∧ v = (ddlName d, x) := by
  induction l with
  | nil => exact ⟨[], rfl, by simp⟩
  | cons d l ih =>
    obtain ⟨r, h1, h2⟩ := ih (fun q hq => h q (List.mem_cons_of_mem _ hq))
    obtain ⟨x, hx⟩ := h d (by simp)
    have hd : s.getDoubleForDOF d = .ok x := by
      simp [Spc.getDoubleForDOF, hx, ValOrRef.beq, ValOrRef.EMPTY, ValOrRef.isReference, ValOrRef.getValue]
    refine ⟨(ddlName d, x) :: r, by simp [spcValues, hd, h1], fun v => ?_⟩
    simp only [List.mem_cons, h2 v, or_and_right, exists_or, exists_eq_left, hx, ValOrRef.value.injEq]
    constructor
    · rintro (h | h)
      · exact Or.inl ⟨x, rfl, h⟩
      · exact Or.inr h
    · rintro (⟨y, rfl, h⟩ | h)
      · exact Or.inl h
      · exact Or.inr h

theorem spc_spec (P : Physics) (e : MeshEnv) (c : NodeBox) (s : Spc) (h : Plain e (.spc c s)) :
    ∃ f, writeSpc e c s = .ok f ∧ ∀ u, Demands P e u f ↔ Asks P e u (.spc c s) := by
  obtain ⟨hp, hs⟩ := h
  obtain ⟨pl, r, h1, h2, h3⟩ := C102_place e c hp
  have href : s.hasReferences = false := by
    rw [Bool.eq_false_iff]
    intro hc
    unfold Spc.hasReferences at hc
    rw [List.any_eq_true] at hc
    obtain ⟨d, _, hd⟩ := hc
    rw [Bool.and_eq_true] at hd
    cases hv : s.spcs d with
    | value x => rw [hv] at hd; simp [ValOrRef.isReference] at hd
    | ref r =>
      rw [hv, hs d r hv] at hd
      simp at hd
  have hval : ∀ d ∈ (s.getDOFSForNode 0).toList, ∃ x, s.spcs d = .value x := by
    intro d hd
    rw [SpcSpec.mem_toList, SpcSpec.dofs_contains] at hd
    cases hv : s.spcs d with
    | value x => exact ⟨x, rfl⟩
    | ref r => rw [hv, hs d r hv] at hd; simp at hd
  have hall : ∀ d x, s.spcs d = .value x → d ∈ (s.getDOFSForNode 0).toList := by
    intro d x hx
    rw [SpcSpec.mem_toList, SpcSpec.dofs_contains, hx]
    rfl
  obtain ⟨vs, v1, v2⟩ := spcValues_spec s _ hval
  refine ⟨.ddlImpo pl vs, by simp [writeSpc, href, h1, v1], fun u => ?_⟩
  simp only [Demands, Asks, h3, h2, Outcome.ok.injEq, forall_eq', v2]
  constructor
  · intro h n hn d x hx
    obtain ⟨d', hd', hu⟩ := h n hn _ ⟨d, hall d x hx, x, hx, rfl⟩
    rw [ddl_name] at hd'
    cases hd'
    exact hu
  · rintro h n hn _ ⟨d, _, x, hx, rfl⟩
    exact ⟨d, ddl_name d, h n hn d x hx⟩

/-! ## Rigid bodies and means -/

theorem solid_spec (P : Physics) (e : MeshEnv) (ns : List Nat) (u : Field) :
    Demands P e u (writeSolid ns) ↔ P.rigid (· ∈ ns) u := by
  unfold writeSolid Demands
  simp only [mem_names]

theorem mapM_map_some {α β γ : Type} {g : β → Option γ} {f : α → β} {k : α → γ} {l : List α}
    (h : ∀ a ∈ l, g (f a) = some (k a)) : (l.map f).mapM g = some (l.map k) := by
  induction l with
  | nil => rfl
  | cons a l ih =>
    rw [List.map_cons, List.mapM_cons, h a (by simp), ih (fun b hb => h b (List.mem_cons_of_mem _ hb))]
    rfl

theorem triple_ext {β γ : Type} : ∀ {l m : List (Nat × β × γ)}, l.map (fun t => t.1) = m.map (fun t => t.1) →
    l.map (fun t => t.2.1) = m.map (fun t => t.2.1) → l.map (fun t => t.2.2) = m.map (fun t => t.2.2) → l = m
  | [], [], _, _, _ => rfl
  | [], _ :: _, h, _, _ => by simp at h
  | _ :: _, [], h, _, _ => by simp at h
  | (a, b, c) :: l, (a', b', c') :: m, h1, h2, h3 => by
    simp only [List.map_cons, List.cons.injEq] at h1 h2 h3
    rw [h1.1, h2.1, h3.1, triple_ext h1.2 h2.2 h3.2]

theorem rbe3_spec (P : Physics) (e : MeshEnv) (r : Rbe3) (h : Plain e (.rbe3 r)) (u : Field) :
    Demands P e u (writeRbe3 r) ↔ Asks P e u (.rbe3 r) := by
  have hs : slavesOf r = r.slaves.map fun p => (p, (r.getDOFSForNode p).toList, r.getCoefForNode p) := by
    unfold slavesOf
    rw [← List.filterMap_eq_map]
    apply List.filterMap_congr
    intro p hp
    obtain ⟨hm, ⟨ds, hd⟩, x, hx⟩ := h p hp
    simp [Rbe3.getDOFSForNode, Rbe3.getCoefForNode, hm, hd, hx]
  have hmd : r.getDOFSForNode r.master = r.dofs := by simp [Rbe3.getDOFSForNode]
  have key : (r.slaves.map fun p => ddlJoined (r.getDOFSForNode p)).mapM ddls? =
      some ((slavesOf r).map fun t => t.2.1) := by
    rw [mapM_map_some (k := fun p => (r.getDOFSForNode p).toList) (fun p _ => ddlJoined_read _), hs, List.map_map]
    rfl
  have hnames : r.slaves.map (medName 'N') = (slavesOf r).map fun t => medName 'N' t.1 := by
    rw [hs, List.map_map]; rfl
  have hcoefs : r.slaves.map r.getCoefForNode = (slavesOf r).map fun t => t.2.2 := by
    rw [hs, List.map_map]; rfl
  unfold writeRbe3 Demands Asks
  simp only
  rw [hmd, ddlList_eq, ddl_names, key, hnames, hcoefs]
  constructor
  · rintro ⟨m, D, l, h1, h2, h3, h4, h5, h6⟩
    cases name_inj h1
    cases h2
    have : slavesOf r = l := triple_ext (map_names_inj h3) (Option.some.inj h4) h5
    rw [this]
    exact h6
  · intro hm
    exact ⟨_, _, _, rfl, rfl, rfl, rfl, rfl, hm⟩

/-! ## Relations -/

/-- The terms written for a relation. -/
def termsOf (l : Map Nat DofCoefs) : List (Nat × Dof × Dbl) :=
  l.flatMap fun pc => (Dof.all.filter fun d => !isZero (pc.2.getValue d)).map fun d => (pc.1, d, pc.2.getValue d)

theorem dofs_toList (l : Lmpc) (p : Nat) (c : DofCoefs) (h : l.coefs.find p = some c) :
    (l.getDOFSForNode p).toList = Dof.all.filter fun d => !isZero (c.getValue d) := by
  have step : ∀ (s : Dofs) (e d : Dof), (Lmpc.addIfNonZero c s e).contains d =
      (s.contains d || (!isZero (c.getValue e) && decide (e = d))) := by
    intro s e d
    unfold Lmpc.addIfNonZero
    split
    · rename_i hz
      rw [Dofs.addDof_eq, Dofs.contains_union, Dofs.contains_ofDof, hz]
      simp
    · rename_i hz
      simp only [Bool.not_eq_true] at hz
      simp [hz]
  rw [Dofs.toList_eq]
  apply List.filter_congr
  intro d _
  unfold Lmpc.getDOFSForNode
  rw [h]
  simp only [List.foldl_cons, List.foldl_nil, step, Dofs.contains_noDofs]
  cases d <;> simp

theorem find_of_mem {l : Map Nat DofCoefs} (hn : l.keys.Nodup) {pc : Nat × DofCoefs} (h : pc ∈ l) :
    l.find pc.1 = some pc.2 := by
  induction l with
  | nil => cases h
  | cons a l ih =>
    obtain ⟨k, v⟩ := a
    have hn' : k ∉ Map.keys l ∧ (Map.keys l).Nodup := List.nodup_cons.mp hn
    rcases List.mem_cons.mp h with rfl | h
    · simp [Map.find]
    · have : k ≠ pc.1 := fun hk => hn'.1 (hk ▸ List.mem_map_of_mem h)
      simp [Map.find, this, ih hn'.2 h]

theorem flatMap_keys {β : Type} (l : Map Nat DofCoefs) (f : Nat → List β) (g : Nat × DofCoefs → List β)
    (h : ∀ pc ∈ l, f pc.1 = g pc) : l.keys.flatMap f = l.flatMap g := by
  unfold Map.keys
  rw [List.flatMap_map]
  induction l with
  | nil => rfl
  | cons a l ih =>
    rw [List.flatMap_cons, List.flatMap_cons, h a (by simp), ih (fun b hb => h b (List.mem_cons_of_mem _ hb))]

theorem sum_filter (c : DofCoefs) (u : Dof → Dbl) (h : ∀ d, isZero (c.getValue d) = true → c.getValue d = 0)
    (l : List Dof) : ((l.filter fun d => !isZero (c.getValue d)).map fun d => c.getValue d * u d).sum =
      (l.map fun d => c.getValue d * u d).sum := by
  induction l with
  | nil => rfl
  | cons d l ih =>
    rw [List.filter_cons, List.map_cons, List.sum_cons]
    cases hz : isZero (c.getValue d) with
    | true =>
      have := h d hz
      simp only [Bool.not_true, Bool.false_eq_true, if_false, ih, this, zero_mul, zero_add]
    | false => simp only [Bool.not_false, if_true, List.map_cons, List.sum_cons, ih]

theorem terms_sum (u : Field) (l : Map Nat DofCoefs)
    (h : ∀ pc ∈ l, ∀ d, isZero (pc.2.getValue d) = true → pc.2.getValue d = 0) :
    ((termsOf l).map fun t => t.2.2 * u t.1 t.2.1).sum = lhs u l := by
  unfold termsOf lhs
  induction l with
  | nil => rfl
  | cons a l ih =>
    rw [List.flatMap_cons, List.map_append, List.sum_append, ih (fun b hb => h b (List.mem_cons_of_mem _ hb)),
      List.map_cons, List.sum_cons, List.map_map]
    congr 1
    exact sum_filter a.2 (u a.1) (h a (by simp)) Dof.all

/-- What is written for a relation is its terms with a coefficient above the tolerance, each with its node, its degree of
freedom and its coefficient. -/
theorem lmpc_written (P : Physics) (e : MeshEnv) (l : Lmpc) (hn : l.coefs.keys.Nodup) (u : Field) :
    Demands P e u (writeLmpc l) ↔ ((termsOf l.coefs).map fun t => t.2.2 * u t.1 t.2.1).sum = l.coefImpo := by
  have hN : l.nodePositions.flatMap (fun p => List.replicate (l.getDOFSForNode p).size (medName 'N' p)) =
      (termsOf l.coefs).map fun t => medName 'N' t.1 := by
    unfold Lmpc.nodePositions termsOf
    rw [List.map_flatMap]
    apply flatMap_keys
    intro pc hpc
    rw [size_toList, dofs_toList l pc.1 pc.2 (find_of_mem hn hpc), List.map_map]
    simp [Function.comp_def]
  have hD : l.nodePositions.flatMap (fun p => ddlList (l.getDOFSForNode p)) =
      ((termsOf l.coefs).map fun t => t.2.1).map ddlName := by
    unfold Lmpc.nodePositions termsOf
    rw [List.map_map, List.map_flatMap]
    apply flatMap_keys
    intro pc hpc
    rw [ddlList_eq, dofs_toList l pc.1 pc.2 (find_of_mem hn hpc), List.map_map]
    rfl
  have hC : l.nodePositions.flatMap (fun p => coefList (l.getDoFCoefsForNode p)) =
      (termsOf l.coefs).map fun t => t.2.2 := by
    unfold Lmpc.nodePositions termsOf
    rw [List.map_flatMap]
    apply flatMap_keys
    intro pc hpc
    unfold Lmpc.getDoFCoefsForNode coefList
    rw [find_of_mem hn hpc, List.map_map]
    rfl
  unfold writeLmpc Demands
  simp only
  rw [hN, hD, hC, ddl_names]
  constructor
  · rintro ⟨m, h1, h2, h3, h4⟩
    rw [triple_ext (map_names_inj h1) (Option.some.inj h2) h3]
    exact h4
  · intro h
    exact ⟨_, rfl, rfl, rfl, h⟩

theorem lmpc_spec (P : Physics) (e : MeshEnv) (l : Lmpc) (h : Plain e (.lmpc l)) (u : Field) :
    Demands P e u (writeLmpc l) ↔ Asks P e u (.lmpc l) := by
  rw [lmpc_written P e l h.1 u, terms_sum u l.coefs h.2]
  rfl

/-! ## The whole set -/

theorem writeAll_spec (P : Physics) (e : MeshEnv) (f : Constr → Outcome (List Factor)) (Q : Field → Constr → Prop)
    (cs : List Constr) (h : ∀ c ∈ cs, ∃ fs, f c = .ok fs ∧ ∀ u, (∀ x ∈ fs, Demands P e u x) ↔ Q u c) :
    ∃ fs, writeAll f cs = .ok fs ∧ ∀ u, (∀ x ∈ fs, Demands P e u x) ↔ ∀ c ∈ cs, Q u c := by
  induction cs with
  | nil => exact ⟨[], rfl, by simp⟩
  | cons c cs ih =>
    obtain ⟨a, a1, a2⟩ := h c (by simp)
    obtain ⟨r, r1, r2⟩ := ih (fun d hd => h d (List.mem_cons_of_mem _ hd))
    refine ⟨a ++ r, by simp [writeAll, a1, r1], fun u => ?_⟩
    simp only [List.forall_mem_append, List.forall_mem_cons, a2 u, r2 u]

/-- **C102**: the command written for a set of constraints demands of a field of displacements what the constraints of
the set demand together; nothing is written only for a set that is empty or has only contacts. Partial: the hypothesis
`Plain` leaves out imposed functions and coefficients below the tolerance, and numbers are exact. -/
theorem C102_constraints_partial (P : Physics) (e : MeshEnv) (cs : List Constr) (h : ∀ c ∈ cs, Plain e c) :
    (writeConstraintSet e cs = .ok none ∧ ∀ c ∈ cs, c = .contact) ∨
    ∃ fs, writeConstraintSet e cs = .ok (some fs) ∧
      ∀ u, (∀ x ∈ fs, Demands P e u x) ↔ ∀ c ∈ cs, Asks P e u c := by
  unfold writeConstraintSet
  by_cases h0 : cs.isEmpty = true
  · left
    rw [if_pos h0]
    exact ⟨rfl, by rw [List.isEmpty_iff.mp h0]; simp⟩
  by_cases h1 : cs.all Constr.isContact = true
  · left
    rw [if_neg h0, if_pos h1]
    refine ⟨rfl, fun c hc => ?_⟩
    have := List.all_eq_true.mp h1 c hc
    cases c <;> first | rfl | cases this
  right
  rw [if_neg h0, if_neg h1]
  obtain ⟨a, a1, a2⟩ := writeAll_spec P e (ofSpc e) (fun u c => match c with
    | .spc n s => Asks P e u (.spc n s) | _ => True) cs (by
      intro c hc
      cases c with
      | spc n s =>
        obtain ⟨f, f1, f2⟩ := spc_spec P e n s (h _ hc)
        exact ⟨[f], by simp [ofSpc, f1], by simpa using f2⟩
      | _ => exact ⟨[], rfl, by simp⟩)
  obtain ⟨b, b1, b2⟩ := writeAll_spec P e ofRigid (fun u c => match c with
    | .rigid n => Asks P e u (.rigid n) | _ => True) cs (by
      intro c hc
      cases c with
      | rigid n => exact ⟨_, rfl, fun u => by simpa [Asks] using solid_spec P e n u⟩
      | _ => exact ⟨[], rfl, by simp⟩)
  obtain ⟨c, c1, c2⟩ := writeAll_spec P e ofQuasiRigid (fun u c => match c with
    | .quasiRigid n d r => Asks P e u (.quasiRigid n d r) | _ => True) cs (by
      intro c hc
      cases c with
      | quasiRigid n d r =>
        exact ⟨[writeSolid n], by simp [ofQuasiRigid, (h _ hc).1, (h _ hc).2], fun u => by simpa [Asks] using solid_spec P e n u⟩
      | _ => exact ⟨[], rfl, by simp⟩)
  obtain ⟨d, d1, d2⟩ := writeAll_spec P e ofSlide (fun u c => match c with
    | .slide m s => Asks P e u (.slide m s) | _ => True) cs (by
      intro c hc
      cases c with
      | slide m s => exact ⟨_, rfl, fun u => by simp [Demands, Asks]⟩
      | _ => exact ⟨[], rfl, by simp⟩)
  obtain ⟨f, f1, f2⟩ := writeAll_spec P e ofRbe3 (fun u c => match c with
    | .rbe3 r => Asks P e u (.rbe3 r) | _ => True) cs (by
      intro c hc
      cases c with
      | rbe3 r => exact ⟨_, rfl, fun u => by simpa using rbe3_spec P e r (h _ hc) u⟩
      | _ => exact ⟨[], rfl, by simp⟩)
  obtain ⟨g, g1, g2⟩ := writeAll_spec P e ofLmpc (fun u c => match c with
    | .lmpc l => Asks P e u (.lmpc l) | _ => True) cs (by
      intro c hc
      cases c with
      | lmpc l => exact ⟨_, rfl, fun u => by simpa using lmpc_spec P e l (h _ hc) u⟩
      | _ => exact ⟨[], rfl, by simp⟩)
  refine ⟨a ++ b ++ c ++ d ++ f ++ g, by simp [a1, b1, c1, d1, f1, g1], fun u => ?_⟩
  simp only [List.forall_mem_append, a2 u, b2 u, c2 u, d2 u, f2 u, g2 u]
  constructor
  · rintro ⟨⟨⟨⟨⟨ha, hb⟩, hc⟩, hd⟩, hf⟩, hg⟩ x hx
    cases x with
    | spc n s => exact ha _ hx
    | rigid n => exact hb _ hx
    | quasiRigid n d r => exact hc _ hx
    | rbe3 r => exact hf _ hx
    | lmpc l => exact hg _ hx
    | slide m s => exact hd _ hx
    | contact => trivial
  · intro hall
    refine ⟨⟨⟨⟨⟨?_, ?_⟩, ?_⟩, ?_⟩, ?_⟩, ?_⟩ <;> intro x hx <;> have := hall x hx <;> cases x <;>
      first | exact this | trivial

/-! ## What is not kept -/

/-- A displacement imposed by a function puts a message in the middle of the command. -/
theorem C102_function_false (P : Physics) (e : MeshEnv) (c : NodeBox) (s : Spc) (d : Dof) (r : Ref)
    (h : s.spcs d = .ref r) (hr : (ValOrRef.ref r).beq .EMPTY = false) (u : Field) :
    ∃ fs, writeConstraintSet e [.spc c s] = .ok (some fs) ∧ ¬ ∀ x ∈ fs, Demands P e u x := by
  have href : s.hasReferences = true := by
    unfold Spc.hasReferences
    rw [List.any_eq_true]
    refine ⟨d, by cases d <;> simp, ?_⟩
    rw [h, hr]
    rfl
  refine ⟨[.message], ?_, fun hc => hc .message (by simp)⟩
  simp [writeConstraintSet, Constr.isContact, writeAll, ofSpc, writeSpc, href, ofRigid, ofQuasiRigid, ofSlide, ofRbe3,
    ofLmpc]

/-- A small coefficient, below the tolerance. -/
def small : Lmpc := ⟨[(0, .ofValues (1 / 10 ^ 16) 0 0 0 0 0), (1, .ofValues (-1 / 10 ^ 16) 0 0 0 0 0)], 1 / 10 ^ 16⟩

/-- A relation with small coefficients is written without them: the displacements `DX = 1` of a node and `0` of the other
satisfy the relation but not what is written, which no field satisfies. -/
theorem C102_small_false (P : Physics) (e : MeshEnv) :
    Asks P e (fun n d => if n = 0 ∧ d = .DX then 1 else 0) (.lmpc small) ∧
    ∀ u, ¬ Demands P e u (writeLmpc small) := by
  refine ⟨?_, fun u => ?_⟩
  · show lhs _ small.coefs = small.coefImpo
    simp [lhs, small, Dof.all, DofCoefs.getValue, DofCoefs.ofValues]
  · rw [lmpc_written P e small (by decide) u]
    have : termsOf small.coefs = [] := by decide +kernel
    rw [this]
    simp only [List.map_nil, List.sum_nil, small]
    norm_num

/-- A group of nodes that is empty is not named in the command. -/
def sampleMesh : MeshEnv where
  group g := if g = "CELLS" then some (.cell [0]) else if g = "NODES" then some (.node [4, 5])
    else if g = "NONE" then some (.node []) else none
  cellNodes p := if p = 0 then some [1, 2] else if p = 1 then some [2, 3] else none

/-- A place with groups of nodes and of cells, a node and a cell. -/
def samplePlace : NodeBox := ⟨⟨[1], ["CELLS"]⟩, [9], ["NODES", "NONE"]⟩

/-- A relation between two nodes. -/
def sampleRelation : Lmpc := ⟨[(0, .ofValues 1 0 0 0 2 0), (1, .ofValues (-1) 0 0 0 0 0)], 5⟩

/-- A mean of two nodes. -/
def sampleMean : Rbe3 :=
  ⟨7, Dofs.TRANSLATIONS, [8, 9], [(8, Dofs.TRANSLATIONS), (9, Dofs.ALL_DOFS)], [(8, 1), (9, 1 / 2)]⟩

/-- The hypotheses are met by a set with all kinds of constraints. -/
example : (∀ c ∈ [Constr.spc samplePlace (.ofThree (.value 3) (.value 0) .EMPTY), .rigid [1, 2], .quasiRigid [3, 4] Dofs.ALL_DOFS true,
      .rbe3 sampleMean, .lmpc sampleRelation, .slide "A" "B", .contact], Plain sampleMesh c) ∧
    (writeNodeContainer sampleMesh samplePlace).toOption.isSome = true ∧
    ddlJoined Dofs.TRANSLATIONS = "DX-DY-DZ" ∧ ddlJoined Dofs.ALL_DOFS = "DX-DY-DZ-DRX-DRY-DRZ" := by
  refine ⟨?_, rfl, by decide +kernel, by decide +kernel⟩
  intro c hc
  simp only [List.mem_cons, List.not_mem_nil, or_false] at hc
  rcases hc with rfl | rfl | rfl | rfl | rfl | rfl | rfl
  · refine ⟨⟨?_, ?_, ?_⟩, ?_⟩
    · decide
    · intro g hg
      rw [List.mem_singleton.mp hg]
      exact ⟨[0], rfl⟩
    · intro g hg
      rcases List.mem_cons.mp hg with rfl | hg
      · exact ⟨[4, 5], rfl⟩
      · rw [List.mem_singleton.mp hg]
        exact ⟨[], rfl⟩
    · intro d r hr
      cases d <;> cases hr <;> decide
  · trivial
  · exact ⟨rfl, rfl⟩
  · intro p hp
    rcases List.mem_cons.mp hp with rfl | hp
    · exact ⟨by decide, ⟨_, rfl⟩, ⟨_, rfl⟩⟩
    · rw [List.mem_singleton.mp hp]
      exact ⟨by decide, ⟨_, rfl⟩, ⟨_, rfl⟩⟩
  · refine ⟨by decide, ?_⟩
    intro pc hpc d
    rcases List.mem_cons.mp hpc with rfl | hpc
    · cases d <;> decide +kernel
    · rw [List.mem_singleton.mp hpc]
      cases d <;> decide +kernel
  · trivial
  · trivial

end Vega.AsterSpec
