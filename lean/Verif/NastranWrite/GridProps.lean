import Verif.Mesh.SystemsProps
import Verif.NastranWrite.Grid
import Verif.NastranWrite.PressureProps

/-! # C89: nodes read from Nastran and written to Nastran -/
namespace Vega

/-! ## Specification -/
namespace GridSpec
open NastranWrite WriteSpec SystemsSpec Systems PressureSpec

variable {α : Type}

/-- The coordinate system a number stands for once everything is read: none for the global one (number 0) and for one
that is not defined. -/
def frame (n : Int) (history : List (Op α)) : Option α :=
  if n = 0 then none else lastDefinition (systemRef n) history

/-- The point with these coordinates in this coordinate system. -/
def place (toGlobal : α → V3 → V3) (f : Option α) (v : V3) : V3 :=
  match f with
  | none => v
  | some a => toGlobal a v

/-- The coordinate system a position leads to; the global one is at position 0. -/
def leadsTo (s : Store α) (p : Nat) (f : Option α) : Prop :=
  (p = 0 ∧ f = none) ∨ s.findByPosition p = .ok f

/-- The code of some degrees of freedom. -/
def code : Option Dofs → Option Int := Option.map Dofs.nastranCode

/-- The fields of a card GRID. -/
def gridFields (id : Int) (cp : Option Int) (v : V3) (cd ps : Option Int) : List Arg :=
  [.int id, optInt cp, .real v.x, .real v.y, .real v.z, optInt cd, optInt ps]

/-- The fields of a card GRDSET. -/
def setFields (cp cd ps : Option Int) : List Arg :=
  [.blank, optInt cp, .blank, .blank, .blank, optInt cd, optInt ps]

end GridSpec

namespace NastranWrite
open Nastran FieldSpec FixedSpec WriteSpec RigidSpec SpcCardSpec LoadSpec PressureSpec GridSpec SystemsSpec Systems
open CellSpec (Number)

variable {α : Type}

/-! ## Helper lemmas -/

theorem grid_name : Name false "GRID".toList := ⟨by decide, by decide, by decide⟩
theorem grdset_name : Name false "GRDSET".toList := ⟨by decide, by decide, by decide⟩

theorem systemRef_local {n : Int} (h : n ≠ 0) : Local (systemRef n) := by
  unfold Local systemRef Ref.beq globalRef
  simp [h, Ref.NO_ID]

theorem systemAt_spec {s : Store α} (h : Good s) (n : Int) :
    ∃ s' p, systemAt s n = .ok (s', p) ∧ Good s' ∧ (∃ more, s'.refs = s.refs ++ more) ∧
      (∀ q, lookup q s'.systems = lookup q s.systems) ∧ (n = 0 → p = 0) ∧
      (n ≠ 0 → ∃ r', s'.refs.find? (fun e => e.2.beq (systemRef n)) = some (p, r')) := by
  by_cases hn : n = 0
  · exact ⟨s, 0, by simp [systemAt, hn], h, ⟨[], by simp⟩, fun _ => rfl, fun _ => rfl, fun h => absurd hn h⟩
  · obtain ⟨s', p, e, g, -, m, l, f⟩ := perform_spec h (.use (systemRef n))
    refine ⟨s', p, ?_, g, m, ?_, fun h => absurd h hn, fun _ => f _ rfl (systemRef_local hn)⟩
    · rw [systemAt, if_pos hn]; exact e
    · intro q; rw [l]; simp [lastDefinition]

/-- Where a position leads later. -/
theorem leads {s s' : Store α} (g' : Good s') {n : Int} {p : Nat}
    (hm : ∃ more, s'.refs = s.refs ++ more) (h0 : n = 0 → p = 0)
    (hf : n ≠ 0 → ∃ r', s.refs.find? (fun e => e.2.beq (systemRef n)) = some (p, r')) :
    leadsTo s' p (if n = 0 then none else lookup (systemRef n) s'.systems) ∧
    ∀ toGlobal v, nodePoint toGlobal s' p v =
      .ok (place toGlobal (if n = 0 then none else lookup (systemRef n) s'.systems) v) := by
  by_cases hn : n = 0
  · rw [if_pos hn, h0 hn]
    exact ⟨.inl ⟨rfl, rfl⟩, fun _ _ => by simp [nodePoint, place]⟩
  · rw [if_neg hn]
    obtain ⟨r', f⟩ := hf hn
    obtain ⟨more, hmore⟩ := hm
    have hmem : (p, r') ∈ s'.refs := by rw [hmore]; exact List.mem_append_left _ (List.mem_of_find?_eq_some f)
    have hb : r'.beq (systemRef n) = true := by simpa using List.find?_some f
    have hp := find_position g' hmem
    rw [lookup_congr hb] at hp
    have h0 : p ≠ 0 := by have := (g'.below _ hmem).1; simp at this; omega
    refine ⟨.inr hp, fun toGlobal v => ?_⟩
    rw [nodePoint, if_neg h0, hp]
    cases lookup (systemRef n) s'.systems <;> rfl

theorem fits_optInt {o : Option Int} (h : ∀ n ∈ o, Number n) : Fits (optInt o) := by
  cases o with
  | none => trivial
  | some n => exact h n rfl

theorem code_number {d : Option Dofs} (h : ∀ x ∈ d, SomeDofs x) : ∀ n ∈ code d, Number n := by
  intro n hn
  cases d with
  | none => simp [code] at hn
  | some x =>
    simp only [code, Option.map_some, Option.mem_def, Option.some.injEq] at hn
    subst hn
    exact (dofs_code x (h x rfl)).1

theorem permanent_code {d : Option Dofs} (h : ∀ x ∈ d, SomeDofs x) : permanent ((code d).getD 0) = .ok d := by
  cases d with
  | none => rfl
  | some x =>
    obtain ⟨-, h1, h2⟩ := dofs_code x (h x rfl)
    show permanent x.nastranCode = _
    rw [permanent, if_pos h1, h2]
    rfl

theorem grid_fits {id : Int} {cp : Option Int} {v : V3} {cd ps : Option Int} (h1 : Number id) (h2 : ∀ n ∈ cp, Number n)
    (hv : Finite v) (h3 : ∀ n ∈ cd, Number n) (h4 : ∀ n ∈ ps, Number n) : ∀ a ∈ gridFields id cp v cd ps, Fits a := by
  intro a ha
  simp only [gridFields, List.mem_cons, List.not_mem_nil, or_false] at ha
  rcases ha with rfl | rfl | rfl | rfl | rfl | rfl | rfl
  · exact h1
  · exact fits_optInt h2
  · exact hv.1
  · exact hv.2.1
  · exact hv.2.2
  · exact fits_optInt h3
  · exact fits_optInt h4

/-- What the reader makes of a card GRID, given the defaults. -/
theorem grid_read {id : Int} {cp : Option Int} {v : V3} {cd ps : Option Int} {ts : List Text}
    (hs : List.Forall₂ Says (gridFields id cp v cd ps) ts) (h1 : Number id) (h2 : ∀ n ∈ cp, Number n)
    (h3 : ∀ n ∈ cd, Number n) (h4 : ∀ n ∈ ps, Number n) :
    ∃ v', NearVec v v' ∧ ∀ (g : GrdSet) (s s1 : Store α) p s2 q fixed, systemAt s (cp.getD g.cp) = .ok (s1, p) →
      systemAt s1 (cd.getD g.cd) = .ok (s2, q) → permanent (ps.getD g.ps) = .ok fixed →
      readBulk (parseGRID g s) ("GRID".toList :: ts) = .ok (⟨id, v', p, q, fixed⟩, s2) := by
  obtain _ | ⟨k0, hs⟩ := hs
  obtain _ | ⟨k1, hs⟩ := hs
  obtain _ | ⟨k2, hs⟩ := hs
  obtain _ | ⟨k3, hs⟩ := hs
  obtain _ | ⟨k4, hs⟩ := hs
  obtain _ | ⟨k5, hs⟩ := hs
  obtain _ | ⟨k6, hs⟩ := hs
  cases hs
  rename_i t0 t1 t2 t3 t4 t5 t6
  obtain ⟨x', hx, rx⟩ := says_real_read k2
  obtain ⟨y', hy, ry⟩ := says_real_read k3
  obtain ⟨z', hz, rz⟩ := says_real_read k4
  refine ⟨⟨x', y', z'⟩, ⟨hx, hy, hz⟩, ?_⟩
  intro g s s1 p s2 q fixed e1 e2 e3
  unfold readBulk
  rw [keyword_read (by decide) (by decide)]
  simp only [Outcome.bind_ok, parseGRID, says_int_read k0 h1, says_optInt k1 h2, e1, rx, ry, rz, says_optInt k5 h3, e2,
    says_optInt k6 h4, e3, isEmpty_end, if_true]

/-- What the reader makes of a card GRDSET. -/
theorem grdset_read (g : GrdSet) (s : Store α) {cp cd ps : Option Int} {ts : List Text}
    (hs : List.Forall₂ Says (setFields cp cd ps) ts) (h2 : ∀ n ∈ cp, Number n)
    (h3 : ∀ n ∈ cd, Number n) (h4 : ∀ n ∈ ps, Number n) {s1 s2 : Store α} {p q : Nat}
    (e1 : grdSystem s (cp.getD 0) g.cp = .ok (s1, p)) (e2 : grdSystem s1 (cd.getD 0) g.cd = .ok (s2, q)) :
    readBulk (parseGRDSET g s) ("GRDSET".toList :: ts) = .ok (⟨p, q, ps.getD 0⟩, s2) := by
  obtain _ | ⟨k0, hs⟩ := hs
  obtain _ | ⟨k1, hs⟩ := hs
  obtain _ | ⟨k2, hs⟩ := hs
  obtain _ | ⟨k3, hs⟩ := hs
  obtain _ | ⟨k4, hs⟩ := hs
  obtain _ | ⟨k5, hs⟩ := hs
  obtain _ | ⟨k6, hs⟩ := hs
  cases hs
  rename_i t0 t1 t2 t3 t4 t5 t6
  unfold readBulk
  rw [keyword_read (by decide) (by decide)]
  simp only [Outcome.bind_ok, parseGRDSET, skip_after, List.take_succ_cons, List.take_zero, List.drop_succ_cons,
    List.drop_zero, says_optInt k1 h2, e1, says_optInt k5 h3, e2, says_optInt k6 h4, nextInt_end, isEmpty_end, if_true]

theorem grdset_fits {cp cd ps : Option Int} (h2 : ∀ n ∈ cp, Number n) (h3 : ∀ n ∈ cd, Number n)
    (h4 : ∀ n ∈ ps, Number n) : ∀ a ∈ setFields cp cd ps, Fits a := by
  intro a ha
  simp only [setFields, List.mem_cons, List.not_mem_nil, or_false] at ha
  rcases ha with rfl | rfl | rfl | rfl | rfl | rfl | rfl
  · trivial
  · exact fits_optInt h2
  · trivial
  · trivial
  · trivial
  · exact fits_optInt h3
  · exact fits_optInt h4

theorem lastDefinition_append (r : Ref) (a b : List (Op α)) :
    lastDefinition r (a ++ b) = (lastDefinition r b).or (lastDefinition r a) := by
  induction a with
  | nil => simp [lastDefinition]
  | cons o a ih => rw [List.cons_append, lastDefinition_cons, ih, lastDefinition_cons r o a, Option.or_assoc]

/-! ## C89: nodes -/

/-- **C89 (partial).** Without GRDSET, a card GRID gives a node with its number; at the end of the reading, its place is the
one of its coordinates in the coordinate system CP, and its displacements are in the coordinate system CD, whether these are
defined before or after the node; the degrees of freedom PS, and no others, are fixed. (A coordinate system that is defined
nowhere counts as the global one. Coordinates have the precision of a field.) -/
theorem C89_read_partial (toGlobal : α → V3 → V3) (n : Nat) (before afterwards : List (Op α)) (counter : Nat) (id : Int)
    (cp : Option Int) (v : V3) (cd : Option Int) (ps : Option Dofs) (rest : List Nastran.Line)
    (h1 : Number id) (h2 : ∀ n ∈ cp, Number n) (hv : Finite v) (h3 : ∀ n ∈ cd, Number n) (h4 : ∀ d ∈ ps, SomeDofs d)
    (hc : counter + 1 < 10 ^ 7) (hnew : NewCard rest) :
    ∃ lines counter' texts s0 v' node s1 s,
      writeCard counter "GRID".toList (gridFields id cp v cd (code ps)) = some (lines, counter') ∧
      nextLine (lines ++ rest) = .ok (some (texts, afterComments rest)) ∧
      run (Store.new n) before = .ok s0 ∧
      readBulk (parseGRID GrdSet.init s0) texts = .ok (node, s1) ∧
      run s1 afterwards = .ok s ∧
      node.id = id ∧ node.at_ = v' ∧ NearVec v v' ∧ node.fixed = ps ∧
      nodePoint toGlobal s node.cp v' = .ok (place toGlobal (frame (cp.getD 0) (before ++ afterwards)) v') ∧
      leadsTo s node.cd (frame (cd.getD 0) (before ++ afterwards)) := by
  obtain ⟨lines, counter', texts, g1, g2, -, -, g5⟩ := C78_card_partial counter "GRID".toList _ rest grid_name
    (grid_fits h1 h2 hv h3 (code_number h4)) (by simp only [gridFields, List.length_cons, List.length_nil]; omega) hnew
  obtain ⟨s0, r0, w0, -, l0⟩ := run_spec (Good.new (α := α) n) before
  obtain ⟨v', hv', hr⟩ := grid_read (α := α) g2 h1 h2 h3 (code_number h4)
  obtain ⟨s1, p, e1, w1, ⟨m1, hm1⟩, l1, z1, f1⟩ := systemAt_spec w0 (cp.getD 0)
  obtain ⟨s2, q, e2, w2, ⟨m2, hm2⟩, l2, z2, f2⟩ := systemAt_spec w1 (cd.getD 0)
  obtain ⟨s, r3, w3, ⟨m3, hm3⟩, l3⟩ := run_spec w2 afterwards
  have hsys : ∀ m : Int, (if m = 0 then none else lookup (systemRef m) s.systems) = frame m (before ++ afterwards) := by
    intro m
    unfold frame
    split_ifs
    · rfl
    · rw [l3, l2, l1, l0, lastDefinition_append]
      simp [Store.new, lookup]
  have c1 := leads (s := s1) w3 ⟨m2 ++ m3, by rw [hm3, hm2, List.append_assoc]⟩ z1 f1
  have c2 := leads (s := s2) w3 ⟨m3, hm3⟩ z2 f2
  rw [hsys] at c1 c2
  exact ⟨lines, counter', _, s0, v', ⟨id, v', p, q, ps⟩, s2, s, g1, g5, r0,
    hr _ s0 s1 p s2 q ps e1 e2 (permanent_code h4), r3, rfl, rfl, hv', rfl, c1.2 toGlobal v', c2.1⟩

/-- Number 9 is defined after the node, and twice. -/
example : frame 9 ([.define (systemRef 3) "c"] ++ [.define (systemRef 9) "a", .define (systemRef 9) "b"]) = some "b" ∧
    frame 4 [.define (systemRef 3) "c"] = none ∧ SomeDofs ⟨0x03⟩ ∧ Number 9 := by
  decide +kernel

/-- **C89 (partial).** A node in the global coordinate system is written on a card GRID that is read back as a node with the
same number, the same coordinates up to the precision of a field, in the global coordinate system and free. -/
theorem C89_write_partial (s0 : Store α) (counter : Nat) (id : Int) (v : V3) (rest : List Nastran.Line)
    (h1 : Number id) (hv : Finite v) (hc : counter + 1 < 10 ^ 7) (hnew : NewCard rest) :
    ∃ lines counter' texts v', writeCard counter "GRID".toList (gridArgs id v 0 0) = some (lines, counter') ∧
      nextLine (lines ++ rest) = .ok (some (texts, afterComments rest)) ∧
      readBulk (parseGRID GrdSet.init s0) texts = .ok (⟨id, v', 0, 0, none⟩, s0) ∧ NearVec v v' := by
  have hfit : ∀ a ∈ gridArgs id v 0 0, Fits a := by
    intro a ha
    simp only [gridArgs, List.mem_cons, List.not_mem_nil, or_false] at ha
    rcases ha with rfl | rfl | rfl | rfl | rfl
    · exact h1
    · trivial
    · exact hv.1
    · exact hv.2.1
    · exact hv.2.2
  obtain ⟨lines, counter', texts, g1, g2, -, -, g5⟩ := C78_card_partial counter "GRID".toList _ rest grid_name hfit
    (by simp only [gridArgs, List.length_cons, List.length_nil]; omega) hnew
  obtain _ | ⟨k0, hs⟩ := g2
  obtain _ | ⟨k1, hs⟩ := hs
  obtain _ | ⟨k2, hs⟩ := hs
  obtain _ | ⟨k3, hs⟩ := hs
  obtain _ | ⟨k4, hs⟩ := hs
  cases hs
  rename_i t0 t1 t2 t3 t4
  obtain ⟨x', hx, rx⟩ := says_real_read k2
  obtain ⟨y', hy, ry⟩ := says_real_read k3
  obtain ⟨z', hz, rz⟩ := says_real_read k4
  have k1' : t1 = [] := k1
  subst k1'
  refine ⟨lines, counter', _, ⟨x', y', z'⟩, g1, g5, ?_, hx, hy, hz⟩
  unfold readBulk
  rw [keyword_read (by decide) (by decide)]
  simp only [Outcome.bind_ok, parseGRID, says_int_read k0 h1, nextInt_blank, rx, ry, rz, nextInt_end, GrdSet.init,
    systemAt, permanent]
  simp [isEmpty_end]

/-- **C89 is false for the writing of nodes in another coordinate system.** A node whose coordinate system moves it comes
back elsewhere: any node with short coordinates, in a coordinate system that does not leave them as they are. -/
theorem C89_moved_false (toGlobal : α → V3 → V3) (s : Store α) (counter : Nat) (id : Int) (v : V3) (cp cd : Nat) (a : α)
    (rest : List Nastran.Line) (h1 : Number id) (hv : Finite v)
    (hshort : ∀ c ∈ [v.x, v.y, v.z], Short c)
    (hbig : ∀ c ∈ [v.x, v.y, v.z], c = 0 ∨ tol < |c|)
    (hcp : cp ≠ 0) (ha : s.findByPosition cp = .ok (some a)) (hmove : toGlobal a v ≠ v)
    (hc : counter + 1 < 10 ^ 7) (hnew : NewCard rest) :
    ∃ lines counter' texts node s', writeCard counter "GRID".toList (gridArgs id v cp cd) = some (lines, counter') ∧
      nextLine (lines ++ rest) = .ok (some (texts, afterComments rest)) ∧
      readBulk (parseGRID GrdSet.init (Store.new 0 : Store α)) texts = .ok (node, s') ∧
      nodePoint toGlobal s' node.cp node.at_ ≠ nodePoint toGlobal s cp v := by
  obtain ⟨lines, counter', texts, v', g1, g2, g3, g4, g5, g6⟩ :=
    C89_write_partial (Store.new 0 : Store α) counter id v rest h1 hv hc hnew
  refine ⟨lines, counter', texts, _, _, g1, g2, g3, ?_⟩
  have exact_ : ∀ {x y : ℚ}, Near x y → Short x → x = 0 ∨ tol < |x| → y = x := by
    intro x y hxy hx hb
    unfold Near at hxy
    rcases hb with rfl | hb
    · rw [if_pos (by rw [abs_zero]; exact le_of_lt tol_pos)] at hxy; exact hxy
    · rw [if_neg (not_le.mpr hb)] at hxy
      exact hxy.2 hx
  have hv' : v' = v := by
    obtain ⟨x, y, z⟩ := v
    obtain ⟨x', y', z'⟩ := v'
    simp only [List.mem_cons, List.not_mem_nil, or_false, forall_eq_or_imp, forall_eq] at hshort hbig
    simp only [V3.mk.injEq]
    exact ⟨exact_ g4 hshort.1 hbig.1, exact_ g5 hshort.2.1 hbig.2.1, exact_ g6 hshort.2.2 hbig.2.2⟩
  have e : nodePoint toGlobal s cp v = .ok (toGlobal a v) := by
    rw [nodePoint, if_neg hcp, ha]; rfl
  rw [e, hv']
  simp only [nodePoint, if_true]
  intro h
  exact hmove (Outcome.ok.inj h).symm

/-- A translation by 10 of the point (1, 0, 0). -/
example : (fun (d : ℚ) (v : V3) => (⟨v.x + d, v.y, v.z⟩ : V3)) 10 ⟨1, 0, 0⟩ ≠ ⟨1, 0, 0⟩ ∧
    (⟨2, [(1, systemRef 5)], [(systemRef 5, (10 : ℚ))]⟩ : Store ℚ).findByPosition 1 = .ok (some 10) ∧
    tol < |(1 : ℚ)| := by
  refine ⟨by decide +kernel, by rfl, by decide +kernel⟩

/-- What GRDSET does to a node without CP, as the first card: the number of the node's coordinate system is the position
given to the one of GRDSET. -/
theorem grdset_node (n : Nat) (num : Int) (hnum : num ≠ 0) (ps : Option Int) (hn : Number num) (h4 : ∀ n ∈ ps, Number n)
    {texts : List Text} (hs : List.Forall₂ Says (setFields (some num) none ps) texts) :
    ∃ s1, Good s1 ∧ (∀ q, lookup q s1.systems = none) ∧
      readBulk (parseGRDSET GrdSet.init (Store.new n : Store α)) ("GRDSET".toList :: texts) =
        .ok (⟨1 + n, 0, ps.getD 0⟩, s1) := by
  have w := Good.new (α := α) n
  have hl := systemRef_local hnum
  have e : (Store.new n : Store α).findOrReserve (systemRef num) =
      .ok (⟨1 + n + 1, [(1 + n, systemRef num)], []⟩, 1 + n) := by
    have h := reserve_eq w hl
    unfold Local at hl
    simp only [Store.findOrReserve, Store.findPosition, hl]
    simpa [Store.new] using h
  have g := Good.append w (systemRef num) []
  refine ⟨⟨1 + n + 1, [(1 + n, systemRef num)], []⟩, ?_, ?_, grdset_read GrdSet.init _ hs (by simpa using hn) (by simp) h4
    (s1 := ⟨1 + n + 1, [(1 + n, systemRef num)], []⟩) (p := 1 + n) (q := 0) ?_ ?_⟩
  · simpa [Store.new] using g
  · intro q; rfl
  · simp [grdSystem, hnum, e]
  · simp [grdSystem, GrdSet.init]

/-- **C89 is false for GRDSET.** When the first card is GRDSET with the number of a coordinate system, a node that leaves
its own CP blank is put in the coordinate system whose number is the internal position (1 in a new program), not in the one
of GRDSET: whatever the number `num` of GRDSET (other than that position) and however its coordinate system moves the
coordinates of the node, the node stays where these coordinates are in the global system. -/
theorem C89_grdset_false (toGlobal : α → V3 → V3) (n : Nat) (num : Int) (hnum : num ≠ 0) (hpos : num ≠ 1 + n)
    (hn : Number num) (c1 c2 : Nat) (id : Int) (v : V3) (a : α) (rest1 rest2 : List Nastran.Line) (h1 : Number id)
    (hv : Finite v) (hc1 : c1 + 1 < 10 ^ 7) (hc2 : c2 + 1 < 10 ^ 7) (hnew1 : NewCard rest1) (hnew2 : NewCard rest2) :
    ∃ l1 c1' t1 l2 c2' t2 g s1 node s2 s,
      writeCard c1 "GRDSET".toList (setFields (some num) none none) = some (l1, c1') ∧
      nextLine (l1 ++ rest1) = .ok (some (t1, afterComments rest1)) ∧
      writeCard c2 "GRID".toList (gridFields id none v none none) = some (l2, c2') ∧
      nextLine (l2 ++ rest2) = .ok (some (t2, afterComments rest2)) ∧
      readBulk (parseGRDSET GrdSet.init (Store.new n : Store α)) t1 = .ok (g, s1) ∧
      readBulk (parseGRID g s1) t2 = .ok (node, s2) ∧
      run s2 [.define (systemRef num) a] = .ok s ∧
      frame num [.define (systemRef num) a] = some a ∧ NearVec v node.at_ ∧
      nodePoint toGlobal s node.cp node.at_ = .ok node.at_ := by
  obtain ⟨l1, c1', t1, g1, g2, -, -, g5⟩ := C78_card_partial c1 "GRDSET".toList _ rest1 grdset_name
    (grdset_fits (cp := some num) (cd := none) (ps := none) (by simpa using hn) (by simp) (by simp))
    (by simp only [setFields, List.length_cons, List.length_nil]; omega) hnew1
  obtain ⟨l2, c2', t2, f1, f2, -, -, f5⟩ := C78_card_partial c2 "GRID".toList _ rest2 grid_name
    (grid_fits (cp := none) (cd := none) (ps := none) h1 (by simp) hv (by simp) (by simp))
    (by simp only [gridFields, List.length_cons, List.length_nil]; omega) hnew2
  obtain ⟨s1, w1, hl1, e1⟩ := grdset_node (α := α) n num hnum none hn (by simp) g2
  obtain ⟨v', hv', hr⟩ := grid_read (α := α) f2 h1 (by simp) (by simp) (by simp)
  obtain ⟨s2, p, e2, w2, ⟨m2, hm2⟩, lk2, z2, k2⟩ := systemAt_spec w1 ((1 + n : Nat) : Int)
  obtain ⟨s, r3, w3, ⟨m3, hm3⟩, l3⟩ := run_spec w2 [.define (systemRef num) a]
  have hne : (systemRef num).beq (systemRef ((1 + n : Nat) : Int)) = false := by
    unfold Ref.beq systemRef
    have hnn : ¬ num = Ref.NO_ID := by have := hn.1; unfold Ref.NO_ID; omega
    have hh : ¬ num = ((1 + n : Nat) : Int) := by push_cast; exact hpos
    simp only [hnn, hh]
    simp
  have c := leads (s := s2) w3 ⟨m3, hm3⟩ z2 k2
  refine ⟨l1, c1', _, l2, c2', _, _, s1, ⟨id, v', p, 0, none⟩, s2, s, g1, g5, f1, f5, e1, ?_, r3, ?_, hv', ?_⟩
  · exact hr _ s1 s2 p s2 0 none e2 (by simp [systemAt]) (by rfl)
  · simp [frame, hnum, lastDefinition, beq_refl]
  · have hd : lastDefinition (systemRef ((1 + n : Nat) : Int)) [Op.define (systemRef num) a] = none := by
      simp only [lastDefinition, hne]; rfl
    rw [c.2 toGlobal v', l3, lk2, hl1, hd]
    simp [place]

example : (5 : Int) ≠ 0 ∧ (5 : Int) ≠ 1 + (0 : Nat) ∧ Number 5 := by decide

/-- **C89 (partial).** When the position of the coordinate system of GRDSET happens to be its number (1 for the first one
in a new program), nodes without CP are in it. -/
theorem C89_grdset_partial (toGlobal : α → V3 → V3) (n : Nat) (hn : Number (1 + n)) (c1 c2 : Nat) (id : Int) (v : V3)
    (ps : Option Dofs) (afterwards : List (Op α)) (rest1 rest2 : List Nastran.Line) (h1 : Number id)
    (hv : Finite v) (hps : ∀ d ∈ ps, SomeDofs d)
    (hc1 : c1 + 1 < 10 ^ 7) (hc2 : c2 + 1 < 10 ^ 7) (hnew1 : NewCard rest1) (hnew2 : NewCard rest2) :
    ∃ l1 c1' t1 l2 c2' t2 g s1 node s2 s,
      writeCard c1 "GRDSET".toList (setFields (some (1 + n)) none (code ps)) = some (l1, c1') ∧
      nextLine (l1 ++ rest1) = .ok (some (t1, afterComments rest1)) ∧
      writeCard c2 "GRID".toList (gridFields id none v none none) = some (l2, c2') ∧
      nextLine (l2 ++ rest2) = .ok (some (t2, afterComments rest2)) ∧
      readBulk (parseGRDSET GrdSet.init (Store.new n : Store α)) t1 = .ok (g, s1) ∧
      readBulk (parseGRID g s1) t2 = .ok (node, s2) ∧
      run s2 afterwards = .ok s ∧ node.id = id ∧ node.fixed = ps ∧ NearVec v node.at_ ∧
      nodePoint toGlobal s node.cp node.at_ = .ok (place toGlobal (frame (1 + n) afterwards) node.at_) := by
  have h0 : (1 + n : Int) ≠ 0 := by omega
  obtain ⟨l1, c1', t1, g1, g2, -, -, g5⟩ := C78_card_partial c1 "GRDSET".toList _ rest1 grdset_name
    (grdset_fits (cp := some (1 + n : Int)) (cd := none) (ps := code ps) (by simpa using hn) (by simp) (code_number hps))
    (by simp only [setFields, List.length_cons, List.length_nil]; omega) hnew1
  obtain ⟨l2, c2', t2, f1, f2, -, -, f5⟩ := C78_card_partial c2 "GRID".toList _ rest2 grid_name
    (grid_fits (cp := none) (cd := none) (ps := none) h1 (by simp) hv (by simp) (by simp))
    (by simp only [gridFields, List.length_cons, List.length_nil]; omega) hnew2
  obtain ⟨s1, w1, hl1, e1⟩ := grdset_node (α := α) n (1 + n) h0 (code ps) hn (code_number hps) g2
  obtain ⟨v', hv', hr⟩ := grid_read (α := α) f2 h1 (by simp) (by simp) (by simp)
  obtain ⟨s2, p, e2, w2, ⟨m2, hm2⟩, lk2, z2, k2⟩ := systemAt_spec w1 ((1 + n : Nat) : Int)
  obtain ⟨s, r3, w3, ⟨m3, hm3⟩, l3⟩ := run_spec w2 afterwards
  have c := leads (s := s2) w3 ⟨m3, hm3⟩ z2 k2
  refine ⟨l1, c1', _, l2, c2', _, _, s1, ⟨id, v', p, 0, ps⟩, s2, s, g1, g5, f1, f5, e1, ?_, r3, rfl, rfl, hv', ?_⟩
  · exact hr _ s1 s2 p s2 0 ps e2 (by simp [systemAt]) (permanent_code hps)
  · rw [c.2 toGlobal v', l3, lk2, hl1]
    simp [frame]

/-- **C89 is false for the order of cards.** GRDSET does not apply to the nodes before it: with the same two cards, the node
is fixed by the degrees of freedom of GRDSET if GRDSET comes first, and free otherwise. -/
theorem C89_order_false (c1 c2 : Nat) (id : Int) (v : V3) (ps : Dofs) (rest1 rest2 : List Nastran.Line) (h1 : Number id)
    (hv : Finite v) (hps : SomeDofs ps)
    (hc1 : c1 + 1 < 10 ^ 7) (hc2 : c2 + 1 < 10 ^ 7) (hnew1 : NewCard rest1) (hnew2 : NewCard rest2) :
    ∃ l1 c1' t1 l2 c2' t2 v',
      writeCard c1 "GRDSET".toList (setFields none none (code (some ps))) = some (l1, c1') ∧
      nextLine (l1 ++ rest1) = .ok (some (t1, afterComments rest1)) ∧
      writeCard c2 "GRID".toList (gridFields id none v none none) = some (l2, c2') ∧
      nextLine (l2 ++ rest2) = .ok (some (t2, afterComments rest2)) ∧
      readNodes GrdSet.init (Store.new 0 : Store α) [t1, t2] = .ok [⟨id, v', 0, 0, some ps⟩] ∧
      readNodes GrdSet.init (Store.new 0 : Store α) [t2, t1] = .ok [⟨id, v', 0, 0, none⟩] := by
  have hps' : ∀ d ∈ some ps, SomeDofs d := by simpa using hps
  obtain ⟨l1, c1', t1, g1, g2, -, -, g5⟩ := C78_card_partial c1 "GRDSET".toList _ rest1 grdset_name
    (grdset_fits (cp := none) (cd := none) (ps := code (some ps)) (by simp) (by simp) (code_number hps'))
    (by simp only [setFields, List.length_cons, List.length_nil]; omega) hnew1
  obtain ⟨l2, c2', t2, f1, f2, -, -, f5⟩ := C78_card_partial c2 "GRID".toList _ rest2 grid_name
    (grid_fits (cp := none) (cd := none) (ps := none) h1 (by simp) hv (by simp) (by simp))
    (by simp only [gridFields, List.length_cons, List.length_nil]; omega) hnew2
  have e1 := fun s : Store α => grdset_read GrdSet.init s g2 (by simp) (by simp) (code_number hps')
    (s1 := s) (s2 := s) (p := 0) (q := 0) (by simp [grdSystem, GrdSet.init]) (by simp [grdSystem, GrdSet.init])
  obtain ⟨v', -, hr⟩ := grid_read (α := α) f2 h1 (by simp) (by simp) (by simp)
  have r1 := hr GrdSet.init (Store.new 0) (Store.new 0) 0 (Store.new 0) 0 none (by simp [systemAt, GrdSet.init])
    (by simp [systemAt, GrdSet.init]) (by rfl)
  have r2 := hr ⟨0, 0, (code (some ps)).getD 0⟩ (Store.new 0) (Store.new 0) 0 (Store.new 0) 0 (some ps)
    (by simp [systemAt]) (by simp [systemAt]) (permanent_code hps')
  have n1 : ("GRID".toList = "GRDSET".toList) = False := by
    simp only [eq_iff_iff, iff_false]; decide
  refine ⟨l1, c1', _, l2, c2', _, v', g1, g5, f1, f5, ?_, ?_⟩
  · simp only [readNodes, List.head?_cons, Option.some.injEq, n1, if_false, if_true, e1, r2, Outcome.bind_ok]
  · simp only [readNodes, List.head?_cons, Option.some.injEq, n1, if_false, if_true, e1, r1, Outcome.bind_ok]

example : Number (1 + (0 : Nat)) ∧ SomeDofs ⟨0x3f⟩ := by decide +kernel

end NastranWrite
end Vega
