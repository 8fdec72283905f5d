import Verif.Systus.Materials
import Mathlib.Tactic.Linarith
import Mathlib.Tactic.NormNum

/-! # Materials of Systus: property C116 -/
namespace Vega

/-! ## Specification -/
namespace SystusMatSpec
open SystusMat

/-- The elements of the set refer to the material `m`: they print the number of `m`, which is its place in the list. -/
def Refers (st : State) (id : Nat) (m : Mat) : Prop :=
  ∃ p : Nat, st.ids.find id = some p ∧ 1 ≤ p ∧ st.materials[p - 1]? = some m ∧ m.find .id = some (p : Dbl)

/-- A number that is printed only if it is positive. -/
def positive (v : Dbl) : Option Dbl := if 0 < v then some v else none

/-- The field of a spring or segment in a direction. -/
def stiffnessField : Dof → Smf
  | .DX => .kx
  | .DY => .ky
  | .DZ => .kz
  | .RX => .ix
  | .RY => .iy
  | .RZ => .iz

/-- The matrices of a kind. -/
def file (f : Files) : MKind → List Nat
  | .damping => f.damping
  | .mass => f.mass
  | .stiffness => f.stiffness

/-- The set is known by the code of the kind, and by the number of its own matrix in the file of that kind. -/
def Numbered (f : Files) (id : Nat) (k : MKind) : Prop :=
  f.tables.find id = some (access k) ∧ ∃ r : Nat, f.reductions.find id = some r ∧ 1 ≤ r ∧ (file f k)[r - 1]? = some id

/-- The numbers of the subroutines that read the files of matrices: 41 for dampings, 42 for masses, 43 for stiffnesses, each two digits of its own
of the negative number of a table. -/
def places : MKind → Int
  | .damping => -410000
  | .mass => -4200
  | .stiffness => -43

end SystusMatSpec

namespace SystusMat
open SystusMatSpec

/-! ## Lemmas -/

theorem find_fill_ne (k k' : Smf) (v : Dbl) (m : Mat) (h : k ≠ k') : Map.find (fill k v m) k' = Map.find m k' := by
  unfold fill
  cases k <;> simp only [] <;> (try split) <;> first | rfl | exact Map.find_set_ne m v h

theorem find_fill_plain (k : Smf) (v : Dbl) (m : Mat)
    (h : k ≠ .rho ∧ k ≠ .e ∧ k ≠ .nu ∧ k ≠ .alpha ∧ k ≠ .ay ∧ k ≠ .az) : Map.find (fill k v m) k = some v := by
  obtain ⟨h1, h2, h3, h4, h5, h6⟩ := h
  cases k <;> first | contradiction | exact Map.find_set_self _ _ _

theorem find_fill_pos (k : Smf) (v : Dbl) (m : Mat) (h : k = .rho ∨ k = .e ∨ k = .nu) (hm : Map.find m k = none) :
    Map.find (fill k v m) k = positive v := by
  unfold positive
  rcases h with rfl | rfl | rfl <;>
  · show Map.find (if 0 < v then Map.set m _ v else m) _ = _
    split
    · exact Map.find_set_self _ _ _
    · exact hm

theorem find_fill_avail (k : Smf) (v : Dbl) (m : Mat) (h : k = .alpha ∨ k = .ay ∨ k = .az) (hv : |v| ≤ dblMax / 2) :
    Map.find (fill k v m) k = some v := by
  have hu := isEqual_unavailable_of_le_half v hv
  rcases h with rfl | rfl | rfl <;>
  · show Map.find (if isEqual v unavailable then m else Map.set m _ v) _ = _
    rw [hu]
    exact Map.find_set_self _ _ _

theorem find_fillDofs_ne (d : Dofs) (m : Mat) (k : Smf)
    (h : Smf.kx ≠ k ∧ Smf.ky ≠ k ∧ Smf.kz ≠ k ∧ Smf.ix ≠ k ∧ Smf.iy ≠ k ∧ Smf.iz ≠ k) :
    Map.find (fillDofs d m) k = Map.find m k := by
  obtain ⟨h1, h2, h3, h4, h5, h6⟩ := h
  unfold fillDofs
  simp only []
  split <;> (try rw [find_fill_ne _ _ _ _ h6]) <;> split <;> (try rw [find_fill_ne _ _ _ _ h5]) <;>
    split <;> (try rw [find_fill_ne _ _ _ _ h4]) <;> split <;> (try rw [find_fill_ne _ _ _ _ h3]) <;>
    split <;> (try rw [find_fill_ne _ _ _ _ h2]) <;> split <;> (try rw [find_fill_ne _ _ _ _ h1]) <;> rfl

/-- A function that leaves the number alone. -/
def Keeps (g : Mat → Mat) (k : Smf) : Prop := ∀ m, Map.find (g m) k = Map.find m k

theorem keeps_bending (b : Beam) (k : Smf)
    (h : Smf.iz ≠ k ∧ Smf.iy ≠ k ∧ Smf.ix ≠ k ∧ Smf.az ≠ k ∧ Smf.ay ≠ k) : Keeps (bending b) k := by
  obtain ⟨h1, h2, h3, h4, h5⟩ := h
  intro m
  unfold bending
  rw [find_fill_ne _ _ _ _ h1, find_fill_ne _ _ _ _ h2, find_fill_ne _ _ _ _ h3, find_fill_ne _ _ _ _ h4,
    find_fill_ne _ _ _ _ h5]

theorem keeps_part (p : Part) (k : Smf)
    (h : Smf.iz ≠ k ∧ Smf.iy ≠ k ∧ Smf.ix ≠ k ∧ Smf.az ≠ k ∧ Smf.ay ≠ k ∧ Smf.s ≠ k ∧ Smf.h ≠ k) : Keeps (part p) k := by
  obtain ⟨h1, h2, h3, h4, h5, h6, h7⟩ := h
  intro m
  have hb := fun b => keeps_bending b k ⟨h1, h2, h3, h4, h5⟩
  cases p with
  | beam b =>
    show Map.find (if b.truss then fill .s b.area m else bending b (fill .s b.area m)) k = _
    split
    · exact find_fill_ne _ _ _ _ h6
    · rw [hb b, find_fill_ne _ _ _ _ h6]
  | rectangular b =>
    show Map.find (if b.truss then m else bending b (fill .s b.area m)) k = _
    split
    · rfl
    · rw [hb b, find_fill_ne _ _ _ _ h6]
  | shell t => exact find_fill_ne _ _ _ _ h7
  | solid => rfl
  | other => rfl

theorem keeps_alpha (g : Option Dbl) (k : Smf) (h : Smf.alpha ≠ k) : Keeps (fillAlpha g) k := by
  intro m
  cases g with
  | none => rfl
  | some g => exact find_fill_ne _ _ _ _ h

theorem keeps_mode (c : Config) (l r : Dbl) (k : Smf) (h : Smf.e ≠ k ∧ Smf.shape ≠ k) : Keeps (rigidMode c l r) k := by
  intro m
  unfold rigidMode
  split <;> rw [find_fill_ne _ _ _ _ h.1, find_fill_ne _ _ _ _ h.2]

theorem keeps_reference (c : Config) (i : Nat) (k : Smf) (h : Smf.e ≠ k ∧ Smf.table ≠ k) : Keeps (reference c i) k := by
  intro m
  unfold reference
  split
  · rfl
  · simp only []
    split
    · split
      · exact find_fill_ne _ _ _ _ h.2
      · rw [find_fill_ne _ _ _ _ h.1, find_fill_ne _ _ _ _ h.2]
    · exact find_fill_ne _ _ _ _ h.2

/-- The material with the two numbers only. -/
def base (n : Nat) : Mat := fill .mid n (fill .id n [])

theorem base_id (n : Nat) : Map.find (base n) .id = some (n : Dbl) := by
  unfold base
  rw [find_fill_ne _ _ _ _ (by decide)]
  exact find_fill_plain _ _ _ (by decide)

theorem base_none (n : Nat) (k : Smf) (h : Smf.id ≠ k ∧ Smf.mid ≠ k) : Map.find (base n) k = none := by
  unfold base
  rw [find_fill_ne _ _ _ _ h.2, find_fill_ne _ _ _ _ h.1]
  rfl

theorem smfOf_ne (d : Dof) (k : Smf)
    (h : Smf.kx ≠ k ∧ Smf.ky ≠ k ∧ Smf.kz ≠ k ∧ Smf.ix ≠ k ∧ Smf.iy ≠ k ∧ Smf.iz ≠ k) : smfOf d ≠ k := by
  obtain ⟨h1, h2, h3, h4, h5, h6⟩ := h
  cases d <;> assumption

theorem elastic_id (x : Elastic) (p : Part) (m : Mat) : Map.find (elastic x p m) .id = Map.find m .id := by
  unfold elastic
  rw [keeps_part p .id (by decide), keeps_alpha _ .id (by decide), find_fill_ne _ _ _ _ (by decide),
    find_fill_ne _ _ _ _ (by decide), find_fill_ne _ _ _ _ (by decide)]

theorem rigid_id (c : Config) (i : Nat) (l r : Dbl) (p : RigidPart) (m q : Mat) (h : rigid c i l r p m = .valid q) :
    Map.find q .id = Map.find m .id := by
  unfold rigid at h
  split at h
  · cases h
    rw [keeps_mode _ _ _ .id (by decide), find_fill_ne _ _ _ _ (by decide), find_fill_ne _ _ _ _ (by decide)]
  · cases h
    rw [find_fill_ne _ _ _ _ (by decide), find_fill_ne _ _ _ _ (by decide), find_fillDofs_ne _ _ .id (by decide),
      find_fill_ne _ _ _ _ (by decide), find_fill_ne _ _ _ _ (by decide)]
  · split at h
    · split at h
      · cases h; rfl
      · cases h
        rw [find_fill_ne _ _ _ _ (by decide), keeps_mode _ _ _ .id (by decide), find_fill_ne _ _ _ _ (by decide)]
    · cases h
  · cases h; rfl

theorem fields_id (c : Config) (s : ESet) (n : Nat) (m : Mat) (h : fields c s n = .ok (.valid m)) :
    Map.find m .id = some (n : Dbl) := by
  obtain ⟨i, e, x⟩ := s
  cases x with
  | elastic x p =>
    have h' : Outcome.ok (Result.valid (elastic x p (base n))) = .ok (.valid m) := h
    cases h'
    rw [elastic_id, base_id]
  | rigid l r p =>
    have h' : Outcome.ok (rigid c i l r p (base n)) = .ok (.valid m) := h
    injection h' with h'
    rw [rigid_id c i l r p _ _ h', base_id]
  | unnatural => cases h
  | segment k =>
    have h' : Outcome.ok (Result.valid (segment k (base n))) = .ok (.valid m) := h
    cases h'
    unfold segment
    rw [find_fill_ne _ _ _ _ (by decide), find_fill_ne _ _ _ _ (by decide), find_fill_ne _ _ _ _ (by decide),
      find_fill_ne _ _ _ _ (by decide), find_fill_ne _ _ _ _ (by decide), find_fill_ne _ _ _ _ (by decide), base_id]
  | spring ds k d =>
    cases ds with
    | nil => cases h
    | cons p ds =>
      have h' : Outcome.ok (Result.valid (if p.1 = p.2 then fill (smfOf p.1) k (base n) else reference c i (base n))) = .ok (.valid m) := h
      cases h'
      split
      · rw [find_fill_ne _ _ _ _ (smfOf_ne _ _ (by decide)), base_id]
      · rw [keeps_reference c i .id (by decide), base_id]
  | matrix =>
    have h' : Outcome.ok (Result.valid (reference c i (base n))) = .ok (.valid m) := h
    cases h'
    rw [keeps_reference c i .id (by decide), base_id]
  | skin => cases h
  | mass => cases h
  | other => cases h

/-- What is invariant: each material has its place as number, and the number of skins, if any, is that of a bare material. -/
def Inv (st : State) : Prop :=
  (∀ i m, st.materials[i]? = some m → Map.find m .id = some ((i + 1 : Nat) : Dbl)) ∧
    ∀ k, st.skin = some k → 1 ≤ k ∧ st.materials[k - 1]? = some (base k)

/-- What a round does, in one statement. -/
theorem step_spec (c : Config) (st st' : State) (s : ESet) (h : step c st s = .ok st') (hi : Inv st) :
    Inv st' ∧ (∃ l, st'.materials = st.materials ++ l) ∧ (∀ i, i ≠ s.id → st'.ids.find i = st.ids.find i) ∧
      (s.effective = true →
        (∀ F : Nat → Mat, (∀ n, fields c s n = .ok (.valid (F n))) →
          ∃ p, st'.ids.find s.id = some p ∧ 1 ≤ p ∧ st'.materials[p - 1]? = some (F p)) ∧
        ((∀ n, fields c s n = .ok .skin) → ∃ p, st'.skin = some p ∧ st'.ids.find s.id = some p) ∧
        ((∀ n, fields c s n = .ok .invalid ∨ fields c s n = .ok .skip) → st' = st)) ∧
      (∀ k, st.skin = some k → st'.skin = some k) ∧ (s.effective = false → st' = st) := by
  unfold step at h
  cases he : s.effective with
  | false =>
    rw [he] at h
    cases h
    exact ⟨hi, ⟨[], by simp⟩, fun _ _ => rfl, (by intro h; cases h), fun _ h => h, fun _ => rfl⟩
  | true =>
    rw [he, if_pos rfl] at h
    cases hf : fields c s (st.materials.length + 1) with
    | throw => simp only [hf] at h; cases h
    | ub => simp only [hf] at h; cases h
    | diverges => simp only [hf] at h; cases h
    | ok r =>
      simp only [hf, Outcome.bind_ok] at h
      have no1 : ∀ F : Nat → Mat, (∀ n, fields c s n = .ok (.valid (F n))) → r = .valid (F (st.materials.length + 1)) := by
        intro F hF
        have := hF (st.materials.length + 1)
        rw [hf] at this
        injection this
      have no2 : (∀ n, fields c s n = .ok .skin) → r = .skin := by
        intro hF
        have := hF (st.materials.length + 1)
        rw [hf] at this
        injection this
      have no3 : (∀ n, fields c s n = .ok .invalid ∨ fields c s n = .ok .skip) → r = .invalid ∨ r = .skip := by
        intro hF
        rcases hF (st.materials.length + 1) with h' | h' <;> rw [hf] at h' <;> injection h' with h'
        · exact .inl h'
        · exact .inr h'
      cases r with
      | skip =>
        cases h
        refine ⟨hi, ⟨[], by simp⟩, fun _ _ => rfl, fun _ => ⟨?_, ?_, fun _ => rfl⟩, fun _ h => h, fun h => by cases h⟩
        · intro F hF; cases no1 F hF
        · intro hF; cases no2 hF
      | invalid =>
        cases h
        refine ⟨hi, ⟨[], by simp⟩, fun _ _ => rfl, fun _ => ⟨?_, ?_, fun _ => rfl⟩, fun _ h => h, fun h => by cases h⟩
        · intro F hF; cases no1 F hF
        · intro hF; cases no2 hF
      | valid m =>
        cases h
        refine ⟨⟨?_, ?_⟩, ⟨[m], rfl⟩, fun i hne => Map.find_set_ne _ _ (fun h => hne h.symm), fun _ => ⟨?_, ?_, ?_⟩,
          fun _ h => h, fun h => by cases h⟩
        · intro i q hq
          rcases Nat.lt_trichotomy i st.materials.length with hl | hl | hl
          · rw [List.getElem?_append_left hl] at hq
            exact hi.1 i q hq
          · subst hl
            rw [List.getElem?_append_right (Nat.le_refl _), Nat.sub_self] at hq
            cases hq
            exact fields_id c s _ m hf
          · rw [List.getElem?_eq_none (by simp; omega)] at hq
            cases hq
        · intro k hk
          obtain ⟨h1, h2⟩ := hi.2 k hk
          refine ⟨h1, ?_⟩
          have hl : k - 1 < st.materials.length := (List.getElem?_eq_some_iff.1 h2).1
          show (st.materials ++ [m])[k - 1]? = _
          rw [List.getElem?_append_left hl, h2]
        · intro F hF
          have := no1 F hF
          injection this with this
          refine ⟨st.materials.length + 1, Map.find_set_self _ _ _, by omega, ?_⟩
          show (st.materials ++ [m])[st.materials.length + 1 - 1]? = _
          rw [Nat.add_sub_cancel, List.getElem?_append_right (Nat.le_refl _), Nat.sub_self, this]
          rfl
        · intro hF; cases no2 hF
        · intro hF; rcases no3 hF with h' | h' <;> cases h'
      | skin =>
        have hnv : ∀ F : Nat → Mat, (∀ n, fields c s n = .ok (.valid (F n))) → False := by
          intro F hF; cases no1 F hF
        have hni : (∀ n, fields c s n = .ok .invalid ∨ fields c s n = .ok .skip) → False := by
          intro hF; rcases no3 hF with h' | h' <;> cases h'
        cases hs : st.skin with
        | some k =>
          simp only [hs] at h
          cases h
          refine ⟨⟨hi.1, fun k' hk' => hi.2 k' (hs.trans hk')⟩, ⟨[], by simp⟩, fun i hne => Map.find_set_ne _ _ (fun h => hne h.symm),
            fun _ => ⟨fun F hF => (hnv F hF).elim, fun _ => ⟨k, rfl, Map.find_set_self _ _ _⟩, fun hF => (hni hF).elim⟩,
            fun _ h => h, fun h => by cases h⟩
        | none =>
          simp only [hs] at h
          cases h
          refine ⟨⟨?_, ?_⟩, ⟨[base (st.materials.length + 1)], rfl⟩, fun i hne => Map.find_set_ne _ _ (fun h => hne h.symm),
            fun _ => ⟨fun F hF => (hnv F hF).elim, fun _ => ⟨_, rfl, Map.find_set_self _ _ _⟩, fun hF => (hni hF).elim⟩,
            fun _ h => (by cases h), fun h => by cases h⟩
          · intro i q hq
            rcases Nat.lt_trichotomy i st.materials.length with hl | hl | hl
            · rw [List.getElem?_append_left hl] at hq
              exact hi.1 i q hq
            · subst hl
              rw [List.getElem?_append_right (Nat.le_refl _), Nat.sub_self] at hq
              cases hq
              exact base_id _
            · rw [List.getElem?_eq_none (by simp; omega)] at hq
              cases hq
          · intro k hk
            cases hk
            refine ⟨by omega, ?_⟩
            show (st.materials ++ [base (st.materials.length + 1)])[st.materials.length + 1 - 1]? = _
            rw [Nat.add_sub_cancel, List.getElem?_append_right (Nat.le_refl _), Nat.sub_self]
            rfl

theorem run_cons (c : Config) (s : ESet) (r : List ESet) (st st' : State) (h : run c (s :: r) st = .ok st') :
    ∃ st₁, step c st s = .ok st₁ ∧ run c r st₁ = .ok st' := by
  have h' : (step c st s >>= fun st => run c r st) = .ok st' := h
  cases hs : step c st s with
  | ok a => rw [hs] at h'; exact ⟨a, rfl, h'⟩
  | throw => rw [hs] at h'; cases h'
  | ub => rw [hs] at h'; cases h'
  | diverges => rw [hs] at h'; cases h'

theorem run_keeps (c : Config) (sets : List ESet) : ∀ st st', run c sets st = .ok st' → Inv st →
    Inv st' ∧ (∃ l, st'.materials = st.materials ++ l) ∧ (∀ i, i ∉ sets.map (·.id) → st'.ids.find i = st.ids.find i) ∧
      ∀ k, st.skin = some k → st'.skin = some k := by
  induction sets with
  | nil =>
    intro st st' h hi
    cases h
    exact ⟨hi, ⟨[], by simp⟩, fun _ _ => rfl, fun _ h => h⟩
  | cons s r ih =>
    intro st st' h hi
    obtain ⟨st₁, h1, h2⟩ := run_cons c s r st st' h
    obtain ⟨a1, ⟨l1, a2⟩, a3, _, a5, _⟩ := step_spec c st st₁ s h1 hi
    obtain ⟨b1, ⟨l2, b2⟩, b3, b4⟩ := ih st₁ st' h2 a1
    refine ⟨b1, ⟨l1 ++ l2, by rw [b2, a2, List.append_assoc]⟩, ?_, fun k hk => b4 k (a5 k hk)⟩
    intro i hni
    rw [List.map_cons, List.mem_cons, not_or] at hni
    rw [b3 i hni.2, a3 i hni.1]

theorem run_round (c : Config) (sets : List ESet) : ∀ st st', run c sets st = .ok st' → Inv st → (sets.map (·.id)).Nodup →
    ∀ s ∈ sets, ∃ a b, step c a s = .ok b ∧ Inv a ∧ Inv b ∧ (∃ l, st'.materials = b.materials ++ l) ∧
      a.ids.find s.id = st.ids.find s.id ∧ st'.ids.find s.id = b.ids.find s.id ∧ ∀ k, b.skin = some k → st'.skin = some k := by
  induction sets with
  | nil => intro _ _ _ _ _ s hs; cases hs
  | cons s r ih =>
    intro st st' h hi hn t ht
    obtain ⟨st₁, h1, h2⟩ := run_cons c s r st st' h
    obtain ⟨a1, _, a3, _, _, _⟩ := step_spec c st st₁ s h1 hi
    rw [List.map_cons, List.nodup_cons] at hn
    rcases List.mem_cons.1 ht with rfl | ht
    · obtain ⟨_, b2, b3, b4⟩ := run_keeps c r st₁ st' h2 a1
      exact ⟨st, st₁, h1, hi, a1, b2, rfl, b3 _ hn.1, b4⟩
    · obtain ⟨a, b, e1, e2, e3, e4, e5, e6, e7⟩ := ih st₁ st' h2 a1 hn.2 t ht
      refine ⟨a, b, e1, e2, e3, e4, ?_, e6, e7⟩
      rw [e5]
      apply a3
      intro he
      exact hn.1 (List.mem_map.2 ⟨t, ht, he⟩)

theorem inv_init (old : Map Nat Nat) : Inv ⟨[], old, none⟩ :=
  ⟨by intro i m h; simp at h, by intro k h; cases h⟩

theorem refers_of (c : Config) (old : Map Nat Nat) (sets : List ESet) (st : State) (h : fillMaterial c old sets = .ok st)
    (hn : (sets.map (·.id)).Nodup) (s : ESet) (hs : s ∈ sets) (he : s.effective = true) (F : Nat → Mat)
    (hF : ∀ n, fields c s n = .ok (.valid (F n))) : ∃ p, Refers st s.id (F p) := by
  obtain ⟨a, b, e1, e2, e3, ⟨l, e4⟩, _, e6, _⟩ := run_round c sets _ st h (inv_init old) hn s hs
  obtain ⟨p, f1, f2, f3⟩ := ((step_spec c a b s e1 e2).2.2.2.1 he).1 F hF
  refine ⟨p, p, e6.trans f1, f2, ?_, ?_⟩
  · rw [e4, List.getElem?_append_left (List.getElem?_eq_some_iff.1 f3).1, f3]
  · exact fields_id c s p (F p) (hF p)

/-! ## Files -/

theorem getElem?_snoc (l : List Nat) (i : Nat) : (l ++ [i])[l.length + 1 - 1]? = some i := by
  rw [Nat.add_sub_cancel, List.getElem?_append_right (Nat.le_refl _), Nat.sub_self]
  rfl

theorem getElem?_mono (l : List Nat) (r i : Nat) (t : List Nat) (h : l[r]? = some i) : (l ++ t)[r]? = some i := by
  rw [List.getElem?_append_left (List.getElem?_eq_some_iff.1 h).1, h]

theorem matrixStep_self (k : MKind) (f : Files) (id : Nat) : Numbered (matrixStep k f id) id k := by
  cases k <;> exact ⟨Map.find_set_self _ _ _, _, Map.find_set_self _ _ _, by omega, getElem?_snoc _ _⟩

theorem matrixStep_other (k k' : MKind) (f : Files) (id j : Nat) (hne : id ≠ j) (h : Numbered f j k') :
    Numbered (matrixStep k f id) j k' := by
  obtain ⟨h1, r, h2, h3, h4⟩ := h
  cases k <;>
  · refine ⟨(Map.find_set_ne _ _ hne).trans h1, r, (Map.find_set_ne _ _ hne).trans h2, h3, ?_⟩
    cases k' <;> first | exact h4 | exact getElem?_mono _ _ _ _ h4

theorem matrices_other (k k' : MKind) (l : List Nat) (j : Nat) (hj : j ∉ l) : ∀ f, Numbered f j k' →
    Numbered (l.foldl (matrixStep k) f) j k' := by
  induction l with
  | nil => intro f h; exact h
  | cons i l ih =>
    intro f h
    rw [List.mem_cons, not_or] at hj
    exact ih hj.2 _ (matrixStep_other k k' f i j (fun h => hj.1 h.symm) h)

theorem matrices_self (k : MKind) (l : List Nat) (j : Nat) (hn : l.Nodup) (hj : j ∈ l) : ∀ f,
    Numbered (l.foldl (matrixStep k) f) j k := by
  induction l with
  | nil => cases hj
  | cons i l ih =>
    intro f
    rw [List.nodup_cons] at hn
    rcases List.mem_cons.1 hj with rfl | hj
    · exact matrices_other k k l j hn.1 _ (matrixStep_self k f j)
    · exact ih hn.2 hj _

theorem springStep_other (f f' : Files) (s : Spring) (j : Nat) (k : MKind) (hne : s.id ≠ j) (h : springStep f s = .ok f')
    (hj : Numbered f j k) : Numbered f' j k := by
  obtain ⟨h1, r, h2, h3, h4⟩ := hj
  unfold springStep at h
  split at h
  · cases h
  · split at h
    · cases h; exact ⟨h1, r, h2, h3, h4⟩
    · cases h
      obtain ⟨i, ds, a, b⟩ := s
      cases a <;> cases b <;>
      · refine ⟨(Map.find_set_ne _ _ hne).trans h1, r, ?_, h3, ?_⟩
        · first
            | exact h2
            | exact (Map.find_set_ne _ _ hne).trans h2
            | exact (Map.find_set_ne _ _ hne).trans ((Map.find_set_ne _ _ hne).trans h2)
        · cases k <;> first | exact h4 | exact getElem?_mono _ _ _ _ h4

/-- The spring is put in one file only. -/
theorem springStep_self (f f' : Files) (s : Spring) (p : Dof × Dof) (ds : List (Dof × Dof)) (hd : s.dofs = p :: ds)
    (hp : p.1 ≠ p.2) (k : MKind) (hk : (s.hasStiffness = true ∧ s.hasDamping = false ∧ k = .stiffness) ∨
      (s.hasStiffness = false ∧ s.hasDamping = true ∧ k = .damping)) (h : springStep f s = .ok f') : Numbered f' s.id k := by
  obtain ⟨i, ds', a, b⟩ := s
  subst hd
  unfold springStep at h
  simp only [if_neg hp] at h
  rcases hk with ⟨h1, h2, h3⟩ | ⟨h1, h2, h3⟩ <;> simp only at h1 h2 <;> subst h1 <;> subst h2 <;> subst h3 <;> cases h
  · exact ⟨Map.find_set_self _ _ _, _, Map.find_set_self _ _ _, by omega, getElem?_snoc _ _⟩
  · exact ⟨Map.find_set_self _ _ _, _, Map.find_set_self _ _ _, by omega, getElem?_snoc _ _⟩

theorem springs_cons (s : Spring) (r : List Spring) (f f' : Files) (h : springs (s :: r) f = .ok f') :
    ∃ f₁, springStep f s = .ok f₁ ∧ springs r f₁ = .ok f' := by
  have h' : (springStep f s >>= fun f => springs r f) = .ok f' := h
  cases hs : springStep f s with
  | ok a => rw [hs] at h'; exact ⟨a, rfl, h'⟩
  | throw => rw [hs] at h'; cases h'
  | ub => rw [hs] at h'; cases h'
  | diverges => rw [hs] at h'; cases h'

theorem springs_other (r : List Spring) (j : Nat) (k : MKind) (hj : j ∉ r.map (·.id)) : ∀ f f', springs r f = .ok f' →
    Numbered f j k → Numbered f' j k := by
  induction r with
  | nil => intro f f' h hn; cases h; exact hn
  | cons s r ih =>
    intro f f' h hn
    rw [List.map_cons, List.mem_cons, not_or] at hj
    obtain ⟨f₁, h1, h2⟩ := springs_cons s r f f' h
    exact ih hj.2 f₁ f' h2 (springStep_other f f₁ s j k (fun h => hj.1 h.symm) h1 hn)

theorem springs_self (r : List Spring) (hn : (r.map (·.id)).Nodup) (s : Spring) (hs : s ∈ r) (p : Dof × Dof)
    (ds : List (Dof × Dof)) (hd : s.dofs = p :: ds) (hp : p.1 ≠ p.2) (k : MKind)
    (hk : (s.hasStiffness = true ∧ s.hasDamping = false ∧ k = .stiffness) ∨
      (s.hasStiffness = false ∧ s.hasDamping = true ∧ k = .damping)) : ∀ f f', springs r f = .ok f' → Numbered f' s.id k := by
  induction r with
  | nil => cases hs
  | cons t r ih =>
    intro f f' h
    rw [List.map_cons, List.nodup_cons] at hn
    obtain ⟨f₁, h1, h2⟩ := springs_cons t r f f' h
    rcases List.mem_cons.1 hs with rfl | hs
    · exact springs_other r s.id k hn.1 f₁ f' h2 (springStep_self f f₁ s p ds hd hp k hk h1)
    · exact ih hn.2 hs f₁ f' h2

/-! ## C116 -/

/-- **C116.** The materials are numbered by their places. -/
theorem C116_numbers (c : Config) (old : Map Nat Nat) (sets : List ESet) (st : State) (h : fillMaterial c old sets = .ok st)
    (i : Nat) (m : Mat) (hm : st.materials[i]? = some m) : m.find .id = some ((i + 1 : Nat) : Dbl) :=
  (run_keeps c sets _ st h (inv_init old)).1.1 i m hm

/-- **C116, elastic constants.** The elements of a set with an elastic material refer to a record with the density, modulus and
Poisson's ratio of the material as far as they are positive, and with twice its damping as far as it is given. -/
theorem C116_elastic_partial (c : Config) (old : Map Nat Nat) (sets : List ESet) (st : State)
    (h : fillMaterial c old sets = .ok st) (hn : (sets.map (·.id)).Nodup) (s : ESet) (hs : s ∈ sets) (he : s.effective = true)
    (x : Elastic) (p : Part) (hc : s.content = .elastic x p) (hg : ∀ g, x.ge = some g → |2 * g| ≤ dblMax / 2) :
    ∃ m, Refers st s.id m ∧ m.find .rho = positive x.rho ∧ m.find .e = positive x.e ∧ m.find .nu = positive x.nu ∧
      m.find .alpha = x.ge.map (2 * ·) := by
  obtain ⟨q, hq⟩ := refers_of c old sets st h hn s hs he (fun n => elastic x p (base n))
    (fun n => by unfold fields; rw [hc]; rfl)
  refine ⟨_, hq, ?_, ?_, ?_, ?_⟩
  · show Map.find (elastic x p (base q)) _ = _
    unfold elastic
    rw [keeps_part p _ (by decide), keeps_alpha _ _ (by decide), find_fill_ne _ _ _ _ (by decide),
      find_fill_ne _ _ _ _ (by decide), find_fill_pos _ _ _ (by decide) (base_none _ _ (by decide))]
  · show Map.find (elastic x p (base q)) _ = _
    unfold elastic
    rw [keeps_part p _ (by decide), keeps_alpha _ _ (by decide), find_fill_ne _ _ _ _ (by decide)]
    refine find_fill_pos _ _ _ (by decide) ?_
    rw [find_fill_ne _ _ _ _ (by decide), base_none _ _ (by decide)]
  · show Map.find (elastic x p (base q)) _ = _
    unfold elastic
    rw [keeps_part p _ (by decide), keeps_alpha _ _ (by decide)]
    refine find_fill_pos _ _ _ (by decide) ?_
    rw [find_fill_ne _ _ _ _ (by decide), find_fill_ne _ _ _ _ (by decide), base_none _ _ (by decide)]
  · show Map.find (elastic x p (base q)) _ = _
    unfold elastic
    rw [keeps_part p _ (by decide)]
    cases hx : x.ge with
    | none =>
      show Map.find (fill .nu x.nu (fill .e x.e (fill .rho x.rho (base q)))) .alpha = none
      rw [find_fill_ne _ _ _ _ (by decide), find_fill_ne _ _ _ _ (by decide), find_fill_ne _ _ _ _ (by decide),
        base_none _ _ (by decide)]
    | some g => exact find_fill_avail .alpha (2 * g) _ (by decide) (hg g hx)

/-- **C116 is false of negative Poisson's ratios:** whatever the other data, a ratio that is not positive is not written. -/
theorem C116_poisson_false (c : Config) (old : Map Nat Nat) (sets : List ESet) (st : State)
    (h : fillMaterial c old sets = .ok st) (hn : (sets.map (·.id)).Nodup) (s : ESet) (hs : s ∈ sets) (he : s.effective = true)
    (x : Elastic) (p : Part) (hc : s.content = .elastic x p) (hv : x.nu < 0) :
    ∃ m, Refers st s.id m ∧ m.find .nu = none := by
  obtain ⟨q, hq⟩ := refers_of c old sets st h hn s hs he (fun n => elastic x p (base n))
    (fun n => by unfold fields; rw [hc]; rfl)
  refine ⟨_, hq, ?_⟩
  show Map.find (elastic x p (base q)) _ = _
  unfold elastic
  rw [keeps_part p _ (by decide), keeps_alpha _ _ (by decide), find_fill_pos]
  · unfold positive
    rw [if_neg (not_lt.2 hv.le)]
  · decide
  · rw [find_fill_ne _ _ _ _ (by decide), find_fill_ne _ _ _ _ (by decide), base_none _ _ (by decide)]

/-- **C116, beams.** The record of a beam that is no truss has the area, torsion constant and moments of inertia of the section. -/
theorem C116_beam (c : Config) (old : Map Nat Nat) (sets : List ESet) (st : State)
    (h : fillMaterial c old sets = .ok st) (hn : (sets.map (·.id)).Nodup) (s : ESet) (hs : s ∈ sets) (he : s.effective = true)
    (x : Elastic) (b : Beam) (hc : s.content = .elastic x (.beam b) ∨ s.content = .elastic x (.rectangular b))
    (ht : b.truss = false) (hy : |b.area * b.fy| ≤ dblMax / 2) (hz : |b.area * b.fz| ≤ dblMax / 2) :
    ∃ m, Refers st s.id m ∧ m.find .s = some b.area ∧ m.find .ix = some b.torsion ∧ m.find .iy = some b.iy ∧
      m.find .iz = some b.iz ∧ m.find .ay = some (b.area * b.fy) ∧ m.find .az = some (b.area * b.fz) := by
  let g : Nat → Mat := fun n => fillAlpha x.ge (fill .nu x.nu (fill .e x.e (fill .rho x.rho (base n))))
  obtain ⟨q, hq⟩ := refers_of c old sets st h hn s hs he (fun n => bending b (fill .s b.area (g n))) (fun n => by
    rcases hc with hc | hc <;>
    · unfold fields
      rw [hc]
      simp only [elastic, part, ht]
      rfl)
  refine ⟨_, hq, ?_, ?_, ?_, ?_, ?_, ?_⟩
  · rw [keeps_bending b _ (by decide)]
    exact find_fill_plain _ _ _ (by decide)
  · simp only [bending]
    rw [find_fill_ne _ _ _ _ (by decide), find_fill_ne _ _ _ _ (by decide)]
    exact find_fill_plain _ _ _ (by decide)
  · simp only [bending]
    rw [find_fill_ne _ _ _ _ (by decide)]
    exact find_fill_plain _ _ _ (by decide)
  · simp only [bending]
    exact find_fill_plain _ _ _ (by decide)
  · simp only [bending]
    rw [find_fill_ne _ _ _ _ (by decide), find_fill_ne _ _ _ _ (by decide), find_fill_ne _ _ _ _ (by decide),
      find_fill_ne _ _ _ _ (by decide)]
    exact find_fill_avail _ _ _ (by decide) hy
  · simp only [bending]
    rw [find_fill_ne _ _ _ _ (by decide), find_fill_ne _ _ _ _ (by decide), find_fill_ne _ _ _ _ (by decide)]
    exact find_fill_avail _ _ _ (by decide) hz

/-- **C116 is false of shear areas**, if AY is the part of the section that takes the shear force: for a factor above one, which is
that of all circular, tubular and rectangular sections (10/9 and 6/5, Element.cpp 231-310), the area written is greater than the
whole section. -/
theorem C116_shear_false (c : Config) (old : Map Nat Nat) (sets : List ESet) (st : State)
    (h : fillMaterial c old sets = .ok st) (hn : (sets.map (·.id)).Nodup) (s : ESet) (hs : s ∈ sets) (he : s.effective = true)
    (x : Elastic) (b : Beam) (hc : s.content = .elastic x (.beam b) ∨ s.content = .elastic x (.rectangular b))
    (ht : b.truss = false) (hf : b.fy = 10 / 9 ∨ b.fy = 6 / 5) (hfz : b.fz = b.fy) (ha : 0 < b.area) (hb : b.area ≤ dblMax / 4) :
    ∃ m, Refers st s.id m ∧ ∃ ay, m.find .ay = some ay ∧ b.area < ay := by
  have hle : |b.area * b.fy| ≤ dblMax / 2 := by
    rcases hf with hf | hf <;> rw [hf, abs_of_nonneg (by linarith)] <;> linarith
  obtain ⟨m, h1, _, _, _, _, h2, _⟩ := C116_beam c old sets st h hn s hs he x b hc ht hle (by rw [hfz]; exact hle)
  refine ⟨m, h1, _, h2, ?_⟩
  rcases hf with hf | hf <;> rw [hf] <;> linarith

/-- **C116, trusses.** The record of a truss whose section is not a rectangle has its area. -/
theorem C116_truss_partial (c : Config) (old : Map Nat Nat) (sets : List ESet) (st : State)
    (h : fillMaterial c old sets = .ok st) (hn : (sets.map (·.id)).Nodup) (s : ESet) (hs : s ∈ sets) (he : s.effective = true)
    (x : Elastic) (b : Beam) (hc : s.content = .elastic x (.beam b)) (ht : b.truss = true) :
    ∃ m, Refers st s.id m ∧ m.find .s = some b.area := by
  obtain ⟨q, hq⟩ := refers_of c old sets st h hn s hs he (fun n => elastic x (.beam b) (base n))
    (fun n => by unfold fields; rw [hc]; rfl)
  refine ⟨_, hq, ?_⟩
  simp only [elastic, part, ht, if_true]
  exact find_fill_plain _ _ _ (by decide)

/-- **C116 is false of rectangular trusses:** their record has no area at all. -/
theorem C116_truss_false (c : Config) (old : Map Nat Nat) (sets : List ESet) (st : State)
    (h : fillMaterial c old sets = .ok st) (hn : (sets.map (·.id)).Nodup) (s : ESet) (hs : s ∈ sets) (he : s.effective = true)
    (x : Elastic) (b : Beam) (hc : s.content = .elastic x (.rectangular b)) (ht : b.truss = true) :
    ∃ m, Refers st s.id m ∧ m.find .s = none := by
  obtain ⟨q, hq⟩ := refers_of c old sets st h hn s hs he (fun n => elastic x (.rectangular b) (base n))
    (fun n => by unfold fields; rw [hc]; rfl)
  refine ⟨_, hq, ?_⟩
  simp only [elastic, part, ht, if_true]
  rw [keeps_alpha _ _ (by decide), find_fill_ne _ _ _ _ (by decide), find_fill_ne _ _ _ _ (by decide),
    find_fill_ne _ _ _ _ (by decide), base_none _ _ (by decide)]

/-- **C116, shells.** The record of a shell has its thickness. -/
theorem C116_shell (c : Config) (old : Map Nat Nat) (sets : List ESet) (st : State)
    (h : fillMaterial c old sets = .ok st) (hn : (sets.map (·.id)).Nodup) (s : ESet) (hs : s ∈ sets) (he : s.effective = true)
    (x : Elastic) (t : Dbl) (hc : s.content = .elastic x (.shell t)) : ∃ m, Refers st s.id m ∧ m.find .h = some t := by
  obtain ⟨q, hq⟩ := refers_of c old sets st h hn s hs he (fun n => elastic x (.shell t) (base n))
    (fun n => by unfold fields; rw [hc]; rfl)
  refine ⟨_, hq, ?_⟩
  exact find_fill_plain .h t _ (by decide)

/-- **C116, segments.** The record of a discrete segment has the six stiffnesses of the diagonal. -/
theorem C116_segment_partial (c : Config) (old : Map Nat Nat) (sets : List ESet) (st : State)
    (h : fillMaterial c old sets = .ok st) (hn : (sets.map (·.id)).Nodup) (s : ESet) (hs : s ∈ sets) (he : s.effective = true)
    (k : Dof → Dof → Dbl) (hc : s.content = .segment k) :
    ∃ m, Refers st s.id m ∧ ∀ d, m.find (stiffnessField d) = some (k d d) := by
  obtain ⟨q, hq⟩ := refers_of c old sets st h hn s hs he (fun n => segment k (base n)) (fun n => by unfold fields; rw [hc]; rfl)
  refine ⟨_, hq, ?_⟩
  intro d
  cases d <;> simp only [segment, stiffnessField] <;> repeat (first
    | exact find_fill_plain _ _ _ (by decide)
    | rw [find_fill_ne _ _ _ _ (by decide)])

/-- **C116 is false of coupled segments:** whatever the stiffnesses off the diagonal, what is written is the same. -/
theorem C116_segment_false (c : Config) (old : Map Nat Nat) (before after : List ESet) (id : Nat) (eff : Bool)
    (k k' : Dof → Dof → Dbl) (hd : ∀ d, k d d = k' d d) :
    fillMaterial c old (before ++ ⟨id, eff, .segment k⟩ :: after) = fillMaterial c old (before ++ ⟨id, eff, .segment k'⟩ :: after) := by
  have hseg : ∀ m, segment k m = segment k' m := fun m => by simp only [segment, hd]
  have hf : ∀ n, fields c ⟨id, eff, .segment k⟩ n = fields c ⟨id, eff, .segment k'⟩ n := fun n => by
    simp only [fields, hseg]
  have hs : ∀ st, step c st ⟨id, eff, .segment k⟩ = step c st ⟨id, eff, .segment k'⟩ := fun st => by
    simp only [step, hf]
  unfold fillMaterial
  generalize (⟨[], old, none⟩ : State) = st
  induction before generalizing st with
  | nil => simp only [List.nil_append, run, hs]
  | cons a l ih =>
    simp only [List.cons_append, run]
    cases step c st a with
    | ok b => simp only [Outcome.bind_ok]; exact ih b
    | throw => rfl
    | ub => rfl
    | diverges => rfl

/-- **C116, springs.** The record of a spring between the same components has its stiffness in the direction of the component. -/
theorem C116_spring (c : Config) (old : Map Nat Nat) (sets : List ESet) (st : State)
    (h : fillMaterial c old sets = .ok st) (hn : (sets.map (·.id)).Nodup) (s : ESet) (hs : s ∈ sets) (he : s.effective = true)
    (d : Dof) (ds : List (Dof × Dof)) (k dk : Dbl) (hc : s.content = .spring ((d, d) :: ds) k dk) :
    ∃ m, Refers st s.id m ∧ m.find (stiffnessField d) = some k ∧ ∀ d', d' ≠ d → m.find (stiffnessField d') = none := by
  obtain ⟨q, hq⟩ := refers_of c old sets st h hn s hs he (fun n => fill (smfOf d) k (base n))
    (fun n => by unfold fields; rw [hc]; simp only [if_true]; rfl)
  refine ⟨_, hq, ?_, ?_⟩
  · cases d <;> exact find_fill_plain _ _ _ (by decide)
  · intro d' hd
    have hne : smfOf d ≠ stiffnessField d' := by
      revert hd
      cases d <;> cases d' <;> decide
    rw [find_fill_ne _ _ _ _ hne]
    cases d' <;> exact base_none _ _ (by decide)

/-- **C116, springs without directions** are undefined behaviour, wherever they are. -/
theorem C116_spring_false (c : Config) (st : State) (s : ESet) (r : List ESet) (k dk : Dbl) (he : s.effective = true)
    (hc : s.content = .spring [] k dk) : run c (s :: r) st = .ub := by
  have hf : fields c s (st.materials.length + 1) = .ub := by unfold fields; rw [hc]
  have hs : step c st s = .ub := by
    unfold step
    rw [he, if_pos rfl]
    simp only [hf]
    rfl
  show (step c st s >>= fun st => run c r st) = .ub
  rw [hs]
  rfl

/-- **C116, averages.** The record of an RBE3 names the components of the reference node and of the others, one bit or field each. -/
theorem C116_rbe3 (c : Config) (old : Map Nat Nat) (sets : List ESet) (st : State)
    (h : fillMaterial c old sets = .ok st) (hn : (sets.map (·.id)).Nodup) (s : ESet) (hs : s ∈ sets) (he : s.effective = true)
    (l r : Dbl) (md sd : Dofs) (hc : s.content = .rigid l r (.rbe3 md sd)) :
    ∃ m, Refers st s.id m ∧ m.find .level = some 3 ∧ m.find .shape = some 19 ∧ m.find .coef = some l ∧
      m.find .depend = some (dofsToInt sd : Dbl) ∧ ∀ d, m.find (stiffnessField d) = if md.contains d then some 1 else none := by
  obtain ⟨q, hq⟩ := refers_of c old sets st h hn s hs he
    (fun n => fill .depend (dofsToInt sd) (fill .coef l (fillDofs md (fill .level 3 (fill .shape 19 (base n))))))
    (fun n => by unfold fields; rw [hc]; rfl)
  refine ⟨_, hq, ?_, ?_, ?_, ?_, ?_⟩
  · rw [find_fill_ne _ _ _ _ (by decide), find_fill_ne _ _ _ _ (by decide), find_fillDofs_ne _ _ _ (by decide)]
    exact find_fill_plain _ _ _ (by decide)
  · rw [find_fill_ne _ _ _ _ (by decide), find_fill_ne _ _ _ _ (by decide), find_fillDofs_ne _ _ _ (by decide),
      find_fill_ne _ _ _ _ (by decide)]
    exact find_fill_plain _ _ _ (by decide)
  · rw [find_fill_ne _ _ _ _ (by decide)]
    exact find_fill_plain _ _ _ (by decide)
  · exact find_fill_plain _ _ _ (by decide)
  · intro d
    have hb : Map.find (fill .level 3 (fill .shape 19 (base q))) (stiffnessField d) = none := by
      cases d <;> simp only [stiffnessField] <;>
        rw [find_fill_ne _ _ _ _ (by decide), find_fill_ne _ _ _ _ (by decide), base_none _ _ (by decide)]
    have h1 : Map.find (fill .depend (dofsToInt sd) (fill .coef l (fillDofs md (fill .level 3 (fill .shape 19 (base q)))))) (stiffnessField d) =
        Map.find (fillDofs md (fill .level 3 (fill .shape 19 (base q)))) (stiffnessField d) := by
      cases d <;> rw [find_fill_ne _ _ _ _ (by decide), find_fill_ne _ _ _ _ (by decide)]
    show Map.find (fill .depend (dofsToInt sd) (fill .coef l (fillDofs md (fill .level 3 (fill .shape 19 (base q)))))) (stiffnessField d) = _
    rw [h1]
    generalize fill .level 3 (fill .shape 19 (base q)) = m0 at hb
    unfold fillDofs
    cases d <;> simp only [stiffnessField] at hb ⊢ <;>
      cases h1 : md.contains .DX <;> cases h2 : md.contains .DY <;> cases h3 : md.contains .DZ <;>
      cases h4 : md.contains .RX <;> cases h5 : md.contains .RY <;> cases h6 : md.contains .RZ <;>
      simp only [if_true, Bool.false_eq_true, if_false] <;>
      repeat (first | exact hb | exact find_fill_plain _ _ _ (by decide) | rw [find_fill_ne _ _ _ _ (by decide)])

/-- **C116, components.** Bit `i` of the number of a set of components says whether the set contains the component number `i`. -/
theorem C116_components (d : Dofs) (i : Nat) (x : Dof) (hi : [Dof.DX, .DY, .DZ, .RX, .RY, .RZ][i]? = some x) :
    (dofsToInt d).testBit i = d.contains x := by
  unfold dofsToInt
  have : i < 6 := (List.getElem?_eq_some_iff.1 hi).1
  rcases i with _ | _ | _ | _ | _ | _ | i
  all_goals first | omega | (cases hi)
  all_goals
    cases d.contains .DX <;> cases d.contains .DY <;> cases d.contains .DZ <;> cases d.contains .RX <;>
      cases d.contains .RY <;> cases d.contains .RZ <;> rfl

/-- **C116, bars.** The record of a rigid bar has level 1 and type 9, and the shape and number of the mode of translation. -/
theorem C116_rbar (c : Config) (old : Map Nat Nat) (sets : List ESet) (st : State)
    (h : fillMaterial c old sets = .ok st) (hn : (sets.map (·.id)).Nodup) (s : ESet) (hs : s ∈ sets) (he : s.effective = true)
    (l r : Dbl) (hc : s.content = .rigid l r .rbar) :
    ∃ m, Refers st s.id m ∧ m.find .level = some 1 ∧ m.find .type = some 9 ∧
      m.find .shape = some (if c.lagrangian then 19 else 9) ∧ m.find .e = positive (if c.lagrangian then l else r) := by
  obtain ⟨q, hq⟩ := refers_of c old sets st h hn s hs he (fun n => rigidMode c l r (fill .type 9 (fill .level 1 (base n))))
    (fun n => by unfold fields; rw [hc]; rfl)
  have hb : Map.find (fill .type 9 (fill .level 1 (base q))) .e = none := by
    rw [find_fill_ne _ _ _ _ (by decide), find_fill_ne _ _ _ _ (by decide), base_none _ _ (by decide)]
  refine ⟨_, hq, ?_, ?_, ?_, ?_⟩
  · rw [keeps_mode _ _ _ _ (by decide), find_fill_ne _ _ _ _ (by decide)]
    exact find_fill_plain _ _ _ (by decide)
  · rw [keeps_mode _ _ _ _ (by decide)]
    exact find_fill_plain _ _ _ (by decide)
  · simp only [rigidMode]
    split <;> rw [find_fill_ne _ _ _ _ (by decide)] <;> exact find_fill_plain _ _ _ (by decide)
  · simp only [rigidMode]
    split <;> refine find_fill_pos _ _ _ (by decide) ?_ <;> rw [find_fill_ne _ _ _ _ (by decide), hb]

/-- **C116, relations.** The record of a relation of the file refers to its table. -/
theorem C116_relation (c : Config) (old : Map Nat Nat) (sets : List ESet) (st : State)
    (h : fillMaterial c old sets = .ok st) (hn : (sets.map (·.id)).Nodup) (s : ESet) (hs : s ∈ sets) (he : s.effective = true)
    (l r : Dbl) (a : Int) (hc : s.content = .rigid l r (.lmpc a)) (ha : a ∈ c.analyses) (t : Int) (ht : c.tables.find s.id = some t) :
    ∃ m, Refers st s.id m ∧ m.find .table = some (t : Dbl) ∧ m.find .level = some 0 ∧
      m.find .shape = some (if c.lagrangian then 19 else 9) ∧ m.find .e = positive (if c.lagrangian then l else r) := by
  have ha' : c.analyses.contains a = true := List.contains_iff_mem.2 ha
  obtain ⟨q, hq⟩ := refers_of c old sets st h hn s hs he (fun n => fill .level 0 (rigidMode c l r (fill .table t (base n))))
    (fun n => by unfold fields; rw [hc]; simp only [rigid, ha', if_true, ht]; rfl)
  have hb : Map.find (fill .table t (base q)) .e = none := by
    rw [find_fill_ne _ _ _ _ (by decide), base_none _ _ (by decide)]
  refine ⟨_, hq, ?_, ?_, ?_, ?_⟩
  · rw [find_fill_ne _ _ _ _ (by decide), keeps_mode _ _ _ _ (by decide)]
    exact find_fill_plain _ _ _ (by decide)
  · exact find_fill_plain _ _ _ (by decide)
  · rw [find_fill_ne _ _ _ _ (by decide)]
    simp only [rigidMode]
    split <;> rw [find_fill_ne _ _ _ _ (by decide)] <;> exact find_fill_plain _ _ _ (by decide)
  · rw [find_fill_ne _ _ _ _ (by decide)]
    simp only [rigidMode]
    split <;> refine find_fill_pos _ _ _ (by decide) ?_ <;> rw [find_fill_ne _ _ _ _ (by decide), hb]

/-- **C116, skins.** All skins without material refer to one record, which has no data but its numbers. -/
theorem C116_skin (c : Config) (old : Map Nat Nat) (sets : List ESet) (st : State)
    (h : fillMaterial c old sets = .ok st) (hn : (sets.map (·.id)).Nodup) :
    (∀ s ∈ sets, s.effective = true → s.content = .skin → ∃ m, Refers st s.id m ∧ ∀ k, k ≠ .id → k ≠ .mid → m.find k = none) ∧
    ∀ s ∈ sets, ∀ t ∈ sets, s.effective = true → t.effective = true → s.content = .skin → t.content = .skin →
      st.ids.find s.id = st.ids.find t.id := by
  have key : ∀ s ∈ sets, s.effective = true → s.content = .skin → ∃ p, st.skin = some p ∧ st.ids.find s.id = some p := by
    intro s hs he hc
    obtain ⟨a, b, e1, e2, e3, _, _, e6, e7⟩ := run_round c sets _ st h (inv_init old) hn s hs
    obtain ⟨p, f1, f2⟩ := ((step_spec c a b s e1 e2).2.2.2.1 he).2.1 (fun n => by unfold fields; rw [hc])
    exact ⟨p, e7 p f1, e6.trans f2⟩
  constructor
  · intro s hs he hc
    obtain ⟨p, h1, h2⟩ := key s hs he hc
    obtain ⟨h3, h4⟩ := (run_keeps c sets _ st h (inv_init old)).1.2 p h1
    refine ⟨base p, ⟨p, h2, h3, h4, base_id p⟩, fun k hk hk' => base_none p k ⟨fun h => hk h.symm, fun h => hk' h.symm⟩⟩
  · intro s hs t ht he he' hc hc'
    obtain ⟨p, h1, h2⟩ := key s hs he hc
    obtain ⟨q, h3, h4⟩ := key t ht he' hc'
    rw [h2, h4, ← h1, ← h3]

/-- **C116 is false of sets that are not supported:** they get no record; their elements refer to the number of an earlier file, or
to none (`operator[]` then makes 0, SystusWriter.cpp 2869), whatever the other sets. -/
theorem C116_unsupported_false (c : Config) (old : Map Nat Nat) (sets : List ESet) (st : State)
    (h : fillMaterial c old sets = .ok st) (hn : (sets.map (·.id)).Nodup) (s : ESet) (hs : s ∈ sets)
    (hc : s.content = .unnatural ∨ s.content = .mass ∨ s.content = .other) : st.ids.find s.id = old.find s.id := by
  obtain ⟨a, b, e1, e2, _, _, e5, e6, _⟩ := run_round c sets _ st h (inv_init old) hn s hs
  obtain ⟨_, _, _, f4, _, f6⟩ := step_spec c a b s e1 e2
  have hab : b = a := by
    cases he : s.effective with
    | false => exact f6 he
    | true =>
      refine (f4 he).2.2 (fun n => .inl ?_)
      unfold fields
      rcases hc with hc | hc | hc <;> rw [hc]
  rw [e6, hab, e5]

/-- **C116, numbers of matrices.** In mode `file`, each set with a matrix, and each spring between two components that has a
stiffness or a damping but not both, is known by the code of its kind and the number of its own matrix in the file of that kind. -/
theorem C116_files_partial (ss : List Spring) (dm mm sm : List Nat) (f : Files) (h : fillMatrices ss dm mm sm = .ok f)
    (hn : (ss.map (·.id) ++ dm ++ mm ++ sm).Nodup) :
    (∀ i ∈ dm, Numbered f i .damping) ∧ (∀ i ∈ mm, Numbered f i .mass) ∧ (∀ i ∈ sm, Numbered f i .stiffness) ∧
    ∀ s ∈ ss, ∀ p ds, s.dofs = p :: ds → p.1 ≠ p.2 →
      (s.hasStiffness = true → s.hasDamping = false → Numbered f s.id .stiffness) ∧
      (s.hasStiffness = false → s.hasDamping = true → Numbered f s.id .damping) := by
  have h' : (springs ss ⟨[], [], [], [], []⟩ >>= fun f => .ok (sm.foldl (matrixStep .stiffness) (mm.foldl (matrixStep .mass)
    (dm.foldl (matrixStep .damping) f)))) = Outcome.ok f := h
  rw [List.nodup_append, List.nodup_append, List.nodup_append] at hn
  obtain ⟨⟨⟨n1, n2, d1⟩, n3, d2⟩, n4, d3⟩ := hn
  cases hs : springs ss ⟨[], [], [], [], []⟩ with
  | throw => rw [hs] at h'; cases h'
  | ub => rw [hs] at h'; cases h'
  | diverges => rw [hs] at h'; cases h'
  | ok g =>
    rw [hs] at h'
    simp only [Outcome.bind_ok] at h'
    cases h'
    refine ⟨?_, ?_, ?_, ?_⟩
    · intro i hi
      refine matrices_other _ _ sm i (fun hj => d3 i (by simp [hi]) i hj rfl) _ ?_
      refine matrices_other _ _ mm i (fun hj => d2 i (by simp [hi]) i hj rfl) _ ?_
      exact matrices_self _ dm i n2 hi _
    · intro i hi
      refine matrices_other _ _ sm i (fun hj => d3 i (by simp [hi]) i hj rfl) _ ?_
      exact matrices_self _ mm i n3 hi _
    · intro i hi
      exact matrices_self _ sm i n4 hi _
    · intro s hss p ds hd hp
      have hmem : s.id ∈ ss.map (·.id) := List.mem_map.2 ⟨s, hss, rfl⟩
      have go : ∀ k, Numbered g s.id k → Numbered (sm.foldl (matrixStep .stiffness) (mm.foldl (matrixStep .mass)
          (dm.foldl (matrixStep .damping) g))) s.id k := by
        intro k hk
        refine matrices_other _ _ sm _ (fun hj => d3 _ (by simp only [List.mem_append]; exact .inl (.inl hmem)) _ hj rfl) _ ?_
        refine matrices_other _ _ mm _ (fun hj => d2 _ (by simp only [List.mem_append]; exact .inl hmem) _ hj rfl) _ ?_
        exact matrices_other _ _ dm _ (fun hj => d1 _ hmem _ hj rfl) _ hk
      exact ⟨fun a b => go _ (springs_self ss n1 s hss p ds hd hp _ (.inl ⟨a, b, rfl⟩) _ _ hs),
        fun a b => go _ (springs_self ss n1 s hss p ds hd hp _ (.inr ⟨a, b, rfl⟩) _ _ hs)⟩

/-- **C116 is false of springs with both stiffness and damping:** whenever the files have had different numbers of matrices before it,
the number kept for the spring is not that of its stiffness matrix. -/
theorem C116_files_false (f f' : Files) (s : Spring) (p : Dof × Dof) (ds : List (Dof × Dof)) (hd : s.dofs = p :: ds) (hp : p.1 ≠ p.2)
    (h1 : s.hasStiffness = true) (h2 : s.hasDamping = true) (hne : f.stiffness.length ≠ f.damping.length) (hnew : s.id ∉ f.stiffness)
    (h : springStep f s = .ok f') : ∃ r, f'.reductions.find s.id = some r ∧ f'.stiffness[r - 1]? ≠ some s.id := by
  obtain ⟨i, ds', a, b⟩ := s
  simp only at hd h1 h2 hnew
  subst hd; subst h1; subst h2
  unfold springStep at h
  simp only [if_neg hp] at h
  cases h
  refine ⟨f.damping.length + 1, Map.find_set_self _ _ _, ?_⟩
  show (f.stiffness ++ [i])[f.damping.length + 1 - 1]? ≠ some i
  rw [Nat.add_sub_cancel]
  intro hc
  rcases Nat.lt_or_ge f.damping.length f.stiffness.length with hl | hl
  · rw [List.getElem?_append_left hl] at hc
    exact hnew (List.mem_of_getElem? hc)
  · rw [List.getElem?_eq_none (by simp; omega)] at hc
    cases hc

/-- **C116, matrices.** In mode `file`, the record of a set with a matrix has the code of its kind as table, and the number of its own
matrix in the file of that kind as modulus. -/
theorem C116_matrix (c : Config) (old : Map Nat Nat) (sets : List ESet) (st : State) (f : Files) (k : MKind)
    (h : fillMaterial c old sets = .ok st) (hn : (sets.map (·.id)).Nodup) (s : ESet) (hs : s ∈ sets) (he : s.effective = true)
    (hc : s.content = .matrix ∨ ∃ p ds a b, s.content = .spring (p :: ds) a b ∧ p.1 ≠ p.2) (hfile : c.file = true)
    (hk : Numbered f s.id k) (ht : c.tables.find s.id = f.tables.find s.id) (hr : c.reductions = f.reductions) :
    ∃ m, Refers st s.id m ∧ m.find .table = some (places k : Dbl) ∧
      ∃ r : Nat, m.find .e = some (r : Dbl) ∧ 1 ≤ r ∧ (file f k)[r - 1]? = some s.id := by
  rw [show places k = access k by cases k <;> rfl]
  obtain ⟨k1, r, k2, k3, k4⟩ := hk
  obtain ⟨q, hq⟩ := refers_of c old sets st h hn s hs he (fun n => fill .e r (fill .table (access k) (base n))) (fun n => by
    have hx : reference c s.id (base n) = fill .e r (fill .table (access k) (base n)) := by
      simp only [reference, ht, k1, hfile, if_true, hr, k2]
    rcases hc with hc | ⟨p, ds, a, b, hc, hp⟩
    · unfold fields
      rw [hc, ← hx]
      rfl
    · unfold fields
      rw [hc, ← hx]
      simp only [if_neg hp]
      rfl)
  refine ⟨_, hq, ?_, r, ?_, k3, k4⟩
  · rw [find_fill_ne _ _ _ _ (by decide)]
    exact find_fill_plain _ _ _ (by decide)
  · have hpos : (0 : Dbl) < r := by exact_mod_cast k3
    show Map.find (if (0 : Dbl) < r then Map.set (fill .table (access k) (base q)) .e (r : Dbl) else _) .e = _
    rw [if_pos hpos]
    exact Map.find_set_self _ _ _

/-! ## The hypotheses are satisfiable -/

/-- A configuration. -/
def exConfig : Config := ⟨true, true, [1], [(7, -43), (9, 4)], [(7, 1)]⟩

/-- A rectangular beam, and the same as truss. -/
def exBeam (truss : Bool) : Beam := ⟨truss, 2, 6 / 5, 6 / 5, 3, 4, 5⟩

/-- One set of each sort. -/
def exSets : List ESet :=
  [⟨1, true, .elastic ⟨7, 210, -1 / 4, some (1 / 50)⟩ (.rectangular (exBeam false))⟩, ⟨2, true, .elastic ⟨7, 210, 1 / 3, none⟩ (.rectangular (exBeam true))⟩,
    ⟨3, true, .elastic ⟨7, 210, 1 / 3, none⟩ (.beam (exBeam true))⟩, ⟨4, true, .elastic ⟨7, 210, 1 / 3, none⟩ (.shell 2)⟩, ⟨5, true, .skin⟩,
    ⟨6, true, .segment fun _ _ => 8⟩, ⟨7, true, .matrix⟩, ⟨8, true, .skin⟩, ⟨9, true, .rigid 1 2 (.lmpc 1)⟩, ⟨10, true, .mass⟩,
    ⟨11, true, .spring [(.DY, .DY)] 3 0⟩, ⟨12, true, .rigid 1 2 .rbar⟩, ⟨13, true, .rigid 1 2 (.rbe3 ⟨7⟩ ⟨63⟩)⟩, ⟨14, false, .other⟩]

example : ∃ st, fillMaterial exConfig [] exSets = .ok st ∧ (exSets.map ESet.id).Nodup ∧ st.materials.length = 11 ∧
    st.ids.find 8 = some 5 ∧ st.ids.find 10 = none := ⟨_, rfl, by decide, rfl, rfl, rfl⟩

/-- A spring with stiffness, one with both, and a mass matrix. -/
def exSprings : List Spring := [⟨1, [(.DX, .DY)], true, false⟩, ⟨2, [(.DX, .DZ)], true, true⟩]

example : ∃ f, fillMatrices exSprings [] [5] [7] = .ok f ∧ f.reductions.find 2 = some 1 ∧ f.stiffness[1 - 1]? = some 1 ∧
    (exSprings.map Spring.id ++ [] ++ [5] ++ [7]).Nodup ∧ f.reductions.find 7 = some 3 := ⟨_, rfl, rfl, rfl, by decide, rfl⟩

end SystusMat
end Vega
