import Verif.Sets.Model
import Verif.Container.Props
import Verif.Ref.Props

/-!
# Membership of load sets, constraint sets and objective sets (C28, C29, C58)
-/
namespace Vega.SetSpec
open Registry ContainerSpec

/-! ## Specification -/

/-- Two objects that references cannot tell apart: same type and same original id or, when they
have none, same automatic id. -/
def same (a b : Obj) : Prop :=
  a.type = b.type ∧ a.originalId = b.originalId ∧ (a.originalId = Ref.NO_ID → a.id = b.id)

instance (a b : Obj) : Decidable (same a b) := inferInstanceAs (Decidable (_ ∧ _ ∧ _))

/-- The reference `r` used at registration and the reference `s` used in a query are about the
same set: same automatic id, or same type and original id. -/
def denotes (r s : Ref) : Prop :=
  (r.id ≠ Ref.NO_ID ∧ r.id = s.id) ∨
  (r.originalId ≠ Ref.NO_ID ∧ r.type = s.type ∧ r.originalId = s.originalId)

/-- The abstract state: the members of the model, and what was registered where. -/
structure Abs where
  live : List Obj
  reg : List (Obj × Ref)

/-- Automatic ids identify objects (C09). -/
def Universe (U : Obj → Prop) : Prop :=
  (∀ a b, U a → U b → a.id = b.id → a = b) ∧ ∀ a, U a → a.id ≠ Ref.NO_ID

/-- Every history of additions to the model, registrations (before or after the member is added:
the constructors of loadings and objectives register first) and removals, together with its
effect on the abstract state. -/
inductive Reach (U : Obj → Prop) (kind : Kind) (common : Obj) : Registry → Abs → Prop where
  | init : Reach U kind common Registry.empty ⟨[], []⟩
  | add : Reach U kind common g A → U o → g.members.add o = .ok m →
      Reach U kind common { g with members := m } ⟨A.live ++ [o], A.reg⟩
  | addSet : Reach U kind common g A → g.sets.add s = .ok ss →
      Reach U kind common { g with sets := ss } A
  | register : Reach U kind common g A → U o → addInto kind common g o.ref s newId = .ok g' →
      Reach U kind common g' ⟨A.live, A.reg ++ [(o, s)]⟩
  | remove : Reach U kind common g A → o ∈ A.live →
      Reach U kind common (g.remove o.ref)
        ⟨A.live.filter (· ≠ o), A.reg.filter fun p => ¬ same p.1 o⟩

/-- The member belongs to the set: it is in the model, and was registered (and not removed
since) in a set denoted by `s`. -/
def belongs (A : Abs) (s : Ref) (o : Obj) : Prop :=
  o ∈ A.live ∧ ∃ p ∈ A.reg, same p.1 o ∧ denotes p.2 s

/-- Something registered in the set is not in the model (yet). -/
def dangling (A : Abs) (s : Ref) : Prop :=
  ∃ p ∈ A.reg, denotes p.2 s ∧ ∀ o ∈ A.live, ¬ same p.1 o

/-! ## Lemmas -/

theorem beq_ref (a b : Obj) : a.ref.beq b.ref = true ↔ same a b := by
  have h : ∀ o : Obj, o.ref = ⟨o.type, o.originalId, o.id⟩ := by
    intro o
    unfold Obj.ref Obj.isOriginal
    by_cases h : o.originalId = Ref.NO_ID <;> simp [h]
  rw [h, h]
  unfold Ref.beq same
  simp only
  grind

theorem ref_eq (o : Obj) : o.ref = ⟨o.type, o.originalId, o.id⟩ := by
  unfold Obj.ref Obj.isOriginal
  by_cases h : o.originalId = Ref.NO_ID <;> simp [h]

theorem same_refl (a : Obj) : same a a := ⟨rfl, rfl, fun _ => rfl⟩

theorem same_symm {a b : Obj} (h : same a b) : same b a :=
  ⟨h.1.symm, h.2.1.symm, fun h2 => (h.2.2 (h.2.1.trans h2)).symm⟩

theorem same_trans {a b c : Obj} (h : same a b) (h' : same b c) : same a c :=
  ⟨h.1.trans h'.1, h.2.1.trans h'.2.1, fun h2 => (h.2.2 h2).trans (h'.2.2 (h.2.1.symm.trans h2))⟩

/-- Live objects with the same reference are the same object. -/
theorem rep_same {c : Container} {live : List Obj} (h : Rep c live) {a b : Obj} (ha : a ∈ live)
    (hb : b ∈ live) (hs : same a b) : a = b := by
  by_cases ho : a.originalId = Ref.NO_ID
  · have := hs.2.2 ho
    exact List.inj_on_of_nodup_map h.idsNodup ha hb this
  · have h1 : a ∈ live.filter (·.isOriginal) := by simp [ha, Obj.isOriginal, ho]
    have h2 : b ∈ live.filter (·.isOriginal) := by simp [hb, Obj.isOriginal, ← hs.2.1, ho]
    refine List.inj_on_of_nodup_map h.origNodup h1 h2 ?_
    simp [hs.1, hs.2.1]

theorem find?_congr' {l : List Obj} {p q : Obj → Bool} (h : ∀ x ∈ l, p x = q x) :
    l.find? p = l.find? q := by
  induction l with
  | nil => rfl
  | cons x l ih =>
    rw [List.find?_cons, List.find?_cons, h x (by simp), ih fun y hy => h y (by simp [hy])]

theorem find_mem {c : Container} {live : List Obj} (h : Rep c live) {U : Obj → Prop}
    (hU : Universe U) (hl : ∀ x ∈ live, U x) {o : Obj} (ho : U o) :
    (∀ x, c.find o.ref = .ok (some x) ↔ x ∈ live ∧ same o x) ∧
    ((∀ x ∈ live, ¬ same o x) → c.find o.ref = .ok none) := by
  have key : c.find o.ref = .ok (live.find? fun x => decide (same o x)) := by
    rw [rep_find h, isOriginal_ref]
    by_cases hO : o.isOriginal = true
    · rw [if_pos hO]
      congr 1
      apply find?_congr'
      intro x _
      rw [ref_eq]
      simp only [Obj.isOriginal, decide_eq_true_eq, ne_eq] at hO
      simp only [same, Obj.isOriginal]
      grind
    · have hid : o.ref.hasId = true := by simp [ref_eq, Ref.hasId, hU.2 o ho]
      rw [if_neg hO, if_pos hid]
      congr 1
      apply find?_congr'
      intro x hx
      rw [ref_eq]
      simp only [Obj.isOriginal, decide_eq_true_eq, ne_eq, not_not] at hO
      simp only [same]
      have := hU.1 x o (hl x hx) ho
      grind
  constructor
  · intro x
    rw [key]
    constructor
    · intro hx
      simp only [Outcome.ok.injEq] at hx
      exact ⟨List.mem_of_find?_eq_some hx, by simpa using List.find?_some hx⟩
    · rintro ⟨hx, hs⟩
      cases hf : live.find? fun x => decide (same o x) with
      | none =>
        rw [List.find?_eq_none] at hf
        exact absurd hs (by simpa using hf x hx)
      | some y =>
        have hy := List.mem_of_find?_eq_some hf
        have hy2 : same o y := by simpa using List.find?_some hf
        rw [rep_same h hy hx (same_trans (same_symm hy2) hs)]
  · intro hn
    rw [key]
    congr 1
    rw [List.find?_eq_none]
    intro x hx
    simpa using hn x hx

theorem refsAt_insertAt {κ : Type} [DecidableEq κ] (m : Map κ RefSet) (k k' : κ) (r : Ref) :
    refsAt (insertAt m k r) k' = if k = k' then RefSet.insert (refsAt m k) r else refsAt m k' := by
  unfold insertAt
  by_cases h : k = k'
  · subst h
    rw [if_pos rfl]
    generalize RefSet.insert (refsAt m k) r = z
    unfold refsAt
    rw [Map.find_set_self]
  · rw [if_neg h]
    unfold refsAt
    rw [Map.find_set_ne _ _ h]

theorem refsAt_map {κ : Type} [DecidableEq κ] (m : Map κ RefSet) (k : κ) (r : Ref) :
    refsAt (m.map fun kv => (kv.1, RefSet.removeFirst kv.2 r)) k =
      RefSet.removeFirst (refsAt m k) r := by
  induction m with
  | nil => rfl
  | cons x m ih =>
    unfold refsAt at *
    simp only [List.map_cons, Map.find]
    by_cases h : x.1 = k
    · simp [h]
    · simpa [h] using ih

theorem mem_insert_ref (s : RefSet) (r x : Ref) :
    (x ∈ RefSet.insert s r → x ∈ s ∨ x = r) ∧ (x ∈ s → x ∈ RefSet.insert s r) ∧
    ∃ y ∈ RefSet.insert s r, y.beq r = true := by
  unfold RefSet.insert
  split
  · rename_i h
    rw [List.any_eq_true] at h
    exact ⟨Or.inl, id, h⟩
  · refine ⟨by simp, by simp +contextual, r, by simp, RefSpec.C06_equivalence.1 r⟩

theorem mem_removeFirst (s : RefSet) (r x : Ref) :
    x ∈ RefSet.removeFirst s r ↔ x ∈ s ∧ x.beq r = false := by
  unfold RefSet.removeFirst
  split
  · rename_i y hy
    have h1 : y.beq r = true := by simpa using List.find?_some hy
    unfold RefSet.erase
    simp only [List.mem_filter, Bool.not_eq_eq_eq_not, Bool.not_true]
    refine and_congr_right fun _ => ?_
    have e1 := RefSpec.C06_equivalence.2.2 x y r
    have e2 := RefSpec.C06_equivalence.2.2 x r y
    have e3 := RefSpec.C06_equivalence.2.1 y r h1
    constructor
    · intro h; by_contra hc; simp at hc; simp [e2 hc e3] at h
    · intro h; by_contra hc; simp at hc; simp [e1 hc h1] at h
  · rename_i hn
    rw [List.find?_eq_none] at hn
    constructor
    · intro h; exact ⟨h, by simpa using hn x h⟩
    · exact And.left

/-! ## The invariant -/

/-- One index lists what was registered under its keys. -/
structure Index {κ : Type} [DecidableEq κ] (m : Map κ RefSet) (reg : List (Obj × Ref))
    (at' : Obj × Ref → κ → Prop) : Prop where
  sound : ∀ k, ∀ x ∈ refsAt m k, ∃ p ∈ reg, p.1.ref = x ∧ at' p k
  complete : ∀ p ∈ reg, ∀ k, at' p k → ∃ x ∈ refsAt m k, x.beq p.1.ref = true

theorem index_nil {κ : Type} [DecidableEq κ] (at' : Obj × Ref → κ → Prop) :
    Index ([] : Map κ RefSet) [] at' :=
  ⟨fun _ _ h => by simp [refsAt] at h, fun _ h => by simp at h⟩

theorem index_insert {κ : Type} [DecidableEq κ] {m : Map κ RefSet} {reg : List (Obj × Ref)}
    {at' : Obj × Ref → κ → Prop} (h : Index m reg at') (o : Obj) (s : Ref) (k : κ) (b : Bool)
    (hk : ∀ k', at' (o, s) k' ↔ b = true ∧ k = k') :
    Index (if b then insertAt m k o.ref else m) (reg ++ [(o, s)]) at' := by
  constructor
  · intro k' x hx
    by_cases hb : b = true
    · rw [if_pos hb, refsAt_insertAt] at hx
      split at hx
      · rename_i hkk
        subst hkk
        rcases (mem_insert_ref _ _ _).1 hx with h1 | h1
        · obtain ⟨p, hp, h2⟩ := h.sound _ _ h1
          exact ⟨p, by simp [hp], h2⟩
        · exact ⟨(o, s), by simp, h1.symm, (hk k).mpr ⟨hb, rfl⟩⟩
      · obtain ⟨p, hp, h2⟩ := h.sound _ _ hx
        exact ⟨p, by simp [hp], h2⟩
    · rw [if_neg hb] at hx
      obtain ⟨p, hp, h2⟩ := h.sound _ _ hx
      exact ⟨p, by simp [hp], h2⟩
  · intro p hp k' hat
    rcases List.mem_append.mp hp with hp | hp
    · obtain ⟨x, hx, hx2⟩ := h.complete p hp k' hat
      refine ⟨x, ?_, hx2⟩
      split
      · rw [refsAt_insertAt]
        split
        · rename_i hkk; subst hkk; exact (mem_insert_ref _ _ _).2.1 hx
        · exact hx
      · exact hx
    · simp only [List.mem_singleton] at hp
      subst hp
      obtain ⟨hb, rfl⟩ := (hk k').mp hat
      rw [if_pos hb, refsAt_insertAt, if_pos rfl]
      exact (mem_insert_ref _ _ o.ref).2.2

theorem index_remove {κ : Type} [DecidableEq κ] {m : Map κ RefSet} {reg : List (Obj × Ref)}
    {at' : Obj × Ref → κ → Prop} (h : Index m reg at') (o : Obj) :
    Index (m.map fun kv => (kv.1, RefSet.removeFirst kv.2 o.ref))
      (reg.filter fun p => ¬ same p.1 o) at' := by
  constructor
  · intro k x hx
    rw [refsAt_map, mem_removeFirst] at hx
    obtain ⟨p, hp, h2, h3⟩ := h.sound _ _ hx.1
    refine ⟨p, ?_, h2, h3⟩
    have := beq_ref p.1 o
    rw [h2, hx.2] at this
    simp only [List.mem_filter, hp, true_and, decide_eq_true_eq]
    simpa using this
  · intro p hp k hat
    simp only [List.mem_filter, decide_eq_true_eq] at hp
    obtain ⟨x, hx, hx2⟩ := h.complete p hp.1 k hat
    refine ⟨x, ?_, hx2⟩
    rw [refsAt_map, mem_removeFirst]
    refine ⟨hx, ?_⟩
    by_contra hc
    simp only [Bool.not_eq_false] at hc
    exact hp.2 ((beq_ref _ _).mp
      (RefSpec.C06_equivalence.2.2 _ _ _ (RefSpec.C06_equivalence.2.1 _ _ hx2) hc))

/-- Under which keys of the index by automatic ids a registration is listed. -/
def atId (kind : Kind) (p : Obj × Ref) (k : Int) : Prop :=
  (guardRef kind p.1.ref p.2).hasId = true ∧ p.2.id = k

/-- Under which keys of the index by original ids a registration is listed. -/
def atOrig (kind : Kind) (p : Obj × Ref) (k : Nat × Int) : Prop :=
  (guardRef kind p.1.ref p.2).hasOriginalId = true ∧ (p.2.type, p.2.originalId) = k

structure Inv (U : Obj → Prop) (kind : Kind) (g : Registry) (A : Abs) : Prop where
  rep : Rep g.members A.live
  live : ∀ x ∈ A.live, U x
  reg : ∀ p ∈ A.reg, U p.1
  byId : Index g.byId A.reg (atId kind)
  byOrig : Index g.byOrig A.reg (atOrig kind)

/-- `addInto` changes the indices by `insertMember` only, and not the members. -/
theorem addInto_indices {kind : Kind} {common : Obj} {g g' : Registry} {m s : Ref} {n : Int}
    (h : addInto kind common g m s n = .ok g') :
    g'.members = g.members ∧ g'.byId = (insertMember kind g m s).byId ∧
      g'.byOrig = (insertMember kind g m s).byOrig := by
  have h1 : ∀ g1 g2 : Registry, ensureCommon common g1 s = .ok g2 →
      g2.members = g1.members ∧ g2.byId = g1.byId ∧ g2.byOrig = g1.byOrig := by
    intro g1 g2 h
    unfold ensureCommon at h
    split at h
    · cases hf : g1.sets.find common.ref with
      | ok p =>
        rw [hf] at h
        cases p with
        | some x => simp at h; subst h; exact ⟨rfl, rfl, rfl⟩
        | none =>
          cases ha : g1.sets.add common with
          | ok ss => simp [ha] at h; subst h; exact ⟨rfl, rfl, rfl⟩
          | throw => simp [ha] at h
          | ub => simp [ha] at h
          | diverges => simp [ha] at h
      | throw => rw [hf] at h; simp at h
      | ub => rw [hf] at h; simp at h
      | diverges => rw [hf] at h; simp at h
    · simp at h; subst h; exact ⟨rfl, rfl, rfl⟩
  have h2 : ∀ g1 g2 : Registry, ensureSet g1 s n = .ok g2 →
      g2.members = g1.members ∧ g2.byId = g1.byId ∧ g2.byOrig = g1.byOrig := by
    intro g1 g2 h
    unfold ensureSet at h
    cases hf : g1.sets.find s with
    | ok p =>
      rw [hf] at h
      cases p with
      | some x => simp at h; subst h; exact ⟨rfl, rfl, rfl⟩
      | none =>
        cases ha : g1.sets.add ⟨s.type, s.originalId, n, 0⟩ with
        | ok ss => simp [ha] at h; subst h; exact ⟨rfl, rfl, rfl⟩
        | throw => simp [ha] at h
        | ub => simp [ha] at h
        | diverges => simp [ha] at h
    | throw => rw [hf] at h; simp at h
    | ub => rw [hf] at h; simp at h
    | diverges => rw [hf] at h; simp at h
  unfold addInto at h
  cases hc : ensureCommon common (insertMember kind g m s) s with
  | ok g1 =>
    rw [hc] at h
    obtain ⟨e1, e2, e3⟩ := h1 _ _ hc
    have e0 : (insertMember kind g m s).members = g.members := rfl
    cases kind with
    | constraint => simp at h; subst h; exact ⟨e1.trans e0, e2, e3⟩
    | loading =>
      obtain ⟨f1, f2, f3⟩ := h2 _ _ h
      exact ⟨f1.trans (e1.trans e0), f2.trans e2, f3.trans e3⟩
    | objective =>
      obtain ⟨f1, f2, f3⟩ := h2 _ _ h
      exact ⟨f1.trans (e1.trans e0), f2.trans e2, f3.trans e3⟩
  | throw => rw [hc] at h; simp at h
  | ub => rw [hc] at h; simp at h
  | diverges => rw [hc] at h; simp at h

theorem inv_reach {U : Obj → Prop} (hU : Universe U) {kind : Kind} {common : Obj} {g : Registry}
    {A : Abs} (h : Reach U kind common g A) : Inv U kind g A := by
  induction h with
  | init =>
    exact ⟨rep_empty, by simp, by simp, index_nil _, index_nil _⟩
  | @add g A o m hr ho ha ih =>
    refine ⟨?_, ?_, ih.reg, ih.byId, ih.byOrig⟩
    · obtain ⟨h1, h2⟩ := rep_add ih.rep o (hU.2 o ho)
        (fun x hx he => hU.1 _ _ (ih.live x hx) ho he)
      by_cases ht : taken A.live o
      · rw [h1 ht] at ha; simp at ha
      · obtain ⟨c, hc, hrep⟩ := h2 ht
        rw [hc] at ha
        simp at ha
        subst ha
        exact hrep
    · intro x hx
      rcases List.mem_append.mp hx with hx | hx
      · exact ih.live x hx
      · simp at hx; subst hx; exact ho
  | addSet _ _ ih => exact ⟨ih.rep, ih.live, ih.reg, ih.byId, ih.byOrig⟩
  | @register g A o s n g' hr ho ha ih =>
    obtain ⟨e1, e2, e3⟩ := addInto_indices ha
    refine ⟨e1 ▸ ih.rep, ih.live, ?_, ?_, ?_⟩
    · intro p hp
      rcases List.mem_append.mp hp with hp | hp
      · exact ih.reg p hp
      · simp at hp; subst hp; exact ho
    · rw [e2]
      refine index_insert ih.byId o s s.id _ fun k' => ?_
      rfl
    · rw [e3]
      refine index_insert ih.byOrig o s (s.type, s.originalId) _ fun k' => ?_
      rfl
  | @remove g A o hr ho ih =>
    refine ⟨rep_erase ih.rep o ho, ?_, ?_, index_remove ih.byId o, index_remove ih.byOrig o⟩
    · intro x hx
      simp only [List.mem_filter] at hx
      exact ih.live x hx.1
    · intro p hp
      simp only [List.mem_filter] at hp
      exact ih.reg p hp.1

/-! ## Queries -/

/-- The registration is listed under the set `s`. -/
def listedAt (kind : Kind) (p : Obj × Ref) (s : Ref) : Prop :=
  atId kind p s.id ∨ atOrig kind p (s.type, s.originalId)

theorem listedAt_iff {kind : Kind} (hk : kind = .loading ∨ kind = .constraint) (p : Obj × Ref)
    (s : Ref) : listedAt kind p s ↔ denotes p.2 s := by
  have h1 : p.2.hasId = true ↔ p.2.id ≠ Ref.NO_ID := by simp [Ref.hasId]
  have h2 : p.2.hasOriginalId = true ↔ p.2.originalId ≠ Ref.NO_ID := by simp [Ref.hasOriginalId]
  unfold listedAt atId atOrig denotes
  rcases hk with rfl | rfl <;> simp only [guardRef, h1, h2, Prod.mk.injEq]

theorem listed_sound {U : Obj → Prop} {kind : Kind} {g : Registry} {A : Abs} (h : Inv U kind g A)
    (s : Ref) : ∀ x ∈ listed g s, ∃ p ∈ A.reg, p.1.ref = x ∧ listedAt kind p s := by
  intro x hx
  rcases List.mem_append.mp hx with hx | hx
  · obtain ⟨p, hp, h1, h2⟩ := h.byId.sound _ _ hx
    exact ⟨p, hp, h1, Or.inl h2⟩
  · obtain ⟨p, hp, h1, h2⟩ := h.byOrig.sound _ _ hx
    exact ⟨p, hp, h1, Or.inr h2⟩

theorem listed_complete {U : Obj → Prop} {kind : Kind} {g : Registry} {A : Abs}
    (h : Inv U kind g A) (s : Ref) (p : Obj × Ref) (hp : p ∈ A.reg) (hl : listedAt kind p s) :
    ∃ x ∈ listed g s, x.beq p.1.ref = true := by
  rcases hl with hl | hl
  · obtain ⟨x, hx, h2⟩ := h.byId.complete p hp _ hl
    exact ⟨x, List.mem_append.mpr (Or.inl hx), h2⟩
  · obtain ⟨x, hx, h2⟩ := h.byOrig.complete p hp _ hl
    exact ⟨x, List.mem_append.mpr (Or.inr hx), h2⟩

/-- Collecting references that are all found. -/
theorem collect_ok (kind : Kind) (g : Registry) (rs : List Ref) (S : List Obj)
    (hf : ∀ r ∈ rs, ∃ o, g.members.find r = .ok (some o))
    (hu : ∀ a b : Obj, (a ∈ S ∨ ∃ r ∈ rs, g.members.find r = .ok (some a)) →
      (∃ r ∈ rs, g.members.find r = .ok (some b)) → same a b → a = b) (hn : S.Nodup) :
    ∃ L : List Obj, collect kind g (S.map some) rs = .ok (L.map some) ∧ L.Nodup ∧
      ∀ o, o ∈ L ↔ o ∈ S ∨ ∃ r ∈ rs, g.members.find r = .ok (some o) := by
  induction rs generalizing S with
  | nil => exact ⟨S, rfl, hn, by simp⟩
  | cons r rs ih =>
    obtain ⟨o, ho⟩ := hf r (by simp)
    -- the insertion
    have hins : ∃ S' : List Obj, insertFound kind g (S.map some) r = .ok (S'.map some) ∧ S'.Nodup ∧
        ∀ x, x ∈ S' ↔ x ∈ S ∨ x = o := by
      have hi : insertFound kind g (S.map some) r = insertPtr (S.map some) (some o) := by
        unfold insertFound; rw [ho]; cases kind <;> rfl
      rw [hi]
      unfold insertPtr
      by_cases he : S = []
      · subst he; exact ⟨[o], by simp, by simp, by simp⟩
      · have h1 : ¬ (S.map some = []) := by simpa using he
        have h2 : (S.map some).any (fun x : Option Obj => x.isNone) = false := by simp
        simp only [h1, if_false, h2, Bool.false_eq_true]
        by_cases hin : o ∈ S
        · refine ⟨S, ?_, hn, ?_⟩
          · rw [if_pos]
            simp only [List.any_map, List.any_eq_true, Function.comp]
            exact ⟨o, hin, RefSpec.C06_equivalence.1 _⟩
          · intro x; grind
        · refine ⟨S ++ [o], ?_, ?_, ?_⟩
          · rw [if_neg]
            · simp
            · simp only [List.any_map, List.any_eq_true, Function.comp, not_exists, not_and]
              intro y hy hb
              have := hu y o (Or.inl hy) ⟨r, by simp, ho⟩ ((beq_ref y o).mp hb)
              subst this; exact hin hy
          · rw [List.nodup_append]
            refine ⟨hn, by simp, ?_⟩
            intro a ha b hb hab
            simp at hb; subst hb; subst hab; exact hin ha
          · intro x; simp
    obtain ⟨S', e1, e2, e3⟩ := hins
    obtain ⟨L, f1, f2, f3⟩ := ih S' (fun r' hr' => hf r' (by simp [hr']))
      (by
        intro a b ha hb hs
        refine hu a b ?_ ?_ hs
        · rcases ha with ha | ⟨r', hr', h'⟩
          · rcases (e3 a).mp ha with h1 | rfl
            · exact Or.inl h1
            · exact Or.inr ⟨r, by simp, ho⟩
          · exact Or.inr ⟨r', by simp [hr'], h'⟩
        · obtain ⟨r', hr', h'⟩ := hb
          exact ⟨r', by simp [hr'], h'⟩) e2
    refine ⟨L, ?_, f2, ?_⟩
    · rw [collect, e1]; exact f1
    · intro x
      rw [f3, e3]
      constructor
      · rintro ((h | rfl) | ⟨r', hr', h⟩)
        · exact Or.inl h
        · exact Or.inr ⟨r, by simp, ho⟩
        · exact Or.inr ⟨r', by simp [hr'], h⟩
      · rintro (h | ⟨r', hr', h⟩)
        · exact Or.inl (Or.inl h)
        · rcases List.mem_cons.mp hr' with rfl | hr'
          · rw [ho] at h; simp at h; exact Or.inl (Or.inr h.symm)
          · exact Or.inr ⟨r', hr', h⟩

/-- Collecting loadings one of which is not found raises an exception. -/
theorem collect_missing (g : Registry) (rs : List Ref) (S : List Obj)
    (hf : ∀ r ∈ rs, ∃ p, g.members.find r = .ok p)
    (hm : ∃ r ∈ rs, g.members.find r = .ok none) :
    collect .loading g (S.map some) rs = .throw := by
  induction rs generalizing S with
  | nil => simp at hm
  | cons r rs ih =>
    obtain ⟨p, hp⟩ := hf r (by simp)
    cases p with
    | none => rw [collect]; unfold insertFound; rw [hp]; rfl
    | some o =>
      have hm' : ∃ r ∈ rs, g.members.find r = .ok none := by
        obtain ⟨r', hr', h⟩ := hm
        rcases List.mem_cons.mp hr' with rfl | hr'
        · rw [hp] at h; simp at h
        · exact ⟨r', hr', h⟩
      have hins : ∃ S' : List Obj, insertFound .loading g (S.map some) r = .ok (S'.map some) := by
        unfold insertFound; rw [hp]
        show ∃ S' : List Obj, insertPtr (S.map some) (some o) = .ok (S'.map some)
        unfold insertPtr
        by_cases he : S = []
        · subst he; exact ⟨[o], by simp⟩
        · have h1 : ¬ (S.map some = []) := by simpa using he
          have h2 : (S.map some).any (fun x : Option Obj => x.isNone) = false := by simp
          simp only [h1, if_false, h2, Bool.false_eq_true]
          split
          · exact ⟨S, rfl⟩
          · exact ⟨S ++ [o], by simp⟩
      obtain ⟨S', e⟩ := hins
      rw [collect, e]
      exact ih S' (fun r' hr' => hf r' (by simp [hr'])) hm'

/-- Once a null pointer is in the result it stays alone or the behaviour is undefined. -/
theorem collect_none (g : Registry) (kind : Kind) (rs : List Ref)
    (hf : ∀ r ∈ rs, ∃ p, g.members.find r = .ok p) (hk : kind ≠ .loading) :
    collect kind g [none] rs = .ok [none] ∨ collect kind g [none] rs = .ub := by
  cases rs with
  | nil => exact Or.inl rfl
  | cons r rs =>
    right
    obtain ⟨p, hp⟩ := hf r (by simp)
    rw [collect]
    unfold insertFound
    rw [hp]
    cases p <;> cases kind <;> first | rfl | exact absurd rfl hk

theorem collect_missing_ub (g : Registry) (kind : Kind) (hk : kind ≠ .loading) (rs : List Ref)
    (S : List Obj) (hf : ∀ r ∈ rs, ∃ p, g.members.find r = .ok p)
    (hm : ∃ r ∈ rs, g.members.find r = .ok none) :
    collect kind g (S.map some) rs = .ok [none] ∨ collect kind g (S.map some) rs = .ub := by
  induction rs generalizing S with
  | nil => simp at hm
  | cons r rs ih =>
    obtain ⟨p, hp⟩ := hf r (by simp)
    have hf' : ∀ r ∈ rs, ∃ p, g.members.find r = .ok p := fun r' hr' => hf r' (by simp [hr'])
    have hi : insertFound kind g (S.map some) r = insertPtr (S.map some) p := by
      unfold insertFound; rw [hp]; cases p <;> cases kind <;> first | rfl | exact absurd rfl hk
    rw [collect, hi]
    cases p with
    | none =>
      unfold insertPtr
      by_cases he : S = []
      · subst he; exact collect_none g kind rs hf' hk
      · have h1 : ¬ (S.map some = []) := by simpa using he
        rw [if_neg h1]
        right; rfl
    | some o =>
      have hm' : ∃ r ∈ rs, g.members.find r = .ok none := by
        obtain ⟨r', hr', h⟩ := hm
        rcases List.mem_cons.mp hr' with rfl | hr'
        · rw [hp] at h; simp at h
        · exact ⟨r', hr', h⟩
      have hins : ∃ S' : List Obj, insertPtr (S.map some) (some o) = .ok (S'.map some) := by
        unfold insertPtr
        by_cases he : S = []
        · subst he; exact ⟨[o], by simp⟩
        · have h1 : ¬ (S.map some = []) := by simpa using he
          have h2 : (S.map some).any (fun x : Option Obj => x.isNone) = false := by simp
          simp only [h1, if_false, h2, Bool.false_eq_true]
          split
          · exact ⟨S, rfl⟩
          · exact ⟨S ++ [o], by simp⟩
      obtain ⟨S', e⟩ := hins
      rw [e]
      exact ih S' hf' hm'

theorem find_of_beq {U : Obj → Prop} {kind : Kind} {g : Registry} {A : Abs}
    (hU : Universe U) (h : Inv U kind g A) {s : Ref} {x : Ref} (hx : x ∈ listed g s) :
    ∃ p ∈ A.reg, p.1.ref = x ∧ listedAt kind p s ∧
      (∀ y, g.members.find x = .ok (some y) ↔ y ∈ A.live ∧ same p.1 y) ∧
      ((∀ y ∈ A.live, ¬ same p.1 y) → g.members.find x = .ok none) := by
  obtain ⟨p, hp, e, hl⟩ := listed_sound h s x hx
  obtain ⟨h1, h2⟩ := find_mem h.rep hU h.live (h.reg p hp)
  rw [e] at h1 h2
  exact ⟨p, hp, e, hl, h1, h2⟩

theorem membersOf_ok {U : Obj → Prop} (hU : Universe U) {kind : Kind} {g : Registry} {A : Abs}
    (h : Inv U kind g A) (s : Ref)
    (hd : ∀ p ∈ A.reg, listedAt kind p s → ∃ o ∈ A.live, same p.1 o) :
    ∃ L : List Obj, membersOf kind g s = .ok (L.map some) ∧ L.Nodup ∧
      ∀ o, o ∈ L ↔ o ∈ A.live ∧ ∃ p ∈ A.reg, same p.1 o ∧ listedAt kind p s := by
  have hfound : ∀ r ∈ listed g s, ∃ o, g.members.find r = .ok (some o) := by
    intro r hr
    obtain ⟨p, hp, _, hl, h1, _⟩ := find_of_beq hU h hr
    obtain ⟨o, ho, hs⟩ := hd p hp hl
    exact ⟨o, (h1 o).mpr ⟨ho, hs⟩⟩
  have hlive : ∀ o, (∃ r ∈ listed g s, g.members.find r = .ok (some o)) → o ∈ A.live := by
    rintro o ⟨r, hr, hf⟩
    obtain ⟨p, hp, _, hl, h1, _⟩ := find_of_beq hU h hr
    exact ((h1 o).mp hf).1
  obtain ⟨L, e1, e2, e3⟩ := collect_ok kind g (listed g s) [] hfound
    (by
      intro a b ha hb hs
      refine rep_same h.rep ?_ (hlive b hb) hs
      rcases ha with ha | ha
      · simp at ha
      · exact hlive a ha) (by simp)
  refine ⟨L, e1, e2, ?_⟩
  intro o
  rw [e3]
  constructor
  · rintro (ho | ⟨r, hr, hf⟩)
    · simp at ho
    · obtain ⟨p, hp, _, hl, h1, _⟩ := find_of_beq hU h hr
      obtain ⟨h2, h3⟩ := (h1 o).mp hf
      exact ⟨h2, p, hp, h3, hl⟩
  · rintro ⟨ho, p, hp, hs, hl⟩
    obtain ⟨x, hx, hb⟩ := listed_complete h s p hp hl
    obtain ⟨q, hq, he, _, h1, _⟩ := find_of_beq hU h hx
    right
    refine ⟨x, hx, (h1 o).mpr ⟨ho, ?_⟩⟩
    rw [← he] at hb
    exact same_trans ((beq_ref _ _).mp hb) hs

theorem membersOf_missing {U : Obj → Prop} (hU : Universe U) {kind : Kind} {g : Registry} {A : Abs}
    (h : Inv U kind g A) (s : Ref)
    (hd : ∃ p ∈ A.reg, listedAt kind p s ∧ ∀ o ∈ A.live, ¬ same p.1 o) :
    (∀ r ∈ listed g s, ∃ p, g.members.find r = .ok p) ∧
    ∃ r ∈ listed g s, g.members.find r = .ok none := by
  constructor
  · intro r hr
    obtain ⟨p, hp, _, hl, h1, h2⟩ := find_of_beq hU h hr
    by_cases hex : ∃ y ∈ A.live, same p.1 y
    · obtain ⟨y, hy, hs⟩ := hex
      exact ⟨_, (h1 y).mpr ⟨hy, hs⟩⟩
    · refine ⟨_, h2 ?_⟩
      intro y hy hs
      exact hex ⟨y, hy, hs⟩
  · obtain ⟨p, hp, hl, hno⟩ := hd
    obtain ⟨x, hx, hb⟩ := listed_complete h s p hp hl
    obtain ⟨q, hq, he, _, _, h2⟩ := find_of_beq hU h hx
    refine ⟨x, hx, h2 ?_⟩
    intro y hy hs
    rw [← he] at hb
    exact hno y hy (same_trans (same_symm ((beq_ref _ _).mp hb)) hs)

/-! ## C28 -/

/-- **C28** after every history, the loadings reported for a load set are exactly the loadings of
the model registered in it and not removed, each once; if one of them never entered the model the
query raises an exception, never something else. -/
theorem C28_membership {U : Obj → Prop} (hU : Universe U) {common : Obj} {g : Registry} {A : Abs}
    (h : Reach U .loading common g A) (s : Ref) :
    (¬ dangling A s → ∃ L : List Obj, membersOf .loading g s = .ok (L.map some) ∧ L.Nodup ∧
      ∀ o, o ∈ L ↔ belongs A s o) ∧
    (dangling A s → membersOf .loading g s = .throw) := by
  have hi := inv_reach hU h
  have hk := fun p => listedAt_iff (kind := .loading) (Or.inl rfl) p s
  constructor
  · intro hd
    obtain ⟨L, e1, e2, e3⟩ := membersOf_ok hU hi s (by
      intro p hp hl
      by_contra hc
      exact hd ⟨p, hp, (hk p).mp hl, fun o ho hs => hc ⟨o, ho, hs⟩⟩)
    refine ⟨L, e1, e2, fun o => ?_⟩
    rw [e3]
    unfold belongs
    simp only [hk]
  · rintro ⟨p, hp, hl, hno⟩
    obtain ⟨h1, h2⟩ := membersOf_missing hU hi s ⟨p, hp, (hk p).mpr hl, hno⟩
    exact collect_missing g _ [] h1 h2

/-- **C28** a removed loading belongs to no set any more. -/
theorem C28_remove {U : Obj → Prop} (hU : Universe U) {common : Obj} {g : Registry} {A : Abs}
    (h : Reach U .loading common g A) {o : Obj} (ho : o ∈ A.live) (s : Ref) {L : List (Option Obj)}
    (hL : membersOf .loading (g.remove o.ref) s = .ok L) : some o ∉ L := by
  obtain ⟨h1, h2⟩ := C28_membership hU (Reach.remove h ho) s
  by_cases hd : dangling ⟨A.live.filter (· ≠ o), A.reg.filter fun p => ¬ same p.1 o⟩ s
  · rw [h2 hd] at hL; simp at hL
  · obtain ⟨L', e1, _, e3⟩ := h1 hd
    rw [e1] at hL
    simp only [Outcome.ok.injEq] at hL
    subst hL
    simp only [List.mem_map, Option.some.injEq, exists_eq_right]
    rw [e3]
    rintro ⟨hm, _⟩
    simp at hm

/-- **C28** registering a loading under the number of a load set makes the load set exist. -/
theorem C28_set_exists {common : Obj} {g g' : Registry} {m s : Ref} {n : Int}
    (hs : s.originalId ≠ Ref.NO_ID) (h : addInto .loading common g m s n = .ok g') :
    ∃ x, g'.sets.find s = .ok (some x) := by
  unfold addInto at h
  cases hc : ensureCommon common (insertMember .loading g m s) s with
  | ok g1 =>
    rw [hc] at h
    simp only [Outcome.bind_ok] at h
    unfold ensureSet at h
    cases hf : g1.sets.find s with
    | ok p =>
      rw [hf] at h
      cases p with
      | some x => simp at h; subst h; exact ⟨x, hf⟩
      | none =>
        simp only [Outcome.bind_ok] at h
        have hadd : g1.sets.add ⟨s.type, s.originalId, n, 0⟩ =
            .ok ⟨g1.sets.byId.set n ⟨s.type, s.originalId, n, 0⟩,
              g1.sets.byOrig.set (s.type, s.originalId) ⟨s.type, s.originalId, n, 0⟩⟩ := by
          have hf' : g1.sets.find (⟨s.type, s.originalId, n, 0⟩ : Obj).ref = .ok none := by
            rw [ref_eq, ← hf]
            unfold Container.find
            simp [Ref.hasOriginalId, hs]
          unfold Container.add
          rw [hf']
          simp [Obj.isOriginal, hs]
        rw [hadd] at h
        simp at h
        subst h
        refine ⟨⟨s.type, s.originalId, n, 0⟩, ?_⟩
        unfold Container.find
        simp [Ref.hasOriginalId, hs]
    | throw => rw [hf] at h; simp at h
    | ub => rw [hf] at h; simp at h
    | diverges => rw [hf] at h; simp at h
  | throw => rw [hc] at h; simp at h
  | ub => rw [hc] at h; simp at h
  | diverges => rw [hc] at h; simp at h

/-! ## C29 -/

/-- **C29** after every history, the constraints reported for a constraint set are exactly the
constraints of the model registered in it and not removed, each once. -/
theorem C29_membership {U : Obj → Prop} (hU : Universe U) {common : Obj} {g : Registry} {A : Abs}
    (h : Reach U .constraint common g A) (s : Ref) (hd : ¬ dangling A s) :
    ∃ L : List Obj, membersOf .constraint g s = .ok (L.map some) ∧ L.Nodup ∧
      ∀ o, o ∈ L ↔ belongs A s o := by
  have hi := inv_reach hU h
  have hk := fun p => listedAt_iff (kind := .constraint) (Or.inr rfl) p s
  obtain ⟨L, e1, e2, e3⟩ := membersOf_ok hU hi s (by
    intro p hp hl
    by_contra hc
    exact hd ⟨p, hp, (hk p).mp hl, fun o ho hs => hc ⟨o, ho, hs⟩⟩)
  refine ⟨L, e1, e2, fun o => ?_⟩
  rw [e3]
  unfold belongs
  simp only [hk]

theorem searchPtr_map (r : Ref) (L : List Obj) :
    searchPtr r (L.map some) = .ok (L.any fun o => o.ref.beq r) := by
  induction L with
  | nil => rfl
  | cons x L ih =>
    simp only [List.map_cons, searchPtr, List.any_cons]
    by_cases h : x.ref.beq r = true
    · simp [h]
    · simp [h, ih]

/-- **C29** the two queries are views of one relation: a constraint set of the model is reported
for a constraint iff the constraint is reported for the set. -/
theorem C29_views {U : Obj → Prop} (hU : Universe U) {common : Obj} {g : Registry} {A : Abs}
    (h : Reach U .constraint common g A) (hd : ∀ s ∈ g.sets.objects, ¬ dangling A s.ref)
    {o : Obj} (ho : o ∈ A.live) :
    ∃ S : List Obj, setsOf g o.ref = .ok S ∧
      ∀ s, s ∈ S ↔ s ∈ g.sets.objects ∧
        ∃ L : List (Option Obj), membersOf .constraint g s.ref = .ok L ∧ some o ∈ L := by
  unfold setsOf
  generalize g.sets.objects = l at *
  induction l with
  | nil => exact ⟨[], rfl, by simp⟩
  | cons x l ih =>
    obtain ⟨S, e1, e2⟩ := ih (fun s hs => hd s (by simp [hs]))
    obtain ⟨L, f1, _, f3⟩ := C29_membership hU h x.ref (hd x (by simp))
    have hany : (L.any fun y => y.ref.beq o.ref) = true ↔ o ∈ L := by
      simp only [List.any_eq_true, beq_ref]
      constructor
      · rintro ⟨y, hy, hs⟩
        have := rep_same (inv_reach hU h).rep ((f3 y).mp hy).1 ho hs
        subst this; exact hy
      · intro hm; exact ⟨o, hm, same_refl o⟩
    refine ⟨if (L.any fun y => y.ref.beq o.ref) then x :: S else S, ?_, ?_⟩
    · rw [setsLoop, f1]
      simp only [Outcome.bind_ok, searchPtr_map, e1]
    · intro s
      have hx : (∃ L : List (Option Obj), membersOf .constraint g x.ref = .ok L ∧ some o ∈ L) ↔
          o ∈ L := by
        rw [f1]
        simp
      by_cases hin : o ∈ L
      · rw [if_pos (hany.mpr hin)]
        simp only [List.mem_cons]
        constructor
        · rintro (rfl | hs)
          · exact ⟨Or.inl rfl, hx.mpr hin⟩
          · exact ⟨Or.inr ((e2 s).mp hs).1, ((e2 s).mp hs).2⟩
        · rintro ⟨rfl | hs, h2⟩
          · exact Or.inl rfl
          · exact Or.inr ((e2 s).mpr ⟨hs, h2⟩)
      · rw [if_neg (fun hc => hin (hany.mp hc))]
        rw [e2]
        simp only [List.mem_cons]
        constructor
        · rintro ⟨hs, h2⟩
          exact ⟨Or.inr hs, h2⟩
        · rintro ⟨rfl | hs, h2⟩
          · exact absurd (hx.mp h2) hin
          · exact ⟨hs, h2⟩

/-- Refutation of "the constraints registered": when a registered constraint is not in the model
the query yields a null pointer alone or undefined behaviour, where the query for loadings raises
an exception. -/
theorem C29_dangling_false {U : Obj → Prop} (hU : Universe U) {common : Obj} {g : Registry}
    {A : Abs} (h : Reach U .constraint common g A) (s : Ref) (hd : dangling A s) :
    membersOf .constraint g s = .ok [none] ∨ membersOf .constraint g s = .ub := by
  obtain ⟨p, hp, hl, hno⟩ := hd
  obtain ⟨h1, h2⟩ := membersOf_missing hU (inv_reach hU h) s
    ⟨p, hp, (listedAt_iff (Or.inr rfl) p s).mpr hl, hno⟩
  exact collect_missing_ub g .constraint (by decide) _ [] h1 h2

/-! ### Concrete histories -/

/-- Two members (a numbered one and an automatic one) and two sets. -/
def exA : Obj := ⟨1, 10, 1, 0⟩
def exB : Obj := ⟨1, Ref.NO_ID, 2, 0⟩
def exS : Obj := ⟨0, 7, 1, 0⟩
def exT : Obj := ⟨0, Ref.NO_ID, 2, 0⟩
def exCommon : Obj := ⟨3, 0, 50, 0⟩

/-- Unwrap a computation in an example. -/
def ofOk {α : Type} [Inhabited α] : Outcome α → α
  | .ok a => a
  | _ => default

instance : Inhabited Registry := ⟨Registry.empty⟩
instance : Inhabited Container := ⟨Container.empty⟩

def exU (o : Obj) : Prop := o = exA ∨ o = exB

theorem exU_universe : Universe exU := by
  constructor
  · rintro a b (rfl | rfl) (rfl | rfl) h <;> first | rfl | (revert h; decide)
  · rintro a (rfl | rfl) <;> decide

/-- Both members registered in `exS` (A through the number only) before being added. -/
def exG1 (kind : Kind) : Registry :=
  ofOk (addInto kind exCommon .empty exA.ref ⟨0, 7, Ref.NO_ID⟩ 1)
def exG2 (kind : Kind) : Registry := ofOk (addInto kind exCommon (exG1 kind) exB.ref ⟨0, 7, 1⟩ 9)
def exG3 (kind : Kind) : Registry :=
  { exG2 kind with members := ofOk ((exG2 kind).members.add exA) }
def exG (kind : Kind) : Registry :=
  { exG3 kind with members := ofOk ((exG3 kind).members.add exB) }

def exAbs : Abs := ⟨[exA, exB], [(exA, ⟨0, 7, Ref.NO_ID⟩), (exB, ⟨0, 7, 1⟩)]⟩

theorem exG_reach (kind : Kind) : Reach exU kind exCommon (exG kind) exAbs := by
  have h1 : Reach exU kind exCommon (exG1 kind) ⟨[], [] ++ [(exA, ⟨0, 7, Ref.NO_ID⟩)]⟩ :=
    Reach.register (newId := 1) Reach.init (Or.inl rfl) (by cases kind <;> decide +kernel)
  have h2 : Reach exU kind exCommon (exG2 kind) 
      ⟨[], [(exA, ⟨0, 7, Ref.NO_ID⟩)] ++ [(exB, ⟨0, 7, 1⟩)]⟩ :=
    Reach.register (newId := 9) h1 (Or.inr rfl) (by cases kind <;> decide +kernel)
  have h3 : Reach exU kind exCommon (exG3 kind) 
      ⟨[] ++ [exA], [(exA, ⟨0, 7, Ref.NO_ID⟩)] ++ [(exB, ⟨0, 7, 1⟩)]⟩ :=
    Reach.add h2 (Or.inl rfl) (by cases kind <;> decide +kernel)
  exact Reach.add h3 (Or.inr rfl) (by cases kind <;> decide +kernel)

-- the hypotheses of C28/C29 on a non-trivial history
example : ¬ dangling exAbs ⟨0, 7, 1⟩ := by
  rintro ⟨p, hp, _, hno⟩
  simp only [exAbs, List.mem_cons, List.not_mem_nil, or_false] at hp
  rcases hp with rfl | rfl
  · exact hno exA (by simp [exAbs]) (same_refl _)
  · exact hno exB (by simp [exAbs]) (same_refl _)
example : membersOf .loading (exG .loading) ⟨0, 7, 1⟩ = .ok [some exB, some exA] := by
  decide +kernel
example : membersOf .loading ((exG .loading).remove exA.ref) ⟨0, 7, 1⟩ = .ok [some exB] := by
  decide +kernel


-- C29 on the same history: a constraint set is a set of the model once added
def exH : Registry := { exG .constraint with sets := ofOk ((exG .constraint).sets.add exS) }
example : Reach exU .constraint exCommon exH exAbs :=
  Reach.addSet (s := exS) (exG_reach .constraint) (by decide +kernel)
example : exH.sets.objects = [exS] ∧ setsOf exH exB.ref = .ok [exS] := by decide +kernel

/-- Refutation for `remove(constraint, constraintSet)`: a constraint registered in two sets and
removed from one is dropped from the model, and asking for the members of the other set is then
undefined behaviour (the null pointer found for it is compared). -/
theorem C29_remove_from_one_set_false :
    ∃ (U : Obj → Prop) (common : Obj) (g : Registry) (A : Abs) (s t : Ref) (o : Obj),
      Universe U ∧ Reach U .constraint common g A ∧ o ∈ A.live ∧ ¬ denotes s t ∧ ¬ denotes t s ∧
      membersOf .constraint g s = .ok [some o] ∧ membersOf .constraint g t = .ok [some o] ∧
      membersOf .constraint (g.removeFrom o.ref s) s = .ok [] ∧
      membersOf .constraint (g.removeFrom o.ref s) t = .ub := by
  have h1 : Reach exU .constraint exCommon
      (ofOk (addInto .constraint exCommon .empty exA.ref ⟨0, 7, 1⟩ 0))
      ⟨[], [] ++ [(exA, ⟨0, 7, 1⟩)]⟩ :=
    Reach.register (newId := 0) Reach.init (Or.inl rfl) (by decide +kernel)
  have h2 : Reach exU .constraint exCommon
      (ofOk (addInto .constraint exCommon
        (ofOk (addInto .constraint exCommon .empty exA.ref ⟨0, 7, 1⟩ 0)) exA.ref ⟨0, 8, 2⟩ 0))
      ⟨[], [(exA, ⟨0, 7, 1⟩)] ++ [(exA, ⟨0, 8, 2⟩)]⟩ :=
    Reach.register (newId := 0) h1 (Or.inl rfl) (by decide +kernel)
  have h3 := Reach.add (o := exA) h2 (Or.inl rfl) (m := ofOk (Container.empty.add exA))
    (by decide +kernel)
  refine ⟨exU, exCommon, _, _, ⟨0, 7, 1⟩, ⟨0, 8, 2⟩, exA, exU_universe, h3, by simp, ?_, ?_, ?_⟩
  · unfold denotes; decide
  · unfold denotes; decide
  · decide +kernel

/-! ## C58: objective sets -/

/-- **C58** objectives in numbered objective sets: if every registration and the query use the
full reference of a numbered set (as `getReference` gives), the objectives reported are exactly
those of the model registered in the set and not removed. Missing: references by number only, and
sets without number (refuted below). -/
theorem C58_membership_partial {U : Obj → Prop} (hU : Universe U) {common : Obj} {g : Registry}
    {A : Abs} (h : Reach U .objective common g A) (s : Ref) (hd : ¬ dangling A s)
    (hs : s.originalId ≠ Ref.NO_ID)
    (hreg : ∀ p ∈ A.reg, p.2.id ≠ Ref.NO_ID ∧ p.2.originalId ≠ Ref.NO_ID ∧
      (p.2.id = s.id ↔ p.2.type = s.type ∧ p.2.originalId = s.originalId)) :
    ∃ L : List Obj, membersOf .objective g s = .ok (L.map some) ∧ L.Nodup ∧
      ∀ o, o ∈ L ↔ belongs A s o := by
  have hi := inv_reach hU h
  have hk : ∀ p ∈ A.reg, listedAt .objective p s ↔ denotes p.2 s := by
    intro p hp
    obtain ⟨h1, h2, h3⟩ := hreg p hp
    have h4 : p.1.ref.hasId = true := by
      simp only [Ref.hasId, ref_eq, decide_eq_true_eq]
      exact hU.2 _ (hi.reg p hp)
    unfold listedAt atId atOrig denotes
    simp only [guardRef, h4, true_and, Prod.mk.injEq]
    tauto
  obtain ⟨L, e1, e2, e3⟩ := membersOf_ok hU hi s (by
    intro p hp hl
    by_contra hc
    exact hd ⟨p, hp, (hk p hp).mp hl, fun o ho hs => hc ⟨o, ho, hs⟩⟩)
  refine ⟨L, e1, e2, fun o => ?_⟩
  rw [e3]
  unfold belongs
  constructor
  · rintro ⟨ho, p, hp, h1, h2⟩; exact ⟨ho, p, hp, h1, (hk p hp).mp h2⟩
  · rintro ⟨ho, p, hp, h1, h2⟩; exact ⟨ho, p, hp, h1, (hk p hp).mpr h2⟩

/-- Refutation: an objective without number, registered in set number 7 of the model, is not found
when the set is asked for by its number (as `ObjectiveSet::getObjectives` does for combined
sets): the code tests the ids of the objective instead of those of the set. -/
theorem C58_by_number_false :
    ∃ (U : Obj → Prop) (common : Obj) (g : Registry) (A : Abs) (s : Ref) (o : Obj),
      Universe U ∧ Reach U .objective common g A ∧ belongs A s o ∧
      membersOf .objective g s = .ok [] := by
  have h1 : Reach exU .objective exCommon
      (ofOk (addInto .objective exCommon .empty exB.ref ⟨0, 7, 1⟩ 1))
      ⟨[], [] ++ [(exB, ⟨0, 7, 1⟩)]⟩ :=
    Reach.register (newId := 1) Reach.init (Or.inr rfl) (by decide +kernel)
  have h2 := Reach.add (o := exB) h1 (Or.inr rfl) (m := ofOk (Container.empty.add exB))
    (by decide +kernel)
  refine ⟨exU, exCommon, _, _, ⟨0, 7, Ref.NO_ID⟩, exB, exU_universe, h2,
    ⟨by simp, _, List.mem_singleton.mpr rfl, same_refl _, Or.inr (by decide)⟩, ?_⟩
  decide +kernel

/-- Refutation: a numbered objective registered in an objective set without number is also reported
for every other objective set without number of the same type. -/
theorem C58_mixing_false :
    ∃ (U : Obj → Prop) (common : Obj) (g : Registry) (A : Abs) (s t : Ref) (o : Obj),
      Universe U ∧ Reach U .objective common g A ∧ A.reg = [(o, s)] ∧ ¬ denotes s t ∧
      membersOf .objective g t = .ok [some o] := by
  have h0 : Reach exU .objective exCommon
      { Registry.empty with sets := ofOk (Container.empty.add exT) } ⟨[], []⟩ :=
    Reach.addSet (s := exT) Reach.init (by decide +kernel)
  have h1 : Reach exU .objective exCommon
      (ofOk (addInto .objective exCommon
        { Registry.empty with sets := ofOk (Container.empty.add exT) } exA.ref exT.ref 5))
      ⟨[], [] ++ [(exA, exT.ref)]⟩ :=
    Reach.register (newId := 5) h0 (Or.inl rfl) (by decide +kernel)
  have h2 := Reach.add (o := exA) h1 (Or.inl rfl) (m := ofOk (Container.empty.add exA))
    (by decide +kernel)
  refine ⟨exU, exCommon, _, _, exT.ref, ⟨0, Ref.NO_ID, 3⟩, exA, exU_universe, h2, rfl, ?_, ?_⟩
  · unfold denotes; decide
  · decide +kernel

-- C58_membership_partial on a history with two objectives in one set
example : membersOf .objective (exG .objective) ⟨0, 7, 1⟩ = .ok [some exB, some exA] := by
  decide +kernel

end Vega.SetSpec
