import Verif.Constraint.Imposed
import Verif.Constraint.RedundantProps

/-!
# Imposed displacements on fixed degrees of freedom (C59)
-/
namespace Vega.RedundantSpec
open SpcModel

/-- Some imposed displacement of the list moves the degree of freedom. -/
def Imposed (imp : List (Nat × Dofs)) (n : Nat) (d : Dof) : Prop :=
  ∃ p ∈ imp, p.1 = n ∧ p.2.contains d = true

/-- No node occurs in two imposed displacements. -/
def OnceEach (imp : List (Nat × Dofs)) : Prop := (imp.map Prod.fst).Nodup

theorem imposedAt_fold (imp : List (Nat × Dofs)) (n : Nat) (D : Dofs)
    (h : n ∉ imp.map Prod.fst) :
    imp.foldl (fun D p => if p.1 = n then p.2 else D) D = D := by
  induction imp generalizing D with
  | nil => rfl
  | cons p imp ih =>
    simp only [List.map_cons, List.mem_cons, not_or] at h
    rw [List.foldl_cons, if_neg (fun hc => h.1 hc.symm)]
    exact ih D h.2

theorem imposedAt_spec (imp : List (Nat × Dofs)) (h : OnceEach imp) (n : Nat) (d : Dof) :
    (imposedAt imp n).contains d = true ↔ Imposed imp n d := by
  unfold imposedAt
  have : ∀ D : Dofs, ((imp.foldl (fun D p => if p.1 = n then p.2 else D) D).contains d = true ↔
      Imposed imp n d ∨ (n ∉ imp.map Prod.fst ∧ D.contains d = true)) := by
    unfold OnceEach at h
    induction imp with
    | nil => intro D; simp [Imposed]
    | cons p imp ih =>
      intro D
      rw [List.map_cons, List.nodup_cons] at h
      rw [List.foldl_cons]
      by_cases hp : p.1 = n
      · rw [if_pos hp, imposedAt_fold _ _ _ (hp ▸ h.1)]
        constructor
        · intro hd
          exact Or.inl ⟨p, by simp, hp, hd⟩
        · rintro (⟨q, hq, h1, h2⟩ | ⟨h1, _⟩)
          · rcases List.mem_cons.mp hq with rfl | hq
            · exact h2
            · exact absurd (List.mem_map.mpr ⟨q, hq, h1.trans hp.symm⟩) h.1
          · exact absurd (by simp [hp]) h1
      · rw [if_neg hp, ih h.2]
        have e1 : Imposed (p :: imp) n d ↔ Imposed imp n d := by
          constructor
          · rintro ⟨q, hq, h1, h2⟩
            rcases List.mem_cons.mp hq with rfl | hq
            · exact absurd h1 hp
            · exact ⟨q, hq, h1, h2⟩
          · rintro ⟨q, hq, h1, h2⟩
            exact ⟨q, by simp [hq], h1, h2⟩
        have e2 : (n ∉ (p :: imp).map Prod.fst) ↔ n ∉ imp.map Prod.fst := by
          simp only [List.map_cons, List.mem_cons, not_or]
          exact ⟨fun h => h.2, fun h => ⟨fun hc => hp hc.symm, h⟩⟩
        rw [e1, e2]
  rw [this, Dofs.contains_noDofs]
  simp

/-- The SPC holds no degree of freedom of `I`. -/
def Clean (I : Nat → Dof → Prop) (m : SpcModel) (t : Nat) : Prop :=
  ∀ n ∈ m.nodes t, ∀ d x, (m.spc t).getDoubleForDOF d = .ok x → ¬ I n d

/-- The hypotheses. -/
structure Fit (m : SpcModel) : Prop where
  wf : WF m
  plain : Plain m
  numeric : ∀ S, ∀ t ∈ m.members S, Numeric (m.spc t)

theorem fit_removed {m : SpcModel} (hg : Fit m) {a s n : Nat} {D : Dofs} {m' : SpcModel}
    {r o : Option Nat} (h : Removed m a s n D m' r o) : Fit m' := by
  refine ⟨wf_removed hg.wf h, ?_, ?_⟩
  · unfold Plain
    rw [h.analyses, h.includes]
    exact hg.plain
  · intro S t ht
    by_cases hS : S < m.nextSet
    · rw [h.membersOld S hS] at ht
      rcases ht with ht | ⟨hr, _⟩
      · rw [h.spcOld t (hg.wf.ids S t ht)]
        exact hg.numeric S t ht
      · exact (h.rem t hr).2.1
    · rw [h.membersNew S (by omega)] at ht
      exact (h.oth t ht.2).2.1

/-- The walk for analysis `a`. `ss` are the SPCs, `ns` the nodes of the SPC `s` being visited. -/
structure ImpWalk (m0 : SpcModel) (a : Nat) (I : Nat → Dof → Prop) (m : SpcModel) : Prop where
  fit : Fit m
  analyses : m.analyses = m0.analyses
  sets : m.constraintSets a = m0.constraintSets a
  next : m0.next ≤ m.next
  only : ∀ n d x, held m a n d x → held m0 a n d x
  keep : ∀ n d x, held m0 a n d x → ¬ I n d → held m a n d x
  others : ∀ b ∈ m0.analyses, b ≠ a → ∀ n d x, held m b n d x ↔ held m0 b n d x

/-- What a step does to the SPCs: nothing becomes unclean, sets receive clean SPCs only. -/
structure Cleaner (a : Nat) (I : Nat → Dof → Prop) (m m' : SpcModel) : Prop where
  next : m.next ≤ m'.next
  spc : ∀ t, t < m.next → m'.spc t = m.spc t
  nodes : ∀ t, t < m.next → ∀ n ∈ m'.nodes t, n ∈ m.nodes t
  sets : ∀ S ∈ m.constraintSets a, ∀ t, inSet m' S t → inSet m S t ∨ (Clean I m' t ∧ m.next ≤ t ∧ t < m'.next)
  sup : ∀ S ∈ m.constraintSets a, ∀ t, inSet m S t → inSet m' S t

theorem Cleaner.refl (a : Nat) (I : Nat → Dof → Prop) (m : SpcModel) : Cleaner a I m m :=
  ⟨le_refl _, fun _ _ => rfl, fun _ _ _ h => h, fun _ _ _ h => Or.inl h, fun _ _ _ h => h⟩

theorem Cleaner.clean {a : Nat} {I : Nat → Dof → Prop} {m m' : SpcModel} (c : Cleaner a I m m')
    {t : Nat} (ht : t < m.next) (h : Clean I m t) : Clean I m' t := by
  intro n hn d x hx
  rw [c.spc t ht] at hx
  exact h n (c.nodes t ht n hn) d x hx

theorem Cleaner.trans {a : Nat} {I : Nat → Dof → Prop} {m m' m'' : SpcModel} (h : Cleaner a I m m')
    (h' : Cleaner a I m' m'') (hs : m'.constraintSets a = m.constraintSets a) : Cleaner a I m m'' := by
  refine ⟨h.next.trans h'.next, ?_, ?_, ?_, ?_⟩
  · intro t ht
    rw [h'.spc t (lt_of_lt_of_le ht h.next), h.spc t ht]
  · intro t ht n hn
    exact h.nodes t ht n (h'.nodes t (lt_of_lt_of_le ht h.next) n hn)
  · intro S hS t ht
    rcases h'.sets S (by rw [hs]; exact hS) t ht with h1 | ⟨h1, h2, h3⟩
    · rcases h.sets S hS t h1 with h2 | ⟨h2, h3, h4⟩
      · exact Or.inl h2
      · exact Or.inr ⟨h'.clean h4 h2, h3, lt_of_lt_of_le h4 h'.next⟩
    · exact Or.inr ⟨h1, h.next.trans h2, h3⟩
  · intro S hS t ht
    exact h'.sup S (by rw [hs]; exact hS) t (h.sup S hS t ht)

theorem inSet_uses {m : SpcModel} {a S t : Nat} (hS : S ∈ m.constraintSets a) (h : inSet m S t) :
    uses m a t := ⟨S, hS, h⟩

theorem numeric_uses {m : SpcModel} (hg : Fit m) {a t : Nat} (h : uses m a t) :
    Numeric (m.spc t) := by
  obtain ⟨S, _, h | ⟨T, _, h⟩⟩ := h
  · exact hg.numeric S t h
  · exact hg.numeric T t h

/-- One node of one SPC. -/
theorem impStep {m0 : SpcModel} {a : Nat} (ha : a ∈ m0.analyses) (imp : List (Nat × Dofs))
    (m : SpcModel) (w : ImpWalk m0 a (fun n d => (imposedAt imp n).contains d = true) m) (s n : Nat)
    (hu : uses m a s) (hn : n ∈ m.nodes s) :
    ∃ m', m.removeIfAny a s n ((imposedAt imp n).inter ((m.spc s).getDOFSForNode n)) = .ok m' ∧
      ImpWalk m0 a (fun n d => (imposedAt imp n).contains d = true) m' ∧
      Cleaner a (fun n d => (imposedAt imp n).contains d = true) m m' ∧
      (∀ k ∈ m.nodes s, k ≠ n → k ∈ m'.nodes s) ∧
      (n ∈ m'.nodes s → ∀ d x, (m'.spc s).getDoubleForDOF d = .ok x →
        ¬ (imposedAt imp n).contains d = true) := by
  have ha' : a ∈ m.analyses := by rw [w.analyses]; exact ha
  have hs : s < m.next := uses_lt w.fit.wf hu
  unfold removeIfAny
  by_cases he : ((imposedAt imp n).inter ((m.spc s).getDOFSForNode n)).empty = true
  · rw [if_pos he]
    refine ⟨m, rfl, w, Cleaner.refl _ _ _, fun k hk _ => hk, ?_⟩
    intro _ d x hx hc
    have := not_contains_of_empty he d
    rw [Dofs.contains_inter, hc, contains_of_double hx n] at this
    simp at this
  · rw [if_neg he]
    obtain ⟨m', r, o, e, h⟩ := removeSPCNodeDofs_ok m w.fit.wf a s n _ ha' hs hn (numeric_uses w.fit hu)
      (fun d hd => by
        rw [Dofs.contains_inter] at hd
        simp only [Bool.and_eq_true] at hd
        exact hd.2)
    have hcs : m'.constraintSets a = m.constraintSets a := by
      unfold constraintSets
      rw [h.common, h.refsOwn]
    refine ⟨m', e, ⟨fit_removed w.fit h, h.analyses.trans w.analyses, hcs.trans w.sets,
      w.next.trans h.next, ?_, ?_, ?_⟩, ⟨h.next, h.spcOld, ?_, ?_, ?_⟩, ?_, ?_⟩
    · intro k d x hx
      obtain ⟨t, h1, _⟩ := (held_removed_own w.fit.wf h hn ha' hs k d x).mp hx
      exact w.only k d x ⟨t, h1⟩
    · intro k d x hx hI
      obtain ⟨t, ht⟩ := w.keep k d x hx hI
      refine (held_removed_own w.fit.wf h hn ha' hs k d x).mpr ⟨t, ht, ?_⟩
      rintro ⟨_, rfl, hc⟩
      rw [Dofs.contains_inter] at hc
      simp only [Bool.and_eq_true] at hc
      exact hI hc.1
    · intro b hb hba k d x
      have hb' : b ∈ m.analyses := by rw [w.analyses]; exact hb
      rw [held_removed_other w.fit.wf w.fit.plain h hn ha' hs hb' hba]
      exact w.others b hb hba k d x
    · intro t ht k hk
      by_cases hts : t = s
      · subst hts
        rw [h.nodesSelf] at hk
        exact hk.1
      · rwa [h.nodesOld t ht hts] at hk
    · intro S hS t ht
      have hSl := w.fit.wf.refs a S hS
      unfold inSet at ht
      rw [inSet_removed w.fit.wf h S hSl] at ht
      rcases ht with ht | ⟨hr, _⟩
      · exact Or.inl ht
      · right
        obtain ⟨p1, -, p3⟩ := h.rem t hr
        refine ⟨?_, h.fresh.1 t hr⟩
        intro k hk d x hx hI
        rw [p1] at hk
        simp at hk
        subst hk
        rw [p3] at hx
        have := hx.1
        rw [Dofs.contains_inter, hI, contains_of_double hx.2 k] at this
        simp at this
    · intro S hS t ht
      have hSl := w.fit.wf.refs a S hS
      unfold inSet
      rw [inSet_removed w.fit.wf h S hSl]
      exact Or.inl ht
    · intro k hk hkn
      rw [h.nodesSelf]
      exact ⟨hk, hkn⟩
    · intro hc
      rw [h.nodesSelf] at hc
      exact absurd rfl hc.2

/-- All nodes of one SPC. -/
theorem impNodes {m0 : SpcModel} {a : Nat} (ha : a ∈ m0.analyses) (imp : List (Nat × Dofs)) (s S : Nat)
    (hS : S ∈ m0.constraintSets a) (ns : List Nat) (hns : ns.Nodup) (m : SpcModel)
    (w : ImpWalk m0 a (fun n d => (imposedAt imp n).contains d = true) m) (hin : inSet m S s)
    (hsub : ∀ n ∈ ns, n ∈ m.nodes s)
    (hrest : ∀ n ∈ m.nodes s, n ∉ ns → ∀ d x, (m.spc s).getDoubleForDOF d = .ok x →
      ¬ (imposedAt imp n).contains d = true) :
    ∃ m', impNodeLoop imp a s ns m = .ok m' ∧
      ImpWalk m0 a (fun n d => (imposedAt imp n).contains d = true) m' ∧
      Cleaner a (fun n d => (imposedAt imp n).contains d = true) m m' ∧
      Clean (fun n d => (imposedAt imp n).contains d = true) m' s := by
  induction ns generalizing m with
  | nil => exact ⟨m, rfl, w, Cleaner.refl _ _ _, fun n hn => hrest n hn (by simp)⟩
  | cons n ns ih =>
    rw [List.nodup_cons] at hns
    have hS' : S ∈ m.constraintSets a := by rw [w.sets]; exact hS
    have hu := inSet_uses hS' hin
    have hs : s < m.next := uses_lt w.fit.wf hu
    obtain ⟨m1, e1, w1, c1, k1, n1⟩ := impStep ha imp m w s n hu (hsub n (by simp))
    obtain ⟨m2, e2, w2, c2, cl2⟩ := ih hns.2 m1 w1 (c1.sup S hS' s hin)
      (fun k hk => k1 k (hsub k (by simp [hk])) (fun hc => hns.1 (hc ▸ hk)))
      (by
        intro k hk hkn d x hx
        by_cases hkk : k = n
        · subst hkk; exact n1 hk d x hx
        · rw [c1.spc s hs] at hx
          exact hrest k (c1.nodes s hs k hk) (by simp [hkk, hkn]) d x hx)
    refine ⟨m2, ?_, w2, c1.trans c2 (w1.sets.trans w.sets.symm), cl2⟩
    rw [impNodeLoop, e1]; exact e2

/-- The SPCs of a set. -/
theorem impSpcs (e : Enum) {m0 : SpcModel} {a : Nat} (ha : a ∈ m0.analyses) (imp : List (Nat × Dofs))
    (S : Nat) (hS : S ∈ m0.constraintSets a) (ss : List Nat) (m : SpcModel)
    (w : ImpWalk m0 a (fun n d => (imposedAt imp n).contains d = true) m)
    (hin : ∀ s ∈ ss, inSet m S s)
    (hrest : ∀ t, inSet m S t → t ∉ ss → Clean (fun n d => (imposedAt imp n).contains d = true) m t) :
    ∃ m', impSpcLoop e imp a ss m = .ok m' ∧
      ImpWalk m0 a (fun n d => (imposedAt imp n).contains d = true) m' ∧
      Cleaner a (fun n d => (imposedAt imp n).contains d = true) m m' ∧
      ∀ t, inSet m' S t → Clean (fun n d => (imposedAt imp n).contains d = true) m' t := by
  induction ss generalizing m with
  | nil => exact ⟨m, rfl, w, Cleaner.refl _ _ _, fun t ht => hrest t ht (by simp)⟩
  | cons s ss ih =>
    have hS' : S ∈ m.constraintSets a := by rw [w.sets]; exact hS
    have hlt : ∀ t, inSet m S t → t < m.next := fun t ht => uses_lt w.fit.wf (inSet_uses hS' ht)
    have hnp : ∀ k, k ∈ m.nodePositions e s ↔ k ∈ m.nodes s := by
      intro k
      unfold nodePositions
      rw [e.mem, w.fit.wf.groups, List.append_nil]
    obtain ⟨m1, e1, w1, c1, cl1⟩ := impNodes ha imp s S hS (m.nodePositions e s) (e.nodup _) m w
      (hin s (by simp)) (fun n hn => (hnp n).mp hn) (fun n hn hc => absurd ((hnp n).mpr hn) hc)
    obtain ⟨m2, e2, w2, c2, cl2⟩ := ih m1 w1 (fun t ht => c1.sup S hS' t (hin t (by simp [ht])))
      (by
        intro t ht hts
        rcases c1.sets S hS' t ht with h | ⟨h, _, _⟩
        · by_cases h' : t = s
          · subst h'; exact cl1
          · exact c1.clean (hlt t h) (hrest t h (by simp [h', hts]))
        · exact h)
    refine ⟨m2, ?_, w2, c1.trans c2 (w1.sets.trans w.sets.symm), cl2⟩
    rw [impSpcLoop, e1]; exact e2

/-- The sets of the analysis. -/
theorem impSets (e : Enum) {m0 : SpcModel} {a : Nat} (ha : a ∈ m0.analyses) (imp : List (Nat × Dofs))
    (Ss : List Nat) (hSs : ∀ S ∈ Ss, S ∈ m0.constraintSets a) (m : SpcModel)
    (w : ImpWalk m0 a (fun n d => (imposedAt imp n).contains d = true) m)
    (hrest : ∀ S ∈ m0.constraintSets a, S ∉ Ss → ∀ t, inSet m S t →
      Clean (fun n d => (imposedAt imp n).contains d = true) m t) :
    ∃ m', impSetLoop e imp a Ss m = .ok m' ∧
      ImpWalk m0 a (fun n d => (imposedAt imp n).contains d = true) m' ∧
      ∀ S ∈ m0.constraintSets a, ∀ t, inSet m' S t →
        Clean (fun n d => (imposedAt imp n).contains d = true) m' t := by
  induction Ss generalizing m with
  | nil => exact ⟨m, rfl, w, fun S hS => hrest S hS (by simp)⟩
  | cons S Ss ih =>
    have hS := hSs S (by simp)
    obtain ⟨m1, e1, w1, c1, cl1⟩ := impSpcs e ha imp S hS (m.constraints e S) m w
      (fun s hs => (mem_constraints e m S s).mp hs)
      (fun t ht hc => absurd ((mem_constraints e m S t).mpr ht) hc)
    obtain ⟨m2, e2, w2, cl2⟩ := ih (fun T hT => hSs T (by simp [hT])) m1 w1
      (by
        intro T hT hTs t ht
        by_cases h : T = S
        · subst h; exact cl1 t ht
        · have hT' : T ∈ m.constraintSets a := by rw [w.sets]; exact hT
          rcases c1.sets T hT' t ht with h' | ⟨h', _, _⟩
          · exact c1.clean (uses_lt w.fit.wf (inSet_uses hT' h')) (hrest T hT (by simp [h, hTs]) t h')
          · exact h')
    refine ⟨m2, ?_, w2, cl2⟩
    rw [impSetLoop, e1]; exact e2

/-- The analyses. -/
theorem impAnalyses (e : Enum) (imp : Nat → List (Nat × Dofs)) (m0 : SpcModel) (as : List Nat)
    (hnd : as.Nodup) (has : ∀ a ∈ as, a ∈ m0.analyses) (m : SpcModel) (hf : Fit m)
    (han : m.analyses = m0.analyses)
    (hdone : ∀ b ∈ m0.analyses, b ∉ as → ∀ n d x, held m b n d x ↔
      held m0 b n d x ∧ ¬ (imposedAt (imp b) n).contains d = true)
    (htodo : ∀ b ∈ as, ∀ n d x, held m b n d x ↔ held m0 b n d x) :
    ∃ m', impLoop e imp as m = .ok m' ∧ ∀ b ∈ m0.analyses, ∀ n d x, held m' b n d x ↔
      held m0 b n d x ∧ ¬ (imposedAt (imp b) n).contains d = true := by
  induction as generalizing m with
  | nil => exact ⟨m, rfl, fun b hb => hdone b hb (by simp)⟩
  | cons a as ih =>
    rw [List.nodup_cons] at hnd
    have ha : a ∈ m.analyses := by rw [han]; exact has a (by simp)
    obtain ⟨m1, e1, w1, cl1⟩ := impSets e ha (imp a) (m.constraintSets a) (fun _ h => h) m
      ⟨hf, rfl, rfl, le_refl _, fun _ _ _ h => h, fun _ _ _ h _ => h, fun _ _ _ _ _ _ => Iff.rfl⟩
      (fun S hS hc => absurd hS hc)
    have hclean : ∀ n d x, held m1 a n d x → ¬ (imposedAt (imp a) n).contains d = true := by
      rintro n d x ⟨t, ⟨S, hS, ht⟩, hn, hx⟩
      rw [w1.fit.wf.groups] at hn
      simp only [List.not_mem_nil, or_false] at hn
      rw [w1.sets] at hS
      exact cl1 S hS t ht n hn d x hx
    obtain ⟨m2, e2, h2⟩ := ih hnd.2 (fun b hb => has b (by simp [hb])) m1 w1.fit (w1.analyses.trans han)
      (by
        intro b hb hbas n d x
        by_cases hba : b = a
        · subst hba
          constructor
          · intro h
            exact ⟨(htodo b (by simp) n d x).mp (w1.only n d x h), hclean n d x h⟩
          · rintro ⟨h, h'⟩
            exact w1.keep n d x ((htodo b (by simp) n d x).mpr h) h'
        · rw [w1.others b (by rw [han]; exact hb) hba]
          exact hdone b hb (by simp [hba, hbas]) n d x)
      (by
        intro b hb n d x
        have hba : b ≠ a := fun hc => hnd.1 (hc ▸ hb)
        rw [w1.others b (by rw [han]; exact has b (by simp [hb])) hba]
        exact htodo b (by simp [hb]) n d x)
    refine ⟨m2, ?_, h2⟩
    rw [impLoop, e1]; exact e2

/-! ## C59 -/

/-- **C59** (partial) after the pass, in every analysis, the degrees of freedom held by SPCs are
exactly those held before that no imposed displacement of the analysis moves, at the values they
had. Missing: nodes with several imposed displacements (refuted below), and the cases excluded in
C39. -/
theorem C59_imposed_partial (e : Enum) (imp : Nat → List (Nat × Dofs)) (m : SpcModel) (hf : Fit m)
    (hn : m.analyses.Nodup) (hi : ∀ a ∈ m.analyses, OnceEach (imp a)) :
    ∃ m', m.removeConstrainedImposed e imp = .ok m' ∧ ∀ a ∈ m.analyses, ∀ n d x,
      held m' a n d x ↔ held m a n d x ∧ ¬ Imposed (imp a) n d := by
  obtain ⟨m', e1, h⟩ := impAnalyses e imp m m.analyses hn (fun _ h => h) m hf rfl
    (fun b hb hc => absurd hb hc) (fun _ _ _ _ _ => Iff.rfl)
  refine ⟨m', e1, fun a ha n d x => ?_⟩
  rw [h a ha, imposedAt_spec (imp a) (hi a ha)]

-- the hypotheses on the model of C32, with DX of node 5 moved in analysis 0
def exImp : Nat → List (Nat × Dofs) := fun a => if a = 0 then [(5, Dofs.ofDof .DX)] else []
example : Fit exModel ∧ exModel.analyses.Nodup ∧ ∀ a ∈ exModel.analyses, OnceEach (exImp a) :=
  ⟨⟨exModel_good.wf, exModel_good.plain, exModel_good.numeric⟩, by decide, by unfold OnceEach; decide⟩

def valuesImp (m : SpcModel) (imp : Nat → List (Nat × Dofs)) (a n : Nat) (d : Dof) :
    Outcome (List Dbl) := do
  let m' ← m.removeConstrainedImposed exEnum imp
  .ok (values exEnum m' a n d)

example : valuesImp exModel exImp 0 5 .DX = .ok [] ∧ valuesImp exModel exImp 1 5 .DX = .ok [0] ∧
    valuesImp exModel exImp 0 5 .DY = .ok [0] := by decide +kernel

/-- Refutation: with two imposed displacements on a node, only the degrees of freedom of the last
one are freed: DX of node 5 is both moved and held at 0. -/
theorem C59_two_on_a_node_false :
    ∃ (m : SpcModel) (imp : Nat → List (Nat × Dofs)), Fit m ∧ Imposed (imp 0) 5 .DX ∧
      valuesImp m imp 0 5 .DX = .ok [0, 0] :=
  ⟨exModel, fun a => if a = 0 then [(5, Dofs.ofDof .DX), (5, Dofs.ofDof .DY)] else [],
    ⟨exModel_good.wf, exModel_good.plain, exModel_good.numeric⟩,
    ⟨(5, Dofs.ofDof .DX), by simp, rfl, by decide⟩, by decide +kernel⟩

end Vega.RedundantSpec
