import Verif.Aster.CommandProps

/-! # C105: what a readable command file requires -/
namespace Vega
namespace Aster
open CommSpec Med

/-! ## Which names the commands of an analysis can define -/

/-- What the commands of an analysis can define. -/
def Possible (a : Analysis) (u : Name × Kind) : Prop :=
  match u.1 with
  | .plain _ => False
  | .set _ _ => False
  | .num .MOD _ => False
  | .num .bare _ => False
  | .num .RESU i => i = a.id ∧ ∀ f, a.kind ≠ .modalComplex f
  | .num .UMO i => i = a.id ∧ ((∃ f, a.kind = .modalComplex f) ∨ ∃ f r d e k v, a.kind = .modalFreq f r d e k v)
  | .num _ i => i = a.id
  | .two _ i _ => i = a.id
  | .pad .LST v => ∃ p, a.kind = .nonLinear v p
  | .pad .FCT _ => False
  | .pad .LSPR _ => True
  | .pad .LSIP _ => True

section possible
variable {m : CommModel} {a : Analysis}

theorem assembly_possible (b : Bool) : ∀ u ∈ defsOf (assembly m a b), Possible a u := by
  rw [assembly_defs]
  cases b <;> simp [Possible]

theorem vectors_possible (d : Nat) (xs : List Excitation) :
    ∀ u ∈ defsOf (xs.flatMap (excitationVectors m a.id d)), Possible a u := by
  rw [vectors_defs]
  intro u hu
  obtain ⟨x, _, hu⟩ := List.mem_flatMap.mp hu
  simp at hu
  rcases hu with rfl | rfl <;> rfl

theorem harmonic_possible (hk : ∀ f, a.kind ≠ .modalComplex f) (damped : Bool) (f : Name) :
    ∀ u ∈ defsOf (harmonic a damped f), Possible a u := by
  unfold harmonic physical
  cases a.frequencies with
  | nil => simp [Possible]; exact hk
  | cons x xs => simp [Possible, defsOf, Cmd.defs]

theorem response_possible (hk : ∀ f, a.kind ≠ .modalComplex f) {d : Nat} {r : Name} {residual : Bool}
    {damping : Option (DampingKind × Nat)} {e v : Nat} {k : FrequencyKind} :
    ∀ u ∈ defsOf (response m a d r residual damping e k v), Possible a u := by
  intro u hu
  unfold response at hu
  simp only [defsOf_append, List.mem_append] at hu
  rcases hu with ((((hu | hu) | hu) | hu) | hu) | hu
  · unfold basis at hu
    cases residual
    · simp at hu; subst hu; rfl
    · simp at hu; rcases hu with rfl | rfl | rfl <;> rfl
  · exact vectors_possible _ _ u hu
  · rw [projection_defs] at hu
    cases hd : damping.isSome <;> simp [hd] at hu
    · rcases hu with rfl | rfl | rfl | rfl | ⟨x, _, rfl⟩ <;> rfl
    · rcases hu with rfl | rfl | rfl | ⟨x, _, rfl⟩ <;> rfl
  · rcases damping with _ | ⟨k, t⟩
    · simp [dampingCmds] at hu
    · simp [dampingCmds] at hu; rcases hu with rfl | rfl | rfl | rfl <;> rfl
  · cases k
    · simp [frequencyCmds] at hu; subst hu; trivial
    · simp [frequencyCmds] at hu; rcases hu with rfl | rfl <;> trivial
    · simp [frequencyCmds] at hu
  · exact harmonic_possible hk _ _ u hu

theorem writeAnalysis_possible : ∀ u ∈ defsOf (writeAnalysis m a), Possible a u := by
  intro u hu
  unfold writeAnalysis at hu
  cases hk : a.kind with
  | combination parts =>
    simp only [hk, combination, defsOf_append, defsOf_map, Cmd.defs, List.mem_append, List.mem_flatMap] at hu
    rcases hu with ⟨p, _, hu⟩ | hu
    · simp at hu; subst hu; rfl
    · simp at hu; rcases hu with rfl | rfl <;> simp [Possible, hk]
  | linearStatic => simp [hk, linearStatic] at hu; subst hu; simp [Possible, hk]
  | nonLinear v p =>
    simp only [hk, nonLinear, defsOf_append, List.mem_append] at hu
    rcases hu with (hu | hu) | hu
    · simp at hu; rcases hu with rfl | rfl | rfl <;> simp [Possible, hk]
    · cases p <;> simp [previousRamp] at hu
      subst hu; rfl
    · split at hu
      · simp [defsOf, Cmd.defs] at hu
      · simp at hu; subst hu; simp [Possible, hk]
  | directFreq v st =>
    simp only [hk, directFreq, defsOf_append, List.mem_append] at hu
    rcases hu with ((hu | hu) | hu) | hu
    · exact assembly_possible _ u hu
    · cases st <;> simp at hu
      subst hu; rfl
    · exact vectors_possible _ _ u hu
    · simp at hu; subst hu; simp [Possible, hk]
  | modal f =>
    simp only [hk, defsOf_append, modes_defs, List.mem_append] at hu
    rcases hu with (hu | hu) | hu
    · exact assembly_possible _ u hu
    · simp at hu; rcases hu with rfl | rfl | rfl | rfl <;> simp [Possible, hk]
    · simp [pfreqCmd] at hu; subst hu; rfl
  | modalComplex f =>
    simp only [hk, defsOf_append, modes_defs, List.mem_append] at hu
    rcases hu with (hu | hu) | hu
    · exact assembly_possible _ u hu
    · simp at hu; rcases hu with rfl | rfl | rfl | rfl <;> simp [Possible, hk]
    · simp [pfreqCmd] at hu; subst hu; rfl
  | modalFreq f residual damping e k v =>
    have hne : ∀ f, a.kind ≠ .modalComplex f := by simp [hk]
    cases hr : m.reusableFor a with
    | none =>
      simp only [hk, hr, defsOf_append, modes_defs, List.mem_append] at hu
      rcases hu with ((hu | hu) | hu) | hu
      · exact assembly_possible _ u hu
      · simp at hu; rcases hu with rfl | rfl | rfl | rfl <;> simp [Possible, hk]
      · simp [pfreqCmd] at hu; subst hu; rfl
      · exact response_possible hne u hu
    | some r =>
      simp only [hk, hr, defsOf_append, List.mem_append] at hu
      rcases hu with hu | hu
      · simp [pfreqCmd] at hu; subst hu; rfl
      · exact response_possible hne u hu
  | buckling f i =>
    simp only [hk, bucklingCmds, List.cons_append, defsOf_define, defsOf_append, List.mem_cons, List.mem_append] at hu
    rcases hu with rfl | hu | hu
    · rfl
    · exact assembly_possible _ u hu
    · simp at hu; rcases hu with rfl | rfl <;> simp [Possible, hk]

theorem printPost_possible : ∀ u ∈ defsOf (printPost m a), Possible a u := by
  intro u hu
  unfold printPost displacementTable at hu
  cases h1 : a.displacements <;> cases h2 : a.frequencies <;> simp [h1, h2, defsOf, Cmd.defs] at hu
  · rcases hu with rfl | rfl <;> rfl
  · rcases hu with rfl | rfl <;> rfl
  · rcases hu with rfl | rfl <;> rfl
  · subst hu; rfl

theorem body_possible : ∀ u ∈ defsOf (analysisBody m a), Possible a u := by
  intro u hu
  simp only [analysisBody, defsOf_append, List.mem_append, staticPost_defs, stressPost_defs] at hu
  rcases hu with (((hu | hu) | hu) | hu) | hu
  · exact writeAnalysis_possible u hu
  · cases h1 : a.isStatic <;> cases h2 : m.beams <;> simp [h1, h2] at hu
    · subst hu; rfl
    · rcases hu with rfl | rfl | rfl <;> rfl
  · cases hu
  · simp at hu
  · exact printPost_possible u hu

theorem cmds_defs : defsOf (analysisCmds m a) = defsOf (analysisBody m a) := by
  simp [analysisCmds, defsOf, Cmd.defs]

end possible

/-! ## The state before an analysis -/

theorem destroy_none {e e' : Env} {ns : List Name} (h : e.destroy ns = some e') {n : Name} (hn : n ∈ ns) : e' n = none := by
  induction ns generalizing e with
  | nil => cases hn
  | cons x ns ih =>
    rw [Env.destroy] at h
    split at h
    · by_cases hm : n ∈ ns
      · exact ih h hm
      · have hx : n = x := by rcases List.mem_cons.mp hn with h | h <;> [exact h; exact absurd h hm]
        cases he : e' n with
        | none => rfl
        | some k =>
          have := destroy_some h n k he
          rw [hx] at this
          simp at this
    · cases h

/-- Only the responses define lists of frequencies. -/
theorem lspr_defs {m : CommModel} {a : Analysis} {i : Nat} : ∀ v ∈ defsOf (analysisBody m a), v.1 = .pad .LSPR i →
    ∃ f r d e k w, a.kind = .modalFreq f r d e k w ∧ v ∈ defsOf (frequencyCmds a.id e k) := by
  intro v hv hvi
  simp only [analysisBody, defsOf_append, List.mem_append, staticPost_defs, stressPost_defs] at hv
  have resp : ∀ {d r residual damping e k w}, v ∈ defsOf (response m a d r residual damping e k w) →
      v ∈ defsOf (frequencyCmds a.id e k) := by
    intro d r residual damping e k w h
    unfold response at h
    simp only [defsOf_append, List.mem_append] at h
    rcases h with ((((h | h) | h) | h) | h) | h
    · unfold basis at h
      cases residual
      · simp at h; subst h; simp at hvi
      · simp at h; rcases h with rfl | rfl | rfl <;> simp at hvi
    · rw [vectors_defs] at h
      obtain ⟨x, _, h⟩ := List.mem_flatMap.mp h
      simp at h; rcases h with rfl | rfl <;> simp at hvi
    · rw [projection_defs] at h
      cases hd : damping.isSome <;> simp [hd] at h
      · rcases h with rfl | rfl | rfl | rfl | ⟨x, _, rfl⟩ <;> simp at hvi
      · rcases h with rfl | rfl | rfl | ⟨x, _, rfl⟩ <;> simp at hvi
    · rcases damping with _ | ⟨k, t⟩
      · simp [dampingCmds] at h
      · simp [dampingCmds] at h; rcases h with rfl | rfl | rfl | rfl <;> simp at hvi
    · exact h
    · unfold harmonic physical at h
      cases hf : a.frequencies <;> simp [hf, defsOf, Cmd.defs] at h
      · rcases h with rfl | rfl <;> simp at hvi
      · subst h; simp at hvi
  have asm : ∀ b, v ∉ defsOf (assembly m a b) := by
    intro b h
    rw [assembly_defs] at h
    cases b <;> simp at h
    · rcases h with rfl | rfl | rfl | rfl | rfl | rfl | rfl <;> simp at hvi
    · rcases h with rfl | rfl | rfl | rfl | rfl <;> simp at hvi
  have mods : ∀ p q r s, v ∉ defsOf (modesOf m a p q r s) := by
    intro p q r s h
    rw [modes_defs, List.mem_append] at h
    rcases h with h | h
    · exact asm _ h
    · simp at h; rcases h with rfl | rfl | rfl | rfl <;> simp at hvi
  have pf : ∀ r, v ∉ defsOf [pfreqCmd a.id r] := by
    intro r h; simp [pfreqCmd] at h; subst h; simp at hvi
  rcases hv with (((hv | hv) | hv) | hv) | hv
  · unfold writeAnalysis at hv
    cases hk : a.kind with
    | combination parts =>
      simp only [hk, combination, defsOf_append, defsOf_map, Cmd.defs, List.mem_append, List.mem_flatMap] at hv
      rcases hv with ⟨p, _, hv⟩ | hv
      · simp at hv; subst hv; simp at hvi
      · simp at hv; rcases hv with rfl | rfl <;> simp at hvi
    | linearStatic => simp [hk, linearStatic] at hv; subst hv; simp at hvi
    | nonLinear v' p =>
      simp only [hk, nonLinear, defsOf_append, List.mem_append] at hv
      rcases hv with (hv | hv) | hv
      · simp at hv; rcases hv with rfl | rfl | rfl <;> simp at hvi
      · cases p <;> simp [previousRamp] at hv
        subst hv; simp at hvi
      · split at hv
        · simp [defsOf, Cmd.defs] at hv
        · simp at hv; subst hv; simp at hvi
    | directFreq v' st =>
      simp only [hk, directFreq, defsOf_append, List.mem_append] at hv
      rcases hv with ((hv | hv) | hv) | hv
      · exact absurd hv (asm _)
      · cases st <;> simp at hv
        subst hv; simp at hvi
      · rw [vectors_defs] at hv
        obtain ⟨x, _, hv⟩ := List.mem_flatMap.mp hv
        simp at hv; rcases hv with rfl | rfl <;> simp at hvi
      · simp at hv; subst hv; simp at hvi
    | modal f =>
      simp only [hk, defsOf_append, List.mem_append] at hv
      exact hv.elim (fun h => absurd h (mods _ _ _ _)) fun h => absurd h (pf _)
    | modalComplex f =>
      simp only [hk, defsOf_append, List.mem_append] at hv
      exact hv.elim (fun h => absurd h (mods _ _ _ _)) fun h => absurd h (pf _)
    | modalFreq f residual damping e k w =>
      refine ⟨f, residual, damping, e, k, w, rfl, ?_⟩
      cases hr : m.reusableFor a with
      | none =>
        simp only [hk, hr, defsOf_append, List.mem_append] at hv
        rcases hv with (hv | hv) | hv
        · exact absurd hv (mods _ _ _ _)
        · exact absurd hv (pf _)
        · exact resp hv
      | some r =>
        simp only [hk, hr, defsOf_append, List.mem_append] at hv
        rcases hv with hv | hv
        · exact absurd hv (pf _)
        · exact resp hv
    | buckling f i =>
      simp only [hk, bucklingCmds, List.cons_append, defsOf_define, defsOf_append, List.mem_cons, List.mem_append] at hv
      rcases hv with rfl | hv | hv
      · simp at hvi
      · exact absurd hv (asm _)
      · simp at hv; rcases hv with rfl | rfl <;> simp at hvi
  · cases h1 : a.isStatic <;> cases h2 : m.beams <;> simp [h1, h2] at hv
    · subst hv; simp at hvi
    · rcases hv with rfl | rfl | rfl <;> simp at hvi
  · cases hv
  · simp at hv
  · unfold printPost displacementTable at hv
    cases h1 : a.displacements <;> cases h2 : a.frequencies <;> simp [h1, h2, defsOf, Cmd.defs] at hv
    · rcases hv with rfl | rfl <;> simp at hvi
    · rcases hv with rfl | rfl <;> simp at hvi
    · rcases hv with rfl | rfl <;> simp at hvi
    · subst hv; simp at hvi

/-- The lists of frequencies made for an analysis are destroyed after it. -/
theorem lists_destroyed {m : CommModel} {a : Analysis} : ∀ u ∈ defsOf (analysisBody m a),
    (∃ i, u.1 = .pad .LSPR i) → u.1 ∈ destroyed m a := by
  rintro u hu ⟨i, hi⟩
  obtain ⟨f, r, d, e, k, w, hk, hv⟩ := lspr_defs u hu hi
  have hmem : u.1 ∈ frequencyDestroyed e k := by
    cases k
    · simp [frequencyCmds] at hv; subst hv; simp [frequencyDestroyed]
    · simp [frequencyCmds] at hv; rcases hv with rfl | rfl
      · simp at hi
      · simp [frequencyDestroyed]
    · simp [frequencyCmds] at hv
  simp only [destroyed, analysisDestroyed, hk, responseDestroyed, List.mem_append]
  tauto

theorem step_lspr {e e' : Env} {m : CommModel} {a : Analysis} (h : run e (analysisCmds m a) = some e') {v : Nat}
    (hv : e (.pad .LSPR v) = none) : e' (.pad .LSPR v) = none := by
  rw [analysisCmds, run_append] at h
  cases h1 : run e (analysisBody m a) with
  | none => rw [h1] at h; cases h
  | some e1 =>
    rw [h1] at h
    simp only [Option.bind_some, run, step] at h
    cases h2 : e1.destroy (destroyed m a) with
    | none => rw [h2] at h; cases h
    | some e2 =>
      rw [h2] at h
      simp only [Option.some.injEq] at h
      subst h
      cases hk : e2 (.pad .LSPR v) with
      | none => rfl
      | some k =>
        rcases run_some h1 _ _ (destroy_some h2 _ _ hk) with h3 | h3
        · rw [hv] at h3; cases h3
        · rw [destroy_none h2 (lists_destroyed _ h3 ⟨v, rfl⟩)] at hk
          cases hk

theorem steps_lspr {m : CommModel} {pre : List Analysis} {e e' : Env} (h : run e (pre.flatMap (analysisCmds m)) = some e')
    {v : Nat} (hv : e (.pad .LSPR v) = none) : e' (.pad .LSPR v) = none := by
  induction pre generalizing e with
  | nil => simp only [List.flatMap_nil, run, Option.some.injEq] at h; rw [← h]; exact hv
  | cons a pre ih =>
    rw [List.flatMap_cons, run_append] at h
    cases h1 : run e (analysisCmds m a) with
    | none => rw [h1] at h; cases h
    | some e1 =>
      rw [h1] at h
      exact ih h (step_lspr h1 hv)

/-- Commands that do not destroy anything define different names. -/
theorem run_nodup {cs : List Cmd} {e e' : Env} (h : run e cs = some e') (hd : ∀ ns, Cmd.destroy ns ∉ cs) :
    (namesOf cs).Nodup ∧ (∀ n ∈ namesOf cs, e n = none) ∧ ∀ n, e n ≠ none → e' n ≠ none := by
  induction cs generalizing e with
  | nil => simp only [run, Option.some.injEq] at h; subst h; simp [namesOf]
  | cons c cs ih =>
    rw [run] at h
    cases hs : step e c with
    | none => rw [hs] at h; cases h
    | some e1 =>
      rw [hs] at h
      obtain ⟨i1, i2, i3⟩ := ih h fun ns hn => hd ns (by simp [hn])
      cases c with
      | define x k us =>
        simp only [step] at hs
        split at hs
        · rename_i hc
          rw [Bool.and_eq_true] at hc
          simp only [Option.some.injEq] at hs
          subst hs
          have hx : x ∉ namesOf cs := fun hx => by simpa using i2 x hx
          refine ⟨?_, ?_, ?_⟩
          · rw [namesOf, defsOf_define, List.map_cons, List.nodup_cons]
            exact ⟨hx, i1⟩
          · intro n hn
            rw [namesOf, defsOf_define, List.map_cons, List.mem_cons] at hn
            rcases hn with rfl | hn
            · simpa using hc.2
            · have hne : n ≠ x := fun he => hx (he ▸ hn)
              have := i2 n hn
              rwa [Function.update_of_ne hne] at this
          · intro n hn
            refine i3 n ?_
            by_cases hne : n = x
            · subst hne; simp
            · rwa [Function.update_of_ne hne]
        · cases hs
      | call us =>
        simp only [step] at hs
        split at hs
        · simp only [Option.some.injEq] at hs
          subst hs
          exact ⟨i1, i2, i3⟩
        · cases hs
      | destroy ns => exact absurd (by simp) (hd ns)
      | invalid => cases hs

theorem mem_define {cs : List Cmd} {u : Name × Kind} : u ∈ defsOf cs ↔ ∃ us, Cmd.define u.1 u.2 us ∈ cs := by
  induction cs with
  | nil => simp
  | cons c cs ih =>
    obtain ⟨n, k⟩ := u
    cases c with
    | define x j us =>
      simp only [defsOf_define, List.mem_cons, ih, Prod.mk.injEq, Cmd.define.injEq]
      constructor
      · rintro (⟨rfl, rfl⟩ | ⟨us', h⟩)
        · exact ⟨us, .inl ⟨rfl, rfl, rfl⟩⟩
        · exact ⟨us', .inr h⟩
      · rintro ⟨us', ⟨rfl, rfl, _⟩ | h⟩
        · exact .inl ⟨rfl, rfl⟩
        · exact .inr ⟨us', h⟩
    | call us => simpa using ih
    | destroy ns => simpa [defsOf, Cmd.defs] using ih
    | invalid => simpa [defsOf, Cmd.defs] using ih

/-! ## Uses -/

section needs
variable {m : CommModel} {pre post : List Analysis} {a : Analysis}

theorem file_split (hs : m.analyses = pre ++ a :: post) : commFile m =
    (prelude m ++ pre.flatMap (analysisCmds m)) ++ (analysisBody m a ++ (.destroy (destroyed m a) ::
      post.flatMap (analysisCmds m))) := by
  simp [commFile, hs, analysisCmds]

/-- What a command of an analysis uses is defined before the analyses, by an analysis before, or by the commands before it. -/
theorem use_before (hr : Readable (commFile m)) (hs : m.analyses = pre ++ a :: post) {x y : List Cmd} {c : Cmd}
    (hb : analysisBody m a = x ++ c :: y) {u : Name × Kind} (hu : u ∈ c.uses) :
    u ∈ defsOf (prelude m) ∨ (∃ b ∈ pre, Possible b u) ∨ u ∈ defsOf x := by
  rw [file_split hs, hb] at hr
  have h := used_defined (a := (prelude m ++ pre.flatMap (analysisCmds m)) ++ x) (c := c)
    (b := y ++ (.destroy (destroyed m a) :: post.flatMap (analysisCmds m))) (by simpa using hr) u hu
  rw [defsOf_append, defsOf_append, defsOf_flatMap, List.mem_append, List.mem_append, List.mem_flatMap] at h
  rcases h with (h | ⟨b, hb, h⟩) | h
  · exact .inl h
  · rw [cmds_defs] at h
    exact .inr (.inl ⟨b, hb, body_possible u h⟩)
  · exact .inr (.inr h)

theorem use_file (hr : Readable (commFile m)) (hs : m.analyses = pre ++ a :: post) {c : Cmd} (hc : c ∈ analysisBody m a)
    {u : Name × Kind} (hu : u ∈ c.uses) : u ∈ defsOf (prelude m) ∨ (∃ b ∈ pre, Possible b u) ∨ Possible a u := by
  obtain ⟨x, y, hb⟩ := List.append_of_mem hc
  rcases use_before hr hs hb hu with h | h | h
  · exact .inl h
  · exact .inr (.inl h)
  · refine .inr (.inr (body_possible (m := m) u ?_))
    rw [hb, defsOf_append, List.mem_append]
    exact .inl h

theorem load_name (l : LoadSet) : (∃ t, l.name = .plain t) ∨ ∃ t, l.name = .set t l.id := by
  unfold LoadSet.name
  cases l.skipped <;> cases l.functions <;> simp

theorem global_num {t : Tag} {i : Nat} {k : Kind} : (Name.num t i, k) ∉ defsOf (prelude m) := by
  intro h
  rcases mem_globals.mp h with h | h | ⟨v, _, h⟩ | ⟨v, _, h⟩ | ⟨_, h⟩ | ⟨_, h⟩ | ⟨c, _, _, _, h⟩ | ⟨l, _, _, h⟩ | ⟨c, _, _, _, h⟩ <;>
    simp only [Prod.mk.injEq, reduceCtorEq, false_and] at h
  rcases load_name l with ⟨t, e⟩ | ⟨t, e⟩ <;> simp [e] at h

theorem written_of {i : Nat} {t : SetTag} (ht : t = .CHMEC ∨ t = .CHMEF)
    (h : (Name.set t i, Kind.charge) ∈ defsOf (prelude m)) :
    ∃ l, Written m l ∧ l.id = i ∧ l.functions = decide (t = .CHMEF) := by
  rcases mem_globals.mp h with h | h | ⟨v, _, h⟩ | ⟨v, _, h⟩ | ⟨_, h⟩ | ⟨_, h⟩ | ⟨c, _, _, _, h⟩ | ⟨l, h1, h2, h⟩ | ⟨c, _, _, _, h⟩ <;>
    simp only [Prod.mk.injEq, reduceCtorEq, false_and, and_false] at h
  · rcases ht with rfl | rfl <;> cases hf : c.functions <;> simp [hf] at h
  · refine ⟨l, ⟨h1, h2⟩, ?_⟩
    rcases ht with rfl | rfl <;> cases hf : l.functions <;> simp [LoadSet.name, h2, hf] at h ⊢ <;> exact h.symm

theorem table_of {v : Nat} (h : (Name.pad .FCT v, Kind.fonction) ∈ defsOf (prelude m)) : v ∈ m.tables := by
  rcases mem_globals.mp h with h | h | ⟨w, hw, h⟩ | ⟨w, hw, h⟩ | ⟨_, h⟩ | ⟨_, h⟩ | ⟨c, _, _, _, h⟩ | ⟨l, _, _, h⟩ | ⟨c, _, _, _, h⟩ <;>
    simp only [Prod.mk.injEq, reduceCtorEq, false_and, Name.pad.injEq, true_and, and_true] at h
  · rw [h]; exact hw
  · rcases load_name l with ⟨t, e⟩ | ⟨t, e⟩ <;> simp [e] at h

theorem list_of {v : Nat} {k : Kind} (h : (Name.pad .LST v, k) ∈ defsOf (prelude m)) : v ∈ m.lists := by
  rcases mem_globals.mp h with h | h | ⟨w, hw, h⟩ | ⟨w, hw, h⟩ | ⟨_, h⟩ | ⟨_, h⟩ | ⟨c, _, _, _, h⟩ | ⟨l, _, _, h⟩ | ⟨c, _, _, _, h⟩ <;>
    simp only [Prod.mk.injEq, reduceCtorEq, false_and, Name.pad.injEq, true_and] at h
  · rw [h.1]; exact hw
  · rcases load_name l with ⟨t, e⟩ | ⟨t, e⟩ <;> simp [e] at h

theorem lspr_global {v : Nat} {k : Kind} : (Name.pad .LSPR v, k) ∉ defsOf (prelude m) := by
  intro h
  rcases mem_globals.mp h with h | h | ⟨w, hw, h⟩ | ⟨w, hw, h⟩ | ⟨_, h⟩ | ⟨_, h⟩ | ⟨c, _, _, _, h⟩ | ⟨l, _, _, h⟩ | ⟨c, _, _, _, h⟩ <;>
    simp only [Prod.mk.injEq, reduceCtorEq, false_and, Name.pad.injEq] at h
  · rcases load_name l with ⟨t, e⟩ | ⟨t, e⟩ <;> simp [e] at h

theorem plain_of {t : PlainTag} {k : Kind} (h : (Name.plain t, k) ∈ defsOf (prelude m)) :
    t ≠ .missing ∧ t ≠ .freqList ∧ (t = .CHMAT → m.materials = true) ∧ (t = .CAEL → m.elements = true) := by
  rcases mem_globals.mp h with h | h | ⟨w, hw, h⟩ | ⟨w, hw, h⟩ | ⟨e, h⟩ | ⟨e, h⟩ | ⟨c, _, _, _, h⟩ | ⟨l, _, hl, h⟩ | ⟨c, _, _, _, h⟩ <;>
    simp only [Prod.mk.injEq, reduceCtorEq, false_and, Name.plain.injEq] at h
  · simp [h.1]
  · simp [h.1]
  · simp [h.1, e]
  · simp [h.1, e]
  · cases hf : l.functions <;> simp [LoadSet.name, hl, hf] at h

theorem assembled_of (hc : Consistent m) (ha : a ∈ m.analyses)
    (h : ∀ c ∈ a.constraintSets, (Name.set .BL c.id, Kind.charge) ∈ defsOf (prelude m)) : Assembled a := by
  intro c hca
  have hmem := hc.ownConstraints a ha c hca
  rcases mem_globals.mp (h c hca) with h | h | ⟨w, hw, h⟩ | ⟨w, hw, h⟩ | ⟨e, h⟩ | ⟨e, h⟩ | ⟨d, hd, h1, h2, h⟩ | ⟨l, _, hl, h⟩ |
    ⟨d, _, _, _, h⟩ <;>
    simp only [Prod.mk.injEq, reduceCtorEq, false_and, and_false, and_true, Name.set.injEq] at h
  · have : c = d := List.inj_on_of_nodup_map hc.constraints hmem hd h.2
    subst this
    refine ⟨h1, h2, ?_⟩
    cases hf : c.functions
    · rfl
    · simp [hf] at h
  · cases hf : l.functions <;> simp [LoadSet.name, hl, hf] at h

theorem set_use (hr : Readable (commFile m)) (hs : m.analyses = pre ++ a :: post) {c : Cmd} (hc : c ∈ analysisBody m a)
    {t : SetTag} {i : Nat} {k : Kind} (hu : (Name.set t i, k) ∈ c.uses) : (Name.set t i, k) ∈ defsOf (prelude m) := by
  rcases use_file hr hs hc hu with h | ⟨b, _, h⟩ | h
  · exact h
  · exact h.elim
  · exact h.elim

theorem plain_use (hr : Readable (commFile m)) (hs : m.analyses = pre ++ a :: post) {c : Cmd} (hc : c ∈ analysisBody m a)
    {t : PlainTag} {k : Kind} (hu : (Name.plain t, k) ∈ c.uses) : (Name.plain t, k) ∈ defsOf (prelude m) := by
  rcases use_file hr hs hc hu with h | ⟨b, _, h⟩ | h
  · exact h
  · exact h.elim
  · exact h.elim

theorem fct_use (hr : Readable (commFile m)) (hs : m.analyses = pre ++ a :: post) {c : Cmd} (hc : c ∈ analysisBody m a)
    {i : Nat} (hu : (Name.pad .FCT i, Kind.fonction) ∈ c.uses) : i ∈ m.tables := by
  rcases use_file hr hs hc hu with h | ⟨b, _, h⟩ | h
  · exact table_of h
  · exact h.elim
  · exact h.elim

theorem load_use (hr : Readable (commFile m)) (hs : m.analyses = pre ++ a :: post) {c : Cmd} (hc : c ∈ analysisBody m a)
    {l : LoadSet} {k : Kind} (hu : (l.name, k) ∈ c.uses) : l.skipped = false := by
  cases h : l.skipped with
  | false => rfl
  | true =>
    have : l.name = .plain .missing := by simp [LoadSet.name, h]
    rw [this] at hu
    exact absurd rfl (plain_of (plain_use hr hs hc hu)).1

theorem resu_use (hr : Readable (commFile m)) (hs : m.analyses = pre ++ a :: post) {x y : List Cmd} {c : Cmd}
    (hb : analysisBody m a = x ++ c :: y) {i : Nat} {k : Kind} (hu : (Name.num .RESU i, k) ∈ c.uses)
    (hx : ∀ u ∈ defsOf x, u.1 ≠ .num .RESU i) : Among pre i := by
  rcases use_before hr hs hb hu with h | ⟨b, hb, h⟩ | h
  · exact absurd h global_num
  · exact ⟨b, hb, h.1.symm⟩
  · exact absurd rfl (hx _ h)

theorem list_use (hc' : Consistent m) (hr : Readable (commFile m)) (hs : m.analyses = pre ++ a :: post) {c : Cmd}
    (hc : c ∈ analysisBody m a) {v : Nat} (hu : (Name.pad .LST v, Kind.listReel) ∈ c.uses)
    (hv : frequencyList a.kind = some v) : v ∈ m.lists := by
  have hmem : a ∈ m.analyses := by rw [hs]; simp
  rcases use_file hr hs hc hu with h | ⟨b, hb, p, h⟩ | ⟨p, h⟩
  · exact list_of h
  · exact absurd hv (hc'.newInstants b (by rw [hs]; simp [hb]) v p h a hmem)
  · exact absurd hv (hc'.newInstants a hmem v p h a hmem)

theorem body_runs (hr : Readable (commFile m)) (hs : m.analyses = pre ++ a :: post) :
    ∃ e e1, run Env.empty (prelude m ++ pre.flatMap (analysisCmds m)) = some e ∧ run e (analysisBody m a) = some e1 := by
  rw [file_split hs] at hr
  obtain ⟨e', h⟩ := hr
  rw [run_append] at h
  cases h1 : run Env.empty (prelude m ++ pre.flatMap (analysisCmds m)) with
  | none => rw [h1] at h; cases h
  | some e =>
    rw [h1, Option.bind_some, run_append] at h
    cases h2 : run e (analysisBody m a) with
    | none => rw [h2] at h; cases h
    | some e1 => exact ⟨e, e1, rfl, h2⟩

theorem write_mem {c : Cmd} (hc : c ∈ writeAnalysis m a) : c ∈ analysisBody m a := by
  simp [analysisBody, hc]

theorem write_split {x y : List Cmd} {c : Cmd} (h : writeAnalysis m a = x ++ c :: y) :
    ∃ z, analysisBody m a = x ++ c :: z := by
  refine ⟨y ++ staticPost m a ++ stressPost m a ++ [.call (assertionUses m a)] ++ printPost m a, ?_⟩
  simp [analysisBody, h]

theorem body_valid (hr : Readable (commFile m)) (hs : m.analyses = pre ++ a :: post) : Cmd.invalid ∉ analysisBody m a := by
  intro h
  refine not_invalid hr ?_
  rw [file_split hs]
  simp [h]

end needs

/-! ## Names that are defined twice -/

section twice
variable {m : CommModel} {a : Analysis}

theorem assembly_keeps (b : Bool) (ns : List Name) : Cmd.destroy ns ∉ assembly m a b := by
  unfold assembly
  cases b <;> simp

theorem vectors_keep (i d : Nat) (xs : List Excitation) (ns : List Name) :
    Cmd.destroy ns ∉ xs.flatMap (excitationVectors m i d) := by
  simp [excitationVectors]

theorem modes_keep (u r t j : Tag) (ns : List Name) : Cmd.destroy ns ∉ modesOf m a u r t j := by
  simp [modesOf, assembly_keeps]

theorem response_keeps {d : Nat} {r : Name} {residual : Bool} {damping : Option (DampingKind × Nat)} {e v : Nat}
    {k : FrequencyKind} (ns : List Name) : Cmd.destroy ns ∉ response m a d r residual damping e k v := by
  simp only [response, List.mem_append, not_or]
  refine ⟨⟨⟨⟨⟨?_, vectors_keep _ _ _ _⟩, ?_⟩, ?_⟩, ?_⟩, ?_⟩
  · cases residual <;> simp [basis]
  · cases damping <;> simp [projection]
  · rcases damping with _ | ⟨k, t⟩ <;> simp [dampingCmds]
  · cases k <;> simp [frequencyCmds]
  · cases h : a.frequencies <;> simp [harmonic, physical, h]

theorem writeAnalysis_keeps (ns : List Name) : Cmd.destroy ns ∉ writeAnalysis m a := by
  unfold writeAnalysis
  cases hk : a.kind with
  | combination parts => simp [combination]
  | linearStatic => simp [linearStatic]
  | nonLinear v p =>
    simp only [nonLinear, List.mem_append, not_or]
    refine ⟨⟨by simp, by cases p <;> simp [previousRamp]⟩, ?_⟩
    split <;> simp
  | directFreq v st => cases st <;> simp [directFreq, assembly_keeps, excitationVectors]
  | modal f => simp [modes_keep, pfreqCmd]
  | modalComplex f => simp [modes_keep, pfreqCmd]
  | modalFreq f residual damping e k v =>
    cases hr : m.reusableFor a with
    | none => simp [modes_keep, pfreqCmd, response_keeps]
    | some r => simp [pfreqCmd, response_keeps]
  | buckling f i => simp [bucklingCmds, assembly_keeps]

theorem body_keeps (ns : List Name) : Cmd.destroy ns ∉ analysisBody m a := by
  simp only [analysisBody, List.mem_append, not_or]
  refine ⟨⟨⟨⟨writeAnalysis_keeps ns, ?_⟩, ?_⟩, by simp⟩, ?_⟩
  · cases h1 : a.isStatic <;> cases h2 : m.beams <;> simp [staticPost, h1, h2]
  · cases h1 : m.sigma <;> cases h2 : a.vonMises <;> simp [stressPost, h1, h2]
  · cases h1 : a.displacements <;> cases h2 : a.frequencies <;> simp [printPost, displacementTable, h1, h2]

theorem part_nodup {pre post : List Analysis} (hr : Readable (commFile m)) (hs : m.analyses = pre ++ a :: post)
    {x y z : List Cmd} (h : writeAnalysis m a = x ++ y ++ z) : (namesOf y).Nodup := by
  obtain ⟨e, e1, _, h2⟩ := body_runs hr hs
  have hn := (run_nodup h2 body_keeps).1
  refine hn.sublist ?_
  unfold namesOf
  refine List.Sublist.map _ ?_
  simp only [analysisBody, h, defsOf_append]
  have h1 : (defsOf y).Sublist (defsOf x ++ defsOf y ++ defsOf z) :=
    ((List.sublist_append_right _ _).trans (List.sublist_append_left _ _))
  refine h1.trans ?_
  simp only [List.append_assoc]
  refine List.Sublist.append_left (List.Sublist.append_left ?_ _) _
  exact List.sublist_append_left _ _

theorem excitations_nodup {i d : Nat} {xs : List Excitation} (h : (namesOf (xs.flatMap (excitationVectors m i d))).Nodup) :
    (xs.map (·.id)).Nodup := by
  rw [namesOf, vectors_defs] at h
  induction xs with
  | nil => simp
  | cons x xs ih =>
    simp only [List.flatMap_cons, List.map_append, List.map_cons, List.map_nil, List.cons_append, List.nil_append,
      List.nodup_cons] at h
    rw [List.map_cons, List.nodup_cons]
    refine ⟨?_, ih h.2.2⟩
    intro hx
    obtain ⟨y, hy, he⟩ := List.mem_map.mp hx
    refine h.1 (List.mem_cons_of_mem _ ?_)
    rw [List.map_flatMap, List.mem_flatMap]
    exact ⟨y, hy, by simp [he]⟩

end twice

/-! ## What each kind of analysis requires -/

section kinds
variable {m : CommModel} {pre post : List Analysis} {a : Analysis}

theorem need_assembled (hc : Consistent m) (hr : Readable (commFile m)) (hs : m.analyses = pre ++ a :: post) {b : Bool}
    (h : ∀ c ∈ assembly m a b, c ∈ writeAnalysis m a) : Assembled a := by
  refine assembled_of hc (by rw [hs]; simp) fun c hca => ?_
  refine set_use hr hs (write_mem (h _ (by unfold assembly; exact List.mem_append_left _ (List.mem_cons_self ..)))) ?_
  simp only [Cmd.uses, List.mem_cons, List.mem_map]
  exact .inr ⟨c, hca, rfl⟩

theorem need_excited (hr : Readable (commFile m)) (hs : m.analyses = pre ++ a :: post) {d : Nat} {x z : List Cmd}
    (h : writeAnalysis m a = x ++ a.excitations.flatMap (excitationVectors m a.id d) ++ z) {c : Cmd}
    (hc : c ∈ writeAnalysis m a) (hu : ∀ y ∈ a.excitations, (Name.pad .FCT y.table, Kind.fonction) ∈ c.uses) :
    Excited m a := by
  refine ⟨excitations_nodup (part_nodup hr hs h), fun y hy => ⟨?_, fct_use hr hs (write_mem hc) (hu y hy)⟩⟩
  have hmem : Cmd.define (.two .VE a.id y.id) .vectElem
      (m.mat ++ [(.plain .CAEL, .caraElem), (.set .CHMEC y.loadSet, .charge)]) ∈ analysisBody m a := by
    refine write_mem ?_
    rw [h]
    simp only [List.mem_append, List.mem_flatMap]
    exact .inl (.inr ⟨y, hy, by simp [excitationVectors]⟩)
  obtain ⟨l, h1, h2, h3⟩ := written_of (.inl rfl) (set_use hr hs hmem (t := .CHMEC) (i := y.loadSet) (k := .charge)
    (by simp [Cmd.uses]))
  exact ⟨l, h1, h2, by simpa using h3⟩

theorem need_combination (hr : Readable (commFile m)) (hs : m.analyses = pre ++ a :: post) {parts : List Nat}
    (hk : a.kind = .combination parts) : m.materials = true ∧ parts.Nodup ∧ ∀ p ∈ parts, Among pre p := by
  have hw : writeAnalysis m a = combination a.id parts := by simp [writeAnalysis, hk]
  refine ⟨?_, ?_, ?_⟩
  · have hmem : Cmd.define (.num .RESU a.id) .resultat
        [(.num .DEP a.id, .champ), (.plain .MODMECA, .modele), (.plain .CHMAT, .chamMater)] ∈ analysisBody m a :=
      write_mem (by rw [hw]; simp [combination])
    exact (plain_of (plain_use hr hs hmem (t := .CHMAT) (k := .chamMater) (by simp [Cmd.uses]))).2.2.1 rfl
  · have h := part_nodup hr hs (x := []) (y := parts.map fun p => .define (.two .D a.id p) .champ [(.num .RESU p, .resultat)])
      (by rw [hw, combination, List.nil_append])
    rw [namesOf, defsOf_map] at h
    have he : (parts.flatMap fun p =>
        Cmd.defs (.define (.two .D a.id p) .champ [(.num .RESU p, .resultat)])).map Prod.fst = parts.map (Name.two .D a.id) := by
      clear h hw hk
      induction parts <;> simp_all [Cmd.defs]
    rw [he] at h
    exact List.Nodup.of_map _ h
  · intro p hp
    obtain ⟨p1, p2, rfl⟩ := List.append_of_mem hp
    obtain ⟨z, hz⟩ := write_split (m := m) (a := a)
      (x := p1.map fun p => .define (.two .D a.id p) .champ [(.num .RESU p, .resultat)])
      (c := .define (.two .D a.id p) .champ [(.num .RESU p, .resultat)]) (y := _) (by
        rw [hw, combination, List.map_append, List.map_cons, List.append_assoc, List.cons_append])
    refine resu_use hr hs hz (i := p) (k := .resultat) (by simp [Cmd.uses]) ?_
    intro u hu
    rw [defsOf_map] at hu
    simp only [Cmd.defs, List.mem_flatMap, List.mem_singleton] at hu
    obtain ⟨q, _, rfl⟩ := hu
    simp

theorem need_static (hc : Consistent m) (hr : Readable (commFile m)) (hs : m.analyses = pre ++ a :: post)
    (hk : a.kind = .linearStatic) :
    (∀ l ∈ a.loadSets, l.skipped = false) ∧ ∀ c ∈ a.constraintSets, c.empty = true ∨ c.hasContacts = false := by
  have hw : writeAnalysis m a = linearStatic m a := by simp [writeAnalysis, hk]
  have hmem := write_mem (m := m) (a := a) (c := .define (.num .RESU a.id) .resultat
    (m.common ++ (a.loadSets.map fun l => (l.name, .charge)) ++
    (a.constraintSets.filter fun c => !c.empty).map fun c => (c.name, .charge))) (by rw [hw]; simp [linearStatic])
  refine ⟨fun l hl => load_use hr hs hmem (l := l) (k := .charge) ?_, fun c hca => ?_⟩
  · simp only [Cmd.uses, List.mem_append, List.mem_map]
    exact .inl (.inr ⟨l, hl, rfl⟩)
  · by_contra hn
    simp only [not_or, Bool.not_eq_true, Bool.not_eq_false] at hn
    have hu : (Name.set .CN c.id, Kind.charge) ∈ defsOf (prelude m) := by
      refine set_use hr hs hmem ?_
      simp only [Cmd.uses, List.mem_append, List.mem_map, List.mem_filter]
      exact .inr ⟨c, ⟨hca, by simp [hn.1]⟩, by simp [ConstraintSet.name, hn]⟩
    rcases mem_globals.mp hu with h | h | ⟨w, hw, h⟩ | ⟨w, hw, h⟩ | ⟨e, h⟩ | ⟨e, h⟩ | ⟨d, hd, h1, h2, h⟩ | ⟨l, _, hl, h⟩ |
      ⟨d, _, _, _, h⟩ <;> simp only [Prod.mk.injEq, reduceCtorEq, false_and, and_false, and_true] at h
    · cases hf : d.functions <;> simp [hf] at h
    · cases hf : l.functions <;> simp [LoadSet.name, hl, hf] at h

theorem need_nonLinear (hr : Readable (commFile m)) (hs : m.analyses = pre ++ a :: post) {v : Nat}
    {p : Option (Nat × List LoadSet)} (hk : a.kind = .nonLinear v p) :
    m.contacts.length ≤ 1 ∧ (∀ l ∈ a.loadSets, l.skipped = false) ∧
      ∀ q ∈ p, Among pre q.1 ∧ ∀ l ∈ q.2, l.skipped = false := by
  have hw : writeAnalysis m a = nonLinear m a v p := by simp [writeAnalysis, hk]
  have h1 : m.contacts.length ≤ 1 := by
    by_contra hn
    refine body_valid hr hs (write_mem ?_)
    rw [hw]
    simp [nonLinear, show 1 < m.contacts.length by omega]
  have hn : ¬ 1 < m.contacts.length := by omega
  obtain ⟨z, hz⟩ := write_split (m := m) (a := a) (c := .define (.num .RESU a.id) .resultat (m.common ++ previousUses a.id p ++
    (a.loadSets.flatMap fun l => [(l.name, .charge), (.num .RAMP a.id, .fonction)]) ++
    ((a.constraintSets.filter fun c => !c.hasContacts && !c.empty).map fun c => (c.name, .charge)) ++
    (m.contacts.map fun c => (c.name, .contact)) ++ [(.num .LAUTO a.id, .listInst), (.pad .LST v, .listReel)])) (y := [])
    (x := [.define (.pad .LST v) .listReel [], .define (.num .LAUTO a.id) .listInst [(.pad .LST v, .listReel)],
      .define (.num .RAMP a.id) .fonction []] ++ previousRamp a.id p) (by
        rw [hw, nonLinear]
        simp only [if_neg hn])
  have hmem : Cmd.define (.num .RESU a.id) .resultat (m.common ++ previousUses a.id p ++
    (a.loadSets.flatMap fun l => [(l.name, .charge), (.num .RAMP a.id, .fonction)]) ++
    ((a.constraintSets.filter fun c => !c.hasContacts && !c.empty).map fun c => (c.name, .charge)) ++
    (m.contacts.map fun c => (c.name, .contact)) ++ [(.num .LAUTO a.id, .listInst), (.pad .LST v, .listReel)]) ∈
      analysisBody m a := by
    rw [hz]; simp
  refine ⟨h1, fun l hl => load_use hr hs hmem (l := l) (k := .charge) ?_, ?_⟩
  · simp only [Cmd.uses, List.mem_append, List.mem_flatMap]
    exact .inl (.inl (.inl (.inr ⟨l, hl, by simp⟩)))
  · intro q hq
    rw [Option.mem_def] at hq
    subst hq
    refine ⟨resu_use hr hs hz (i := q.1) (k := .resultat) ?_ ?_, fun l hl => load_use hr hs hmem (l := l) (k := .charge) ?_⟩
    · simp [Cmd.uses, previousUses]
    · intro u hu
      simp [previousRamp] at hu
      rcases hu with rfl | rfl | rfl | rfl <;> simp
    · simp only [Cmd.uses, List.mem_append, previousUses, List.mem_flatMap]
      exact .inl (.inl (.inl (.inl (.inr (.inl ⟨l, hl, by simp⟩)))))

theorem need_directFreq (hc : Consistent m) (hr : Readable (commFile m)) (hs : m.analyses = pre ++ a :: post) {v : Nat}
    {st : Bool} (hk : a.kind = .directFreq v st) : Assembled a ∧ Excited m a ∧ v ∈ m.lists := by
  have hw : writeAnalysis m a = directFreq m a v st := by simp [writeAnalysis, hk]
  have hmem : Cmd.define (.num .RESU a.id) .resultat ([(.num .MASS a.id, .matrAsse), (.num .RIGI a.id, .matrAsse),
    (.num (if st then .AMST else .AMOR) a.id, .matrAsse), (.pad .LST v, .listReel)] ++
    a.excitations.flatMap fun x => [(.two .FX a.id x.id, .vectAsse), (.pad .FCT x.table, .fonction)]) ∈ writeAnalysis m a := by
    rw [hw, directFreq]
    exact List.mem_append_right _ (List.mem_singleton.mpr rfl)
  refine ⟨?_, ?_, ?_⟩
  · refine need_assembled hc hr hs (b := false) fun c h => ?_
    rw [hw, directFreq]
    simp only [List.mem_append]
    exact .inl (.inl (.inl h))
  · refine need_excited hr hs (by rw [hw, directFreq]) hmem ?_
    intro y hy
    simp only [Cmd.uses, List.mem_append, List.mem_flatMap]
    exact .inr ⟨y, hy, by simp⟩
  · refine list_use hc hr hs (write_mem hmem) (by simp [Cmd.uses]) (by simp [hk, frequencyList])

theorem need_response (hc : Consistent m) (hr : Readable (commFile m)) (hs : m.analyses = pre ++ a :: post) {f : Method}
    {d : Nat} {n : Name} {residual : Bool} {damping : Option (DampingKind × Nat)} {e v : Nat} {k : FrequencyKind}
    (hk : a.kind = .modalFreq f residual damping e k v) {x : List Cmd}
    (hw : writeAnalysis m a = x ++ response m a d n residual damping e k v) :
    Excited m a ∧ DampingFine m damping ∧ FrequenciesFine m e v k ∧ a.frequencies = [] := by
  have hgene : Cmd.define (.num .GENE a.id) .harmGene ([(.num .MASSG a.id, .matrGene), (.num .RIGIG a.id, .matrGene),
     (if damping.isSome then (.num .AMMO a.id, .python) else (.num .AMORG a.id, .matrGene)),
     (frequencyName v k, .listReel)] ++
     a.excitations.flatMap fun x => [(.two .VG a.id x.id, .vectGene), (.pad .FCT x.table, .fonction)]) ∈ writeAnalysis m a := by
    rw [hw, response]
    exact List.mem_append_right _ (List.mem_append_right _ (by simp [harmonic]))
  refine ⟨?_, ?_, ?_, ?_⟩
  · refine need_excited hr hs (d := d) (x := x ++ basis a.id d n residual) (z := projection a.id d damping.isSome a.excitations ++
      dampingCmds a.id damping ++ frequencyCmds a.id e k ++ harmonic a damping.isSome (frequencyName v k))
      (by rw [hw, response]; simp only [List.append_assoc]) hgene ?_
    intro y hy
    simp only [Cmd.uses, List.mem_append, List.mem_flatMap]
    exact .inr ⟨y, hy, by simp⟩
  · rcases damping with _ | ⟨dk, t⟩
    · trivial
    · have hsub : ∀ c ∈ dampingCmds a.id (some (dk, t)), c ∈ analysisBody m a := by
        intro c h
        refine write_mem ?_
        rw [hw, response]
        simp only [List.mem_append]
        exact .inr (.inl (.inl (.inr h)))
      cases dk with
      | crit =>
        refine fct_use hr hs (hsub (.define (.num .AMMOI a.id) .fonction
          [(.pad .FCT t, .fonction), (.num .pfreq a.id, .python)]) (by simp [dampingCmds])) (by simp [Cmd.uses])
      | g =>
        rcases use_file hr hs (hsub (.define (.num .AMMOS a.id) .fonction [(.num .bare a.id, .fonction)])
          (by simp [dampingCmds])) (u := (.num .bare a.id, .fonction)) (by simp [Cmd.uses]) with h | ⟨b, _, h⟩ | h
        · exact absurd h global_num
        · exact h.elim
        · exact h.elim
  · cases k with
    | other =>
      exact list_use hc hr hs (write_mem hgene) (by simp [Cmd.uses, frequencyName]) (by simp [hk, frequencyList])
    | interpolate =>
      have hmem : Cmd.define (.num .efreq a.id) .python [(.plain .freqList, .python)] ∈ analysisBody m a := by
        refine write_mem ?_
        rw [hw, response]
        simp only [List.mem_append]
        exact .inr (.inl (.inr (by simp [frequencyCmds])))
      exact absurd rfl (plain_of (plain_use hr hs hmem (t := .freqList) (k := .python) (by simp [Cmd.uses]))).2.1
    | spread =>
      -- the list is not left by an analysis before
      obtain ⟨e0, e1, h1, h2⟩ := body_runs hr hs
      have h0 : e0 (.pad .LSPR v) = none := by
        rw [run_append] at h1
        cases hp : run Env.empty (prelude m) with
        | none => rw [hp] at h1; cases h1
        | some ep =>
          rw [hp] at h1
          refine steps_lspr h1 ?_
          cases hv : ep (.pad .LSPR v) with
          | none => rfl
          | some kd =>
            rcases run_some hp _ _ hv with h | h
            · cases h
            · exact absurd h lspr_global
      obtain ⟨x1, y1, hb⟩ := List.append_of_mem (write_mem hgene)
      rw [hb, run_append] at h2
      cases hx : run e0 x1 with
      | none => rw [hx] at h2; cases h2
      | some e2 =>
        rw [hx] at h2
        simp only [Option.bind_some, run] at h2
        split at h2
        · cases h2
        · rename_i e3 hst
          have hu := step_uses hst (.pad .LSPR v, .listReel) (by simp [Cmd.uses, frequencyName])
          rcases run_some hx _ _ hu with h | h
          · rw [h0] at h; cases h
          · have hd : (Name.pad .LSPR v, Kind.listReel) ∈ defsOf (analysisBody m a) := by
              rw [hb, defsOf_append, List.mem_append]; exact .inl h
            obtain ⟨f', r', d', e', k', w', hk', hin⟩ := lspr_defs _ hd rfl
            rw [hk] at hk'
            simp only [AnalysisKind.modalFreq.injEq] at hk'
            obtain ⟨_, _, _, rfl, rfl, _⟩ := hk'
            simp [frequencyCmds] at hin
            exact hin.symm
  · by_contra hne
    refine body_valid hr hs (write_mem ?_)
    rw [hw, response]
    refine List.mem_append_right _ (List.mem_append_right _ ?_)
    cases hf : a.frequencies with
    | nil => exact absurd hf hne
    | cons y ys => simp [harmonic, physical, hf]

end kinds

/-! ## All requirements -/

section all
variable {m : CommModel} {pre post : List Analysis} {a : Analysis}

theorem reusedIn_some {a : Analysis} {s : Bool} {l : List Analysis} (h : reusedIn m a s l = true) :
    ∃ b ∈ l, ∃ r, m.reusableFor b = some r ∧ r.id = a.id := by
  induction l generalizing s with
  | nil => simp [reusedIn] at h
  | cons b l ih =>
    have key : ∀ s, reusedIn m a s l = true → ∃ b' ∈ b :: l, ∃ r, m.reusableFor b' = some r ∧ r.id = a.id := by
      intro s h
      obtain ⟨c, hc, r, h1, h2⟩ := ih h
      exact ⟨c, by simp [hc], r, h1, h2⟩
    rw [reusedIn] at h
    split at h
    · exact key _ h
    · split at h
      · exact key _ h
      · split at h
        · exact key _ h
        · rename_i r hr
          split at h
          · rename_i he
            exact ⟨b, by simp, r, hr, he⟩
          · exact key _ h

/-- The names that no command defines cannot be used: `MOD…` is never defined. -/
theorem need_reuse (hr : Readable (commFile m)) (hs : m.analyses = pre ++ a :: post) {r : Analysis}
    (h : m.reusableFor a = some r) : ∃ f, r.kind = .modal f := by
  by_contra hn
  have hname : reusedName r = .num .MOD r.id := by
    unfold reusedName
    cases hk : r.kind with
    | modal f => exact absurd ⟨f, hk⟩ hn
    | _ => rfl
  have hkind : ∃ f b d e k v, a.kind = .modalFreq f b d e k v := by
    by_contra hk
    have := reusable_none (a := a) (fun f b d e k v he => hk ⟨f, b, d, e, k, v, he⟩) m
    rw [this] at h
    cases h
  obtain ⟨f, b, d, e, k, v, hk⟩ := hkind
  have hmem : pfreqCmd a.id (.num .MOD r.id) ∈ analysisBody m a := by
    refine write_mem ?_
    simp [writeAnalysis, hk, h, hname]
  rcases use_file hr hs hmem (u := (.num .MOD r.id, .resultat)) (by simp [pfreqCmd, Cmd.uses]) with h | ⟨b, _, h⟩ | h
  · exact absurd h global_num
  · exact h.elim
  · exact h.elim

/-- The results of the analyses that others use have to be defined. -/
theorem need_result (hc : Consistent m) (hr : Readable (commFile m)) (hs : m.analyses = pre ++ a :: post) {b : Analysis}
    (hb : b ∈ m.analyses) {c : Cmd} (hcb : c ∈ analysisBody m b) (hu : (Name.num .RESU a.id, Kind.resultat) ∈ c.uses) :
    ∀ f, a.kind ≠ .modalComplex f := by
  have ha : a ∈ m.analyses := by rw [hs]; simp
  obtain ⟨p, q, hpq⟩ := List.append_of_mem hb
  have key : ∀ d ∈ m.analyses, Possible d (.num .RESU a.id, .resultat) → ∀ f, a.kind ≠ .modalComplex f := by
    intro d hd h
    have : a = d := List.inj_on_of_nodup_map hc.analyses ha hd h.1
    rw [this]
    exact h.2
  rcases use_file hr hpq hcb hu with h | ⟨d, hd, h⟩ | h
  · exact absurd h global_num
  · exact key d (by rw [hpq]; simp [hd]) h
  · exact key b hb h

theorem need_next (hc : Consistent m) (hr : Readable (commFile m)) (hs : m.analyses = pre ++ a :: post)
    (h : m.usedInNext a = true) : ∀ f, a.kind ≠ .modalComplex f := by
  rw [CommModel.usedInNext, List.any_eq_true] at h
  obtain ⟨b, hb, h⟩ := h
  obtain ⟨p, q, hpq⟩ := List.append_of_mem hb
  cases hk : b.kind with
  | combination parts =>
    simp only [hk, List.contains_iff_mem] at h
    refine need_result hc hr hs hb (c := .define (.two .D b.id a.id) .champ [(.num .RESU a.id, .resultat)]) ?_
      (by simp [Cmd.uses])
    refine write_mem ?_
    simp only [writeAnalysis, hk, combination, List.mem_append, List.mem_map]
    exact .inl ⟨a.id, h, rfl⟩
  | nonLinear v p' =>
    cases p' with
    | none => simp [hk] at h
    | some p' =>
      simp only [hk, beq_iff_eq] at h
      have hn : ¬ 1 < m.contacts.length := by
        have := (need_nonLinear hr hpq hk).1
        omega
      refine need_result hc hr hs hb (c := .define (.num .RESU b.id) .resultat (m.common ++ previousUses b.id (some p') ++
        (b.loadSets.flatMap fun l => [(l.name, .charge), (.num .RAMP b.id, .fonction)]) ++
        ((b.constraintSets.filter fun c => !c.hasContacts && !c.empty).map fun c => (c.name, .charge)) ++
        (m.contacts.map fun c => (c.name, .contact)) ++ [(.num .LAUTO b.id, .listInst), (.pad .LST v, .listReel)])) ?_ ?_
      · refine write_mem ?_
        simp only [writeAnalysis, hk, nonLinear, if_neg hn]
        exact List.mem_append_right _ (List.mem_singleton.mpr rfl)
      · simp [Cmd.uses, previousUses, h]
  | buckling f i =>
    simp only [hk, beq_iff_eq] at h
    refine need_result hc hr hs hb (c := .define (.num .FSIG b.id) .champ [(.num .RESU i, .resultat)]) ?_ (by simp [Cmd.uses, h])
    exact write_mem (by simp [writeAnalysis, hk, bucklingCmds])
  | linearStatic => simp [hk] at h
  | directFreq v st => simp [hk] at h
  | modal f => simp [hk] at h
  | modalComplex f => simp [hk] at h
  | modalFreq f residual damping e k v => simp [hk] at h

theorem need_complex (hc : Consistent m) (hr : Readable (commFile m)) (hs : m.analyses = pre ++ a :: post) (f : Method) :
    a.kind ≠ .modalComplex f := by
  have ha : a ∈ m.analyses := by rw [hs]; simp
  by_cases h1 : m.usedInNext a = true
  · exact need_next hc hr hs h1 f
  by_cases h2 : m.canBeReused a = true
  · obtain ⟨b, hb, r, h3, h4⟩ := reusedIn_some h2
    obtain ⟨p, q, hpq⟩ := List.append_of_mem hb
    have hrm : r ∈ m.analyses := by
      have := (canBeReused_of hc hpq h3).1
      rw [hpq]; simp [this]
    have : r = a := List.inj_on_of_nodup_map hc.analyses hrm ha h4
    obtain ⟨g, hg⟩ := need_reuse hr hpq h3
    rw [this] at hg
    simp [hg]
  · intro hk
    have hd : Cmd.destroy (destroyed m a) ∈ commFile m := by rw [file_split hs]; simp
    obtain ⟨k, hk'⟩ := destroyed_defined' hr hd (.num .RESU a.id) (by
      simp only [destroyed, List.mem_append]
      exact .inr (by simp [h1, h2]))
    rw [commFile, defsOf_append, defsOf_flatMap, List.mem_append, List.mem_flatMap] at hk'
    rcases hk' with h | ⟨b, hb, h⟩
    · exact global_num h
    · rw [cmds_defs] at h
      have hp := body_possible _ h
      have : a = b := List.inj_on_of_nodup_map hc.analyses ha hb hp.1
      exact hp.2 f (this ▸ hk)

/-- What a readable file says about each of its analyses. -/
theorem fine_of_readable (hc : Consistent m) (hr : Readable (commFile m)) (hs : m.analyses = pre ++ a :: post) :
    Fine m pre a := by
  refine ⟨?_, ?_, ?_⟩
  · cases hk : a.kind with
    | combination parts => exact need_combination hr hs hk
    | linearStatic => exact need_static hc hr hs hk
    | nonLinear v p => exact need_nonLinear hr hs hk
    | directFreq v st => exact need_directFreq hc hr hs hk
    | modal f =>
      refine need_assembled hc hr hs (b := false) fun c h => ?_
      simp only [writeAnalysis, hk, modesOf, List.mem_append]
      exact .inl (.inl h)
    | modalComplex f => exact absurd hk (need_complex hc hr hs f)
    | modalFreq f residual damping e k v =>
      have hresp : Excited m a ∧ DampingFine m damping ∧ FrequenciesFine m e v k ∧ a.frequencies = [] := by
        cases h : m.reusableFor a with
        | none => exact need_response hc hr hs hk (by simp only [writeAnalysis, hk, h]; rfl)
        | some r => exact need_response hc hr hs hk (by simp only [writeAnalysis, hk, h]; rfl)
      refine ⟨fun h => ?_, fun r h => need_reuse hr hs h, hresp⟩
      refine need_assembled hc hr hs (b := false) fun c h' => ?_
      simp only [writeAnalysis, hk, h, modesOf, List.mem_append]
      exact .inl (.inl (.inl h'))
    | buckling f i =>
      refine ⟨?_, ?_⟩
      · refine need_assembled hc hr hs (b := true) fun c h => ?_
        simp only [writeAnalysis, hk, bucklingCmds, List.cons_append, List.mem_cons, List.mem_append]
        exact .inr (.inl h)
      · obtain ⟨z, hz⟩ := write_split (m := m) (a := a) (x := []) (c := .define (.num .FSIG a.id) .champ [(.num .RESU i, .resultat)])
          (y := _) (by simp only [writeAnalysis, hk, bucklingCmds]; rfl)
        exact resu_use hr hs hz (i := i) (k := .resultat) (by simp [Cmd.uses]) (by simp)
  · intro hd
    by_contra hne
    refine body_valid hr hs ?_
    simp only [analysisBody, List.mem_append]
    refine .inr ?_
    cases hf : a.frequencies with
    | nil => exact absurd hf hne
    | cons x xs => simp [printPost, displacementTable, hd, hf]
  · intro hf
    have hu : (frequencyResult m a, Kind.resultat) ∈ (Cmd.call (assertionUses m a)).uses := by
      simp only [Cmd.uses, assertionUses, List.mem_flatMap]
      exact ⟨_, hf, by simp⟩
    have hmem : Cmd.call (assertionUses m a) ∈ analysisBody m a := by simp [analysisBody]
    have hne : ∀ b ∈ pre, b.id ≠ a.id := by
      have hnd := hc.analyses
      rw [hs, List.map_append, List.map_cons, List.nodup_append] at hnd
      exact fun b hb h => hnd.2.2 b.id (List.mem_map.mpr ⟨b, hb, rfl⟩) a.id (by simp) h
    have key : frequencyResult m a = .num .UMO a.id → (∃ f, a.kind = .modalComplex f) ∨
        ∃ f r d e k v, a.kind = .modalFreq f r d e k v := by
      intro h
      rw [h] at hu
      rcases use_file hr hs hmem hu with h | ⟨b, hb, h⟩ | h
      · exact absurd h global_num
      · exact absurd h.1.symm (hne b hb)
      · exact h.2
    cases hk : a.kind with
    | modal f => trivial
    | modalFreq f residual damping e k v => trivial
    | buckling f i => trivial
    | modalComplex f => exact absurd hk (need_complex hc hr hs f)
    | combination parts =>
      have hn := reusable_none (a := a) (by simp [hk]) m
      have := key (by simp [frequencyResult, hn, hk])
      simp [hk] at this
    | linearStatic =>
      have hn := reusable_none (a := a) (by simp [hk]) m
      have := key (by simp [frequencyResult, hn, hk])
      simp [hk] at this
    | nonLinear v p =>
      have hn := reusable_none (a := a) (by simp [hk]) m
      have := key (by simp [frequencyResult, hn, hk])
      simp [hk] at this
    | directFreq v st =>
      have hn := reusable_none (a := a) (by simp [hk]) m
      have := key (by simp [frequencyResult, hn, hk])
      simp [hk] at this

/-! ## C105 -/

/-- C105: which files are read to their end. For the models that the program builds, with elements: exactly those whose
analyses are all fine. -/
theorem C105_readable {m : CommModel} (hc : Consistent m) (he : m.elements = true) :
    Readable (commFile m) ↔ ∀ pre a post, m.analyses = pre ++ a :: post → Fine m pre a :=
  ⟨fun hr _ _ _ hs => fine_of_readable hc hr hs, fun h => C105_names_partial ⟨hc, he, h⟩⟩

/-- C105 fails with every complex modal analysis: its result is destroyed or used under a name that is never defined. -/
theorem C105_complex_false (hc : Consistent m) (ha : a ∈ m.analyses) {f : Method} (hk : a.kind = .modalComplex f) :
    ¬ Readable (commFile m) := by
  intro hr
  obtain ⟨pre, post, hs⟩ := List.append_of_mem ha
  exact need_complex hc hr hs f hk

/-- C105 fails when a response reuses the modes of an analysis that is not `LINEAR_MODAL`: two responses with the same search
of frequencies and the same constraints are enough. -/
theorem C105_reuse_false (ha : a ∈ m.analyses) {r : Analysis} (h : m.reusableFor a = some r)
    (hk : ∀ f, r.kind ≠ .modal f) : ¬ Readable (commFile m) := by
  intro hr
  obtain ⟨pre, post, hs⟩ := List.append_of_mem ha
  obtain ⟨f, hf⟩ := need_reuse hr hs h
  exact hk f hf

/-- C105 fails with interpolated frequencies: the name `freqList` is never defined. -/
theorem C105_interpolate_false (hc : Consistent m) (ha : a ∈ m.analyses) {f b d e v}
    (hk : a.kind = .modalFreq f b d e .interpolate v) : ¬ Readable (commFile m) := by
  intro hr
  obtain ⟨pre, post, hs⟩ := List.append_of_mem ha
  have := (fine_of_readable hc hr hs).kind
  rw [hk] at this
  exact this.2.2.2.2.1

/-- C105 fails with structural damping given by a table: a number is written in place of the name of a function. -/
theorem C105_damping_false (hc : Consistent m) (ha : a ∈ m.analyses) {f b t e k v}
    (hk : a.kind = .modalFreq f b (some (.g, t)) e k v) : ¬ Readable (commFile m) := by
  intro hr
  obtain ⟨pre, post, hs⟩ := List.append_of_mem ha
  have := (fine_of_readable hc hr hs).kind
  rw [hk] at this
  exact this.2.2.2.1

/-- C105 fails with spread frequencies unless the number of the excitation is that of its value: the list is defined with one
and used with the other. -/
theorem C105_spread_false (hc : Consistent m) (ha : a ∈ m.analyses) {f b d e v}
    (hk : a.kind = .modalFreq f b d e .spread v) (hne : e ≠ v) : ¬ Readable (commFile m) := by
  intro hr
  obtain ⟨pre, post, hs⟩ := List.append_of_mem ha
  have := (fine_of_readable hc hr hs).kind
  rw [hk] at this
  exact hne this.2.2.2.2.1

/-- C105 fails when frequencies are asked for in a response: two commas follow each other. -/
theorem C105_outputs_false (hc : Consistent m) (ha : a ∈ m.analyses) {f b d e k v}
    (hk : a.kind = .modalFreq f b d e k v) (hf : a.frequencies ≠ []) : ¬ Readable (commFile m) := by
  intro hr
  obtain ⟨pre, post, hs⟩ := List.append_of_mem ha
  have := (fine_of_readable hc hr hs).kind
  rw [hk] at this
  exact hf this.2.2.2.2.2

/-- C105 fails when a static analysis has a set of loads that is not written, for example one with temperatures: nothing
follows `CHARGE=`. -/
theorem C105_loads_false (hc : Consistent m) (ha : a ∈ m.analyses) (hk : a.isStatic = true) {l : LoadSet}
    (hl : l ∈ a.loadSets) (h : l.skipped = true) : ¬ Readable (commFile m) := by
  intro hr
  obtain ⟨pre, post, hs⟩ := List.append_of_mem ha
  have := (fine_of_readable hc hr hs).kind
  cases hk' : a.kind <;> simp [Analysis.isStatic, hk'] at hk <;> rw [hk'] at this
  · rw [this.1 l hl] at h; cases h
  · rw [this.2.1 l hl] at h; cases h

/-- C105 fails when a linear static analysis has a set of constraints with a contact: a contact is given as a load. -/
theorem C105_mixed_false (hc : Consistent m) (ha : a ∈ m.analyses) (hk : a.kind = .linearStatic) {c : ConstraintSet}
    (hca : c ∈ a.constraintSets) (h1 : c.empty = false) (h2 : c.hasContacts = true) : ¬ Readable (commFile m) := by
  intro hr
  obtain ⟨pre, post, hs⟩ := List.append_of_mem ha
  have := (fine_of_readable hc hr hs).kind
  rw [hk] at this
  rcases this.2 c hca with h | h
  · rw [h] at h1; cases h1
  · rw [h] at h2; cases h2

/-- C105 fails when a model with two sets with contacts has a nonlinear analysis: a keyword is given twice. -/
theorem C105_contacts_false (hc : Consistent m) (ha : a ∈ m.analyses) {v p} (hk : a.kind = .nonLinear v p)
    (h : 1 < m.contacts.length) : ¬ Readable (commFile m) := by
  intro hr
  obtain ⟨pre, post, hs⟩ := List.append_of_mem ha
  have := (fine_of_readable hc hr hs).kind
  rw [hk] at this
  have := this.1
  omega

/-- C105 fails when a modal or buckling analysis has a set of constraints that is empty, has contacts only or has functions:
the matrices refer to `BL…`, which is not defined. -/
theorem C105_assembly_false (hc : Consistent m) (ha : a ∈ m.analyses)
    (hk : (∃ f, a.kind = .modal f) ∨ (∃ f i, a.kind = .buckling f i) ∨ ∃ v s, a.kind = .directFreq v s) {c : ConstraintSet}
    (hca : c ∈ a.constraintSets) (h : c.empty = true ∨ c.contactOnly = true ∨ c.functions = true) :
    ¬ Readable (commFile m) := by
  intro hr
  obtain ⟨pre, post, hs⟩ := List.append_of_mem ha
  have := (fine_of_readable hc hr hs).kind
  have hass : Assembled a := by
    rcases hk with ⟨f, hk⟩ | ⟨f, i, hk⟩ | ⟨v, s, hk⟩ <;> rw [hk] at this
    · exact this
    · exact this.1
    · exact this.1
  obtain ⟨h1, h2, h3⟩ := hass c hca
  simp [h1, h2, h3] at h

/-- C105 fails when a combination is written for a model without materials. -/
theorem C105_combination_false (hc : Consistent m) (ha : a ∈ m.analyses) {parts} (hk : a.kind = .combination parts)
    (h : m.materials = false) : ¬ Readable (commFile m) := by
  intro hr
  obtain ⟨pre, post, hs⟩ := List.append_of_mem ha
  have := (fine_of_readable hc hr hs).kind
  rw [hk] at this
  rw [this.1] at h
  cases h

/-- C105 fails when a combination comes before one of the analyses that it combines. -/
theorem C105_order_false (hc : Consistent m) (hs : m.analyses = pre ++ a :: post) {parts} (hk : a.kind = .combination parts)
    {p : Nat} (hp : p ∈ parts) (h : ∀ b ∈ pre, b.id ≠ p) : ¬ Readable (commFile m) := by
  intro hr
  have := (fine_of_readable hc hr hs).kind
  rw [hk] at this
  obtain ⟨b, hb, he⟩ := this.2.2 p hp
  exact h b hb he

/-- C105 fails for a static analysis of a model without element sets: `CAEL` is used and not defined. -/
theorem C105_elements_false (ha : a ∈ m.analyses) (hk : a.isStatic = true) (he : m.elements = false) :
    ¬ Readable (commFile m) := by
  intro hr
  obtain ⟨pre, post, hs⟩ := List.append_of_mem ha
  have hmem : Cmd.call ((.num .RESU a.id, .resultat) :: m.common) ∈ analysisBody m a := by
    simp only [analysisBody, List.mem_append]
    exact .inl (.inl (.inl (.inr (by simp [staticPost, hk]))))
  have := (plain_of (plain_use hr hs hmem (t := .CAEL) (k := .caraElem) (by simp [Cmd.uses, CommModel.common]))).2.2.2 rfl
  rw [this] at he
  cases he

/-- Where a response reuses modes, they are those of an earlier analysis with the same constraints and the same search: the
modes that would be computed for the response. -/
theorem C105_reused (hc : Consistent m) (hs : m.analyses = pre ++ a :: post) {r : Analysis} (h : m.reusableFor a = some r) :
    r ∈ pre ∧ r.constraintSets = a.constraintSets ∧ r.modalMethod = a.modalMethod ∧ a.modalMethod.isSome = true := by
  refine ⟨(canBeReused_of hc hs h).1, ?_⟩
  have key : ∀ l : List Analysis, reusableIn a l = some r → a.canReuse r = true := by
    intro l
    induction l with
    | nil => simp [reusableIn]
    | cons b l ih =>
      rw [reusableIn]
      split
      · simp
      · split
        · rename_i hb
          intro e
          simp only [Option.some.injEq] at e
          rw [← e]; exact hb
        · exact ih
  have hr := key _ h
  unfold Analysis.canReuse at hr
  split at hr
  · rename_i f b d e k v hk
    simp only [Bool.and_eq_true, decide_eq_true_eq] at hr
    have : a.modalMethod = some f := by simp [Analysis.modalMethod, hk]
    exact ⟨hr.2, hr.1.trans this.symm, by simp [this]⟩
  · cases hr

end all

/-! ## Lengths -/

theorem decimal_length {k n : Nat} (h : n < 10 ^ (k + 1)) : (decimal n).length ≤ k + 1 := by
  have : (Nat.toDigits 10 n).length ≤ k + 1 := by
    rw [Nat.length_toDigits_le_iff (by omega) (by omega)]
    exact h
  simpa [decimal] using this

/-- The names that Code_Aster limits to 8 characters, where every number is less than 1000 and the two numbers of a vector
less than 100: these are short enough. -/
theorem C105_length_partial : ∀ n : Name,
    (match n with
      | .plain _ => True
      | .set _ i => i < 1000
      | .num _ i => i < 1000
      | .pad _ i => i < 10000
      | .two _ i j => i < 1000 ∧ j < 100) → n.text.length ≤ 8 := by
  intro n h
  cases n with
  | plain t => cases t <;> decide +kernel
  | set t i =>
    have h1 := decimal_length (k := 2) h
    have h2 : t.text.length ≤ 5 := by cases t <;> decide +kernel
    simp only [Name.text, List.length_append]; omega
  | num t i =>
    have h1 := decimal_length (k := 2) h
    have h2 : t.text.length ≤ 5 := by cases t <;> decide +kernel
    simp only [Name.text, List.length_append]; omega
  | pad t i =>
    have h1 := decimal_length (k := 3) h
    have h2 : t.text.length + t.width ≤ 8 := by cases t <;> decide +kernel
    have h3 : 4 ≤ t.width := by cases t <;> decide +kernel
    simp only [Name.text, padded, List.length_append, List.length_replicate]; omega
  | two t i j =>
    have h1 := decimal_length (k := 2) h.1
    have h2 := decimal_length (k := 1) h.2
    have h3 : t.text.length ≤ 2 := by cases t <;> decide +kernel
    simp only [Name.text, List.length_append, List.length_cons]; omega

/-- Names of the forces of an excitation with a number of 5 digits are too long, whatever the analysis. -/
theorem C105_length_false (i : Nat) : 8 < (Name.two .FX i 10000).text.length := by
  have h1 : 0 < (decimal i).length := List.length_pos_iff.mpr (decimal_ne_nil i)
  have h2 : (decimal 10000).length = 5 := by decide +kernel
  have h3 : SubTag.FX.text.length = 2 := by decide +kernel
  simp only [Name.text, List.length_append, List.length_cons]; omega

/-! ## An example -/

/-- A model with most kinds of analyses: a static one, a nonlinear one that starts from it, the buckling under it, a
combination, modes, two responses that reuse them, a direct response. -/
def demo : CommModel :=
  let c1 : ConstraintSet := ⟨1, false, false, false, false⟩
  let c2 : ConstraintSet := ⟨2, false, true, true, false⟩
  let l1 : LoadSet := ⟨1, false, false, false, false, []⟩
  let l2 : LoadSet := ⟨2, true, false, false, false, [⟨1, 1, 7⟩]⟩
  { constraintSets := [c1, c2], loadSets := [l1, l2], materials := true, elements := true, sigma := true, beams := true,
    lists := [3], tables := [7, 8],
    analyses := [
      ⟨1, .linearStatic, [l1], [c1], [.field], true, [], true⟩,
      ⟨2, .nonLinear 11 (some (1, [l1])), [l1], [c1, c2], [.field, .frequency false], false, [], false⟩,
      ⟨3, .buckling ⟨false, 0⟩ 1, [l1], [c1], [.frequency true], false, [], false⟩,
      ⟨4, .combination [1, 2], [], [], [], true, [], false⟩,
      ⟨5, .modal ⟨false, 4⟩, [], [c1], [.frequency true], false, [], false⟩,
      ⟨6, .modalFreq ⟨false, 4⟩ true (some (.crit, 8)) 5 .spread 5, [l2], [c1], [.field, .frequency true], true, [], true⟩,
      ⟨7, .modalFreq ⟨false, 4⟩ false none 6 .other 3, [l2], [c1], [], false, [], false⟩,
      ⟨8, .directFreq 3 true, [l2], [c1], [.field], false, [3], false⟩] }

theorem demo_consistent : Consistent demo where
  analyses := by decide
  constraints := by decide
  loads := by decide
  lists := by decide
  tables := by decide
  contacts := by decide
  ownConstraints := by decide
  ownLoads := by decide
  ownPrevious := by simp [demo]
  instants := by simp [demo]
  newInstants := by simp [demo, frequencyList]
  ownInstants := by simp [demo]

theorem demo_readable : Readable (commFile demo) :=
  Option.isSome_iff_exists.mp (by decide +kernel : (run Env.empty (commFile demo)).isSome = true)

/-- The model meets the conditions of C105. -/
example : Supported demo := ⟨demo_consistent, rfl, (C105_readable demo_consistent rfl).mp demo_readable⟩

/-- Two responses with the same search and the same constraints: the second reuses the modes of the first. -/
def demoReuse : CommModel :=
  { demo with analyses := [
      ⟨6, .modalFreq ⟨false, 4⟩ true none 5 .spread 5, [], [], [], true, [], true⟩,
      ⟨7, .modalFreq ⟨false, 4⟩ false none 6 .other 3, [], [], [], false, [], false⟩] }

example : ¬ Readable (commFile demoReuse) :=
  C105_reuse_false (m := demoReuse) (a := ⟨7, .modalFreq ⟨false, 4⟩ false none 6 .other 3, [], [], [], false, [], false⟩)
    (by simp [demoReuse]) (r := ⟨6, .modalFreq ⟨false, 4⟩ true none 5 .spread 5, [], [], [], true, [], true⟩)
    (by decide +kernel) (by simp)

end Aster
end Vega
