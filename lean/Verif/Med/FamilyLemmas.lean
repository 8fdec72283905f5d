import Verif.Med.Families

import Mathlib.Data.Nat.Digits.Defs
import Mathlib.Tactic.Linarith

/-! # Lemmas for C94 -/
namespace Vega.Med

theorem decimal_inj {a b : Nat} (h : decimal a = decimal b) : a = b := by
  have h1 : (Nat.toDigits 10 a) = Nat.toDigits 10 b := by
    have : ∀ n, decimal n = Nat.toDigits 10 n := by
      intro n
      simp [decimal, Nat.repr]
    rw [this, this] at h
    exact h
  have := congrArg (fun l => Nat.ofDigitChars 10 l 0) h1
  simpa [Nat.ofDigitChars_toDigits] using this

theorem decimal_bar (n : Nat) : '_' ∉ decimal n := by
  intro h
  have e : decimal n = Nat.toDigits 10 n := by simp [decimal, Nat.repr]
  rw [e] at h
  have := Nat.isDigit_of_mem_toDigits (by omega) (by omega) h
  revert this
  decide

/-- Names joined with `_`. -/
def join (l : List Text) : Text := ['_'].intercalate l

theorem join_concat (l : List Text) (hl : l ≠ []) (g : Text) : join (l ++ [g]) = join l ++ '_' :: g := by
  induction l with
  | nil => exact absurd rfl hl
  | cons a l ih =>
    cases l with
    | nil => simp [join, List.intercalate]
    | cons b l =>
      have := ih (by simp)
      simp only [join, List.intercalate, List.cons_append, List.intersperse_cons_cons, List.flatten_cons] at this ⊢
      rw [this]
      simp

theorem join_inj {l l' : List Text} (hl : l ≠ []) (hl' : l' ≠ []) (h : ∀ x ∈ l, '_' ∉ x) (h' : ∀ x ∈ l', '_' ∉ x)
    (e : join l = join l') : l = l' := by
  have e1 := List.splitOn_intercalate '_' h hl
  have e2 := List.splitOn_intercalate '_' h' hl'
  unfold join at e
  rw [e, e2] at e1
  exact e1.symm

/-- The groups of the family with this number. -/
def groupsOf (s : Numbering) (n : Int) : List Text := oldGroups (s.byId.find n)

/-- 0 or the number of a family. -/
def Known (s : Numbering) (n : Int) : Prop := n = 0 ∨ ∃ f, s.byId.find n = some f

/-- How the name of a family was made. -/
def Named (label : Text) (s : Numbering) (f : Family) : Prop :=
  ∃ toks, toks ≠ [] ∧ f.name = join toks ∧
    (toks = f.groups ∨ ∃ (m : Int) (f' : Family) (l : List Text), s.byId.find m = some f' ∧
      toks = (label ++ decimal m.natAbs) :: l ∧ f.groups = f'.groups ++ l)

/-- Invariant of the loops: `past` are the names of the groups before this one. -/
structure Good (σ : Int) (label : Text) (past : List Text) (group : Text) (s : Numbering) : Prop where
  zero : s.byId.find 0 = none
  cur : 0 ≤ σ * s.current
  keys : ∀ n f, s.byId.find n = some f → f.num = n ∧ 0 < σ * n ∧ σ * n ≤ σ * s.current ∧ f.groups ≠ []
  old : ∀ o n, s.byOld.find o = some n →
    (∃ f, s.byId.find n = some f) ∧ Known s o ∧ groupsOf s n = groupsOf s o ++ [group]
  inj : ∀ i j, Known s i → Known s j → groupsOf s i = groupsOf s j → i = j
  within : ∀ n, group ∈ groupsOf s n → ∃ o, s.byOld.find o = some n
  sub : ∀ n f, s.byId.find n = some f → ∀ x ∈ f.groups, x ∈ past ∨ x = group
  named : ∀ n f, s.byId.find n = some f → Named label s f

theorem good_init (σ : Int) (label : Text) (g : Text) : Good σ label [] g Numbering.init := by
  refine ⟨rfl, by simp [Numbering.init], ?_, ?_, ?_, ?_, ?_, ?_⟩
  · intro n f h; simp [Numbering.init] at h
  · intro n f h; simp [Numbering.init] at h
  · rintro i j (rfl | ⟨f, h⟩) (rfl | ⟨f', h'⟩) _
    · rfl
    · simp [Numbering.init] at h'
    · simp [Numbering.init] at h
    · simp [Numbering.init] at h
  · intro n h; simp [groupsOf, Numbering.init, oldGroups] at h
  · intro n f h; simp [Numbering.init] at h
  · intro n f h; simp [Numbering.init] at h

/-- The next group begins. -/
theorem good_next {σ : Int} {label : Text} {past : List Text} {g g' : Text} {s : Numbering} (h : Good σ label past g s)
    (hg : g' ∉ past ++ [g]) : Good σ label (past ++ [g]) g' { s with byOld := [] } := by
  refine ⟨h.zero, h.cur, h.keys, ?_, h.inj, ?_, ?_, h.named⟩
  · intro o n hn; simp at hn
  · intro n hn
    exfalso
    unfold groupsOf at hn
    simp only at hn
    cases e : s.byId.find n with
    | none => rw [e] at hn; simp [oldGroups] at hn
    | some f =>
      rw [e] at hn
      have := h.sub n f e g' hn
      exact hg (by simpa using this)
  · intro n f hf x hx
    have := h.sub n f hf x hx
    left
    simpa using this

theorem named_mono {label : Text} {s s' : Numbering} (h : ∀ n f, s.byId.find n = some f → s'.byId.find n = some f)
    {f : Family} (hf : Named label s f) : Named label s' f := by
  obtain ⟨toks, h1, h2, h3⟩ := hf
  refine ⟨toks, h1, h2, ?_⟩
  rcases h3 with h3 | ⟨m, f', l, h4, h5⟩
  · exact .inl h3
  · exact .inr ⟨m, f', l, h _ _ h4, h5⟩

theorem newFamily_spec {σ : Int} (hσ : σ = 1 ∨ σ = -1) {label : Text} {past : List Text} {g : Text} {s : Numbering}
    (h : Good σ label past g s) {old : Int} (ho : Known s old) :
    Good σ label past g (newFamily σ label g old s).2 ∧
    Known (newFamily σ label g old s).2 (newFamily σ label g old s).1 ∧
    groupsOf (newFamily σ label g old s).2 (newFamily σ label g old s).1 = groupsOf s old ++ [g] ∧
    ∀ n, Known s n → Known (newFamily σ label g old s).2 n ∧ groupsOf (newFamily σ label g old s).2 n = groupsOf s n := by
  unfold newFamily
  cases e : s.byOld.find old with
  | some n =>
    obtain ⟨h1, h2, h3⟩ := h.old old n e
    exact ⟨h, .inr h1, h3, fun n hn => ⟨hn, rfl⟩⟩
  | none =>
    simp only
    have hnz : s.current + σ ≠ 0 := by
      have := h.cur
      rcases hσ with rfl | rfl <;> omega
    have hfresh : s.byId.find (s.current + σ) = none := by
      cases hn : s.byId.find (s.current + σ) with
      | none => rfl
      | some f =>
        have := (h.keys _ f hn).2.2.1
        rcases hσ with rfl | rfl <;> omega
    have hσ2 : σ * σ = 1 := by rcases hσ with rfl | rfl <;> rfl
    have hne : ∀ n, Known s n → s.current + σ ≠ n := by
      rintro n (rfl | ⟨f, hf⟩)
      · exact hnz
      · rintro rfl
        rw [hfresh] at hf
        cases hf
    generalize hk : s.current + σ = k at *
    generalize hfam : (⟨oldGroups (s.byId.find old) ++ [g], familyName label k.natAbs (s.byId.find old) g, k⟩ : Family) = fam
    have hfg : fam.groups = groupsOf s old ++ [g] := by rw [← hfam]; rfl
    have hfn : fam.num = k := by rw [← hfam]
    have hmono : ∀ n f, s.byId.find n = some f → (s.byId.set k fam).find n = some f := by
      intro n f hf
      rw [Map.find_set_ne _ _ (hne n (.inr ⟨f, hf⟩))]
      exact hf
    have hfind : ∀ n f, (s.byId.set k fam).find n = some f → (n = k ∧ f = fam) ∨ s.byId.find n = some f := by
      intro n f hf
      rw [Map.find_set] at hf
      split at hf
      · rename_i hkn
        left
        exact ⟨hkn.symm, (Option.some.inj hf).symm⟩
      · exact .inr hf
    have hkeep : ∀ n, Known s n → Known ⟨k, s.byOld.set old k, s.byId.set k fam⟩ n ∧
        groupsOf ⟨k, s.byOld.set old k, s.byId.set k fam⟩ n = groupsOf s n := by
      intro n hn
      constructor
      · rcases hn with rfl | ⟨f, hf⟩
        · exact .inl rfl
        · exact .inr ⟨f, hmono n f hf⟩
      · unfold groupsOf
        simp only
        rw [Map.find_set_ne _ _ (hne n hn)]
    have hnew : groupsOf ⟨k, s.byOld.set old k, s.byId.set k fam⟩ k = groupsOf s old ++ [g] := by
      unfold groupsOf
      simp only [Map.find_set_self]
      exact hfg
    have hknown : Known ⟨k, s.byOld.set old k, s.byId.set k fam⟩ k := .inr ⟨fam, Map.find_set_self _ _ _⟩
    -- no family had these groups before
    have hother : ∀ n, Known s n → groupsOf s n ≠ groupsOf s old ++ [g] := by
      intro n hn heq
      obtain ⟨o, hoo⟩ := h.within n (by rw [heq]; simp)
      obtain ⟨_, h2, h3⟩ := h.old o n hoo
      rw [heq] at h3
      have h4 : groupsOf s old = groupsOf s o := by
        have := congrArg List.dropLast h3
        simpa using this
      have h5 := h.inj old o ho h2 h4
      rw [← h5, e] at hoo
      cases hoo
    have hcur : σ * k = σ * s.current + 1 := by rw [← hk, Int.mul_add, hσ2]
    have hKnown : ∀ n, Known ⟨k, s.byOld.set old k, s.byId.set k fam⟩ n → n = k ∨ Known s n := by
      rintro n (rfl | ⟨f, hf⟩)
      · exact .inr (.inl rfl)
      · rcases hfind n f hf with ⟨h1, _⟩ | h1
        · exact .inl h1
        · exact .inr (.inr ⟨f, h1⟩)
    refine ⟨⟨?_, ?_, ?_, ?_, ?_, ?_, ?_, ?_⟩, hknown, hnew, hkeep⟩
    · simp only
      rw [Map.find_set_ne _ _ hnz]
      exact h.zero
    · simp only
      have := h.cur
      omega
    · intro n f hf
      have := h.cur
      rcases hfind n f hf with ⟨rfl, rfl⟩ | h1
      · refine ⟨hfn, by omega, le_refl _, ?_⟩
        rw [hfg]
        simp
      · obtain ⟨h2, h3, h4, h5⟩ := h.keys n f h1
        refine ⟨h2, h3, ?_, h5⟩
        simp only
        omega
    · intro o n hn
      simp only at hn
      rw [Map.find_set] at hn
      split at hn
      · rename_i hoo
        have hn := Option.some.inj hn
        subst hn
        refine ⟨⟨fam, Map.find_set_self _ _ _⟩, (hkeep o (hoo ▸ ho)).1, ?_⟩
        rw [hnew, ← hoo, (hkeep old ho).2]
      · obtain ⟨h1, h2, h3⟩ := h.old o n hn
        have hn' : Known s n := .inr h1
        refine ⟨?_, (hkeep o h2).1, ?_⟩
        · obtain ⟨f, hf⟩ := h1
          exact ⟨f, hmono n f hf⟩
        · rw [(hkeep n hn').2, (hkeep o h2).2, h3]
    · intro i j hi hj hij
      rcases hKnown i hi with rfl | hi' <;> rcases hKnown j hj with rfl | hj'
      · rfl
      · rw [hnew, (hkeep j hj').2] at hij
        exact absurd hij.symm (hother j hj')
      · rw [hnew, (hkeep i hi').2] at hij
        exact absurd hij (hother i hi')
      · rw [(hkeep i hi').2, (hkeep j hj').2] at hij
        exact h.inj i j hi' hj' hij
    · intro n hn
      by_cases hnk : n = k
      · subst hnk
        exact ⟨old, Map.find_set_self _ _ _⟩
      · have hgn : groupsOf ⟨k, s.byOld.set old k, s.byId.set k fam⟩ n = groupsOf s n := by
          unfold groupsOf
          simp only
          rw [Map.find_set_ne _ _ (Ne.symm hnk)]
        rw [hgn] at hn
        obtain ⟨o, hoo⟩ := h.within n hn
        refine ⟨o, ?_⟩
        simp only
        rw [Map.find_set_ne]
        · exact hoo
        · rintro rfl
          rw [e] at hoo
          cases hoo
    · intro n f hf x hx
      rcases hfind n f hf with ⟨rfl, rfl⟩ | h1
      · rw [hfg] at hx
        rcases List.mem_append.mp hx with hx | hx
        · unfold groupsOf at hx
          cases ee : s.byId.find old with
          | none => rw [ee] at hx; simp [oldGroups] at hx
          | some f' =>
            rw [ee] at hx
            exact h.sub old f' ee x hx
        · right
          simpa using hx
      · exact h.sub n f h1 x hx
    · intro n f hf
      rcases hfind n f hf with ⟨rfl, rfl⟩ | h1
      · have hname : f.name = familyName label n.natAbs (s.byId.find old) g := by rw [← hfam]
        cases ee : s.byId.find old with
        | none =>
          rw [ee] at hname
          refine ⟨[g], by simp, ?_, .inl ?_⟩
          · rw [hname]; simp [familyName, join, List.intercalate]
          · rw [hfg]; simp [groupsOf, ee, oldGroups]
        | some f' =>
          rw [ee] at hname
          have hgo : groupsOf s old = f'.groups := by simp [groupsOf, ee, oldGroups]
          simp only [familyName] at hname
          split at hname
          · refine ⟨[label ++ decimal n.natAbs], by simp, ?_, .inr ⟨n, f, [], Map.find_set_self _ _ _, rfl, by simp⟩⟩
            rw [hname]
            simp [join, List.intercalate]
          · obtain ⟨toks, t1, t2, t3⟩ := h.named old f' ee
            refine ⟨toks ++ [g], by simp, ?_, ?_⟩
            · rw [hname, join_concat toks t1, t2]
            · rcases t3 with t3 | ⟨m, f'', l, t4, t5, t6⟩
              · left
                rw [hfg, hgo, t3]
              · right
                refine ⟨m, f'', l ++ [g], hmono m f'' t4, ?_, ?_⟩
                · rw [t5]; simp
                · rw [hfg, hgo, t6]; simp
      · exact named_mono (fun n f hf => hmono n f hf) (h.named n f h1)

/-- Families have different names. -/
theorem names_differ {σ : Int} (hσ : σ = 1 ∨ σ = -1) {label : Text} {past : List Text} {g : Text} {s : Numbering}
    (h : Good σ label past g s) (hlab : '_' ∉ label) (hbar : ∀ x ∈ past ++ [g], '_' ∉ x)
    (hfam : ∀ x ∈ past ++ [g], ∀ k, x ≠ label ++ decimal k)
    {i j : Int} {f f' : Family} (hi : s.byId.find i = some f) (hj : s.byId.find j = some f') (he : f.name = f'.name) :
    i = j := by
  have hg : ∀ n f, s.byId.find n = some f → groupsOf s n = f.groups := by
    intro n f hf
    simp [groupsOf, hf, oldGroups]
  have hmem : ∀ n f, s.byId.find n = some f → ∀ x ∈ f.groups, x ∈ past ++ [g] := by
    intro n f hf x hx
    have := h.sub n f hf x hx
    simpa using this
  obtain ⟨toks, t1, t2, t3⟩ := h.named i f hi
  obtain ⟨toks', t1', t2', t3'⟩ := h.named j f' hj
  have free : ∀ {n f toks}, s.byId.find n = some f → (toks = f.groups ∨ ∃ (m : Int) (f' : Family) (l : List Text),
      s.byId.find m = some f' ∧ toks = (label ++ decimal m.natAbs) :: l ∧ f.groups = f'.groups ++ l) →
      ∀ x ∈ toks, '_' ∉ x := by
    intro n f toks hf ht x hx
    rcases ht with rfl | ⟨m, f', l, _, rfl, hl⟩
    · exact hbar x (hmem n f hf x hx)
    · rcases List.mem_cons.mp hx with rfl | hx
      · intro hc
        rcases List.mem_append.mp hc with hc | hc
        · exact hlab hc
        · exact decimal_bar _ hc
      · exact hbar x (hmem n f hf x (by rw [hl]; simp [hx]))
  have htoks : toks = toks' := join_inj t1 t1' (free hi t3) (free hj t3') (by rw [← t2, ← t2', he])
  subst htoks
  apply h.inj i j (.inr ⟨f, hi⟩) (.inr ⟨f', hj⟩)
  rw [hg i f hi, hg j f' hj]
  rcases t3 with t3 | ⟨m, fm, l, hm, t3, hl⟩ <;> rcases t3' with t3' | ⟨m', fm', l', hm', t3', hl'⟩
  · rw [← t3, ← t3']
  · exfalso
    exact hfam _ (hmem i f hi (label ++ decimal m'.natAbs) (by rw [← t3, t3']; simp)) _ rfl
  · exfalso
    exact hfam _ (hmem j f' hj (label ++ decimal m.natAbs) (by rw [← t3', t3]; simp)) _ rfl
  · rw [t3] at t3'
    simp only [List.cons.injEq, List.append_cancel_left_eq] at t3'
    have hab := decimal_inj t3'.1
    have hmm : m = m' := by
      have h1 := (h.keys m fm hm).2.1
      have h2 := (h.keys m' fm' hm').2.1
      rcases hσ with rfl | rfl <;> omega
    subst hmm
    rw [hm] at hm'
    rw [hl, hl', Option.some.inj hm', t3'.2]

end Vega.Med
