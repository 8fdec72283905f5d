import Verif.Case.Refuted

/-! # What every file leaves true of the model

What holds of the empty model, and is kept by each of the functions that change it, holds when the section has been read. -/
namespace Vega
namespace Case
open Nastran (Line)
open F06 (has)

/-- The functions that change the model keep `P`. -/
structure Kept (cfg : Config) (P : Deck → Prop) : Prop where
  analysis : ∀ c id d d', addAnalysis cfg c id d = .ok (some d') → P d → P d'
  combination : ∀ c id d d', addCombination cfg c id d = .ok d' → P d → P d'
  set : ∀ t d t' d', addSet cfg t d = .ok (t', some d') → P d → P d'
  matrices : ∀ (d : Deck) m, P d → P { d with matrices := m }
  title : ∀ (d : Deck) s, P d → P { d with title := s }
  description : ∀ (d : Deck) s, P d → P { d with description := s }

theorem subcaseLoop_kept {cfg : Config} {P : Deck → Prop} (k : Kept cfg P) {sets : Bool} : ∀ (fuel : Nat) {t : Tok} {kw : Line}
    {c : Context} {d : Deck} {r : Tok × Deck × Option (Line × Context)}, subcaseLoop cfg sets fuel t kw c d = .ok r → P d → P r.2.1 := by
  intro fuel
  induction fuel with
  | zero => intro t kw c d r h; exact nomatch h
  | succ n ih =>
    intro t kw c d r h hp
    rw [subcaseLoop] at h
    simp only at h
    split at h
    · cases h; exact hp
    · split at h
      · obtain ⟨⟨t1, o⟩, h1, h⟩ := bind_eq_ok h
        cases o with
        | none => cases h; exact hp
        | some d1 => exact ih h (k.set _ _ _ _ h1 hp)
      · split at h
        · cases h; exact hp
        · exact ih h hp

theorem parseSubcase_kept {cfg : Config} {P : Deck → Prop} (k : Kept cfg P) {t : Tok} {c : Context} {d : Deck}
    {r : Tok × Deck × Option Line} (h : parseSubcase cfg t c d = .ok r) (hp : P d) : P r.2.1 := by
  unfold parseSubcase at h
  split at h
  · obtain ⟨⟨t1, d1, o⟩, h1, h⟩ := bind_eq_ok h
    have h2 := subcaseLoop_kept k _ h1 hp
    simp only at h2
    cases o with
    | none => cases h; exact h2
    | some kc =>
      obtain ⟨o2, h3, h⟩ := bind_eq_ok h
      cases o2 with
      | none => cases h; exact h2
      | some d2 => cases h; exact k.analysis _ _ _ _ h3 h2
  · split at h
    · exact nomatch h
    · cases h; exact hp

theorem parseSubcom_kept {cfg : Config} {P : Deck → Prop} (k : Kept cfg P) {t : Tok} {c : Context} {d : Deck}
    {r : Tok × Deck × Option Line} (h : parseSubcom cfg t c d = .ok r) (hp : P d) : P r.2.1 := by
  unfold parseSubcom at h
  split at h
  · obtain ⟨⟨t1, d1, o⟩, h1, h⟩ := bind_eq_ok h
    have h2 := subcaseLoop_kept k _ h1 hp
    simp only at h2
    cases o with
    | none => cases h; exact h2
    | some kc =>
      obtain ⟨d2, h3, h⟩ := bind_eq_ok h
      cases h
      exact k.combination _ _ _ _ h3 h2
  · split at h
    · exact nomatch h
    · cases h; exact hp

theorem matrixCommand_kept {cfg : Config} {P : Deck → Prop} (k : Kept cfg P) {kind : MatrixKind} {q : Bool} {t : Tok} {c : Context}
    {d : Deck} {r : Done} (h : matrixCommand cfg kind q t c d = .ok r) (hp : P d) : P r.deck := by
  unfold matrixCommand at h
  simp only at h
  split at h
  · split at h
    · exact nomatch h
    · cases h; exact hp
  · split at h
    · split at h
      · exact nomatch h
      · cases h; exact hp
    · cases h; exact k.matrices _ _ hp

theorem commandStep_kept {cfg : Config} {P : Deck → Prop} (k : Kept cfg P) {kw : Line} {found : Bool} {t : Tok} {c : Context} {d : Deck}
    {r : Done} (h : commandStep cfg kw found t c d = .ok r) (hp : P d) : P r.deck := by
  unfold commandStep at h
  by_cases h0 : kw.isEmpty = true
  · rw [if_pos h0] at h
    cases h; exact hp
  rw [if_neg h0] at h
  by_cases h0 : has "BEGIN".toList kw = true
  · rw [if_pos h0] at h
    cases found with
    | true => rw [if_pos rfl] at h; cases h; exact hp
    | false =>
      rw [if_neg (by simp)] at h
      obtain ⟨o, h1, h⟩ := bind_eq_ok h
      cases o with
      | none => cases h; exact hp
      | some d1 => cases h; exact k.analysis _ _ _ _ h1 hp
  rw [if_neg h0] at h
  by_cases h0 : kw = "B2GG".toList
  · rw [if_pos h0] at h
    exact matrixCommand_kept k h hp
  rw [if_neg h0] at h
  by_cases h0 : kw = "CEND".toList
  · rw [if_pos h0] at h
    cases h; exact hp
  rw [if_neg h0] at h
  by_cases h0 : kw = "K2GG".toList
  · rw [if_pos h0] at h
    exact matrixCommand_kept k h hp
  rw [if_neg h0] at h
  by_cases h0 : kw = "M2GG".toList
  · rw [if_pos h0] at h
    exact matrixCommand_kept k h hp
  rw [if_neg h0] at h
  by_cases h0 : kw = "SUBCASE".toList
  · rw [if_pos h0] at h
    obtain ⟨⟨t1, d1, o⟩, h1, h⟩ := bind_eq_ok h
    have h2 := parseSubcase_kept k h1 hp
    cases o <;> (cases h; exact h2)
  rw [if_neg h0] at h
  by_cases h0 : kw = "SUBCOM".toList
  · rw [if_pos h0] at h
    obtain ⟨⟨t1, d1, o⟩, h1, h⟩ := bind_eq_ok h
    have h2 := parseSubcom_kept k h1 hp
    cases o <;> (cases h; exact h2)
  rw [if_neg h0] at h
  by_cases h0 : kw = "SUBTITLE".toList
  · rw [if_pos h0] at h
    cases h
    first | exact k.description _ _ hp | exact k.title _ _ hp
  rw [if_neg h0] at h
  by_cases h0 : kw = "TITLE".toList
  · rw [if_pos h0] at h
    cases h
    first | exact k.title _ _ hp | exact k.description _ _ hp
  rw [if_neg h0] at h
  by_cases h0 : kw = "SET".toList
  · rw [if_pos h0] at h
    obtain ⟨⟨t1, o⟩, h1, h⟩ := bind_eq_ok h
    cases o with
    | none => cases h; exact hp
    | some d1 => cases h; exact k.set _ _ _ _ h1 hp
  rw [if_neg h0] at h
  obtain ⟨c1, _, h⟩ := bind_eq_ok h
  cases h; exact hp

theorem sectionLoop_kept {cfg : Config} {P : Deck → Prop} (k : Kept cfg P) : ∀ (fuel : Nat) {kw : Line} {found : Bool} {t : Tok}
    {c : Context} {d d' : Deck}, sectionLoop cfg fuel kw found t c d = .ok d' → P d → P d' := by
  intro fuel
  induction fuel with
  | zero => intro kw found t c d d' h; exact nomatch h
  | succ n ih =>
    intro kw found t c d d' h hp
    rw [sectionLoop] at h
    obtain ⟨r, h1, h⟩ := bind_eq_ok h
    have h2 := commandStep_kept k h1 hp
    split at h
    · split at h
      · cases h; exact h2
      · exact ih h h2
    · simp only at h
      split at h
      · cases h; exact h2
      · exact ih h h2

theorem readSection_kept {cfg : Config} {P : Deck → Prop} (k : Kept cfg P) {lines : List Line} {d : Deck}
    (h : readSection cfg lines = .ok d) (hp : P Deck.empty) : P d := sectionLoop_kept k _ h hp

/-! ## Numbers -/

/-- No two lists have the same number; no two analyses of a type have the same number. -/
structure Numbered (d : Deck) : Prop where
  sets : (d.sets.map (·.1)).Nodup
  analyses : d.analyses.Pairwise fun a b => a.id ≠ noId → ¬ (a.kind.type = b.kind.type ∧ a.id = b.id)

/-- A number asked for in a subcase has an output, and the outputs have been asked for. -/
structure Requested (d : Deck) : Prop where
  made : ∀ a ∈ d.analyses, ∀ n, (OSet.disp, n) ∈ a.outputs → ∃ p, (n, p) ∈ d.phases
  asked : ∀ e ∈ d.phases, ∃ a ∈ d.analyses, (OSet.disp, e.1) ∈ a.outputs

theorem taken_false {l : List Analysis} {t : AType} {id : Int} (h : taken l t id = false) :
    ∀ b ∈ l, id ≠ noId → ¬ (b.kind.type = t ∧ b.id = id) := by
  intro b hb hid he
  unfold taken at h
  rw [Bool.and_eq_false_iff] at h
  rcases h with h | h
  · exact hid (by simpa using h)
  · have := List.any_eq_false.mp h b hb
    simp [he.1, he.2] at this

theorem numbered_more {l : List Analysis} {a : Analysis} (h : l.Pairwise fun a b => a.id ≠ noId → ¬ (a.kind.type = b.kind.type ∧ a.id = b.id))
    (hn : taken l a.kind.type a.id = false) :
    (l ++ [a]).Pairwise fun a b => a.id ≠ noId → ¬ (a.kind.type = b.kind.type ∧ a.id = b.id) := by
  rw [List.pairwise_append]
  refine ⟨h, by simp, ?_⟩
  intro b hb a' ha' hne he
  rw [List.mem_singleton] at ha'
  subst ha'
  exact taken_false hn b hb (he.2 ▸ hne) he

/-- One selection: what it adds to the outputs. -/
theorem select_requests {cfg : Config} {e : Line × Line} {d : Deck} {a : Analysis} {r : Deck × Analysis} (h : select cfg e d a = .ok r) :
    r.1.analyses = d.analyses ∧ r.1.sets = d.sets ∧ r.2.kind = a.kind ∧ r.2.id = a.id ∧ d.phases <+: r.1.phases ∧ a.outputs ⊆ r.2.outputs ∧
      (∀ n, (OSet.disp, n) ∈ r.2.outputs → (OSet.disp, n) ∈ a.outputs ∨ ∃ p, (n, p) ∈ r.1.phases) ∧
      ∀ x ∈ r.1.phases, x ∈ d.phases ∨ (OSet.disp, x.1) ∈ r.2.outputs := by
  unfold select at h
  obtain ⟨id, _, h⟩ := bind_eq_ok h
  obtain ⟨⟨key, options⟩, _, h⟩ := bind_eq_ok h
  simp only [begins_long (n := 4) (w := "BCONTACT".toList) (by decide), begins_long (n := 4) (w := "OFREQUENCY".toList) (by decide),
    begins_long (n := 4) (w := "STRESS".toList) (by decide), Bool.false_eq_true, if_false] at h
  have hc : ∀ t : CSet, (selectConstraint t id d a).1.analyses = d.analyses ∧ (selectConstraint t id d a).1.sets = d.sets ∧
      (selectConstraint t id d a).2.kind = a.kind ∧ (selectConstraint t id d a).2.id = a.id ∧
      (selectConstraint t id d a).1.phases = d.phases ∧ (selectConstraint t id d a).2.outputs = a.outputs := fun _ => ⟨rfl, rfl, rfl, rfl, rfl, rfl⟩
  have hl : ∀ t : LSet, (selectLoad t id d a).1.analyses = d.analyses ∧ (selectLoad t id d a).1.sets = d.sets ∧
      (selectLoad t id d a).2.kind = a.kind ∧ (selectLoad t id d a).2.id = a.id ∧
      (selectLoad t id d a).1.phases = d.phases ∧ (selectLoad t id d a).2.outputs = a.outputs := fun _ => ⟨rfl, rfl, rfl, rfl, rfl, rfl⟩
  have same : ∀ r : Deck × Analysis, r.1.analyses = d.analyses ∧ r.1.sets = d.sets ∧ r.2.kind = a.kind ∧ r.2.id = a.id ∧
      r.1.phases = d.phases ∧ r.2.outputs = a.outputs →
      r.1.analyses = d.analyses ∧ r.1.sets = d.sets ∧ r.2.kind = a.kind ∧ r.2.id = a.id ∧ d.phases <+: r.1.phases ∧ a.outputs ⊆ r.2.outputs ∧
      (∀ n, (OSet.disp, n) ∈ r.2.outputs → (OSet.disp, n) ∈ a.outputs ∨ ∃ p, (n, p) ∈ r.1.phases) ∧
      ∀ x ∈ r.1.phases, x ∈ d.phases ∨ (OSet.disp, x.1) ∈ r.2.outputs := by
    rintro r ⟨h1, h2, h3, h4, h5, h6⟩
    refine ⟨h1, h2, h3, h4, (by rw [h5]; exact List.prefix_rfl), (by rw [h6]; exact fun _ h => h), fun n hn => Or.inl (h6 ▸ hn), fun x hx => Or.inl (h5 ▸ hx)⟩
  split at h
  · cases h; exact same _ (hc _)
  split at h
  · cases h; exact same _ (hc _)
  split at h
  · cases h; exact same _ (hl _)
  split at h
  · cases h; exact same _ (hl _)
  split at h
  · cases h; exact same _ (hl _)
  split at h
  · split at h
    · cases h; exact same _ ⟨rfl, rfl, rfl, rfl, rfl, rfl⟩
    · cases h
      refine ⟨rfl, rfl, rfl, rfl, List.prefix_append _ _, fun x hx => (mem_addNew _ _ _).mpr (Or.inl hx), ?_, ?_⟩
      · intro n hn
        rcases (mem_addNew _ _ _).mp hn with h1 | h1
        · exact Or.inl h1
        · cases h1
          exact Or.inr ⟨_, List.mem_append_right _ (List.mem_singleton.mpr rfl)⟩
      · intro x hx
        rcases List.mem_append.mp hx with h1 | h1
        · exact Or.inl h1
        · rw [List.mem_singleton] at h1
          subst h1
          exact Or.inr ((mem_addNew _ _ _).mpr (Or.inr rfl))
  · cases h; exact same _ ⟨rfl, rfl, rfl, rfl, rfl, rfl⟩

theorem selectAll_requests {cfg : Config} : ∀ (c : Context) {d : Deck} {a : Analysis} {r : Deck × Analysis}, selectAll cfg c d a = .ok r →
    r.1.analyses = d.analyses ∧ r.1.sets = d.sets ∧ r.2.kind = a.kind ∧ r.2.id = a.id ∧ d.phases <+: r.1.phases ∧ a.outputs ⊆ r.2.outputs ∧
      (∀ n, (OSet.disp, n) ∈ r.2.outputs → (OSet.disp, n) ∈ a.outputs ∨ ∃ p, (n, p) ∈ r.1.phases) ∧
      ∀ x ∈ r.1.phases, x ∈ d.phases ∨ (OSet.disp, x.1) ∈ r.2.outputs := by
  intro c
  induction c with
  | nil =>
    intro d a r h
    cases h
    exact ⟨rfl, rfl, rfl, rfl, List.prefix_rfl, fun _ h => h, fun _ h => Or.inl h, fun _ h => Or.inl h⟩
  | cons e c ih =>
    intro d a r h
    rw [selectAll] at h
    obtain ⟨x, h1, h2⟩ := bind_eq_ok h
    obtain ⟨a1, a2, a3, a4, a5, a6, a7, a8⟩ := select_requests h1
    obtain ⟨b1, b2, b3, b4, b5, b6, b7, b8⟩ := ih h2
    refine ⟨b1.trans a1, b2.trans a2, b3.trans a3, b4.trans a4, a5.trans b5, fun x hx => b6 (a6 hx), ?_, ?_⟩
    · intro n hn
      rcases b7 n hn with h | h
      · rcases a7 n h with h | ⟨p, h⟩
        · exact Or.inl h
        · exact Or.inr ⟨p, b5.subset h⟩
      · exact Or.inr h
    · intro x hx
      rcases b8 x hx with h | h
      · rcases a8 x h with h | h
        · exact Or.inl h
        · exact Or.inr (b6 h)
      · exact Or.inr h

theorem addAnalysis_requests {cfg : Config} {c : Context} {id : Int} {d d' : Deck} (h : addAnalysis cfg c id d = .ok (some d')) :
    d' = d ∨ ∃ a, d'.analyses = d.analyses ++ [a] ∧ d'.sets = d.sets ∧ taken d.analyses a.kind.type a.id = false ∧ d.phases <+: d'.phases ∧
      (∀ n, (OSet.disp, n) ∈ a.outputs → ∃ p, (n, p) ∈ d'.phases) ∧ ∀ x ∈ d'.phases, x ∈ d.phases ∨ (OSet.disp, x.1) ∈ a.outputs := by
  unfold addAnalysis at h
  split at h
  · cases h; exact Or.inl rfl
  · split at h
    · unfold fail at h
      split at h <;> exact nomatch h
    · obtain ⟨k, _, h⟩ := bind_eq_ok h
      cases k with
      | none => exact nomatch h
      | some k =>
        obtain ⟨r, h1, h2⟩ := bind_eq_ok h
        split at h2
        · exact nomatch h2
        rename_i ht
        cases h2
        obtain ⟨a1, a2, a3, a4, a5, a6, a7, a8⟩ := selectAll_requests c h1
        refine Or.inr ⟨r.2, by rw [← a1], a2, ?_, a5, ?_, a8⟩
        · rw [← a1]; simpa using ht
        · intro n hn
          rcases a7 n hn with h | h
          · exact nomatch h
          · exact h

theorem addSet_adds {cfg : Config} {t t' : Tok} {d d' : Deck} (h : addSet cfg t d = .ok (t', some d')) :
    d' = d ∨ ∃ e, d' = { d with sets := d.sets ++ [e] } ∧ ∀ x ∈ d.sets, x.1 ≠ e.1 := by
  unfold addSet at h
  obtain ⟨⟨line, t1⟩, _, h⟩ := bind_eq_ok h
  simp only at h
  split at h
  · split at h <;> exact nomatch h
  · split at h
    · exact nomatch h
    · obtain ⟨id, _, h⟩ := bind_eq_ok h
      obtain ⟨v, _, h⟩ := bind_eq_ok h
      cases v with
      | none => cases h; exact Or.inl rfl
      | some v =>
        simp only at h
        split at h
        · exact nomatch h
        · rename_i hn
          cases h
          refine Or.inr ⟨_, rfl, fun x hx he => hn (List.any_eq_true.mpr ⟨x, hx, by simpa using he⟩)⟩

theorem kept_numbers (cfg : Config) : Kept cfg fun d => Numbered d ∧ Requested d where
  analysis := by
    rintro c id d d' h ⟨hn, hr⟩
    rcases addAnalysis_requests h with rfl | ⟨a, h1, h2, h3, h4, h5, h6⟩
    · exact ⟨hn, hr⟩
    · refine ⟨⟨by rw [h2]; exact hn.sets, by rw [h1]; exact numbered_more hn.analyses h3⟩, ?_, ?_⟩
      · intro b hb n hm
        rw [h1] at hb
        rcases List.mem_append.mp hb with hb | hb
        · obtain ⟨p, hp⟩ := hr.made b hb n hm
          exact ⟨p, h4.subset hp⟩
        · rw [List.mem_singleton] at hb
          subst hb
          exact h5 n hm
      · intro e he
        rw [h1]
        rcases h6 e he with h | h
        · obtain ⟨b, hb, hm⟩ := hr.asked e h
          exact ⟨b, List.mem_append_left _ hb, hm⟩
        · exact ⟨a, List.mem_append_right _ (List.mem_singleton.mpr rfl), h⟩
  combination := by
    rintro c id d d' h ⟨hn, hr⟩
    unfold addCombination at h
    split at h
    · exact nomatch h
    · obtain ⟨k, _, h⟩ := bind_eq_ok h
      split at h
      · exact nomatch h
      rename_i ht
      cases h
      refine ⟨⟨hn.sets, numbered_more hn.analyses (by simpa [Kind.type] using ht)⟩, ?_, ?_⟩
      · intro b hb n hm
        rcases List.mem_append.mp hb with hb | hb
        · exact hr.made b hb n hm
        · rw [List.mem_singleton] at hb
          subst hb
          exact nomatch hm
      · intro e he
        obtain ⟨b, hb, hm⟩ := hr.asked e he
        exact ⟨b, List.mem_append_left _ hb, hm⟩
  set := by
    rintro t d t' d' h ⟨hn, hr⟩
    rcases addSet_adds h with rfl | ⟨e, rfl, he⟩
    · exact ⟨hn, hr⟩
    · refine ⟨⟨?_, hn.analyses⟩, hr.made, hr.asked⟩
      change (List.map (·.1) (d.sets ++ [e])).Nodup
      rw [List.map_append, List.nodup_append]
      refine ⟨hn.sets, by simp, ?_⟩
      intro x hx y hy
      obtain ⟨z, hz, rfl⟩ := List.mem_map.mp hx
      simp only [List.map_cons, List.map_nil, List.mem_singleton] at hy
      subst hy
      exact he z hz
  matrices := fun _ _ h => ⟨⟨h.1.sets, h.1.analyses⟩, h.2.made, h.2.asked⟩
  title := fun _ _ h => ⟨⟨h.1.sets, h.1.analyses⟩, h.2.made, h.2.asked⟩
  description := fun _ _ h => ⟨⟨h.1.sets, h.1.analyses⟩, h.2.made, h.2.asked⟩

theorem read_numbers {cfg : Config} {lines : List Line} {d : Deck} (h : readSection cfg lines = .ok d) : Numbered d ∧ Requested d :=
  readSection_kept (kept_numbers cfg) h ⟨⟨by simp [Deck.empty], by simp [Deck.empty]⟩, by simp [Deck.empty], by simp [Deck.empty]⟩

/-- C97, C99. Whatever the file: no two lists read have the same number, and no two analyses of the same type. -/
theorem C97_numbers (cfg : Config) (lines : List Line) (d : Deck) (h : readSection cfg lines = .ok d) :
    (d.sets.map (·.1)).Nodup ∧
      d.analyses.Pairwise fun a b => a.id ≠ noId → ¬ (a.kind.type = b.kind.type ∧ a.id = b.id) :=
  ⟨(read_numbers h).1.sets, (read_numbers h).1.analyses⟩

example : ∃ d, readSection gnu ["SOL 101".toList, "SET 5 = 1, 2".toList, "SUBCASE 1".toList, "DISP = 5".toList, "SUBCASE 2".toList,
    "LOAD = 4".toList, "BEGIN BULK".toList] = .ok d ∧ d.sets.length = 1 ∧ d.analyses.length = 2 := by
  refine ⟨_, rfl, ?_⟩
  decide +kernel

end Case
end Vega
