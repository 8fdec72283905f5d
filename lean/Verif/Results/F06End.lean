import Verif.Results.F06Stress

/-! # C96: the reading of a result file ends -/
namespace Vega
namespace F06
open Nastran (Line isSpace trim lexicalDouble natOf intMax)
open NastranWrite (V3)
open F06Spec

/-- Every section leaves a suffix of the lines it is given. -/
theorem displacementLoop_rest (w : World) (hg : ∀ n, w.toGlobal n ≠ .diverges) (subcase : Int) (step : Dbl) :
    ∀ (lines : List Line) (found : List Added), displacementLoop w subcase step lines found ≠ .diverges ∧
      ∀ s, displacementLoop w subcase step lines found = .ok s → s.rest <:+ lines := by
  have hbind : ∀ (o : Outcome (V3 → V3)) (k : (V3 → V3) → List Added), o ≠ .diverges →
      (o >>= fun f => .ok (k f)) ≠ .diverges := by
    intro o k h
    cases o with
    | ok f => simp
    | throw => simp
    | ub => simp
    | diverges => exact absurd rfl h
  have hrow : ∀ ws, displacementRow w subcase step ws ≠ .diverges := by
    intro ws
    unfold displacementRow
    split
    · split
      · simp
      · split_ifs
        · simp
        · split
          · exact hbind _ _ (hg _)
          · simp
    · simp
  have hend : ∀ l found rest, (endAt l found rest).rest = rest := by
    intro l found rest
    unfold endAt
    split <;> rfl
  intro lines
  induction lines with
  | nil =>
    intro found
    refine ⟨by simp [displacementLoop], fun s h => ?_⟩
    simp only [displacementLoop, Outcome.ok.injEq] at h
    rw [← h]
    exact List.suffix_refl _
  | cons l rest ih =>
    intro found
    have hsuf : rest <:+ l :: rest := List.suffix_cons _ _
    rw [displacementLoop]
    split_ifs
    · exact ⟨(ih found).1, fun s h => ((ih found).2 s h).trans hsuf⟩
    · refine ⟨by simp, fun s h => ?_⟩
      rw [Outcome.ok.injEq] at h
      rw [← h, hend]
      exact hsuf
    · refine ⟨by simp, fun s h => ?_⟩
      rw [Outcome.ok.injEq] at h
      rw [← h]
      exact hsuf
    · refine ⟨by simp, fun s h => ?_⟩
      rw [Outcome.ok.injEq] at h
      rw [← h]
      exact hsuf
    · cases hr : displacementRow w subcase step (words l) with
      | ok a => exact ⟨(ih _).1, fun s h => ((ih _).2 s h).trans hsuf⟩
      | throw =>
        refine ⟨by simp, fun s h => ?_⟩
        simp only [Outcome.ok.injEq] at h
        rw [← h]
        exact hsuf
      | ub => exact ⟨by simp, fun s h => absurd h (by simp)⟩
      | diverges => exact absurd hr (hrow _)

theorem endAt_rest (l : Line) (found : List Added) (rest : List Line) : (endAt l found rest).rest = rest := by
  unfold endAt
  split <;> rfl

theorem eigenHeader_rest : ∀ lines : List Line, (eigenHeader lines).1 <:+ lines := by
  intro lines
  induction lines with
  | nil => simp [eigenHeader]
  | cons l rest ih =>
    rw [eigenHeader]
    split_ifs
    · exact List.suffix_cons _ _
    · exact List.suffix_cons _ _
    · exact List.suffix_cons _ _
    · exact ih.trans (List.suffix_cons _ _)

theorem eigenLoop_rest (subcase : Int) : ∀ (lines : List Line) (found : List Added), (eigenLoop subcase lines found).rest <:+ lines := by
  intro lines
  induction lines with
  | nil => intro found; simp [eigenLoop]
  | cons l rest ih =>
    intro found
    rw [eigenLoop]
    split_ifs
    · rw [endAt_rest]; exact List.suffix_cons _ _
    · exact List.suffix_cons _ _
    · split
      · exact (ih _).trans (List.suffix_cons _ _)
      · exact List.suffix_cons _ _

theorem eigenSection_rest (subcase : Int) (lines : List Line) : (eigenSection subcase lines).rest <:+ lines := by
  unfold eigenSection
  simp only
  split_ifs
  · exact (eigenLoop_rest _ _ _).trans (eigenHeader_rest _)
  · exact eigenHeader_rest _

theorem complexHeader_rest : ∀ lines : List Line, complexHeader lines <:+ lines := by
  intro lines
  induction lines with
  | nil => simp [complexHeader]
  | cons l rest ih =>
    rw [complexHeader]
    split_ifs
    · exact List.suffix_cons _ _
    · exact ih.trans (List.suffix_cons _ _)

theorem complexLoop_rest (subcase : Int) (frequency : Dbl) : ∀ (n : Nat) (lines : List Line) (found : List Added),
    lines.length ≤ n → (complexLoop subcase frequency lines found).rest <:+ lines := by
  intro n
  induction n with
  | zero =>
    intro lines found h
    have : lines = [] := by simpa using h
    subst this
    simp [complexLoop]
  | succ n ih =>
    intro lines found h
    match lines with
    | [] => simp [complexLoop]
    | [l] =>
      rw [complexLoop]
      split_ifs
      · rw [endAt_rest]; exact List.nil_suffix
      · exact List.nil_suffix
    | l :: l' :: rest =>
      have hs1 : l' :: rest <:+ l :: l' :: rest := List.suffix_cons _ _
      have hs2 : rest <:+ l :: l' :: rest := (List.suffix_cons _ _).trans hs1
      rw [complexLoop]
      simp only
      split_ifs
      · rw [endAt_rest]; exact hs1
      · exact hs1
      · exact hs2
      · exact (ih rest _ (by simp at h; omega)).trans hs2

theorem complexSection_rest (subcase : Int) (frequency : Dbl) (lines : List Line) :
    (complexSection subcase frequency lines).rest <:+ lines :=
  (complexLoop_rest _ _ _ _ _ le_rfl).trans (complexHeader_rest _)

/-! ## Stresses -/

/-- At the end of the file the variable does not hold the first line of a page. -/
def Calm (line : Line) (s : Input) : Prop :=
  match s.atEnd with
  | some l => startsPage l = false
  | none => startsPage ((line :: s.lines).getLast (by simp)) = false

theorem readLine_calm {line : Line} {s : Input} (h : Calm line s) : Calm (readLine line s).2.1 (readLine line s).2.2 ∧
    (readLine line s).2.2.lines <:+ s.lines ∧ (readLine line s).2.2.atEnd = s.atEnd ∧
    (startsPage (readLine line s).2.1 = true → (readLine line s).2.2.lines.length < s.lines.length) := by
  obtain ⟨lines, atEnd⟩ := s
  cases lines with
  | nil =>
    cases atEnd with
    | some l =>
      refine ⟨h, by simp [readLine], rfl, fun hp => ?_⟩
      have : startsPage l = false := h
      rw [show (readLine line ⟨[], some l⟩).2.1 = l from rfl, this] at hp
      exact absurd hp (by simp)
    | none =>
      refine ⟨h, by simp [readLine], rfl, fun hp => ?_⟩
      have : startsPage line = false := h
      rw [show (readLine line ⟨[], none⟩).2.1 = line from rfl, this] at hp
      exact absurd hp (by simp)
  | cons l rest =>
    refine ⟨?_, List.suffix_cons _ _, rfl, fun _ => by simp [readLine]⟩
    cases atEnd with
    | some l' => exact h
    | none =>
      have h' : startsPage ((line :: l :: rest).getLast (by simp)) = false := h
      rw [List.getLast_cons (by simp)] at h'
      exact h'

theorem readLines_calm : ∀ (n : Nat) {line : Line} {s : Input}, Calm line s → Calm (readLines n line s).1 (readLines n line s).2 ∧
    (readLines n line s).2.lines <:+ s.lines ∧ (readLines n line s).2.atEnd = s.atEnd := by
  intro n
  induction n with
  | zero => intro line s h; exact ⟨h, List.suffix_refl _, rfl⟩
  | succ n ih =>
    intro line s h
    obtain ⟨h1, h2, h3, _⟩ := readLine_calm h
    obtain ⟨h4, h5, h6⟩ := ih h1
    exact ⟨h4, h5.trans h2, h6.trans h3⟩

/-- What is true of the result of the lines of a node. -/
def LinesOk (s : Input) (r : Stop × Line × Input × List Added) : Prop :=
  Calm r.2.1 r.2.2.1 ∧ r.2.2.1.lines <:+ s.lines ∧ r.2.2.1.atEnd = s.atEnd ∧ (r.1 = .page → r.2.2.1.lines.length < s.lines.length)

theorem stressLines_ok (subcase cell : Int) : ∀ (n : Nat) (line : Line) (s : Input) (found : List Added), Calm line s →
    stressLines subcase cell n line s found ≠ .diverges ∧
    ∀ r, stressLines subcase cell n line s found = .ok r → LinesOk s r := by
  intro n
  induction n with
  | zero =>
    intro line s found h
    refine ⟨by simp [stressLines], fun r hr => ?_⟩
    rw [stressLines, Outcome.ok.injEq] at hr
    rw [← hr]
    exact ⟨h, List.suffix_refl _, rfl, fun h => absurd h (by simp)⟩
  | succ n ih =>
    intro line s found h
    obtain ⟨h1, h2, h3, h4⟩ := readLine_calm h
    have hle : ∀ r, LinesOk (readLine line s).2.2 r → LinesOk s r := fun r hr =>
      ⟨hr.1, hr.2.1.trans h2, hr.2.2.1.trans h3, fun hp => (hr.2.2.2 hp).trans_le h2.length_le⟩
    rw [stressLines]
    simp only
    by_cases hp : startsPage (readLine line s).2.1 = true
    · rw [if_pos hp]
      refine ⟨by simp, fun r hr => ?_⟩
      rw [Outcome.ok.injEq] at hr
      rw [← hr]
      obtain ⟨h5, h6, h7⟩ := readLines_calm 4 h1
      exact ⟨h5, h6.trans h2, h7.trans h3, fun _ => h6.length_le.trans_lt (h4 hp)⟩
    · rw [if_neg hp]
      by_cases hn : hasNoNode (readLine line s).2.1 = true
      · rw [if_pos hn]
        exact ⟨(ih _ _ _ h1).1, fun r hr => hle r ((ih _ _ _ h1).2 r hr)⟩
      · rw [if_neg hn]
        have hrow : stressRow subcase cell (readLine line s).2.1 = .ub ∨
            ∃ a, stressRow subcase cell (readLine line s).2.1 = .ok a := by
          unfold stressRow
          split
          · split
            · exact Or.inr ⟨_, rfl⟩
            · exact Or.inr ⟨_, rfl⟩
          · exact Or.inl rfl
        rcases hrow with hr | ⟨a, ha⟩
        · rw [hr]
          exact ⟨by simp, fun r hr => absurd hr (by simp)⟩
        · rw [ha]
          simp only [Outcome.bind_ok]
          cases a with
          | some a => exact ⟨(ih _ _ _ h1).1, fun r hr => hle r ((ih _ _ _ h1).2 r hr)⟩
          | none =>
            refine ⟨by simp, fun r hr => ?_⟩
            simp only [Outcome.ok.injEq] at hr
            rw [← hr]
            exact ⟨h1, h2, h3, fun h => absurd h (by simp)⟩

theorem stressNodes_ok (subcase cell : Int) : ∀ (fuel left : Nat) (line : Line) (s : Input) (found : List Added), Calm line s →
    left + s.lines.length < fuel → stressNodes subcase cell fuel left line s found ≠ .diverges ∧
    ∀ r, stressNodes subcase cell fuel left line s found = .ok r → r.2.2.1.lines <:+ s.lines ∧ r.2.2.1.atEnd = s.atEnd := by
  intro fuel
  induction fuel with
  | zero => intro left line s found _ h; omega
  | succ fuel ih =>
    intro left line s found hc hf
    cases left with
    | zero =>
      refine ⟨by simp [stressNodes], fun r hr => ?_⟩
      rw [stressNodes, Outcome.ok.injEq] at hr
      rw [← hr]
      exact ⟨List.suffix_refl _, rfl⟩
    | succ left =>
      rw [stressNodes]
      have h := stressLines_ok subcase cell 3 line s found hc
      cases hr : stressLines subcase cell 3 line s found with
      | diverges => exact absurd hr h.1
      | throw => exact ⟨by simp, fun r hr => absurd hr (by simp)⟩
      | ub => exact ⟨by simp, fun r hr => absurd hr (by simp)⟩
      | ok q =>
        obtain ⟨stop, line', s', found'⟩ := q
        obtain ⟨h1, h2, h3, h4⟩ := h.2 _ hr
        have hlen := h2.length_le
        simp only [Outcome.bind_ok]
        simp only at h1 h2 h3 h4 hlen
        cases stop with
        | done =>
          obtain ⟨h5, h6⟩ := ih left line' s' found' h1 (by omega)
          exact ⟨h5, fun r hr => ⟨(h6 r hr).1.trans h2, (h6 r hr).2.trans h3⟩⟩
        | page =>
          have := h4 rfl
          obtain ⟨h5, h6⟩ := ih (left + 1) line' s' found' h1 (by omega)
          exact ⟨h5, fun r hr => ⟨(h6 r hr).1.trans h2, (h6 r hr).2.trans h3⟩⟩
        | threw =>
          refine ⟨by simp, fun r hr => ?_⟩
          simp only [Outcome.ok.injEq] at hr
          rw [← hr]
          exact ⟨h2, h3⟩

/-- At the end of the file, a list of lines. -/
def CalmEnd (atEnd : Option Line) (lines : List Line) : Prop :=
  match atEnd with
  | some l => startsPage l = false
  | none => ∀ l ∈ lines.getLast?, startsPage l = false

theorem calmEnd_suffix {atEnd : Option Line} {a b : List Line} (h : CalmEnd atEnd b) (hs : a <:+ b) : CalmEnd atEnd a := by
  cases atEnd with
  | some l => exact h
  | none =>
    intro l hl
    obtain ⟨t, rfl⟩ := hs
    apply h
    rw [Option.mem_def] at hl ⊢
    rw [List.getLast?_append, hl]
    rfl

theorem calm_cons {atEnd : Option Line} {l : Line} {rest : List Line} (h : CalmEnd atEnd (l :: rest)) : Calm l ⟨rest, atEnd⟩ := by
  cases atEnd with
  | some l' => exact h
  | none =>
    apply h
    rw [Option.mem_def, List.getLast?_eq_getLast_of_ne_nil (by simp)]

theorem stressLoop_ok (subcase : Int) (atEnd : Option Line) : ∀ (fuel : Nat) (lines : List Line) (next : Int) (found : List Added),
    CalmEnd atEnd lines → lines.length < fuel → stressLoop subcase atEnd fuel lines next found ≠ .diverges ∧
    ∀ s, stressLoop subcase atEnd fuel lines next found = .ok s → s.rest <:+ lines := by
  intro fuel
  induction fuel with
  | zero => intro lines next found _ h; omega
  | succ fuel ih =>
    intro lines next found hc hf
    have fin : ∀ {s0 : Section}, s0.rest <:+ lines → (Outcome.ok s0 ≠ .diverges ∧ ∀ s, Outcome.ok s0 = .ok s → s.rest <:+ lines) := by
      intro s0 h
      refine ⟨by simp, fun s hs => ?_⟩
      rw [Outcome.ok.injEq] at hs
      rw [← hs]
      exact h
    cases lines with
    | nil =>
      rw [stressLoop]
      exact fin (List.suffix_refl _)
    | cons l rest =>
      have hsuf : rest <:+ l :: rest := List.suffix_cons _ _
      have hf' : rest.length < fuel := by simpa using hf
      rw [stressLoop]
      split
      · split
        · split
          · obtain ⟨h1, h2⟩ := ih rest _ found (calmEnd_suffix hc hsuf) hf'
            exact ⟨h1, fun s hs => (h2 s hs).trans hsuf⟩
          · exact fin hsuf
        · exact fin hsuf
      · split
        · exact fin hsuf
        · split
          · split
            · rename_i cell n _ _
              split
              · exact ⟨by simp, fun s hs => absurd hs (by simp)⟩
              · have h := stressNodes_ok subcase cell ((n + 1).toNat + rest.length + 1) (n + 1).toNat l ⟨rest, atEnd⟩ found
                  (calm_cons hc) (by simp)
                cases hr : stressNodes subcase cell ((n + 1).toNat + rest.length + 1) (n + 1).toNat l ⟨rest, atEnd⟩ found with
                | diverges => exact absurd hr h.1
                | throw => exact ⟨by simp, fun r hr => absurd hr (by simp)⟩
                | ub => exact ⟨by simp, fun r hr => absurd hr (by simp)⟩
                | ok q =>
                  obtain ⟨h1, h2⟩ := h.2 q hr
                  simp only [Outcome.bind_ok]
                  split
                  · exact fin (h1.trans hsuf)
                  · obtain ⟨h3, h4⟩ := ih q.2.2.1.lines next q.2.2.2 (calmEnd_suffix hc (h1.trans hsuf))
                      (h1.length_le.trans_lt hf')
                    exact ⟨h3, fun s hs => (h4 s hs).trans (h1.trans hsuf)⟩
            · exact fin hsuf
          · exact fin hsuf

theorem stressHeader_rest (atEnd : Option Line) : ∀ (lines : List Line) (line : Line), (stressHeader atEnd lines line).2.2 <:+ lines := by
  intro lines
  induction lines with
  | nil => intro line; simp [stressHeader]
  | cons l rest ih =>
    intro line
    rw [stressHeader]
    split_ifs
    · exact List.suffix_cons _ _
    · exact List.suffix_cons _ _
    · exact (ih l).trans (List.suffix_cons _ _)

theorem stressSection_ok (subcase : Int) (atEnd : Option Line) (lines : List Line) (hc : CalmEnd atEnd lines) :
    stressSection subcase atEnd lines ≠ .diverges ∧ ∀ s, stressSection subcase atEnd lines = .ok s → s.rest <:+ lines := by
  have hr := stressHeader_rest atEnd lines []
  unfold stressSection
  simp only
  split
  · obtain ⟨h1, h2⟩ := stressLoop_ok subcase atEnd ((stressHeader atEnd lines []).2.2.length + 1) (stressHeader atEnd lines []).2.2
      noSubcase [] (calmEnd_suffix hc hr) (by simp)
    exact ⟨h1, fun s hs => (h2 s hs).trans hr⟩
  · refine ⟨by simp, fun s hs => ?_⟩
    rw [Outcome.ok.injEq] at hs
    rw [← hs]
    exact hr

/-! ## The whole file -/

theorem caught_ok (w : World) (s : Section) : caught w s = .throw ∨ caught w s = .ok s := by
  unfold caught
  split
  · exact Or.inl rfl
  · exact Or.inr rfl

/-- A section read with what follows it: it neither loops for ever nor takes back lines. -/
def Safe (lines : List Line) (o : Outcome (Option (List Added × Int × List Line))) : Prop :=
  o ≠ .diverges ∧ ∀ a next rest, o = .ok (some (a, next, rest)) → rest <:+ lines

theorem safe_section (w : World) (lines : List Line) (o : Outcome Section) (add : Section → Outcome (List Added))
    (hadd : ∀ s, add s ≠ .diverges) (h : o ≠ .diverges ∧ ∀ s, o = .ok s → s.rest <:+ lines) :
    Safe lines (o >>= fun s => caught w s >>= fun s => add s >>= fun a => .ok (some (a, s.next, s.rest))) := by
  cases o with
  | diverges => exact absurd rfl h.1
  | throw => exact ⟨by simp, by simp⟩
  | ub => exact ⟨by simp, by simp⟩
  | ok s =>
    rw [Outcome.bind_ok]
    rcases caught_ok w s with hc | hc
    · rw [hc]; exact ⟨by simp, by simp⟩
    · rw [hc, Outcome.bind_ok]
      cases ha : add s with
      | diverges => exact absurd ha (hadd s)
      | throw => exact ⟨by simp, by simp⟩
      | ub => exact ⟨by simp, by simp⟩
      | ok a =>
        refine ⟨by simp, fun a' next rest hr => ?_⟩
        simp only [Outcome.bind_ok, Outcome.ok.injEq, Option.some.injEq, Prod.mk.injEq] at hr
        rw [← hr.2.2]
        exact h.2 s rfl

theorem addFound_ne (w : World) (n : Int) (s : Section) : addFound w n s ≠ .diverges := by
  unfold addFound; split_ifs <;> simp

theorem addFrequencies_ne (w : World) (n : Int) (s : Section) : addFrequencies w n s ≠ .diverges := by
  unfold addFrequencies; split_ifs <;> simp

theorem addComplex_ne (w : World) (n : Int) (s : Section) : addComplex w n s ≠ .diverges := by
  unfold addComplex; split_ifs <;> simp

theorem sectionAt_safe (w : World) (hg : ∀ n, w.toGlobal n ≠ .diverges) (st : Status) (atEnd : Option Line) (line : Line)
    (lines : List Line) (hc : CalmEnd atEnd lines) : Safe lines (sectionAt w st atEnd line lines) := by
  have hpure : ∀ s : Section, s.rest <:+ lines → ((Outcome.ok s : Outcome Section) ≠ .diverges ∧
      ∀ s', Outcome.ok s = .ok s' → s'.rest <:+ lines) := by
    intro s h
    refine ⟨by simp, fun s' hs => ?_⟩
    rw [Outcome.ok.injEq] at hs
    rw [← hs]
    exact h
  unfold sectionAt
  split
  · refine safe_section w lines _ _ (addFound_ne w st.subcase) ?_
    unfold displacementSection
    obtain ⟨h1, h2⟩ := displacementLoop_rest w hg st.subcase st.step (lines.drop 1) []
    exact ⟨h1, fun s hs => (h2 s hs).trans (List.drop_suffix _ _)⟩
  · split
    · exact safe_section w lines (.ok (eigenSection st.subcase lines)) _ (addFrequencies_ne w st.subcase)
        (hpure _ (eigenSection_rest _ _))
    · split
      · exact safe_section w lines (.ok (complexSection st.subcase st.frequency lines)) _ (addComplex_ne w st.subcase)
          (hpure _ (complexSection_rest _ _ _))
      · split
        · exact safe_section w lines _ _ (addFound_ne w st.subcase) (stressSection_ok st.subcase atEnd lines hc)
        · exact ⟨by simp, by simp⟩

theorem stoi_parse_ne (cur : Int) (l : Line) : parseSubcase cur l ≠ .diverges := by
  unfold parseSubcase
  split
  · simp
  · simp only
    split
    · split
      · simp
      · split <;> simp
    · simp

theorem read_ne (st : Status) (l : Line) : st.read l ≠ .diverges := by
  have key : ∀ (o : Outcome Status) (k : Status → Status), o ≠ .diverges → (o >>= fun s => .ok (k s)) ≠ .diverges := by
    intro o k h
    cases o with
    | ok f => simp
    | throw => simp
    | ub => simp
    | diverges => exact absurd rfl h
  have key2 : ∀ (o : Outcome Int) (k : Int → Status), o ≠ .diverges → (o >>= fun s => .ok (k s)) ≠ .diverges := by
    intro o k h
    cases o with
    | ok f => simp
    | throw => simp
    | ub => simp
    | diverges => exact absurd rfl h
  unfold Status.read
  by_cases hs : has "SUBCASE".toList l = true
  · rw [if_pos hs]
    exact key _ (fun st => _) (key2 _ _ (stoi_parse_ne _ _))
  · rw [if_neg hs]
    exact key _ (fun st => _) (fun h => nomatch h)

theorem mainLoop_ends (w : World) (hg : ∀ n, w.toGlobal n ≠ .diverges) (atEnd : Option Line) : ∀ (fuel : Nat) (st : Status)
    (lines : List Line), CalmEnd atEnd lines → lines.length < fuel → mainLoop w atEnd fuel st lines ≠ .diverges := by
  intro fuel
  induction fuel with
  | zero => intro st lines _ h; omega
  | succ fuel ih =>
    intro st lines hc hf
    cases lines with
    | nil => simp [mainLoop]
    | cons l rest =>
      have hsuf : rest <:+ l :: rest := List.suffix_cons _ _
      have hf' : rest.length < fuel := by simpa using hf
      rw [mainLoop]
      cases hr : st.read (trim l) with
      | diverges => exact absurd hr (read_ne _ _)
      | throw => simp
      | ub => simp
      | ok st' =>
        rw [Outcome.bind_ok]
        obtain ⟨h1, h2⟩ := sectionAt_safe w hg st' atEnd (trim l) rest (calmEnd_suffix hc hsuf)
        cases hs : sectionAt w st' atEnd (trim l) rest with
        | diverges => exact absurd hs h1
        | throw => simp
        | ub => simp
        | ok o =>
          rw [Outcome.bind_ok]
          cases o with
          | none => exact ih st' rest (calmEnd_suffix hc hsuf) hf'
          | some q =>
            obtain ⟨a, next, left⟩ := q
            have h3 := h2 a next left hs
            have h4 := ih { st' with subcase := next } left (calmEnd_suffix hc (h3.trans hsuf)) (h3.length_le.trans_lt hf')
            simp only
            cases hm : mainLoop w atEnd fuel { st' with subcase := next } left with
            | diverges => exact absurd hm h4
            | throw => simp
            | ub => simp
            | ok m => simp

theorem startsPage_iff {l : Line} : startsPage l = true ↔ PageLine l := by
  unfold startsPage PageLine
  rw [Bool.and_eq_true, beq_iff_eq, has_iff]

theorem endOf_cases (terminated : Bool) : ∀ file : List Line, endOf terminated file = some [] ∨
    (terminated = false ∧ file = [] ∧ endOf terminated file = none) ∨
    (terminated = false ∧ ∃ init l, file = init ++ [l] ∧ ((Blank l ∧ endOf terminated file = some l) ∨
      (¬ Blank l ∧ endOf terminated file = none))) := by
  intro file
  cases terminated with
  | true =>
    refine Or.inl ?_
    induction file with
    | nil => rfl
    | cons l file ih => cases file with
      | nil => rfl
      | cons l' file => exact ih
  | false =>
    refine Or.inr ?_
    induction file with
    | nil => exact Or.inl ⟨rfl, rfl, rfl⟩
    | cons l file ih =>
      refine Or.inr ⟨rfl, ?_⟩
      cases file with
      | nil =>
        refine ⟨[], l, rfl, ?_⟩
        unfold endOf
        simp only [Bool.false_eq_true, if_false]
        by_cases h : (trim l).isEmpty = true
        · rw [if_pos h]
          rw [trim_isEmpty, List.all_eq_true] at h
          exact Or.inl ⟨h, rfl⟩
        · rw [if_neg h]
          refine Or.inr ⟨fun hb => h ?_, rfl⟩
          rw [trim_isEmpty, List.all_eq_true]
          exact hb
      | cons l' file =>
        rcases ih with ⟨_, h, _⟩ | ⟨_, init, x, h1, h2⟩
        · exact absurd h (by simp)
        · exact ⟨l :: init, x, by rw [h1]; rfl, h2⟩

theorem blank_not_page {l : Line} (h : Blank l) : startsPage l = false := by
  cases l with
  | nil => rfl
  | cons c t =>
    have hc := h c (by simp)
    have : c ≠ '1' := by rintro rfl; exact absurd hc (by decide)
    unfold startsPage
    simp [this]

theorem calm_input (terminated : Bool) (file : List Line) (h : terminated = true ∨ ∀ l ∈ file.getLast?, ¬ PageLine l) :
    CalmEnd (inputOf terminated file).atEnd (inputOf terminated file).lines := by
  unfold inputOf
  simp only
  rcases endOf_cases terminated file with he | ⟨_, rfl, he⟩ | ⟨hf, init, l, rfl, ⟨hb, he⟩ | ⟨hb, he⟩⟩
  · rw [he]; rfl
  · rw [he]; intro l hl; exact absurd hl (by simp)
  · rw [he]; exact blank_not_page hb
  · rw [he]
    have hnp : ¬ PageLine l := (h.resolve_left (by simp [hf])) l (by simp)
    have hne : (!(trim l).isEmpty) = true := by
      rw [Bool.not_eq_true', ← Bool.not_eq_true, trim_isEmpty, List.all_eq_true]
      exact hb
    intro x hx
    have hone : ([l] : List Line).filter (fun l => !(trim l).isEmpty) = [l] := List.filter_cons_of_pos (p := fun l => !(trim l).isEmpty) hne
    rw [List.filter_append, hone, List.getLast?_append] at hx
    have : x = l := by simpa using hx.symm
    rw [this]
    exact Bool.eq_false_iff.2 fun hp => hnp (startsPage_iff.1 hp)

/-- **C96.** The reading of a result file ends, whatever the file, if its last line ends with a newline or is not the first line
of a page. (The change to global coordinates is supposed to end.) -/
theorem C96_ends_partial (w : World) (hg : ∀ n, w.toGlobal n ≠ .diverges) (terminated : Bool) (file : List Line)
    (h : terminated = true ∨ ∀ l ∈ file.getLast?, ¬ PageLine l) : addAssertions w (inputOf terminated file) ≠ .diverges :=
  mainLoop_ends w hg _ _ _ _ (calm_input terminated file h) (by simp)

/-- The loop over the nodes of a cell goes on for ever at the end of a file whose last line is the first of a page and has no
newline. -/
theorem nodes_for_ever (subcase cell : Int) {line : Line} (h : startsPage line = true) (left : Nat) (found : List Added) :
    ∀ fuel : Nat, stressNodes subcase cell fuel (left + 1) line ⟨[], none⟩ found = .diverges := by
  have hl : stressLines subcase cell 3 line ⟨[], none⟩ found = .ok (.page, line, ⟨[], none⟩, found) := by
    rw [stressLines]
    simp only [show readLine line ⟨[], none⟩ = (false, line, ⟨[], none⟩) from rfl]
    rw [if_pos h]
    rfl
  intro fuel
  induction fuel with
  | zero => rfl
  | succ fuel ih =>
    rw [stressNodes, hl]
    simp only [Outcome.bind_ok]
    exact ih

/-- The file is cut in a table of stresses after the first line of a page: the reading never ends. -/
theorem C96_cut_false : ∃ file : List Line, addAssertions (world12 true) (inputOf false file) = .diverges ∧
    ∃ line, startsPage line = true ∧ file.getLast? = some line ∧ ∀ subcase cell left found fuel,
      stressNodes subcase cell fuel (left + 1) line (⟨[], none⟩ : Input) found = .diverges :=
  ⟨["S T R E S S E S   I N   S O L I D   E L E M E N T S".toList, stressTitle, "0    11    0GRID CS  4 GP".toList, "1  PAGE 2".toList],
    by decide +kernel, "1  PAGE 2".toList, by decide, by decide, fun subcase cell left found =>
      nodes_for_ever subcase cell (by decide) left found⟩

example : addAssertions (world12 true) (inputOf true
    ["S T R E S S E S   I N   S O L I D   E L E M E N T S".toList, stressTitle, "0    11    0GRID CS  4 GP".toList, "1  PAGE 2".toList]) ≠
      .diverges :=
  C96_ends_partial _ (by intro n; simp [world12]) true _ (Or.inl rfl)

theorem endOf_cons (terminated : Bool) (l : Line) {file : List Line} (h : file ≠ []) : endOf terminated (l :: file) = endOf terminated file := by
  cases file with
  | nil => exact absurd rfl h
  | cons l' file => rfl

/-- The reading of the lines of the file one by one, passing over the blank ones, and that of the lines that are not blank give
the same: the result, the variable and, unless the file is at its end, what is left. -/
theorem readLine_eq (terminated : Bool) : ∀ (file : List Line) (line : Line),
    (rawReadLine terminated line file).1 = (readLine line (inputOf terminated file)).1 ∧
    (rawReadLine terminated line file).2.1 = (readLine line (inputOf terminated file)).2.1 ∧
    ((rawReadLine terminated line file).1 = true →
      inputOf terminated (rawReadLine terminated line file).2.2 = (readLine line (inputOf terminated file)).2.2) := by
  intro file
  induction file with
  | nil =>
    intro line
    cases terminated <;> exact ⟨rfl, rfl, fun h => absurd h (by simp [rawReadLine])⟩
  | cons l file ih =>
    intro line
    rw [rawReadLine]
    by_cases hb : (trim l).isEmpty = true
    · rw [if_pos hb]
      have hlines : (inputOf terminated (l :: file)).lines = (inputOf terminated file).lines := by
        unfold inputOf
        simp [hb]
      by_cases hf : file = []
      · subst hf
        cases terminated
        · refine ⟨?_, ?_, fun h => absurd h (by simp [rawReadLine])⟩
          · simp [rawReadLine, readLine, inputOf, hb]
          · simp [rawReadLine, readLine, inputOf, hb, endOf]
        · refine ⟨?_, ?_, fun h => absurd h (by simp [rawReadLine])⟩
          · simp [rawReadLine, readLine, inputOf, hb]
          · simp [rawReadLine, readLine, inputOf, hb, endOf]
      · have hin : inputOf terminated (l :: file) = inputOf terminated file := by
          unfold inputOf
          rw [endOf_cons terminated l hf, List.filter_cons_of_neg (by simp [hb])]
        rw [hin]
        obtain ⟨h1, h2, h3⟩ := ih l
        have hvar : (readLine l (inputOf terminated file)).1 = (readLine line (inputOf terminated file)).1 ∧
            (readLine l (inputOf terminated file)).2.2 = (readLine line (inputOf terminated file)).2.2 := by
          unfold readLine
          split <;> exact ⟨rfl, rfl⟩
        refine ⟨h1.trans hvar.1, ?_, fun h => (h3 h).trans hvar.2⟩
        rw [h2]
        have hend : (inputOf terminated file).lines = [] → ∃ x, (inputOf terminated file).atEnd = some x := by
          intro hl
          rcases endOf_cases terminated file with he | ⟨_, h0, _⟩ | ⟨_, init, x, hx, ⟨_, he⟩ | ⟨hbx, _⟩⟩
          · exact ⟨_, he⟩
          · exact absurd h0 hf
          · exact ⟨_, he⟩
          · exfalso
            have hmem : x ∈ (inputOf terminated file).lines := by
              unfold inputOf
              rw [List.mem_filter]
              refine ⟨by rw [hx]; simp, ?_⟩
              rw [Bool.not_eq_true', ← Bool.not_eq_true, trim_isEmpty, List.all_eq_true]
              exact hbx
            rw [hl] at hmem
            exact absurd hmem (by simp)
        unfold readLine
        split
        · rename_i hl
          obtain ⟨x, hx⟩ := hend hl
          rw [hx]
        · rfl
    · rw [if_neg hb]
      have hlines : (inputOf terminated (l :: file)).lines = l :: (inputOf terminated file).lines := by
        unfold inputOf
        simp [hb]
      have hend : (inputOf terminated (l :: file)).atEnd = (inputOf terminated file).atEnd := by
        unfold inputOf
        by_cases hf : file = []
        · subst hf
          cases terminated <;> simp [endOf, hb]
        · exact endOf_cons terminated l hf
      unfold readLine
      rw [hlines]
      refine ⟨rfl, rfl, fun _ => ?_⟩
      rw [hend]

end F06
end Vega
