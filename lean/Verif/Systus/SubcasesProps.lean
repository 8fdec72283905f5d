import Verif.Systus.Subcases
import Mathlib.Data.List.Perm.Basic
import Mathlib.Data.List.Infix

/-! # C110: each analysis is written to Systus once, with its own constraints -/
namespace Vega
namespace Subcases

/-- Two analyses may share a file: both are static, with the same constraints. -/
def Shares (a b : Analysis) : Prop := a.kind = .mecaStat ∧ b.kind = .mecaStat ∧ a.constraintSets = b.constraintSets

/-! ## Lemmas -/

theorem Kind.code_inj {a b : Kind} (h : a.code = b.code) : a = b := by
  cases a <;> cases b <;> first | rfl | exact absurd h (by decide)

theorem characteristic_eq {a b : Analysis} :
    a.characteristic = b.characteristic ↔ a.kind = b.kind ∧ a.constraintSets = b.constraintSets := by
  unfold Analysis.characteristic
  constructor
  · intro h
    injection h with h1 h
    injection h with _ h2
    exact ⟨Kind.code_inj h1, h2⟩
  · rintro ⟨h1, h2⟩
    rw [h1, h2]

theorem place_flatten (a : Analysis) (gs : List (List Int × List Analysis)) :
    ((place a gs).map Prod.snd).flatten.Perm ((gs.map Prod.snd).flatten ++ [a]) := by
  induction gs with
  | nil => simp [place]
  | cons p r ih =>
    obtain ⟨c, g⟩ := p
    unfold place
    split
    · simp only [List.map_cons, List.flatten_cons, List.append_assoc]
      exact List.Perm.append_left g (List.perm_append_comm)
    · simp only [List.map_cons, List.flatten_cons, List.append_assoc]
      exact List.Perm.append_left g ih

/-- What holds after each analysis. -/
structure Inv (as : List Analysis) (gs : List (List Int × List Analysis)) : Prop where
  perm : (gs.map Prod.snd).flatten.Perm as
  nonempty : ∀ p ∈ gs, p.2 ≠ []
  sub : ∀ p ∈ gs, p.2.Sublist as
  char : ∀ p ∈ gs, ∀ a ∈ p.2, a.characteristic = p.1
  alone : ∀ p ∈ gs, ∀ a ∈ p.2, a.kind ≠ .mecaStat → p.2 = [a]
  apart : gs.Pairwise fun p q => ∀ b ∈ q.2, b.kind = .mecaStat → p.1 ≠ q.1

theorem mem_place {a : Analysis} {gs : List (List Int × List Analysis)} {p : List Int × List Analysis} (h : p ∈ place a gs) :
    p ∈ gs ∨ (p = (a.characteristic, [a]) ∧ ∀ q ∈ gs, ¬ (a.kind = .mecaStat ∧ a.characteristic = q.1)) ∨
      ∃ g, (p.1, g) ∈ gs ∧ p.2 = g ++ [a] ∧ a.kind = .mecaStat ∧ a.characteristic = p.1 := by
  induction gs with
  | nil => simp only [place, List.mem_singleton] at h; exact .inr (.inl ⟨h, fun _ hq => nomatch hq⟩)
  | cons q r ih =>
    obtain ⟨c, g⟩ := q
    unfold place at h
    split at h
    · rename_i hc
      rcases List.mem_cons.mp h with rfl | h
      · exact .inr (.inr ⟨g, List.mem_cons_self, rfl, hc.1, hc.2⟩)
      · exact .inl (List.mem_cons_of_mem _ h)
    · rename_i hc
      rcases List.mem_cons.mp h with rfl | h
      · exact .inl List.mem_cons_self
      · rcases ih h with h | ⟨h, h'⟩ | ⟨g', h1, h2⟩
        · exact .inl (List.mem_cons_of_mem _ h)
        · refine .inr (.inl ⟨h, fun q hq => ?_⟩)
          rcases List.mem_cons.mp hq with rfl | hq
          · exact hc
          · exact h' q hq
        · exact .inr (.inr ⟨g', List.mem_cons_of_mem _ h1, h2⟩)

theorem place_apart (a : Analysis) (gs : List (List Int × List Analysis))
    (hc : ∀ p ∈ gs, ∀ b ∈ p.2, b.characteristic = p.1) (hn : ∀ p ∈ gs, p.2 ≠ [])
    (h : gs.Pairwise fun p q => ∀ b ∈ q.2, b.kind = .mecaStat → p.1 ≠ q.1) :
    (place a gs).Pairwise fun p q => ∀ b ∈ q.2, b.kind = .mecaStat → p.1 ≠ q.1 := by
  induction gs with
  | nil => simp [place]
  | cons p r ih =>
    obtain ⟨c, g⟩ := p
    rw [List.pairwise_cons] at h
    unfold place
    split
    · exact List.pairwise_cons.mpr h
    · rename_i hne
      refine List.pairwise_cons.mpr ⟨?_, ih (fun p hp => hc p (List.mem_cons_of_mem _ hp))
        (fun p hp => hn p (List.mem_cons_of_mem _ hp)) h.2⟩
      intro q hq b hb hk
      rcases mem_place hq with hq | ⟨rfl, -⟩ | ⟨g', h1, h2, h3, h4⟩
      · exact h.1 q hq b hb hk
      · simp only [List.mem_singleton] at hb
        subst hb
        exact fun e => hne ⟨hk, e.symm⟩
      · obtain ⟨x, hx⟩ := List.exists_mem_of_ne_nil g' (hn _ (List.mem_cons_of_mem _ h1))
        refine h.1 (q.1, g') h1 x hx ?_
        have e := hc _ (List.mem_cons_of_mem _ h1) x hx
        rw [← h4] at e
        exact (characteristic_eq.mp e).1.trans h3

theorem place_inv {as : List Analysis} {gs : List (List Int × List Analysis)} (h : Inv as gs) (a : Analysis) :
    Inv (as ++ [a]) (place a gs) where
  perm := (place_flatten a gs).trans (h.perm.append_right [a])
  nonempty p hp := by
    rcases mem_place hp with hp | ⟨rfl, -⟩ | ⟨g, -, h2, -⟩
    · exact h.nonempty p hp
    · simp
    · rw [h2]; simp
  sub p hp := by
    rcases mem_place hp with hp | ⟨rfl, -⟩ | ⟨g, h1, h2, -⟩
    · exact (h.sub p hp).trans (List.sublist_append_left _ _)
    · exact List.sublist_append_right _ _
    · rw [h2]; exact (h.sub _ h1).append_right [a]
  char p hp := by
    rcases mem_place hp with hp | ⟨rfl, -⟩ | ⟨g, h1, h2, h3, h4⟩
    · exact h.char p hp
    · intro b hb; rw [List.mem_singleton.mp hb]
    · intro b hb
      rw [h2] at hb
      rcases List.mem_append.mp hb with hb | hb
      · exact h.char _ h1 b hb
      · rw [List.mem_singleton.mp hb]; exact h4
  alone p hp := by
    rcases mem_place hp with hp | ⟨rfl, -⟩ | ⟨g, h1, h2, h3, h4⟩
    · exact h.alone p hp
    · intro b hb _; rw [List.mem_singleton.mp hb]
    · intro b hb hk
      refine absurd ?_ hk
      rw [h2] at hb
      rcases List.mem_append.mp hb with hb | hb
      · have e := h.char _ h1 b hb
        rw [← h4] at e
        exact (characteristic_eq.mp e).1.trans h3
      · rw [List.mem_singleton.mp hb]; exact h3
  apart := place_apart a gs h.char h.nonempty h.apart

theorem foldl_inv (as : List Analysis) : Inv as (as.foldl (fun gs a => place a gs) []) := by
  induction as using List.reverseRecOn with
  | nil => exact ⟨by simp, by simp, by simp, by simp, by simp, by simp⟩
  | append_singleton as a ih =>
    rw [List.foldl_append]
    exact place_inv ih a

/-! ## The default mode -/

/-- C110, default mode: each analysis is in exactly one subcase, those of one subcase keep their order. -/
theorem C110_once (as : List Analysis) (hne : as ≠ []) :
    ∃ gs, generate as [] = .ok gs ∧ gs.flatten.Perm as ∧ ∀ g ∈ gs, g ≠ [] ∧ g.Sublist as := by
  have h := foldl_inv as
  have hn : groupAuto as ≠ [] := by
    intro e
    have hp := h.perm
    unfold groupAuto at e
    rw [e] at hp
    exact hne (List.perm_nil.mp hp.symm)
  refine ⟨groupAuto as, ?_, h.perm, ?_⟩
  · simp [generate, group, Outcome.bind, hn]
  · intro g hg
    obtain ⟨p, hp, rfl⟩ := List.mem_map.mp hg
    exact ⟨h.nonempty p hp, h.sub p hp⟩

/-- C110, default mode: analyses share a subcase only if both are static with the same constraints. -/
theorem C110_shared (as : List Analysis) (g : List Analysis) (hg : g ∈ groupAuto as) (a b : Analysis) (ha : a ∈ g)
    (hb : b ∈ g) (hab : a ≠ b) : Shares a b := by
  have h := foldl_inv as
  obtain ⟨p, hp, rfl⟩ := List.mem_map.mp hg
  have e := characteristic_eq.mp ((h.char p hp a ha).trans (h.char p hp b hb).symm)
  have hk : a.kind = .mecaStat := by
    by_contra hk
    have := h.alone p hp a ha hk
    rw [this] at hb
    exact hab (List.mem_singleton.mp hb).symm
  exact ⟨hk, e.1 ▸ hk, e.2⟩

/-- C110, default mode: static analyses with the same constraints are always put together. -/
theorem C110_merged (as : List Analysis) : (groupAuto as).Pairwise fun g g' => ∀ a ∈ g, ∀ b ∈ g', ¬ Shares a b := by
  have h := foldl_inv as
  unfold groupAuto
  rw [List.pairwise_map]
  refine List.Pairwise.imp_of_mem ?_ h.apart
  rintro p q hp hq hpq a ha b hb ⟨h1, h2, h3⟩
  refine hpq b hb h2 ?_
  rw [← h.char p hp a ha, ← h.char q hq b hb]
  exact characteristic_eq.mpr ⟨h1.trans h2.symm, h3⟩

/-- C110, default mode: the degrees of freedom that are blocked and the type of the computation are those of each analysis of the
subcase. -/
theorem C110_own (as : List Analysis) (g : List Analysis) (hg : g ∈ groupAuto as) (a : Analysis) (ha : a ∈ g) :
    blocking g = a.constraintSets ∧ solved g = some a.kind := by
  have h := foldl_inv as
  obtain ⟨p, hp, rfl⟩ := List.mem_map.mp hg
  cases hp2 : p.2 with
  | nil => exact absurd hp2 (h.nonempty p hp)
  | cons b r =>
    have e := characteristic_eq.mp ((h.char p hp b (by rw [hp2]; simp)).trans (h.char p hp a ha).symm)
    exact ⟨e.2, congrArg some e.1⟩

/-- C110 without analysis: the mesh is written. -/
theorem C110_mesh : generate [] [] = .ok [[]] := rfl

/-! ## One file for each analysis -/

theorem parse_single (pre : List (List Int)) (post : List Value) (acc : List (List Int)) :
    parse (pre.map Value.list ++ .single :: post) acc = [[-1]] := by
  induction pre generalizing acc with
  | nil => rfl
  | cons n pre ih => exact ih (acc ++ [n])

theorem parse_lists (ls acc : List (List Int)) : parse (ls.map Value.list) acc = acc ++ ls := by
  induction ls generalizing acc with
  | nil => simp [parse]
  | cons n ls ih => simp [parse, ih]

/-- C110, mode `single`: each analysis has its own file, in order, whatever lists stand before the word. -/
theorem C110_single (as : List Analysis) (hne : as ≠ []) (pre : List (List Int)) (post : List Value) :
    generate as (parse (pre.map Value.list ++ .single :: post) []) = .ok (as.map fun a => [a]) ∧
      ∀ a ∈ as, blocking [a] = a.constraintSets ∧ solved [a] = some a.kind := by
  rw [parse_single]
  refine ⟨?_, fun a _ => ⟨rfl, rfl⟩⟩
  simp [generate, group, Outcome.bind, hne]

/-! ## Lists of the user -/

theorem byOriginal_some {as : List Analysis} (hn : (as.filterMap (·.original)).Nodup) {a : Analysis} (ha : a ∈ as) {n : Int}
    (ho : a.original = some n) : byOriginal as n = some a := by
  induction as with
  | nil => exact nomatch ha
  | cons b as ih =>
    unfold byOriginal
    rw [List.find?_cons]
    rcases List.mem_cons.mp ha with rfl | ha
    · simp [ho]
    · have hb : b.original ≠ some n := by
        intro hb
        rw [List.filterMap_cons_some hb, List.nodup_cons] at hn
        exact hn.1 (List.mem_filterMap.mpr ⟨a, ha, ho⟩)
      have hn' : (as.filterMap (·.original)).Nodup := by
        rw [List.filterMap_cons] at hn
        cases hbo : b.original with
        | none => simpa [hbo] using hn
        | some m => rw [hbo] at hn; exact (List.nodup_cons.mp hn).2
      simp only [hb, decide_false]
      exact ih hn' ha

theorem filterMap_original {as : List Analysis} (hn : (as.filterMap (·.original)).Nodup) (g : List Analysis)
    (hg : ∀ a ∈ g, a ∈ as ∧ a.original.isSome) : (g.filterMap (·.original)).filterMap (byOriginal as) = g := by
  induction g with
  | nil => rfl
  | cons a g ih =>
    obtain ⟨n, ho⟩ := Option.isSome_iff_exists.mp (hg a List.mem_cons_self).2
    rw [List.filterMap_cons_some ho, List.filterMap_cons_some (byOriginal_some hn (hg a List.mem_cons_self).1 ho),
      ih fun b hb => hg b (List.mem_cons_of_mem _ hb)]

/-- C110, lists of the user: if the numbers of the user are different, lists of the numbers of analyses give exactly those
subcases. -/
theorem C110_user (as : List Analysis) (hn : (as.filterMap (·.original)).Nodup) (hpos : ∀ a ∈ as, a.original ≠ some (-1))
    (gs : List (List Analysis)) (hgs : gs ≠ []) (hg : ∀ g ∈ gs, g ≠ [] ∧ ∀ a ∈ g, a ∈ as ∧ a.original.isSome) :
    generate as (parse (gs.map fun g => .list (g.filterMap (·.original))) []) = .ok gs := by
  have hl : (gs.map fun g => Value.list (g.filterMap (·.original))) = (gs.map fun g => g.filterMap (·.original)).map Value.list := by
    rw [List.map_map]; rfl
  rw [hl, parse_lists, List.nil_append]
  have hu : groupUser as (gs.map fun g => g.filterMap (·.original)) = gs := by
    unfold groupUser
    rw [List.map_map]
    have : gs.map ((fun ns => List.filterMap (byOriginal as) ns) ∘ fun g => g.filterMap (·.original)) = gs := by
      conv_rhs => rw [← List.map_id gs]
      exact List.map_congr_left fun g h => filterMap_original hn g (hg g h).2
    rw [this, List.filter_eq_self]
    intro g h
    simpa using (hg g h).1
  have hgrp : group as (gs.map fun g => g.filterMap (·.original)) = .ok gs := by
    match gs, hgs, hg, hu with
    | [g], _, hg, hu =>
      obtain ⟨a, r, rfl⟩ := List.exists_cons_of_ne_nil (hg g List.mem_cons_self).1
      obtain ⟨ha, hs⟩ := (hg _ List.mem_cons_self).2 a List.mem_cons_self
      obtain ⟨n, ho⟩ := Option.isSome_iff_exists.mp hs
      have hne : n ≠ -1 := fun e => hpos a ha (e ▸ ho)
      simp only [List.map_cons, List.map_nil, List.filterMap_cons_some ho] at hu ⊢
      simp only [group, if_neg hne, hu]
    | g :: g' :: r, _, _, hu =>
      simp only [List.map_cons] at hu ⊢
      unfold group
      split <;> simp_all
  simp [generate, hgrp, Outcome.bind, hgs]

/-- C110 is false for lists of the user whose analyses have different constraints or types: the second one is computed with the
constraints and the type of the first one. -/
theorem C110_user_false (as : List Analysis) (a b : Analysis) (ha : a ∈ as) (hb : b ∈ as) (n m : Int) (ha' : a.original = some n)
    (hb' : b.original = some m) (hn : (as.filterMap (·.original)).Nodup) (hpos : ∀ a ∈ as, a.original ≠ some (-1))
    (hc : a.constraintSets ≠ b.constraintSets) :
    generate as (parse [.list [n, m]] []) = .ok [[a, b]] ∧ blocking [a, b] ≠ b.constraintSets := by
  have h := C110_user as hn hpos [[a, b]] (by simp) (by
    intro g hg
    rw [List.mem_singleton.mp hg]
    refine ⟨by simp, fun c hcm => ?_⟩
    rcases List.mem_cons.mp hcm with rfl | hcm
    · exact ⟨ha, by simp [ha']⟩
    · rw [List.mem_singleton.mp hcm]; exact ⟨hb, by simp [hb']⟩)
  simp only [List.map_cons, List.map_nil, List.filterMap_cons_some ha', List.filterMap_cons_some hb', List.filterMap_nil] at h
  exact ⟨h, hc⟩

/-- C110 is false for a list of numbers that are not found: the subcase is left out and the following ones move up. -/
theorem C110_unknown_false (as : List Analysis) (a : Analysis) (ha : a ∈ as) (n m : Int) (ha' : a.original = some n)
    (hn : (as.filterMap (·.original)).Nodup) (hm : ∀ b ∈ as, b.original ≠ some m) :
    generate as (parse [.list [m], .list [n]] []) = .ok [[a]] := by
  have h1 : byOriginal as m = none := by
    unfold byOriginal
    rw [List.find?_eq_none]
    intro b hb
    simpa using hm b hb
  have h2 := byOriginal_some hn ha ha'
  simp [generate, parse, group, groupUser, h1, h2, Outcome.bind]

/-! ## Examples -/

/-- Three static analyses, two of them with the same constraints, and a modal one. -/
example : generate [⟨1, some 10, .mecaStat, [5]⟩, ⟨2, some 20, .modal, [5]⟩, ⟨3, some 30, .mecaStat, [6]⟩, ⟨4, some 40, .mecaStat, [5]⟩]
    [] = .ok [[⟨1, some 10, .mecaStat, [5]⟩, ⟨4, some 40, .mecaStat, [5]⟩], [⟨2, some 20, .modal, [5]⟩], [⟨3, some 30, .mecaStat, [6]⟩]] := by
  decide +kernel

/-- Hypotheses of `C110_user_false`. -/
example : generate [⟨1, some 10, .mecaStat, [5]⟩, ⟨2, some 20, .mecaStat, [6]⟩] (parse [.list [10, 20]] []) =
    .ok [[⟨1, some 10, .mecaStat, [5]⟩, ⟨2, some 20, .mecaStat, [6]⟩]] := by decide +kernel

end Subcases
end Vega
