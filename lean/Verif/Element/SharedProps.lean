import Verif.Element.DirectAsterProps

/-! # C73: nodes coupled to several others -/
namespace Vega.DirectAsterSpec
open DirectMatrix DirectSpec DirectAster

/-- The entry couples the node `p` to another node `r`. -/
def Couples (e : Entry) (p r : Nat) : Prop :=
  r ≠ p ∧ (e.x.1 = p ∧ e.y.1 = r ∨ e.x.1 = r ∧ e.y.1 = p)

theorem canon_nodes (e : Entry) :
    (canon e.x e.y).1 = if e.x.1 > e.y.1 then (e.y.1, e.x.1) else (e.x.1, e.y.1) := by
  unfold canon
  split
  · rfl
  · split <;> rfl

/-- **C73** in every symmetric matrix, the coefficient between two coupled nodes is divided by the number of
nodes the first one is coupled to (and dropped when the quotient is below the tolerance): it is
right only for a node coupled to one other, or null. -/
theorem C73_shared_false (k : Quantity) (hist : List Entry)
    (m : DirectMatrix) (hm : DirectSpec.run (DirectMatrix.new .SYMMETRIC) hist = .ok m)
    (p q : Nat) (hpq : p < q) (c d : Dof) (others : List Nat) (hn : others.Nodup)
    (ho : ∀ r, r ∈ others ↔ ∃ e ∈ hist, Couples e p r) (hq : q ∈ others) :
    ∃ ps, replace m k = .ok ps ∧ assembled k ps (p, c) (q, d) =
      let v := coefficient hist (p, c) (q, d) / (others.length : Nat)
      if isZero v then 0 else v := by
  obtain ⟨m', h1, h2, h3, h4⟩ := run_eq hist _ inv_new
  rw [hm] at h1
  injection h1 with h1
  subst h1
  have hraw : ∀ x y, raw m (canon x y) = lastGiven hist x y := h3
  have hpairs : ∀ a, a ∈ m.nodePairs ↔ ∃ e ∈ hist, a = (canon e.x e.y).1 := by
    intro a
    refine (h4 a).trans ⟨?_, .inl⟩
    rintro (h | h)
    · exact h
    · simp [DirectMatrix.new] at h
  obtain ⟨ps, g1, g2⟩ := pieces_eq m h2 k m.nodePairs (fun _ h => h)
  refine ⟨ps, g1, ?_⟩
  have hle : ∀ np ∈ m.nodePairs, np.1 ≤ np.2 := by
    intro np hnp
    obtain ⟨sub, hsub⟩ := (Map.mem_keys_iff _ _).mp hnp
    exact (h2.subs _ _ hsub).2.2.1
  have hmem : (p, q) ∈ m.nodePairs := by
    obtain ⟨e, he, _, hc⟩ := (ho q).mp hq
    refine (hpairs _).mpr ⟨e, he, ?_⟩
    rw [canon_nodes]
    rcases hc with ⟨a, b⟩ | ⟨a, b⟩
    · rw [if_neg (by omega), a, b]
    · rw [if_pos (by omega), a, b]
  have hdeg : degree m p = others.length := by
    have hnd : (m.findInPairs p).Nodup := by unfold findInPairs; exact h2.wf.filter _
    have hnm : ((m.findInPairs p).map fun np => if np.1 = p then np.2 else np.1).Nodup := by
      refine List.Nodup.map_on ?_ hnd
      intro a ha b hb hab
      obtain ⟨a1, a2, a3⟩ := (mem_findInPairs m p a).mp ha
      obtain ⟨b1, b2, b3⟩ := (mem_findInPairs m p b).mp hb
      have := hle a a1
      have := hle b b1
      ext
      · split_ifs at hab <;> omega
      · split_ifs at hab <;> omega
    have hperm : ((m.findInPairs p).map fun np => if np.1 = p then np.2 else np.1).Perm others := by
      rw [List.perm_ext_iff_of_nodup hnm hn]
      intro r
      rw [ho r, List.mem_map]
      constructor
      · rintro ⟨np, hnp, rfl⟩
        obtain ⟨a1, a2, a3⟩ := (mem_findInPairs m p np).mp hnp
        obtain ⟨e, he, rfl⟩ := (hpairs _).mp a1
        refine ⟨e, he, ?_⟩
        rw [canon_nodes] at a2 a3 ⊢
        unfold Couples
        by_cases hgt : e.x.1 > e.y.1
        · rw [if_pos hgt] at a2 a3 ⊢
          simp only at a2 a3 ⊢
          by_cases hy : e.y.1 = p
          · rw [if_pos hy]; exact ⟨by omega, .inr ⟨rfl, hy⟩⟩
          · rw [if_neg hy]; exact ⟨hy, .inl ⟨by omega, rfl⟩⟩
        · rw [if_neg hgt] at a2 a3 ⊢
          simp only at a2 a3 ⊢
          by_cases hx : e.x.1 = p
          · rw [if_pos hx]; exact ⟨by omega, .inl ⟨hx, rfl⟩⟩
          · rw [if_neg hx]; exact ⟨hx, .inr ⟨rfl, by omega⟩⟩
      · rintro ⟨e, he, hr, hc⟩
        refine ⟨(canon e.x e.y).1, (mem_findInPairs m p _).mpr ⟨(hpairs _).mpr ⟨e, he, rfl⟩, ?_, ?_⟩, ?_⟩ <;>
          rw [canon_nodes] <;> split_ifs <;> simp only at * <;> omega
    have := hperm.length_eq
    rwa [List.length_map] at this
  have hwf : m.nodePairs.Nodup := h2.wf
  rw [g2, sum_single _ hwf _ (p, q) hmem]
  · unfold share
    rw [if_neg (by simp only; omega), if_pos (by simp), hraw, hdeg]
    rfl
  · intro b hb hne
    have hb1 := hle b hb
    unfold share
    by_cases he : b.1 = b.2
    · rw [if_pos he, if_neg (by simp only; omega)]
    · rw [if_neg he, if_neg]
      rintro ⟨h5, h6⟩
      simp only at h5 h6
      apply hne
      ext
      · simp only; omega
      · simp only; omega

/-- A star: the first node is coupled to three others, one of them twice. -/
example : ∃ m, DirectSpec.run (DirectMatrix.new .SYMMETRIC) [⟨(1, .DX), (2, .DX), 6⟩, ⟨(3, .DX), (1, .DX), 8⟩,
      ⟨(1, .DY), (4, .RX), 3⟩, ⟨(2, .DZ), (1, .DX), 9⟩] = .ok m ∧
    ∀ r, r ∈ [2, 3, 4] ↔ ∃ e ∈ ([⟨(1, .DX), (2, .DX), 6⟩, ⟨(3, .DX), (1, .DX), 8⟩,
      ⟨(1, .DY), (4, .RX), 3⟩, ⟨(2, .DZ), (1, .DX), 9⟩] : List Entry), Couples e 1 r := by
  refine ⟨_, rfl, ?_⟩
  intro r
  simp [Couples]
  omega

end Vega.DirectAsterSpec
