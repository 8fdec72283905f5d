import Mathlib.Tactic.Linarith
import Mathlib.Tactic.NormNum
import Verif.Aster.Materials
import Verif.Element.ElasticProps
import Verif.Mesh.BarsProps

/-!
# Code_Aster gets the constants of the cards of materials (C126)
-/
namespace Vega

namespace MaterialsSpec
open Nastran Materials BarsSpec

/-- One order is written for the material of this number, with one factor keyword of this name, which has these values. -/
def Written (out : List (Int × List Block)) (number : Int) (name : String) (values : List (String × Option Dbl)) : Prop :=
  ∃ bs, out.filter (fun o => o.1 = number) = [(number, bs)] ∧ bs.filter (fun b => b.1 = name) = [(name, values)]

/-- The keyword has this value and no other. -/
def Has (values : List (String × Option Dbl)) (k : String) (x : Dbl) : Prop :=
  values.filter (fun v => v.1 = k) = [(k, some x)]

/-- The keyword is not there. -/
def Lacks (values : List (String × Option Dbl)) (k : String) : Prop := ∀ v ∈ values, v.1 ≠ k

/-- A number that cannot be mistaken for that which stands for a blank. -/
def Ordinary (x : Dbl) : Prop := |x| ≤ dblMax / 2

/-- The keywords of Code_Aster for the fields of MAT8 that may be left blank, as the two programs are generally known; the
strength `YT` (field 14) is missing. -/
def table8 : List (String × Nat) :=
  [("G_LN", 6), ("G_TN", 7), ("ALPHA_L", 9), ("ALPHA_T", 10), ("TEMP_DEF_ALPHA", 11), ("XT", 12), ("XC", 13),
    ("YC", 15), ("S_LT", 16)]

/-- Those for the fields that have to be given. -/
def required8 : List (String × Nat) := [("E_L", 2), ("E_T", 3), ("NU_LT", 4), ("G_LT", 5)]

/-- The number of a card. -/
def NumberOf (c : Card) (n : Int) : Prop := IsInt c.fields 1 n

/-- The value of a real field with a default. -/
def RealOr (card : List Line) (i : Nat) (d x : Dbl) : Prop := IsReal card i x ∨ Blank card i ∧ x = d

/-- Young's modulus and Poisson's ratio of a card MAT1, two of the three constants being given, or the first alone. -/
inductive Constants (card : List Line) : Dbl → Dbl → Prop where
  | youngPoisson (e nu : Dbl) (he : IsReal card 2 e) (hn : IsReal card 4 nu) (oe : Ordinary e) (on : Ordinary nu)
      (h : nu ≠ -1) : Constants card e nu
  | youngShear (e g : Dbl) (he : IsReal card 2 e) (hg : IsReal card 3 g) (hn : Blank card 4) (oe : Ordinary e)
      (og : Ordinary g) (on : Ordinary (e / (2 * g) - 1)) (h : g ≠ 0) : Constants card e (e / (2 * g) - 1)
  | shearPoisson (g nu : Dbl) (he : Blank card 2) (hg : IsReal card 3 g) (hn : IsReal card 4 nu) (og : Ordinary g)
      (on : Ordinary nu) (oe : Ordinary (2 * (1 + nu) * g)) : Constants card (2 * (1 + nu) * g) nu
  | young (e : Dbl) (he : IsReal card 2 e) (hg : Blank card 3) (hn : Blank card 4) (oe : Ordinary e) : Constants card e 0

/-- The material without its nonlinear elastic law. -/
def forget (m : Material) : Material := { m with natures := m.natures.filter fun n => n.type ≠ .nonlinear }

end MaterialsSpec

namespace Materials
open Nastran BarsSpec Bars MaterialsSpec

/-! ## Lemmas -/

theorem readReal_default {card : List Line} {i : Nat} {d x : Dbl} (h : readReal (some d) (field card i) = .ok x) :
    RealOr card i d x := by
  rcases readReal_some_cases h with ⟨h1, h2⟩ | ⟨h1, h2⟩
  · exact .inr ⟨h1, h2⟩
  · exact .inl ⟨h1, h2⟩

theorem isReal_unique {card : List Line} {i : Nat} {x y : Dbl} (h : IsReal card i x) (h' : IsReal card i y) : x = y := by
  have := h.2.symm.trans h'.2
  exact Option.some.inj this

theorem realOr_given {card : List Line} {i : Nat} {d x y : Dbl} (h : RealOr card i d x) (h' : IsReal card i y) : x = y := by
  rcases h with h | ⟨h, _⟩
  · exact isReal_unique h h'
  · exact absurd h h'.1

theorem realOr_blank {card : List Line} {i : Nat} {d x : Dbl} (h : RealOr card i d x) (h' : Blank card i) : x = d := by
  rcases h with h | ⟨_, h⟩
  · exact absurd h' h.1
  · exact h

theorem blank_ordinary {x : Dbl} (h : Ordinary x) : Elastic.blank x = false := isEqual_unavailable_of_le_half x h

theorem blank_unavailable : Elastic.blank unavailable = true := isEqual_self _

/-- What an accepted MAT8 has. -/
theorem read_mat8 {fields : List Line} {r : Int × Nature} (h : read ⟨.mat8, fields⟩ = .ok r) :
    ∃ o : Ortho, r.2 = .orthotropic o ∧ IsInt fields 1 r.1 ∧ IsReal fields 2 o.eL ∧ IsReal fields 3 o.eT ∧
      IsReal fields 4 o.nuLT ∧ IsReal fields 5 o.gLT ∧ RealOr fields 6 unavailable o.gLN ∧
      RealOr fields 7 unavailable o.gTN ∧ RealOr fields 8 unavailable o.rho ∧ RealOr fields 9 unavailable o.alphaL ∧
      RealOr fields 10 unavailable o.alphaT ∧ RealOr fields 11 unavailable o.tempDefAlpha ∧
      RealOr fields 12 unavailable o.xt ∧ RealOr fields 13 unavailable o.xc ∧ RealOr fields 14 unavailable o.yt ∧
      RealOr fields 15 unavailable o.yc ∧ RealOr fields 16 unavailable o.slt ∧ o.alphaN = unavailable ∧
      ∀ i, 17 ≤ i → Blank fields i := by
  unfold read at h
  rw [start_at] at h
  simp only [parse, parseMAT8, nextInt_at, nextDouble_at, bind_assoc', Outcome.bind_ok] at h
  obtain ⟨id, h1, h⟩ := bind_ok_iff.mp h
  obtain ⟨e1, h2, h⟩ := bind_ok_iff.mp h
  obtain ⟨e2, h3, h⟩ := bind_ok_iff.mp h
  obtain ⟨nu, h4, h⟩ := bind_ok_iff.mp h
  obtain ⟨g12, h5, h⟩ := bind_ok_iff.mp h
  obtain ⟨g1, h6, h⟩ := bind_ok_iff.mp h
  obtain ⟨g2, h7, h⟩ := bind_ok_iff.mp h
  obtain ⟨rho, h8, h⟩ := bind_ok_iff.mp h
  obtain ⟨a1, h9, h⟩ := bind_ok_iff.mp h
  obtain ⟨a2, h10, h⟩ := bind_ok_iff.mp h
  obtain ⟨tref, h11, h⟩ := bind_ok_iff.mp h
  obtain ⟨xt, h12, h⟩ := bind_ok_iff.mp h
  obtain ⟨xc, h13, h⟩ := bind_ok_iff.mp h
  obtain ⟨yt, h14, h⟩ := bind_ok_iff.mp h
  obtain ⟨yc, h15, h⟩ := bind_ok_iff.mp h
  obtain ⟨s, h16, h⟩ := bind_ok_iff.mp h
  split at h
  · rename_i he
    cases h
    exact ⟨_, rfl, readInt_none.mp h1, readReal_none.mp h2, readReal_none.mp h3, readReal_none.mp h4, readReal_none.mp h5,
      readReal_default h6, readReal_default h7, readReal_default h8, readReal_default h9, readReal_default h10,
      readReal_default h11, readReal_default h12, readReal_default h13, readReal_default h14, readReal_default h15,
      readReal_default h16, rfl, (isEmpty_at _ _).mp he⟩
  · cases h

/-- What an accepted MATHP has. -/
theorem read_mathp {fields : List Line} {r : Int × Nature} (h : read ⟨.mathp, fields⟩ = .ok r) :
    ∃ y : Hyper, r.2 = .hyperelastic y ∧ IsInt fields 1 r.1 ∧ RealOr fields 2 0 y.c10 ∧ RealOr fields 3 0 y.c01 ∧
      RealOr fields 4 (1000 * (y.c10 + y.c01)) y.k ∧ RealOr fields 5 0 y.rho ∧ RealOr fields 17 0 y.c20 ∧
      ∀ i, 18 ≤ i → Blank fields i := by
  unfold read at h
  rw [start_at] at h
  simp only [parse, parseMATHP, nextInt_at, nextDouble_at, skip_at, bind_assoc', Outcome.bind_ok] at h
  obtain ⟨id, h1, h⟩ := bind_ok_iff.mp h
  obtain ⟨a10, h2, h⟩ := bind_ok_iff.mp h
  obtain ⟨a01, h3, h⟩ := bind_ok_iff.mp h
  obtain ⟨d1, h4, h⟩ := bind_ok_iff.mp h
  obtain ⟨rho, h5, h⟩ := bind_ok_iff.mp h
  obtain ⟨_, _, h⟩ := bind_ok_iff.mp h
  obtain ⟨_, _, h⟩ := bind_ok_iff.mp h
  obtain ⟨_, _, h⟩ := bind_ok_iff.mp h
  obtain ⟨na, hna, h⟩ := bind_ok_iff.mp h
  split at h
  · cases h
  simp only [bind_assoc', Outcome.bind_ok] at h
  obtain ⟨nd, hnd, h⟩ := bind_ok_iff.mp h
  split at h
  · cases h
  simp only [bind_assoc', Outcome.bind_ok] at h
  obtain ⟨a20, h17, h⟩ := bind_ok_iff.mp h
  split at h
  · rename_i he
    cases h
    exact ⟨_, rfl, readInt_none.mp h1, readReal_default h2, readReal_default h3, readReal_default h4, readReal_default h5,
      readReal_default h17, (isEmpty_at _ _).mp he⟩
  · cases h

/-- What an accepted MATS1 has. -/
theorem read_mats1 {fields : List Line} {r : Int × Nature} (h : read ⟨.mats1, fields⟩ = .ok r) :
    IsInt fields 1 r.1 ∧
      ((toUpper (field fields 3) = "NLELAST".toList ∧ ∃ t, r.2 = .nonlinear t) ∨
        (toUpper (field fields 3) = "PLASTIC".toList ∧ ∃ l s, r.2 = .bilinear l s ∧ RealOr fields 4 unavailable s ∧
          RealOr fields 7 unavailable l)) := by
  unfold read at h
  rw [start_at] at h
  have hs : ∀ p, nextString none (at' fields p) =
      (if (toUpper (field fields p)).isEmpty then .throw else .ok (toUpper (field fields p), at' fields (p + 1))) := by
    intro p
    unfold nextString field
    rw [next_at]
    simp only [trim_trimRight]
  simp only [parse, parseMATS1, nextInt_at, nextDouble_at, hs, bind_assoc', Outcome.bind_ok] at h
  obtain ⟨id, h1, h⟩ := bind_ok_iff.mp h
  obtain ⟨tid, h2, h⟩ := bind_ok_iff.mp h
  obtain ⟨⟨ty, c⟩, h3, h⟩ := bind_ok_iff.mp h
  split at h3
  · cases h3
  cases h3
  simp only [nextInt_at, nextDouble_at, bind_assoc', Outcome.bind_ok] at h
  obtain ⟨hh, h4, h⟩ := bind_ok_iff.mp h
  obtain ⟨yf, h5, h⟩ := bind_ok_iff.mp h
  obtain ⟨hr, h6, h⟩ := bind_ok_iff.mp h
  obtain ⟨l1, h7, h⟩ := bind_ok_iff.mp h
  obtain ⟨l2, h8, h⟩ := bind_ok_iff.mp h
  split at h
  · rename_i ht
    simp only [Outcome.bind_ok] at h
    split at h
    · cases h; exact ⟨readInt_none.mp h1, .inl ⟨ht, _, rfl⟩⟩
    · cases h
  · split at h
    · rename_i ht
      split at h
      · split at h
        · simp only [Outcome.bind_ok] at h
          split at h
          · cases h; exact ⟨readInt_none.mp h1, .inr ⟨ht, _, _, rfl, readReal_default h4, readReal_default h7⟩⟩
          · cases h
        · cases h
      · cases h
    · cases h

/-- What an accepted MAT1 has. -/
theorem read_mat1 {fields : List Line} {r : Int × Nature} (h : read ⟨.mat1, fields⟩ = .ok r) :
    ∃ e g nu rho a tref ge m, r.2 = .elastic m ge ∧ IsInt fields 1 r.1 ∧ RealOr fields 2 unavailable e ∧
      RealOr fields 3 unavailable g ∧ RealOr fields 4 unavailable nu ∧ RealOr fields 5 unavailable rho ∧
      RealOr fields 6 unavailable a ∧ RealOr fields 7 unavailable tref ∧ RealOr fields 8 unavailable ge ∧
      Elastic.mat1 e nu g rho a tref = .ok m := by
  unfold read at h
  rw [start_at] at h
  simp only [parse, parseMAT1, nextInt_at, nextDouble_at, bind_assoc', Outcome.bind_ok] at h
  obtain ⟨id, h1, h⟩ := bind_ok_iff.mp h
  obtain ⟨e, h2, h⟩ := bind_ok_iff.mp h
  obtain ⟨g, h3, h⟩ := bind_ok_iff.mp h
  obtain ⟨nu, h4, h⟩ := bind_ok_iff.mp h
  obtain ⟨rho, h5, h⟩ := bind_ok_iff.mp h
  obtain ⟨a, h6, h⟩ := bind_ok_iff.mp h
  obtain ⟨tref, h7, h⟩ := bind_ok_iff.mp h
  obtain ⟨ge, h8, h⟩ := bind_ok_iff.mp h
  obtain ⟨_, _, h⟩ := bind_ok_iff.mp h
  obtain ⟨_, _, h⟩ := bind_ok_iff.mp h
  obtain ⟨_, _, h⟩ := bind_ok_iff.mp h
  obtain ⟨_, _, h⟩ := bind_ok_iff.mp h
  obtain ⟨m, hm, h⟩ := bind_ok_iff.mp h
  split at h
  · cases h
    exact ⟨e, g, nu, rho, a, tref, ge, m, rfl, readInt_none.mp h1, readReal_default h2, readReal_default h3,
      readReal_default h4, readReal_default h5, readReal_default h6, readReal_default h7, readReal_default h8, hm⟩
  · cases h

/-! ### The materials -/

/-- The materials have distinct numbers, and each has one nature of a type at most. -/
structure Good (ms : List Material) : Prop where
  numbers : (ms.map (·.number)).Nodup
  types : ∀ m ∈ ms, (m.natures.map (·.type)).Nodup

/-- The material has the nature. -/
def In (ms : List Material) (id : Int) (n : Nature) : Prop := ∃ m ∈ ms, m.number = id ∧ n ∈ m.natures

theorem findNature_none {m : Material} {t : NatureType} (h : m.findNature t = none) : ∀ n ∈ m.natures, n.type ≠ t := by
  unfold Material.findNature at h
  rw [List.find?_eq_none] at h
  intro n hn
  simpa using h n hn

theorem addNature_ok {m m' : Material} {n : Nature} (h : m.addNature n = .ok m') :
    m'.number = m.number ∧ m'.natures = m.natures ++ [n] ∧ ∀ k ∈ m.natures, k.type ≠ n.type := by
  unfold Material.addNature at h
  split at h
  · cases h
  · rename_i hn
    cases h
    exact ⟨rfl, rfl, findNature_none hn⟩

theorem put_numbers {ms ms' : List Material} {id : Int} {n : Nature} (h : put id n ms = .ok ms') :
    ∀ x, x ∈ ms'.map (·.number) ↔ x ∈ ms.map (·.number) ∨ x = id := by
  induction ms generalizing ms' with
  | nil => cases h; intro x; simp
  | cons m ms ih =>
    unfold put at h
    split at h
    · rename_i he
      obtain ⟨m', hm, h⟩ := bind_ok_iff.mp h
      cases h
      intro x
      simp only [List.map_cons, List.mem_cons, (addNature_ok hm).1, he]
      constructor
      · rintro (h | h)
        · exact .inr h
        · exact .inl (.inr h)
      · rintro ((h | h) | h)
        · exact .inl h
        · exact .inr h
        · exact .inl h
    · obtain ⟨r, hr, h⟩ := bind_ok_iff.mp h
      cases h
      intro x
      simp only [List.map_cons, List.mem_cons, ih hr x, or_assoc]

theorem put_ok {ms ms' : List Material} {id : Int} {n : Nature} (hg : Good ms) (h : put id n ms = .ok ms') :
    Good ms' ∧ (∀ i k, In ms' i k ↔ In ms i k ∨ (i = id ∧ k = n)) ∧ (∀ k, In ms id k → k.type ≠ n.type) := by
  induction ms generalizing ms' with
  | nil =>
    cases h
    refine ⟨⟨by simp, by simp⟩, fun i k => ?_, fun k hk => ?_⟩
    · unfold In
      constructor
      · rintro ⟨m, hm, h1, h2⟩
        rw [List.mem_singleton.mp hm] at h1 h2
        exact .inr ⟨h1.symm, List.mem_singleton.mp h2⟩
      · rintro (⟨m, hm, _⟩ | ⟨rfl, rfl⟩)
        · cases hm
        · exact ⟨⟨i, [k]⟩, by simp, rfl, by simp⟩
    · obtain ⟨m, hm, _⟩ := hk; cases hm
  | cons m ms ih =>
    have hn := hg.numbers
    simp only [List.map_cons, List.nodup_cons] at hn
    unfold put at h
    split at h
    · rename_i he
      obtain ⟨m', hm, h⟩ := bind_ok_iff.mp h
      cases h
      obtain ⟨a1, a2, a3⟩ := addNature_ok hm
      have hout : ∀ x ∈ ms, x.number ≠ id := by
        intro x hx hxe
        exact hn.1 (List.mem_map.mpr ⟨x, hx, by rw [hxe, he]⟩)
      refine ⟨⟨?_, ?_⟩, ?_, ?_⟩
      · simp only [List.map_cons, List.nodup_cons, a1]
        exact hn
      · intro x hx
        rcases List.mem_cons.mp hx with rfl | hx
        · rw [a2, List.map_append, List.map_singleton, List.nodup_append]
          refine ⟨hg.types m (by simp), by simp, ?_⟩
          intro t ht u hu
          obtain ⟨k, hk, rfl⟩ := List.mem_map.mp ht
          simp only [List.mem_singleton] at hu
          rw [hu]
          exact a3 k hk
        · exact hg.types x (by simp [hx])
      · intro i k
        unfold In
        constructor
        · rintro ⟨x, hx, hxi, hk⟩
          rcases List.mem_cons.mp hx with rfl | hx
          · rw [a2, List.mem_append, List.mem_singleton] at hk
            rcases hk with hk | hk
            · exact .inl ⟨m, by simp, by rw [← hxi, a1], hk⟩
            · exact .inr ⟨by rw [← hxi, a1, he], hk⟩
          · exact .inl ⟨x, by simp [hx], hxi, hk⟩
        · rintro (⟨x, hx, hxi, hk⟩ | ⟨rfl, rfl⟩)
          · rcases List.mem_cons.mp hx with rfl | hx
            · exact ⟨m', by simp, by rw [a1, hxi], by rw [a2]; simp [hk]⟩
            · exact ⟨x, by simp [hx], hxi, hk⟩
          · exact ⟨m', by simp, by rw [a1, he], by rw [a2]; simp⟩
      · rintro k ⟨x, hx, hxi, hk⟩
        rcases List.mem_cons.mp hx with rfl | hx
        · exact a3 k hk
        · exact absurd hxi (hout x hx)
    · rename_i he
      obtain ⟨r, hr, h⟩ := bind_ok_iff.mp h
      cases h
      obtain ⟨g1, g2, g3⟩ := ih ⟨hn.2, fun x hx => hg.types x (by simp [hx])⟩ hr
      refine ⟨⟨?_, ?_⟩, ?_, ?_⟩
      · simp only [List.map_cons, List.nodup_cons]
        refine ⟨?_, g1.numbers⟩
        rw [put_numbers hr]
        rintro (h | h)
        · exact hn.1 h
        · exact he h
      · intro x hx
        rcases List.mem_cons.mp hx with rfl | hx
        · exact hg.types _ (by simp)
        · exact g1.types x hx
      · intro i k
        have e1 : In (m :: r) i k ↔ (m.number = i ∧ k ∈ m.natures) ∨ In r i k := by
          unfold In; simp only [List.mem_cons, or_and_right, exists_or, exists_eq_left]
        have e2 : In (m :: ms) i k ↔ (m.number = i ∧ k ∈ m.natures) ∨ In ms i k := by
          unfold In; simp only [List.mem_cons, or_and_right, exists_or, exists_eq_left]
        rw [e1, e2, g2, or_assoc]
      · rintro k ⟨x, hx, hxi, hk⟩
        rcases List.mem_cons.mp hx with rfl | hx
        · exact absurd hxi he
        · exact g3 k ⟨x, hx, hxi, hk⟩

theorem runFrom_ok {cs : List Card} {ms ms' : List Material} (hg : Good ms) (h : runFrom ms cs = .ok ms') :
    Good ms' ∧ (∀ i k, In ms' i k ↔ In ms i k ∨ ∃ c ∈ cs, read c = .ok (i, k)) := by
  induction cs generalizing ms with
  | nil => cases h; exact ⟨hg, fun i k => by simp⟩
  | cons c cs ih =>
    unfold runFrom at h
    obtain ⟨m1, h1, h⟩ := bind_ok_iff.mp h
    unfold step at h1
    obtain ⟨⟨id, n⟩, hr, h1⟩ := bind_ok_iff.mp h1
    obtain ⟨g1, g2, _⟩ := put_ok hg h1
    obtain ⟨k1, k2⟩ := ih g1 h
    refine ⟨k1, fun i k => ?_⟩
    rw [k2, g2, or_assoc]
    simp only [List.mem_cons, or_and_right, exists_or, exists_eq_left, hr, Outcome.ok.injEq, Prod.mk.injEq]
    constructor
    · rintro (h | ⟨rfl, rfl⟩ | h)
      · exact .inl h
      · exact .inr (.inl ⟨rfl, rfl⟩)
      · exact .inr (.inr h)
    · rintro (h | ⟨rfl, rfl⟩ | h)
      · exact .inl h
      · exact .inr (.inl ⟨rfl, rfl⟩)
      · exact .inr (.inr h)

theorem good_nil : Good [] := ⟨by simp, by simp⟩

theorem run_ok {cs : List Card} {ms : List Material} (h : run cs = .ok ms) :
    Good ms ∧ ∀ i k, In ms i k ↔ ∃ c ∈ cs, read c = .ok (i, k) := by
  obtain ⟨h1, h2⟩ := runFrom_ok good_nil h
  refine ⟨h1, fun i k => ?_⟩
  rw [h2]
  constructor
  · rintro (⟨m, hm, _⟩ | h)
    · cases hm
    · exact h
  · exact .inr

theorem find_nature {m : Material} {n : Nature} (ht : (m.natures.map (·.type)).Nodup) (hn : n ∈ m.natures) :
    m.findNature n.type = some n := by
  unfold Material.findNature
  obtain ⟨num, l⟩ := m
  dsimp only at ht hn ⊢
  induction l with
  | nil => cases hn
  | cons k l ih =>
    simp only [List.map_cons, List.nodup_cons] at ht
    rcases List.mem_cons.mp hn with rfl | hn
    · simp
    · have : k.type ≠ n.type := fun e => ht.1 (List.mem_map.mpr ⟨n, hn, e.symm⟩)
      rw [List.find?_cons_of_neg (by simpa using this)]
      exact ih ht.2 hn

/-- The name of the factor keyword of a type. -/
def nameOf : NatureType → String
  | .elastic => "ELAS"
  | .hyperelastic => "ELAS_HYPER"
  | .orthotropic => "ELAS_ORTH"
  | .bilinear => "ECRO_LINE"
  | .nonlinear => ""

theorem elas_name {p : Params} {m : Option Elastic} {ge : Dbl} {b : Block} (h : elas p m ge = .ok b) : b.1 = "ELAS" := by
  unfold elas at h
  obtain ⟨_, _, h⟩ := bind_ok_iff.mp h
  obtain ⟨_, _, h⟩ := bind_ok_iff.mp h
  cases h
  rfl

theorem blockOf_name {p : Params} {n : Nature} {bs : List Block} (h : blockOf p n = .ok bs) :
    ∀ b ∈ bs, b.1 = nameOf n.type := by
  cases n with
  | elastic m ge =>
    obtain ⟨b, hb, h⟩ := bind_ok_iff.mp h
    cases h
    intro x hx
    rw [List.mem_singleton.mp hx]
    exact elas_name hb
  | hyperelastic y => cases h; intro x hx; rw [List.mem_singleton.mp hx]; rfl
  | orthotropic o => cases h; intro x hx; rw [List.mem_singleton.mp hx]; rfl
  | bilinear l s => cases h; intro x hx; rw [List.mem_singleton.mp hx]; rfl
  | nonlinear t => cases h; intro x hx; cases hx

theorem blocksOf_name {p : Params} {m : Material} {t : NatureType} {bs : List Block}
    (h : blocksOf p (m.findNature t) = .ok bs) : ∀ b ∈ bs, b.1 = nameOf t := by
  cases hf : m.findNature t with
  | none => rw [hf] at h; cases h; intro b hb; cases hb
  | some n =>
    rw [hf] at h
    have ht : n.type = t := by
      have := List.find?_some hf
      simpa using this
    rw [← ht]
    exact blockOf_name h

theorem filter_none {bs : List Block} {s : String} (h : ∀ b ∈ bs, b.1 ≠ s) : bs.filter (fun b => b.1 = s) = [] := by
  rw [List.filter_eq_nil_iff]
  intro b hb
  simpa using h b hb

theorem filter_all {bs : List Block} {s : String} (h : ∀ b ∈ bs, b.1 = s) : bs.filter (fun b => b.1 = s) = bs := by
  rw [List.filter_eq_self]
  intro b hb
  simpa using h b hb

/-- The factor keywords of a name are those of the nature of this type. -/
theorem defi_filter {p : Params} {m : Material} {bs : List Block} (h : defi p m = .ok bs) (t : NatureType)
    (ht : t ≠ .nonlinear) : ∃ own, blocksOf p (m.findNature t) = .ok own ∧ bs.filter (fun b => b.1 = nameOf t) = own := by
  unfold defi at h
  obtain ⟨e, he, h⟩ := bind_ok_iff.mp h
  obtain ⟨y, hy, h⟩ := bind_ok_iff.mp h
  obtain ⟨o, ho, h⟩ := bind_ok_iff.mp h
  obtain ⟨b, hb, h⟩ := bind_ok_iff.mp h
  cases h
  have ne := blocksOf_name he
  have ny := blocksOf_name hy
  have no := blocksOf_name ho
  have nb := blocksOf_name hb
  have off : ∀ {l : List Block} {u : NatureType}, (∀ x ∈ l, x.1 = nameOf u) → nameOf u ≠ nameOf t →
      l.filter (fun b => b.1 = nameOf t) = [] := by
    intro l u hl hu
    exact filter_none (fun x hx => by rw [hl x hx]; exact hu)
  simp only [List.filter_append]
  cases t with
  | elastic =>
    refine ⟨e, he, ?_⟩
    rw [filter_all ne, off ny (by decide), off no (by decide), off nb (by decide)]; simp
  | hyperelastic =>
    refine ⟨y, hy, ?_⟩
    rw [filter_all ny, off ne (by decide), off no (by decide), off nb (by decide)]; simp
  | orthotropic =>
    refine ⟨o, ho, ?_⟩
    rw [filter_all no, off ne (by decide), off ny (by decide), off nb (by decide)]; simp
  | bilinear =>
    refine ⟨b, hb, ?_⟩
    rw [filter_all nb, off ne (by decide), off ny (by decide), off no (by decide)]; simp
  | nonlinear => exact absurd rfl ht

theorem orders_numbers {p : Params} {ms : List Material} {out : List (Int × List Block)} (h : orders p ms = .ok out) :
    out.map (·.1) = ms.map (·.number) := by
  induction ms generalizing out with
  | nil => cases h; rfl
  | cons m ms ih =>
    unfold orders at h
    obtain ⟨b, hb, h⟩ := bind_ok_iff.mp h
    obtain ⟨bs, hbs, h⟩ := bind_ok_iff.mp h
    cases h
    simp [ih hbs]

theorem orders_filter {p : Params} {ms : List Material} {out : List (Int × List Block)} (h : orders p ms = .ok out)
    (hn : (ms.map (·.number)).Nodup) {m : Material} (hm : m ∈ ms) :
    ∃ bs, defi p m = .ok bs ∧ out.filter (fun o => o.1 = m.number) = [(m.number, bs)] := by
  induction ms generalizing out with
  | nil => cases hm
  | cons k ms ih =>
    unfold orders at h
    obtain ⟨b, hb, h⟩ := bind_ok_iff.mp h
    obtain ⟨bs, hbs, h⟩ := bind_ok_iff.mp h
    cases h
    simp only [List.map_cons, List.nodup_cons] at hn
    have hnum := orders_numbers hbs
    rcases List.mem_cons.mp hm with rfl | hm
    · refine ⟨b, hb, ?_⟩
      have : bs.filter (fun o => o.1 = m.number) = [] := by
        rw [List.filter_eq_nil_iff]
        intro o ho hoe
        apply hn.1
        rw [← hnum]
        exact List.mem_map.mpr ⟨o, ho, by simpa using hoe⟩
      simp [this]
    · obtain ⟨x, hx, hf⟩ := ih hbs hn.2 hm
      refine ⟨x, hx, ?_⟩
      have : k.number ≠ m.number := fun e => hn.1 (List.mem_map.mpr ⟨m, hm, e.symm⟩)
      simp [this, hf]

/-- The order of a card has the factor keyword of its nature. -/
theorem written_of {p : Params} {cs : List Card} {ms : List Material} {out : List (Int × List Block)}
    (h : run cs = .ok ms) (ho : orders p ms = .ok out) {c : Card} (hc : c ∈ cs) {id : Int} {n : Nature}
    (hr : read c = .ok (id, n)) (ht : n.type ≠ .nonlinear) :
    ∃ bs own, out.filter (fun o => o.1 = id) = [(id, bs)] ∧ blockOf p n = .ok own ∧
      bs.filter (fun b => b.1 = nameOf n.type) = own := by
  obtain ⟨g, hin⟩ := run_ok h
  obtain ⟨m, hm, hid, hk⟩ := (hin id n).mpr ⟨c, hc, hr⟩
  obtain ⟨bs, hd, hf⟩ := orders_filter ho g.numbers hm
  obtain ⟨own, h1, h2⟩ := defi_filter hd n.type ht
  rw [find_nature (g.types m hm) hk] at h1
  rw [hid] at hf
  exact ⟨bs, own, hf, h1, h2⟩

theorem filter_when {k s : String} {x : Dbl} :
    (whenDefined k x).filter (fun v => v.1 = s) = if k = s then whenDefined k x else [] := by
  unfold whenDefined
  split
  · simp
  · split <;> rename_i h
    · simp [h]
    · simp [h]

theorem when_given {k : String} {x : Dbl} (h : Ordinary x) : whenDefined k x = [(k, some x)] := by
  unfold whenDefined; rw [blank_ordinary h]; rfl

theorem when_blank {k : String} : whenDefined k unavailable = [] := by
  unfold whenDefined; rw [blank_unavailable]; rfl

theorem read_of_run {l : List Card} : ∀ {m0 m1 : List Material}, runFrom m0 l = .ok m1 → ∀ c ∈ l, ∃ r, read c = .ok r := by
  induction l with
  | nil => intro _ _ _ c hc; cases hc
  | cons a l ih =>
    intro m0 m1 hl c hc
    unfold runFrom at hl
    obtain ⟨m2, h1, h2⟩ := bind_ok_iff.mp hl
    rcases List.mem_cons.mp hc with rfl | hc
    · unfold step at h1
      obtain ⟨r, hr, _⟩ := bind_ok_iff.mp h1
      exact ⟨r, hr⟩
    · exact ih h2 c hc

theorem lacks_iff {values : List (String × Option Dbl)} {k : String} :
    Lacks values k ↔ values.filter (fun v => v.1 = k) = [] := by
  unfold Lacks
  rw [List.filter_eq_nil_iff]
  simp

theorem rayleigh_key {k : String} {o : Option (Dbl × Dbl)} {l : List (String × Option Dbl)} (h : rayleigh k o = .ok l) :
    ∀ v ∈ l, v.1 = k := by
  cases o with
  | none => cases h; intro v hv; cases hv
  | some c =>
    unfold rayleigh at h
    dsimp only at h
    split at h
    · cases h
    · cases h
      intro v hv
      split at hv
      · cases hv
      · rw [List.mem_singleton.mp hv]

theorem filter_other {l : List (String × Option Dbl)} {k s : String} (h : ∀ v ∈ l, v.1 = k) (hk : k ≠ s) :
    l.filter (fun v => v.1 = s) = [] := by
  rw [List.filter_eq_nil_iff]
  intro v hv
  rw [h v hv]
  simpa using hk

/-- The values of `ELAS`, but for the damping of Rayleigh. -/
theorem elas_filter {p : Params} {m : Elastic} {ge : Dbl} {b : Block} (h : elas p (some m) ge = .ok b) {s : String}
    (h1 : s ≠ "AMOR_ALPHA") (h2 : s ≠ "AMOR_BETA") :
    b.2.filter (fun v => v.1 = s) =
      ([("E", some m.getE), ("NU", m.getNu), ("RHO", some (m.getRho p.multiplier))] ++ whenDefined "AMOR_HYST" ge).filter
        (fun v => v.1 = s) := by
  unfold elas at h
  obtain ⟨x, hx, h⟩ := bind_ok_iff.mp h
  obtain ⟨y, hy, h⟩ := bind_ok_iff.mp h
  cases h
  simp only [List.filter_append]
  rw [filter_other (rayleigh_key hx) h1.symm, filter_other (rayleigh_key hy) h2.symm]
  simp

theorem elas_lacks {p : Params} {m : Option Elastic} {ge : Dbl} {b : Block} (h : elas p m ge = .ok b) {s : String}
    (h1 : s ∉ ["E", "NU", "RHO", "AMOR_HYST", "AMOR_ALPHA", "AMOR_BETA"]) : Lacks b.2 s := by
  unfold elas at h
  obtain ⟨x, hx, h⟩ := bind_ok_iff.mp h
  obtain ⟨y, hy, h⟩ := bind_ok_iff.mp h
  cases h
  simp only [List.mem_cons, List.not_mem_nil, or_false, not_or] at h1
  obtain ⟨a1, a2, a3, a4, a5, a6⟩ := h1
  rw [lacks_iff]
  simp only [List.filter_append]
  rw [filter_other (rayleigh_key hx) (Ne.symm a5), filter_other (rayleigh_key hy) (Ne.symm a6), filter_when]
  cases m <;> simp [Ne.symm a1, Ne.symm a2, Ne.symm a3, Ne.symm a4]

theorem ordinary_zero : Ordinary 0 := by
  unfold Ordinary; have := dblMax_pos; rw [abs_zero]; linarith

/-- The constants of an elastic nature read from a card. -/
theorem mat1_constants {card : List Line} {e g nu rho a tref E N : Dbl} (h2 : RealOr card 2 unavailable e)
    (h3 : RealOr card 3 unavailable g) (h4 : RealOr card 4 unavailable nu) (h : Constants card E N) :
    ∃ m : Elastic, Elastic.mat1 e nu g rho a tref = .ok (some m) ∧ m.getE = E ∧ m.getNu = some N ∧ m.rho = rho := by
  have bu := blank_unavailable
  cases h with
  | youngPoisson e' nu' he hn oe on hne =>
    obtain rfl := realOr_given h2 he
    obtain rfl := realOr_given h4 hn
    have be := blank_ordinary oe
    have bn := blank_ordinary on
    by_cases bg : Elastic.blank g = true
    · have hq : (1 + nu : Dbl) ≠ 0 := by
        intro hz
        apply hne
        linarith
      refine ⟨⟨e, nu, e / (2 * (1 + nu)), rho, a, tref⟩, ?_, ?_, ?_, rfl⟩
      · simp [Elastic.mat1, Elastic.mat1Nu, Elastic.mat1E, Elastic.mat1G, Elastic.new, be, bn, bg, Elastic.quotient, hq]
      · simp [Elastic.getE, be, bn]
      · simp [Elastic.getNu, be, bn]
    · have bg : Elastic.blank g = false := by simpa using bg
      refine ⟨⟨e, nu, g, rho, a, tref⟩, ?_, ?_, ?_, rfl⟩
      · simp [Elastic.mat1, Elastic.mat1Nu, Elastic.mat1E, Elastic.mat1G, Elastic.new, be, bn, bg]
      · simp [Elastic.getE, be, bn]
      · simp [Elastic.getNu, be, bn]
  | youngShear e' g' he hg hn oe og on hz =>
    obtain rfl := realOr_given h2 he
    obtain rfl := realOr_given h3 hg
    obtain rfl := realOr_blank h4 hn
    have be := blank_ordinary oe
    have bg := blank_ordinary og
    have bn := blank_ordinary on
    refine ⟨⟨e, e / (2 * g) - 1, g, rho, a, tref⟩, ?_, ?_, ?_, rfl⟩
    · simp [Elastic.mat1, Elastic.mat1Nu, Elastic.mat1E, Elastic.mat1G, Elastic.new, be, bn, bg, bu, Elastic.quotient, hz]
    · simp [Elastic.getE, be, bn]
    · simp [Elastic.getNu, be, bn]
  | shearPoisson g' nu' he hg hn og on oe =>
    obtain rfl := realOr_blank h2 he
    obtain rfl := realOr_given h3 hg
    obtain rfl := realOr_given h4 hn
    have be := blank_ordinary oe
    have bg := blank_ordinary og
    have bn := blank_ordinary on
    refine ⟨⟨2 * (1 + nu) * g, nu, g, rho, a, tref⟩, ?_, ?_, ?_, rfl⟩
    · simp [Elastic.mat1, Elastic.mat1Nu, Elastic.mat1E, Elastic.mat1G, Elastic.new, be, bn, bg, bu]
    · simp [Elastic.getE, be, bn]
    · simp [Elastic.getNu, bn]
  | young e' he hg hn oe =>
    obtain rfl := realOr_given h2 he
    obtain rfl := realOr_blank h3 hg
    obtain rfl := realOr_blank h4 hn
    have be := blank_ordinary oe
    have b0 := blank_ordinary ordinary_zero
    refine ⟨⟨e, 0, 0, rho, a, tref⟩, ?_, ?_, ?_, rfl⟩
    · simp [Elastic.mat1, Elastic.mat1Nu, Elastic.mat1E, Elastic.mat1G, Elastic.new, be, b0, bu]
    · simp [Elastic.getE, be]
    · simp [Elastic.getNu, be, b0]

theorem forget_find {m : Material} {t : NatureType} (ht : t ≠ .nonlinear) :
    (forget m).findNature t = m.findNature t := by
  unfold forget Material.findNature
  obtain ⟨num, l⟩ := m
  dsimp only
  induction l with
  | nil => rfl
  | cons k l ih =>
    by_cases hk : k.type = .nonlinear
    · have h1 : ¬ k.type = t := fun e => ht (e.symm.trans hk)
      rw [List.filter_cons_of_neg (by simp [hk]), List.find?_cons_of_neg (by simpa using h1), ih]
    · rw [List.filter_cons_of_pos (by simp [hk])]
      by_cases h1 : k.type = t
      · rw [List.find?_cons_of_pos (by simpa using h1), List.find?_cons_of_pos (by simpa using h1)]
      · rw [List.find?_cons_of_neg (by simpa using h1), List.find?_cons_of_neg (by simpa using h1), ih]

theorem affectSet_ok {ms : List Material} {id : Int} {ns : List Int} {a : List (Int × Int)}
    (h : affectSet ms id ns = .ok a) : (∀ n ∈ ns, ∃ m ∈ ms, m.number = n) ∧ a = ns.map fun n => (n, id) := by
  induction ns generalizing a with
  | nil => cases h; exact ⟨by simp, rfl⟩
  | cons n ns ih =>
    unfold affectSet at h
    split at h
    · rename_i hn
      obtain ⟨r, hr, h⟩ := bind_ok_iff.mp h
      cases h
      obtain ⟨h1, h2⟩ := ih hr
      refine ⟨?_, by rw [h2]; rfl⟩
      intro x hx
      rcases List.mem_cons.mp hx with rfl | hx
      · simpa using hn
      · exact h1 x hx
    · cases h

theorem affectSet_of {ms : List Material} {id : Int} {ns : List Int} (h : ∀ n ∈ ns, ∃ m ∈ ms, m.number = n) :
    affectSet ms id ns = .ok (ns.map fun n => (n, id)) := by
  induction ns with
  | nil => rfl
  | cons n ns ih =>
    unfold affectSet
    have hn : ms.any (·.number = n) = true := by
      have := h n (by simp)
      simpa using this
    rw [if_pos hn, ih (fun x hx => h x (by simp [hx]))]
    rfl

/-! ## Properties -/

/-- **C126** an accepted set of cards makes one material for each number, and its natures are those of the cards of this
number, one of a type. -/
theorem C126_cards {cs : List Card} {ms : List Material} (h : run cs = .ok ms) :
    (ms.map (·.number)).Nodup ∧ (∀ m ∈ ms, (m.natures.map (·.type)).Nodup) ∧
      ∀ id n, (∃ m ∈ ms, m.number = id ∧ n ∈ m.natures) ↔ ∃ c ∈ cs, read c = .ok (id, n) :=
  ⟨(run_ok h).1.numbers, (run_ok h).1.types, (run_ok h).2⟩

/-- **C126** two cards that give the same type of nature to one material are refused, wherever they are. -/
theorem C126_twice (cs1 cs2 cs3 : List Card) (c d : Card) (id : Int) (n k : Nature) (hc : read c = .ok (id, n))
    (hd : read d = .ok (id, k)) (ht : n.type = k.type) (ms : List Material) :
    run (cs1 ++ c :: (cs2 ++ d :: cs3)) ≠ .ok ms := by
  have app : ∀ (l l' : List Card) (m0 m1 : List Material), runFrom m0 (l ++ l') = .ok m1 →
      ∃ m2, runFrom m0 l = .ok m2 ∧ runFrom m2 l' = .ok m1 := by
    intro l
    induction l with
    | nil => intro l' m0 m1 h; exact ⟨m0, rfl, h⟩
    | cons a l ih =>
      intro l' m0 m1 h
      rw [List.cons_append] at h
      unfold runFrom at h
      obtain ⟨m2, h1, h2⟩ := bind_ok_iff.mp h
      obtain ⟨m3, h3, h4⟩ := ih l' m2 m1 h2
      refine ⟨m3, ?_, h4⟩
      unfold runFrom
      rw [h1]
      exact h3
  intro h
  have h' : runFrom [] ((cs1 ++ c :: cs2) ++ d :: cs3) = .ok ms := by
    have : (cs1 ++ c :: cs2) ++ d :: cs3 = cs1 ++ c :: (cs2 ++ d :: cs3) := by simp
    rw [this]; exact h
  obtain ⟨m2, h1, h2⟩ := app _ _ _ _ h'
  obtain ⟨g, hin⟩ := runFrom_ok good_nil h1
  have hn : In m2 id n := (hin id n).mpr (.inr ⟨c, by simp, hc⟩)
  unfold runFrom at h2
  obtain ⟨m3, h3, _⟩ := bind_ok_iff.mp h2
  unfold step at h3
  rw [hd] at h3
  exact (put_ok g h3).2.2 n hn ht

/-- **C126** (MAT8) the order of an orthotropic material has the constants of its card under their keywords, and nothing
for the fields left blank. The density is multiplied by the factor of masses. -/
theorem C126_orthotropic {p : Params} {cs : List Card} {ms : List Material} {out : List (Int × List Block)}
    (h : run cs = .ok ms) (ho : orders p ms = .ok out) (fields : List Line) (hc : ⟨.mat8, fields⟩ ∈ cs) :
    ∃ id values, IsInt fields 1 id ∧ Written out id "ELAS_ORTH" values ∧
      (∀ k i, (k, i) ∈ required8 → ∃ x, IsReal fields i x ∧ Has values k x) ∧
      (∀ k i, (k, i) ∈ table8 → (∀ x, IsReal fields i x → Ordinary x → Has values k x) ∧
        (Blank fields i → Lacks values k)) ∧
      (∀ x, IsReal fields 8 x → Ordinary x → Has values "RHO" (x * p.multiplier.getD 1)) ∧
      (Blank fields 8 → Has values "RHO" 0) := by
  obtain ⟨⟨id, n⟩, hr⟩ := read_of_run h _ hc
  obtain ⟨o, rfl, hid, h2, h3, h4, h5, h6, h7, h8, h9, h10, h11, h12, h13, h14, h15, h16, hN, _⟩ := read_mat8 hr
  obtain ⟨bs, own, hf, hb, hw⟩ := written_of h ho hc hr (by simp [Nature.type])
  cases hb
  have key : ∀ k x (i : Nat), RealOr fields i unavailable x →
      (elasOrth p o).2.filter (fun v => v.1 = k) = whenDefined k x →
      (∀ y, IsReal fields i y → Ordinary y → Has (elasOrth p o).2 k y) ∧ (Blank fields i → Lacks (elasOrth p o).2 k) := by
    intro k x i hi hk
    refine ⟨fun y hy oy => ?_, fun hb => ?_⟩
    · unfold Has
      obtain rfl := realOr_given hi hy
      rw [hk, when_given oy]
    · rw [lacks_iff, hk, realOr_blank hi hb, when_blank]
  refine ⟨id, (elasOrth p o).2, hid, ⟨bs, hf, hw⟩, ?_, ?_, ?_, ?_⟩
  · intro k i hki
    simp only [required8, List.mem_cons, Prod.mk.injEq, List.not_mem_nil, or_false] at hki
    rcases hki with ⟨rfl, rfl⟩ | ⟨rfl, rfl⟩ | ⟨rfl, rfl⟩ | ⟨rfl, rfl⟩
    · exact ⟨_, h2, by simp [Has, elasOrth, List.filter_append, filter_when]⟩
    · exact ⟨_, h3, by simp [Has, elasOrth, List.filter_append, filter_when]⟩
    · exact ⟨_, h4, by simp [Has, elasOrth, List.filter_append, filter_when]⟩
    · exact ⟨_, h5, by simp [Has, elasOrth, List.filter_append, filter_when]⟩
  · intro k i hki
    simp only [table8, List.mem_cons, Prod.mk.injEq, List.not_mem_nil, or_false] at hki
    rcases hki with ⟨rfl, rfl⟩ | ⟨rfl, rfl⟩ | ⟨rfl, rfl⟩ | ⟨rfl, rfl⟩ | ⟨rfl, rfl⟩ | ⟨rfl, rfl⟩ | ⟨rfl, rfl⟩ | ⟨rfl, rfl⟩ |
      ⟨rfl, rfl⟩
    · exact key _ _ _ h6 (by simp [elasOrth, List.filter_append, filter_when])
    · exact key _ _ _ h7 (by simp [elasOrth, List.filter_append, filter_when])
    · exact key _ _ _ h9 (by simp [elasOrth, List.filter_append, filter_when])
    · exact key _ _ _ h10 (by simp [elasOrth, List.filter_append, filter_when])
    · exact key _ _ _ h11 (by simp [elasOrth, List.filter_append, filter_when])
    · exact key _ _ _ h12 (by simp [elasOrth, List.filter_append, filter_when])
    · exact key _ _ _ h13 (by simp [elasOrth, List.filter_append, filter_when])
    · exact key _ _ _ h15 (by simp [elasOrth, List.filter_append, filter_when])
    · exact key _ _ _ h16 (by simp [elasOrth, List.filter_append, filter_when])
  · intro x hx ox
    have e : o.getRho p.multiplier = x * p.multiplier.getD 1 := by
      unfold Ortho.getRho
      rw [realOr_given h8 hx, blank_ordinary ox]
      rfl
    simp [Has, elasOrth, List.filter_append, filter_when, e]
  · intro hx
    have e : o.getRho p.multiplier = 0 := by
      unfold Ortho.getRho
      rw [realOr_blank h8 hx, blank_unavailable]
      rfl
    simp [Has, elasOrth, List.filter_append, filter_when, e]

/-- **C126** (MAT1) the order of an elastic material has the modulus and the ratio that follow from the constants of its
card, its density multiplied by the factor of masses, and its structural damping when it is given. -/
theorem C126_elastic {p : Params} {cs : List Card} {ms : List Material} {out : List (Int × List Block)}
    (h : run cs = .ok ms) (ho : orders p ms = .ok out) (fields : List Line) (hc : ⟨.mat1, fields⟩ ∈ cs) (E N : Dbl)
    (hcon : Constants fields E N) :
    ∃ id values, IsInt fields 1 id ∧ Written out id "ELAS" values ∧ Has values "E" E ∧ Has values "NU" N ∧
      (∀ x, IsReal fields 5 x → Ordinary x → Has values "RHO" (x * p.multiplier.getD 1)) ∧
      (Blank fields 5 → Has values "RHO" 0) ∧
      (∀ x, IsReal fields 8 x → Ordinary x → Has values "AMOR_HYST" x) ∧ (Blank fields 8 → Lacks values "AMOR_HYST") := by
  obtain ⟨⟨id, n⟩, hr⟩ := read_of_run h _ hc
  obtain ⟨e, g, nu, rho, a, tref, ge, m, rfl, hid, h2, h3, h4, h5, h6, h7, h8, hm⟩ := read_mat1 hr
  obtain ⟨bs, own, hf, hb, hw⟩ := written_of h ho hc hr (by simp [Nature.type])
  obtain ⟨m', hm', hE, hN, hrho⟩ := mat1_constants (rho := rho) (a := a) (tref := tref) h2 h3 h4 hcon
  rw [hm] at hm'
  cases hm'
  obtain ⟨b, hb1, hbb⟩ := bind_ok_iff.mp hb
  clear hb
  have hb := hb1
  cases hbb
  have hn := elas_name hb
  have fl : ∀ {s : String}, s ≠ "AMOR_ALPHA" → s ≠ "AMOR_BETA" → _ := fun {s} x y => elas_filter hb (s := s) x y
  have rhoOf : ∀ x, (Elastic.blank m'.rho = false → m'.getRho p.multiplier = m'.rho * p.multiplier.getD 1) ∧
      (Elastic.blank m'.rho = true → m'.getRho p.multiplier = x * 0) := by
    intro x
    unfold Elastic.getRho
    cases p.multiplier <;> refine ⟨fun h => by simp [h], fun h => by simp [h]⟩
  refine ⟨id, b.2, hid, ⟨bs, hf, ?_⟩, ?_, ?_, ?_, ?_, ?_, ?_⟩
  · rw [show ("ELAS" : String) = nameOf (Nature.elastic (some m') ge).type from rfl, hw]
    show [b] = [("ELAS", b.2)]
    rw [← hn]
  · unfold Has
    rw [fl (by decide) (by decide)]
    simp [List.filter_append, filter_when, hE]
  · unfold Has
    rw [fl (by decide) (by decide)]
    simp [List.filter_append, filter_when, hN]
  · intro x hx ox
    unfold Has
    rw [fl (by decide) (by decide)]
    have hrx : m'.rho = x := hrho.trans (realOr_given h5 hx)
    have := (rhoOf 0).1 (by rw [hrx]; exact blank_ordinary ox)
    rw [hrx] at this
    simp [List.filter_append, filter_when, this]
  · intro hx
    unfold Has
    rw [fl (by decide) (by decide)]
    have hrx : m'.rho = unavailable := hrho.trans (realOr_blank h5 hx)
    have := (rhoOf 0).2 (by rw [hrx]; exact blank_unavailable)
    simp [List.filter_append, filter_when, this]
  · intro x hx ox
    unfold Has
    rw [fl (by decide) (by decide), realOr_given h8 hx]
    simp [List.filter_append, filter_when, when_given ox]
  · intro hx
    rw [lacks_iff, fl (by decide) (by decide), realOr_blank h8 hx]
    simp [List.filter_append, filter_when, when_blank]

/-- **C126** (MATHP) the order of a hyperelastic material has the constants of its card; blanks are zero, and a blank `D1`
is a thousand times the sum of the first two. -/
theorem C126_hyperelastic {p : Params} {cs : List Card} {ms : List Material} {out : List (Int × List Block)}
    (h : run cs = .ok ms) (ho : orders p ms = .ok out) (fields : List Line) (hc : ⟨.mathp, fields⟩ ∈ cs) :
    ∃ id values a10 a01 a20 d1 rho, IsInt fields 1 id ∧ Written out id "ELAS_HYPER" values ∧
      RealOr fields 2 0 a10 ∧ RealOr fields 3 0 a01 ∧ RealOr fields 17 0 a20 ∧
      RealOr fields 4 (1000 * (a10 + a01)) d1 ∧ RealOr fields 5 0 rho ∧
      Has values "C10" a10 ∧ Has values "C01" a01 ∧ Has values "C20" a20 ∧ Has values "K" d1 ∧ Has values "RHO" rho := by
  obtain ⟨⟨id, n⟩, hr⟩ := read_of_run h _ hc
  obtain ⟨y, rfl, hid, h2, h3, h4, h5, h17, _⟩ := read_mathp hr
  obtain ⟨bs, own, hf, hb, hw⟩ := written_of h ho hc hr (by simp [Nature.type])
  cases hb
  exact ⟨id, (elasHyper y).2, y.c10, y.c01, y.c20, y.k, y.rho, hid, ⟨bs, hf, hw⟩, h2, h3, h17, h4, h5, by simp [Has, elasHyper],
    by simp [Has, elasHyper], by simp [Has, elasHyper], by simp [Has, elasHyper], by simp [Has, elasHyper]⟩

/-- **C126** (MATS1) the order of a plastic material has the slope and the limit of its card. -/
theorem C126_plastic {p : Params} {cs : List Card} {ms : List Material} {out : List (Int × List Block)}
    (h : run cs = .ok ms) (ho : orders p ms = .ok out) (fields : List Line) (hc : ⟨.mats1, fields⟩ ∈ cs)
    (ht : toUpper (field fields 3) = "PLASTIC".toList) :
    ∃ id values slope limit, IsInt fields 1 id ∧ Written out id "ECRO_LINE" values ∧
      RealOr fields 4 unavailable slope ∧ RealOr fields 7 unavailable limit ∧
      Has values "D_SIGM_EPSI" slope ∧ Has values "SY" limit := by
  obtain ⟨⟨id, n⟩, hr⟩ := read_of_run h _ hc
  obtain ⟨hid, ⟨ht', _⟩ | ⟨_, l, s, rfl, h4, h7⟩⟩ := read_mats1 hr
  · rw [ht] at ht'
    exact absurd ht' (by decide)
  · obtain ⟨bs, own, hf, hb, hw⟩ := written_of h ho hc hr (by simp [Nature.type])
    cases hb
    exact ⟨id, (ecroLine l s).2, s, l, hid, ⟨bs, hf, hw⟩, h4, h7, by simp [Has, ecroLine], by simp [Has, ecroLine]⟩

/-- **C126** when every number of an element set with cells is that of a material, the materials are assigned to these sets
and to no other. -/
theorem C126_assigned (ms : List Material) (ss : List ElementSet) (hms : ms ≠ [])
    (h : ∀ s ∈ ss, s.isEmpty = false → ∀ n ∈ s.materials, ∃ m ∈ ms, m.number = n) :
    ∃ out, affect ms ss = .ok out ∧
      ∀ n i, (n, i) ∈ out ↔ ∃ s ∈ ss, s.id = i ∧ s.isEmpty = false ∧ n ∈ s.materials := by
  induction ss with
  | nil => exact ⟨[], rfl, by simp⟩
  | cons s ss ih =>
    obtain ⟨out, h1, h2⟩ := ih (fun t ht => h t (by simp [ht]))
    have hne : ms.isEmpty = false := by simpa using hms
    cases hs : s.isEmpty with
    | true =>
      refine ⟨out, ?_, ?_⟩
      · unfold affect
        simp [hs, h1]
      · intro n i
        rw [h2]
        simp [hs]
    | false =>
      refine ⟨s.materials.map (fun n => (n, s.id)) ++ out, ?_, ?_⟩
      · unfold affect
        simp [hs, hne, h1, affectSet_of (h s (by simp) hs)]
      · intro n i
        rw [List.mem_append, h2]
        simp only [List.mem_cons, or_and_right, exists_or, exists_eq_left, hs, true_and, List.mem_map, Prod.mk.injEq]
        constructor
        · rintro (⟨a, ha, rfl, rfl⟩ | h)
          · exact .inl ⟨rfl, ha⟩
          · exact .inr h
        · rintro (⟨rfl, ha⟩ | h)
          · exact .inl ⟨n, ha, rfl, rfl⟩
          · exact .inr h

/-- **C126** in a model without materials nothing is assigned, whatever its element sets. -/
theorem C126_none (ss : List ElementSet) : affect [] ss = .ok [] := by
  induction ss with
  | nil => rfl
  | cons s ss ih =>
    unfold affect
    simp [ih]

/-- **C126** fails: an element set with cells and a material that no card defines makes the program use a null pointer,
whatever comes after it. -/
theorem C126_dangling_false (ms : List Material) (s : ElementSet) (ss : List ElementSet) (hms : ms ≠ [])
    (hs : s.isEmpty = false) (n : Int) (hn : s.materials = [n]) (h : ∀ m ∈ ms, m.number ≠ n) :
    affect ms (s :: ss) = .ub := by
  have hne : ms.isEmpty = false := by simpa using hms
  have ha : ms.any (·.number = n) = false := by
    rw [List.any_eq_false]
    intro m hm
    simpa using h m hm
  unfold affect
  simp only [hs, hne, Bool.or_self, Bool.false_eq_true, if_false, hn, affectSet, ha]
  rfl

/-- **C126** fails: the transverse tensile strength of a MAT8 (its field 14) is never written. -/
theorem C126_strength_false {p : Params} {cs : List Card} {ms : List Material} {out : List (Int × List Block)}
    (h : run cs = .ok ms) (ho : orders p ms = .ok out) (fields : List Line) (hc : ⟨.mat8, fields⟩ ∈ cs) :
    ∃ id values, IsInt fields 1 id ∧ Written out id "ELAS_ORTH" values ∧ Lacks values "YT" := by
  obtain ⟨⟨id, n⟩, hr⟩ := read_of_run h _ hc
  obtain ⟨o, rfl, hid, _⟩ := read_mat8 hr
  obtain ⟨bs, own, hf, hb, hw⟩ := written_of h ho hc hr (by simp [Nature.type])
  cases hb
  refine ⟨id, (elasOrth p o).2, hid, ⟨bs, hf, hw⟩, ?_⟩
  rw [lacks_iff]
  simp [elasOrth, List.filter_append, filter_when]

/-- **C126** fails: the thermal expansion of a MAT1 is never written. -/
theorem C126_expansion_false {p : Params} {cs : List Card} {ms : List Material} {out : List (Int × List Block)}
    (h : run cs = .ok ms) (ho : orders p ms = .ok out) (fields : List Line) (hc : ⟨.mat1, fields⟩ ∈ cs) :
    ∃ id values, IsInt fields 1 id ∧ Written out id "ELAS" values ∧ Lacks values "ALPHA" := by
  obtain ⟨⟨id, n⟩, hr⟩ := read_of_run h _ hc
  obtain ⟨e, g, nu, rho, a, tref, ge, m, rfl, hid, _⟩ := read_mat1 hr
  obtain ⟨bs, own, hf, hb, hw⟩ := written_of h ho hc hr (by simp [Nature.type])
  obtain ⟨b, hb1, hbb⟩ := bind_ok_iff.mp hb
  clear hb
  have hb := hb1
  cases hbb
  refine ⟨id, b.2, hid, ⟨bs, hf, ?_⟩, elas_lacks hb (by decide)⟩
  rw [show ("ELAS" : String) = nameOf (Nature.elastic m ge).type from rfl, hw]
  show [b] = [("ELAS", b.2)]
  rw [← elas_name hb]

theorem has_unique {values : List (String × Option Dbl)} {k : String} {x y : Dbl} (h : Has values k x)
    (h' : Has values k y) : x = y := by
  unfold Has at h h'
  rw [h] at h'
  simpa using h'

theorem written_unique {out : List (Int × List Block)} {id : Int} {s : String} {v w : List (String × Option Dbl)}
    (h : Written out id s v) (h' : Written out id s w) : v = w := by
  obtain ⟨bs, h1, h2⟩ := h
  obtain ⟨bs', h1', h2'⟩ := h'
  rw [h1] at h1'
  have : bs = bs' := by simpa using h1'
  subst this
  rw [h2] at h2'
  simpa using h2'

theorem isInt_unique {card : List Line} {i : Nat} {x y : Int} (h : IsInt card i x) (h' : IsInt card i y) : x = y :=
  Option.some.inj (h.symm.trans h')

/-- **C126** fails: the factor of masses is not applied to the density of a hyperelastic material. -/
theorem C126_density_false {p : Params} {cs : List Card} {ms : List Material} {out : List (Int × List Block)}
    (h : run cs = .ok ms) (ho : orders p ms = .ok out) (fields : List Line) (hc : ⟨.mathp, fields⟩ ∈ cs) (rho k : Dbl)
    (hrho : IsReal fields 5 rho) (hr0 : rho ≠ 0) (hk : p.multiplier = some k) (hk1 : k ≠ 1) (id : Int)
    (hid : IsInt fields 1 id) (values : List (String × Option Dbl)) (hw : Written out id "ELAS_HYPER" values) :
    ¬ Has values "RHO" (rho * k) := by
  obtain ⟨id', v', _, _, _, _, r, hid', hw', _, _, _, _, hr, _, _, _, _, hhas⟩ := C126_hyperelastic h ho fields hc
  obtain rfl := isInt_unique hid hid'
  obtain rfl := written_unique hw hw'
  obtain rfl := realOr_given hr hrho
  intro hh
  have e := has_unique hhas hh
  apply hk1
  have : r * (k - 1) = 0 := by linarith
  rcases mul_eq_zero.mp this with h | h
  · exact absurd h hr0
  · linarith

/-- **C126** fails: the constant `D1` of a MATHP is written as the bulk modulus, which is twice this constant (as the two
programs are generally known). -/
theorem C126_bulk_false {p : Params} {cs : List Card} {ms : List Material} {out : List (Int × List Block)}
    (h : run cs = .ok ms) (ho : orders p ms = .ok out) (fields : List Line) (hc : ⟨.mathp, fields⟩ ∈ cs) (d1 : Dbl)
    (hd : IsReal fields 4 d1) (hd0 : d1 ≠ 0) (id : Int) (hid : IsInt fields 1 id)
    (values : List (String × Option Dbl)) (hw : Written out id "ELAS_HYPER" values) : ¬ Has values "K" (2 * d1) := by
  obtain ⟨id', v', _, _, _, d, _, hid', hw', _, _, _, hd', _, _, _, _, hhas, _⟩ := C126_hyperelastic h ho fields hc
  obtain rfl := isInt_unique hid hid'
  obtain rfl := written_unique hw hw'
  obtain rfl := realOr_given hd' hd
  intro hh
  have e := has_unique hhas hh
  apply hd0
  linarith

/-- **C126** fails: the slope of hardening `H` of a MATS1, which is that over the plastic strain, is written as the slope
over the total strain, which is `E H / (E + H)` (as the two programs are generally known). -/
theorem C126_slope_false {p : Params} {cs : List Card} {ms : List Material} {out : List (Int × List Block)}
    (h : run cs = .ok ms) (ho : orders p ms = .ok out) (fields : List Line) (hc : ⟨.mats1, fields⟩ ∈ cs)
    (ht : toUpper (field fields 3) = "PLASTIC".toList) (s e : Dbl) (hs : IsReal fields 4 s) (hs0 : 0 < s) (he : 0 < e)
    (id : Int) (hid : IsInt fields 1 id) (values : List (String × Option Dbl)) (hw : Written out id "ECRO_LINE" values) :
    ¬ Has values "D_SIGM_EPSI" (e * s / (e + s)) := by
  obtain ⟨id', v', sl, _, hid', hw', hsl, _, hhas, _⟩ := C126_plastic h ho fields hc ht
  obtain rfl := isInt_unique hid hid'
  obtain rfl := written_unique hw hw'
  obtain rfl := realOr_given hsl hs
  intro hh
  have e1 := has_unique hhas hh
  have hpos : 0 < e + sl := by linarith
  rw [eq_div_iff (ne_of_gt hpos)] at e1
  have : sl * sl = 0 := by linarith
  have := mul_pos hs0 hs0
  linarith

/-- **C126** fails: a slope or a limit left blank on a MATS1 is written as the number that stands for a blank. -/
theorem C126_blank_false {p : Params} {cs : List Card} {ms : List Material} {out : List (Int × List Block)}
    (h : run cs = .ok ms) (ho : orders p ms = .ok out) (fields : List Line) (hc : ⟨.mats1, fields⟩ ∈ cs)
    (ht : toUpper (field fields 3) = "PLASTIC".toList) :
    ∃ id values, IsInt fields 1 id ∧ Written out id "ECRO_LINE" values ∧
      (Blank fields 4 → Has values "D_SIGM_EPSI" (-dblMax)) ∧ (Blank fields 7 → Has values "SY" (-dblMax)) := by
  obtain ⟨id, v, s, l, hid, hw, hs, hl, h1, h2⟩ := C126_plastic h ho fields hc ht
  refine ⟨id, v, hid, hw, fun hb => ?_, fun hb => ?_⟩
  · rw [realOr_blank hs hb] at h1; exact h1
  · rw [realOr_blank hl hb] at h2; exact h2

/-- **C126** fails: nothing is written of a nonlinear elastic law (MATS1 of type NLELAST): the orders are those of the
materials without it. -/
theorem C126_nonlinear_false (p : Params) (ms : List Material) : orders p ms = orders p (ms.map forget) := by
  induction ms with
  | nil => rfl
  | cons m ms ih =>
    have hd : defi p (forget m) = defi p m := by
      unfold defi
      rw [forget_find (by decide), forget_find (by decide), forget_find (by decide), forget_find (by decide)]
    rw [List.map_cons]
    unfold orders
    rw [hd, ← ih]
    rfl

/-- **C126** fails: a MAT8 with a structural damping (its field 17) is refused, and so are the fields after it. -/
theorem C126_damping_false (fields : List Line) (i : Nat) (hi : 17 ≤ i) (h : ¬ Blank fields i) (r : Int × Nature) :
    read ⟨.mat8, fields⟩ ≠ .ok r := by
  intro hr
  obtain ⟨o, _, _, _, _, _, _, _, _, _, _, _, _, _, _, _, _, _, _, hb⟩ := read_mat8 hr
  exact h (hb i hi)

/-! ## Examples -/

/-- A card with these fields. -/
def card (k : Kind) (l : List String) : Card := ⟨k, l.map String.toList⟩

/-- An isotropic material with expansion and a plastic law without slope, a lamina with its strengths, and a rubber. -/
def deck : List Card :=
  [card .mat1 ["MAT1", "1", "2.+5", "", ".3", "7.8-9", "1.2-5", "", ".02"],
    card .mats1 ["MATS1", "1", "", "PLASTIC", "", "", "", "250."],
    card .mat8 ["MAT8", "2", "1.5+5", "9.+3", ".3", "5.+3", "4.+3", "3.+3", "1.6-9", "", "", "", "1500.", "1200.", "50.",
      "200.", "70."],
    card .mathp ["MATHP", "3", ".5", ".1", "", "1.-9"],
    card .mats1 ["MATS1", "4", "7", "NLELAST"]]

/-- The deck is accepted and written, so that the hypotheses of the theorems above are met. -/
example : ∃ ms out, run deck = .ok ms ∧ orders { multiplier := some 2 } ms = .ok out ∧ deck ≠ [] := by
  have h : ∃ ms, run deck = .ok ms := by
    have hk : (match run deck with | .ok _ => true | _ => false) = true := by decide +kernel
    cases hr : run deck with
    | ok ms => exact ⟨ms, rfl⟩
    | throw => rw [hr] at hk; cases hk
    | ub => rw [hr] at hk; cases hk
    | diverges => rw [hr] at hk; cases hk
  obtain ⟨ms, hms⟩ := h
  have hall : ∀ l : List Material, ∃ out, orders { multiplier := some 2 } l = .ok out := by
    intro l
    induction l with
    | nil => exact ⟨[], rfl⟩
    | cons m l ih =>
      obtain ⟨out, ho⟩ := ih
      have hb : ∀ o : Option Nature, ∃ bs, blocksOf { multiplier := some 2 } o = .ok bs := by
        intro o
        cases o with
        | none => exact ⟨_, rfl⟩
        | some n => cases n <;> exact ⟨_, rfl⟩
      obtain ⟨a, ha⟩ := hb (m.findNature .elastic)
      obtain ⟨b, hb'⟩ := hb (m.findNature .hyperelastic)
      obtain ⟨c, hc⟩ := hb (m.findNature .orthotropic)
      obtain ⟨d, hd⟩ := hb (m.findNature .bilinear)
      refine ⟨(m.number, a ++ b ++ c ++ d) :: out, ?_⟩
      unfold orders defi
      rw [ha, hb', hc, hd, ho]
      rfl
  obtain ⟨out, ho⟩ := hall ms
  exact ⟨ms, out, hms, ho, by simp [deck]⟩

/-- The constants of the first card. -/
example : Constants (["MAT1", "1", "2.+5", "", ".3", "7.8-9"].map String.toList) 200000 (3 / 10) := by
  have hM := dblMax_pos
  have big : (10 : Dbl) ^ 6 ≤ dblMax / 2 := by decide +kernel
  refine .youngPoisson _ _ ?_ ?_ ?_ ?_ (by norm_num)
  · exact ⟨by decide +kernel, by decide +kernel⟩
  · exact ⟨by decide +kernel, by decide +kernel⟩
  · unfold Ordinary; rw [abs_of_pos (by norm_num)]; linarith
  · unfold Ordinary; rw [abs_of_pos (by norm_num)]; linarith

/-- A property with the number of a material that is not there. -/
example : affect [⟨1, []⟩] [⟨5, false, [2]⟩] = .ub :=
  C126_dangling_false _ _ _ (by simp) rfl 2 rfl (by simp)

/-- One with a material that is there. -/
example : ∃ out, affect [⟨1, []⟩] [⟨5, false, [1]⟩] = .ok out ∧ (1, 5) ∈ out := by
  obtain ⟨out, h1, h2⟩ := C126_assigned [⟨1, []⟩] [⟨5, false, [1]⟩] (by simp) (by simp)
  exact ⟨out, h1, (h2 1 5).mpr ⟨⟨5, false, [1]⟩, by simp⟩⟩

/-- Two cards MAT8 of one number. -/
example (ms : List Material) :
    run [card .mat8 ["MAT8", "2", "1.", "1.", ".3", "5."], card .mat8 ["MAT8", "2", "2.", "1.", ".3", "5."]] ≠ .ok ms := by
  have hr : ∀ c : Card, (match read c with | .ok (i, n) => decide (i = 2 ∧ n.type = .orthotropic) | _ => false) = true →
      ∃ n, read c = .ok (2, n) ∧ n.type = .orthotropic := by
    intro c h
    split at h
    · rename_i i n hi
      have := of_decide_eq_true h
      exact ⟨n, by rw [hi, this.1], this.2⟩
    · cases h
  obtain ⟨n, h1, t1⟩ := hr (card .mat8 ["MAT8", "2", "1.", "1.", ".3", "5."]) (by decide +kernel)
  obtain ⟨k, h2, t2⟩ := hr (card .mat8 ["MAT8", "2", "2.", "1.", ".3", "5."]) (by decide +kernel)
  exact C126_twice [] [] [] _ _ 2 n k h1 h2 (t1.trans t2.symm) ms

end Materials
end Vega
