import Verif.Aster.MaterialsProps
import Verif.Load.CardsProps

/-! # C126: hyperelastic cards that are accepted, and Rayleigh damping -/
namespace Vega
namespace Materials
open Nastran MaterialsSpec BarsSpec LoadCardsSpec Bars LoadCards

/-! ## Helper lemmas -/

theorem rayleigh_given {k : String} {o : Option (Dbl × Dbl)} {l : List (String × Option Dbl)} (h : rayleigh k o = .ok l) {re im : Dbl}
    (ho : o = some (re, im)) (hz : isZero re = false) : l = [(k, some re)] := by
  subst ho
  simp only [rayleigh] at h
  split at h
  · cases h
  · rw [hz] at h
    cases h
    rfl

theorem rayleigh_none {k : String} {o : Option (Dbl × Dbl)} {l : List (String × Option Dbl)} (h : rayleigh k o = .ok l)
    (ho : o = none ∨ ∃ re im, o = some (re, im) ∧ isZero re = true) : l = [] := by
  rcases ho with rfl | ⟨re, im, rfl, hz⟩
  · cases h
    rfl
  · simp only [rayleigh, hz] at h
    split at h <;> cases h
    rfl

theorem elas_parts {p : Params} {m : Option Elastic} {ge : Dbl} {b : Block} (h : elas p m ge = .ok b) :
    ∃ base x y, b.2 = base ++ x ++ y ∧ (∀ v ∈ base, v.1 ∈ ["E", "NU", "RHO", "AMOR_HYST"]) ∧ rayleigh "AMOR_ALPHA" p.stiffness = .ok x ∧
      rayleigh "AMOR_BETA" p.mass = .ok y := by
  unfold elas at h
  obtain ⟨x, hx, h⟩ := bind_ok_iff.mp h
  obtain ⟨y, hy, h⟩ := bind_ok_iff.mp h
  cases h
  refine ⟨_, x, y, rfl, ?_, hx, hy⟩
  intro v hv
  rcases List.mem_append.1 hv with hv | hv
  · cases m <;> simp only [List.mem_cons, List.not_mem_nil, or_false] at hv <;> rcases hv with rfl | rfl | rfl <;> simp
  · unfold whenDefined at hv
    split at hv
    · cases hv
    · rw [List.mem_singleton.1 hv]
      simp

theorem filter_base {base : List (String × Option Dbl)} (h : ∀ v ∈ base, v.1 ∈ ["E", "NU", "RHO", "AMOR_HYST"]) {s : String}
    (hs : s ∉ ["E", "NU", "RHO", "AMOR_HYST"]) : base.filter (fun v => v.1 = s) = [] := by
  rw [List.filter_eq_nil_iff]
  intro v hv
  rw [decide_eq_true_eq]
  rintro rfl
  exact hs (h v hv)

/-! ## C126 -/

/-- **C126.** A hyperelastic card whose fields are numbers or blank is accepted if it has at most three orders of deviatoric and one of volumetric
terms, and nothing from the eighteenth field on. -/
theorem C126_mathp_accepted (fields : List Line) (id : Int) (x : Nat → Dbl) (na nd : Int) (h1 : IsInt fields 1 id)
    (hx : ∀ i, i ∈ [2, 3, 5, 6, 7, 8, 17] → RealOr fields i 0 (x i)) (h4 : RealOr fields 4 (1000 * (x 2 + x 3)) (x 4))
    (hna : IntOr fields 10 1 na) (hnd : IntOr fields 11 1 nd) (h3 : na ≤ 3) (h5 : nd ≤ 1) (hb : ∀ i, 18 ≤ i → Blank fields i) :
    read ⟨.mathp, fields⟩ = .ok (id, .hyperelastic ⟨x 2, x 3, x 17, x 4, x 5⟩) := by
  have hr : ∀ i, i ∈ [2, 3, 5, 6, 7, 8, 17] → readReal (some 0) (field fields i) = .ok (x i) := fun i hi => readReal_iff.mpr (hx i hi)
  unfold read
  rw [start_at]
  simp only [parse, parseMATHP, nextInt_at, nextDouble_at, skip_at, Outcome.bind_ok, readInt_none.mpr h1, hr 2 (by simp),
    hr 3 (by simp), readReal_iff.mpr h4, hr 5 (by simp), hr 6 (by simp), hr 7 (by simp), hr 8 (by simp), readInt_default.mpr hna,
    readInt_default.mpr hnd, hr 17 (by simp), if_neg (not_lt.mpr h3), if_neg (not_lt.mpr h5)]
  rw [if_pos ((isEmpty_at _ _).mpr hb)]

/-- A card of the second order. -/
example : let f := ["MATHP", "4", "1.5", ".5", "100.", "", "", "", "", "", "2", "", "", "", "", "", "", ".25"].map String.toList
    IsInt f 1 4 ∧ IsReal f 2 (3 / 2) ∧ IsReal f 17 (1 / 4) ∧ IntOr f 10 1 2 ∧ IntOr f 11 1 1 := by
  refine ⟨?_, ⟨by decide +kernel, by decide +kernel⟩, ⟨by decide +kernel, by decide +kernel⟩, .inl ?_, .inr ⟨?_, rfl⟩⟩
  · unfold IsInt; decide +kernel
  · unfold IsInt; decide +kernel
  · unfold Blank; decide +kernel

/-- **C126** (Rayleigh damping) an elastic material has `AMOR_ALPHA`, that multiplies stiffness, and `AMOR_BETA`, that multiplies mass, with the factors of the
model when there are any that are not zero. -/
theorem C126_rayleigh {p : Params} {cs : List Card} {ms : List Material} {out : List (Int × List Block)}
    (h : run cs = .ok ms) (ho : orders p ms = .ok out) (fields : List Line) (hc : ⟨.mat1, fields⟩ ∈ cs) :
    ∃ id values, IsInt fields 1 id ∧ Written out id "ELAS" values ∧
      (∀ re im, p.stiffness = some (re, im) → isZero re = false → Has values "AMOR_ALPHA" re) ∧
      (∀ re im, p.mass = some (re, im) → isZero re = false → Has values "AMOR_BETA" re) ∧
      ((p.stiffness = none ∨ ∃ re im, p.stiffness = some (re, im) ∧ isZero re = true) → Lacks values "AMOR_ALPHA") ∧
      ((p.mass = none ∨ ∃ re im, p.mass = some (re, im) ∧ isZero re = true) → Lacks values "AMOR_BETA") := by
  obtain ⟨⟨id, n⟩, hr⟩ := read_of_run h _ hc
  obtain ⟨e, g, nu, rho, a, tref, ge, m, rfl, hid, -⟩ := read_mat1 hr
  obtain ⟨bs, own, hf, hb, hw⟩ := written_of h ho hc hr (by simp [Nature.type])
  obtain ⟨b, hb1, hbb⟩ := bind_ok_iff.mp hb
  cases hbb
  have hn := elas_name hb1
  refine ⟨id, b.2, hid, ⟨bs, hf, ?_⟩, ?_⟩
  · rw [show ("ELAS" : String) = nameOf (Nature.elastic m ge).type from rfl, hw]
    show [b] = [("ELAS", b.2)]
    rw [← hn]
  · obtain ⟨base, x, y, e, hbase, hx, hy⟩ := elas_parts hb1
    rw [e]
    have fa := filter_base hbase (s := "AMOR_ALPHA") (by decide)
    have fb := filter_base hbase (s := "AMOR_BETA") (by decide)
    have ka := filter_other (rayleigh_key hy) (s := "AMOR_ALPHA") (by decide)
    have kb := filter_other (rayleigh_key hx) (s := "AMOR_BETA") (by decide)
    refine ⟨fun re im e hz => ?_, fun re im e hz => ?_, fun e => ?_, fun e => ?_⟩
    · unfold Has
      rw [List.filter_append, List.filter_append, fa, ka, List.nil_append, List.append_nil, rayleigh_given hx e hz]
      simp
    · unfold Has
      rw [List.filter_append, List.filter_append, fb, kb, List.nil_append, List.nil_append, rayleigh_given hy e hz]
      simp
    · rw [lacks_iff, List.filter_append, List.filter_append, fa, ka, rayleigh_none hx e]
      simp
    · rw [lacks_iff, List.filter_append, List.filter_append, fb, kb, rayleigh_none hy e]
      simp

/-- A factor that is written. -/
example : ∃ b, elas { stiffness := some (1 / 10, 0) } none 0 = .ok b ∧ ("AMOR_ALPHA", some (1 / 10)) ∈ b.2 := by
  have h0 : isZero (0 : Dbl) = true := by decide +kernel
  have h1 : isZero (1 / 10 : Dbl) = false := by decide +kernel
  exact ⟨_, by simp only [elas, rayleigh, h0, h1]; rfl, by simp⟩

/-- **C126** a factor with an imaginary part is refused. -/
theorem C126_rayleigh_imaginary (p : Params) (m : Option Elastic) (ge re im : Dbl) (hi : isZero im = false)
    (h : p.stiffness = some (re, im) ∨ p.mass = some (re, im)) (b : List Block) : blockOf p (.elastic m ge) ≠ .ok b := by
  intro hb
  obtain ⟨b, hb, -⟩ := bind_ok_iff.mp hb
  unfold elas at hb
  obtain ⟨x, hx, hb⟩ := bind_ok_iff.mp hb
  obtain ⟨y, hy, -⟩ := bind_ok_iff.mp hb
  rcases h with h | h
  · rw [h] at hx; simp [rayleigh, hi] at hx
  · rw [h] at hy; simp [rayleigh, hi] at hy

end Materials
end Vega
