import Verif.Geom.SystemsProps

/-! # C44: positions in the orientation of an element -/
namespace Vega.CsSpec
open Vec CS

/-- **C44** vectors in the orientation of an element, relative to Cartesian systems to any depth. -/
theorem C44_orientation_vector (env : Env) (c : CS) (fs : List Frame) (h : Resolves env c fs)
    (hk : c.kind = .orientation) (hv : c.virt = false) (n : Nat) (hn : fs.length ≤ n) (v : Vec) :
    vectorToGlobal env n c (some v) = .ok (some (throughVec fs v)) := by
  cases h with
  | global ho ha hr =>
    obtain ⟨n, rfl⟩ : ∃ m, n = m + 1 := ⟨n - 1, by simp at hn; omega⟩
    simp [vectorToGlobal, hk, hv, upTo, hr, applyOpt, ha, throughVec, frame_vec]
  | nested ho ha hr he hp hq =>
    rw [List.length_cons] at hn
    obtain ⟨n, rfl⟩ : ∃ m, n = m + 1 := ⟨n - 1, by omega⟩
    simp only [vectorToGlobal, hk, hv, upTo, hr, he, applyOpt, ha, Option.bind_eq_bind, Option.bind_some,
      Bool.false_eq_true, if_false]
    rw [C44_vector env _ _ hq hp n (by omega)]
    simp only [throughVec, List.foldl_cons, frame_vec]

/-- **C44** positions in the orientation of an element relative to the global system.
Missing: orientations relative to another system, see `C44_orientation_twice_false`. -/
theorem C44_orientation_partial (env : Env) (c : CS) (f : Frame) (h : Resolves env c [f])
    (hk : c.kind = .orientation) (hv : c.virt = false) (hr : c.rcs = none) (n : Nat) (hn : 1 ≤ n) (p : Vec) :
    positionToGlobal env n c (some p) = .ok (some (f.point p)) := by
  obtain ⟨n, rfl⟩ : ∃ m, n = m + 1 := ⟨n - 1, by omega⟩
  have hg := C44_orientation_vector env c [f] h hk hv (n + 1) (by simp) p
  cases h with
  | global ho ha _ =>
    simp only [positionToGlobal, hk, hv, hg, Outcome.bind_ok, upTo, hr, ho, addOpt, Bool.false_eq_true, if_false]
    simp only [throughVec, List.foldl_cons, List.foldl_nil, frame_vec, frame_point]
  | nested _ _ hr' => rw [hr] at hr'; cases hr'

/-- **C44** whenever the orientation is relative to another system, the vector from the origin to the
point goes through the systems of reference twice. The position is the right one exactly when these systems, applied once more, do not change that vector. -/
theorem C44_orientation_twice_false (env : Env) (c q : CS) (o : Vec) (a : Axes) (r : Nat) (fs : List Frame)
    (ho : c.origin = some o) (ha : c.axes = some a) (hr : c.rcs = some r) (he : env r = some q)
    (hp : q.kind = .cartesian) (hq : Resolves env q fs) (hk : c.kind = .orientation) (hv : c.virt = false)
    (n : Nat) (hn : fs.length < n) (p : Vec) :
    ∃ x, positionToGlobal env n c (some p) = .ok (some x) ∧
      x = add (through fs o) (throughVec fs (throughVec (⟨o, a⟩ :: fs) p)) ∧
      (x = through (⟨o, a⟩ :: fs) p ↔
        throughVec fs (throughVec (⟨o, a⟩ :: fs) p) = throughVec (⟨o, a⟩ :: fs) p) := by
  obtain ⟨n, rfl⟩ : ∃ m, n = m + 1 := ⟨n - 1, by omega⟩
  have hg := C44_orientation_vector env c _ (.nested ho ha hr he hp hq) hk hv (n + 1) (by simp; omega) p
  refine ⟨_, ?_, rfl, ?_⟩
  · simp only [positionToGlobal, hk, hv, hg, Outcome.bind_ok, upTo, hr, he, ho, addOpt, Bool.false_eq_true, if_false]
    rw [C44_position env _ _ hq hp n (by omega), through_add]
  · have e1 : throughVec (⟨o, a⟩ :: fs) p = throughVec fs (a.apply p) := by
      simp only [throughVec, List.foldl_cons, frame_vec]
    have e2 : through (⟨o, a⟩ :: fs) p = add (through fs o) (throughVec fs (a.apply p)) := by
      rw [← through_add]
      simp only [through, List.foldl_cons, frame_point]
    rw [e2, e1]
    constructor
    · intro h
      have hx := congrArg Vec.x h
      have hy := congrArg Vec.y h
      have hz := congrArg Vec.z h
      simp only [add] at hx hy hz
      ext
      · linarith
      · linarith
      · linarith
    · intro h; rw [h]

/-- An orientation relative to a turned system. -/
example : Resolves (fun r => if r = 1 then some (sys .cartesian zero turned none) else none)
    (sys .orientation zero std (some 1)) [⟨zero, std⟩, ⟨zero, turned⟩] :=
  .nested rfl rfl rfl rfl rfl (.global rfl rfl rfl)

example : Resolves (fun _ => none) (sys .orientation zero turned none) [⟨zero, turned⟩] :=
  .global rfl rfl rfl

end Vega.CsSpec
