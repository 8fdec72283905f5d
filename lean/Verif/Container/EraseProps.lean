import Verif.Container.Props

/-! # C07: erasing by a reference without automatic id -/
namespace Vega.ContainerSpec
open Container

theorem erase_absent {κ α : Type} [DecidableEq κ] (m : Map κ α) (k : κ) (h : m.find k = none) : m.erase k = m := by
  induction m with
  | nil => rfl
  | cons x m ih =>
    obtain ⟨k', a⟩ := x
    unfold Map.find at h
    unfold Map.erase
    by_cases hk : k' = k
    · simp [hk] at h
    · rw [if_neg hk] at h ⊢
      rw [ih h]

theorem byOrig_wf (ops : List Op) : (run ops).byOrig.WF := by
  unfold run
  have key : ∀ c : Container, c.byOrig.WF → (ops.foldl step c).byOrig.WF := by
    induction ops with
    | nil => intro c h; exact h
    | cons op ops ih =>
      intro c h
      refine ih _ ?_
      cases op with
      | add o =>
        unfold step
        simp only
        unfold Container.add
        cases hf : c.find o.ref with
        | ok v =>
          cases v with
          | none =>
            simp only [Outcome.bind_ok]
            split
            · exact Map.wf_set _ _ _ h
            · exact h
          | some _ => simpa using h
        | _ => exact h
      | eraseObj o =>
        show (if _ then _ else _ : Map (Nat × Int) Obj).WF
        split
        · exact Map.wf_erase _ _ h
        · exact h
  exact key _ Map.wf_nil

/-- **C07** after every history, erasing by a reference made from an original id, whose automatic id is that
of no object of the container, makes the object unknown by that reference, while iteration, the number of
objects and the access by automatic id still give it. -/
theorem C07_erase_by_original_id_always_false (ops : List Op) (r : Ref) (ho : r.hasOriginalId = true)
    (h : (run ops).get r.id = none) (id : Int) :
    ((run ops).erase r).find r = .ok none ∧ ((run ops).erase r).objects = (run ops).objects ∧
      ((run ops).erase r).size = (run ops).size ∧ ((run ops).erase r).get id = (run ops).get id := by
  have e : ((run ops).erase r).byId = (run ops).byId := erase_absent _ _ h
  refine ⟨?_, ?_, ?_, ?_⟩
  · unfold Container.find Container.erase
    simp [ho, Map.find_erase _ (byOrig_wf ops)]
  · unfold objects; rw [e]
  · unfold size; rw [e]
  · unfold Container.get; rw [e]

example : (run [.add ⟨1, 10, 1, 0⟩]).get (Ref.mk 1 10 Ref.NO_ID).id = none ∧
    (Ref.mk 1 10 Ref.NO_ID).hasOriginalId = true ∧ (run [.add ⟨1, 10, 1, 0⟩]).get 1 = some ⟨1, 10, 1, 0⟩ := by decide

end Vega.ContainerSpec
