import Verif.Model.Callbacks
import Verif.Props.Params
/-! # Helper lemmas about the callbacks -/

namespace RL
open Matrix

theorem maskAxes_false (r : M3) (u : Fin 3 → Bool) (hu : ∀ j, u j = false) (i : Fin 3) : maskAxes r u i = false := by
  have h : ∀ k, (r * Matrix.diagonal (fun j => if u j then (1 : ℝ) else 0)) i k = 0 := by
    intro k
    simp [Matrix.mul_diagonal, hu k]
  unfold maskAxes
  simp only [h]
  norm_num

/-- `put` outside of its three entries. -/
theorem put_out {α : Type} (off : ℕ) (f : Fin 15 → α) (v : Fin 3 → α) (i : Fin 15) (h : i.val < off ∨ off + 3 ≤ i.val) :
    put off f v i = f i := by
  unfold put
  rw [dif_neg]
  omega

theorem put_in {α : Type} (off : ℕ) (f : Fin 15 → α) (v : Fin 3 → α) (i : Fin 15) (h : off ≤ i.val ∧ i.val < off + 3) :
    put off f v i = v ⟨i.val - off, by omega⟩ := by
  unfold put
  rw [dif_pos h]

/-- What `sensor` adds to the queue. -/
theorem sensor_elems {C : Core} {P : MQueue C} (n : Node C P) (topic : String) (stamp : Int) (prep : Option C.Z) :
    P.elems (n.sensor topic stamp prep).queue =
      (if n.lastSetPose ≥ stamp ∨ ¬ (n.lastMsg topic).getD stamp ≤ stamp then 0
       else match prep with
        | some z => {{ time := stamp, topic := topic, z := z, ctl := n.ctl, ctlTime := n.ctlTime }}
        | none => 0) + P.elems n.queue := by
  unfold Node.sensor
  by_cases h1 : n.lastSetPose ≥ stamp
  · simp [h1]
  · by_cases h2 : (n.lastMsg topic).getD stamp ≤ stamp
    · simp only [h1, h2, if_false, if_true, false_or, not_true_eq_false]
      cases prep with
      | none => simp
      | some z => simp [Node.enqueue, P.elems_push]
    · simp [h1, h2]

theorem sensor_mem {C : Core} {P : MQueue C} {n : Node C P} {topic : String} {stamp : Int} {prep : Option C.Z} {m : Meas C}
    (h : m ∈ P.elems (n.sensor topic stamp prep).queue) : m ∈ P.elems n.queue ∨ ∃ z, prep = some z ∧ m.z = z ∧ m.topic = topic ∧
      m.time = stamp := by
  rw [sensor_elems] at h
  rcases Multiset.mem_add.mp h with h | h
  · split at h
    · simp at h
    · cases prep with
      | none => simp at h
      | some z =>
        simp only [Multiset.mem_singleton] at h
        exact Or.inr ⟨z, rfl, by rw [h], by rw [h], by rw [h]⟩
  · exact Or.inl h

end RL
