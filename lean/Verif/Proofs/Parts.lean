import Verif.Props.Commute
/-! # The information in a measurement, for C95 -/

namespace RL
open Matrix Real

/-- The measured values at their places in the state, zero elsewhere. -/
noncomputable def Payload.placed (m : Payload) : State := fun i => if i ∈ m.indices then (m.z i).val else 0
/-- The covariance (with sanitised variances) at its place, zero elsewhere. -/
noncomputable def Payload.spread (m : Payload) : Mat15 :=
  .of fun i j => if i ∈ m.indices ∧ j ∈ m.indices then (if i = j then sanitize (m.R i j) else m.R i j) else 0
/-- The projection to the measured variables. -/
def Payload.proj (m : Payload) : Mat15 := Matrix.diagonal fun i => if i ∈ m.indices then 1 else 0

theorem Payload.indices_nodup (m : Payload) : m.indices.Nodup := (List.nodup_finRange 15).filter _

theorem get_inj {l : List (Fin 15)} (h : l.Nodup) : Function.Injective l.get := List.nodup_iff_injective_get.1 h

theorem sum_get {l : List (Fin 15)} (h : l.Nodup) (i : Fin 15) (f : Fin l.length → ℝ) :
    (∀ a, l.get a = i → ∑ b, (if i = l.get b then f b else 0) = f a) ∧ (i ∉ l → ∑ b, (if i = l.get b then f b else 0) = 0) := by
  constructor
  · intro a ha
    rw [Finset.sum_eq_single a]
    · rw [if_pos ha.symm]
    · intro b _ hb
      rw [if_neg]
      intro hi
      exact hb (get_inj h (hi.symm.trans ha.symm))
    · simp
  · intro hi
    refine Finset.sum_eq_zero fun b _ => ?_
    rw [if_neg]
    rintro rfl
    exact hi (List.get_mem _ _)

theorem subH_cover {l : List (Fin 15)} (h : l.Nodup) : subH l.get * (subH l.get)ᵀ = 1 := by
  ext a b
  simp only [Matrix.mul_apply, subH, Matrix.transpose_apply, Matrix.of_apply]
  rw [Finset.sum_eq_single (l.get a)]
  · rw [Matrix.one_apply]
    by_cases hab : a = b
    · simp [hab]
    · have : ¬ l.get a = l.get b := fun he => hab (get_inj h he)
      rw [if_neg hab, if_neg this]
      simp
  · intro c _ hc
    rw [if_neg hc, zero_mul]
  · simp

theorem subH_disjoint {l l' : List (Fin 15)} (h : ∀ i ∈ l, i ∉ l') : subH l.get * (subH l'.get)ᵀ = 0 := by
  ext a b
  simp only [Matrix.mul_apply, subH, Matrix.transpose_apply, Matrix.of_apply, Matrix.zero_apply]
  refine Finset.sum_eq_zero fun c _ => ?_
  by_cases h1 : c = l.get a
  · have : c ≠ l'.get b := by
      rintro rfl
      exact h _ (h1 ▸ List.get_mem l a) (List.get_mem l' b)
    rw [if_neg this, mul_zero]
  · rw [if_neg h1, zero_mul]

theorem placed_eq (m : Payload) : m.placed = (subH m.indices.get)ᵀ.mulVec m.values := by
  funext i
  have h := sum_get m.indices_nodup i m.values
  have e : (subH m.indices.get)ᵀ.mulVec m.values i = ∑ b, (if i = m.indices.get b then m.values b else 0) := by
    simp [mulVec, dotProduct, subH]
  rw [e]
  unfold Payload.placed
  split
  · rename_i hi
    obtain ⟨a, ha⟩ := List.get_of_mem hi
    rw [h.1 a ha, Payload.values, ha]
  · rename_i hi
    rw [h.2 hi]

theorem proj_eq (m : Payload) : m.proj = (subH m.indices.get)ᵀ * subH m.indices.get := by
  ext i j
  have h := sum_get m.indices_nodup i (fun b => if j = m.indices.get b then 1 else 0)
  have e : ((subH m.indices.get)ᵀ * subH m.indices.get) i j =
      ∑ b, (if i = m.indices.get b then (if j = m.indices.get b then 1 else 0) else 0) := by
    simp only [Matrix.mul_apply, subH, Matrix.transpose_apply, Matrix.of_apply, ite_mul, one_mul, zero_mul]
  rw [e]
  unfold Payload.proj
  rw [Matrix.diagonal_apply]
  by_cases hi : i ∈ m.indices
  · obtain ⟨a, ha⟩ := List.get_of_mem hi
    rw [h.1 a ha, ha, if_pos hi]
    simp only [eq_comm]
  · rw [h.2 hi, if_neg hi, ite_self]

theorem spread_eq (m : Payload) : m.spread = (subH m.indices.get)ᵀ * subR m.indices.get m.R * subH m.indices.get := by
  ext i j
  have e : ((subH m.indices.get)ᵀ * subR m.indices.get m.R * subH m.indices.get) i j =
      ∑ b, (if j = m.indices.get b then ∑ a, (if i = m.indices.get a then subR m.indices.get m.R a b else 0) else 0) := by
    simp [Matrix.mul_apply, subH]
  rw [e]
  unfold Payload.spread
  rw [Matrix.of_apply]
  by_cases hj : j ∈ m.indices
  · obtain ⟨b, hb⟩ := List.get_of_mem hj
    rw [(sum_get m.indices_nodup j _).1 b hb]
    by_cases hi : i ∈ m.indices
    · obtain ⟨a, ha⟩ := List.get_of_mem hi
      rw [(sum_get m.indices_nodup i _).1 a ha, if_pos ⟨hi, hj⟩]
      unfold subR
      rw [Matrix.of_apply, ha, hb]
      by_cases hab : a = b
      · rw [if_pos hab, if_pos (by rw [← ha, ← hb, hab])]
      · rw [if_neg hab, if_neg]
        intro h
        exact hab (get_inj m.indices_nodup (ha.trans (h.trans hb.symm)))
    · rw [(sum_get m.indices_nodup i _).2 hi, if_neg fun h => hi h.1]
  · rw [(sum_get m.indices_nodup j _).2 hj, if_neg fun h => hj h.2]

/-- The weight of a measurement is determined by the places and the covariance. -/
theorem weight_unique {m : Payload} (hm : m.Certain) {W : Mat15} (h1 : W * m.proj = W) (h2 : W * m.spread = m.proj) :
    weight m = W := by
  have hR := isUnit_iff_ne_zero.2 hm.proper
  have hc := subH_cover m.indices_nodup
  have e : m.spread * weight m = m.proj := by
    rw [spread_eq, proj_eq, weight]
    calc (subH m.indices.get)ᵀ * subR m.indices.get m.R * subH m.indices.get *
          ((subH m.indices.get)ᵀ * (subR m.indices.get m.R)⁻¹ * subH m.indices.get)
        = (subH m.indices.get)ᵀ * subR m.indices.get m.R * (subH m.indices.get * (subH m.indices.get)ᵀ) *
          (subR m.indices.get m.R)⁻¹ * subH m.indices.get := by simp only [Matrix.mul_assoc]
      _ = _ := by rw [hc, Matrix.mul_one, Matrix.mul_nonsing_inv_cancel_right _ _ hR]
  have e' : m.proj * weight m = weight m := by
    rw [proj_eq, weight]
    calc (subH m.indices.get)ᵀ * subH m.indices.get *
          ((subH m.indices.get)ᵀ * (subR m.indices.get m.R)⁻¹ * subH m.indices.get)
        = (subH m.indices.get)ᵀ * (subH m.indices.get * (subH m.indices.get)ᵀ) *
          (subR m.indices.get m.R)⁻¹ * subH m.indices.get := by simp only [Matrix.mul_assoc]
      _ = _ := by rw [hc, Matrix.mul_one]
  rw [← e', ← h2, Matrix.mul_assoc, e, h1]

theorem weight_proj (m : Payload) : weight m * m.proj = weight m := by
  have hc := subH_cover m.indices_nodup
  rw [proj_eq, weight]
  calc (subH m.indices.get)ᵀ * (subR m.indices.get m.R)⁻¹ * subH m.indices.get *
        ((subH m.indices.get)ᵀ * subH m.indices.get)
      = (subH m.indices.get)ᵀ * (subR m.indices.get m.R)⁻¹ * (subH m.indices.get * (subH m.indices.get)ᵀ) * subH m.indices.get := by
        simp only [Matrix.mul_assoc]
    _ = _ := by rw [hc, Matrix.mul_one]

theorem weight_spread {m : Payload} (hm : m.Certain) : weight m * m.spread = m.proj := by
  have hR := isUnit_iff_ne_zero.2 hm.proper
  have hc := subH_cover m.indices_nodup
  rw [spread_eq, proj_eq, weight]
  calc (subH m.indices.get)ᵀ * (subR m.indices.get m.R)⁻¹ * subH m.indices.get *
        ((subH m.indices.get)ᵀ * subR m.indices.get m.R * subH m.indices.get)
      = (subH m.indices.get)ᵀ * (subR m.indices.get m.R)⁻¹ * (subH m.indices.get * (subH m.indices.get)ᵀ) *
        subR m.indices.get m.R * subH m.indices.get := by simp only [Matrix.mul_assoc]
    _ = _ := by rw [hc, Matrix.mul_one, Matrix.nonsing_inv_mul_cancel_right _ _ hR]

theorem push_eq (m : Payload) : push m = (weight m).mulVec m.placed := by
  have hc := subH_cover m.indices_nodup
  rw [placed_eq, weight, push, Matrix.mulVec_mulVec, Matrix.mul_assoc _ (subH m.indices.get), hc, Matrix.mul_one]

/-- A weight does not see what is measured elsewhere. -/
theorem weight_elsewhere {a b : Payload} (h : ∀ i ∈ a.indices, i ∉ b.indices) :
    weight a * b.proj = 0 ∧ weight a * b.spread = 0 ∧ (weight a).mulVec b.placed = 0 := by
  have hd := subH_disjoint h
  have key : weight a * (subH b.indices.get)ᵀ = 0 := by
    unfold weight
    rw [Matrix.mul_assoc, hd, Matrix.mul_zero]
  refine ⟨?_, ?_, ?_⟩
  · rw [proj_eq, ← Matrix.mul_assoc, key, Matrix.zero_mul]
  · rw [spread_eq, Matrix.mul_assoc _ (subR b.indices.get b.R), ← Matrix.mul_assoc, key, Matrix.zero_mul]
  · rw [placed_eq, Matrix.mulVec_mulVec, key, Matrix.zero_mulVec]

end RL
