import Verif.Props.Inflated
import Verif.Model.Ukf
/-! # C132: what a variance of zero counts as -/

namespace RL
open Matrix Real

variable {n : ℕ} {p : FilterPar}

theorem correctAt_congr {e : Fin n → Fin 15} {R R' : Mat15} (h : subR e R = subR e R') (z : Fin 15 → ℝ) (thr : Thresh)
    (x : State) (P : Mat15) : correctAt e z R thr x P = correctAt e z R' thr x P := by
  unfold correctAt gain joseph innovCov
  rw [h]

theorem ukfCorrectAt_congr {e : Fin n → Fin 15} {R R' : Mat15} (h : subR e R = subR e R') (k : UkfConst) (pts : Sig → State)
    (z : Fin 15 → ℝ) (thr : Thresh) (x : State) (P : Mat15) :
    ukfCorrectAt e k pts z R thr x P = ukfCorrectAt e k pts z R' thr x P := by
  unfold ukfCorrectAt
  rw [h]

/-- Replacing a variance of zero by `1e-9` makes no difference to what is used. -/
theorem subR_withVar {m : Payload} {i : Fin 15} (h : m.R i i = 0) (e : Fin n → Fin 15) (he : Function.Injective e) :
    subR e m.R = subR e (m.withVar i 1e-9).R := by
  ext a b
  simp only [subR, Matrix.of_apply, withVar_entry]
  by_cases hab : a = b
  · subst hab
    rw [if_pos rfl, if_pos rfl]
    by_cases ha : e a = i
    · rw [if_pos ⟨ha, ha⟩, ha, h, sanitize_above le_rfl]
      norm_num [sanitize]
    · rw [if_neg (fun h => ha h.1)]
  · rw [if_neg hab, if_neg hab, if_neg]
    rintro ⟨h1, h2⟩
    exact hab (he (h1.trans h2.symm))

theorem indices_injective (m : Payload) : Function.Injective m.indices.get := fun _ _ h => get_inj m.indices_nodup h

/-- **C132**, partial: once the filter is running, a variance of zero counts exactly as `1e-9`: for the extended filter … -/
theorem C132_counts_partial (m : Payload) {i : Fin 15} (h : m.R i i = 0) (x : State) (P : Mat15) :
    Ekf.correct m x P = Ekf.correct (m.withVar i 1e-9) x P :=
  correctAt_congr (subR_withVar h _ (indices_injective m)) _ _ x P

/-- … and for the unscented one. -/
theorem C132_ukf_counts_partial (llt : Llt) (k : UkfConst) (m : Payload) {i : Fin 15} (h : m.R i i = 0) (x : State) (P : Mat15)
    (mem : UkfMem) : Ukf.correct llt k m x P mem = Ukf.correct llt k (m.withVar i 1e-9) x P mem := by
  unfold Ukf.correct
  dsimp only
  have := ukfCorrectAt_congr (subR_withVar h _ (indices_injective m)) k (mem.refresh llt k x P) (fun i => (m.z i).val) m.thresh x P
  rw [this]
  rfl

theorem single_certain {m : Payload} {i : Fin 15} (hi : m.indices = [i]) (ht : m.thresh = .unlimited) (hm : m.GoodR) : m.Certain where
  ungated := ht
  good := hm
  proper := by
    have key : ∀ l : List (Fin 15), l = [i] → (subR l.get m.R).det ≠ 0 := by
      rintro _ rfl
      have : (subR [i].get m.R) = !![sanitize (m.R i i)] := by
        ext a b
        fin_cases a; fin_cases b
        simp [subR]
      rw [this]
      simpa using (sanitize_pos (m.R i i)).ne'
    exact key _ hi

section
variable {m : Payload} {i : Fin 15} (hi : m.indices = [i]) (hang : ¬ angular i) (ht : m.thresh = .unlimited) (hm : m.GoodR)
  (h0 : m.R i i = 0) (x : State) {P : Mat15} (hP : P.PosSemidef)

include hi hang ht hm h0 hP in
/-- C132 is false of the documented `1e-6`: with the documented value the same reading would move the estimate less, by the
factor `(p + 1e-9) / (p + 1e-6)`. -/
theorem C132_not_micro (hmic : (m.withVar i 1e-6).GoodR) : ∃ a b : State × Mat15,
    Ekf.correct m x P = some a ∧ Ekf.correct (m.withVar i 1e-6) x P = some b ∧
    (b.1 i - x i) * (P i i + 1e-6) = (a.1 i - x i) * (P i i + 1e-9) ∧
    (0 < P i i → (m.z i).val ≠ x i → a.1 i ≠ b.1 i) ∧ a.2 i i ≤ 1e-9 ∧ (1e-6 ≤ P i i → 5e-7 ≤ b.2 i i) := by
  have hn : ¬ (i = iRoll ∨ i = iPitch ∨ i = iYaw) := hang
  have hp := hP.diag_nonneg (i := i)
  have e1 := correct_one i hi (single_certain hi ht hm) x hP
  have e2 := correct_one (m := m.withVar i 1e-6) i hi (single_certain hi ht hmic) x hP
  have s1 : sanitize (m.R i i) = 1e-9 := by rw [h0]; norm_num [sanitize]
  have s2 : sanitize ((m.withVar i 1e-6).R i i) = 1e-6 := by
    rw [withVar_entry, if_pos ⟨rfl, rfl⟩]
    exact sanitize_above (by norm_num)
  rw [s1] at e1
  rw [s2] at e2
  have hz : ((m.withVar i 1e-6).z i).val = (m.z i).val := rfl
  refine ⟨_, _, e1, e2, ?_, ?_, ?_, ?_⟩
  · simp only [wrap_other _ hang, if_neg hn, hz]
    have : P i i + 1e-9 ≠ 0 := by positivity
    have : P i i + 1e-6 ≠ 0 := by positivity
    field_simp
    ring
  · intro hp0 hne heq
    simp only [wrap_other _ hang, if_neg hn, hz] at heq
    have h1 : P i i + 1e-9 ≠ 0 := by positivity
    have h2 : P i i + 1e-6 ≠ 0 := by positivity
    have h3 : (m.z i).val - x i ≠ 0 := sub_ne_zero.2 hne
    have h4 := mul_right_cancel₀ h3 (add_left_cancel heq)
    have h5 := inv_injective (mul_left_cancel₀ hp0.ne' h4)
    norm_num at h5
  · show P i i - P i i * (P i i + 1e-9)⁻¹ * P i i ≤ 1e-9
    have h1 : P i i + 1e-9 ≠ 0 := by positivity
    have : P i i - P i i * (P i i + 1e-9)⁻¹ * P i i = 1e-9 * (P i i / (P i i + 1e-9)) := by
      field_simp
      ring
    rw [this]
    have : P i i / (P i i + 1e-9) ≤ 1 := (div_le_one (by positivity)).2 (by linarith [show (0 : ℝ) < 1e-9 by norm_num])
    linarith
  · intro hbig
    show 5e-7 ≤ P i i - P i i * (P i i + 1e-6)⁻¹ * P i i
    have h1 : P i i + 1e-6 ≠ 0 := by positivity
    have : P i i - P i i * (P i i + 1e-6)⁻¹ * P i i = 1e-6 * (P i i / (P i i + 1e-6)) := by
      field_simp
      ring
    rw [this]
    have : 1 / 2 ≤ P i i / (P i i + 1e-6) := by
      rw [le_div_iff₀ (by positivity)]
      linarith
    linarith

end

theorem correct_known {m : Payload} {i : Fin 15} (hi : m.indices = [i]) (hm : m.Certain) (hang : ¬ angular i) (x : State) {P : Mat15}
    (hP : P.PosSemidef) (h0 : P i i = 0) : ∃ w, Ekf.correct m x P = some w ∧ w.1 i = x i := by
  refine ⟨_, correct_one i hi hm x hP, ?_⟩
  dsimp only
  rw [wrap_other _ hang, h0, zero_mul, zero_mul, add_zero]

/-- C132 is false of the first message: a variance of zero is taken as it is, and the filter is then deaf to every other
message of that time about the variable, whatever it says. -/
theorem C132_first_message (f : Filt (ekfCore p)) (hf : f.initialized = false) (x0 : State) (h0 : f.x = some x0)
    (hP : Uncorrelated f.cov) (m : Meas (ekfCore p)) (hm : Payload.GoodR m.z)
    (hfin : ∀ k, Payload.upd m.z k = true → (Payload.z m.z k).isFin = true) {i : Fin 15} (hu : Payload.upd m.z i = true)
    (hang : ¬ angular i) (hz : Payload.R m.z i i = 0) (b : Meas (ekfCore p)) (hb : Payload.indices b.z = [i])
    (hbc : Payload.Certain b.z) (htime : b.time = m.time) :
    (show Mat15 from (f.processMeasurement m).cov) i i = 0 ∧
    ∃ x, ((f.processMeasurement m).processMeasurement b).x = some x ∧ x i = (Payload.z m.z i).val := by
  obtain ⟨x, h1, h2⟩ := C128_first_message f hf x0 h0 m hfin
  obtain ⟨h3, h4⟩ := h2 i hu
  rw [hz] at h4
  have hi : (f.processMeasurement m).initialized = true ∧ (f.processMeasurement m).lastTime = m.time := by
    unfold Filt.processMeasurement
    rw [hf]
    exact ⟨rfl, rfl⟩
  have hcov : Matrix.PosSemidef (show Mat15 from (f.processMeasurement m).cov) := by
    have : (f.processMeasurement m).cov = initCov (show Payload from m.z) f.cov := by
      unfold Filt.processMeasurement
      rw [hf]
      rfl
    rw [this]
    exact initCov_psd hm hP.1 hP.2
  refine ⟨h4, ?_⟩
  rw [process_eq _ hi.1 b]
  have hc : catchUp (f.processMeasurement m) b.time = f.processMeasurement m := if_neg (by rw [htime, hi.2]; omega)
  rw [hc]
  obtain ⟨w, hw, hwi⟩ := correct_known hb hbc hang x hcov h4
  exact ⟨_, (correct_some h1 hw).1, hwi.trans h3⟩

/-! ## Examples -/

/-- A position with a variance of zero. -/
noncomputable def zeroVarDemo : Payload := (oneVar iX 1 .unlimited).withVar iX 0

theorem zeroVarDemo_good (r : ℝ) (hr : 0 ≤ r) : (zeroVarDemo.withVar iX r).GoodR := by
  have e : ((zeroVarDemo.withVar iX r).R.submatrix (fun j : {j // (zeroVarDemo.withVar iX r).upd j = true} => j.1)
      (fun j : {j // (zeroVarDemo.withVar iX r).upd j = true} => j.1)) = r • 1 := by
    ext a b
    have ha : a.1 = iX := of_decide_eq_true a.2
    have hb : b.1 = iX := of_decide_eq_true b.2
    obtain rfl : a = b := Subtype.ext (ha.trans hb.symm)
    simp [withVar_entry, ha]
  unfold Payload.GoodR
  rw [e]
  exact PosSemidef.one.smul hr

theorem zeroVarDemo_same : zeroVarDemo.withVar iX 0 = zeroVarDemo := by
  unfold zeroVarDemo Payload.withVar
  congr 1
  ext a b
  simp only [Matrix.of_apply]
  split <;> rfl

example : ∃ a b : State × Mat15, Ekf.correct zeroVarDemo 0 1 = some a ∧ Ekf.correct (zeroVarDemo.withVar iX 1e-6) 0 1 = some b ∧
    a.1 iX ≠ b.1 iX := by
  obtain ⟨a, b, h1, h2, -, h3, -⟩ := C132_not_micro (m := zeroVarDemo) (i := iX) (oneVar_indices iX 1 .unlimited)
    (by simp [angular]; decide) rfl (by rw [← zeroVarDemo_same]; exact zeroVarDemo_good 0 le_rfl)
    (by unfold zeroVarDemo; rw [withVar_entry, if_pos ⟨rfl, rfl⟩]) 0 PosSemidef.one (zeroVarDemo_good _ (by norm_num))
  exact ⟨a, b, h1, h2, h3 (by simp) (by simp [zeroVarDemo, Payload.withVar, oneVar, Dbl.val])⟩

/-- The first fix has a variance of zero; the second, a metre away and of the same time, is ignored. -/
example : ∃ x, (((idleFilt 0).processMeasurement ⟨0, "gps", zeroVarDemo, fun _ : Fin 6 => (0 : ℝ), 0⟩).processMeasurement
    ⟨0, "gps", oneVar iX 2 .unlimited, fun _ : Fin 6 => (0 : ℝ), 0⟩).x = some x ∧ x iX = 1 :=
  (C132_first_message (p := plainPar) (idleFilt 0) rfl 0 rfl (uncorrelated_smul (by norm_num))
    ⟨0, "gps", zeroVarDemo, fun _ : Fin 6 => (0 : ℝ), 0⟩ (by rw [← zeroVarDemo_same]; exact zeroVarDemo_good 0 le_rfl) (fun _ _ => rfl)
    (i := iX) rfl (by simp [angular]; decide) (by unfold zeroVarDemo; rw [withVar_entry, if_pos ⟨rfl, rfl⟩])
    ⟨0, "gps", oneVar iX 2 .unlimited, fun _ : Fin 6 => (0 : ℝ), 0⟩ (oneVar_indices iX 2 .unlimited) (oneVar_certain iX 2) rfl).2

end RL
