import Verif.Props.AverageUkf
import Verif.Props.Informed
import Mathlib.NumberTheory.Real.GoldenRatio
/-!
# C141: the unscented filter is as sure as its data make it

`Ukf::correct` lowers the covariance by `K P_zz Kᵀ`, where the filter equations have `K (P_zz + R) Kᵀ` (ukf.cpp:267-296).  What it
reports is therefore too large: never more than twice the right covariance (`C141_twice_partial`), but after a reading of something
that was not known before nearly twice the variance of the reading (`C141_nearly_twice`), and after n readings at least
r / √(2n + 1) instead of r / (n + 1) (`C141_root`).
-/

namespace RL
open Matrix Real

section algebra
variable {n : ℕ} (e : Fin n → Fin 15)

/-- Twice the covariance of the filter equations less the one the unscented filter computes. -/
theorem twice_sub_psd (R P : Mat15) (hP : P.PosSemidef) (hR : (R.submatrix e e).PosSemidef) (hd : (P.submatrix e e + subR e R).det ≠ 0) :
    let K := P.submatrix id e * (P.submatrix e e + subR e R)⁻¹
    ((2 : ℝ) • joseph e R (gain e R P) P - (P - K * P.submatrix e e * Kᵀ)).PosSemidef := by
  intro K
  obtain ⟨t1, t2⟩ := C08_textbook e R P hP hR hd
  have hS : (P.submatrix e e + subR e R).PosSemidef := (hP.submatrix e).add (subR_psd hR)
  have hPs : Pᵀ = P := PosSemidef.symm' hP
  have h2 : K * (P.submatrix e e + subR e R) = P.submatrix id e := by
    show P.submatrix id e * (P.submatrix e e + subR e R)⁻¹ * (P.submatrix e e + subR e R) = _
    rw [Matrix.mul_assoc, nonsing_inv_mul _ (isUnit_iff_ne_zero.2 hd), Matrix.mul_one]
  change _ = P - K * (P.submatrix e e + subR e R) * Kᵀ at t1
  change _ = P - K * P.submatrix e id at t2
  clear_value K
  have e1 : joseph e R (gain e R P) P = P - K * subH e * P := by rw [t2, Matrix.mul_assoc K, subH_mul]
  have e2 : joseph e R (gain e R P) P = P - P * (subH e)ᵀ * Kᵀ := by
    rw [t1, h2, mul_subH_transpose]
  have e3 : K * P.submatrix e e * Kᵀ = K * subH e * P * (K * subH e)ᵀ := by
    have : P.submatrix e e = subH e * P * (subH e)ᵀ := by
      rw [mul_subH_transpose, subH_mul]
      rfl
    rw [this, transpose_mul]
    simp only [Matrix.mul_assoc]
  have : (2 : ℝ) • joseph e R (gain e R P) P - (P - K * P.submatrix e e * Kᵀ) = (1 - K * subH e) * P * (1 - K * subH e)ᵀ := by
    rw [two_smul]
    nth_rewrite 1 [e1]
    rw [e2, e3, transpose_sub, transpose_one, transpose_mul]
    simp only [Matrix.sub_mul, Matrix.mul_sub, Matrix.one_mul, Matrix.mul_one, Matrix.mul_assoc]
    abel
  rw [this]
  exact psd_congr hP _

end algebra

section
variable {k : UkfConst} {alpha kappa beta : ℝ} (llt : Llt) (x : State) (P : Mat15) {n : ℕ} (e : Fin n → Fin 15)

/-- C141, partial: on fresh sigma points the covariance is at most twice that of the extended filter for the same measurement. -/
theorem C141_twice_partial (hk : setConstants alpha kappa beta = some k) (hpos : 0 < 15 + k.lam) (hP : P.PosDef)
    (hc : Calm e k x P) (z : Fin 15 → ℝ) (R : Mat15) (hR : (R.submatrix e e).PosSemidef) (thr : Thresh)
    (x' : State) (P' : Mat15) (b : Bool) (h : ukfCorrectAt e k (sigmaPoints llt k x P) z R thr x P = some (x', P', b)) :
    ∃ Pk, correctAt e z R thr x P = some (x', Pk) ∧ (P' - Pk).PosSemidef ∧ ((2 : ℝ) • Pk - P').PosSemidef := by
  obtain ⟨-, -, Pk, h1, h2⟩ := C17_covariance_partial llt x P e hk hpos hP hc z R hR thr x' P' b h
  refine ⟨Pk, h1, h2, ?_⟩
  rw [C17_fresh_partial llt x P e hk hpos hP hc z R hR thr, h1, Option.map_some] at h
  unfold correctAt at h1
  split at h1
  · cases h1
  · rename_i hd
    rw [innovCov_eq] at hd h1
    by_cases hm : checkMahalanobis (innovation e z x) (P.submatrix e e + subR e R)⁻¹ thr
    · rw [if_pos hm] at h h1
      simp only [Option.some.injEq, Prod.mk.injEq] at h h1
      obtain ⟨-, rfl, -⟩ := h
      obtain ⟨-, rfl⟩ := h1
      have := twice_sub_psd e R P hP.posSemidef hR hd
      have ht := (C08_textbook e R P hP.posSemidef hR hd).1
      have hK : P - P.submatrix id e * (P.submatrix e e + subR e R)⁻¹ * P.submatrix e e * (P.submatrix id e * (P.submatrix e e + subR e R)⁻¹)ᵀ =
          joseph e R (gain e R P) P + P.submatrix id e * (P.submatrix e e + subR e R)⁻¹ * subR e R *
            (P.submatrix id e * (P.submatrix e e + subR e R)⁻¹)ᵀ := by
        rw [ht, Matrix.mul_add, Matrix.add_mul]
        abel
      dsimp only at this
      rwa [hK] at this
    · rw [if_neg hm] at h h1
      simp only [Option.some.injEq, Prod.mk.injEq] at h h1
      obtain ⟨-, rfl, -⟩ := h
      obtain ⟨-, rfl⟩ := h1
      rw [two_smul, add_sub_cancel_right]
      exact hP.posSemidef

/-- What the filter equations leave of the variables measured is at most the covariance of the measurement. -/
theorem joseph_le_subR (R P : Mat15) (hP : P.PosSemidef) (hR : (R.submatrix e e).PosSemidef) (hd : (P.submatrix e e + subR e R).det ≠ 0) :
    (subR e R - (joseph e R (gain e R P) P).submatrix e e).PosSemidef := by
  have hRs := subR_psd hR
  rw [(C08_textbook e R P hP hR hd).2]
  have e1 : (P - P.submatrix id e * (P.submatrix e e + subR e R)⁻¹ * P.submatrix e id).submatrix e e =
      P.submatrix e e - P.submatrix e e * (P.submatrix e e + subR e R)⁻¹ * P.submatrix e e := by
    ext a b
    simp only [Matrix.submatrix_apply, Matrix.sub_apply, Matrix.mul_apply, id]
  rw [e1, parallel_sum hd, sub_sub_cancel]
  have hS : (P.submatrix e e + subR e R).PosSemidef := (hP.submatrix e).add hRs
  have := psd_congr hS.inv (subR e R)
  rwa [PosSemidef.symm' hRs] at this

/-- C141, partial: the first correction after a prediction.  A variable it measures is afterwards known at most twice as badly as it
was measured, and the process noise of the step (hypotheses as for C17_after_prediction_partial, with an example there). -/
theorem C141_predicted_partial (p : FilterPar) (Q : Mat15) (ctl : Fin 6 → ℝ) (ct ref : Int) (dt : ℝ) (x1 : State) (P1 : Mat15)
    (mem : UkfMem) (h : Ukf.predict p llt k Q ctl ct ref dt x P = some (x1, P1, mem))
    (hcalm : ∀ s, stateDiff e (mem.pts s - x1) = wrapDiff (mem.pts s - x1)) (hdt : 0 ≤ dt)
    (hQ : (noiseQ p Q x1).PosSemidef) (hσ : (P1 - dt • noiseQ p Q x1).PosSemidef)
    (z : Fin 15 → ℝ) (R : Mat15) (hR : (R.submatrix e e).PosSemidef) (thr : Thresh) (x2 : State) (P2 : Mat15)
    (h2 : ukfCorrectAt e k mem.pts z R thr x1 P1 = some (x2, P2, true)) (a : Fin n) :
    P2 (e a) (e a) ≤ 2 * max (R (e a) (e a)) 1e-9 + dt * noiseQ p Q x1 (e a) (e a) := by
  have hd : ((P1 - dt • noiseQ p Q x1).submatrix e e + subR e R).det ≠ 0 := by
    unfold Ukf.predict at h
    dsimp only at h
    split at h
    · cases h
    · simp only [Option.some.injEq, Prod.mk.injEq] at h
      obtain ⟨rfl, rfl, rfl⟩ := h
      intro hn
      rw [wrap_mean, add_sub_cancel_right, ← (measCovar_predicted (k := k) e _).2] at hn
      unfold ukfCorrectAt at h2
      dsimp only at h2
      rw [if_pos hn] at h2
      cases h2
  obtain ⟨-, e2, -⟩ := C17_after_prediction_partial llt e p Q ctl ct ref dt x P x1 P1 mem h hcalm hdt hQ hσ z R hR thr x2 P2 h2
  have t := (twice_sub_psd e R _ hσ hR hd).diag_nonneg (i := e a)
  have u := (joseph_le_subR e R _ hσ hR hd).diag_nonneg (i := a)
  rw [e2]
  generalize joseph e R (gain e R (P1 - dt • noiseQ p Q x1)) (P1 - dt • noiseQ p Q x1) = J at t u
  simp only [Matrix.sub_apply, Matrix.smul_apply, smul_eq_mul, submatrix_apply] at t u ⊢
  have hs : subR e R a a = max (R (e a) (e a)) 1e-9 := by
    have h0 : 0 ≤ R (e a) (e a) := hR.diag_nonneg (i := a)
    simp only [subR, Matrix.of_apply, if_true, sanitize_max h0]
  rw [hs] at u
  linarith

end

section
variable {k : UkfConst} {alpha kappa beta : ℝ} (llt : Llt) (x : State) (P : Mat15)

/-- C141, partial: a variable measured by a correction on fresh sigma points is known at most twice as badly as it was measured. -/
theorem C141_measured_partial (hk : setConstants alpha kappa beta = some k) (hpos : 0 < 15 + k.lam) (hP : P.PosDef) (m : Payload)
    (hm : m.GoodR) (hg : m.thresh = .unlimited) (hc : Calm m.indices.get k x P) (mem : UkfMem) (hu : mem.uncorrected = false)
    (s : State × Mat15 × UkfMem) (h : Ukf.correct llt k m x P mem = some s) (i : Fin 15) (hi : m.upd i = true)
    (hf : (m.z i).isFin = true) : s.2.1 i i ≤ 2 * max (m.R i i) 1e-9 := by
  unfold Ukf.correct UkfMem.refresh at h
  rw [hu] at h
  obtain ⟨⟨x', P', b⟩, h1, rfl⟩ := Option.map_eq_some_iff.1 h
  obtain ⟨Pk, e1, -, e3⟩ := C141_twice_partial llt x P _ hk hpos hP hc _ m.R hm.sub m.thresh x' P' b h1
  have h2 := C109_variance m hm hg x x' hP.posSemidef e1 i hi hf
  have h3 := e3.diag_nonneg (i := i)
  rw [Matrix.sub_apply, Matrix.smul_apply, smul_eq_mul] at h3
  show P' i i ≤ _
  linarith

theorem ukf_read_var_at (hk : setConstants alpha kappa beta = some k) (hpos : 0 < 15 + k.lam) (hP : P.PosDef) {a : Fin 15}
    (e : Fin 1 → Fin 15) (he : ∀ n, e n = a) {R : Mat15} {r : ℝ} (hRr : R a a = r) (hf : 1e-9 ≤ r) (hc : Calm e k x P) (z : Fin 15 → ℝ)
    {x' : State} {P' : Mat15} {b : Bool} (h : ukfCorrectAt e k (sigmaPoints llt k x P) z R .unlimited x P = some (x', P', b)) :
    P' a a = P a a - (P a a / (P a a + r)) ^ 2 * P a a := by
  have hinv : ∀ A : Matrix (Fin 1) (Fin 1) ℝ, A⁻¹ 0 0 = (A 0 0)⁻¹ := by
    intro A
    rw [Matrix.inv_def, Matrix.adjugate_fin_one, det_fin_one]
    simp
  unfold ukfCorrectAt at h
  dsimp only at h
  rw [measCovar_fresh llt hk hpos x P hP _ hc, crossCovar_fresh llt hk hpos x P hP _ hc] at h
  split at h
  · cases h
  · rw [if_pos (by trivial)] at h
    simp only [Option.some.injEq, Prod.mk.injEq] at h
    obtain ⟨-, rfl, -⟩ := h
    have hR0 : subR e R 0 0 = r := by
      simp [subR, he, hRr, sanitize_above hf]
    have hK : (P.submatrix id e * (P.submatrix e e + subR e R)⁻¹) a 0 = P a a / (P a a + r) := by
      rw [Matrix.mul_apply, Fin.sum_univ_one, hinv, Matrix.add_apply, hR0, submatrix_apply, submatrix_apply, he, div_eq_mul_inv]
      rfl
    rw [Matrix.sub_apply]
    generalize P.submatrix id e * (P.submatrix e e + subR e R)⁻¹ = K at hK ⊢
    rw [Matrix.mul_apply, Fin.sum_univ_one, Matrix.mul_apply, Fin.sum_univ_one, submatrix_apply, he, transpose_apply, hK]
    ring

/-- What a reading of one variable does to its variance. -/
theorem ukf_read_var (hk : setConstants alpha kappa beta = some k) (hpos : 0 < 15 + k.lam) (hP : P.PosDef) {m : Payload} {a : Fin 15}
    {z r : ℝ} (hm : m.Reads a z r) (hc : Calm m.indices.get k x P) (mem : UkfMem) (hu : mem.uncorrected = false)
    (s : State × Mat15 × UkfMem) (h : Ukf.correct llt k m x P mem = some s) :
    s.2.1 a a = P a a - (P a a / (P a a + r)) ^ 2 * P a a := by
  unfold Ukf.correct UkfMem.refresh at h
  rw [hu, hm.ungated] at h
  obtain ⟨⟨x', P', b⟩, h1, rfl⟩ := Option.map_eq_some_iff.1 h
  show P' a a = _
  rw [hm.indices] at h1 hc
  exact ukf_read_var_at llt x P hk hpos hP ([a].get : Fin 1 → Fin 15) (fun n => by fin_cases n; rfl) hm.var hm.floor hc _ h1

/-- C141 does not hold: exactly when the variance was above 1.618 (the golden ratio) times that of the reading, the reading leaves
more than the variance of the reading. -/
theorem C141_golden (hk : setConstants alpha kappa beta = some k) (hpos : 0 < 15 + k.lam) (hP : P.PosDef) {m : Payload} {a : Fin 15}
    {z r : ℝ} (hm : m.Reads a z r) (hc : Calm m.indices.get k x P) (mem : UkfMem) (hu : mem.uncorrected = false)
    (s : State × Mat15 × UkfMem) (h : Ukf.correct llt k m x P mem = some s) :
    r < s.2.1 a a ↔ Real.goldenRatio * r < P a a := by
  have hr : 0 < r := lt_of_lt_of_le (by norm_num) hm.floor
  have hs : 0 < P a a := hP.diag_pos
  rw [ukf_read_var llt x P hk hpos hP hm hc mem hu s h]
  generalize P a a = v at hs
  have e : v - (v / (v + r)) ^ 2 * v = v * r * (r + 2 * v) / (v + r) ^ 2 := by field_simp; ring
  have hg := Real.goldenRatio_sq
  have hg1 := Real.one_lt_goldenRatio
  rw [e, lt_div_iff₀ (by positivity)]
  generalize Real.goldenRatio = φ at hg hg1
  have key : v * r * (r + 2 * v) - r * (v + r) ^ 2 = r * ((v - φ * r) * (v + (φ - 1) * r)) := by
    have : φ * φ = φ + 1 := by rw [← sq, hg]
    linear_combination r ^ 3 * this
  have hp : 0 < v + (φ - 1) * r := by nlinarith
  constructor
  · intro h
    by_contra hn
    have : (v - φ * r) * (v + (φ - 1) * r) ≤ 0 := mul_nonpos_of_nonpos_of_nonneg (by linarith) hp.le
    nlinarith [mul_nonpos_of_nonneg_of_nonpos hr.le this]
  · intro h
    have : 0 < r * ((v - φ * r) * (v + (φ - 1) * r)) := mul_pos hr (mul_pos (by linarith) hp)
    linarith

/-- C141 does not hold: a reading of something not known before leaves nearly twice the variance of the reading. -/
theorem C141_nearly_twice (hk : setConstants alpha kappa beta = some k) (hpos : 0 < 15 + k.lam) (hP : P.PosDef) {m : Payload} {a : Fin 15}
    {z r : ℝ} (hm : m.Reads a z r) (hc : Calm m.indices.get k x P) (mem : UkfMem) (hu : mem.uncorrected = false)
    (s : State × Mat15 × UkfMem) (h : Ukf.correct llt k m x P mem = some s) :
    (2 - 3 * r / P a a) * r ≤ s.2.1 a a ∧ s.2.1 a a < 2 * r := by
  have hr : 0 < r := lt_of_lt_of_le (by norm_num) hm.floor
  have hs : 0 < P a a := hP.diag_pos
  rw [ukf_read_var llt x P hk hpos hP hm hc mem hu s h]
  generalize P a a = v at hs
  have e : v - (v / (v + r)) ^ 2 * v = v * r * (r + 2 * v) / (v + r) ^ 2 := by field_simp; ring
  have e' : (2 - 3 * r / v) * r = (2 * v - 3 * r) * r / v := by field_simp
  rw [e, e']
  constructor
  · rw [div_le_div_iff₀ hs (by positivity)]
    have : 0 ≤ r * (r ^ 2 * (4 * v + 3 * r)) := by positivity
    nlinarith
  · rw [div_lt_iff₀ (by positivity)]
    have : 0 < r * (r * (3 * v + 2 * r)) := by positivity
    nlinarith

end

/-- A heading known to 0.01 read with a variance of 0.001 is afterwards known to more than 0.0017, and to less than 0.002; the filter
equations give 0.00091. -/
example (llt : Llt) : ∃ k s, setConstants 0.001 0 2 = some k ∧
    Ukf.correct llt k (readOf iYaw 0.05 1e-3) 0 ((0.01 : ℝ) • (1 : Mat15)) ⟨fun _ => 0, false⟩ = some s ∧
    1e-3 < s.2.1 iYaw iYaw ∧ 1.7e-3 ≤ s.2.1 iYaw iYaw ∧ s.2.1 iYaw iYaw ≤ 2 * max 1e-3 1e-9 := by
  obtain ⟨k, hk⟩ := Option.isSome_iff_exists.1 ((C16_constants_defined 0.001 0 2).2 ⟨by norm_num, by norm_num⟩)
  have h3 := pi_gt_three
  have hpos : 0 < 15 + k.lam := by rw [(setConstants_spec hk).2.1]; norm_num
  have hP : ((0.01 : ℝ) • (1 : Mat15)).PosDef := PosDef.one.smul (by norm_num)
  have hm := readOf_reads iYaw 0.05 (r := 1e-3) (by norm_num)
  have hc : Calm (readOf iYaw 0.05 1e-3).indices.get k 0 ((0.01 : ℝ) • (1 : Mat15)) := by
    refine ⟨fun i _ => ⟨by show -π < (0 : ℝ); linarith, by show (0 : ℝ) ≤ π; linarith⟩, fun i _ => ?_, fun i _ => ?_, fun i r _ _ => ?_⟩
    · simp; norm_num
    · rw [(setConstants_spec hk).2.1]; simp; nlinarith
    · rw [(setConstants_spec hk).2.1]; simp; nlinarith
  obtain ⟨s, hs⟩ : ∃ s, Ukf.correct llt k (readOf iYaw 0.05 1e-3) 0 ((0.01 : ℝ) • (1 : Mat15)) ⟨fun _ => 0, false⟩ = some s := by
    have hr := correct_one iYaw hm.indices hm.certain 0 hP.posSemidef
    unfold Ekf.correct at hr
    unfold Ukf.correct UkfMem.refresh
    rw [if_neg (by simp)]
    dsimp only
    rw [C17_fresh_partial llt 0 _ _ hk hpos hP hc _ _ hm.good.sub _, hr, Option.map_some, Option.map_some]
    exact ⟨_, rfl⟩
  have e : ((0.01 : ℝ) • (1 : Mat15)) iYaw iYaw = 0.01 := by simp
  refine ⟨k, s, hk, hs, ?_, ?_, ?_⟩
  · rw [C141_golden llt 0 _ hk hpos hP hm hc _ rfl s hs, e]
    have := Real.goldenRatio_lt_two
    linarith
  · have := (C141_nearly_twice llt 0 _ hk hpos hP hm hc _ rfl s hs).1
    rw [e] at this
    exact le_trans (by norm_num) this
  · have := C141_measured_partial llt 0 _ hk hpos hP _ hm.good hm.ungated hc _ rfl s hs iYaw rfl rfl
    rwa [hm.var] at this

/-! ## Many readings -/

theorem heard_slow {v r w : ℝ} (hv : 0 < v) (hr : 0 < r) (hw : 0 ≤ w) :
    0 < v + w - (v / (v + r)) ^ 2 * v ∧ 1 / (v + w - (v / (v + r)) ^ 2 * v) ^ 2 ≤ 1 / v ^ 2 + 2 / r ^ 2 := by
  have e : v + w - (v / (v + r)) ^ 2 * v = v * r * (r + 2 * v) / (v + r) ^ 2 + w := by field_simp; ring
  have h0 : 0 < v * r * (r + 2 * v) / (v + r) ^ 2 := by positivity
  rw [e]
  refine ⟨by linarith, ?_⟩
  have h1 : 1 / (v * r * (r + 2 * v) / (v + r) ^ 2 + w) ^ 2 ≤ 1 / (v * r * (r + 2 * v) / (v + r) ^ 2) ^ 2 :=
    one_div_le_one_div_of_le (by positivity) (pow_le_pow_left₀ h0.le (by linarith) 2)
  refine h1.trans ?_
  rw [div_pow, one_div_div, div_add_div _ _ (by positivity) (by positivity), div_le_div_iff₀ (by positivity) (by positivity)]
  have h2 : ((v + r) ^ 2) ^ 2 ≤ (r ^ 2 + 2 * v ^ 2) * (r + 2 * v) ^ 2 := by
    nlinarith [mul_pos (pow_pos hv 3) hr, pow_pos hv 4]
  have h3 : 0 < v ^ 2 * r ^ 2 := by positivity
  calc ((v + r) ^ 2) ^ 2 * (v ^ 2 * r ^ 2) ≤ (r ^ 2 + 2 * v ^ 2) * (r + 2 * v) ^ 2 * (v ^ 2 * r ^ 2) :=
        mul_le_mul_of_nonneg_right h2 h3.le
    _ = (1 * r ^ 2 + v ^ 2 * 2) * (v * r * (r + 2 * v)) ^ 2 := by ring

section
variable {p : FilterPar} {llt : Llt} {k : UkfConst} {alpha kappa beta : ℝ} {Q : Mat15} {f : Filt (ukfCore p llt k)} {x0 : State}
  {m : Meas (ukfCore p llt k)} {d : Reading} {ms : List (Meas (ukfCore p llt k))} {ds : List Reading} {x : State}

/-- C141 does not hold: after a first reading and n further readings of a rate or acceleration, all of variance r, at whatever times,
the variance is at least r / √(2n + 1); the right one for readings of one time is r / (n + 1) (C128). -/
theorem C141_root (hk : setConstants alpha kappa beta = some k) (hpos : 0 < 15 + k.lam) (hQ : ∀ i, 0 ≤ Q i i)
    (ha : HeldApart Q) (h : UkfUnheard Q f x0) (hm : UkfReads m d) (hms : List.Forall₂ UkfReads ms ds)
    (hdef : StaysDefinite (f.processMeasurement m) ms) (hlate : ∀ c ∈ ds.head?, d.time < c.time)
    (hx : ((m :: ms).foldl Filt.processMeasurement f).x = some x) (hi : Held d.of) {r : ℝ} (hr : ∀ c ∈ d :: ds, c.of = d.of → c.r = r) :
    r / sqrt (2 * (ds.filter fun c => decide (c.of = d.of)).length + 1) ≤
      (show Mat15 from ((m :: ms).foldl Filt.processMeasurement f).cov) d.of d.of := by
  obtain ⟨-, e⟩ := C134_bank_partial hk hpos ha h hm hms hdef hlate hx d.of hi
  have hp := forall2_ukf_pos hms
  have hd := hm.pos
  have hdr : d.r = r := hr d List.mem_cons_self rfl
  have hr0 : 0 < r := hdr ▸ hd
  rw [e]
  clear e hx hdef hlate hms
  have key : 0 < ((heardBank Q f x0 d ds).of d.of).var ∧
      1 / ((heardBank Q f x0 d ds).of d.of).var ^ 2 ≤ (2 * (ds.filter fun c => decide (c.of = d.of)).length + 1) / r ^ 2 := by
    induction ds using List.reverseRecOn with
    | nil =>
      have : ((heardBank Q f x0 d []).of d.of).var = r := by
        show (if d.of = d.of then (⟨d.z, d.r⟩ : Gauge) else _).var = r
        rw [if_pos rfl]
        exact hdr
      rw [this]
      exact ⟨hr0, by simp⟩
    | append_singleton ds c ih =>
      obtain ⟨ih1, ih2⟩ := ih (fun c' h' => hr c' (by
        rcases List.mem_cons.1 h' with h' | h'
        · exact h' ▸ List.mem_cons_self
        · exact List.mem_cons_of_mem _ (List.mem_append_left _ h'))) (fun c h => hp c (List.mem_append_left _ h))
      have hn := toSec_nonneg (le_max_left 0 (c.time - (heardBank Q f x0 d ds).time))
      have hw := mul_nonneg hn (hQ d.of)
      rw [heardBank_snoc, List.filter_append]
      have ev : (((heardBank Q f x0 d ds).hear (fun i => Q i i) c).of d.of) = (if d.of = c.of then ((heardBank Q f x0 d ds).of d.of).heard c.z c.r
          (toSec (max 0 (c.time - (heardBank Q f x0 d ds).time)) * Q d.of d.of) else
          ((heardBank Q f x0 d ds).of d.of).later (Q d.of d.of) (toSec (max 0 (c.time - (heardBank Q f x0 d ds).time)))) := rfl
      rw [ev]
      by_cases hc : d.of = c.of
      · have hcr : c.r = r := hr c (by simp) hc.symm
        rw [if_pos hc, hcr]
        obtain ⟨k1, k2⟩ := heard_slow ih1 hr0 hw
        refine ⟨k1, k2.trans ?_⟩
        rw [List.length_append]
        have : (List.filter (fun c => decide (c.of = d.of)) [c]).length = 1 := by simp [hc.symm]
        rw [this]
        push_cast
        calc 1 / ((heardBank Q f x0 d ds).of d.of).var ^ 2 + 2 / r ^ 2 ≤
              (2 * (ds.filter fun c => decide (c.of = d.of)).length + 1) / r ^ 2 + 2 / r ^ 2 := by linarith
          _ = _ := by ring
      · rw [if_neg hc]
        have : (List.filter (fun c => decide (c.of = d.of)) [c]) = [] := by simp [Ne.symm hc]
        rw [this, List.append_nil]
        show 0 < ((heardBank Q f x0 d ds).of d.of).var + _ * _ ∧ 1 / (((heardBank Q f x0 d ds).of d.of).var + _ * _) ^ 2 ≤ _
        refine ⟨by linarith, le_trans ?_ ih2⟩
        exact one_div_le_one_div_of_le (by positivity) (pow_le_pow_left₀ ih1.le (by linarith) 2)
  obtain ⟨k1, k2⟩ := key
  generalize ((heardBank Q f x0 d ds).of d.of).var = v at k1 k2
  have hN : (0 : ℝ) < 2 * (ds.filter fun c => decide (c.of = d.of)).length + 1 := by positivity
  generalize 2 * ((ds.filter fun c => decide (c.of = d.of)).length : ℝ) + 1 = N at k2 hN
  rw [div_le_iff₀ (sqrt_pos.2 hN)]
  rw [div_le_div_iff₀ (by positivity) (by positivity)] at k2
  have : r ^ 2 ≤ (v * sqrt N) ^ 2 := by
    rw [mul_pow, sq_sqrt hN.le]
    linarith
  exact (sq_le_sq₀ hr0.le (by positivity)).1 this

end

/-- Three readings of a yaw rate, at whatever values the last one has. -/
example (llt : Llt) (z : ℝ) : ∃ k, setConstants 1 0 2 = some k ∧
    1e-3 / sqrt 5 ≤ (show Mat15 from ([yawRateMsg llt k 0 0, yawRateMsg llt k 1000000000 0, yawRateMsg llt k 2000000000 z].foldl
      Filt.processMeasurement (idleUkf llt k)).cov) iVyaw iVyaw := by
  obtain ⟨k, hk⟩ := Option.isSome_iff_exists.1 ((C16_constants_defined 1 0 2).2 ⟨by norm_num, by norm_num⟩)
  have hpos : 0 < 15 + k.lam := by rw [(setConstants_spec hk).2.1]; norm_num
  obtain ⟨⟨x, hx⟩, hdef⟩ := yawRate_run llt hk z
  have hQ : ∀ i, 0 ≤ milli i i := fun i => milli_posDef.posSemidef.diag_nonneg
  refine ⟨k, hk, ?_⟩
  have := C141_root hk hpos hQ milli_apart idleUkf_unheard (yawRateMsg_reads 0 0)
      (.cons (yawRateMsg_reads 1000000000 0) (.cons (yawRateMsg_reads 2000000000 z) .nil)) hdef (by simp) hx
      (by unfold Held; decide) (r := 1e-3) (by simp)
  simp only [decide_true, List.filter_cons_of_pos, List.filter_nil, List.length_cons, List.length_nil] at this
  norm_num at this ⊢
  exact this

end RL
