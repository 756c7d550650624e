import Verif.Props.UkfPsd
import Verif.Props.UkfMemory
/-!
# C101: a heading that passes half a turn while it is predicted, in the unscented filter
-/

namespace RL
open Matrix Real

/-! ## What a correction makes of it -/

/-- The differences of a measured variable that is no angle have weighted mean zero. -/
theorem sum_c_diff {alpha kappa beta : ℝ} {k : UkfConst} (h : setConstants alpha kappa beta = some k) (pts : Sig → State)
    (i : Fin 15) (hi : ¬ angular i) :
    ∑ s, k.c s * (pts s i - ukfMean k pts i) = (1 - alpha * alpha + beta) * (pts (.inl ()) i - ukfMean k pts i) := by
  obtain ⟨-, -, w0, w1, c1, c0⟩ := setConstants_spec h
  have hm : ukfMean k pts i = ∑ s, k.w s * pts s i := if_neg hi
  have hone := C16_weights_sum_to_one h
  have hz : ∑ s, k.w s * (pts s i - ukfMean k pts i) = 0 := by
    have : ∑ s, k.w s * (pts s i - ukfMean k pts i) = ∑ s, k.w s * pts s i - (∑ s, k.w s) * ukfMean k pts i := by
      rw [Finset.sum_mul, ← Finset.sum_sub_distrib]
      exact Finset.sum_congr rfl fun s _ => by ring
    rw [this, hone, ← hm]; ring
  have hc : ∀ s, k.c s * (pts s i - ukfMean k pts i) = k.w s * (pts s i - ukfMean k pts i) +
      (if s = .inl () then (1 - alpha * alpha + beta) * (pts (.inl ()) i - ukfMean k pts i) else 0) := by
    intro s
    rcases s with u | j
    · have : k.c (.inl u) = k.w (.inl u) + (1 - alpha * alpha + beta) := by rw [show u = () from rfl, c0, w0]
      rw [this, if_pos rfl]; ring
    · rw [c1, w1, if_neg (by simp), add_zero]
  simp only [hc]
  rw [Finset.sum_add_distrib, hz, zero_add, Finset.sum_ite_eq' Finset.univ (Sum.inl ())]
  simp

/-- C101, exactly: when the sigma points of a prediction are `n` turns away from the wrapped prediction in some angle and
no angle is measured, the covariance of that angle and a measured variable is off by `n` turns times the distance of the
central point from the mean. -/
theorem C101_crossing {alpha kappa beta : ℝ} {k : UkfConst} (h : setConstants alpha kappa beta = some k) {m : ℕ}
    (e : Fin m → Fin 15) (he : ∀ j, ¬ angular (e j)) (pts : Sig → State) (r : Fin 15) (n : ℤ)
    (hn : ∀ s, pts s r - ukfMean k pts r = wrapDiff (pts s - ukfMean k pts) r + n * (2 * π)) (j : Fin m) :
    crossCovar e k pts (ukfMean k pts) r j = ukfCovar k pts (ukfMean k pts) r (e j) +
      n * (2 * π) * ((1 - alpha * alpha + beta) * (pts (.inl ()) (e j) - ukfMean k pts (e j))) := by
  have hsd : ∀ d : State, stateDiff e d = d := by
    intro d
    funext r
    unfold stateDiff
    split
    · exact if_neg (he _)
    · rfl
  have hmd : ∀ s, measDiff e (predictedMeas e k pts) (pts s) j = pts s (e j) - ukfMean k pts (e j) := fun s => if_neg (he j)
  have hwd : ∀ s, wrapDiff (pts s - ukfMean k pts) (e j) = pts s (e j) - ukfMean k pts (e j) := fun s => if_neg (he j)
  unfold crossCovar ukfCovar
  simp only [hsd]
  rw [Matrix.sum_apply, Matrix.sum_apply, ← sum_c_diff h pts (e j) (he j), Finset.mul_sum, ← Finset.sum_add_distrib]
  refine Finset.sum_congr rfl fun s _ => ?_
  simp only [Matrix.smul_apply, vecMulVec_apply, smul_eq_mul, hmd, hwd]
  rw [Pi.sub_apply, hn s]
  ring

/-- Velocities, rates and accelerations are predicted by a fixed linear map. -/
theorem project_upper (dt : ℝ) (i : Fin 15) (hi : 6 ≤ i.val) : ∃ c : Fin 15 → ℝ, ∀ x, projectPoint dt x i = ∑ j, c j * x j := by
  refine ⟨transferF 0 dt i, fun x => ?_⟩
  show ∑ j, transferF x dt i j * x j = _
  have : transferF x dt i = transferF 0 dt i := by
    fin_cases i <;> first | (exfalso; revert hi; decide) | skip
    · exact (transferF_row6 x dt).trans (transferF_row6 0 dt).symm
    · exact (transferF_row7 x dt).trans (transferF_row7 0 dt).symm
    · exact (transferF_row8 x dt).trans (transferF_row8 0 dt).symm
    · exact (transferF_row9 x dt).trans (transferF_row9 0 dt).symm
    · exact (transferF_row10 x dt).trans (transferF_row10 0 dt).symm
    · exact (transferF_row11 x dt).trans (transferF_row11 0 dt).symm
    · exact (transferF_row12 x dt).trans (transferF_row12 0 dt).symm
    · exact (transferF_row13 x dt).trans (transferF_row13 0 dt).symm
    · exact (transferF_row14 x dt).trans (transferF_row14 0 dt).symm
  rw [this]

/-- C101, partial: velocities, rates and accelerations are corrected the same way wherever the heading is.  Missing:
positions, for which it is false (`C101_position_turns_robot`). -/
theorem C101_velocities_partial (p : FilterPar) (llt : Llt) {alpha kappa beta : ℝ} {k : UkfConst}
    (h : setConstants alpha kappa beta = some k) (Q : Mat15) (ctl : Fin 6 → ℝ) (ct ref : Int) (dt : ℝ) (x x' : State)
    (P P' : Mat15) (mem : UkfMem) (hp : Ukf.predict p llt k Q ctl ct ref dt x P = some (x', P', mem)) {m : ℕ}
    (e : Fin m → Fin 15) (he : ∀ j, 6 ≤ (e j).val) (r : Fin 15) (n : ℤ)
    (hn : ∀ s, mem.pts s r - x' r = wrapDiff (mem.pts s - x') r + n * (2 * π)) (j : Fin m) :
    crossCovar e k mem.pts x' r j = (P' - dt • noiseQ p Q x') r (e j) := by
  classical
  have hea : ∀ j, ¬ angular (e j) := by
    intro j ha
    have := he j
    rcases ha with ha | ha | ha <;> rw [ha] at this <;> revert this <;> decide
  unfold Ukf.predict at hp
  dsimp only at hp
  split at hp
  · cases hp
  · simp only [Option.some.injEq, Prod.mk.injEq] at hp
    obtain ⟨rfl, rfl, rfl⟩ := hp
    rw [wrap_mean] at *
    dsimp only at hn ⊢
    rw [add_sub_cancel_right, C101_crossing h e hea _ r n hn j]
    obtain ⟨c, hc⟩ := project_upper dt (e j) (he j)
    have hcen : projectPoint dt (sigmaPoints llt k x P (.inl ())) (e j) =
        ukfMean k (fun s => projectPoint dt (sigmaPoints llt k x P s)) (e j) := by
      have hm : ukfMean k (fun s => projectPoint dt (sigmaPoints llt k x P s)) (e j) =
          ∑ s, k.w s * projectPoint dt (sigmaPoints llt k x P s) (e j) := if_neg (hea j)
      rw [hm]
      simp only [hc, Finset.mul_sum]
      rw [Finset.sum_comm]
      have hx := C16_mean llt h x P
      refine Finset.sum_congr rfl fun i _ => ?_
      have hi := congrFun hx i
      rw [Finset.sum_apply] at hi
      have h0 : sigmaPoints llt k x P (.inl ()) = x := rfl
      rw [h0, ← hi, Finset.mul_sum]
      exact Finset.sum_congr rfl fun s _ => by
        rw [Pi.smul_apply, smul_eq_mul]
        ring
    rw [hcen]
    ring

/-! ## A robot driving in the direction of negative x at 10 m/s, and turning slowly -/

/-- How x deviates after one second, for a sigma point that differs in variable `i` by `u`. -/
noncomputable def xDev (v : ℝ) (i : Fin 15) (u : ℝ) : ℝ :=
  if i = 0 then u else if i = 4 then v * (1 - cos u) else if i = 5 then v * (1 - cos u) else if i = 6 then -u
  else if i = 12 then -(u / 2) else 0

/-- Heading π, speed `v`, yaw rate `c`. -/
noncomputable def westward (v c : ℝ) : State := Pi.single 5 π + Pi.single 6 v + Pi.single 11 c

theorem westward_yaw (v c : ℝ) (i : Fin 15) (u : ℝ) :
    projectPoint 1 (westward v c + Pi.single i u) 5 = π + c + headingDev c i u := by
  rw [project_yaw]
  unfold headingDev westward
  fin_cases i <;> simp [Pi.single_apply] <;> ring

theorem westward_x (v c : ℝ) (i : Fin 15) (u : ℝ) :
    projectPoint 1 (westward v c + Pi.single i u) 0 = -v + xDev v i u := by
  rw [project_x]
  unfold xDev westward
  fin_cases i <;> simp [Pi.single_apply] <;> ring_nf
  rw [add_comm π u, cos_add_pi]
  ring

/-- Sums over the sigma points, for equal independent errors. -/
theorem sum_dev2 (w : Sig → ℝ) (w0 w1 : ℝ) (h0 : w (.inl ()) = w0) (h1 : ∀ i, w (.inr i) = w1) (c v l : ℝ)
    (y q : Sig → ℝ) (hy0 : y (.inl ()) = 0) (hy1 : ∀ i, y (.inr (.inl i)) = headingDev c i l)
    (hy2 : ∀ i, y (.inr (.inr i)) = headingDev c i (-l)) (hq0 : q (.inl ()) = 0)
    (hq1 : ∀ i, q (.inr (.inl i)) = xDev v i l) (hq2 : ∀ i, q (.inr (.inr i)) = xDev v i (-l)) (f : ℝ → ℝ → ℝ) :
    ∑ s, w s * f (y s) (q s) = w0 * f 0 0 + w1 * (2 * f 0 l + 2 * f 0 (-l) + 2 * f (c * (cos l - 1)) 0 +
      2 * f (c * (1 / cos l - 1)) (v * (1 - cos l)) + f l (v * (1 - cos l)) + f (-l) (v * (1 - cos l)) + f l 0 + f (-l) 0 +
      f 0 (-(l / 2)) + f 0 (l / 2) + 16 * f 0 0) := by
  rw [sum_sig]
  simp only [h0, h1, hy0, hy1, hy2, hq0, hq1, hq2]
  rw [sum15]
  simp [headingDev, xDev, neg_div]
  ring

/-- The mean of angles around `t`. -/
theorem angleMean_shift (w y : Sig → ℝ) (t : ℝ) (hC : 0 < ∑ s, w s * cos (y s)) :
    angleMean w (fun s => t + y s) = normalizeAngle (t + atan2 (∑ s, w s * sin (y s)) (∑ s, w s * cos (y s))) := by
  set S := ∑ s, w s * sin (y s) with hS
  set C := ∑ s, w s * cos (y s) with hCd
  have hz : (⟨C, S⟩ : ℂ) ≠ 0 := fun h => hC.ne' (congrArg Complex.re h)
  have hn : 0 < ‖(⟨C, S⟩ : ℂ)‖ := norm_pos_iff.2 hz
  set n := ‖(⟨C, S⟩ : ℂ)‖ with hnd
  have hc : n * cos (atan2 S C) = C := by
    have : cos (Complex.arg ⟨C, S⟩) = C / n := Complex.cos_arg hz
    unfold atan2; rw [this]; field_simp
  have hs : n * sin (atan2 S C) = S := by
    have : sin (Complex.arg ⟨C, S⟩) = S / n := Complex.sin_arg _
    unfold atan2; rw [this]; field_simp
  rw [← atan2_pos hn]
  unfold angleMean
  have e1 : ∑ s, w s * sin (t + y s) = n * sin (t + atan2 S C) := by
    rw [sin_add]
    have : n * (sin t * cos (atan2 S C) + cos t * sin (atan2 S C)) = sin t * C + cos t * S := by
      linear_combination sin t * hc + cos t * hs
    rw [this, hS, hCd, Finset.mul_sum, Finset.mul_sum, ← Finset.sum_add_distrib]
    exact Finset.sum_congr rfl fun s _ => by rw [sin_add]; ring
  have e2 : ∑ s, w s * cos (t + y s) = n * cos (t + atan2 S C) := by
    rw [cos_add]
    have : n * (cos t * cos (atan2 S C) - sin t * sin (atan2 S C)) = cos t * C - sin t * S := by
      linear_combination cos t * hc - sin t * hs
    rw [this, hS, hCd, Finset.mul_sum, Finset.mul_sum, ← Finset.sum_sub_distrib]
    exact Finset.sum_congr rfl fun s _ => by rw [cos_add]; ring
  rw [e1, e2]

/-- A direction close to zero. -/
theorem atan2_small {y x b : ℝ} (hx : 0 < x) (hy : |y| ≤ b * x) : |atan2 y x| ≤ π / 2 * b := by
  have h1 : |Complex.arg ⟨x, y⟩| < π / 2 := by
    rw [Complex.abs_arg_lt_pi_div_two_iff]
    exact Or.inl hx
  unfold atan2
  set t := Complex.arg ⟨x, y⟩ with ht
  have hz : (⟨x, y⟩ : ℂ) ≠ 0 := fun h => hx.ne' (congrArg Complex.re h)
  have hn : 0 < ‖(⟨x, y⟩ : ℂ)‖ := norm_pos_iff.2 hz
  have hs : sin t = y / ‖(⟨x, y⟩ : ℂ)‖ := Complex.sin_arg _
  have hxn : x ≤ ‖(⟨x, y⟩ : ℂ)‖ := (le_abs_self x).trans (Complex.abs_re_le_norm ⟨x, y⟩)
  have hb : 0 ≤ b := by
    by_contra hneg
    have : b * x < 0 := mul_neg_of_neg_of_pos (not_le.1 hneg) hx
    linarith [abs_nonneg y]
  have hsb : |sin t| ≤ b := by
    rw [hs, abs_div, abs_of_pos hn, div_le_iff₀ hn]
    exact hy.trans (mul_le_mul_of_nonneg_left hxn hb)
  have h2 := mul_le_sin (abs_nonneg t) h1.le
  have h3 : sin |t| ≤ |sin t| := by
    rcases le_total 0 t with h | h
    · rw [abs_of_nonneg h]; exact le_abs_self _
    · rw [abs_of_nonpos h, sin_neg]; exact neg_le_abs _
  have hpi := pi_pos
  have h4 : 2 / π * |t| ≤ b := h2.trans (h3.trans hsb)
  rw [div_mul_eq_mul_div, div_le_iff₀ hpi] at h4
  linarith

/-- The numbers for an error of 0.1 in every variable, the default spread, 10 m/s and 0.1 rad/s. -/
theorem west_numbers {a l : ℝ} (hav : a = 15 / 1000000) (hl : l ^ 2 = a * (1 / 100)) :
    (-(0.0005 * a) ≤ 1 / 10 * (cos l - 1) ∧ 1 / 10 * (cos l - 1) ≤ 0) ∧
      (0 ≤ 1 / 10 * (1 / cos l - 1) ∧ 1 / 10 * (1 / cos l - 1) ≤ 0.0006 * a) ∧
      0.0499 * a ≤ 10 * (1 - cos l) ∧ 10 * (1 - cos l) ≤ 0.05 * a := by
  have hpos : 0 < a := by rw [hav]; norm_num
  have h1 := one_sub_sq_div_two_le_cos (x := l)
  have h2 := one_sub_cos_ge (l := l) (b := 0.01) (by norm_num) (by rw [hl, hav]; norm_num)
  rw [hl] at h1 h2
  have h3 := cos_le_one l
  have h4 : 0 < cos l := by rw [hav] at h1; linarith
  refine ⟨⟨by linarith, by linarith⟩, ⟨?_, ?_⟩, by linarith, by linarith⟩
  · have : 1 ≤ 1 / cos l := by rw [le_div_iff₀ h4, one_mul]; exact h3
    linarith
  · have : 1 / cos l ≤ 1 + 0.006 * a := by
      rw [div_le_iff₀ h4]; rw [hav] at h1 ⊢; nlinarith
    linarith

/-- The resulting numbers. -/
theorem west_values {a A B E m t : ℝ} (hav : a = 15 / 1000000) (hpos : 0 < a) (hA1 : -(0.0005 * a) ≤ A) (hA2 : A ≤ 0)
    (hB1 : 0 ≤ B) (hB2 : B ≤ 0.0006 * a) (hE1 : 0.0499 * a ≤ E) (hE2 : E ≤ 0.05 * a) (hm : m = 2 * E / a)
    (hm1 : 0.0998 ≤ m) (hm2 : m ≤ 0.1) (ht1 : -(4 / 1000) ≤ t) (ht2 : t ≤ 4 / 1000) :
    (4 - 1 / 1000000) * t ^ 2 - 2 * t * ((A + B) / a) + (A ^ 2 + B ^ 2) / a + 2 * (1 / 100) ≤ 1 / 10 ∧
      1 / 25 ≤ (2 - 1 / 1000000) * m ^ 2 + 9 / 400 + 2 * E ^ 2 / a ∧
      (2 - 1 / 1000000) * m ^ 2 + 9 / 400 + 2 * E ^ 2 / a ≤ 9 / 200 ∧
      -(m * ((3 - 1 / 1000000) * (2 * π - t) + (A + B) / a)) + B * E / a ≤ -(9 / 5) := by
  have hpi1 := pi_gt_d2
  have hAB1 : -0.0005 ≤ (A + B) / a := by rw [le_div_iff₀ hpos]; linarith
  have hAB2 : (A + B) / a ≤ 0.0006 := by rw [div_le_iff₀ hpos]; linarith
  have h2 : (A ^ 2 + B ^ 2) / a ≤ 1 / 100 := by
    rw [div_le_iff₀ hpos]
    have e1 : A ^ 2 ≤ a ^ 2 := by nlinarith
    have e2 : B ^ 2 ≤ a ^ 2 := by nlinarith
    have e3 : 2 * a ^ 2 ≤ 1 / 100 * a := by rw [hav]; norm_num
    linarith
  have ht3 : t ^ 2 ≤ 1 / 1000 := by nlinarith
  have hE0 : 0 ≤ E := by linarith [mul_pos (show (0 : ℝ) < 0.0499 by norm_num) hpos]
  have h3 : 0 ≤ 2 * E ^ 2 / a := by positivity
  have h4 : 2 * E ^ 2 / a ≤ 1 / 1000 := by
    rw [div_le_iff₀ hpos]
    have e1 : E ^ 2 ≤ a ^ 2 := by nlinarith
    have e3 : 2 * a ^ 2 ≤ 1 / 1000 * a := by rw [hav]; norm_num
    linarith
  have h5 : B * E / a ≤ 1 / 1000 := by
    rw [div_le_iff₀ hpos]
    have e1 : B * E ≤ a * a := mul_le_mul (by linarith) (by linarith) hE0 hpos.le
    have e3 : a * a ≤ 1 / 1000 * a := by rw [hav]; norm_num
    linarith
  have hm3 : m ^ 2 ≤ 0.01 := by nlinarith
  have hm4 : 0.0998 ^ 2 ≤ m ^ 2 := by nlinarith
  refine ⟨?_, ?_, ?_, ?_⟩
  · have : -(2 * t * ((A + B) / a)) ≤ 1 / 1000 := by nlinarith
    nlinarith
  · norm_num at hm4; linarith
  · linarith
  · have e : 18.7 ≤ (3 - 1 / 1000000) * (2 * π - t) + (A + B) / a := by linarith
    have : 0.0998 * 18.7 ≤ m * ((3 - 1 / 1000000) * (2 * π - t) + (A + B) / a) :=
      mul_le_mul hm1 e (by norm_num) (by linarith)
    norm_num at this
    linarith

/-- The sums a correction by x uses. -/
theorem west_closing (c : Sig → ℝ) {a l : ℝ} (hpos : 0 < a) (hl : l ^ 2 = a * (1 / 100))
    (c0 : c (.inl ()) = (a - 15) / a + (1 - 0.001 * 0.001 + 2)) (c1 : ∀ i, c (.inr i) = 1 / (2 * a)) (y q : Sig → ℝ)
    (A B E m t : ℝ) (hm : m = 2 * E / a)
    (sum : ∀ f : ℝ → ℝ → ℝ, ∑ s, c s * f (y s) (q s) = ((a - 15) / a + (1 - 0.001 * 0.001 + 2)) * f 0 0 + 1 / (2 * a) *
      (2 * f 0 l + 2 * f 0 (-l) + 2 * f A 0 + 2 * f B E + f l E + f (-l) E + f l 0 + f (-l) 0 + f 0 (-(l / 2)) +
        f 0 (l / 2) + 16 * f 0 0)) (pts : Sig → State) (x : State) (hyaw : ∀ s, pts s 5 = (π + 1 / 10) + y s)
    (hx : ∀ s, pts s 0 = -10 + q s) (hx5 : x 5 = -π + 1 / 10 + t) (hx0 : x 0 = -10 + m)
    (hdiff : ∀ s, wrapDiff (pts s - x) 5 = y s - t) :
    (∑ s, c s • vecMulVec (wrapDiff (pts s - x)) (wrapDiff (pts s - x))) 5 5 =
        (4 - 1 / 1000000) * t ^ 2 - 2 * t * ((A + B) / a) + (A ^ 2 + B ^ 2) / a + 2 * (1 / 100) ∧
      ∑ s, c s * ((pts s 0 - x 0) * (pts s 0 - x 0)) = (2 - 1 / 1000000) * m ^ 2 + 9 / 400 + 2 * E ^ 2 / a ∧
      ∑ s, c s * ((pts s 5 - x 5) * (pts s 0 - x 0)) =
        -(m * ((3 - 1 / 1000000) * (2 * π - t) + (A + B) / a)) + B * E / a := by
  have hla : l ^ 2 / a = 1 / 100 := by rw [hl]; field_simp
  refine ⟨?_, ?_, ?_⟩
  · rw [Matrix.sum_apply]
    have : ∀ s, (c s • vecMulVec (wrapDiff (pts s - x)) (wrapDiff (pts s - x))) 5 5 = c s * ((y s - t) * (y s - t)) := by
      intro s; rw [Matrix.smul_apply, vecMulVec_apply, hdiff, smul_eq_mul]
    rw [Finset.sum_congr rfl fun s _ => this s, sum (fun h _ => (h - t) * (h - t)), ← hla]
    field_simp
    ring
  · have : ∀ s, c s * ((pts s 0 - x 0) * (pts s 0 - x 0)) = c s * ((q s - m) * (q s - m)) := by
      intro s; rw [hx, hx0]; ring
    rw [Finset.sum_congr rfl fun s _ => this s, sum (fun _ r => (r - m) * (r - m)),
      show (9 : ℝ) / 400 = 9 / 4 * (1 / 100) by norm_num, ← hla, hm]
    field_simp
    ring
  · have : ∀ s, c s * ((pts s 5 - x 5) * (pts s 0 - x 0)) = c s * ((2 * π + y s - t) * (q s - m)) := by
      intro s; rw [hx, hx0, hyaw, hx5]; ring
    rw [Finset.sum_congr rfl fun s _ => this s, sum (fun h r => (2 * π + h - t) * (r - m)), hm]
    field_simp
    ring

/-- The prediction and the sums a correction by x uses. -/
theorem west_sums {k : UkfConst} {a l : ℝ} (hav : a = 15 / 1000000) (hl : l ^ 2 = a * (1 / 100)) (hl0 : 0 ≤ l)
    (w0 : k.w (.inl ()) = (a - 15) / a) (w1 : ∀ i, k.w (.inr i) = 1 / (2 * a)) (c1 : ∀ i, k.c (.inr i) = 1 / (2 * a))
    (c0 : k.c (.inl ()) = (a - 15) / a + (1 - 0.001 * 0.001 + 2)) (pts : Sig → State) (y q : Sig → ℝ)
    (hyaw : ∀ s, pts s 5 = (π + 1 / 10) + y s) (hx : ∀ s, pts s 0 = -10 + q s)
    (hy0 : y (.inl ()) = 0) (hy1 : ∀ i, y (.inr (.inl i)) = headingDev (1 / 10) i l)
    (hy2 : ∀ i, y (.inr (.inr i)) = headingDev (1 / 10) i (-l)) (hq0 : q (.inl ()) = 0)
    (hq1 : ∀ i, q (.inr (.inl i)) = xDev 10 i l) (hq2 : ∀ i, q (.inr (.inr i)) = xDev 10 i (-l)) :
    ukfCovar k pts (ukfMean k pts) 5 5 ≤ 1 / 10 ∧
      ∃ b g, b = ∑ s, k.c s * ((pts s 0 - ukfMean k pts 0) * (pts s 0 - ukfMean k pts 0)) ∧
        g = ∑ s, k.c s * ((pts s 5 - ukfMean k pts 5) * (pts s 0 - ukfMean k pts 0)) ∧
        1 / 25 ≤ b ∧ b ≤ 9 / 200 ∧ g ≤ -(9 / 5) := by
  obtain ⟨⟨hA1, hA2⟩, ⟨hB1, hB2⟩, hE1, hE2⟩ := west_numbers hav hl
  have hpos : 0 < a := by rw [hav]; norm_num
  have hpi1 := pi_gt_d2
  have hpi2 := pi_lt_d2
  have sum := fun (w : Sig → ℝ) w0 w1 h0 h1 f => sum_dev2 w w0 w1 h0 h1 (1 / 10) 10 l y q hy0 hy1 hy2 hq0 hq1 hq2 f
  obtain ⟨A, hA⟩ : ∃ A, A = 1 / 10 * (cos l - 1) := ⟨_, rfl⟩
  obtain ⟨B, hB⟩ : ∃ B, B = 1 / 10 * (1 / cos l - 1) := ⟨_, rfl⟩
  obtain ⟨E, hE⟩ : ∃ E, E = 10 * (1 - cos l) := ⟨_, rfl⟩
  rw [← hA] at hA1 hA2
  rw [← hB] at hB1 hB2
  rw [← hE] at hE1 hE2
  -- the mean heading
  have hS : ∑ s, k.w s * sin (y s) = 1 / a * (sin A + sin B) := by
    rw [sum k.w _ _ w0 w1 (fun h _ => sin h), ← hA, ← hB]
    simp only [sin_zero, sin_neg]
    field_simp; ring
  have hC : ∑ s, k.w s * cos (y s) = 1 - 1 / a * ((1 - cos A) + (1 - cos B) + 2 * (1 - cos l)) := by
    rw [sum k.w _ _ w0 w1 (fun h _ => cos h), ← hA, ← hB]
    simp only [cos_zero, cos_neg]
    field_simp; ring
  have hC0 : 98 / 100 ≤ ∑ s, k.w s * cos (y s) := by
    have e1 := one_sub_sq_div_two_le_cos (x := A)
    have e2 := one_sub_sq_div_two_le_cos (x := B)
    have e3 := one_sub_sq_div_two_le_cos (x := l)
    rw [hl] at e3
    have e4 : A ^ 2 ≤ a ^ 2 := by nlinarith
    have e5 : B ^ 2 ≤ a ^ 2 := by nlinarith
    have e6 : a ^ 2 ≤ a / 1000 := by rw [hav]; norm_num
    have : 1 / a * ((1 - cos A) + (1 - cos B) + 2 * (1 - cos l)) ≤ 2 / 100 := by
      rw [div_mul_eq_mul_div, one_mul, div_le_iff₀ hpos]
      linarith
    rw [hC]; linarith
  have hS0 : |∑ s, k.w s * sin (y s)| ≤ 2 / 1000 * ∑ s, k.w s * cos (y s) := by
    have e1 : |sin A| ≤ 0.0005 * a := by
      refine (abs_sin_le_abs (x := A)).trans ?_
      rw [abs_le]; constructor <;> linarith
    have e2 : |sin B| ≤ 0.0006 * a := by
      refine (abs_sin_le_abs (x := B)).trans ?_
      rw [abs_le]; constructor <;> linarith
    have e3 := abs_add_le (sin A) (sin B)
    have e4 : |1 / a * (sin A + sin B)| ≤ 0.0011 := by
      rw [abs_mul, abs_of_pos (by positivity : 0 < 1 / a), div_mul_eq_mul_div, one_mul, div_le_iff₀ hpos]
      linarith
    rw [hS]
    linarith
  have hsmall := atan2_small (by linarith) hS0
  have hmean : ukfMean k pts 5 = normalizeAngle ((π + 1 / 10) +
      atan2 (∑ s, k.w s * sin (y s)) (∑ s, k.w s * cos (y s))) := by
    rw [← angleMean_shift k.w y (π + 1 / 10) (by linarith)]
    have : ukfMean k pts 5 = angleMean k.w (fun s => pts s 5) := rfl
    rw [this]
    congr 1
    funext s
    exact hyaw s
  obtain ⟨t, ht⟩ : ∃ t, t = atan2 (∑ s, k.w s * sin (y s)) (∑ s, k.w s * cos (y s)) := ⟨_, rfl⟩
  rw [← ht] at hsmall hmean
  have htb : |t| ≤ 4 / 1000 := by linarith
  obtain ⟨ht1, ht2⟩ := abs_le.1 htb
  have hmean5 : ukfMean k pts 5 = -π + 1 / 10 + t := by
    rw [hmean, show π + 1 / 10 + t = (-π + 1 / 10 + t) + (1 : ℤ) * (2 * π) by push_cast; ring, normalizeAngle_add_two_pi]
    exact normalizeAngle_of_mem (by linarith) (by linarith)
  -- the mean position
  obtain ⟨m, hm⟩ : ∃ m, m = 2 * E / a := ⟨_, rfl⟩
  have hm1 : 0.0998 ≤ m := by rw [hm, le_div_iff₀ hpos]; linarith
  have hm2 : m ≤ 0.1 := by rw [hm, div_le_iff₀ hpos]; linarith
  have hmean0 : ukfMean k pts 0 = -10 + m := by
    have h0 : ukfMean k pts 0 = ∑ s, k.w s * pts s 0 := if_neg (by decide)
    rw [h0]
    have h1 : ∑ s, k.w s * pts s 0 = ∑ s, k.w s * (-10 + q s) := Finset.sum_congr rfl fun s _ => by rw [hx]
    rw [h1, sum k.w _ _ w0 w1 (fun _ r => -10 + r), ← hE, hm]
    field_simp; ring
  -- the differences
  have hl1 : l ≤ 1 := by
    have : l ^ 2 ≤ 1 := by rw [hl, hav]; norm_num
    nlinarith
  have hysmall : ∀ s, -1 ≤ y s ∧ y s ≤ 1 := by
    have hdev : ∀ i v, (v = l ∨ v = -l) → -1 ≤ headingDev (1 / 10) i v ∧ headingDev (1 / 10) i v ≤ 1 := by
      intro i v hv
      have hcv : cos v = cos l := by rcases hv with rfl | rfl <;> simp
      have hvl : -1 ≤ v ∧ v ≤ 1 := by rcases hv with rfl | rfl <;> constructor <;> linarith
      unfold headingDev
      rw [hcv, ← hA, ← hB]
      rw [hav] at hA1 hB2
      split
      · constructor <;> linarith
      · split
        · constructor <;> linarith
        · split
          · exact hvl
          · split
            · exact hvl
            · constructor <;> norm_num
    intro s
    rcases s with u | i | i
    · rw [hy0]; constructor <;> norm_num
    · rw [hy1]; exact hdev i _ (Or.inl rfl)
    · rw [hy2]; exact hdev i _ (Or.inr rfl)
  have hdiff : ∀ s, wrapDiff (pts s - ukfMean k pts) 5 = y s - t := by
    intro s
    have : wrapDiff (pts s - ukfMean k pts) 5 = normalizeAngle (pts s 5 - ukfMean k pts 5) := rfl
    rw [this, hyaw, hmean5, show π + 1 / 10 + y s - (-π + 1 / 10 + t) = (y s - t) + (1 : ℤ) * (2 * π) by push_cast; ring,
      normalizeAngle_add_two_pi]
    have := hysmall s
    exact normalizeAngle_of_mem (by linarith) (by linarith)
  have hnum := west_values hav hpos hA1 hA2 hB1 hB2 hE1 hE2 hm hm1 hm2 ht1 ht2
  have hfin := west_closing k.c hpos hl c0 c1 y q A B E m t hm
    (fun f => by rw [sum k.c _ _ c0 c1 f, ← hA, ← hB, ← hE]) pts (ukfMean k pts) hyaw hx hmean5 hmean0 hdiff
  refine ⟨?_, _, _, rfl, rfl, ?_⟩
  · show (∑ s, k.c s • vecMulVec (wrapDiff (pts s - ukfMean k pts)) (wrapDiff (pts s - ukfMean k pts))) 5 5 ≤ _
    rw [hfin.1]
    exact hnum.1
  · rw [hfin.2.1, hfin.2.2]
    exact hnum.2

/-- A message that says `x = z`, with variance 1/100. -/
noncomputable def xIs (z : ℝ) : Payload := ⟨fun i => decide (i = 0), fun _ => .fin z, (1 / 100 : ℝ) • 1, .unlimited⟩

theorem xIs_indices (z : ℝ) : (xIs z).indices = [0] := by
  show (List.finRange 15).filter (fun i => decide (i = 0) && !false && !false) = [0]
  decide

/-- A correction by that message, on any sigma points. -/
theorem correct_xIs (llt : Llt) (k : UkfConst) (z : ℝ) (x : State) (P : Mat15) (pts : Sig → State) (a b c : ℝ)
    (ha : ∑ s, k.w s * pts s 0 = a) (hb : ∑ s, k.c s * ((pts s 0 - a) * (pts s 0 - a)) = b) (hb0 : 0 ≤ b) (r : Fin 15)
    (hc : ∑ s, k.c s * ((pts s r - x r) * (pts s 0 - a)) = c) :
    ∃ x' P' mem', Ukf.correct llt k (xIs z) x P { pts := pts, uncorrected := true } = some (x', P', mem') ∧
      (angular r → x' r = normalizeAngle (x r + c / (b + 1 / 100) * (z - a))) ∧
      P' r r = P r r - (c / (b + 1 / 100)) ^ 2 * b := by
  unfold Ukf.correct
  dsimp only
  rw [xIs_indices]
  have hr : UkfMem.refresh llt k { pts := pts, uncorrected := true } x P = pts := rfl
  rw [hr]
  have hget : ([0] : List (Fin 15)).get = fun _ => 0 := by
    funext i
    have hi : i.val = 0 := Nat.lt_one_iff.1 i.isLt
    rw [List.get_eq_getElem]
    simp [hi]
  rw [hget]
  have hna : ¬ angularIdx 0 := by decide
  have e1 : predictedMeas (fun _ : Fin 1 => (0 : Fin 15)) k pts = fun _ => a := by
    funext i
    unfold predictedMeas
    rw [if_neg hna, ha]
  have e2 : ∀ s, measDiff (fun _ : Fin 1 => (0 : Fin 15)) (fun _ => a) (pts s) = fun _ => pts s 0 - a := by
    intro s; funext i; unfold measDiff; rw [if_neg hna]
  have e3 : ∀ d : State, stateDiff (fun _ : Fin 1 => (0 : Fin 15)) d = d := by
    intro d; funext r; unfold stateDiff
    split
    · first | rfl | exact if_neg hna
    · rfl
  have e4 : measCovar (fun _ : Fin 1 => (0 : Fin 15)) k pts = fun _ _ => b := by
    unfold measCovar
    dsimp only
    rw [e1]
    simp only [e2]
    ext i j
    rw [Matrix.sum_apply, ← hb]
    rfl
  have e5 : crossCovar (fun _ : Fin 1 => (0 : Fin 15)) k pts x r 0 = c := by
    have : crossCovar (fun _ : Fin 1 => (0 : Fin 15)) k pts x =
        ∑ s, k.c s • vecMulVec (pts s - x) (fun _ : Fin 1 => pts s 0 - a) := by
      unfold crossCovar
      dsimp only
      rw [e1]
      simp only [e2, e3]
    rw [this, Matrix.sum_apply, ← hc]
    rfl
  have e6 : subR (fun _ : Fin 1 => (0 : Fin 15)) (xIs z).R = fun _ _ => 1 / 100 := by
    ext i j
    have : i = j := Subsingleton.elim _ _
    subst this
    rw [(C14_sanitised _ _ i i).1]
    simp [xIs]
    norm_num
  obtain ⟨S, hS⟩ : ∃ S : Matrix (Fin 1) (Fin 1) ℝ,
      S = measCovar (fun _ : Fin 1 => (0 : Fin 15)) k pts + subR (fun _ : Fin 1 => (0 : Fin 15)) (xIs z).R := ⟨_, rfl⟩
  have hS00 : S 0 0 = b + 1 / 100 := by rw [hS, e4, e6]; rfl
  have hdet : S.det ≠ 0 := by rw [det_fin_one, hS00]; positivity
  have hinv : S⁻¹ 0 0 = (b + 1 / 100)⁻¹ := by
    rw [Matrix.inv_def, Matrix.adjugate_fin_one, det_fin_one, hS00, Ring.inverse_eq_inv', Matrix.smul_apply, one_apply_eq,
      smul_eq_mul, mul_one]
  obtain ⟨K, hK⟩ : ∃ K, K = crossCovar (fun _ : Fin 1 => (0 : Fin 15)) k pts x * S⁻¹ := ⟨_, rfl⟩
  have hK0 : K r 0 = c / (b + 1 / 100) := by
    rw [hK, Matrix.mul_apply, Fin.sum_univ_one, e5, hinv]
    exact (div_eq_mul_inv _ _).symm
  have hu : ukfCorrectAt (fun _ : Fin 1 => (0 : Fin 15)) k pts (fun i => ((xIs z).z i).val) (xIs z).R (xIs z).thresh x P =
      some (wrapStateAngles (x + K.mulVec
        (ukfInnovation (fun _ : Fin 1 => (0 : Fin 15)) (fun i => ((xIs z).z i).val) (fun _ => a))),
        P - K * measCovar (fun _ : Fin 1 => (0 : Fin 15)) k pts * Kᵀ, true) := by
    unfold ukfCorrectAt
    dsimp only
    rw [← hS, ← hK, if_neg hdet, if_pos (show checkMahalanobis _ _ (xIs z).thresh from trivial), e1]
  refine ⟨_, _, _, congrArg _ hu, fun hang => ?_, ?_⟩
  · have hw : ∀ y : State, wrapStateAngles y r = normalizeAngle (y r) := fun y => if_pos hang
    dsimp only
    rw [hw, Pi.add_apply]
    congr 2
    show ∑ j : Fin 1, K r j * _ = _
    rw [Fin.sum_univ_one, hK0]
    unfold ukfInnovation
    rw [if_neg hna]
    rfl
  · dsimp only
    rw [Matrix.sub_apply, Matrix.mul_apply, Fin.sum_univ_one, Matrix.mul_apply, Fin.sum_univ_one, Matrix.transpose_apply, hK0,
      e4]
    ring

/-- C101, refuted for positions: with the default parameters, a robot driving at 10 m/s in the direction of negative x,
with a heading of half a turn and turning at 0.1 rad/s, every variable known to 0.1, is predicted for a second.  Then a
message about x alone, known to 0.1 m, turns the robot by more than 30 rad for every metre it differs from the
prediction, and leaves a negative heading variance. -/
theorem C101_position_turns_robot (p : FilterPar) (hp : p.dynamic = false) (llt : Llt) (Q : Mat15) (hQ : Q 5 5 ≤ 1)
    (ctl : Fin 6 → ℝ) (ct ref : Int) :
    ∃ k x1 P1 mem, setConstants 0.001 0 2 = some k ∧
      Ukf.predict p llt k Q ctl ct ref 1 (westward 10 (1 / 10)) (diagonal fun _ => 1 / 100) = some (x1, P1, mem) ∧
      ∃ g ≤ (-30 : ℝ), ∀ z, ∃ x2 P2 mem2, Ukf.correct llt k (xIs z) x1 P1 mem = some (x2, P2, mem2) ∧
        x2 iYaw = normalizeAngle (x1 iYaw + g * (z - x1 iX)) ∧ P2 iYaw iYaw < 0 := by
  classical
  obtain ⟨k, hk⟩ := Option.isSome_iff_exists.1 ((C16_constants_defined 0.001 0 2).2 ⟨by norm_num, by norm_num⟩)
  refine ⟨k, ?_⟩
  obtain ⟨h0, ha, w0, w1, c1, c0⟩ := setConstants_spec hk
  obtain ⟨a, had⟩ : ∃ a, a = 15 + k.lam := ⟨_, rfl⟩
  have hav : a = 15 / 1000000 := by rw [had, ha]; norm_num
  have hlam : k.lam = a - 15 := by rw [had]; ring
  have hpos : 0 < a := by rw [hav]; norm_num
  obtain ⟨l, hl⟩ : ∃ l : ℝ, l = sqrt (a * (1 / 100)) := ⟨_, rfl⟩
  have hsq : l ^ 2 = a * (1 / 100) := by rw [hl]; exact sq_sqrt (by positivity)
  have hln : 0 ≤ l := by rw [hl]; exact sqrt_nonneg _
  have hl1 : l ≤ 1 := by
    refine abs_le_of_sq_le_sq' ?_ (by norm_num) |>.2
    rw [hsq, hav]; norm_num
  obtain ⟨x, hx⟩ : ∃ x : State, x = westward 10 (1 / 10) := ⟨_, rfl⟩
  obtain ⟨p0, p1, p2⟩ := sigma_diag llt had hpos (fun _ => 1 / 100) (fun _ => by norm_num) x
  have hcos := sigma_diag_pitch llt had hpos (fun _ => 1 / 100) (fun _ => by norm_num) (by rw [← hl]; exact hl1) x
    (by rw [hx]; simp [westward, Pi.single_apply, iPitch])
  obtain ⟨pts, hpts⟩ : ∃ pts, pts = fun s => projectPoint 1 (sigmaPoints llt k x (diagonal fun _ => 1 / 100) s) := ⟨_, rfl⟩
  rw [← hl] at p1 p2
  obtain ⟨hvar, b, g, hb, hg, hb1, hb2, hg1⟩ := west_sums hav hsq hln (by rw [w0, ← had, hlam]) (by rw [had]; exact w1)
    (by rw [had]; exact c1) (by rw [c0, ← had, hlam]) pts (fun s => pts s 5 - (π + 1 / 10)) (fun s => pts s 0 - -10)
    (fun s => by ring) (fun s => by ring)
    (by rw [hpts]; dsimp only; rw [p0, hx, westward_yaw]; simp [headingDev])
    (fun i => by rw [hpts]; dsimp only; rw [p1, hx, westward_yaw]; ring)
    (fun i => by rw [hpts]; dsimp only; rw [p2, hx, westward_yaw]; ring)
    (by rw [hpts]; dsimp only; rw [p0, hx, westward_x]; simp [xDev])
    (fun i => by rw [hpts]; dsimp only; rw [p1, hx, westward_x]; ring)
    (fun i => by rw [hpts]; dsimp only; rw [p2, hx, westward_x]; ring)
  have hpred : Ukf.predict p llt k Q ctl ct ref 1 x (diagonal fun _ => 1 / 100) =
      some (ukfMean k pts, ukfCovar k pts (ukfMean k pts) + (1 : ℝ) • noiseQ p Q (ukfMean k pts),
        { pts := pts, uncorrected := true }) := by
    unfold Ukf.predict
    rw [← wrap_mean, wrap_mean, hpts]
    exact (if_neg hcos).trans (by rw [wrap_mean])
  have hnoise : noiseQ p Q (ukfMean k pts) = Q := by unfold noiseQ; rw [hp]; rfl
  rw [hnoise, one_smul] at hpred
  have hmean0 : ∑ s, k.w s * pts s 0 = ukfMean k pts 0 := (if_neg (by decide)).symm
  obtain ⟨x1, hx1⟩ : ∃ x1, x1 = ukfMean k pts := ⟨_, rfl⟩
  rw [← hx1] at hpred hb hg hvar hmean0
  have hden : 0 < b + 1 / 100 := by linarith
  have hgain : g / (b + 1 / 100) ≤ -30 := by rw [div_le_iff₀ hden]; linarith
  refine ⟨_, _, _, hk, by rw [← hpred, hx], g / (b + 1 / 100), hgain, fun z => ?_⟩
  obtain ⟨x2, P2, mem2, e, hx2, hP2⟩ := correct_xIs llt k z x1 (ukfCovar k pts x1 + Q) pts (x1 0) b g hmean0 hb.symm
    (by linarith) 5 hg.symm
  refine ⟨x2, P2, mem2, e, hx2 (Or.inr (Or.inr rfl)), ?_⟩
  have h900 : 900 ≤ (g / (b + 1 / 100)) ^ 2 := by nlinarith
  have h36 : 900 * (1 / 25) ≤ (g / (b + 1 / 100)) ^ 2 * b := mul_le_mul h900 hb1 (by norm_num) (sq_nonneg _)
  show P2 5 5 < 0
  rw [hP2, Matrix.add_apply]
  linarith

/-- The default process noise meets the bound. -/
example : defaultQ 5 5 ≤ 1 := by unfold defaultQ; simp; norm_num

end RL
