import Verif.Props.UkfCorrect
import Verif.Proofs.EkfCov
import Mathlib.Algebra.Order.Chebyshev
/-!
# C100: the covariance the unscented filter predicts
-/

namespace RL
open Matrix Real

/-! ## Variables that are not angles -/

/-- A weighted sum of squares over the sigma points, of a quantity whose weighted mean is zero. -/
theorem sum_squares_nonneg {alpha kappa beta : ℝ} {k : UkfConst} (h : setConstants alpha kappa beta = some k)
    (hpos : 0 < 15 + kappa) (hb : 0 ≤ beta + alpha * alpha * kappa / 15) (q : Sig → ℝ) (h0 : ∑ s, k.w s * q s = 0) :
    0 ≤ ∑ s, k.c s * (q s * q s) := by
  obtain ⟨hne, ha, w0, w1, c1, c0⟩ := setConstants_spec h
  set a := 15 + k.lam with had
  have hapos : 0 < a := by
    rw [ha] at hne ⊢
    exact lt_of_le_of_ne (mul_nonneg (mul_self_nonneg _) hpos.le) (Ne.symm hne)
  have hlam : k.lam = a - 15 := by rw [had]; ring
  -- deviations from the central point
  let y : Fin 15 ⊕ Fin 15 → ℝ := fun i => q (.inr i) - q (.inl ())
  have hq : ∀ i, q (.inr i) = y i + q (.inl ()) := fun i => by show _ = _ - _ + _; ring
  set q0 := q (.inl ()) with hq0
  have hcard : (∑ _i : Fin 15 ⊕ Fin 15, (1 : ℝ)) = 30 := by simp
  have hm : q0 = -(∑ i, y i) / (2 * a) := by
    rw [Fintype.sum_sum_type] at h0
    simp only [Finset.univ_unique, PUnit.default_eq_unit, Finset.sum_singleton, w0, w1, hq] at h0
    rw [← Finset.mul_sum, Finset.sum_add_distrib, Finset.sum_const, Finset.card_univ] at h0
    simp only [Fintype.card_sum, Fintype.card_fin, nsmul_eq_mul] at h0
    rw [hlam] at h0
    field_simp at h0 ⊢
    push_cast at h0
    linarith
  have hcs : (∑ i, y i) ^ 2 ≤ 30 * ∑ i, y i ^ 2 := by
    have := sq_sum_le_card_mul_sum_sq (s := (Finset.univ : Finset (Fin 15 ⊕ Fin 15))) (f := y)
    simpa using this
  rw [Fintype.sum_sum_type]
  simp only [Finset.univ_unique, PUnit.default_eq_unit, Finset.sum_singleton, c0, c1, hq]
  rw [← Finset.mul_sum]
  have e : ∑ i, (y i + q0) * (y i + q0) = ∑ i, y i ^ 2 + 2 * q0 * ∑ i, y i + 30 * q0 ^ 2 := by
    rw [Finset.mul_sum, ← hcard, Finset.sum_mul, ← Finset.sum_add_distrib, ← Finset.sum_add_distrib]
    exact Finset.sum_congr rfl fun i _ => by ring
  have hq0' : q (.inl PUnit.unit) = q0 := rfl
  rw [e, hq0', hm, hlam]
  set Y := ∑ i, y i ^ 2
  set m := ∑ i, y i
  have e2 : ((a - 15) / a + (1 - alpha * alpha + beta)) * (-m / (2 * a) * (-m / (2 * a))) +
      1 / (2 * a) * (Y + 2 * (-m / (2 * a)) * m + 30 * (-m / (2 * a)) ^ 2) =
      1 / (2 * a) * (Y - m ^ 2 / 30) + (m / (2 * a)) ^ 2 * (a / 15 - alpha * alpha + beta) := by
    field_simp; ring
  have e3 : a / 15 - alpha * alpha + beta = beta + alpha * alpha * kappa / 15 := by rw [ha]; ring
  rw [e2, e3]
  have : 0 ≤ Y - m ^ 2 / 30 := by linarith
  positivity

/-- C100, partial: whatever the state and the covariance before, the prediction of the unscented filter leaves a
covariance between the variables that are not angles, for every spread of the sigma points with `kappa`, `beta` not
negative (a little less is enough).  Missing: the angles, where it is false (`C100_negative_variance`). -/
theorem C100_other_variables_partial (p : FilterPar) (llt : Llt) {alpha kappa beta : ℝ} {k : UkfConst}
    (h : setConstants alpha kappa beta = some k) (hpos : 0 < 15 + kappa) (hb : 0 ≤ beta + alpha * alpha * kappa / 15)
    {Q : Mat15} (hQ : Q.PosSemidef) (hd : p.dynamic = true → NoCross Q) (ctl : Fin 6 → ℝ) (ct ref : Int) {dt : ℝ}
    (hdt : 0 ≤ dt) (x x' : State) (P P' : Mat15) (mem : UkfMem)
    (hp : Ukf.predict p llt k Q ctl ct ref dt x P = some (x', P', mem)) :
    (P'.submatrix (Subtype.val : {i // ¬ angular i} → Fin 15) Subtype.val).PosSemidef := by
  classical
  unfold Ukf.predict at hp
  dsimp only at hp
  split at hp
  · cases hp
  · simp only [Option.some.injEq, Prod.mk.injEq] at hp
    obtain ⟨-, rfl, -⟩ := hp
    set pts := fun s => projectPoint dt (sigmaPoints llt k x P s)
    set x1 := ukfMean k pts with hx1
    let D : Sig → {i // ¬ angular i} → ℝ := fun s i => pts s i - x1 i
    have hn := (noiseQ_psd (p := p) hQ hd x1).smul hdt
    rw [submatrix_add]
    refine PosSemidef.add ?_ (hn.submatrix _)
    have hsum : (ukfCovar k pts x1).submatrix (Subtype.val : {i // ¬ angular i} → Fin 15) Subtype.val =
        ∑ s, k.c s • vecMulVec (D s) (D s) := by
      ext i j
      unfold ukfCovar
      rw [submatrix_apply, Matrix.sum_apply, Matrix.sum_apply]
      refine Finset.sum_congr rfl fun s _ => ?_
      have hw : ∀ i : {i // ¬ angular i}, wrapDiff (pts s - x1) i = D s i := fun i => if_neg i.2
      simp only [Matrix.smul_apply, vecMulVec_apply, hw]
    rw [hsum]
    refine PosSemidef.of_dotProduct_mulVec_nonneg ?_ fun v => ?_
    · ext i j
      rw [conjTranspose_apply, Matrix.sum_apply, Matrix.sum_apply, star_trivial]
      refine Finset.sum_congr rfl fun s _ => ?_
      simp only [Matrix.smul_apply, vecMulVec_apply]
      rw [mul_comm (D s j)]
    · have e : star v ⬝ᵥ (∑ s, k.c s • vecMulVec (D s) (D s)) *ᵥ v =
          ∑ s, k.c s * ((∑ i, v i * D s i) * (∑ i, v i * D s i)) := by
        rw [Matrix.sum_mulVec, dotProduct_sum]
        refine Finset.sum_congr rfl fun s _ => ?_
        rw [smul_mulVec, dotProduct_smul, smul_eq_mul, vecMulVec_mulVec]
        congr 1
        simp only [dotProduct, star_trivial, MulOpposite.smul_eq_mul_unop, MulOpposite.unop_op, Pi.smul_apply]
        rw [Finset.sum_mul]
        refine Finset.sum_congr rfl fun i _ => ?_
        rw [← mul_assoc]
        congr 1
        exact Finset.sum_congr rfl fun j _ => mul_comm _ _
      rw [e]
      refine sum_squares_nonneg h hpos hb _ ?_
      simp only [Finset.mul_sum]
      rw [Finset.sum_comm]
      refine Finset.sum_eq_zero fun i _ => ?_
      have hmean : x1 i = ∑ s, k.w s * pts s i := if_neg i.2
      have hone := C16_weights_sum_to_one h
      have : ∑ s, k.w s * (v i * D s i) = v i * (∑ s, k.w s * pts s i - (∑ s, k.w s) * x1 i) := by
        rw [Finset.sum_mul, ← Finset.sum_sub_distrib, Finset.mul_sum]
        exact Finset.sum_congr rfl fun s _ => by show _ * (_ * (_ - _)) = _; ring
      rw [this, hone, hmean]
      ring

/-- The default parameters are covered. -/
example : ∃ k, setConstants 0.001 0 2 = some k ∧ (0 : ℝ) < 15 + 0 ∧ (0 : ℝ) ≤ 2 + 0.001 * 0.001 * 0 / 15 := by
  obtain ⟨k, hk⟩ := Option.isSome_iff_exists.1 ((C16_constants_defined 0.001 0 2).2 ⟨by norm_num, by norm_num⟩)
  exact ⟨k, hk, by norm_num, by norm_num⟩

/-! ## Angles -/

/-- How the heading of a sigma point that differs in variable `i` by `v` deviates after one second, when the robot turns
at the rate `c` and is otherwise at zero. -/
noncomputable def headingDev (c : ℝ) (i : Fin 15) (v : ℝ) : ℝ :=
  if i = 3 then c * (cos v - 1) else if i = 4 then c * (1 / cos v - 1) else if i = 5 then v else if i = 11 then v else 0

theorem project_heading (c : ℝ) (i : Fin 15) (v : ℝ) :
    projectPoint 1 (Pi.single 11 c + Pi.single i v) 5 = c + headingDev c i v := by
  rw [project_yaw]
  unfold headingDev
  fin_cases i <;> simp [Pi.single_apply] <;> ring

/-- A direction in the fourth quadrant, below the diagonal. -/
theorem atan2_fourth {y x : ℝ} (hx : 0 < x) (hy : x + y ≤ 0) : -(π / 2) < atan2 y x ∧ atan2 y x ≤ -(π / 4) := by
  have h1 : |Complex.arg ⟨x, y⟩| < π / 2 := by
    rw [Complex.abs_arg_lt_pi_div_two_iff]
    exact Or.inl hx
  obtain ⟨h2, h3⟩ := abs_lt.1 h1
  refine ⟨h2, ?_⟩
  by_contra hlt
  rw [not_le] at hlt
  unfold atan2 at hlt
  set t := Complex.arg ⟨x, y⟩ with ht
  have hz : (⟨x, y⟩ : ℂ) ≠ 0 := fun h => hx.ne' (congrArg Complex.re h)
  have hn : 0 < ‖(⟨x, y⟩ : ℂ)‖ := norm_pos_iff.2 hz
  have hc : cos t = x / ‖(⟨x, y⟩ : ℂ)‖ := Complex.cos_arg hz
  have hs : sin t = y / ‖(⟨x, y⟩ : ℂ)‖ := Complex.sin_arg _
  have hle : sin t + cos t ≤ 0 := by
    rw [hc, hs, ← add_div]
    exact div_nonpos_of_nonpos_of_nonneg (by linarith) hn.le
  have hpi := pi_pos
  have hpos : 0 < sin (t + π / 4) := sin_pos_of_pos_of_lt_pi (by linarith) (by linarith)
  rw [sin_add, cos_pi_div_four, sin_pi_div_four] at hpos
  have h2 : 0 < √2 / 2 := by positivity
  nlinarith

/-- The sums over the sigma points in `C100_negative_variance`, in terms of the four deviations. -/
theorem sum_dev (w : Sig → ℝ) (w0 w1 : ℝ) (h0 : w (.inl ()) = w0) (h1 : ∀ i, w (.inr i) = w1) (c : ℝ) (L : Fin 15 → ℝ)
    (y : Sig → ℝ) (hy0 : y (.inl ()) = 0) (hy1 : ∀ i, y (.inr (.inl i)) = headingDev c i (L i))
    (hy2 : ∀ i, y (.inr (.inr i)) = headingDev c i (-L i)) (f : ℝ → ℝ) :
    ∑ s, w s * f (y s) = w0 * f 0 + w1 * (2 * f (c * (cos (L 3) - 1)) + 2 * f (c * (1 / cos (L 4) - 1)) +
      f (L 5) + f (-L 5) + f (L 11) + f (-L 11) + 22 * f 0) := by
  rw [sum_sig]
  simp only [h0, h1, hy0, hy1, hy2]
  rw [sum15]
  simp [headingDev]
  ring

/-- The deviations for errors in roll and pitch. -/
theorem turn_bounds {a L3 L4 d4 : ℝ} (hav : a = 15 / 1000000) (h3 : L3 ^ 2 = a * 2) (h4 : L4 ^ 2 = a * d4)
    (hd4 : d4 ≤ 1 / 100) :
    -(6.3 * a) ≤ 2 * π * (cos L3 - 1) ∧ 2 * π * (cos L3 - 1) ≤ -(2 * π * (0.99 * a)) ∧
      0 ≤ 2 * π * (1 / cos L4 - 1) ∧ 2 * π * (1 / cos L4 - 1) ≤ 2 * π * (0.01 * a) := by
  have hpi1 := pi_gt_d2
  have hpi2 := pi_lt_d2
  have hpos : 0 < a := by rw [hav]; norm_num
  have hc4 : 1 - a / 200 ≤ cos L4 := by
    have := one_sub_sq_div_two_le_cos (x := L4)
    rw [h4] at this
    nlinarith
  have hc4p : 0 < cos L4 := by rw [hav] at hc4; linarith
  refine ⟨?_, ?_, ?_, ?_⟩
  · have := one_sub_sq_div_two_le_cos (x := L3)
    rw [h3] at this
    nlinarith
  · have := one_sub_cos_ge (l := L3) (b := 0.01) (by norm_num) (by rw [h3, hav]; norm_num)
    rw [h3] at this
    have : cos L3 - 1 ≤ -(0.99 * a) := by nlinarith
    nlinarith
  · have : 1 ≤ 1 / cos L4 := by rw [le_div_iff₀ hc4p, one_mul]; exact cos_le_one _
    exact mul_nonneg (by linarith) (by linarith)
  · have : 1 / cos L4 ≤ 1 + 0.01 * a := by
      rw [div_le_iff₀ hc4p]; rw [hav] at hc4 ⊢; nlinarith
    exact mul_le_mul_of_nonneg_left (by linarith) (by linarith)

/-- The mean direction. -/
theorem turn_mean {a A B L5 L11 d5 d11 : ℝ} (hav : a = 15 / 1000000) (hA1 : -(6.3 * a) ≤ A)
    (hA2 : A ≤ -(2 * π * (0.99 * a))) (hB1 : 0 ≤ B) (hB2 : B ≤ 2 * π * (0.01 * a)) (h5 : L5 ^ 2 = a * d5)
    (h11 : L11 ^ 2 = a * d11) (hd5 : d5 ≤ 1 / 100) (hd11 : d11 ≤ 1 / 100) :
    0 < 1 - 1 / a * ((1 - cos A) + (1 - cos B) + (1 - cos L5) + (1 - cos L11)) ∧
      1 - 1 / a * ((1 - cos A) + (1 - cos B) + (1 - cos L5) + (1 - cos L11)) + 1 / (2 * a) * (2 * sin A + 2 * sin B) ≤ 0 ∧
      A ^ 2 + B ^ 2 ≤ 1 / 100 * a := by
  have hpi1 := pi_gt_d2
  have hpi2 := pi_lt_d2
  have hpos : 0 < a := by rw [hav]; norm_num
  have hA0 : A ≤ 0 := by nlinarith
  have hB3 : B ≤ a := by nlinarith
  have hA3 : A ^ 2 ≤ 40 * a ^ 2 := by nlinarith
  have hB4 : B ^ 2 ≤ a ^ 2 := by nlinarith
  have hAB : A ^ 2 + B ^ 2 ≤ 1 / 100 * a := by
    have : 41 * a ^ 2 ≤ 1 / 100 * a := by rw [hav]; norm_num
    linarith
  refine ⟨?_, ?_, hAB⟩
  · rw [div_mul_eq_mul_div, one_mul, sub_pos, div_lt_one hpos]
    have e1 := one_sub_sq_div_two_le_cos (x := A)
    have e2 := one_sub_sq_div_two_le_cos (x := B)
    have e3 := one_sub_sq_div_two_le_cos (x := L5)
    have e4 := one_sub_sq_div_two_le_cos (x := L11)
    have e5 : a * d5 ≤ a * (1 / 100) := mul_le_mul_of_nonneg_left hd5 hpos.le
    have e6 : a * d11 ≤ a * (1 / 100) := mul_le_mul_of_nonneg_left hd11 hpos.le
    rw [h5] at e3
    rw [h11] at e4
    linarith
  · have hS : 1 / (2 * a) * (2 * sin A + 2 * sin B) ≤ -1 := by
      have h1 := mul_le_sin (x := -A) (by linarith) (by rw [hav] at hA1; linarith)
      have h1' : 2 / π * (2 * π * (0.99 * a)) ≤ 2 / π * (-A) := mul_le_mul_of_nonneg_left (by linarith) (by positivity)
      have h1'' : 2 / π * (2 * π * (0.99 * a)) = 3.96 * a := by field_simp; ring
      rw [sin_neg] at h1
      have h2 := sin_le hB1
      rw [div_mul_eq_mul_div, one_mul, div_le_iff₀ (by linarith)]
      linarith
    have := cos_le_one A; have := cos_le_one B; have := cos_le_one L5; have := cos_le_one L11
    have : 0 ≤ 1 / a * ((1 - cos A) + (1 - cos B) + (1 - cos L5) + (1 - cos L11)) :=
      mul_nonneg (by positivity) (by linarith)
    linarith

/-- The variance. -/
theorem turn_var {a A B d5 d11 t q : ℝ} (hav : a = 15 / 1000000) (hA2 : A ≤ -(2 * π * (0.99 * a)))
    (hB2 : B ≤ 2 * π * (0.01 * a)) (hAB : A ^ 2 + B ^ 2 ≤ 1 / 100 * a) (hd5 : d5 ≤ 1 / 100) (hd11 : d11 ≤ 1 / 100)
    (hq : q ≤ 1) (htl : π / 4 ≤ t) (htu : t < π / 2) :
    (4 - 1 / 1000000) * t ^ 2 + 1 / a * (2 * t * (A + B) + A ^ 2 + B ^ 2) + d5 + d11 + q < 0 := by
  have hpi1 := pi_gt_d2
  have hpos : 0 < a := by rw [hav]; norm_num
  have ht : 0 < t := by linarith
  have h0 : 1 / a * (2 * t * (A + B) + A ^ 2 + B ^ 2) ≤ -(3.9 * π * t) + 1 / 100 := by
    rw [div_mul_eq_mul_div, one_mul, div_le_iff₀ hpos]
    have h1 : A + B ≤ -(2 * π * (0.98 * a)) := by linarith
    have h2 : 2 * t * (A + B) ≤ 2 * t * -(2 * π * (0.98 * a)) := mul_le_mul_of_nonneg_left h1 (by linarith)
    have h3 : 0 < π * t * a := by positivity
    nlinarith
  have h1 : 4 * t ^ 2 ≤ 2 * π * t := by nlinarith
  have h2 : π / 4 * π ≤ t * π := mul_le_mul_of_nonneg_right htl pi_pos.le
  have h3 := sq_nonneg t
  nlinarith

/-- What the prediction makes of the headings. -/
theorem turn_negative {k : UkfConst} {a : ℝ} (hav : a = 15 / 1000000)
    (w0 : k.w (.inl ()) = (a - 15) / a) (w1 : ∀ i, k.w (.inr i) = 1 / (2 * a)) (c1 : ∀ i, k.c (.inr i) = 1 / (2 * a))
    (c0 : k.c (.inl ()) = (a - 15) / a + (1 - 0.001 * 0.001 + 2)) (d L : Fin 15 → ℝ) (hsq : ∀ i, L i ^ 2 = a * d i)
    (hLn : ∀ i, 0 ≤ L i) (hLs : ∀ i, d i ≤ 2 → L i ≤ 1 / 100) (h3 : d 3 = 2) (h4 : d 4 ≤ 1 / 100)
    (h5 : d 5 ≤ 1 / 100) (h11 : d 11 ≤ 1 / 100) (pts : Sig → State) (y : Sig → ℝ) (hyaw : ∀ s, pts s 5 = y s + 2 * π)
    (hy0 : y (.inl ()) = 0) (hy1 : ∀ i, y (.inr (.inl i)) = headingDev (2 * π) i (L i))
    (hy2 : ∀ i, y (.inr (.inr i)) = headingDev (2 * π) i (-L i)) (q : ℝ) (hq : q ≤ 1) :
    ukfCovar k pts (ukfMean k pts) 5 5 + q < 0 := by
  have hpos : 0 < a := by rw [hav]; norm_num
  have hpi1 := pi_gt_d2
  have hpi2 := pi_lt_d2
  -- the four deviations
  set A := 2 * π * (cos (L 3) - 1) with hA
  set B := 2 * π * (1 / cos (L 4) - 1) with hB
  obtain ⟨hA1, hA2, hB1, hB2⟩ := turn_bounds hav (by rw [hsq, h3]) (hsq 4) h4
  rw [← hA] at hA1 hA2
  rw [← hB] at hB1 hB2
  have hB3 : B ≤ a := by nlinarith
  obtain ⟨hC2, hCS, hAB⟩ := turn_mean hav hA1 hA2 hB1 hB2 (hsq 5) (hsq 11) h5 h11
  -- the mean heading
  have hsin : ∑ s, k.w s * sin (pts s 5) = 1 / (2 * a) * (2 * sin A + 2 * sin B) := by
    have : ∀ s, sin (pts s 5) = sin (y s) := fun s => by rw [hyaw, sin_add_two_pi]
    simp only [this]
    rw [sum_dev k.w _ _ w0 w1 (2 * π) L y hy0 hy1 hy2 sin]
    simp only [sin_zero, sin_neg]
    rw [← hA, ← hB]
    ring
  have hcosm : ∑ s, k.w s * cos (pts s 5) =
      1 - 1 / a * ((1 - cos A) + (1 - cos B) + (1 - cos (L 5)) + (1 - cos (L 11))) := by
    have : ∀ s, cos (pts s 5) = cos (y s) := fun s => by rw [hyaw, cos_add_two_pi]
    simp only [this]
    rw [sum_dev k.w _ _ w0 w1 (2 * π) L y hy0 hy1 hy2 cos]
    simp only [cos_zero, cos_neg]
    rw [← hA, ← hB]
    field_simp
    ring
  set S := ∑ s, k.w s * sin (pts s 5)
  set C := ∑ s, k.w s * cos (pts s 5)
  rw [← hcosm] at hC2 hCS
  rw [← hsin] at hCS
  have hmean : ukfMean k pts 5 = atan2 S C := rfl
  obtain ⟨ht1, ht2⟩ := atan2_fourth hC2 hCS
  obtain ⟨t, ht⟩ : ∃ t, t = -atan2 S C := ⟨_, rfl⟩
  have htl : π / 4 ≤ t := by linarith
  have htu : t < π / 2 := by linarith
  -- the differences
  have hysmall : ∀ s, -1 ≤ y s ∧ y s ≤ 1 := by
    have hdev : ∀ i v, (v = L i ∨ v = -L i) → -1 ≤ headingDev (2 * π) i v ∧ headingDev (2 * π) i v ≤ 1 := by
      intro i v hv
      have hcv : cos v = cos (L i) := by rcases hv with rfl | rfl <;> simp
      have hvl : i = 5 ∨ i = 11 → -1 ≤ v ∧ v ≤ 1 := by
        intro hi
        have : L i ≤ 1 / 100 := by
          rcases hi with rfl | rfl
          · exact hLs 5 (by linarith)
          · exact hLs 11 (by linarith)
        have := hLn i
        rcases hv with rfl | rfl <;> constructor <;> linarith
      unfold headingDev
      rw [hcv]
      split
      · rename_i hi; subst hi; rw [← hA]; rw [hav] at hA1; constructor
        · linarith
        · linarith [pi_pos, mul_pos pi_pos hpos]
      · split
        · rename_i hi; subst hi; rw [← hB]; rw [hav] at hB3; constructor <;> linarith
        · split
          · rename_i hi; exact hvl (Or.inl hi)
          · split
            · rename_i hi; exact hvl (Or.inr hi)
            · constructor <;> norm_num
    intro s
    rcases s with u | i | i
    · rw [hy0]; constructor <;> norm_num
    · rw [hy1]; exact hdev i _ (Or.inl rfl)
    · rw [hy2]; exact hdev i _ (Or.inr rfl)
  have hdiff : ∀ s, wrapDiff (pts s - ukfMean k pts) 5 = y s + t := by
    intro s
    have : wrapDiff (pts s - ukfMean k pts) 5 = normalizeAngle (pts s 5 - ukfMean k pts 5) := rfl
    rw [this, hyaw, hmean, show y s + 2 * π - atan2 S C = (y s + t) + (1 : ℤ) * (2 * π) by rw [ht]; push_cast; ring,
      normalizeAngle_add_two_pi]
    have := hysmall s
    exact normalizeAngle_of_mem (by linarith) (by linarith)
  have hvar : ukfCovar k pts (ukfMean k pts) 5 5 =
      (4 - 1 / 1000000) * t ^ 2 + 1 / a * (2 * t * (A + B) + A ^ 2 + B ^ 2) + d 5 + d 11 := by
    unfold ukfCovar
    rw [Matrix.sum_apply]
    simp only [Matrix.smul_apply, vecMulVec_apply, hdiff, smul_eq_mul]
    rw [sum_dev k.c _ _ c0 c1 (2 * π) L y hy0 hy1 hy2 (fun r => (r + t) * (r + t)), ← hA, ← hB]
    have e5 := hsq 5
    have e11 := hsq 11
    have e5' : d 5 = L 5 ^ 2 / a := by rw [e5]; field_simp
    have e11' : d 11 = L 11 ^ 2 / a := by rw [e11]; field_simp
    rw [e5', e11']
    field_simp
    ring
  rw [hvar]
  exact turn_var hav hA2 hB2 hAB h5 h11 hq htl htu

/-- The sigma points of independent errors. -/
theorem sigma_diag (llt : Llt) {k : UkfConst} {a : ℝ} (had : a = 15 + k.lam) (hpos : 0 < a) (d : Fin 15 → ℝ)
    (hd : ∀ i, 0 < d i) (x : State) :
    sigmaPoints llt k x (diagonal d) (.inl ()) = x + Pi.single 0 0 ∧
      (∀ i, sigmaPoints llt k x (diagonal d) (.inr (.inl i)) = x + Pi.single i (sqrt (a * d i))) ∧
      ∀ i, sigmaPoints llt k x (diagonal d) (.inr (.inr i)) = x + Pi.single i (-sqrt (a * d i)) := by
  have hL : llt.L ((15 + k.lam) • diagonal d) = diagonal (fun i => sqrt (a * d i)) := by
    have : (15 + k.lam) • diagonal d = diagonal (fun i => a * d i) := by
      rw [← had]
      ext i j
      by_cases hij : i = j <;> simp [hij]
    rw [this, llt_diagonal _ _ (fun i => mul_pos hpos (hd i))]
  refine ⟨?_, fun i => ?_, fun i => ?_⟩
  · rw [Pi.single_zero, add_zero]; rfl
  · funext r
    simp only [sigmaPoints, hL, Sum.elim_inr, Sum.elim_inl, Pi.add_apply]
    by_cases hr : r = i
    · subst hr; simp
    · simp [diagonal_apply_ne _ hr, Pi.single_eq_of_ne hr]
  · funext r
    simp only [sigmaPoints, hL, Sum.elim_inr, Pi.sub_apply, Pi.add_apply]
    by_cases hr : r = i
    · subst hr; simp; ring
    · simp [diagonal_apply_ne _ hr, Pi.single_eq_of_ne hr]

/-- No sigma point of small independent errors looks straight up or down. -/
theorem sigma_diag_pitch (llt : Llt) {k : UkfConst} {a : ℝ} (had : a = 15 + k.lam) (hpos : 0 < a) (d : Fin 15 → ℝ)
    (hd : ∀ i, 0 < d i) (h4 : sqrt (a * d 4) ≤ 1) (x : State) (hx : x iPitch = 0) :
    ¬ ∃ s, cos (sigmaPoints llt k x (diagonal d) s iPitch) = 0 := by
  obtain ⟨h0, h1, h2⟩ := sigma_diag llt had hpos d hd x
  have key : ∀ t : ℝ, -1 ≤ t → t ≤ 1 → cos t ≠ 0 := by
    intro t ht1 ht2
    have := pi_gt_three
    exact (cos_pos_of_mem_Ioo ⟨by linarith, by linarith⟩).ne'
  have hn := sqrt_nonneg (a * d 4)
  have hs : ∀ (i : Fin 15) (v : ℝ), (i = 4 → -1 ≤ v ∧ v ≤ 1) → -1 ≤ (x + Pi.single i v : State) iPitch ∧
      (x + Pi.single i v : State) iPitch ≤ 1 := by
    intro i v hv
    rw [Pi.add_apply, hx, zero_add]
    by_cases hi : i = iPitch
    · subst hi; rw [Pi.single_eq_same]; exact hv rfl
    · rw [Pi.single_eq_of_ne (Ne.symm hi)]; constructor <;> norm_num
  rintro ⟨s, h⟩
  rcases s with u | i | i
  · obtain ⟨q1, q2⟩ := hs 0 0 (fun _ => ⟨by norm_num, by norm_num⟩)
    exact key _ q1 q2 (by rw [← h0]; exact h)
  · obtain ⟨q1, q2⟩ := hs i (sqrt (a * d i)) (fun hi => by subst hi; constructor <;> linarith)
    exact key _ q1 q2 (by rw [← h1]; exact h)
  · obtain ⟨q1, q2⟩ := hs i (-sqrt (a * d i)) (fun hi => by subst hi; constructor <;> linarith)
    exact key _ q1 q2 (by rw [← h2]; exact h)

/-- C100, refuted for angles: with the default parameters, a robot turning once per second, whose roll is known to 1.4
rad and whose pitch, yaw and yaw rate to 0.1, has a negative heading variance after one second. -/
theorem C100_negative_variance (p : FilterPar) (hp : p.dynamic = false) (llt : Llt) (Q : Mat15) (hQ : Q 5 5 ≤ 1)
    (ctl : Fin 6 → ℝ) (ct ref : Int) (d : Fin 15 → ℝ) (hd : ∀ i, 0 < d i) (h3 : d 3 = 2) (h4 : d 4 ≤ 1 / 100)
    (h5 : d 5 ≤ 1 / 100) (h11 : d 11 ≤ 1 / 100) :
    ∃ k x' P' mem', setConstants 0.001 0 2 = some k ∧
      Ukf.predict p llt k Q ctl ct ref 1 (Pi.single iVyaw (2 * π)) (diagonal d) = some (x', P', mem') ∧ P' iYaw iYaw < 0 := by
  classical
  obtain ⟨k, hk⟩ := Option.isSome_iff_exists.1 ((C16_constants_defined 0.001 0 2).2 ⟨by norm_num, by norm_num⟩)
  refine ⟨k, ?_⟩
  obtain ⟨h0, ha, w0, w1, c1, c0⟩ := setConstants_spec hk
  obtain ⟨a, had⟩ : ∃ a, a = 15 + k.lam := ⟨_, rfl⟩
  have hav : a = 15 / 1000000 := by rw [had, ha]; norm_num
  have hlam : k.lam = a - 15 := by rw [had]; ring
  have hpos : 0 < a := by rw [hav]; norm_num
  obtain ⟨L, hL⟩ : ∃ L : Fin 15 → ℝ, L = fun i => sqrt (a * d i) := ⟨_, rfl⟩
  have hsq : ∀ i, L i ^ 2 = a * d i := fun i => by rw [hL]; exact sq_sqrt (mul_pos hpos (hd i)).le
  have hLn : ∀ i, 0 ≤ L i := fun i => by rw [hL]; exact sqrt_nonneg _
  have hLs : ∀ i, d i ≤ 2 → L i ≤ 1 / 100 := by
    intro i hi
    refine abs_le_of_sq_le_sq' ?_ (by norm_num) |>.2
    rw [hsq, hav]; linarith
  obtain ⟨x, hx⟩ : ∃ x : State, x = Pi.single 11 (2 * π) := ⟨_, rfl⟩
  obtain ⟨p0, p1, p2⟩ := sigma_diag llt had hpos d hd x
  have hcos := sigma_diag_pitch llt had hpos d hd (by
      have := hLs 4 (by linarith)
      rw [hL] at this
      exact this.trans (by norm_num)) x (by rw [hx]; exact Pi.single_eq_of_ne (by decide) _)
  obtain ⟨pts, hpts⟩ : ∃ pts, pts = fun s => projectPoint 1 (sigmaPoints llt k x (diagonal d) s) := ⟨_, rfl⟩
  have hlt := turn_negative hav (by rw [w0, ← had, hlam]) (by rw [had]; exact w1) (by rw [had]; exact c1)
    (by rw [c0, ← had, hlam]) d L hsq hLn hLs h3 h4 h5 h11 pts (fun s => pts s 5 - 2 * π) (fun s => by ring)
    (by rw [hpts]; dsimp only; rw [p0, hx, project_heading]; simp [headingDev])
    (fun i => by rw [hpts]; dsimp only; rw [p1, hx, project_heading, hL]; ring)
    (fun i => by rw [hpts]; dsimp only; rw [p2, hx, project_heading, hL]; ring) (Q 5 5) hQ
  have hpred : Ukf.predict p llt k Q ctl ct ref 1 x (diagonal d) =
      some (wrapStateAngles (ukfMean k pts), ukfCovar k pts (ukfMean k pts) + (1 : ℝ) • noiseQ p Q (ukfMean k pts),
        { pts := pts, uncorrected := true }) := by
    unfold Ukf.predict
    rw [hpts]
    exact if_neg hcos
  have hnoise : noiseQ p Q (ukfMean k pts) = Q := by unfold noiseQ; rw [hp]; rfl
  refine ⟨_, _, _, hk, by rw [← hpred, hx], ?_⟩
  rw [hnoise, one_smul, Matrix.add_apply]
  exact hlt

/-- Such errors exist, and the default process noise meets the bound. -/
example : (∃ d : Fin 15 → ℝ, (∀ i, 0 < d i) ∧ d 3 = 2 ∧ d 4 ≤ 1 / 100 ∧ d 5 ≤ 1 / 100 ∧ d 11 ≤ 1 / 100) ∧
    defaultQ 5 5 ≤ 1 := by
  refine ⟨⟨fun i => if i = 3 then 2 else 1 / 100, fun i => ?_, rfl, le_of_eq rfl, le_of_eq rfl, le_of_eq rfl⟩, ?_⟩
  · dsimp only; split <;> norm_num
  · unfold defaultQ; simp; norm_num

end RL
