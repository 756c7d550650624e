import Verif.Proofs.Ukf
import Verif.Props.EkfCorrect
import Verif.Proofs.Motion
/-!
# The unscented filter: sigma points (C16), correction (C17), angular differences (C20), averages of angles (C62)
-/

namespace RL
open Matrix Real

/-! ## C16: the sigma points represent the estimate -/

theorem sum_sig (f : Sig → ℝ) : ∑ s, f s = f (.inl ()) + ∑ i : Fin 15, (f (.inr (.inl i)) + f (.inr (.inr i))) := by
  rw [Fintype.sum_sum_type, Fintype.sum_sum_type, Finset.sum_add_distrib]
  simp

/-- What `setConstants` leaves, when it does not divide by zero. -/
theorem setConstants_spec {alpha kappa beta : ℝ} {k : UkfConst} (h : setConstants alpha kappa beta = some k) :
    15 + k.lam ≠ 0 ∧ 15 + k.lam = alpha * alpha * (15 + kappa) ∧ k.w (.inl ()) = k.lam / (15 + k.lam) ∧
      (∀ i, k.w (.inr i) = 1 / (2 * (15 + k.lam))) ∧ (∀ i, k.c (.inr i) = 1 / (2 * (15 + k.lam))) ∧
      k.c (.inl ()) = k.lam / (15 + k.lam) + (1 - alpha * alpha + beta) := by
  unfold setConstants at h
  dsimp only at h
  split at h
  · cases h
  · rename_i h0
    cases h
    exact ⟨h0, by ring, rfl, fun i => rfl, fun i => rfl, rfl⟩

/-- C16.  The weights of the mean sum to one. -/
theorem C16_weights_sum_to_one {alpha kappa beta : ℝ} {k : UkfConst} (h : setConstants alpha kappa beta = some k) :
    ∑ s, k.w s = 1 := by
  obtain ⟨h0, -, h1, h2, -, -⟩ := setConstants_spec h
  rw [sum_sig, h1]
  simp only [h2, Finset.sum_const, Finset.card_univ, Fintype.card_fin, nsmul_eq_mul, Nat.cast_ofNat]
  field_simp
  ring

/-- C16.  `setConstants` divides by zero exactly for these parameters. -/
theorem C16_constants_defined (alpha kappa beta : ℝ) :
    (setConstants alpha kappa beta).isSome = true ↔ alpha ≠ 0 ∧ kappa ≠ -15 := by
  unfold setConstants
  dsimp only
  have e : 15 + (alpha * alpha * (15 + kappa) - 15) = alpha * alpha * (15 + kappa) := by ring
  rw [e]
  constructor
  · intro h
    split at h
    · cases h
    · rename_i h0
      constructor
      · rintro rfl; exact h0 (by ring)
      · rintro rfl; exact h0 (by ring)
  · rintro ⟨h1, h2⟩
    rw [if_neg]
    · rfl
    · intro h
      rcases mul_eq_zero.1 h with h | h
      · exact h1 (mul_self_eq_zero.1 h)
      · exact h2 (by linarith)

/-- C16.  The weighted mean of the sigma points is the state. -/
theorem C16_mean (llt : Llt) {alpha kappa beta : ℝ} {k : UkfConst} (h : setConstants alpha kappa beta = some k) (x : State)
    (P : Mat15) : ∑ s, k.w s • sigmaPoints llt k x P s = x := by
  obtain ⟨h0, -, h1, h2, -, -⟩ := setConstants_spec h
  funext r
  rw [Finset.sum_apply]
  simp only [Pi.smul_apply, smul_eq_mul]
  rw [sum_sig]
  simp only [sigmaPoints, Sum.elim_inl, Sum.elim_inr, Pi.add_apply, Pi.sub_apply, h1, h2]
  have : ∀ i : Fin 15, 1 / (2 * (15 + k.lam)) * (x r + llt.L ((15 + k.lam) • P) r i) +
      1 / (2 * (15 + k.lam)) * (x r - llt.L ((15 + k.lam) • P) r i) = x r / (15 + k.lam) := by
    intro i; field_simp; ring
  simp only [this, Finset.sum_const, Finset.card_univ, Fintype.card_fin, nsmul_eq_mul, Nat.cast_ofNat]
  field_simp
  ring

/-- The factor of the scaled covariance. -/
theorem llt_factor (llt : Llt) {a : ℝ} (ha : 0 < a) {P : Mat15} (hP : P.PosDef) :
    llt.L (a • P) * (llt.L (a • P))ᵀ = a • P :=
  llt.mul_transpose _ (hP.smul ha)

theorem llt_factor_apply (llt : Llt) {a : ℝ} (ha : 0 < a) {P : Mat15} (hP : P.PosDef) (r q : Fin 15) :
    ∑ i, llt.L (a • P) r i * llt.L (a • P) q i = a * P r q := by
  have := congrFun (congrFun (llt_factor llt ha hP) r) q
  rw [Matrix.mul_apply] at this
  simpa [transpose_apply] using this

/-- C16.  The weighted covariance of the sigma points is the covariance. -/
theorem C16_covariance (llt : Llt) {alpha kappa beta : ℝ} {k : UkfConst} (h : setConstants alpha kappa beta = some k)
    (hpos : 0 < 15 + k.lam) (x : State) (P : Mat15) (hP : P.PosDef) :
    ∑ s, k.c s • vecMulVec (sigmaPoints llt k x P s - x) (sigmaPoints llt k x P s - x) = P := by
  obtain ⟨h0, -, -, -, h2, -⟩ := setConstants_spec h
  ext r q
  rw [Matrix.sum_apply]
  simp only [Matrix.smul_apply, smul_eq_mul, vecMulVec_apply]
  rw [sum_sig]
  simp only [sigmaPoints, Sum.elim_inl, Sum.elim_inr, Pi.sub_apply, Pi.add_apply, h2, sub_self, mul_zero, zero_add]
  have : ∀ i : Fin 15, 1 / (2 * (15 + k.lam)) * ((x r + llt.L ((15 + k.lam) • P) r i - x r) *
      (x q + llt.L ((15 + k.lam) • P) q i - x q)) + 1 / (2 * (15 + k.lam)) * ((x r - llt.L ((15 + k.lam) • P) r i - x r) *
      (x q - llt.L ((15 + k.lam) • P) q i - x q)) =
      1 / (15 + k.lam) * (llt.L ((15 + k.lam) • P) r i * llt.L ((15 + k.lam) • P) q i) := by
    intro i; field_simp; ring
  simp only [this]
  rw [← Finset.mul_sum, llt_factor_apply llt hpos hP]
  field_simp

/-- The default parameters (ukf_node.cpp:45-47) are covered. -/
example : ∃ k, setConstants 0.001 0 2 = some k ∧ 0 < 15 + k.lam := by
  have := (C16_constants_defined 0.001 0 2).2 ⟨by norm_num, by norm_num⟩
  obtain ⟨k, hk⟩ := Option.isSome_iff_exists.1 this
  refine ⟨k, hk, ?_⟩
  rw [(setConstants_spec hk).2.1]
  norm_num

example : ((1e-9 : ℝ) • (1 : Mat15)).PosDef := PosDef.one.smul (by norm_num)

/-! ## C62: the average of angles -/

/-- Averaging angles placed symmetrically around `a`: the result is `a`, or the opposite direction, according to the sign
of the weighted mean cosine of the deviations. -/
theorem angleMean_symm (w : Sig → ℝ) (w0 w1 a : ℝ) (l : Fin 15 → ℝ) (h0 : w (.inl ()) = w0) (h1 : ∀ i, w (.inr i) = w1)
    (p : Sig → ℝ) (hp0 : p (.inl ()) = a) (hp1 : ∀ i, p (.inr (.inl i)) = a + l i) (hp2 : ∀ i, p (.inr (.inr i)) = a - l i) :
    angleMean w p = atan2 ((w0 + ∑ i, 2 * w1 * cos (l i)) * sin a) ((w0 + ∑ i, 2 * w1 * cos (l i)) * cos a) := by
  unfold angleMean
  congr 1
  · rw [sum_sig]
    simp only [h0, h1, hp0, hp1, hp2, sin_add, sin_sub]
    rw [add_mul, Finset.sum_mul]
    congr 1
    refine Finset.sum_congr rfl fun i _ => ?_
    ring
  · rw [sum_sig]
    simp only [h0, h1, hp0, hp1, hp2, cos_add, cos_sub]
    rw [add_mul, Finset.sum_mul]
    congr 1
    refine Finset.sum_congr rfl fun i _ => ?_
    ring

/-- The mean of an angle over fresh sigma points. -/
theorem angleMean_fresh (llt : Llt) {alpha kappa beta : ℝ} {k : UkfConst} (h : setConstants alpha kappa beta = some k)
    (x : State) (P : Mat15) (a : Fin 15) :
    let C := 1 - (∑ i, (1 - cos (llt.L ((15 + k.lam) • P) a i))) / (15 + k.lam)
    angleMean k.w (fun s => sigmaPoints llt k x P s a) = atan2 (C * sin (x a)) (C * cos (x a)) := by
  intro C
  obtain ⟨h0, -, h1, h2, -, -⟩ := setConstants_spec h
  rw [angleMean_symm k.w _ _ (x a) (fun i => llt.L ((15 + k.lam) • P) a i) h1 h2 _ rfl (fun i => rfl) (fun i => rfl)]
  have : k.lam / (15 + k.lam) + ∑ i, 2 * (1 / (2 * (15 + k.lam))) * cos (llt.L ((15 + k.lam) • P) a i) = C := by
    show _ = 1 - (∑ i, (1 - cos (llt.L ((15 + k.lam) • P) a i))) / (15 + k.lam)
    rw [Finset.sum_sub_distrib, ← Finset.mul_sum]
    simp only [Finset.sum_const, Finset.card_univ, Fintype.card_fin, nsmul_eq_mul, Nat.cast_ofNat]
    field_simp
    ring
  rw [this]

/-- C62, partial: as long as the variance of an angle is below 2, averaging its sigma points gives the angle back. -/
theorem C62_angle_mean_partial (llt : Llt) {alpha kappa beta : ℝ} {k : UkfConst} (h : setConstants alpha kappa beta = some k)
    (hpos : 0 < 15 + k.lam) (x : State) (P : Mat15) (hP : P.PosDef) (a : Fin 15) (hv : P a a < 2) :
    angleMean k.w (fun s => sigmaPoints llt k x P s a) = normalizeAngle (x a) := by
  rw [angleMean_fresh llt h]
  apply atan2_pos
  have h1 : ∑ i, (1 - cos (llt.L ((15 + k.lam) • P) a i)) ≤ (15 + k.lam) * P a a / 2 := by
    rw [← llt_factor_apply llt hpos hP a a, Finset.sum_div]
    refine Finset.sum_le_sum fun i _ => ?_
    have := Real.one_sub_sq_div_two_le_cos (x := llt.L ((15 + k.lam) • P) a i)
    nlinarith
  have h2 : (∑ i, (1 - cos (llt.L ((15 + k.lam) • P) a i))) / (15 + k.lam) ≤ P a a / 2 := by
    rw [div_le_iff₀ hpos]
    linarith
  linarith

/-- One minus the mean cosine, from below. -/
theorem one_sub_cos_ge {l b : ℝ} (hb : b ≤ 1) (h : l ^ 2 ≤ b) : l ^ 2 * (1 / 2 - 5 / 96 * b) ≤ 1 - cos l := by
  have h1 : |l| ≤ 1 := by
    rw [← sq_le_one_iff_abs_le_one]; linarith
  have h2 := Real.cos_bound h1
  have h3 : |l| ^ 4 = l ^ 2 * l ^ 2 := by
    rw [show (4 : ℕ) = 2 * 2 from rfl, pow_mul, sq_abs]; ring
  rw [h3] at h2
  have h4 := (abs_le.1 h2).2
  have h5 : l ^ 2 * l ^ 2 ≤ l ^ 2 * b := mul_le_mul_of_nonneg_left h (sq_nonneg l)
  linarith

/-- C62, refuted: once the variance of an angle exceeds 2 (by what is left over from the size of the sigma spread), its
average comes out in the opposite direction. -/
theorem C62_angle_mean_flips (llt : Llt) {alpha kappa beta : ℝ} {k : UkfConst} (h : setConstants alpha kappa beta = some k)
    (hpos : 0 < 15 + k.lam) (x : State) (P : Mat15) (hP : P.PosDef) (a : Fin 15) (hs : (15 + k.lam) * P a a ≤ 1)
    (hv : 2 < P a a * (1 - 5 / 48 * ((15 + k.lam) * P a a))) :
    angleMean k.w (fun s => sigmaPoints llt k x P s a) = normalizeAngle (x a + π) := by
  rw [angleMean_fresh llt h]
  apply atan2_neg
  have hl : ∀ i, llt.L ((15 + k.lam) • P) a i ^ 2 ≤ (15 + k.lam) * P a a := by
    intro i
    rw [← llt_factor_apply llt hpos hP a a]
    have := Finset.single_le_sum (f := fun i => llt.L ((15 + k.lam) • P) a i * llt.L ((15 + k.lam) • P) a i)
      (fun i _ => mul_self_nonneg _) (Finset.mem_univ i)
    simpa [pow_two] using this
  have h1 : (15 + k.lam) * P a a * (1 / 2 - 5 / 96 * ((15 + k.lam) * P a a)) ≤
      ∑ i, (1 - cos (llt.L ((15 + k.lam) • P) a i)) := by
    conv_lhs => rw [← llt_factor_apply llt hpos hP a a]
    rw [Finset.sum_mul, llt_factor_apply llt hpos hP a a]
    refine Finset.sum_le_sum fun i _ => ?_
    have := one_sub_cos_ge hs (hl i)
    rwa [pow_two] at this
  have h2 : P a a * (1 / 2 - 5 / 96 * ((15 + k.lam) * P a a)) ≤
      (∑ i, (1 - cos (llt.L ((15 + k.lam) • P) a i))) / (15 + k.lam) := by
    rw [le_div_iff₀ hpos]
    linarith
  linarith

/-- The default parameters and a variance of 3 rad². -/
example : ∃ k, setConstants 0.001 0 2 = some k ∧ 0 < 15 + k.lam ∧ ((3 : ℝ) • (1 : Mat15)).PosDef ∧
    (15 + k.lam) * ((3 : ℝ) • (1 : Mat15)) iYaw iYaw ≤ 1 ∧
    2 < ((3 : ℝ) • (1 : Mat15)) iYaw iYaw * (1 - 5 / 48 * ((15 + k.lam) * ((3 : ℝ) • (1 : Mat15)) iYaw iYaw)) := by
  have := (C16_constants_defined 0.001 0 2).2 ⟨by norm_num, by norm_num⟩
  obtain ⟨k, hk⟩ := Option.isSome_iff_exists.1 this
  refine ⟨k, hk, ?_, PosDef.one.smul (by norm_num), ?_, ?_⟩ <;> rw [(setConstants_spec hk).2.1] <;> simp <;> norm_num

/-- The factor of a diagonal matrix. -/
theorem llt_diagonal (llt : Llt) (d : Fin 15 → ℝ) (hd : ∀ i, 0 < d i) :
    llt.L (diagonal d) = diagonal (fun i => sqrt (d i)) := by
  have h := llt.eq_of (B := diagonal (fun i => sqrt (d i))) (fun i j hij => diagonal_apply_ne _ hij.ne)
    (fun i => by rw [diagonal_apply_eq]; exact sqrt_pos.2 (hd i))
  rw [diagonal_transpose, diagonal_mul_diagonal] at h
  have e : (fun i => sqrt (d i) * sqrt (d i)) = d := funext fun i => mul_self_sqrt (hd i).le
  rwa [e] at h

theorem project_yaw (dt : ℝ) (x : State) :
    projectPoint dt x 5 = x 5 + sin (x 3) * (1 / cos (x 4)) * dt * x 10 + cos (x 3) * (1 / cos (x 4)) * dt * x 11 := by
  show (transferF x dt).mulVec x 5 = _
  show ∑ j, transferF x dt 5 j * x j = _
  rw [transferF_row5, sum15]
  simp [trig]

/-- C62, refuted for a whole prediction: a robot standing at the origin, with independent errors and a heading variance
of 3 rad², is predicted to face backwards, for every step and every spread of the sigma points up to 1/3. -/
theorem C62_standstill_flips (p : FilterPar) (llt : Llt) {alpha kappa beta : ℝ} {k : UkfConst}
    (h : setConstants alpha kappa beta = some k) (hpos : 0 < 15 + k.lam) (hs : 15 + k.lam ≤ 1 / 3) (Q : Mat15)
    (ctl : Fin 6 → ℝ) (ct ref : Int) (dt : ℝ) (d : Fin 15 → ℝ) (hd : ∀ i, 0 < d i) (h4 : d 4 ≤ 1) (h5 : d 5 = 3) :
    ∃ x' P' mem', Ukf.predict p llt k Q ctl ct ref dt 0 (diagonal d) = some (x', P', mem') ∧ x' iYaw = π := by
  obtain ⟨h0, -, h1, h2, -, -⟩ := setConstants_spec h
  have hL : llt.L ((15 + k.lam) • diagonal d) = diagonal (fun i => sqrt ((15 + k.lam) * d i)) := by
    have : (15 + k.lam) • diagonal d = diagonal (fun i => (15 + k.lam) * d i) := by
      ext i j
      by_cases hij : i = j <;> simp [hij]
    rw [this, llt_diagonal _ _ (fun i => mul_pos hpos (hd i))]
  set L : Fin 15 → ℝ := fun i => sqrt ((15 + k.lam) * d i) with hLd
  have hpt0 : sigmaPoints llt k 0 (diagonal d) (.inl ()) = 0 := rfl
  have hpt1 : ∀ i, sigmaPoints llt k 0 (diagonal d) (.inr (.inl i)) = Pi.single i (L i) := by
    intro i
    funext r
    simp only [sigmaPoints, hL, Sum.elim_inr, Sum.elim_inl, zero_add]
    by_cases hr : r = i
    · subst hr; simp
    · simp [diagonal_apply_ne _ hr, Pi.single_eq_of_ne hr]
  have hpt2 : ∀ i, sigmaPoints llt k 0 (diagonal d) (.inr (.inr i)) = Pi.single i (-L i) := by
    intro i
    funext r
    simp only [sigmaPoints, hL, Sum.elim_inr, Pi.sub_apply, Pi.zero_apply, zero_sub]
    by_cases hr : r = i
    · subst hr; simp
    · simp [diagonal_apply_ne _ hr, Pi.single_eq_of_ne hr]
  have hL4 : L 4 < 1 := by
    rw [hLd]
    show sqrt _ < 1
    rw [sqrt_lt' one_pos]
    have := hd 4
    nlinarith
  have hL4' : 0 ≤ L 4 := sqrt_nonneg _
  have hcos : ¬ ∃ s, cos (sigmaPoints llt k 0 (diagonal d) s iPitch) = 0 := by
    have key : ∀ t : ℝ, -1 ≤ t → t ≤ 1 → cos t ≠ 0 := by
      intro t ht1 ht2
      have := pi_gt_three
      exact (cos_pos_of_mem_Ioo ⟨by linarith, by linarith⟩).ne'
    rintro ⟨s, hs⟩
    refine key _ ?_ ?_ hs
    · rcases s with u | i | i
      · show -1 ≤ (0 : ℝ); norm_num
      · rw [hpt1]
        by_cases hi : i = 4
        · subst hi; simp; linarith
        · rw [Pi.single_eq_of_ne (Ne.symm hi)]; norm_num
      · rw [hpt2]
        by_cases hi : i = 4
        · subst hi; simp; linarith
        · rw [Pi.single_eq_of_ne (Ne.symm hi)]; norm_num
    · rcases s with u | i | i
      · show (0 : ℝ) ≤ 1; norm_num
      · rw [hpt1]
        by_cases hi : i = 4
        · subst hi; simp; linarith
        · rw [Pi.single_eq_of_ne (Ne.symm hi)]; norm_num
      · rw [hpt2]
        by_cases hi : i = 4
        · subst hi; simp; linarith
        · rw [Pi.single_eq_of_ne (Ne.symm hi)]; norm_num
  -- the headings of the projected points
  let l : Fin 15 → ℝ := fun i => if i = 5 then L 5 else if i = 11 then dt * L 11 else 0
  have hyaw : ∀ (i : Fin 15) (v : ℝ), projectPoint dt (Pi.single i v) 5 = if i = 5 then v else if i = 11 then dt * v else 0 := by
    intro i v
    rw [project_yaw]
    fin_cases i <;> simp [Pi.single_apply]
  have hmean : angleMean k.w (fun s => projectPoint dt (sigmaPoints llt k 0 (diagonal d) s) 5) = π := by
    rw [angleMean_symm k.w _ _ 0 l h1 h2 _ (by
        rw [hpt0, project_yaw]; simp) (fun i => by
        rw [hpt1, hyaw, zero_add]
        show _ = if i = 5 then L 5 else if i = 11 then dt * L 11 else 0
        by_cases h5 : i = 5
        · subst h5; simp
        · by_cases h11 : i = 11
          · subst h11; simp
          · simp [h5, h11]) (fun i => by
        rw [hpt2, hyaw, zero_sub]
        show _ = -(if i = 5 then L 5 else if i = 11 then dt * L 11 else 0)
        by_cases h5 : i = 5
        · subst h5; simp
        · by_cases h11 : i = 11
          · subst h11; simp
          · simp [h5, h11])]
    rw [atan2_neg]
    · rw [zero_add]
      exact normalizeAngle_of_mem (by linarith [pi_pos]) le_rfl
    · have hsq : L 5 ^ 2 = (15 + k.lam) * 3 := by
        rw [hLd]
        show sqrt _ ^ 2 = _
        rw [sq_sqrt (mul_nonneg hpos.le (hd 5).le), h5]
      have hc := one_sub_cos_ge (l := L 5) (b := 1) le_rfl (by rw [hsq]; linarith)
      rw [hsq] at hc
      have hle : ∑ i, 2 * (1 / (2 * (15 + k.lam))) * cos (l i) ≤ (14 + cos (L 5)) / (15 + k.lam) := by
        rw [← Finset.mul_sum]
        have hsum : ∑ i, cos (l i) ≤ 14 + cos (L 5) := by
          rw [sum15]
          have e5 : l 5 = L 5 := rfl
          rw [e5]
          have := fun i => cos_le_one (l i)
          linarith [this 0, this 1, this 2, this 3, this 4, this 6, this 7, this 8, this 9, this 10, this 11, this 12, this 13,
            this 14]
        rw [show 2 * (1 / (2 * (15 + k.lam))) = 1 / (15 + k.lam) by field_simp, div_mul_eq_mul_div, one_mul]
        exact div_le_div_of_nonneg_right hsum hpos.le
      have e : k.lam / (15 + k.lam) + (14 + cos (L 5)) / (15 + k.lam) = 1 - (1 - cos (L 5)) / (15 + k.lam) := by
        field_simp; ring
      have h3 : 1 < (1 - cos (L 5)) / (15 + k.lam) := by
        rw [lt_div_iff₀ hpos]
        nlinarith
      linarith
  refine ⟨_, _, _, if_neg hcos, ?_⟩
  have : wrapStateAngles (ukfMean k fun s => projectPoint dt (sigmaPoints llt k 0 (diagonal d) s)) iYaw =
      normalizeAngle (angleMean k.w (fun s => projectPoint dt (sigmaPoints llt k 0 (diagonal d) s) 5)) := rfl
  rw [this, hmean]
  exact normalizeAngle_of_mem (by linarith [pi_pos]) le_rfl

end RL
