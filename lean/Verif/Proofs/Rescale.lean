import Verif.Proofs.Turn
/-! # The same robot in other units of length, or in a mirror (helper lemmas for C107 and C108) -/

namespace RL
open Matrix

/-- The unitOf of each state variable when lengths are multiplied by `l` and left and right are exchanged
(`s = -1`) or not (`s = 1`): to the side, about the forward axis and about the vertical axis the sign changes. -/
def unitOf (l s : ℝ) : Fin 15 → ℝ
  | 0 => l
  | 1 => s * l
  | 2 => l
  | 3 => s
  | 4 => 1
  | 5 => s
  | 6 => l
  | 7 => s * l
  | 8 => l
  | 9 => s
  | 10 => 1
  | 11 => s
  | 12 => l
  | 13 => s * l
  | 14 => l

/-- A covariance in other units or in the mirror. -/
def rescaleCov (l s : ℝ) (P : Mat15) : Mat15 := .of fun i j => unitOf l s i * P i j * unitOf l s j

/-- The two states describe the same robot; mirrored angles count up to full turns. -/
def SameScaled (l s : ℝ) (x x' : State) : Prop :=
  ∃ k : Fin 15 → ℤ, (∀ i : Fin 15, ¬ (i = iRoll ∨ i = iPitch ∨ i = iYaw) → k i = 0) ∧ (s = 1 → k = 0) ∧
    x' = fun i => unitOf l s i * x i + k i * (2 * Real.pi)

variable {l s : ℝ}

theorem unitOf_ne_zero (hl : 0 < l) (hs : s = 1 ∨ s = -1) (i : Fin 15) : unitOf l s i ≠ 0 := by
  rcases hs with rfl | rfl <;> fin_cases i <;> simp [unitOf, hl.ne']

theorem unitOf_sq (hs : s = 1 ∨ s = -1) (i : Fin 15) : unitOf 1 s i * unitOf 1 s i = 1 := by
  rcases hs with rfl | rfl <;> fin_cases i <;> simp [unitOf]

theorem unitOf_angle (hs : s = 1 ∨ s = -1) {i : Fin 15} (hi : i = iRoll ∨ i = iPitch ∨ i = iYaw) :
    ∃ m : ℤ, unitOf l s i = m ∧ (m = 1 ∨ m = -1) ∧ (s = 1 → m = 1) := by
  rcases hs with rfl | rfl
  · refine ⟨1, ?_, Or.inl rfl, fun _ => rfl⟩
    rcases hi with rfl | rfl | rfl <;> simp [unitOf]
  · rcases hi with rfl | rfl | rfl
    · exact ⟨-1, by simp [unitOf], Or.inr rfl, fun h => by norm_num at h⟩
    · exact ⟨1, by simp [unitOf], Or.inl rfl, fun _ => rfl⟩
    · exact ⟨-1, by simp [unitOf], Or.inr rfl, fun h => by norm_num at h⟩

theorem SameScaled.flat {x x' : State} (h : SameScaled l s x x') {i : Fin 15}
    (hi : ¬ (i = iRoll ∨ i = iPitch ∨ i = iYaw)) : x' i = unitOf l s i * x i := by
  obtain ⟨k, hk, -, rfl⟩ := h
  simp [hk i hi]

theorem SameScaled.wrap (hs : s = 1 ∨ s = -1) {x x' : State} (h : SameScaled l s x x') :
    SameScaled l s (wrapStateAngles x) (wrapStateAngles x') := by
  obtain ⟨k, hk, hk1, hx'⟩ := h
  by_cases h1 : s = 1
  · have hk0 := hk1 h1
    refine ⟨0, fun _ _ => rfl, fun _ => rfl, ?_⟩
    funext i
    unfold wrapStateAngles
    by_cases hi : i = iRoll ∨ i = iPitch ∨ i = iYaw
    · obtain ⟨m, hm, -, hm1⟩ := unitOf_angle (l := l) hs hi
      have hx : x' i = unitOf l s i * x i + k i * (2 * Real.pi) := congrFun hx' i
      rw [if_pos hi, if_pos hi, hx, hk0, hm, hm1 h1]
      simp
    · have hx : x' i = unitOf l s i * x i + k i * (2 * Real.pi) := congrFun hx' i
      rw [if_neg hi, if_neg hi, hx, hk0]
  · have : ∀ i : Fin 15, ∃ j : ℤ, (¬ (i = iRoll ∨ i = iPitch ∨ i = iYaw) → j = 0) ∧
        wrapStateAngles x' i = unitOf l s i * wrapStateAngles x i + j * (2 * Real.pi) := by
      intro i
      have hx : x' i = unitOf l s i * x i + k i * (2 * Real.pi) := congrFun hx' i
      unfold wrapStateAngles
      by_cases hi : i = iRoll ∨ i = iPitch ∨ i = iYaw
      · obtain ⟨m, hm, -, -⟩ := unitOf_angle (l := l) hs hi
        obtain ⟨-, -, a, ha⟩ := normalizeAngle_spec (x i)
        obtain ⟨-, -, b, hb⟩ := normalizeAngle_spec (x' i)
        refine ⟨m * a + k i - b, fun h => absurd hi h, ?_⟩
        rw [if_pos hi, if_pos hi, hb, ha, hx, hm]
        push_cast
        ring
      · refine ⟨0, fun _ => rfl, ?_⟩
        rw [if_neg hi, if_neg hi, hx, hk i hi]
    choose j hj1 hj2 using this
    exact ⟨j, hj1, fun h => absurd h h1, funext hj2⟩

/-- The trigonometric values in the mirror. -/
noncomputable def Trig.mirror (s : ℝ) (t : Trig) : Trig := { t with sr := s * t.sr, sy := s * t.sy }

theorem trig_scaled (hs : s = 1 ∨ s = -1) {x x' : State} (h : SameScaled l s x x') : trig x' = (trig x).mirror s := by
  obtain ⟨k, -, -, rfl⟩ := h
  have hsin : ∀ (a : ℝ) (n : ℤ), Real.sin (s * a + n * (2 * Real.pi)) = s * Real.sin a := by
    intro a n
    rw [Real.sin_add_int_mul_two_pi]
    rcases hs with rfl | rfl
    · simp
    · simp [Real.sin_neg]
  have hcos : ∀ (a : ℝ) (n : ℤ), Real.cos (s * a + n * (2 * Real.pi)) = Real.cos a := by
    intro a n
    rw [Real.cos_add_int_mul_two_pi]
    rcases hs with rfl | rfl
    · simp
    · simp [Real.cos_neg]
  have hsin1 : ∀ (a : ℝ) (n : ℤ), Real.sin (1 * a + n * (2 * Real.pi)) = Real.sin a := by
    intro a n
    rw [Real.sin_add_int_mul_two_pi, one_mul]
  have hcos1 : ∀ (a : ℝ) (n : ℤ), Real.cos (1 * a + n * (2 * Real.pi)) = Real.cos a := by
    intro a n
    rw [Real.cos_add_int_mul_two_pi, one_mul]
  have e3 : unitOf l s 3 = s := rfl
  have e4 : unitOf l s 4 = 1 := rfl
  have e5 : unitOf l s 5 = s := rfl
  unfold trig Trig.mirror
  simp only [e3, e4, e5, hsin, hcos, hsin1, hcos1]

theorem fEntry_scaled (hs : s = 1 ∨ s = -1) (t : Trig) (dt : ℝ) (i j : Fin 15) :
    (∃ a a', fEntry t dt i j = some a ∧ fEntry (t.mirror s) dt i j = some a' ∧ a' * unitOf l s j = unitOf l s i * a) ∨
    (∀ t, fEntry t dt i j = none) := by
  rcases hs with rfl | rfl <;> fin_cases i <;> fin_cases j <;> first
    | exact Or.inr fun _ => rfl
    | (refine Or.inl ⟨_, _, rfl, rfl, ?_⟩; simp only [Trig.mirror, unitOf]; ring)

theorem transferF_scaled (hs : s = 1 ∨ s = -1) {x x' : State} (h : SameScaled l s x x') (dt : ℝ) (i j : Fin 15) :
    transferF x' dt i j * unitOf l s j = unitOf l s i * transferF x dt i j := by
  have hF : ∀ y : State, transferF y dt i j = (fEntry (trig y) dt i j).getD ((1 : Mat15) i j) := fun _ => rfl
  rw [hF, hF, trig_scaled hs h]
  rcases fEntry_scaled (l := l) hs (trig x) dt i j with ⟨a, a', h1, h2, h3⟩ | hn
  · rw [h1, h2]; exact h3
  · rw [hn, hn, Option.getD_none, Matrix.one_apply]
    split
    · rename_i hij; subst hij; ring
    · ring

theorem jEntry_scaled (hs : s = 1 ∨ s = -1) (t : Trig) (dt : ℝ) (x x' : State)
    (h : ∀ i : Fin 15, ¬ (i = iRoll ∨ i = iPitch ∨ i = iYaw) → x' i = unitOf l s i * x i) (i j : Fin 15) :
    (∃ a a', jEntry t dt x i j = some a ∧ jEntry (t.mirror s) dt x' i j = some a' ∧
      a' * unitOf l s j = unitOf l s i * a) ∨
    (∀ t x, jEntry t dt x i j = none) := by
  have h6 : x' iVx = l * x iVx := h 6 (by decide)
  have h7 : x' iVy = s * l * x iVy := h 7 (by decide)
  have h8 : x' iVz = l * x iVz := h 8 (by decide)
  have h10 : x' iVpitch = 1 * x iVpitch := h 10 (by decide)
  have h11 : x' iVyaw = s * x iVyaw := h 11 (by decide)
  have h12 : x' iAx = l * x iAx := h 12 (by decide)
  have h13 : x' iAy = s * l * x iAy := h 13 (by decide)
  have h14 : x' iAz = l * x iAz := h 14 (by decide)
  rcases hs with rfl | rfl <;> fin_cases i <;> fin_cases j <;> first
    | exact Or.inr fun _ _ => rfl
    | (refine Or.inl ⟨_, _, rfl, rfl, ?_⟩
       simp only [Trig.mirror, unitOf, h6, h7, h8, h10, h11, h12, h13, h14, one_mul, mul_one, neg_mul, mul_neg, neg_neg]
       try ring)

theorem transferJ_scaled (hs : s = 1 ∨ s = -1) {x x' : State} (h : SameScaled l s x x') (dt : ℝ) (i j : Fin 15) :
    transferJ x' dt i j * unitOf l s j = unitOf l s i * transferJ x dt i j := by
  have hJ : ∀ y : State, transferJ y dt i j = (jEntry (trig y) dt y i j).getD (transferF y dt i j) := fun _ => rfl
  rw [hJ, hJ, trig_scaled hs h]
  rcases jEntry_scaled (l := l) hs (trig x) dt x x' (fun i hi => h.flat hi) i j with ⟨a, a', h1, h2, h3⟩ | hn
  · rw [h1, h2]; exact h3
  · rw [hn, hn, Option.getD_none, Option.getD_none]
    exact transferF_scaled hs h dt i j

theorem rescaleCov_eq (P : Mat15) :
    rescaleCov l s P = diagonal (unitOf l s) * P * diagonal (unitOf l s) := by
  ext i j
  rw [Matrix.mul_diagonal, Matrix.diagonal_mul]
  rfl

theorem rescaleCov_add (P Q : Mat15) : rescaleCov l s (P + Q) = rescaleCov l s P + rescaleCov l s Q := by
  ext i j
  simp only [rescaleCov, Matrix.of_apply, Matrix.add_apply]
  ring

theorem rescaleCov_smul (r : ℝ) (P : Mat15) : rescaleCov l s (r • P) = r • rescaleCov l s P := by
  ext i j
  simp only [rescaleCov, Matrix.of_apply, Matrix.smul_apply, smul_eq_mul]
  ring

/-- What is asked of the parameters: in other units no control and no dynamic process noise; in the mirror no negative
limits. -/
def FilterPar.Fits (p : FilterPar) (l s : ℝ) : Prop :=
  (l = 1 ∨ p.useControl = false ∧ p.dynamic = false) ∧
  (s = 1 ∨ p.useControl = false ∨ ∀ c, 0 ≤ p.accLim c ∧ 0 ≤ p.decLim c)

theorem noiseQ_scaled {p : FilterPar} (hs : s = 1 ∨ s = -1) (hp : p.Fits l s) {x x' : State} (h : SameScaled l s x x')
    (Q : Mat15) : noiseQ p (rescaleCov l s Q) x' = rescaleCov l s (noiseQ p Q x) := by
  unfold noiseQ
  by_cases hd : p.dynamic = true
  · rw [if_pos hd, if_pos hd]
    have hl1 : l = 1 := by
      rcases hp.1 with h | h
      · exact h
      · rw [h.2] at hd; cases hd
    subst hl1
    have hv : ∀ c : Fin 6, x' (velIdx c) ^ 2 = x (velIdx c) ^ 2 := by
      intro c
      rw [h.flat (by fin_cases c <;> decide), mul_pow, pow_two (unitOf 1 s _), unitOf_sq hs, one_mul]
    unfold writeDyn
    ext i j
    simp only [hv, rescaleCov, Matrix.of_apply]
    split <;> ring
  · rw [if_neg hd, if_neg hd]

theorem clip_neg {a b : ℝ} (hb : 0 ≤ b) : min (max (-a) (-b)) b = -min (max a (-b)) b := by
  rcases le_total a (-b) with h | h
  · rw [max_eq_right h, min_eq_left (by linarith : -b ≤ b), max_eq_left (by linarith : -b ≤ -a),
      min_eq_right (by linarith : b ≤ -a), neg_neg]
  · rcases le_total a b with h' | h'
    · rw [max_eq_left h, min_eq_left h', max_eq_left (by linarith : -b ≤ -a), min_eq_left (by linarith : -a ≤ b)]
    · rw [max_eq_left h, min_eq_right h', max_eq_right (by linarith : -a ≤ -b), min_eq_left (by linarith : -b ≤ b)]

theorem computeControl_neg {a c al ag dl dg : ℝ} (hal : 0 ≤ al) (hdl : 0 ≤ dl) :
    computeControlAcceleration (-a) (-c) al ag dl dg = -computeControlAcceleration a c al ag dl dg := by
  have e1 : -c - -a = -(c - a) := by ring
  have e2 : ∀ p : Prop, ∀ (_ : Decidable p), |(if p then -c else 0 : ℝ)| = |(if p then c else 0 : ℝ)| := by
    intro p _
    split
    · exact abs_neg c
    · rfl
  unfold computeControlAcceleration
  dsimp only
  rw [e1, abs_neg, abs_neg, abs_neg, e2, mul_neg]
  have e3 : ∀ (p : Prop) (_ : Decidable p), 0 ≤ (if p then dl else al) := by
    intro p _
    split
    · exact hdl
    · exact hal
  exact clip_neg (e3 _ _)

theorem prepareControl_scaled {p : FilterPar} (hs : s = 1 ∨ s = -1) (hp : p.Fits l s) {x x' : State}
    (h : SameScaled l s x x') (ctl : Fin 6 → ℝ) (ct ref : Int) (c : Fin 6) :
    prepareControl p (fun c => unitOf l s (velIdx c) * ctl c) ct ref x' c =
      unitOf l s (velIdx c) * prepareControl p ctl ct ref x c := by
  unfold prepareControl
  by_cases hu : p.useControl = true
  · have hl1 : l = 1 := by
      rcases hp.1 with h | h
      · exact h
      · rw [h.1] at hu; cases hu
    subst hl1
    rw [if_pos hu, if_pos hu]
    dsimp only
    by_cases hc : p.ctlUpd c = true
    · rw [if_pos hc, if_pos hc, h.flat (by fin_cases c <;> decide)]
      have ef : unitOf 1 s (velIdx c) = 1 ∨ unitOf 1 s (velIdx c) = -1 := by
        rcases hs with rfl | rfl <;> fin_cases c <;> simp [unitOf, velIdx]
      rcases ef with ef | ef
      · rw [ef]; simp
      · have hlim : 0 ≤ p.accLim c ∧ 0 ≤ p.decLim c := by
          rcases hp.2 with rfl | h | h
          · exfalso
            revert ef
            fin_cases c <;> simp [unitOf, velIdx] <;> norm_num
          · rw [h] at hu; cases hu
          · exact h c
        rw [ef]
        have e0 : (if decide (ref - ct ≥ p.ctlTimeout) = true then (0 : ℝ) else -1 * ctl c) =
            -(if decide (ref - ct ≥ p.ctlTimeout) = true then (0 : ℝ) else ctl c) := by
          split <;> simp
        rw [e0, neg_one_mul, neg_one_mul]
        exact computeControl_neg hlim.1 hlim.2
    · rw [if_neg hc, if_neg hc, mul_zero]
  · rw [if_neg hu, if_neg hu, mul_zero]

theorem applyControl_scaled (p : FilterPar) {x x' : State} (h : SameScaled l s x x') (ca : Fin 6 → ℝ) (dt : ℝ) :
    SameScaled l s (applyControl p ca dt x) (applyControl p (fun c => unitOf l s (velIdx c) * ca c) dt x') := by
  obtain ⟨k, hk, hk1, rfl⟩ := h
  refine ⟨k, hk, hk1, ?_⟩
  have z9 := hk 9 (by decide)
  have z10 := hk 10 (by decide)
  have z11 := hk 11 (by decide)
  have z12 := hk 12 (by decide)
  have z13 := hk 13 (by decide)
  have z14 := hk 14 (by decide)
  funext i
  fin_cases i <;> try rfl
  · simp [applyControl, unitOf, velIdx, z9]; ring
  · simp [applyControl, unitOf, velIdx, z10]
  · simp [applyControl, unitOf, velIdx, z11]; ring
  · have e : ∀ (c : Fin 6 → ℝ) (y : State), applyControl p c dt y 12 = if p.ctlUpd 0 then c 0 else y 12 := fun _ _ => rfl
    show applyControl _ _ _ _ 12 = unitOf l s 12 * applyControl _ _ _ _ 12 + _
    rw [e, e]
    split <;> simp [unitOf, velIdx, z12]
  · have e : ∀ (c : Fin 6 → ℝ) (y : State), applyControl p c dt y 13 = if p.ctlUpd 1 then c 1 else y 13 := fun _ _ => rfl
    show applyControl _ _ _ _ 13 = unitOf l s 13 * applyControl _ _ _ _ 13 + _
    rw [e, e]
    split <;> simp [unitOf, velIdx, z13]
  · have e : ∀ (c : Fin 6 → ℝ) (y : State), applyControl p c dt y 14 = if p.ctlUpd 2 then c 2 else y 14 := fun _ _ => rfl
    show applyControl _ _ _ _ 14 = unitOf l s 14 * applyControl _ _ _ _ 14 + _
    rw [e, e]
    split <;> simp [unitOf, velIdx, z14]

/-- One prediction in other units or in the mirror. -/
theorem predict_scaled {p : FilterPar} (hs : s = 1 ∨ s = -1) (hp : p.Fits l s) {x x' : State}
    (h : SameScaled l s x x') (Q : Mat15) (ctl : Fin 6 → ℝ) (ct ref : Int) (dt : ℝ) (P : Mat15) :
    Option.Rel (fun r r' => SameScaled l s r.1 r'.1 ∧ r'.2 = rescaleCov l s r.2)
      (Ekf.predict p Q ctl ct ref dt x P)
      (Ekf.predict p (rescaleCov l s Q) (fun c => unitOf l s (velIdx c) * ctl c) ct ref dt x' (rescaleCov l s P)) := by
  have hc : prepareControl p (fun c => unitOf l s (velIdx c) * ctl c) ct ref x' =
      fun c => unitOf l s (velIdx c) * prepareControl p ctl ct ref x c :=
    funext fun c => prepareControl_scaled hs hp h ctl ct ref c
  have h4 : Real.cos (x' iPitch) = Real.cos (x iPitch) := congrArg Trig.cp (trig_scaled hs h)
  unfold Ekf.predict
  simp only [h4, hc]
  split
  · exact .none
  · refine .some ⟨?_, ?_⟩
    · apply SameScaled.wrap hs
      obtain ⟨k, hk, hk1, e⟩ := applyControl_scaled p h (prepareControl p ctl ct ref x) dt
      refine ⟨k, hk, hk1, ?_⟩
      rw [e]
      funext i
      have hcol : ∀ j : Fin 15, transferF x' dt i j * ((k j : ℝ) * (2 * Real.pi)) =
          if i = j then (k j : ℝ) * (2 * Real.pi) else 0 := by
        intro j
        by_cases hj : j = iRoll ∨ j = iPitch ∨ j = iYaw
        · have : transferF x' dt i j = (1 : Mat15) i j := by
            show (fEntry (trig x') dt i j).getD ((1 : Mat15) i j) = _
            rw [fEntry_left _ _ _ _ (by rcases hj with rfl | rfl | rfl <;> decide)]
            rfl
          rw [this, Matrix.one_apply]
          split <;> simp
        · rw [hk j hj]; simp
      simp only [Matrix.mulVec, dotProduct, mul_add, Finset.sum_add_distrib, hcol, Finset.mul_sum]
      congr 1
      · refine Finset.sum_congr rfl fun j _ => ?_
        rw [← mul_assoc, transferF_scaled hs h, mul_assoc]
      · simp
    · dsimp only
      rw [rescaleCov_add, rescaleCov_smul, noiseQ_scaled hs hp h]
      congr 1
      have hJ : transferJ x' dt * diagonal (unitOf l s) = diagonal (unitOf l s) * transferJ x dt := by
        ext i j
        rw [Matrix.mul_diagonal, Matrix.diagonal_mul]
        exact transferJ_scaled hs h dt i j
      have hJt : diagonal (unitOf l s) * (transferJ x' dt).transpose = (transferJ x dt).transpose * diagonal (unitOf l s) := by
        have := congrArg Matrix.transpose hJ
        rwa [Matrix.transpose_mul, Matrix.transpose_mul, Matrix.diagonal_transpose] at this
      rw [rescaleCov_eq, rescaleCov_eq]
      calc transferJ x' dt * (diagonal (unitOf l s) * P * diagonal (unitOf l s)) * (transferJ x' dt).transpose
          = (transferJ x' dt * diagonal (unitOf l s)) * P * (diagonal (unitOf l s) * (transferJ x' dt).transpose) := by
            simp only [Matrix.mul_assoc]
        _ = _ := by
            rw [hJ, hJt]
            simp only [Matrix.mul_assoc]

section Correct
variable {n : ℕ} {e : Fin n → Fin 15}

theorem joseph_aux {T Ti P : Mat15} {U Ui S : Matrix (Fin n) (Fin n) ℝ} {K : Matrix (Fin 15) (Fin n) ℝ}
    {H : Matrix (Fin n) (Fin 15) ℝ} (TT : T * Ti = 1) (TT' : Ti * T = 1) (UU : U * Ui = 1) (UU' : Ui * U = 1)
    (Tt : T.transpose = T) (Tit : Ti.transpose = Ti) (Uit : Ui.transpose = Ui) (hH : Ui * H = H * Ti) :
    (1 - T * K * Ui * H) * (T * P * T) * (1 - T * K * Ui * H).transpose +
      T * K * Ui * (U * S * U) * (T * K * Ui).transpose =
    T * ((1 - K * H) * P * (1 - K * H).transpose + K * S * K.transpose) * T := by
  have hA : 1 - T * K * Ui * H = T * (1 - K * H) * Ti := by
    rw [Matrix.mul_sub, Matrix.sub_mul, Matrix.mul_one, TT, Matrix.mul_assoc _ Ui, hH]
    simp only [Matrix.mul_assoc]
  rw [hA, Matrix.mul_add, Matrix.add_mul]
  generalize 1 - K * H = A
  congr 1
  · rw [transpose_mul, transpose_mul, Tt, Tit]
    calc T * A * Ti * (T * P * T) * (Ti * (A.transpose * T))
        = T * A * (Ti * T) * P * (T * Ti) * A.transpose * T := by simp only [Matrix.mul_assoc]
      _ = T * (A * P * A.transpose) * T := by
          rw [TT, TT', Matrix.mul_one, Matrix.mul_one]
          simp only [Matrix.mul_assoc]
  · rw [transpose_mul, transpose_mul, Tt, Uit]
    calc T * K * Ui * (U * S * U) * (Ui * (K.transpose * T))
        = T * K * (Ui * U) * S * (U * Ui) * K.transpose * T := by simp only [Matrix.mul_assoc]
      _ = T * (K * S * K.transpose) * T := by
          rw [UU, UU', Matrix.mul_one, Matrix.mul_one]
          simp only [Matrix.mul_assoc]

/-- One correction in other units or in the mirror. -/
theorem correctAt_scaled (hl : 0 < l) (hs : s = 1 ∨ s = -1) {x x' : State} (h : SameScaled l s x x')
    (z z' : Fin 15 → ℝ) (R : Mat15)
    (hR : ∀ a, sanitize (unitOf l s (e a) * R (e a) (e a) * unitOf l s (e a)) =
      unitOf l s (e a) * sanitize (R (e a) (e a)) * unitOf l s (e a))
    (thr : Thresh) (P : Mat15) (hy : innovation e z' x' = fun a => unitOf l s (e a) * innovation e z x a) :
    Option.Rel (fun r r' => SameScaled l s r.1 r'.1 ∧ r'.2 = rescaleCov l s r.2)
      (correctAt e z R thr x P) (correctAt e z' (rescaleCov l s R) thr x' (rescaleCov l s P)) := by
  have hne := unitOf_ne_zero hl hs
  obtain ⟨T, hT⟩ : ∃ T : Mat15, T = diagonal (unitOf l s) := ⟨_, rfl⟩
  obtain ⟨Ti, hTi⟩ : ∃ T : Mat15, T = diagonal (fun i => (unitOf l s i)⁻¹) := ⟨_, rfl⟩
  obtain ⟨U, hU⟩ : ∃ U : Matrix (Fin n) (Fin n) ℝ, U = diagonal (fun a => unitOf l s (e a)) := ⟨_, rfl⟩
  obtain ⟨Ui, hUi⟩ : ∃ U : Matrix (Fin n) (Fin n) ℝ, U = diagonal (fun a => (unitOf l s (e a))⁻¹) := ⟨_, rfl⟩
  have TT : T * Ti = 1 := by
    rw [hT, hTi, diagonal_mul_diagonal, ← diagonal_one]
    exact congrArg _ (funext fun i => mul_inv_cancel₀ (hne i))
  have TT' : Ti * T = 1 := mul_eq_one_comm.1 TT
  have UU : U * Ui = 1 := by
    rw [hU, hUi, diagonal_mul_diagonal, ← diagonal_one]
    exact congrArg _ (funext fun i => mul_inv_cancel₀ (hne _))
  have UU' : Ui * U = 1 := mul_eq_one_comm.1 UU
  have Tt : T.transpose = T := by rw [hT, diagonal_transpose]
  have Tit : Ti.transpose = Ti := by rw [hTi, diagonal_transpose]
  have Uit : Ui.transpose = Ui := by rw [hUi, diagonal_transpose]
  have Ut : U.transpose = U := by rw [hU, diagonal_transpose]
  have hUH : U * subH e = subH e * T := by
    ext a j
    rw [hU, hT, diagonal_mul, mul_diagonal]
    unfold subH
    rw [Matrix.of_apply]
    split
    · rename_i hj; subst hj; ring
    · ring
  have hHt : T * (subH e).transpose = (subH e).transpose * U := by
    have := congrArg Matrix.transpose hUH
    rw [transpose_mul, transpose_mul, Tt, Ut] at this
    exact this.symm
  have hUiH : Ui * subH e = subH e * Ti := by
    calc Ui * subH e = Ui * (subH e * T) * Ti := by rw [Matrix.mul_assoc, Matrix.mul_assoc, TT, Matrix.mul_one]
      _ = subH e * Ti := by rw [← hUH, ← Matrix.mul_assoc, UU', Matrix.one_mul]
  have hRc : ∀ M : Mat15, rescaleCov l s M = T * M * T := fun M => by rw [hT]; exact rescaleCov_eq M
  have hsR : subR e (rescaleCov l s R) = U * subR e R * U := by
    ext a b
    rw [hU, mul_diagonal, diagonal_mul]
    unfold subR rescaleCov
    simp only [Matrix.of_apply]
    split
    · rename_i hab; subst hab; exact hR a
    · rfl
  have hy' : innovation e z' x' = U.mulVec (innovation e z x) := by
    rw [hy, hU]
    funext a
    rw [mulVec_diagonal]
  have hS : innovCov e (rescaleCov l s R) (rescaleCov l s P) = U * innovCov e R P * U := by
    unfold innovCov
    rw [hsR, Matrix.mul_add, Matrix.add_mul, hRc]
    congr 1
    calc subH e * (T * P * T * (subH e).transpose) = (subH e * T) * P * (T * (subH e).transpose) := by
          simp only [Matrix.mul_assoc]
      _ = _ := by rw [← hUH, hHt]; simp only [Matrix.mul_assoc]
  have hdU : U.det ≠ 0 := by
    have : U.det * Ui.det = 1 := by rw [← det_mul, UU, det_one]
    intro h0
    rw [h0, zero_mul] at this
    exact zero_ne_one this
  have hdet : (innovCov e (rescaleCov l s R) (rescaleCov l s P)).det = 0 ↔ (innovCov e R P).det = 0 := by
    rw [hS, det_mul, det_mul]
    simp [hdU]
  unfold correctAt
  revert hy'
  generalize innovation e z' x' = y'
  generalize innovation e z x = y
  intro hy'
  by_cases hd : (innovCov e R P).det = 0
  · rw [if_pos hd, if_pos (hdet.2 hd)]
    exact .none
  rw [if_neg hd, if_neg fun h => hd (hdet.1 h)]
  have hinv : (innovCov e (rescaleCov l s R) (rescaleCov l s P))⁻¹ = Ui * (innovCov e R P)⁻¹ * Ui := by
    apply Matrix.inv_eq_right_inv
    rw [hS]
    calc U * innovCov e R P * U * (Ui * (innovCov e R P)⁻¹ * Ui)
        = U * innovCov e R P * (U * Ui) * (innovCov e R P)⁻¹ * Ui := by simp only [Matrix.mul_assoc]
      _ = 1 := by
        rw [UU, Matrix.mul_one, Matrix.mul_assoc U, Matrix.mul_nonsing_inv _ (isUnit_iff_ne_zero.2 hd), Matrix.mul_one, UU]
  have hgain : gain e (rescaleCov l s R) (rescaleCov l s P) = T * gain e R P * Ui := by
    unfold gain
    rw [hinv, hRc]
    calc T * P * T * (subH e).transpose * (Ui * (innovCov e R P)⁻¹ * Ui)
        = T * P * (T * (subH e).transpose) * Ui * (innovCov e R P)⁻¹ * Ui := by
          simp only [Matrix.mul_assoc]
      _ = T * P * (subH e).transpose * (U * Ui) * (innovCov e R P)⁻¹ * Ui := by
          rw [hHt]
          simp only [Matrix.mul_assoc]
      _ = T * (P * (subH e).transpose * (innovCov e R P)⁻¹) * Ui := by
          rw [UU, Matrix.mul_one]
          simp only [Matrix.mul_assoc]
  have hmah : checkMahalanobis y' (innovCov e (rescaleCov l s R) (rescaleCov l s P))⁻¹ thr ↔
      checkMahalanobis y (innovCov e R P)⁻¹ thr := by
    cases thr with
    | unlimited => exact Iff.rfl
    | sigmas k =>
      unfold checkMahalanobis
      have : y' ⬝ᵥ (innovCov e (rescaleCov l s R) (rescaleCov l s P))⁻¹.mulVec y' = y ⬝ᵥ (innovCov e R P)⁻¹.mulVec y := by
        rw [hy', hinv, Matrix.mulVec_mulVec, Matrix.mul_assoc, UU', Matrix.mul_one, ← Matrix.mulVec_mulVec,
          Matrix.dotProduct_mulVec, ← Matrix.mulVec_transpose, Matrix.mulVec_mulVec, Uit, UU', Matrix.one_mulVec]
      rw [this]
  by_cases hm : checkMahalanobis y (innovCov e R P)⁻¹ thr
  · rw [if_pos hm, if_pos (hmah.2 hm)]
    refine .some ⟨?_, ?_⟩
    · apply SameScaled.wrap hs
      obtain ⟨k, hk, hk1, hx'⟩ := h
      refine ⟨k, hk, hk1, ?_⟩
      rw [hy', hgain, Matrix.mulVec_mulVec, Matrix.mul_assoc, UU', Matrix.mul_one, ← Matrix.mulVec_mulVec, hT]
      funext i
      rw [Pi.add_apply, mulVec_diagonal, hx', Pi.add_apply]
      ring
    · dsimp only
      unfold joseph
      rw [hgain, hsR, hRc, hRc]
      exact joseph_aux TT TT' UU UU' Tt Tit Uit hUiH
  · rw [if_neg hm, if_neg fun h' => hm (hmah.1 h')]
    exact .some ⟨h, rfl⟩

end Correct

end RL
