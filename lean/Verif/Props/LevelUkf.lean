import Verif.Props.RestUkf
/-! # C105 over several cycles: a robot that stands level -/

namespace RL
open Matrix Real Body

/-- The four groups of variables that a robot standing level does not mix: each angle with its rate; position, velocity and
acceleration. -/
def axisOf (i : Fin 15) : Fin 4 := ![0, 0, 0, 1, 2, 3, 0, 0, 0, 1, 2, 3, 0, 0, 0] i

/-- No correlation between groups. -/
def Split (M : Mat15) : Prop := ∀ i j, axisOf i ≠ axisOf j → M i j = 0

theorem Split.mul {A B : Mat15} (ha : Split A) (hb : Split B) : Split (A * B) := by
  intro i j hij
  rw [Matrix.mul_apply]
  refine Finset.sum_eq_zero fun k _ => ?_
  by_cases h : axisOf i = axisOf k
  · rw [hb k j (by rw [← h]; exact hij), mul_zero]
  · rw [ha i k h, zero_mul]

theorem split_transpose {A : Mat15} (ha : Split A) : Split Aᵀ := fun i j hij => ha j i hij.symm

theorem Split.add {A B : Mat15} (ha : Split A) (hb : Split B) : Split (A + B) := fun i j hij => by
  rw [Matrix.add_apply, ha i j hij, hb i j hij, add_zero]

theorem Split.smul {A : Mat15} (ha : Split A) (c : ℝ) : Split (c • A) := fun i j hij => by
  rw [Matrix.smul_apply, ha i j hij, smul_zero]

theorem split_diagonal (d : Fin 15 → ℝ) : Split (diagonal d) := fun i j hij =>
  diagonal_apply_ne _ fun h => hij (by rw [h])

/-- The factor of a matrix without correlations between groups has none either. -/
theorem split_factor (llt : Llt) {A : Mat15} (hA : A.PosDef) (h : Split A) : Split (llt.L A) := by
  intro i j hij
  obtain ⟨s, hs⟩ : ∃ s : Fin 15 → ℝ, ∀ r, s r = if axisOf r = axisOf i then -1 else 1 := ⟨_, fun _ => rfl⟩
  have h1 : ∀ r, s r * s r = 1 := by
    intro r
    rw [hs]
    split <;> norm_num
  have hl := llt.lower A hA
  have hd := llt.diag A hA
  have e : diagonal s * llt.L A * diagonal s = llt.L A := by
    refine cholesky_unique ?_ hl ?_ hd ?_
    · intro r q hrq
      rw [mul_diagonal, diagonal_mul, hl r q hrq]
      ring
    · intro r
      rw [mul_diagonal, diagonal_mul, mul_comm (s r), mul_assoc, h1, mul_one]
      exact hd r
    · have h2 : diagonal s * diagonal s = (1 : Mat15) := by
        rw [diagonal_mul_diagonal, ← diagonal_one]
        congr 1
        funext r
        exact h1 r
      have h3 : diagonal s * A * diagonal s = A := by
        ext r q
        rw [mul_diagonal, diagonal_mul]
        by_cases hrq : axisOf r = axisOf q
        · rw [show s q = s r by rw [hs, hs, hrq], mul_comm (s r), mul_assoc, h1, mul_one]
        · rw [h r q hrq]
          ring
      rw [transpose_mul, transpose_mul, diagonal_transpose, llt.mul_transpose A hA]
      calc diagonal s * llt.L A * diagonal s * (diagonal s * ((llt.L A)ᵀ * diagonal s))
          = diagonal s * llt.L A * (diagonal s * diagonal s) * ((llt.L A)ᵀ * diagonal s) := by
            simp only [Matrix.mul_assoc]
        _ = diagonal s * (llt.L A * (llt.L A)ᵀ) * diagonal s := by
            rw [h2, Matrix.mul_one]
            simp only [Matrix.mul_assoc]
        _ = A := by rw [llt.mul_transpose A hA, h3]
  have := congrFun (congrFun e i) j
  rw [mul_diagonal, diagonal_mul, hs i, hs j, if_pos rfl, if_neg (Ne.symm hij)] at this
  linarith

/-- Standing level. -/
def Level (x : State) : Prop := AtRest x ∧ x 3 = 0 ∧ x 4 = 0

theorem level_trig {x : State} (h : Level x) : trig x = { sp := 0, cp := 1, cpi := 1, tp := 0, sr := 0, cr := 1, sy := sin (x 5), cy := cos (x 5) } := by
  unfold trig
  simp [show x iRoll = 0 from h.2.1, show x iPitch = 0 from h.2.2, iYaw]

theorem level_F (x : State) (dt : ℝ) (h : Level x) : Split (transferF x dt) := by
  have ht := level_trig h
  intro i j hij
  have e : transferF x dt i j = (transferF x dt).mulVec (Pi.single j 1) i := by rw [mulVec_single_one]; rfl
  rw [e]
  have h0 : ∀ r : Fin 15, axisOf r = axisOf i → (Pi.single j 1 : State) r = 0 := by
    intro r hr
    exact Pi.single_eq_of_ne (fun h => hij (by rw [← hr, h])) _
  clear e
  fin_cases i
  · refine (transferF_mulVec0 _ _ _).trans ?_
    rw [h0 0 rfl, h0 6 rfl, h0 7 rfl, h0 8 rfl, h0 12 rfl, h0 13 rfl, h0 14 rfl]
    simp
  · refine (transferF_mulVec1 _ _ _).trans ?_
    rw [h0 1 rfl, h0 6 rfl, h0 7 rfl, h0 8 rfl, h0 12 rfl, h0 13 rfl, h0 14 rfl]
    simp
  · refine (transferF_mulVec2 _ _ _).trans ?_
    rw [h0 2 rfl, h0 6 rfl, h0 7 rfl, h0 8 rfl, h0 12 rfl, h0 13 rfl, h0 14 rfl]
    simp
  · refine (transferF_mulVec3 _ _ _).trans ?_
    rw [h0 3 rfl, h0 9 rfl, ht]
    simp
  · refine (transferF_mulVec4 _ _ _).trans ?_
    rw [h0 4 rfl, h0 10 rfl, ht]
    simp
  · refine (transferF_mulVec5 _ _ _).trans ?_
    rw [h0 5 rfl, h0 11 rfl, ht]
    simp
  · refine (transferF_mulVec6 _ _ _).trans ?_
    rw [h0 6 rfl, h0 12 rfl]
    simp
  · refine (transferF_mulVec7 _ _ _).trans ?_
    rw [h0 7 rfl, h0 13 rfl]
    simp
  · refine (transferF_mulVec8 _ _ _).trans ?_
    rw [h0 8 rfl, h0 14 rfl]
    simp
  · exact (transferF_mulVec9 _ _ _).trans (h0 9 rfl)
  · exact (transferF_mulVec10 _ _ _).trans (h0 10 rfl)
  · exact (transferF_mulVec11 _ _ _).trans (h0 11 rfl)
  · exact (transferF_mulVec12 _ _ _).trans (h0 12 rfl)
  · exact (transferF_mulVec13 _ _ _).trans (h0 13 rfl)
  · exact (transferF_mulVec14 _ _ _).trans (h0 14 rfl)

/-- A deviation within one group is carried along as by the transfer function of the robot standing level. -/
theorem project_level {x : State} (h : Level x) (dt : ℝ) (c : Fin 4) (v : State) (hv : ∀ r, axisOf r ≠ c → v r = 0) :
    projectPoint dt (x + v) = x + (transferF x dt).mulVec v := by
  have hx : (transferF x dt).mulVec x = x := transferF_pose x dt x h.1
  have hr := h.1
  have h6 := hr 6 (by decide)
  have h7 := hr 7 (by decide)
  have h8 := hr 8 (by decide)
  have h9 := hr 9 (by decide)
  have h10 := hr 10 (by decide)
  have h11 := hr 11 (by decide)
  have h12 := hr 12 (by decide)
  have h13 := hr 13 (by decide)
  have h14 := hr 14 (by decide)
  by_cases hc0 : c = 0
  · subst hc0
    unfold projectPoint
    rw [transferF_of_angles (x := x) (y := x + v), mulVec_add, hx]
    · rw [Pi.add_apply, hv 3 (by decide), add_zero]
    · rw [Pi.add_apply, hv 4 (by decide), add_zero]
    · rw [Pi.add_apply, hv 5 (by decide), add_zero]
  · have v6 := hv 6 (fun e => hc0 e.symm)
    have v7 := hv 7 (fun e => hc0 e.symm)
    have v8 := hv 8 (fun e => hc0 e.symm)
    have v12 := hv 12 (fun e => hc0 e.symm)
    have v13 := hv 13 (fun e => hc0 e.symm)
    have v14 := hv 14 (fun e => hc0 e.symm)
    have ht := level_trig h
    have hrows : ∀ i : Fin 15, (transferF (x + v) dt).mulVec (x + v) i = x i + (transferF x dt).mulVec v i := by
      have rate : (transferF (x + v) dt).mulVec (x + v) 3 = x 3 + (transferF x dt).mulVec v 3 ∧
          (transferF (x + v) dt).mulVec (x + v) 4 = x 4 + (transferF x dt).mulVec v 4 ∧
          (transferF (x + v) dt).mulVec (x + v) 5 = x 5 + (transferF x dt).mulVec v 5 := by
        rw [transferF_mulVec3, transferF_mulVec4, transferF_mulVec5, transferF_mulVec3, transferF_mulVec4, transferF_mulVec5, ht]
        simp only [Pi.add_apply, h9, h10, h11, zero_add]
        have hsr : (trig (x + v)).sr = sin (v 3) := by simp [trig, iRoll, h.2.1]
        have hcr : (trig (x + v)).cr = cos (v 3) := by simp [trig, iRoll, h.2.1]
        have htp : (trig (x + v)).tp = sin (v 4) * (1 / cos (v 4)) := by simp [trig, iPitch, h.2.2]
        have hcpi : (trig (x + v)).cpi = 1 / cos (v 4) := by simp [trig, iPitch, h.2.2]
        rw [hsr, hcr, htp, hcpi]
        by_cases h1 : c = 1
        · subst h1
          rw [hv 10 (by decide), hv 11 (by decide)]
          refine ⟨by ring, by ring, by ring⟩
        · have v3 := hv 3 (fun e => h1 e.symm)
          have v9 := hv 9 (fun e => h1 e.symm)
          by_cases h2 : c = 2
          · subst h2
            rw [hv 11 (by decide), v3, v9]
            simp
            ring
          · rw [hv 10 (fun e => h2 e.symm), hv 4 (fun e => h2 e.symm), v3, v9]
            simp
            ring
      intro i
      fin_cases i
      · show (transferF (x + v) dt).mulVec (x + v) 0 = x 0 + (transferF x dt).mulVec v 0
        rw [transferF_mulVec0, transferF_mulVec0]
        simp [h6, h7, h8, h12, h13, h14, v6, v7, v8, v12, v13, v14]
      · show (transferF (x + v) dt).mulVec (x + v) 1 = x 1 + (transferF x dt).mulVec v 1
        rw [transferF_mulVec1, transferF_mulVec1]
        simp [h6, h7, h8, h12, h13, h14, v6, v7, v8, v12, v13, v14]
      · show (transferF (x + v) dt).mulVec (x + v) 2 = x 2 + (transferF x dt).mulVec v 2
        rw [transferF_mulVec2, transferF_mulVec2]
        simp [h6, h7, h8, h12, h13, h14, v6, v7, v8, v12, v13, v14]
      · exact rate.1
      · exact rate.2.1
      · exact rate.2.2
      · show (transferF (x + v) dt).mulVec (x + v) 6 = x 6 + (transferF x dt).mulVec v 6
        rw [transferF_mulVec6, transferF_mulVec6]
        simp [h12, v12]
      · show (transferF (x + v) dt).mulVec (x + v) 7 = x 7 + (transferF x dt).mulVec v 7
        rw [transferF_mulVec7, transferF_mulVec7]
        simp [h13, v13]
      · show (transferF (x + v) dt).mulVec (x + v) 8 = x 8 + (transferF x dt).mulVec v 8
        rw [transferF_mulVec8, transferF_mulVec8]
        simp [h14, v14]
      · show (transferF (x + v) dt).mulVec (x + v) 9 = x 9 + (transferF x dt).mulVec v 9
        rw [transferF_mulVec9, transferF_mulVec9]; rfl
      · show (transferF (x + v) dt).mulVec (x + v) 10 = x 10 + (transferF x dt).mulVec v 10
        rw [transferF_mulVec10, transferF_mulVec10]; rfl
      · show (transferF (x + v) dt).mulVec (x + v) 11 = x 11 + (transferF x dt).mulVec v 11
        rw [transferF_mulVec11, transferF_mulVec11]; rfl
      · show (transferF (x + v) dt).mulVec (x + v) 12 = x 12 + (transferF x dt).mulVec v 12
        rw [transferF_mulVec12, transferF_mulVec12]; rfl
      · show (transferF (x + v) dt).mulVec (x + v) 13 = x 13 + (transferF x dt).mulVec v 13
        rw [transferF_mulVec13, transferF_mulVec13]; rfl
      · show (transferF (x + v) dt).mulVec (x + v) 14 = x 14 + (transferF x dt).mulVec v 14
        rw [transferF_mulVec14, transferF_mulVec14]; rfl
    funext i
    exact hrows i

/-- The prediction of the unscented filter for a robot that stands level, with its sigma points. -/
theorem level_predict_near {p : FilterPar} (llt : Llt) {alpha kappa beta : ℝ} {k : UkfConst}
    (hk : setConstants alpha kappa beta = some k) (hpos : 0 < 15 + k.lam) {x : State} (hx : Level x) {M : Mat15}
    (hM : M.PosDef) (hs : Split M) (h4 : (15 + k.lam) * M 4 4 < (π / 2) ^ 2) (dt : ℝ)
    (hv : ∀ r, angular r → (transferF x dt * M * (transferF x dt)ᵀ) r r < 2 ∧
      (15 + k.lam) * (transferF x dt * M * (transferF x dt)ᵀ) r r < π ^ 2)
    (Q : Mat15) (u : Fin 6 → ℝ) (ct ref : Int) :
    ∃ mem, Ukf.predict p llt k Q u ct ref dt x M =
      some (wrapStateAngles x, transferF x dt * M * (transferF x dt)ᵀ + dt • noiseQ p Q x, mem) ∧ mem.uncorrected = true ∧
      ∀ s r, angular r → |mem.pts s r - x r| < π := by
  obtain ⟨L, hLdef⟩ : ∃ L, L = llt.L ((15 + k.lam) • M) := ⟨_, rfl⟩
  have hpd : ((15 + k.lam) • M).PosDef := hM.smul hpos
  have hLs : Split L := hLdef ▸ split_factor llt hpd (hs.smul _)
  have hLL : L * Lᵀ = (15 + k.lam) • M := hLdef ▸ llt.mul_transpose _ hpd
  have hDD : (transferF x dt * L) * (transferF x dt * L)ᵀ = (15 + k.lam) • (transferF x dt * M * (transferF x dt)ᵀ) := by
    rw [transpose_mul, Matrix.mul_assoc, ← Matrix.mul_assoc L, hLL]
    simp only [Matrix.smul_mul, Matrix.mul_smul, Matrix.mul_assoc]
  have hsum : ∀ r, ∑ i, (transferF x dt * L) r i ^ 2 = (15 + k.lam) * (transferF x dt * M * (transferF x dt)ᵀ) r r := by
    intro r
    have := congrFun (congrFun hDD r) r
    rw [Matrix.mul_apply, Matrix.smul_apply, smul_eq_mul] at this
    rw [← this]
    refine Finset.sum_congr rfl fun i _ => ?_
    rw [transpose_apply, pow_two]
  have hproj : ∀ i, projectPoint dt (x + fun r => L r i) = x + fun r => (transferF x dt * L) r i := by
    intro i
    rw [project_level hx dt (axisOf i) _ fun r hr => hLs r i hr]
    rfl
  have hproj2 : ∀ i, projectPoint dt (x - fun r => L r i) = x - fun r => (transferF x dt * L) r i := by
    intro i
    have e : (x - fun r => L r i : State) = x + (-fun r => L r i) := sub_eq_add_neg _ _
    rw [e, project_level hx dt (axisOf i) _ fun r hr => by rw [Pi.neg_apply, hLs r i hr, neg_zero], mulVec_neg]
    rfl
  obtain ⟨hm, hcov⟩ := symm_moments hk hpos x (transferF x dt * L)
    (fun s => projectPoint dt (sigmaPoints llt k x M s))
    (transferF_pose x dt x hx.1)
    (fun i => by
      show projectPoint dt (x + fun r => llt.L ((15 + k.lam) • M) r i) = _
      rw [← hLdef]
      exact hproj i)
    (fun i => by
      show projectPoint dt (x - fun r => llt.L ((15 + k.lam) • M) r i) = _
      rw [← hLdef]
      exact hproj2 i)
    (fun r hr => by
      rw [hsum r, mul_div_cancel_left₀ _ hpos.ne']
      exact hv r hr)
  have hsq : ∀ i, -(π / 2) < L 4 i ∧ L 4 i < π / 2 := by
    intro i
    have h1 : ∑ i, L 4 i ^ 2 = (15 + k.lam) * M 4 4 := by
      have := congrFun (congrFun hLL 4) 4
      rw [Matrix.mul_apply, Matrix.smul_apply, smul_eq_mul] at this
      rw [← this]
      refine Finset.sum_congr rfl fun i _ => ?_
      rw [transpose_apply, pow_two]
    have h2 : L 4 i ^ 2 < (π / 2) ^ 2 := lt_of_le_of_lt
      (Finset.single_le_sum (f := fun i => L 4 i ^ 2) (fun i _ => sq_nonneg _) (Finset.mem_univ i)) (by rw [h1]; exact h4)
    exact abs_lt.1 (lt_of_pow_lt_pow_left₀ 2 (by linarith [pi_pos]) (by rwa [sq_abs]))
  have hcos : ¬ ∃ s, cos (sigmaPoints llt k x M s iPitch) = 0 := by
    rintro ⟨s, hs⟩
    rcases s with ⟨⟩ | i | i
    · have hs : cos (x 4) = 0 := hs
      rw [hx.2.2, cos_zero] at hs
      exact one_ne_zero hs
    · have hs : cos (x 4 + llt.L ((15 + k.lam) • M) 4 i) = 0 := hs
      rw [hx.2.2, ← hLdef, zero_add] at hs
      exact (cos_pos_of_mem_Ioo ⟨(hsq i).1, (hsq i).2⟩).ne' hs
    · have hs : cos (x 4 - llt.L ((15 + k.lam) • M) 4 i) = 0 := hs
      rw [hx.2.2, ← hLdef, zero_sub, cos_neg] at hs
      exact (cos_pos_of_mem_Ioo ⟨(hsq i).1, (hsq i).2⟩).ne' hs
  refine ⟨{ pts := fun s => projectPoint dt (sigmaPoints llt k x M s), uncorrected := true }, (if_neg hcos).trans ?_, rfl, ?_⟩
  · rw [hcov, hm, hDD, smul_smul, one_div, inv_mul_cancel₀ hpos.ne', one_smul, noise_wrap, wrap_wrap]
  · intro s r hr
    have hsmall : ∀ i, |(transferF x dt * L) r i| < π := fun i =>
      lt_of_pow_lt_pow_left₀ 2 pi_pos.le (by
        rw [sq_abs]
        exact lt_of_le_of_lt (Finset.single_le_sum (f := fun i => (transferF x dt * L) r i ^ 2) (fun i _ => sq_nonneg _)
          (Finset.mem_univ i)) (by rw [hsum]; exact (hv r hr).2))
    rcases s with ⟨⟩ | i | i
    · show |(transferF x dt).mulVec x r - x r| < π
      rw [transferF_pose x dt x hx.1, sub_self, abs_zero]
      exact pi_pos
    · show |projectPoint dt (x + fun r => llt.L ((15 + k.lam) • M) r i) r - x r| < π
      rw [← hLdef, hproj i, Pi.add_apply, add_sub_cancel_left]
      exact hsmall i
    · show |projectPoint dt (x - fun r => llt.L ((15 + k.lam) • M) r i) r - x r| < π
      rw [← hLdef, hproj2 i, Pi.sub_apply, sub_sub_cancel_left, abs_neg]
      exact hsmall i

/-- The prediction of the unscented filter for a robot that stands level. -/
theorem level_predict {p : FilterPar} (llt : Llt) {alpha kappa beta : ℝ} {k : UkfConst}
    (hk : setConstants alpha kappa beta = some k) (hpos : 0 < 15 + k.lam) {x : State} (hx : Level x) {M : Mat15}
    (hM : M.PosDef) (hs : Split M) (h4 : (15 + k.lam) * M 4 4 < (π / 2) ^ 2) (dt : ℝ)
    (hv : ∀ r, angular r → (transferF x dt * M * (transferF x dt)ᵀ) r r < 2 ∧
      (15 + k.lam) * (transferF x dt * M * (transferF x dt)ᵀ) r r < π ^ 2)
    (Q : Mat15) (u : Fin 6 → ℝ) (ct ref : Int) :
    ∃ mem, Ukf.predict p llt k Q u ct ref dt x M =
      some (wrapStateAngles x, transferF x dt * M * (transferF x dt)ᵀ + dt • noiseQ p Q x, mem) := by
  obtain ⟨mem, h, -⟩ := level_predict_near (p := p) llt hk hpos hx hM hs h4 dt hv Q u ct ref
  exact ⟨mem, h⟩

/-! ## Cycles -/

theorem transferF_zero (x : State) : transferF x 0 = 1 := by
    refine Matrix.ext_of_mulVec_single fun j => ?_
    rw [one_mulVec]
    funext i
    fin_cases i
    · exact (transferF_mulVec0 _ _ _).trans (by simp)
    · exact (transferF_mulVec1 _ _ _).trans (by simp)
    · exact (transferF_mulVec2 _ _ _).trans (by simp)
    · exact (transferF_mulVec3 _ _ _).trans (by simp)
    · exact (transferF_mulVec4 _ _ _).trans (by simp)
    · exact (transferF_mulVec5 _ _ _).trans (by simp)
    · exact (transferF_mulVec6 _ _ _).trans (by simp)
    · exact (transferF_mulVec7 _ _ _).trans (by simp)
    · exact (transferF_mulVec8 _ _ _).trans (by simp)
    · exact transferF_mulVec9 _ _ _
    · exact transferF_mulVec10 _ _ _
    · exact transferF_mulVec11 _ _ _
    · exact transferF_mulVec12 _ _ _
    · exact transferF_mulVec13 _ _ _
    · exact transferF_mulVec14 _ _ _

theorem transferF_unit (x : State) (d : ℝ) : IsUnit (transferF x d) := by
  have h0 := transferF_zero x
  exact ⟨⟨transferF x d, transferF x (-d), by rw [transferF_mul, add_neg_cancel, h0], by
    rw [transferF_mul, neg_add_cancel, h0]⟩, rfl⟩

theorem restCov_posDef (x : State) {q : Fin 15 → ℝ} (hq : ∀ i, 0 ≤ q i) {M : Mat15} (hM : M.PosDef) {d : Int} (hd : 0 ≤ d) :
    (restCov x (diagonal q) M d).PosDef := by
  have h1 := hM.mul_mul_conjTranspose_same (B := transferF x (toSec d)) (Matrix.vecMul_injective_of_isUnit (transferF_unit x _))
  rw [conjTranspose_eq_transpose_of_trivial] at h1
  exact h1.add_posSemidef ((PosSemidef.diagonal hq).smul (toSec_nonneg hd))

theorem level_wrap {x : State} (h : Level x) : Level (wrapStateAngles x) := by
  refine ⟨wrap_rest h.1, ?_, ?_⟩
  · have : wrapStateAngles x 3 = normalizeAngle (x 3) := if_pos (Or.inl rfl)
    rw [this, h.2.1, normalizeAngle_zero]
  · have : wrapStateAngles x 4 = normalizeAngle (x 4) := if_pos (Or.inr (Or.inl rfl))
    rw [this, h.2.2, normalizeAngle_zero]

/-- The prediction of a node with the unscented filter. -/
theorem predictTo_ukf {p : FilterPar} {llt : Llt} {k : UkfConst} {P : MQueue (ukfCore p llt k)} (n : Node (ukfCore p llt k) P)
    {x y : State} {M N Q : Mat15} {l t : Int} (hx : n.filt.x = some x) (hM : n.filt.cov = M) (hQ : n.filt.par = Q)
    (hl : n.filt.lastTime = l)
    (h : ∀ (u : Fin 6 → ℝ) (ct : Int), ∃ mem, Ukf.predict p llt k Q u ct t (toSec (t - l)) x M = some (y, N, mem)) :
    (n.predictTo t).filt.x = some y ∧ (n.predictTo t).filt.cov = N ∧ (n.predictTo t).filt.lastTime = t ∧
      (n.predictTo t).filt.par = Q := by
  obtain ⟨mem, hm⟩ := h n.filt.ctl n.filt.ctlTime
  have e : (ukfCore p llt k).predict n.filt.par n.filt.ctl n.filt.ctlTime t (t - n.filt.lastTime)
      (n.filt.x, n.filt.cov, n.filt.ext) = (some y, N, mem) := by
    rw [hx, hM, hQ, hl]
    exact ukfCore_predict_some hm
  refine ⟨?_, ?_, ?_, hQ⟩
  · show ((ukfCore p llt k).predict _ _ _ _ _ _).1 = _
    rw [e]
  · show ((ukfCore p llt k).predict _ _ _ _ _ _).2.1 = _
    rw [e]
  · show n.filt.lastTime + (t - n.filt.lastTime) = t
    omega

/-- C105, partial: two nodes, one with each filter, know the same about a robot that stands level, and nothing arrives.
Then they report the same however often and whenever they run their cycle, as long as the angles stay known well enough:
variances below 2, and below a quarter of the square of pi when multiplied by `a`. -/
theorem C105_cycles_partial {p : FilterPar} (hc : ∀ c, p.ctlUpd c = false) (llt : Llt) {alpha kappa beta : ℝ} {k : UkfConst}
    (hk : setConstants alpha kappa beta = some k) {a : ℝ} (ha : a = alpha * alpha * (15 + kappa)) (hpos : 0 < a)
    {Pe : MQueue (ekfCore p)} {Pu : MQueue (ukfCore p llt k)} (ce : Cfg (ekfCore p)) (cu : Cfg (ukfCore p llt k))
    (hce : ce.predictToCurrent = true) (hcu : cu.predictToCurrent = true) (ts : List (Int × Int × Bool))
    (ne : Node (ekfCore p) Pe) (nu : Node (ukfCore p llt k) Pu) (x : State) (M : Mat15) (q : Fin 15 → ℝ) (l : Int)
    (he : Resting ne x M (diagonal q) l) (hu : Idle nu) (hux : nu.filt.x = some x) (huM : nu.filt.cov = M)
    (huQ : nu.filt.par = diagonal q) (hul : nu.filt.lastTime = l) (hx : x 3 = 0 ∧ x 4 = 0) (hM : M.PosDef) (hs : Split M)
    (hq : ∀ i, 0 ≤ q i) (hp : Passing l (ts.map Prod.fst))
    (hv : ∀ pre, pre <+: ts → ∀ M' : Mat15, (ne.run ce (cycles pre)).1.filt.cov = M' →
      ∀ r, angular r → M' r r < 2 ∧ a * M' r r < (π / 2) ^ 2) :
    ∃ (y : State) (N : Mat15) (t : Int),
      (ne.run ce (cycles ts)).1.filt.x = some y ∧ (nu.run cu (cycles ts)).1.filt.x = some y ∧
      (ne.run ce (cycles ts)).1.filt.cov = N ∧ (nu.run cu (cycles ts)).1.filt.cov = N ∧
      (ne.run ce (cycles ts)).1.filt.lastTime = t ∧ (nu.run cu (cycles ts)).1.filt.lastTime = t := by
  obtain rfl : a = 15 + k.lam := by rw [ha, (setConstants_spec hk).2.1]
  induction ts generalizing ne nu x M l with
  | nil => exact ⟨x, M, l, he.state, hux, he.cov, huM, he.time, hul⟩
  | cons t ts ih =>
    have hx' : Level x := ⟨he.rest, hx.1, hx.2⟩
    obtain ⟨g1, g2, g3, g4, g5, g6⟩ := rest_tick hc ce hce ne he.idle he.state he.cov he.noise he.time he.rest he.level t
    obtain ⟨r, hN, hr0, -⟩ := noise_diagonal (p := p) x hq
    obtain ⟨hlt, hp'⟩ := hp.tail
    have hd : 0 ≤ t.1 - l := sub_nonneg.2 hlt
    have hF : Split (transferF x (toSec (t.1 - l))) := level_F x _ hx'
    have hval := hv [t] (by simp) _ g3
    have h0 := hv [] (List.nil_prefix) M he.cov
    have hle : ∀ i, (transferF x (toSec (t.1 - l)) * M * (transferF x (toSec (t.1 - l)))ᵀ) i i ≤
        restCov x (noiseQ p (diagonal q) x) M (t.1 - l) i i := by
      intro i
      rw [hN]
      unfold restCov
      rw [Matrix.add_apply, Matrix.smul_apply, diagonal_apply_eq, smul_eq_mul]
      have := mul_nonneg (toSec_nonneg hd) (hr0 i)
      linarith
    have hpred : ∀ (u : Fin 6 → ℝ) (ct : Int), ∃ mem, Ukf.predict p llt k (diagonal q) u ct t.1 (toSec (t.1 - l)) x M =
        some (wrapStateAngles x, restCov x (noiseQ p (diagonal q) x) M (t.1 - l), mem) := fun u ct =>
      level_predict llt hk hpos hx' hM hs (h0 4 (Or.inr (Or.inl rfl))).2 _ (fun i hi => by
        obtain ⟨b1, b2⟩ := hval i hi
        have b3 := mul_le_mul_of_nonneg_left (hle i) hpos.le
        refine ⟨lt_of_le_of_lt (hle i) b1, lt_of_le_of_lt b3 (b2.trans ?_)⟩
        nlinarith [pi_pos]) _ u ct _
    obtain ⟨u1, u2⟩ := idle_tick cu nu hu t.1 t.2.1 t.2.2
    have u2 := u2.resolve_left (by rw [hcu]; simp)
    obtain ⟨e1, e2, e3, e4⟩ := predictTo_ukf nu hux huM huQ hul hpred
    have hw := level_wrap hx'
    refine ih _ _ _ _ _ ⟨g1, g2, g3, g4, g5, wrap_rest he.rest, g6⟩ u1 (by rw [u2, e1]) (by rw [u2, e2]) (by rw [u2, e4])
      (by rw [u2, e3]) hw.2 ?_ ?_ hp' ?_
    · rw [hN]
      exact restCov_posDef x hr0 hM hd
    · rw [hN]
      exact ((hF.mul hs).mul (split_transpose hF)).add ((split_diagonal r).smul _)
    · intro pre hpre M' hM'
      exact hv (t :: pre) (List.cons_prefix_cons.2 ⟨rfl, hpre⟩) M' hM'

/-! The hypotheses are met by two nodes that are told once that the robot stands at the origin. -/

theorem told_now {C : Core} (cfg : Cfg C) (h1 : cfg.disabledAtStartup = false) (h2 : cfg.smooth = false)
    (h3 : cfg.predictToCurrent = true) (h6 : cfg.useControl = false) (e : C.Ext) (u : C.Ctl) (z : C.Z) {r : C.X × C.Cov × C.Ext}
    (hr : C.predict cfg.processNoise u 0 1000000000 0 (C.initX z cfg.initialState, C.initCov z cfg.initialCov, e) = r) :
    let n := (Node.run cfg (Node.start cfg (PQueue.sortedList _ _) e u 0)
      [.sensor "t" 1000000000 (some z), .tick 1000000000 1000000000 false]).1
    Idle n ∧ n.filt.x = r.1 ∧ n.filt.cov = r.2.1 ∧ n.filt.par = cfg.processNoise ∧ n.filt.lastTime = 1000000000 := by
  refine ⟨⟨?_, ?_, ?_, ?_⟩, ?_, ?_, ?_, ?_⟩ <;>
  simp [Node.run, Node.step, Node.start, Node.sensor, Node.enqueue, Node.periodic, Node.advance, Node.integrate,
      Node.drain, Node.publish, PQueue.sortedList, PQueue.insertSorted, PQueue.size, Filt.processMeasurement, Filt.predict,
      Filt.setLastTime, Node.predictTo, h1, h2, h3, h6, hr]

/-- The robot at the origin, everything with variance 1. -/
noncomputable def atOrigin : Payload := fullRead { pos := 0, eul := 0, vel := 0, rate := 0, acc := 0 }

theorem atOrigin_vec : ({ pos := 0, eul := 0, vel := 0, rate := 0, acc := 0 } : Kin).vec = 0 := by
  funext i
  fin_cases i <;> rfl

theorem atOrigin_cov (P : Mat15) : initCov atOrigin P = diagonal fun _ => 1 := by
  ext i j
  simp [initCov, atOrigin, fullRead, demoZ]

theorem toSec_zero_real : toSec 0 = 0 := by simp [toSec]

theorem half_second (r : Fin 15) (hr : angular r) : restCov 0 defaultQ (diagonal fun _ => 1) 500000000 r r ≤ 3 / 2 := by
  have ht : toSec 500000000 = 1 / 2 := by norm_num [toSec]
  unfold restCov
  rw [ht, Matrix.add_apply, diag_entry, Matrix.smul_apply, defaultQ, diagonal_apply_eq, smul_eq_mul]
  rcases hr with rfl | rfl | rfl
  · rw [transferF_row3, sum15]
    simp [trig]
    norm_num
  · rw [transferF_row4, sum15]
    simp [trig]
    norm_num
  · rw [transferF_row5, sum15]
    simp [trig]
    norm_num

example : ∃ (k : UkfConst) (ce : Cfg (ekfCore plainPar)) (cu : Cfg (ukfCore plainPar eigenLlt k))
    (ne : Node (ekfCore plainPar) (PQueue.sortedList _ _)) (nu : Node (ukfCore plainPar eigenLlt k) (PQueue.sortedList _ _))
    (x : State) (M : Mat15) (q : Fin 15 → ℝ) (l : Int) (ts : List (Int × Int × Bool)),
    setConstants 0.001 0 2 = some k ∧ ce.predictToCurrent = true ∧ cu.predictToCurrent = true ∧
    Resting ne x M (diagonal q) l ∧ Idle nu ∧ nu.filt.x = some x ∧ nu.filt.cov = M ∧ nu.filt.par = diagonal q ∧
    nu.filt.lastTime = l ∧ (x 3 = 0 ∧ x 4 = 0) ∧ M.PosDef ∧ Split M ∧ (∀ i, 0 ≤ q i) ∧ Passing l (ts.map Prod.fst) ∧
    ts.length = 1 ∧
    ∀ pre, pre <+: ts → ∀ M' : Mat15, (ne.run ce (cycles pre)).1.filt.cov = M' →
      ∀ r, angular r → M' r r < 2 ∧ 0.000015 * M' r r < (π / 2) ^ 2 := by
  obtain ⟨k, hk⟩ := Option.isSome_iff_exists.1 ((C16_constants_defined 0.001 0 2).2 ⟨by norm_num, by norm_num⟩)
  have hpi := pi_gt_three
  have ha : 15 + k.lam = 0.000015 := by rw [(setConstants_spec hk).2.1]; norm_num
  have hlev : Level 0 := ⟨zero_atRest, rfl, rfl⟩
  have hF : transferF 0 (toSec 0) = 1 := by rw [toSec_zero_real, transferF_zero]
  have hE : (ekfCore plainPar).predict defaultQ (0 : Fin 6 → ℝ) 0 1000000000 0
      ((some 0).bind (initState atOrigin), initCov atOrigin ((1e-9 : ℝ) • (1 : Mat15)), ()) =
      (some (wrapStateAngles 0), diagonal fun _ => 1, ()) := by
    have h : Ekf.predict plainPar defaultQ 0 0 1000000000 (toSec 0) 0 (diagonal fun _ => 1) =
        some (wrapStateAngles 0, diagonal fun _ => 1) := by
      rw [rest_predict_ekf (fun _ => rfl) zero_atRest (by simp), hF, toSec_zero_real]
      simp
    rw [Option.bind_some, show initState atOrigin 0 = some 0 from (initState_full _ _).trans (congrArg some atOrigin_vec),
      atOrigin_cov]
    simp only [ekfCore, Option.bind_some, h]
  have hU : ∃ mem, (ukfCore plainPar eigenLlt k).predict defaultQ (0 : Fin 6 → ℝ) 0 1000000000 0
      ((some 0).bind (initState atOrigin), initCov atOrigin ((1e-9 : ℝ) • (1 : Mat15)), UkfMem.init) =
      (some (wrapStateAngles 0), diagonal fun _ => 1, mem) := by
    obtain ⟨mem, h⟩ := level_predict (p := plainPar) eigenLlt hk (by rw [ha]; norm_num) hlev (M := diagonal fun _ => 1)
      (PosDef.diagonal fun _ => one_pos) (split_diagonal _) (by rw [ha, diagonal_apply_eq]; nlinarith) (toSec 0)
      (fun r _ => by
        rw [hF, transpose_one, Matrix.one_mul, Matrix.mul_one, diagonal_apply_eq, ha]
        constructor
        · norm_num
        · nlinarith) defaultQ 0 0 1000000000
    rw [hF, toSec_zero_real, transpose_one, Matrix.one_mul, Matrix.mul_one, zero_smul, add_zero] at h
    refine ⟨mem, ?_⟩
    rw [Option.bind_some, show initState atOrigin 0 = some 0 from (initState_full _ _).trans (congrArg some atOrigin_vec),
      atOrigin_cov]
    exact ukfCore_predict_some (by rw [toSec_zero_real]; exact h)
  obtain ⟨mem, hU⟩ := hU
  obtain ⟨e1, e2, e3, e4, e5⟩ := told_now (C := ekfCore plainPar)
    (sameCfg (ekfCore plainPar) (some 0) ((1e-9 : ℝ) • (1 : Mat15)) ((1e-9 : ℝ) • (1 : Mat15)) defaultQ (0 : Fin 6 → ℝ))
    rfl rfl rfl rfl () (0 : Fin 6 → ℝ) atOrigin hE
  obtain ⟨u1, u2, u3, u4, u5⟩ := told_now (C := ukfCore plainPar eigenLlt k)
    (sameCfg (ukfCore plainPar eigenLlt k) (some 0) ((1e-9 : ℝ) • (1 : Mat15)) ((1e-9 : ℝ) • (1 : Mat15)) defaultQ (0 : Fin 6 → ℝ))
    rfl rfl rfl rfl UkfMem.init (0 : Fin 6 → ℝ) atOrigin hU
  have hw : wrapStateAngles 0 = 0 := by
    funext i
    unfold wrapStateAngles
    split
    · exact normalizeAngle_zero
    · rfl
  rw [hw] at e2 u2
  have hrest : Resting _ 0 (diagonal fun _ => 1) defaultQ 1000000000 := ⟨e1, e2, e3, e4, e5, zero_atRest, by simp⟩
  refine ⟨k,
    sameCfg (ekfCore plainPar) (some 0) ((1e-9 : ℝ) • (1 : Mat15)) ((1e-9 : ℝ) • (1 : Mat15)) defaultQ (0 : Fin 6 → ℝ),
    sameCfg (ukfCore plainPar eigenLlt k) (some 0) ((1e-9 : ℝ) • (1 : Mat15)) ((1e-9 : ℝ) • (1 : Mat15)) defaultQ (0 : Fin 6 → ℝ),
    _, _, 0, diagonal fun _ => 1, _, 1000000000, [(1500000000, 0, false)], hk, rfl, rfl, hrest, u1, u2, u3, u4,
    u5, ⟨rfl, rfl⟩, PosDef.diagonal fun _ => one_pos, split_diagonal _, ?_, by simp [Passing], rfl, ?_⟩
  · intro i
    fin_cases i <;> norm_num
  · intro pre hpre M' hM' r hr
    obtain ⟨a1, -, -⟩ := rest_run (fun _ => rfl)
      (sameCfg (ekfCore plainPar) (some 0) ((1e-9 : ℝ) • (1 : Mat15)) ((1e-9 : ℝ) • (1 : Mat15)) defaultQ (0 : Fin 6 → ℝ)) rfl pre _
      hrest.idle hrest.state hrest.cov hrest.noise hrest.time hrest.rest hrest.level
    have hM2 := hM'.symm.trans a1
    have hcase : pre = [] ∨ pre = [(1500000000, 0, false)] := by
      rcases pre with _ | ⟨b, pre⟩
      · exact Or.inl rfl
      · obtain ⟨rfl, h⟩ := List.cons_prefix_cons.1 hpre
        rw [List.prefix_nil.1 h]
        exact Or.inr rfl
    have hb : M' r r ≤ 3 / 2 := by
      rcases hcase with rfl | rfl
      · rw [hM2]
        show (diagonal fun _ => (1 : ℝ)) r r ≤ 3 / 2
        rw [diagonal_apply_eq]
        norm_num
      · rw [hM2]
        show restCov 0 defaultQ (diagonal fun _ => 1) 500000000 r r ≤ 3 / 2
        exact half_second r hr
    constructor
    · linarith
    · nlinarith

end RL
