import Verif.Props.Inflated
import Verif.Props.Jump
import Verif.Props.LevelUkf
/-! # C133: does the pose jump when only velocities are fused? -/

namespace RL
open Matrix Real

variable {p : FilterPar}

/-! ## One correction -/

theorem psd_cauchy {P : Mat15} (hP : P.PosSemidef) (k i : Fin 15) : P k i ^ 2 ≤ P k k * P i i := by
  have h := (hP.submatrix ![k, i]).det_nonneg
  rw [det_fin_two] at h
  have hs : P i k = P k i := by simpa using hP.1.apply k i
  simp only [submatrix_apply, Matrix.cons_val_zero, Matrix.cons_val_one] at h
  rw [hs] at h
  nlinarith

section
variable {m : Payload} {x x' : State} {P P' : Mat15} {i : Fin 15}

/-- **C133**, the exact law: a message about the variable `i` moves every other one along the regression line, by `P k i / P i i`
of what it moves `i`. -/
theorem C133_shift_partial (hi : m.indices = [i]) (hang : ¬ angular i) (hm : m.Certain) (hP : P.PosSemidef)
    (h : Ekf.correct m x P = some (x', P')) {k : Fin 15} (hk : ¬ angular k) :
    P i i * (x' k - x k) = P k i * (x' i - x i) ∧ (x' k - x k) ^ 2 * P i i ≤ P k k * (x' i - x i) ^ 2 ∧
      (x' k = x k ↔ P k i = 0 ∨ (m.z i).val = x i) := by
  rw [correct_one i hi hm x hP] at h
  simp only [Option.some.injEq, Prod.mk.injEq] at h
  have hr := sanitize_pos (m.R i i)
  have hPi := hP.diag_nonneg (i := i)
  have h0 : P i i + sanitize (m.R i i) ≠ 0 := by positivity
  have hn : ¬ (i = iRoll ∨ i = iPitch ∨ i = iYaw) := hang
  have ex : ∀ j, ¬ angular j → x' j - x j = P j i * (P i i + sanitize (m.R i i))⁻¹ * ((m.z i).val - x i) := by
    intro j hj
    rw [← h.1, wrap_other _ hj, if_neg hn]
    ring
  have hcs : P k i ^ 2 ≤ P k k * P i i := psd_cauchy hP k i
  rw [ex k hk, ex i hang]
  refine ⟨by ring, ?_, ?_⟩
  · have : (P k i * (P i i + sanitize (m.R i i))⁻¹ * ((m.z i).val - x i)) ^ 2 * P i i =
        P k i ^ 2 * (((P i i + sanitize (m.R i i))⁻¹ * ((m.z i).val - x i)) ^ 2 * P i i) := by ring
    rw [this]
    refine (mul_le_mul_of_nonneg_right hcs (by positivity)).trans (le_of_eq ?_)
    ring
  · rw [← sub_eq_zero, ex k hk]
    simp only [mul_eq_zero, inv_eq_zero, h0, or_false, sub_eq_zero]

end

/-! ## One prediction -/

/-- The correlation that a prediction creates between the position and the forward velocity. -/
theorem predicted_correlation {P : Mat15} (hP : ∀ i j, i ≠ j → P i j = 0) (x : State) (dt : ℝ) :
    (transferJ x dt * P * (transferJ x dt)ᵀ) iX iVx =
      cos (x iYaw) * cos (x iPitch) * (dt * P iVx iVx + dt ^ 3 / 2 * P iAx iAx) ∧
    (transferJ x dt * P * (transferJ x dt)ᵀ) iVx iVx = P iVx iVx + dt ^ 2 * P iAx iAx := by
  have hd : P = diagonal fun i => P i i := by
    ext i j
    by_cases hij : i = j
    · subst hij; simp
    · rw [hP i j hij, diagonal_apply_ne _ hij]
  have e : ∀ a b, (transferJ x dt * P * (transferJ x dt)ᵀ) a b = ∑ j, transferJ x dt a j * P j j * transferJ x dt b j := by
    intro a b
    rw [hd, Matrix.mul_apply]
    refine Finset.sum_congr rfl fun j _ => ?_
    rw [Matrix.mul_diagonal, transpose_apply]
    simp
  have r6 : ∀ j, transferJ x dt iVx j = _ := fun j => congrFun (transferJ_row6 x dt) j
  have r0 : ∀ j, transferJ x dt iX j = _ := fun j => congrFun (transferJ_row0 x dt) j
  constructor
  · rw [e]
    simp only [r6, r0]
    rw [sum15]
    simp [trig, iVx, iAx, iYaw, iPitch]
    ring
  · rw [e]
    simp only [r6]
    rw [sum15]
    simp [iVx, iAx]
    ring

theorem catchUp_step {f : Filt (ekfCore p)} {x : State} (hx : f.x = some x) {t : Int} (ht : f.lastTime < t) {y : State × Mat15}
    (h : Ekf.predict p f.par f.ctl f.ctlTime t (toSec (t - f.lastTime)) x f.cov = some y) :
    (catchUp f t).x = some y.1 ∧ (catchUp f t).cov = y.2 := by
  have e : catchUp f t = { f.predict t (t - f.lastTime) with predicted := (f.predict t (t - f.lastTime)).x, lastTime := t } := if_pos ht
  rw [e]
  show ((ekfCore p).predict f.par f.ctl f.ctlTime t (t - f.lastTime) (f.x, f.cov, f.ext)).1 = _ ∧
    ((ekfCore p).predict f.par f.ctl f.ctlTime t (t - f.lastTime) (f.x, f.cov, f.ext)).2.1 = _
  rw [hx]
  simp [ekfCore, h]

/-- One prediction and one reading of the forward velocity. -/
theorem shift_step {Q : Mat15} {ctl : Fin 6 → ℝ} {ct ref : Int} {dt : ℝ} (hdt : 0 ≤ dt) {x : State} {P : Mat15}
    (hQ : Q.PosSemidef) (hd : p.dynamic = true → NoCross Q) (hP : Uncorrelated P) (hc : cos (x iPitch) ≠ 0)
    {m : Payload} {z r : ℝ} (hm : m.Reads iVx z r) :
    ∃ y w : State × Mat15, Ekf.predict p Q ctl ct ref dt x P = some y ∧ Ekf.correct m y.1 y.2 = some w ∧
      w.1 iX - y.1 iX = (cos (x iYaw) * cos (x iPitch) * (dt * P iVx iVx + dt ^ 3 / 2 * P iAx iAx) + dt * noiseQ p Q x iX iVx) /
        (P iVx iVx + dt ^ 2 * P iAx iAx + dt * noiseQ p Q x iVx iVx + r) * (z - y.1 iVx) ∧
      w.1 iVx - y.1 iVx = (P iVx iVx + dt ^ 2 * P iAx iAx + dt * noiseQ p Q x iVx iVx) /
        (P iVx iVx + dt ^ 2 * P iAx iAx + dt * noiseQ p Q x iVx iVx + r) * (z - y.1 iVx) := by
  obtain ⟨y, hy⟩ : ∃ y, Ekf.predict p Q ctl ct ref dt x P = some y := ⟨_, if_neg hc⟩
  have hPP : P.PosSemidef := by
    have : P = diagonal fun i => P i i := by
      ext i j
      by_cases hij : i = j
      · subst hij; simp
      · rw [hP.2 i j hij, diagonal_apply_ne _ hij]
    rw [this]
    exact PosSemidef.diagonal fun i => hP.1 i
  have hy2 : y.2 = transferJ x dt * P * (transferJ x dt)ᵀ + dt • noiseQ p Q x := by
    unfold Ekf.predict at hy
    rw [if_neg hc] at hy
    rw [← Option.some.inj hy]
  have hyP : y.2.PosSemidef := predict_psd hQ hd hdt hPP (x' := y.1) hy
  have hcor := correct_one iVx hm.indices hm.certain y.1 hyP
  refine ⟨y, _, hy, hcor, ?_⟩
  obtain ⟨c1, c2⟩ := predicted_correlation hP.2 x dt
  have a1 : y.2 iX iVx = cos (x iYaw) * cos (x iPitch) * (dt * P iVx iVx + dt ^ 3 / 2 * P iAx iAx) + dt * noiseQ p Q x iX iVx := by
    rw [hy2, Matrix.add_apply, c1, Matrix.smul_apply, smul_eq_mul]
  have a2 : y.2 iVx iVx = P iVx iVx + dt ^ 2 * P iAx iAx + dt * noiseQ p Q x iVx iVx := by
    rw [hy2, Matrix.add_apply, c2, Matrix.smul_apply, smul_eq_mul]
  have hz : (m.z iVx).val = z := by rw [hm.value]; rfl
  have hnx : ¬ angular iX := by simp [angular]; decide
  have hnv : ¬ angular iVx := by simp [angular]; decide
  dsimp only
  rw [wrap_other _ hnx, wrap_other _ hnv, if_neg (by decide), hm.var, sanitize_above hm.floor, hz, a1, a2]
  constructor <;> ring

/-- C133 for the filter: a reading of the forward velocity that comes `dt` after the last estimate moves the position.
Of the noise only what is correlated with the velocity plays a part. -/
theorem C133_velocity_shift {f : Filt (ekfCore p)} (hi : f.initialized = true) {x : State} (hx : f.x = some x)
    (hP : Uncorrelated f.cov) (hQ : Matrix.PosSemidef (n := Fin 15) (R := ℝ) f.par) (hd : p.dynamic = true → NoCross f.par)
    (hc : cos (x iPitch) ≠ 0) {m : Meas (ekfCore p)} (ht : f.lastTime < m.time) {z r : ℝ} (hm : Payload.Reads m.z iVx z r)
    {dt : ℝ} (hdt : dt = toSec (m.time - f.lastTime)) {P N : Mat15} (hPe : P = f.cov) (hN : N = noiseQ p f.par x) :
    ∃ x1 x' : State, (catchUp f m.time).x = some x1 ∧ (f.processMeasurement m).x = some x' ∧
      x' iX - x1 iX = (cos (x iYaw) * cos (x iPitch) * (dt * P iVx iVx + dt ^ 3 / 2 * P iAx iAx) + dt * N iX iVx) /
        (P iVx iVx + dt ^ 2 * P iAx iAx + dt * N iVx iVx + r) * (z - x1 iVx) ∧
      x' iVx - x1 iVx = (P iVx iVx + dt ^ 2 * P iAx iAx + dt * N iVx iVx) /
        (P iVx iVx + dt ^ 2 * P iAx iAx + dt * N iVx iVx + r) * (z - x1 iVx) := by
  subst hdt hPe hN
  obtain ⟨y, w, h1, h2, h3⟩ := shift_step (p := p) (ctl := f.ctl) (ct := f.ctlTime) (ref := m.time)
    (toSec_nonneg (show 0 ≤ m.time - f.lastTime by omega)) hQ hd hP hc hm
  obtain ⟨e1, e2⟩ := catchUp_step hx ht h1
  refine ⟨y.1, w.1, e1, ?_, h3⟩
  rw [process_eq f hi m]
  refine (correct_some e1 ?_).1
  rw [e2]
  exact h2

/-- C133: where only the velocity is uncertain, the message acts back to the last estimate: the position moves by what the
robot would have gone in `dt` with the correction of its velocity. -/
theorem C133_retroactive {f : Filt (ekfCore p)} (hi : f.initialized = true) {x : State} (hx : f.x = some x)
    (hP : Uncorrelated f.cov) (hd : p.dynamic = false) (hc : cos (x iPitch) ≠ 0) {m : Meas (ekfCore p)} (ht : f.lastTime < m.time)
    {z r : ℝ} (hm : Payload.Reads m.z iVx z r) (h0 : (show Mat15 from f.par) = 0) (ha : (show Mat15 from f.cov) iAx iAx = 0) :
    ∃ x1 x' : State, (catchUp f m.time).x = some x1 ∧ (f.processMeasurement m).x = some x' ∧
      x' iX - x1 iX = cos (x iYaw) * cos (x iPitch) * toSec (m.time - f.lastTime) * (x' iVx - x1 iVx) := by
  have hN : noiseQ p f.par x = 0 := by
    unfold noiseQ
    rw [hd]
    exact h0
  obtain ⟨P, hPe⟩ : ∃ P : Mat15, P = f.cov := ⟨_, rfl⟩
  replace ha : P iAx iAx = 0 := by
    rw [hPe]
    exact ha
  obtain ⟨x1, x', h1, h2, h3, h4⟩ := C133_velocity_shift hi hx hP (by
    have : f.par = (0 : Mat15) := h0
    rw [this]
    exact PosSemidef.zero) (by simp [hd]) hc ht hm rfl hPe hN.symm
  refine ⟨x1, x', h1, h2, ?_⟩
  rw [h3, h4, ha, Matrix.zero_apply, Matrix.zero_apply]
  ring

/-! ## A run -/

theorem plain_predict (Q : Mat15) (ctl : Fin 6 → ℝ) (ct ref : Int) (dt : ℝ) {x : State} (P : Mat15) (h : cos (x iPitch) ≠ 0) :
    ∃ M, Ekf.predict plainPar Q ctl ct ref dt x P = some (wrapStateAngles ((transferF x dt).mulVec x), M) := by
  unfold Ekf.predict
  rw [if_neg h, applyControl_none plainPar (fun _ => rfl)]
  exact ⟨_, rfl⟩

/-- **C133** is false: of a robot that starts from rest at the origin and hears nothing but two forward velocities, the pose
jumps when the second comes, by almost half of what the velocities differ by in the time between them if both are equally
certain. -/
theorem C133_jumps {Q : Mat15} (hQ : Q.PosSemidef) (hq : Q iX iVx = 0) {t : Int} (ht : 0 < t) (v v' : ℝ) {r r' : ℝ} (hr : 1e-9 ≤ r)
    (hr' : 1e-9 ≤ r') {dt : ℝ} (hdt : dt = toSec t) :
    ∃ x1 x' : State, (catchUp ((idleFilt Q).processMeasurement (readMsg 0 iVx v r)) t).x = some x1 ∧ x1 iX = dt * v ∧
      ([readMsg 0 iVx v r, readMsg t iVx v' r'].foldl Filt.processMeasurement (idleFilt Q)).x = some x' ∧
      x' iX - x1 iX = dt * (r + dt ^ 2 * 5e-4) / (r + dt ^ 2 * 1e-3 + dt * Q iVx iVx + r') * (v' - v) := by
  have hreads := readOf_reads iVx v hr
  have hu : Uncorrelated ((1e-3 : ℝ) • (1 : Mat15)) := uncorrelated_smul (by norm_num)
  obtain ⟨x0, ex0⟩ : ∃ x0 : State, x0 = fun k => if (readOf iVx v r).upd k then ((readOf iVx v r).z k).val else (0 : State) k := ⟨_, rfl⟩
  have hx : initState (readOf iVx v r) 0 = some x0 := by rw [ex0]; exact if_pos fun _ _ => rfl
  have x0v : x0 iVx = v := by rw [ex0]; rfl
  have x0z : ∀ k, k ≠ iVx → x0 k = 0 := by
    intro k hk
    rw [ex0]
    show (if decide (k = iVx) then v else (0 : ℝ)) = 0
    rw [if_neg (by simpa using hk)]
  have eP : ∀ a b, initCov (readOf iVx v r) ((1e-3 : ℝ) • (1 : Mat15)) a b =
      if a = b then (if a = iVx then r else 1e-3) else 0 := by
    intro a b
    simp only [initCov, Matrix.of_apply, readOf, Matrix.smul_apply, smul_eq_mul, Matrix.one_apply]
    by_cases hab : a = b
    · subst hab
      by_cases ha : a = iVx <;> simp [ha]
    · simp [hab]
  have hP : Uncorrelated (initCov (readOf iVx v r) ((1e-3 : ℝ) • (1 : Mat15))) := by
    constructor
    · intro a
      rw [eP, if_pos rfl]
      split
      · exact le_trans (by norm_num) hr
      · norm_num
    · intro a b hab
      rw [eP, if_neg hab]
  obtain ⟨f, hf⟩ : ∃ f, f = (idleFilt Q).processMeasurement (readMsg 0 iVx v r) := ⟨_, rfl⟩
  have f1 : f.initialized = true ∧ f.x = some x0 ∧ f.cov = initCov (readOf iVx v r) ((1e-3 : ℝ) • (1 : Mat15)) ∧ f.par = Q ∧
      f.lastTime = 0 := by
    rw [hf]
    exact ⟨rfl, hx, rfl, rfl, rfl⟩
  obtain ⟨hi, fx, fc, fp, fl⟩ := f1
  have hcos : cos (x0 iPitch) = 1 := by rw [x0z _ (by decide), cos_zero]
  have hcosy : cos (x0 iYaw) = 1 := by rw [x0z _ (by decide), cos_zero]
  obtain ⟨x1, x', h1, h2, h3, -⟩ := C133_velocity_shift (m := readMsg t iVx v' r') hi fx (by rw [fc]; exact hP) (by rw [fp]; exact hQ)
    (by simp [plainPar, demoPar]) (by rw [hcos]; norm_num) (by rw [fl]; exact ht) (readOf_reads iVx v' hr') (dt := dt)
    (by rw [fl, hdt]; congr 1; show t = t - 0; omega) fc.symm (N := Q) (by rw [fp]; rfl)
  rw [← hf]
  obtain ⟨M, hpred⟩ : ∃ M, Ekf.predict plainPar f.par f.ctl f.ctlTime t (toSec (t - f.lastTime)) x0 f.cov =
      some (wrapStateAngles ((transferF x0 dt).mulVec x0), M) := by
    rw [fl, sub_zero, ← hdt]
    exact plain_predict f.par f.ctl f.ctlTime t dt f.cov (by rw [hcos]; norm_num)
  have h1' := (catchUp_step fx (by rw [fl]; exact ht) hpred).1
  have e1 : x1 = wrapStateAngles ((transferF x0 dt).mulVec x0) := Option.some.inj (h1.symm.trans h1')
  have eX : x1 iX = dt * v := by
    rw [e1, wrap_other _ (by simp [angular]; decide)]
    show ∑ j, transferF x0 dt 0 j * x0 j = _
    rw [transferF_row0, Finset.sum_eq_single iVx]
    · rw [x0v]
      have : (trig x0).cy = 1 ∧ (trig x0).cp = 1 := ⟨hcosy, hcos⟩
      show (trig x0).cy * (trig x0).cp * dt * v = _
      rw [this.1, this.2]
      ring
    · intro k _ hk
      rw [x0z k hk, mul_zero]
    · simp
  have eV : x1 iVx = v := by
    rw [e1, wrap_other _ (by simp [angular]; decide)]
    show ∑ j, transferF x0 dt 6 j * x0 j = _
    rw [transferF_row6, Finset.sum_eq_single iVx]
    · rw [x0v]
      exact one_mul v
    · intro k _ hk
      rw [x0z k hk, mul_zero]
    · simp
  refine ⟨x1, x', h1, eX, ?_, ?_⟩
  · rw [List.foldl_cons, ← hf]
    exact h2
  · rw [h3, hcos, hcosy, eV, hq, eP, eP, if_pos rfl, if_pos rfl, if_pos rfl, if_neg (show ¬ iAx = iVx by decide)]
    ring

/-- So the pose can jump by any distance. -/
theorem C133_no_bound (D : ℝ) : ∃ (v v' : ℝ) (x1 x' : State),
    (catchUp ((idleFilt 0).processMeasurement (readMsg 0 iVx v 1)) 1000000000).x = some x1 ∧
    ([readMsg 0 iVx v 1, readMsg 1000000000 iVx v' 1].foldl Filt.processMeasurement (idleFilt 0)).x = some x' ∧ D < x' iX - x1 iX := by
  obtain ⟨x1, x', h1, -, h2, h3⟩ := C133_jumps PosSemidef.zero rfl (t := 1000000000) (by norm_num) 0 (3 * |D| + 3) (r := 1) (r' := 1)
    (by norm_num) (by norm_num) (dt := 1) (by norm_num [toSec])
  refine ⟨0, _, x1, x', h1, h2, ?_⟩
  rw [h3]
  have := le_abs_self D
  have := abs_nonneg D
  norm_num
  linarith

/-! ## Between messages -/

/-- C133, the part that holds: between messages the pose is a continuous function of time that starts from the estimate,
whatever the command. -/
theorem C133_between_partial (ca : Fin 6 → ℝ) (x : State) (i : Fin 15) (hi : i.val < 6) :
    (Continuous fun dt => (transferF x dt).mulVec (applyControl p ca dt x) i) ∧
      (transferF x 0).mulVec (applyControl p ca 0 x) i = x i := by
  constructor
  · have hca : ∀ j, Continuous fun dt => applyControl p ca dt x j := by
      intro j
      fin_cases j <;> simp only [applyControl] <;> fun_prop
    have hF : ∀ j, Continuous fun dt => transferF x dt i j := by
      intro j
      obtain ⟨n, hn⟩ := i
      simp only at hi
      interval_cases n
      · show Continuous fun dt => transferF x dt 0 j
        simp only [transferF_row0]
        fin_cases j <;> simp <;> fun_prop
      · show Continuous fun dt => transferF x dt 1 j
        simp only [transferF_row1]
        fin_cases j <;> simp <;> fun_prop
      · show Continuous fun dt => transferF x dt 2 j
        simp only [transferF_row2]
        fin_cases j <;> simp <;> fun_prop
      · show Continuous fun dt => transferF x dt 3 j
        simp only [transferF_row3]
        fin_cases j <;> simp <;> fun_prop
      · show Continuous fun dt => transferF x dt 4 j
        simp only [transferF_row4]
        fin_cases j <;> simp <;> fun_prop
      · show Continuous fun dt => transferF x dt 5 j
        simp only [transferF_row5]
        fin_cases j <;> simp <;> fun_prop
    show Continuous fun dt => ∑ j, transferF x dt i j * applyControl p ca dt x j
    exact continuous_finsetSum _ fun j _ => (hF j).mul (hca j)
  · rw [transferF_zero, one_mulVec]
    obtain ⟨n, hn⟩ := i
    simp only at hi
    interval_cases n <;> rfl

/-! ## Examples -/

/-- A velocity read with a covariance in which it is correlated with the position. -/
example : ∃ (P : Mat15) (x' : State) (P' : Mat15), P.PosSemidef ∧ P iX iVx ≠ 0 ∧
    Ekf.correct (oneVar iVx 1 .unlimited) 0 P = some (x', P') ∧ x' iX ≠ 0 := by
  let u : State := Pi.single iX 1 + Pi.single iVx 1
  have hP : (vecMulVec u u).PosSemidef := by simpa using posSemidef_vecMulVec_self_star u
  have h := correct_one iVx (oneVar_indices iVx 1 .unlimited) (oneVar_certain iVx 1) 0 hP
  have e : vecMulVec u u iX iVx = 1 := by simp [u, vecMulVec_apply, iX, iVx]
  refine ⟨vecMulVec u u, _, _, hP, by rw [e]; norm_num, h, ?_⟩
  have := (C133_shift_partial (oneVar_indices iVx 1 .unlimited) (by simp [angular]; decide) (oneVar_certain iVx 1) hP h (k := iX)
    (by simp [angular]; decide)).2.2
  refine fun h0 => ?_
  rcases this.1 h0 with h1 | h1
  · rw [e] at h1; norm_num at h1
  · norm_num [oneVar, Dbl.val] at h1

/-- A robot whose position and acceleration are known hears a velocity one second later. -/
example : ∃ x1 x' : State, (catchUp (show Filt (ekfCore plainPar) from { idleFilt 0 with
      initialized := true, cov := (diagonal (Pi.single iVx 1) : Mat15) }) 1000000000).x = some x1 ∧
    ((show Filt (ekfCore plainPar) from { idleFilt 0 with initialized := true, cov := (diagonal (Pi.single iVx 1) : Mat15) }).processMeasurement
      (readMsg 1000000000 iVx 1 1)).x = some x' ∧ x' iX - x1 iX = x' iVx - x1 iVx := by
  have hu : Uncorrelated (diagonal (Pi.single iVx 1) : Mat15) := by
    refine ⟨fun i => ?_, fun i j hij => diagonal_apply_ne _ hij⟩
    rw [diagonal_apply_eq, Pi.single_apply]
    split <;> norm_num
  obtain ⟨x1, x', h1, h2, h3⟩ := C133_retroactive (p := plainPar) (f := { idleFilt 0 with
    initialized := true, cov := (diagonal (Pi.single iVx 1) : Mat15) }) rfl (x := 0) rfl hu rfl (by simp) (m := readMsg 1000000000 iVx 1 1)
    (by show (0 : Int) < 1000000000; norm_num) (readOf_reads iVx 1 (by norm_num)) rfl (by
      show (diagonal (Pi.single iVx 1) : Mat15) iAx iAx = 0
      simp [iVx, iAx])
  refine ⟨x1, x', h1, h2, h3.trans ?_⟩
  have : toSec ((readMsg 1000000000 iVx 1 1).time - 0) = 1 := by norm_num [toSec, readMsg]
  rw [show ((show Filt (ekfCore plainPar) from { idleFilt 0 with
    initialized := true, cov := (diagonal (Pi.single iVx 1) : Mat15) }).lastTime) = 0 from rfl, this]
  simp

end RL
