import Verif.Props.ForgetsMessages
import Verif.Props.Arrival
import Verif.Props.Parts
/-! # C150: why the sensors have to be in the middle of the robot -/

namespace RL
open Matrix

/-- A robot that is taken to turn at the rate `w` about the vertical, and nothing else. -/
noncomputable def turningAt (w : ℝ) : PrepCtx :=
  { buf := fun _ _ _ => none, world := "odom", base := "base_link", twoD := false, state := Pi.single iVyaw w, angAcc := 0, gravity := 0 }

/-- A speedometer ten metres to the left, selected for the forward velocity only. -/
def leftTf : Tf := ⟨1, ![0, 10, 0]⟩
def forwardCd : CallbackData :=
  { upd := fun k => decide (k = iVx), sum := 1, differential := false, relative := false, useChild := false, thresh := .unlimited, topic := "wheel" }

/-- It reads zero with unit covariance. -/
noncomputable def stopMsg : TwistMsg := { slideMsg with lin := fun _ => .fin 0, ang := fun _ => .fin 0, cov := evenCov 1 }

theorem lever_reads (w : ℝ) : (twistPayload (turningAt w) leftTf stopMsg forwardCd.blank).indices = [iVx] ∧
    (twistPayload (turningAt w) leftTf stopMsg forwardCd.blank).Certain ∧
    ((twistPayload (turningAt w) leftTf stopMsg forwardCd.blank).z iVx).val = 10 * w ∧
    (twistPayload (turningAt w) leftTf stopMsg forwardCd.blank).R iVx iVx = 1 := by
  have hR : (twistPayload (turningAt w) leftTf stopMsg forwardCd.blank).R = putBlock 6 6 0 (1 : M6) := by
    show putBlock 6 6 0 (rot6d (quatOf (1 : M3)).mat * copyCov6 (evenCov 1) * (rot6d (quatOf (1 : M3)).mat)ᵀ) = _
    rw [(C43_matrix_to_quaternion IsRot.one).2, rot6d_one, copyCov6_eq, evenCov_eq]
    simp
  have hz : ∀ i, ((twistPayload (turningAt w) leftTf stopMsg forwardCd.blank).z i).isFin = true := by
    refine put_fin (put_fin (fun _ => rfl) fun i => ?_) (mulDbl_num _ fun _ => rfl)
    rw [show stopMsg.lin = fun k => .fin ((0 : V3) k) from rfl, mulDbl_fin]
    rfl
  have hu : (twistPayload (turningAt w) leftTf stopMsg forwardCd.blank).upd = fun k => decide (k = iVx) := by
    funext k
    show put 9 (put 6 forwardCd.upd (maskAxes (1 : M3) fun i => forwardCd.upd (axis 6 (by omega) i)))
      (maskAxes (1 : M3) fun i => forwardCd.upd (axis 9 (by omega) i)) k = _
    have m : ∀ u : Fin 3 → Bool, maskAxes (1 : M3) u = u := fun u => funext fun i => maskAxes_one u i
    rw [m, m]
    revert k
    decide
  have hI : (twistPayload (turningAt w) leftTf stopMsg forwardCd.blank).indices = [iVx] := by
    rw [indices_all fun i _ => hz i, hu]
    decide
  have h1 : (twistPayload (turningAt w) leftTf stopMsg forwardCd.blank).R iVx iVx = 1 := by
    rw [hR]
    rfl
  refine ⟨hI, ⟨rfl, good_of_psd ?_, ?_⟩, ?_, h1⟩
  · rw [hR]
    exact putBlock_psd (by omega) PosSemidef.one
  · have : subR [iVx].get (twistPayload (turningAt w) leftTf stopMsg forwardCd.blank).R = 1 := by
      ext a b
      fin_cases a; fin_cases b
      simp [subR, h1, sanitize_one]
    rw [hI, this, Matrix.det_one]
    exact one_ne_zero
  · show (((mulDbl (1 : M3) (fun k => .fin ((0 : V3) k)) 0).add (.fin (cross ![0, 10, 0] (turningAt w).omega 0))).val) = _
    rw [mulDbl_fin]
    have o : (turningAt w).omega 2 = w := rfl
    have o' : (turningAt w).omega 1 = 0 := rfl
    show (1 : M3).mulVec (0 : V3) 0 + cross ![0, 10, 0] (turningAt w).omega 0 = _
    simp [cross, o]

/-- C150 does not hold for sensors away from the middle: two estimates that differ in the turn rate, by one standard
deviation, are told by a speedometer ten metres to the left that it stands.  What is made of that differs by ten metres per
second, because the estimated rate is used for the lever arm, and the corrected velocities by more than seven times the
standard deviation claimed. -/
theorem C150_lever : ∃ (t : Tf) (m : TwistMsg) (cd : CallbackData) (c c' : PrepCtx) (r r' : State × Mat15), IsRot t.rot ∧
    c' = { c with state := c'.state } ∧ distanceSq 1 c.state c'.state = 1 ∧
    Ekf.correct (twistPayload c t m cd.blank) c.state 1 = some r ∧ Ekf.correct (twistPayload c' t m cd.blank) c'.state 1 = some r' ∧
    r.2 iVx iVx = 1 / 2 ∧ (r'.1 iVx - r.1 iVx) ^ 2 = 25 ∧ ¬ WithinSd 1 r.1 r'.1 r.2 := by
  have fused : ∀ w : ℝ, ∃ r, Ekf.correct (twistPayload (turningAt w) leftTf stopMsg forwardCd.blank) (turningAt w).state 1 = some r ∧
      r.1 iVx = 5 * w ∧ r.2 iVx iVx = 1 / 2 := by
    intro w
    obtain ⟨hI, hc, hz, hR⟩ := lever_reads w
    have zero : (turningAt w).state iVx = 0 := Pi.single_eq_of_ne (M := fun _ => ℝ) (i := iVyaw) (i' := iVx) (by decide) w
    refine ⟨_, correct_one iVx hI hc _ PosSemidef.one, ?_, ?_⟩
    · dsimp only
      rw [wrap_motion _ iVx (by decide), if_neg (show ¬ (iVx = iRoll ∨ iVx = iPitch ∨ iVx = iYaw) by decide), hz, hR, sanitize_one,
        Matrix.one_apply_eq, zero]
      ring
    · simp only [hR, sanitize_one, Matrix.one_apply_eq, Matrix.of_apply]
      norm_num
  obtain ⟨r, hr, hv, hc⟩ := fused 0
  obtain ⟨r', hr', hv', -⟩ := fused 1
  refine ⟨leftTf, stopMsg, forwardCd, turningAt 0, turningAt 1, r, r', IsRot.one, rfl, ?_, hr, hr', hc, ?_, fun h => ?_⟩
  · unfold distanceSq
    rw [Finset.sum_eq_single iVyaw]
    · rw [if_neg (by decide), Matrix.one_apply_eq]
      show ((Pi.single iVyaw (1 : ℝ) : State) iVyaw - (Pi.single iVyaw (0 : ℝ) : State) iVyaw) ^ 2 / 1 = 1
      rw [Pi.single_eq_same, Pi.single_eq_same]
      norm_num
    · intro i _ hi
      split
      · rfl
      · show ((Pi.single iVyaw (1 : ℝ) : State) i - (Pi.single iVyaw (0 : ℝ) : State) i) ^ 2 / _ = 0
        rw [Pi.single_eq_of_ne hi, Pi.single_eq_of_ne hi]
        simp
    · exact fun h => absurd (Finset.mem_univ _) h
  · rw [hv, hv']
    norm_num
  · have := h.entry iVx (by decide)
    rw [hv, hv', hc] at this
    norm_num at this

end RL
