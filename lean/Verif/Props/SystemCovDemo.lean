import Verif.Props.SystemCov
import Verif.Props.SystemDemo
import Verif.Proofs.SystemFirst
import Verif.Props.DiffFrame
import Verif.Props.Definite
/-! # C118: a node to which the theorem applies, and one that shows why 2D mode is left out -/

namespace RL
open Matrix Real Body
open Nav (Given)

/-- The hypotheses of `C118_spatial_partial` are met by the robot that drives, and a message is sent. -/
example (junk : State) (d : Differ) (hd : d.cov.PosSemidef) : ∃ c, loadNode drivingParams = some c ∧
    ¬ drivingParams.On "two_d_mode" ∧ c.noise.PosSemidef ∧ ¬ drivingParams.On "dynamic_process_noise_covariance" ∧ Uncorrelated c.cov ∧
    Ticks 0 (drivenRun c.frames.world junk) ∧
    (Sys.start c.sys (demoQ c.par) () (0 : Fin 6 → ℝ) 0 d).Holds (ekfView c.par) c.sys (CovMessage c) (drivenRun c.frames.world junk) ∧
    d.cov.PosSemidef := by
  obtain ⟨c, h⟩ := driving_starts
  have doc := C102_settings_partial h
  have ones : (msgCov fun _ => 1).PosSemidef := by
    have e : (msgCov fun _ => 1) = Matrix.vecMulVec (fun _ => (1 : ℝ)) (star fun _ => (1 : ℝ)) := by
      ext i j
      simp [msgCov, Matrix.vecMulVec_apply]
    rw [e]
    exact Matrix.posSemidef_vecMulVec_self_star _
  have one : ∀ (s : Sys (ekfCore c.par) (demoQ c.par)) (t : Int), CovMessage c s (.odom 0 noTf junk (driven c.frames.world t)) := by
    intro s t
    refine ⟨noTf_sane, fun set hset => ?_⟩
    rw [driving_wheels h] at hset
    injection hset with hset
    subst hset
    exact ⟨rfl, fun _ => ones, fun _ => ones⟩
  refine ⟨c, h, by simp [Nav.Given.On, drivingParams], ?_, by simp [Nav.Given.On, drivingParams], ?_, ?_, ?_, hd⟩
  · rw [doc.noise.unset (by simp [drivingParams])]
    exact defaultQ_psd
  · rw [doc.cov.unset (by simp [drivingParams])]
    exact uncorrelated_smul (by norm_num)
  · simp [Ticks, drivenRun]
  · exact ⟨one _ _, one _ _, trivial, trivial⟩

/-! ## 2D mode -/

/-- Parameters of a node in 2D mode with one input for velocities, of which the one ahead is used. -/
def turningParams : Given := fun n =>
  if n = "two_d_mode" then some (.bool true)
  else if n = "twist0" then some (.string "wheels")
  else if n = "twist0_config" then some (.bools (List.replicate 6 false ++ [true] ++ List.replicate 8 false))
  else none

theorem turning_typed : NodeTyped turningParams where
  bools := by simp [switchNames, turningParams]
  strings := by simp [turningParams]
  doubles := by simp [turningParams]
  fits := by simp [Fits, turningParams]
  frequency := by
    intro f hf
    have : f = 30 := by
      rcases hf with hf | ⟨-, hf⟩
      · simp [turningParams] at hf
      · exact hf
    subst this
    norm_num
  initial := by simp [turningParams]
  covs := by simp [turningParams]
  config := by simp [Nav.Given.On, turningParams]
  lists := by simp [turningParams]

theorem turning_sensor : SensorTyped turningParams ("twist" ++ "0") := by
  constructor <;> simp [turningParams]

theorem turning_starts : ∃ c, loadNode turningParams = some c := by
  obtain ⟨c, h, -⟩ := C102_starts turning_typed (a := 0) (b := 0) (c := 1) (d := 0)
    ⟨fun i hi => absurd hi (by omega), fun i hi => absurd hi (by omega), by rw [name0]; simp [turningParams]⟩
    ⟨fun i hi => absurd hi (by omega), fun i hi => absurd hi (by omega), by rw [name0]; simp [turningParams]⟩
    ⟨fun i hi => by
      have : i = 0 := by omega
      subst this
      rw [name0]
      exact ⟨"wheels", by simp [turningParams]⟩,
     fun i hi => by
      have : i = 0 := by omega
      subst this
      rw [name0]
      exact turning_sensor,
     by rw [name1]; simp [turningParams]⟩
    ⟨fun i hi => absurd hi (by omega), fun i hi => absurd hi (by omega), by rw [name0]; simp [turningParams]⟩
  exact ⟨c, h⟩

/-- What is read for the input. -/
def sideways : SensorSet :=
  { par := { name := "twist0", config := List.replicate 6 false ++ [true] ++ List.replicate 8 false, differential := false
             relative := false, useChild := false, poseThresh := .unlimited, twistThresh := .unlimited, accelThresh := .unlimited }
    topic := "wheels", queueSize := 10, removeGravity := false }

theorem turning_inputs {c : NodeConf} (h : loadNode turningParams = some c) :
    c.inputs.twists = [sideways] ∧ ∃ b, twistData sideways.par = some b ∧ c.inputs.twistCds = [b] := by
  have h := loadNode_inputs h
  unfold readInputs at h
  obtain ⟨l, -, h⟩ := Option.bind_eq_some_iff.1 h
  obtain ⟨x2, -, h⟩ := Option.bind_eq_some_iff.1 h
  obtain ⟨x3, -, h⟩ := Option.bind_eq_some_iff.1 h
  obtain ⟨x4, -, h⟩ := Option.bind_eq_some_iff.1 h
  obtain ⟨x5, e5, h⟩ := Option.bind_eq_some_iff.1 h
  obtain ⟨x6, e6, h⟩ := Option.bind_eq_some_iff.1 h
  obtain ⟨x7, -, h⟩ := Option.bind_eq_some_iff.1 h
  obtain ⟨x8, -, h⟩ := Option.bind_eq_some_iff.1 h
  injection h with h
  rw [← h]
  have s0 := sensorsFrom_some e5 0 (Nat.zero_le _)
  rw [Nat.zero_add] at s0
  have e : sensorAt turningParams "twist" (readTwist turningParams) 0 = some (some sideways) := by
    unfold sensorAt
    rw [name0]
    simp [Nav.Given.string?, Nav.Given.bools, Nav.Given.int, Nav.Given.thresh, Given.string?, Given.bools,
      Given.int, Given.thresh, turningParams, readTwist, loadUpdateConfig, sideways]
  have e' : sensorAt turningParams "twist" (readTwist turningParams) 1 = some none := by
    unfold sensorAt
    rw [name1]
    simp [Nav.Given.string?, Given.string?, turningParams]
  rw [e] at s0
  injection s0 with s0
  have hx : x5 = [sideways] := by
    match x5, s0, sensorsFrom_some e5 with
    | [a], s0, _ =>
      injection s0 with s0
      rw [s0]
    | a :: b :: t, s0, hs =>
      have := hs 1 (by simp)
      rw [Nat.zero_add, e'] at this
      simp at this
  subst hx
  refine ⟨rfl, ?_⟩
  cases hb : twistData sideways.par with
  | none => simp [hb] at e6
  | some b =>
    simp [hb] at e6
    exact ⟨b, rfl, e6.symm⟩

/-- The sensor is mounted turned. -/
noncomputable def gyroTf : TfBuffer := fun target source _ => if target = "base_link" ∧ source = "gyro" then some turn345 else none

theorem gyroTf_sane : SaneBuf gyroTf := by
  constructor
  · intro a b s t h
    unfold gyroTf at h
    split at h
    · injection h with h
      rw [← h]
      exact turn345_isRot
    · cases h
  · intro a s t h
    unfold gyroTf at h
    split at h
    · rename_i hc
      exact absurd (hc.1.symm.trans hc.2) (by decide)
    · cases h

/-- Velocities with independent errors; the pitch rate is less certain than the others. -/
noncomputable def gyroCov : M6 := diagonal ![1, 1, 1, 1, 2, 1]

noncomputable def gyroMsg : TwistMsg :=
  { frame := "gyro", stamp := 1000000000, lin := ![.fin 1, .fin 0, .fin 0], ang := fun _ => .fin 0, cov := copyOut6 gyroCov }

theorem gyroMsg_cov : msgCov gyroMsg.cov = gyroCov := by
  rw [← copyCov6_eq]
  ext i j
  fin_cases i <;> fin_cases j <;> rfl

theorem gyroCov_psd : gyroCov.PosDef := by
  refine Matrix.PosDef.diagonal fun i => ?_
  fin_cases i <;> norm_num

theorem gyro_turned : (rot6d turn345.rot * gyroCov * (rot6d turn345.rot)ᵀ) 3 4 = -168 / 625 := by
  unfold gyroCov
  rw [Matrix.mul_apply]
  simp only [mul_diagonal, transpose_apply, Fin.sum_univ_six]
  simp [rot6d, turn345]
  norm_num

/-- C118 fails in 2D mode: from a message with independent errors, the node makes a covariance that is none.  (The sensor
is turned about the vertical, its errors in roll and pitch rate differ, so they are correlated on the robot.  `forceTwoD`
sets the two variances to `1e-6` and leaves the correlation, and the first measurement is copied into the filter.) -/
theorem C118_turned : ∃ (o : Given) (c : NodeConf) (es : List Sys.Ev) (d : Differ), loadNode o = some c ∧ c.noise.PosDef ∧
    ¬ o.On "dynamic_process_noise_covariance" ∧ Uncorrelated c.cov ∧ d.cov.PosSemidef ∧ Ticks 0 es ∧
    (Sys.start c.sys (demoQ c.par) () (0 : Fin 6 → ℝ) 0 d).Holds (ekfView c.par) c.sys (CovMessage c) es ∧
    ¬ ∀ m ∈ ((Sys.start c.sys (demoQ c.par) () (0 : Fin 6 → ℝ) 0 d).run (ekfView c.par) c.sys es).2, SentCov m := by
  obtain ⟨c, h⟩ := turning_starts
  have doc := C102_settings_partial h
  obtain ⟨hin, b, hb, hcd⟩ := turning_inputs h
  have hbase : c.frames.base = "base_link" := by
    rcases doc.frames.base with h | ⟨-, h⟩
    · simp [turningParams] at h
    · exact h
  have h2 : c.sw.twoD = true := doc.sw.twoD.2 (by simp [Nav.Given.On, turningParams])
  have hp : c.sw.predictToCurrent = false := by
    rw [Bool.eq_false_iff, Ne, doc.sw.predictToCurrent]
    simp [Nav.Given.On, turningParams]
  have hdis : c.sw.disabled = false := by
    rw [Bool.eq_false_iff, Ne, doc.sw.disabled]
    simp [Nav.Given.On, turningParams]
  obtain ⟨hu, -, -, hsum⟩ := twistData_full hb rfl
  have hsum' : b.sum > 0 := hsum.2 ⟨⟨6, by omega⟩, (hu _).2 ⟨by simp, by simp [Selects, sideways]⟩⟩
  set d : Differ := { lastTime := 0, lastRate := 0, acc := 0, cov := 0 } with hd
  refine ⟨turningParams, c, [.twist 0 gyroTf 0 gyroMsg, .tick 2000000000 2000000000 noTf], d, h, ?_, by simp [Nav.Given.On, turningParams],
    ?_, Matrix.PosSemidef.zero, by simp [Ticks], ⟨⟨gyroTf_sane, fun set hset => ?_⟩, trivial, trivial⟩, fun hall => ?_⟩
  · rw [doc.noise.unset (by simp [turningParams])]
    exact defaultQ_posDef
  · rw [doc.cov.unset (by simp [turningParams])]
    exact uncorrelated_smul (by norm_num)
  · rw [hin] at hset
    injection hset with hset
    subst hset
    refine ⟨rfl, fun _ => ?_⟩
    rw [gyroMsg_cov]
    exact gyroCov_psd.posSemidef
  · set s := Sys.start c.sys (demoQ c.par) () (0 : Fin 6 → ℝ) 0 d with hs
    set q := twistPayload (s.ctx (ekfView c.par) c.sys gyroTf 0) turn345 gyroMsg b.blank with hq
    have hprep : prepareTwist (s.ctx (ekfView c.par) c.sys gyroTf 0) gyroMsg c.sys.frames.base b.blank = some q := by
      have : lookupTransformSafe gyroTf c.frames.base "gyro" 1000000000 = some turn345 := by
        rw [hbase]
        simp [lookupTransformSafe, gyroTf]
      unfold prepareTwist
      rw [if_neg (by decide)]
      show (lookupTransformSafe gyroTf c.frames.base "gyro" 1000000000).map _ = _
      rw [this]
      rfl
    have hev : s.events (ekfView c.par) c.sys (.twist 0 gyroTf 0 gyroMsg) = [.sensor b.topic 1000000000 (some q)] := by
      simp only [Sys.events]
      rw [show c.sys.inputs.twistCds[0]? = some b by
        show c.inputs.twistCds[0]? = some b
        rw [hcd]
        rfl]
      dsimp only
      rw [if_pos hsum', hprep]
      rfl
    have hsent := Sys.first_sent (P := demoQ c.par) (ekfView c.par) c.sys () (0 : Fin 6 → ℝ) 0 d _ b.topic 1000000000 q 2000000000
      2000000000 noTf (by norm_num) (by norm_num) hp hdis hev
    have h2' : (s.ctx (ekfView c.par) c.sys gyroTf 0).twoD = true := h2
    have hfin : ∀ i, (q.z i).isFin = true := by
      intro i
      rw [hq]
      unfold twistPayload finish
      rw [h2']
      fin_cases i <;> rfl
    have hx : initState q c.initial = some (fun i => if q.upd i then (q.z i).val else c.initial i) := by
      unfold initState
      rw [if_pos fun i _ => hfin i]
    have hcov : ∀ i j : Fin 15, q.upd i = true → q.upd j = true → initCov q c.cov i j = q.R i j := by
      intro i j hi hj
      simp [initCov, hi, hj]
    have hupd : q.upd 9 = true ∧ q.upd 10 = true := by
      rw [hq]
      unfold twistPayload finish
      rw [h2']
      exact ⟨rfl, rfl⟩
    have hm := (C43_matrix_to_quaternion turn345_isRot).2
    have hR : q.R 9 9 = 1e-6 ∧ q.R 10 10 = 1e-6 ∧ q.R 9 10 = -168 / 625 ∧ q.R 10 9 = -168 / 625 := by
      have hG : ∀ i j, (rot6d turn345.rot * gyroCov * (rot6d turn345.rot)ᵀ) i j = (rot6d turn345.rot * gyroCov * (rot6d turn345.rot)ᵀ) j i := by
        have : (rot6d turn345.rot * gyroCov * (rot6d turn345.rot)ᵀ)ᵀ = rot6d turn345.rot * gyroCov * (rot6d turn345.rot)ᵀ := by
          rw [Matrix.transpose_mul, Matrix.transpose_mul, Matrix.transpose_transpose, Matrix.mul_assoc, gyroCov, Matrix.diagonal_transpose]
        intro i j
        exact congrFun (congrFun this j) i
      rw [hq]
      unfold twistPayload finish
      rw [h2']
      simp only [hm, copyCov6_eq, gyroMsg_cov]
      refine ⟨rfl, rfl, gyro_turned, (hG _ _).trans gyro_turned⟩
    have hout := hall _ hsent
    have hx' : (ekfView c.par).state ((ekfCore c.par).initX q c.sys.cfg.initialState) =
        some (fun i => if q.upd i then (q.z i).val else c.initial i) := hx
    rw [hx'] at hout
    have hpsd : (msgCov fun k : Fin 36 => initCov q c.cov ⟨k.val / 6 + 6, by omega⟩ ⟨k.val % 6 + 6, by omega⟩).PosSemidef := hout.2
    have h0 := hpsd.dotProduct_mulVec_nonneg (fun k : Fin 6 => if k = 3 ∨ k = 4 then 1 else 0)
    have e : ∀ i j : Fin 6, (msgCov fun k : Fin 36 => initCov q c.cov ⟨k.val / 6 + 6, by omega⟩ ⟨k.val % 6 + 6, by omega⟩) i j =
        initCov q c.cov ⟨i.val + 6, by omega⟩ ⟨j.val + 6, by omega⟩ := by
      intro i j
      rw [← copyCov6_eq]
      fin_cases i <;> fin_cases j <;> rfl
    have e33 := (e 3 3).trans ((hcov 9 9 hupd.1 hupd.1).trans hR.1)
    have e44 := (e 4 4).trans ((hcov 10 10 hupd.2 hupd.2).trans hR.2.1)
    have e34 := (e 3 4).trans ((hcov 9 10 hupd.1 hupd.2).trans hR.2.2.1)
    have e43 := (e 4 3).trans ((hcov 10 9 hupd.2 hupd.1).trans hR.2.2.2)
    simp only [dotProduct, mulVec, Fin.sum_univ_six] at h0
    simp at h0
    rw [e33, e34, e43, e44] at h0
    norm_num at h0

end RL
