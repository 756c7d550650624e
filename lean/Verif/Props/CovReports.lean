import Verif.Model.CovReports
import Verif.Model.Callbacks
import Verif.Props.Arrival
import Verif.Props.Settings
import Verif.Props.PrepareTurn
/-! # C83: what the prepare functions report about the content of messages -/

open Matrix
open scoped Real

namespace RL

/-- A warning is filed under a key. -/
def Warned (l : List DiagEv) (key : String) : Prop := ∃ m, DiagEv.add 1 key m false ∈ l

theorem warned_nil (key : String) : ¬ Warned [] key := by rintro ⟨m, h⟩; cases h

theorem warned_append (a b : List DiagEv) (key : String) : Warned (a ++ b) key ↔ Warned a key ∨ Warned b key := by
  unfold Warned
  simp only [List.mem_append, exists_or]

theorem warned_one (k key m : String) : Warned [.add 1 k m false] key ↔ key = k := by
  unfold Warned
  simp only [List.mem_singleton, DiagEv.add.injEq, true_and, and_true]
  constructor
  · rintro ⟨m, h, -⟩; exact h
  · rintro rfl; exact ⟨_, rfl, rfl⟩

/-- A number that is out of proportion although it belongs to a selected variable.  `s i`: the `i`-th variable is selected. -/
def TooLarge {n : ℕ} (s : Fin n → Prop) (m : Matrix (Fin n) (Fin n) ℝ) : Prop := ∃ i j, m i j > 1000 ∧ (s i ∨ s j)

/-- The variance of a selected variable is not positive. -/
def NotPositive {n : ℕ} (s : Fin n → Prop) (m : Matrix (Fin n) (Fin n) ℝ) : Prop := ∃ i, s i ∧ m i i ≤ 0

theorem warned_cov (txt : String → CovIssue → String) (topic : String) (off dim : ℕ) (h : off + dim ≤ 15) (upd : Fin 15 → Bool)
    (m : Matrix (Fin dim) (Fin dim) ℝ) (key : String) : Warned (covReports txt true topic off dim upd m) key ↔
      key = topic ++ "_covariance" ∧ (TooLarge (fun i => upd ⟨off + i.val, by omega⟩ = true) m ∨
        NotPositive (fun i => upd ⟨i.val, by omega⟩ = true) m) := by
  have entry : ∀ i j : Fin dim, (∃ c, covIssue upd off i.val j.val (m i j) = some c) ↔
      (m i j > 1000 ∧ (upd ⟨off + i.val, by omega⟩ = true ∨ upd ⟨off + j.val, by omega⟩ = true)) ∨
        (i = j ∧ upd ⟨i.val, by omega⟩ = true ∧ m i j ≤ 0) := by
    intro i j
    have h1 : off + i.val < 15 := by omega
    have h2 : off + j.val < 15 := by omega
    have h3 : i.val < 15 := by omega
    unfold covIssue
    simp only [h1, h2, h3, dif_pos]
    split
    · rename_i a
      exact ⟨fun _ => Or.inl a, fun _ => ⟨_, rfl⟩⟩
    · rename_i a
      split
      · rename_i b
        exact ⟨fun _ => Or.inr ⟨Fin.ext b.2.1, b.1, b.2.2.le⟩, fun _ => ⟨_, rfl⟩⟩
      · rename_i b
        split
        · rename_i c
          exact ⟨fun _ => Or.inr ⟨Fin.ext c.2.1, c.1, c.2.2.le⟩, fun _ => ⟨_, rfl⟩⟩
        · rename_i c
          constructor
          · rintro ⟨_, h⟩; cases h
          · rintro (h | ⟨rfl, h4, h5⟩)
            · exact absurd h a
            · rcases h5.lt_or_eq with h5 | h5
              · exact absurd ⟨h4, rfl, h5⟩ c
              · exact absurd ⟨h4, rfl, h5⟩ b
  unfold covReports Warned
  rw [if_pos rfl]
  simp only [List.mem_map, DiagEv.add.injEq, true_and, and_true, mem_covIssues]
  constructor
  · rintro ⟨_, c, ⟨i, j, hc⟩, rfl, -⟩
    refine ⟨rfl, ?_⟩
    rcases (entry i j).1 ⟨c, hc⟩ with h1 | ⟨rfl, h2⟩
    · exact Or.inl ⟨i, j, h1⟩
    · exact Or.inr ⟨i, h2⟩
  · rintro ⟨rfl, ⟨i, j, h1⟩ | ⟨i, h2⟩⟩
    · obtain ⟨c, hc⟩ := (entry i j).2 (Or.inl h1)
      exact ⟨_, c, ⟨i, j, hc⟩, rfl, rfl⟩
    · obtain ⟨c, hc⟩ := (entry i i).2 (Or.inr ⟨rfl, h2⟩)
      exact ⟨_, c, ⟨i, i, hc⟩, rfl, rfl⟩

theorem key_ne {topic a b : String} (h : a ≠ b) : topic ++ a ≠ topic ++ b := by
  intro e
  apply h
  simpa using e

theorem key_twist_ne (topic : String) : topic ++ "_covariance" ≠ topic ++ "_twist" ++ "_covariance" := by
  rw [String.append_assoc]
  exact key_ne (by decide)

theorem warned_ori (txt topic : String) (upd : Fin 15 → Bool) (q : Quat) (key : String) :
    Warned (oriReports txt topic upd q) key ↔
      key = topic ++ "_orientation" ∧ q = ⟨0, 0, 0, 0⟩ ∧ (upd 3 = true ∨ upd 4 = true ∨ upd 5 = true) := by
  unfold oriReports
  split
  · rename_i h
    rw [warned_one]
    refine ⟨fun e => ⟨e, ?_, h.2⟩, fun e => e.1⟩
    obtain ⟨⟨a, b, c, d⟩, -⟩ := h
    cases q
    simp_all
  · rename_i h
    refine iff_of_false (warned_nil _) ?_
    rintro ⟨-, rfl, h2⟩
    exact h ⟨⟨rfl, rfl, rfl, rfl⟩, h2⟩

theorem warned_twist (txt : String → CovIssue → String) (topic : String) (msg : TwistMsg) (upd : Fin 15 → Bool) (key : String) :
    Warned (twistNotes txt true topic msg upd) key → key = topic ++ "_covariance" := by
  intro h
  exact ((warned_cov txt topic 6 6 (by omega) upd _ key).1 h).1

/-- What is selected of a pose. -/
def posePart (upd : Fin 15 → Bool) (i : Fin 6) : Prop := upd ⟨i.val, by omega⟩ = true

/-- What is selected of a velocity, and of an acceleration. -/
def twistPart (upd : Fin 15 → Bool) (i : Fin 6) : Prop := upd ⟨6 + i.val, by omega⟩ = true
def accelPart (upd : Fin 15 → Bool) (i : Fin 3) : Prop := upd ⟨12 + i.val, by omega⟩ = true

/-- C83, partial: in a pose message whose frame is not turned against the frame the pose is brought to, exactly the
numbers above 1000 and the variances that are not positive of selected variables are reported, and exactly the empty
orientations of which an angle is used.  Missing: poses in a frame that is turned (`C83_turned_unreported`),
velocities and accelerations (`C83_velocity_unreported`, `C83_acceleration_unreported`). -/
theorem C83_pose_message_partial (txt : String → CovIssue → String) (txtO : String) (c : PrepCtx) (mem : PoseMem) (last : Int)
    (msg : PoseMsg) (topic target source : String) (differential imu : Bool) (upd : Fin 15 → Bool) (t : Tf)
    (ht : (if imu then setRPY 0 0 (getRPY t.rot 2) else t.rot) = 1)
    (hl : lookupTransformSafe c.buf (poseFrames c msg.frame target differential imu).1
      (poseFrames c msg.frame target differential imu).2 (poseLookupTime msg.stamp) = some t) :
    (Warned (poseNotes txt txtO true c mem last msg topic target source differential imu upd) (topic ++ "_covariance") ↔
      TooLarge (posePart upd) (copyCov6 msg.cov) ∨ NotPositive (posePart upd) (copyCov6 msg.cov)) ∧
    (Warned (poseNotes txt txtO true c mem last msg topic target source differential imu upd) (topic ++ "_orientation") ↔
      msg.ori = ⟨0, 0, 0, 0⟩ ∧ (upd 3 = true ∨ upd 4 = true ∨ upd 5 = true)) := by
  unfold poseNotes
  dsimp only
  rw [hl]
  dsimp only
  rw [ht, poseUpd_one]
  have k1 : topic ++ "_covariance" ≠ topic ++ "_orientation" := key_ne (by decide)
  have k2 : topic ++ "_orientation" ≠ topic ++ "_twist" ++ "_covariance" := by
    rw [String.append_assoc]; exact key_ne (by decide)
  have last0 : ∀ key, key ≠ topic ++ "_twist" ++ "_covariance" → ∀ f : Tf × M6 → TwistMsg, ¬ Warned
      (if differential = true then
        match mem.prev topic with
        | none => []
        | some old => twistNotes txt true (topic ++ "_twist") (f old) (diffUpd upd)
      else []) key := by
    intro key hk f h
    split at h
    · split at h
      · exact warned_nil _ h
      · exact hk (warned_twist _ _ _ _ _ h)
    · exact warned_nil _ h
  constructor
  · rw [warned_append, warned_append, warned_ori, warned_cov _ _ _ _ (by omega)]
    have := last0 _ (key_twist_ne topic) fun old => diffTwist (if imu = true then Tf.id else t)
      (rot6d (if imu = true then setRPY 0 0 (getRPY t.rot 2) else (quatOf t.rot).mat))
      (rot6d (if imu = true then setRPY 0 0 (getRPY t.rot 2) else (quatOf t.rot).mat) *
        poseCov (sourceTf c source (poseLookupTime msg.stamp)) msg *
        (rot6d (if imu = true then setRPY 0 0 (getRPY t.rot 2) else (quatOf t.rot).mat))ᵀ) old.1 old.2
      (if imu = true then { rot := imuRot t (msgPose msg), org := (msgPose msg).org } else msgPose msg) last msg.stamp source
    constructor
    · rintro (⟨e, -⟩ | ⟨-, h⟩ | h)
      · exact absurd e k1
      · simpa [TooLarge, NotPositive, posePart] using h
      · exact absurd h this
    · intro h
      refine Or.inr (Or.inl ⟨rfl, ?_⟩)
      simpa [TooLarge, NotPositive, posePart] using h
  · rw [warned_append, warned_append, warned_ori, warned_cov _ _ _ _ (by omega)]
    have := last0 _ k2 fun old => diffTwist (if imu = true then Tf.id else t)
      (rot6d (if imu = true then setRPY 0 0 (getRPY t.rot 2) else (quatOf t.rot).mat))
      (rot6d (if imu = true then setRPY 0 0 (getRPY t.rot 2) else (quatOf t.rot).mat) *
        poseCov (sourceTf c source (poseLookupTime msg.stamp)) msg *
        (rot6d (if imu = true then setRPY 0 0 (getRPY t.rot 2) else (quatOf t.rot).mat))ᵀ) old.1 old.2
      (if imu = true then { rot := imuRot t (msgPose msg), org := (msgPose msg).org } else msgPose msg) last msg.stamp source
    constructor
    · rintro (⟨-, h⟩ | ⟨e, -⟩ | h)
      · exact h
      · exact absurd e.symm k1
      · exact absurd h this
    · exact fun h => Or.inl ⟨rfl, h⟩

/-- C83, partial: numbers above 1000 in a velocity or acceleration message are reported if they belong to a selected
variable. -/
theorem C83_large_partial (txt : String → CovIssue → String) (topic : String) (upd : Fin 15 → Bool) :
    (∀ msg, TooLarge (twistPart upd) (copyCov6 msg.cov) → Warned (twistNotes txt true topic msg upd) (topic ++ "_covariance")) ∧
    ∀ msg, TooLarge (accelPart upd) (copyCov3 msg.accCov) → Warned (accelNotes txt true topic msg upd) (topic ++ "_covariance") := by
  constructor
  · intro msg h
    exact (warned_cov txt topic 6 6 (by omega) upd _ _).2 ⟨rfl, Or.inl h⟩
  · intro msg h
    exact (warned_cov txt topic 12 3 (by omega) upd _ _).2 ⟨rfl, Or.inl h⟩

/-- C83 refuted for velocities: the update vector of a velocity input selects no pose variable, and nothing but numbers
above 1000 is ever reported about its covariances. -/
theorem C83_velocity_unreported (txt : String → CovIssue → String) (topic : String) (upd : Fin 15 → Bool)
    (hu : ∀ i : Fin 15, i.val < 6 → upd i = false) (msg : TwistMsg) (key : String) :
    Warned (twistNotes txt true topic msg upd) key ↔ key = topic ++ "_covariance" ∧ TooLarge (twistPart upd) (copyCov6 msg.cov) := by
  unfold twistNotes
  rw [warned_cov _ _ _ _ (by omega)]
  refine and_congr_right fun _ => or_iff_left ?_
  rintro ⟨i, h, -⟩
  rw [hu _ i.isLt] at h
  cases h

/-- C83 refuted for accelerations. -/
theorem C83_acceleration_unreported (txt : String → CovIssue → String) (topic : String) (upd : Fin 15 → Bool)
    (hu : ∀ i : Fin 15, i.val < 6 → upd i = false) (msg : ImuMsg) (key : String) :
    Warned (accelNotes txt true topic msg upd) key ↔ key = topic ++ "_covariance" ∧ TooLarge (accelPart upd) (copyCov3 msg.accCov) := by
  unfold accelNotes
  rw [warned_cov _ _ _ _ (by omega)]
  refine and_congr_right fun _ => or_iff_left ?_
  rintro ⟨i, h, -⟩
  rw [hu _ (by have := i.isLt; show i.val < 6; omega)] at h
  cases h

/-- C83 refuted for every velocity input, whatever its configuration: what is filed about the covariances of its messages
is nothing but numbers above 1000. -/
theorem C83_velocity_inputs (txt : String → CovIssue → String) (s : SensorPar) (hl : s.config.length = 15) (topic key : String)
    (msg : TwistMsg) (cd : CallbackData)
    (hc : twistData s = some cd ∨ (∃ a, odomData s = some (a, cd)) ∨ ∃ a d, imuData s = some (a, cd, d)) :
    Warned (twistNotes txt true topic msg cd.upd) key ↔
      key = topic ++ "_covariance" ∧ TooLarge (twistPart cd.upd) (copyCov6 msg.cov) := by
  refine C83_velocity_unreported txt topic cd.upd (fun i hi => ?_) msg key
  rw [Bool.eq_false_iff]
  intro h
  rcases hc with hc | ⟨a, hc⟩ | ⟨a, d, hc⟩
  · have := (((twistData_full hc hl).1 i).1 h).1
    omega
  · have := (((odomData_full hc hl).2.1 i).1 h).1
    omega
  · have := (((imuData_full hc hl).2.1 i).1 h).1
    omega

/-- A wheel sensor on the base. -/
noncomputable def wheelCtx : PrepCtx :=
  { buf := fun _ _ _ => none, world := "odom", base := "base_link", twoD := false, state := 0, angAcc := 0, gravity := 0 }

/-- C83 refuted: a wheel sensor whose messages have variances zero.  The forward velocity is to be fused with variance
zero, and nothing is reported. -/
theorem C83_zero_unreported (txt : String → CovIssue → String) (print : Bool) :
    twistNotes txt print "wheel" (twistOf "base_link" 5 (![1, 0, 0], 0) 0) (fun i => i == 6) = [] ∧
    ∃ q, prepareTwist wheelCtx (twistOf "base_link" 5 (![1, 0, 0], 0) 0) "base_link"
        { upd := fun i => i == 6, z := fun _ => .fin 0, R := 0, thresh := .unlimited } = some q ∧ q.upd 6 = true ∧ q.R 6 6 = 0 := by
  constructor
  · have e : covIssues (fun i => i == 6) 6 6 (copyCov6 (twistOf "base_link" 5 (![1, 0, 0], 0) 0).cov) = [] := by
      rw [List.eq_nil_iff_forall_not_mem]
      intro c hc
      obtain ⟨i, j, h⟩ := mem_covIssues.1 hc
      have e : copyCov6 (twistOf "base_link" 5 (![1, 0, 0], 0) 0).cov i j = 0 := rfl
      have u : ((⟨i.val, by omega⟩ : Fin 15) == 6) = false := by
        rw [beq_eq_false_iff_ne]
        intro h
        have := congrArg Fin.val h
        have := i.isLt
        simp at *
        omega
      rw [e] at h
      have := covIssue_large (upd := fun i => i == 6) (i := i.val) (by omega) u h
      subst this
      unfold covIssue at h
      rw [if_neg (by norm_num)] at h
      split at h
      · cases h
      · split at h <;> cases h
    unfold twistNotes covReports
    rw [e]
    split <;> rfl
  · obtain ⟨q, h1, -, -, h4, h5, -⟩ := prepareTwist_val wheelCtx rfl (twistOf "base_link" 5 (![1, 0, 0], 0) 0) "base_link"
      { upd := fun i => i == 6, z := fun _ => .fin 0, R := 0, thresh := .unlimited } Tf.id rfl
    refine ⟨q, h1, ?_, ?_⟩
    · have := h5 0
      rw [show (Tf.id.rot : M3) = 1 from rfl, maskAxes_one] at this
      exact this
    · have e : copyCov6 (twistOf "base_link" 5 (![1, 0, 0], 0) 0).cov = 0 := rfl
      rw [h4, e, Matrix.mul_zero, Matrix.zero_mul]
      rfl

/-! ## Turned frames -/

/-- A position whose variances along its own axes are `a` and `b`. -/
def slantPose (a b : ℝ) : PoseMsg :=
  { frame := "map", stamp := 5, pos := 0, ori := ⟨0, 0, 0, 1⟩
    cov := copyOut6 (Matrix.diagonal ![a, b, 1, 1, 1, 1]) }

/-- A frame that is turned by a quarter. -/
noncomputable def turnedCtx : PrepCtx :=
  { wheelCtx with buf := fun _ _ _ => some { rot := setRPY 0 0 (π / 2), org := 0 } }

def onlyX : Fin 15 → Bool := fun i => i == 0

theorem quarter_eq : setRPY 0 0 (π / 2) = !![0, -1, 0; 1, 0, 0; 0, 0, 1] := by
  ext i j
  fin_cases i <;> fin_cases j <;> simp [setRPY]

theorem quarter_upd : poseUpd (setRPY 0 0 (π / 2)) onlyX = fun i => i == 1 := by
  have m0 : ∀ i, maskAxes (setRPY 0 0 (π / 2)) (fun i => onlyX (axis 0 (by omega) i)) i = (i == 1) := by
    intro i
    rw [Bool.eq_iff_iff, maskAxes_eq, quarter_eq, Fin.sum_univ_three]
    fin_cases i
    · simp [onlyX, axis]; norm_num
    · simp [onlyX, axis]; norm_num
    · simp [onlyX, axis]; norm_num
  have m1 : ∀ i, maskAxes (setRPY 0 0 (π / 2)) (fun i => onlyX (axis 3 (by omega) i)) i = false := by
    intro i
    exact maskAxes_false _ _ (fun j => by fin_cases j <;> rfl) i
  funext i
  unfold poseUpd put
  by_cases h : i.val < 3
  · rw [dif_neg (by omega), dif_pos (by omega), m0]
    obtain ⟨i, hi⟩ := i
    have : i = 0 ∨ i = 1 ∨ i = 2 := by simp at h; omega
    rcases this with rfl | rfl | rfl <;> rfl
  · by_cases h2 : i.val < 6
    · rw [dif_pos (by omega), m1]
      symm
      rw [beq_eq_false_iff_ne]
      rintro rfl
      exact h (by decide)
    · rw [dif_neg (by omega), dif_neg (by omega)]
      have e0 : i ≠ 0 := by rintro rfl; exact h (by decide)
      have e1 : i ≠ 1 := by rintro rfl; exact h (by decide)
      show (i == 0) = (i == 1)
      rw [beq_eq_false_iff_ne.2 e0, beq_eq_false_iff_ne.2 e1]

/-- What is made of a position in the turned frame: the sideways position, with the variance of the forward one. -/
theorem slant_prepared (mem : PoseMem) (a b : ℝ) :
    ∃ q, preparePose turnedCtx mem 0 (slantPose a b) "gps" "odom" "base_link" false false false
        { upd := onlyX, z := fun _ => .fin 0, R := 0, thresh := .unlimited } = (mem, some q) ∧
      q.upd = (fun i => i == 1) ∧ q.R 1 1 = a := by
  have hl : lookupTransformSafe turnedCtx.buf (poseFrames turnedCtx (slantPose a b).frame "odom" false false).1
      (poseFrames turnedCtx (slantPose a b).frame "odom" false false).2 (poseLookupTime (slantPose a b).stamp) =
        some { rot := setRPY 0 0 (π / 2), org := 0 } := rfl
  unfold preparePose
  dsimp only
  rw [hl]
  dsimp only
  refine ⟨_, rfl, ?_, ?_⟩
  · show poseUpd (setRPY 0 0 (π / 2)) onlyX = _
    exact quarter_upd
  · show putBlock 6 0 0 (rot6d (quatOf (setRPY 0 0 (π / 2))).mat * copyCov6 (copyOut6 (Matrix.diagonal ![a, b, 1, 1, 1, 1])) *
      (rot6d (quatOf (setRPY 0 0 (π / 2))).mat)ᵀ) 1 1 = a
    rw [(C43_matrix_to_quaternion (isRot_setRPY _ _ _)).2, copyCov6_copyOut6, quarter_eq]
    simp [putBlock, Matrix.mul_apply, Fin.sum_univ_six, rot6d]

theorem slant_cov (a b : ℝ) : copyCov6 (slantPose a b).cov = Matrix.diagonal ![a, b, 1, 1, 1, 1] := by
  show copyCov6 (copyOut6 (Matrix.diagonal ![a, b, 1, 1, 1, 1])) = _
  rw [copyCov6_copyOut6]

theorem slant_warned (txt : String → CovIssue → String) (txtO : String) (mem : PoseMem) (a b : ℝ) (ha : a ≤ 1000) (hb : b ≤ 1000) :
    Warned (poseNotes txt txtO true turnedCtx mem 0 (slantPose a b) "gps" "odom" "base_link" false false onlyX)
      ("gps" ++ "_covariance") ↔ b ≤ 0 := by
  have hl : lookupTransformSafe turnedCtx.buf (poseFrames turnedCtx (slantPose a b).frame "odom" false false).1
      (poseFrames turnedCtx (slantPose a b).frame "odom" false false).2 (poseLookupTime (slantPose a b).stamp) =
        some { rot := setRPY 0 0 (π / 2), org := 0 } := rfl
  unfold poseNotes
  dsimp only
  rw [hl]
  dsimp only
  rw [show poseUpd (if false = true then setRPY 0 0 (getRPY (setRPY 0 0 (π / 2)) 2) else setRPY 0 0 (π / 2)) onlyX =
    fun i => i == 1 from quarter_upd]
  have hc := slant_cov a b
  rw [warned_append, warned_append, warned_ori, warned_cov _ _ _ _ (by omega), hc]
  constructor
  · rintro (⟨e, -⟩ | ⟨-, ⟨i, j, h, -⟩ | ⟨i, h1, h2⟩⟩ | h)
    · exact absurd e (key_ne (by decide))
    · exfalso
      by_cases hij : i = j
      · subst hij
        rw [Matrix.diagonal_apply_eq] at h
        fin_cases i <;> simp at h <;> linarith
      · rw [Matrix.diagonal_apply_ne _ hij] at h
        norm_num at h
    · have : i = 1 := by
        have := eq_of_beq h1
        apply Fin.ext
        simpa using congrArg Fin.val this
      subst this
      simpa using h2
    · exact absurd h (warned_nil _)
  · intro h
    exact Or.inr (Or.inl ⟨rfl, Or.inr ⟨1, rfl, by simpa using h⟩⟩)

/-- C83 refuted for poses in a turned frame: the covariance in the message is looked at with the selection as it is after
the turn.  Of a position in a frame turned by a quarter of which only `x` is used, a variance zero of `x` is fused and not
reported; and a variance zero of `y`, which is not used, is reported. -/
theorem C83_turned_unreported (txt : String → CovIssue → String) (txtO : String) (mem : PoseMem) :
    (¬ Warned (poseNotes txt txtO true turnedCtx mem 0 (slantPose 0 1) "gps" "odom" "base_link" false false onlyX)
        ("gps" ++ "_covariance") ∧
      ∃ q, preparePose turnedCtx mem 0 (slantPose 0 1) "gps" "odom" "base_link" false false false
        { upd := onlyX, z := fun _ => .fin 0, R := 0, thresh := .unlimited } = (mem, some q) ∧ q.upd 1 = true ∧ q.R 1 1 = 0) ∧
    Warned (poseNotes txt txtO true turnedCtx mem 0 (slantPose 1 0) "gps" "odom" "base_link" false false onlyX)
        ("gps" ++ "_covariance") ∧
      ∃ q, preparePose turnedCtx mem 0 (slantPose 1 0) "gps" "odom" "base_link" false false false
        { upd := onlyX, z := fun _ => .fin 0, R := 0, thresh := .unlimited } = (mem, some q) ∧ ∀ i, q.upd i = true → 0 < q.R i i := by
  refine ⟨⟨?_, ?_⟩, ?_, ?_⟩
  · rw [slant_warned txt txtO mem 0 1 (by norm_num) (by norm_num)]
    norm_num
  · obtain ⟨q, h1, h2, h3⟩ := slant_prepared mem 0 1
    exact ⟨q, h1, by rw [h2]; rfl, h3⟩
  · rw [slant_warned txt txtO mem 1 0 (by norm_num) (by norm_num)]
  · obtain ⟨q, h1, h2, h3⟩ := slant_prepared mem 1 0
    refine ⟨q, h1, fun i hi => ?_⟩
    rw [h2] at hi
    rw [eq_of_beq hi, h3]
    norm_num

/-- A position in the frame of the map of which `x` is used, with variance zero. -/
example : lookupTransformSafe wheelCtx.buf (poseFrames wheelCtx "odom" "odom" false false).1
      (poseFrames wheelCtx "odom" "odom" false false).2 (poseLookupTime 5) = some Tf.id ∧ (Tf.id.rot : M3) = 1 ∧
    NotPositive (posePart onlyX) (copyCov6 (slantPose 0 1).cov) :=
  ⟨rfl, rfl, 0, rfl, by rw [slant_cov]; simp⟩

example : (twistData sensorDemo).isSome ∧ (odomData sensorDemo).isSome ∧ (imuData sensorDemo).isSome ∧ sensorDemo.config.length = 15 :=
  ⟨rfl, rfl, rfl, rfl⟩

end RL
