import Verif.Props.Twist
/-!
# C34: covariances stay covariances between frames; C63: which components of a measurement are used
-/

namespace RL
open Matrix Real

/-- The 6x6 covariance of a message: ROS stores it row by row. -/
def msgCov (a : Fin 36 → ℝ) : M6 := .of fun i j => a (finProdFinEquiv (i, j))
def msgCov3 (a : Fin 9 → ℝ) : M3 := .of fun i j => a (finProdFinEquiv (i, j))

theorem copyCov6_eq (a : Fin 36 → ℝ) : copyCov6 a = msgCov a := by
  ext i j
  simp only [copyCov6, msgCov, Matrix.of_apply]
  congr 1
  apply Fin.ext
  simp only [finProdFinEquiv_apply_val]
  omega

theorem copyCov3_eq (a : Fin 9 → ℝ) : copyCov3 a = msgCov3 a := by
  ext i j
  simp only [copyCov3, msgCov3, Matrix.of_apply]
  congr 1
  apply Fin.ext
  simp only [finProdFinEquiv_apply_val]
  omega

/-- A measurement as the callbacks hand it to the prepare functions (ros_filter.cpp:253-257, 1982-1986, 2418-2422). -/
def blank (u : Fin 15 → Bool) (thr : Thresh) : Payload := { upd := u, z := fun _ => .fin 0, R := 0, thresh := thr }

theorem lookup_isRot {buf : TfBuffer} (hr : ∀ a b s t, buf a b s = some t → IsRot t.rot) {a b : String} {s : Int} {t : Tf}
    (hl : lookupTransformSafe buf a b s = some t) : IsRot t.rot := by
  unfold lookupTransformSafe at hl
  split at hl
  · rename_i h1; exact hr _ _ _ _ (h1.trans hl)
  · split at hl
    · rename_i h1; exact hr _ _ _ _ (h1.trans hl)
    · split at hl
      · simp only [Option.some.injEq] at hl; rw [← hl]; exact IsRot.one
      · exact absurd hl (by simp)

/-- C34 for velocities. -/
theorem C34_twist (c : PrepCtx) (hd : c.twoD = false) (msg : TwistMsg) (target : String) (u : Fin 15 → Bool) (thr : Thresh)
    (hr : ∀ a b s t, c.buf a b s = some t → IsRot t.rot) (q : Payload)
    (h : prepareTwist c msg target (blank u thr) = some q) (hp : (msgCov msg.cov).PosSemidef) :
    q.R.PosSemidef ∧ q.R.trace = (msgCov msg.cov).trace := by
  unfold prepareTwist at h
  rw [Option.map_eq_some_iff] at h
  obtain ⟨t, hl, hq⟩ := h
  have ht := lookup_isRot hr hl
  have e : q.R = putBlock 6 6 0 (rot6d t.rot * msgCov msg.cov * (rot6d t.rot)ᵀ) := by
    rw [← hq, ← copyCov6_eq]
    simp [twistPayload, finish, hd, blank, (C43_matrix_to_quaternion ht).2]
  rw [e]
  exact ⟨putBlock_psd (by omega) (psd_conj hp _), by rw [putBlock_trace (by omega), trace_conj (rot6d_transpose_mul ht)]⟩

/-- C34 for accelerations. -/
theorem C34_acceleration (c : PrepCtx) (hd : c.twoD = false) (rg : Bool) (msg : ImuMsg) (target : String) (rel : Bool)
    (u : Fin 15 → Bool) (thr : Thresh) (hr : ∀ a b s t, c.buf a b s = some t → IsRot t.rot) (q : Payload)
    (h : prepareAcceleration c rg msg target rel (blank u thr) = some q) (hp : (msgCov3 msg.accCov).PosSemidef) :
    q.R.PosSemidef ∧ q.R.trace = (msgCov3 msg.accCov).trace := by
  unfold prepareAcceleration at h
  rw [Option.map_eq_some_iff] at h
  obtain ⟨t, hl, hq⟩ := h
  have ht := lookup_isRot hr hl
  have e : q.R = putBlock 3 12 0 (t.rot * msgCov3 msg.accCov * t.rotᵀ) := by
    rw [← hq, ← copyCov3_eq]
    simp [accelPayload, finish, hd, blank, (C43_matrix_to_quaternion ht).2]
  rw [e]
  exact ⟨putBlock_psd (by omega) (psd_conj hp _), by rw [putBlock_trace (by omega), trace_conj ht.transpose_mul]⟩

theorem poseCov_psd {src : Option Tf} (hs : ∀ s, src = some s → IsRot s.rot) (msg : PoseMsg)
    (hp : (msgCov msg.cov).PosSemidef) :
    (poseCov src msg).PosSemidef ∧ (poseCov src msg).trace = (msgCov msg.cov).trace := by
  cases src with
  | none => exact ⟨by simpa [poseCov, copyCov6_eq] using hp, by simp [poseCov, copyCov6_eq]⟩
  | some s =>
    have h := hs s rfl
    have e : poseCov (some s) msg = (rot6d s.rot)ᵀ * msgCov msg.cov * ((rot6d s.rot)ᵀ)ᵀ := by
      simp [poseCov, copyCov6_eq, (C43_matrix_to_quaternion h).2]
    rw [e]
    refine ⟨psd_conj hp _, trace_conj ?_ _⟩
    rw [transpose_transpose]
    exact rot6d_mul_transpose h

theorem poseRot_isRot {t : Tf} (ht : IsRot t.rot) (imu : Bool) :
    IsRot (if imu then setRPY 0 0 (getRPY t.rot 2) else (quatOf t.rot).mat) := by
  cases imu
  · simpa [(C43_matrix_to_quaternion ht).2] using ht
  · simpa using isRot_setRPY _ _ _

theorem sourceTf_isRot {c : PrepCtx} (hr : ∀ a b s t, c.buf a b s = some t → IsRot t.rot) (source : String) (time : Int) :
    ∀ s, sourceTf c source time = some s → IsRot s.rot := by
  intro s h
  unfold sourceTf at h
  split at h
  · exact lookup_isRot hr h
  · exact absurd h (by simp)

/-- C34 for poses used as poses. -/
theorem C34_pose (c : PrepCtx) (hd : c.twoD = false) (mem mem' : PoseMem) (last : Int) (msg : PoseMsg)
    (topic target source : String) (relative imu : Bool) (u : Fin 15 → Bool) (thr : Thresh)
    (hr : ∀ a b s t, c.buf a b s = some t → IsRot t.rot) (q : Payload)
    (h : preparePose c mem last msg topic target source false relative imu (blank u thr) = (mem', some q))
    (hp : (msgCov msg.cov).PosSemidef) :
    q.R.PosSemidef ∧ q.R.trace = (msgCov msg.cov).trace := by
  unfold preparePose at h
  simp only at h
  split at h
  · exact absurd (congrArg Prod.snd h) (by simp)
  · rename_i t hl
    have ht := lookup_isRot hr hl
    have hs := sourceTf_isRot hr source (poseLookupTime msg.stamp)
    obtain ⟨p1, p2⟩ := poseCov_psd hs msg hp
    have h' := congrArg Prod.snd h
    simp only [poseWith, Bool.false_eq_true, if_false, Option.some.injEq] at h'
    have e : q.R = putBlock 6 0 0 (rot6d (if imu then setRPY 0 0 (getRPY t.rot 2) else (quatOf t.rot).mat) *
        poseCov (sourceTf c source (poseLookupTime msg.stamp)) msg *
        (rot6d (if imu then setRPY 0 0 (getRPY t.rot 2) else (quatOf t.rot).mat))ᵀ) := by
      rw [← h']
      simp [finish, hd, blank]
    rw [e]
    exact ⟨putBlock_psd (by omega) (psd_conj p1 _),
      by rw [putBlock_trace (by omega), trace_conj (rot6d_transpose_mul (poseRot_isRot ht imu)), p2]⟩

/-- C34 for poses turned into velocities: still a covariance (of what size, see C64), and so is the one kept for the next
message. -/
theorem C34_differential (c : PrepCtx) (hd : c.twoD = false) (mem mem' : PoseMem) (last : Int) (msg : PoseMsg)
    (topic target source : String) (relative imu : Bool) (u : Fin 15 → Bool) (thr : Thresh)
    (hr : ∀ a b s t, c.buf a b s = some t → IsRot t.rot) (ho : last ≤ msg.stamp)
    (hm : ∀ old, mem.prev topic = some old → old.2.PosSemidef) (r : Option Payload)
    (h : preparePose c mem last msg topic target source true relative imu (blank u thr) = (mem', r))
    (hp : (msgCov msg.cov).PosSemidef) :
    (∀ q, r = some q → q.R.PosSemidef) ∧ ∀ old, mem'.prev topic = some old → old.2.PosSemidef := by
  unfold preparePose at h
  simp only at h
  split at h
  · obtain ⟨e1, e2⟩ := Prod.mk.inj h
    rw [← e1, ← e2]
    exact ⟨fun q hq => absurd hq (by simp), hm⟩
  · rename_i t hl
    have ht := lookup_isRot hr hl
    have hs := sourceTf_isRot hr source (poseLookupTime msg.stamp)
    obtain ⟨p1, p2⟩ := poseCov_psd hs msg hp
    simp only [poseWith, if_true] at h
    obtain ⟨e1, e2⟩ := Prod.mk.inj h
    constructor
    · intro q hq
      rw [← e2] at hq
      rw [Option.bind_eq_some_iff] at hq
      obtain ⟨old, ho1, ho2⟩ := hq
      refine (C34_twist c hd _ _ _ thr hr q ho2 ?_).1
      rw [← copyCov6_eq]
      simp only [diffTwist]
      rw [copyCov6_copyOut6]
      refine Matrix.PosSemidef.smul (Matrix.PosSemidef.add (psd_conj p1 _) (psd_conj (hm old ho1) _)) ?_
      rw [sub_nonneg]
      unfold toSec
      exact mul_le_mul_of_nonneg_right (by exact_mod_cast ho) (by norm_num)
    · intro old ho'
      rw [← e1] at ho'
      simp only [if_true, Option.some.injEq] at ho'
      rw [← ho']
      exact p1

/-- The hypotheses are met by a sensor that is turned. -/
example : (demoCtx 0).twoD = false ∧ (∀ a b s t, (demoCtx 0).buf a b s = some t → IsRot t.rot) ∧
    ∃ q, prepareTwist (demoCtx 0) (twistOf "imu" 5 (0, 0) fun _ => 1) "base_link" (blank (fun _ => true) .unlimited)
      = some q := by
  refine ⟨rfl, ?_, _, rfl⟩
  intro a b s t h
  simp only [demoCtx] at h
  split at h
  · simp only [Option.some.injEq] at h
    rw [← h]
    exact isRot_setRPY _ _ _
  · exact absurd h (by simp)
example : (msgCov fun _ => 1).PosSemidef := by
  have := Matrix.posSemidef_vecMulVec_self_star (fun _ : Fin 6 => (1 : ℝ))
  convert this using 1
  ext i j
  simp [msgCov, Matrix.vecMulVec_apply]

/-- C63: a sensor all of whose axes are used has all of them used whatever its mounting, one with none has none. -/
theorem C63_all_or_none {r : M3} (h : IsRot r) (i : Fin 3) :
    maskAxes r (fun _ => true) i = true ∧ maskAxes r (fun _ => false) i = false := by
  constructor
  · rw [maskAxes_eq]
    have := h.row i i
    simp at this
    rw [Fin.sum_univ_three]
    simp only [if_true]
    rw [show r i 0 ^ 2 + r i 1 ^ 2 + r i 2 ^ 2 = 1 by nlinarith]
    norm_num
  · rw [Bool.eq_false_iff]
    intro hm
    rw [maskAxes_eq] at hm
    norm_num at hm

theorem dbl_add_fin {a b : Dbl} (h : (a.add b).isFin = true) : a.isFin = true ∧ b.isFin = true := by
  cases a <;> cases b <;> simp only [Dbl.add] at h <;> try split at h
  all_goals simp_all [Dbl.isFin]

theorem dbl_smul_fin {r : ℝ} {a : Dbl} (h : (a.smul r).isFin = true) : a.isFin = true := by
  cases a <;> simp only [Dbl.smul] at h <;> try split at h
  all_goals simp_all [Dbl.isFin]

/-- C63, for a sensor whose axes are parallel to the axes of the robot: messages that agree in the used components give
measurements that agree in the used components. -/
theorem C63_unused_ignored_partial (c : PrepCtx) (hd : c.twoD = false) (m1 m2 : TwistMsg) (target : String) (p : Payload)
    (t : Tf) (hf : m1.frame = m2.frame) (hs : m1.stamp = m2.stamp)
    (hl : lookupTransformSafe c.buf target (if m1.frame = "" then target else m1.frame) m1.stamp = some t)
    (hax : ∀ i j k, j ≠ k → t.rot i j = 0 ∨ t.rot i k = 0)
    (hfin : ∀ i, (m1.lin i).isFin = true ∧ (m2.lin i).isFin = true ∧ (m1.ang i).isFin = true ∧ (m2.ang i).isFin = true)
    (hlin : ∀ i, p.upd (axis 6 (by omega) i) = true → m1.lin i = m2.lin i)
    (hang : ∀ i, p.upd (axis 9 (by omega) i) = true → m1.ang i = m2.ang i) :
    ∃ q1 q2, prepareTwist c m1 target p = some q1 ∧ prepareTwist c m2 target p = some q2 ∧ q1.upd = q2.upd ∧
      ∀ i : Fin 15, q1.upd i = true → q1.z i = q2.z i := by
  obtain ⟨q1, a1, a2, a3, a4, a5, a6, a7, a8⟩ := prepareTwist_val c hd m1 target p t hl
  obtain ⟨q2, b1, b2, b3, b4, b5, b6, b7, b8⟩ := prepareTwist_val c hd m2 target p t (by rw [← hf, ← hs]; exact hl)
  have key : ∀ (u : Fin 3 → Bool) (v w : Fin 3 → Dbl), (∀ i, (v i).isFin = true) → (∀ i, (w i).isFin = true) →
      (∀ i, u i = true → v i = w i) → ∀ i, maskAxes t.rot u i = true → mulDbl t.rot v i = mulDbl t.rot w i := by
    intro u v w hv hw huv i hm
    have e : ∀ d : Dbl, d.isFin = true → d = .fin d.val := by
      intro d hd; cases d <;> simp_all [Dbl.isFin]
    have ev : v = fun i => .fin (v i).val := funext fun i => e _ (hv i)
    have ew : w = fun i => .fin (w i).val := funext fun i => e _ (hw i)
    rw [ev, ew, mulDbl_fin, mulDbl_fin]
    congr 1
    rw [maskAxes_eq] at hm
    obtain ⟨j, hj⟩ : ∃ j, u j = true ∧ t.rot i j ≠ 0 := by
      by_contra hn
      push Not at hn
      have : (∑ j, if u j then t.rot i j ^ 2 else 0) = 0 := by
        refine Finset.sum_eq_zero fun j _ => ?_
        split
        · rename_i hu; rw [hn j hu]; ring
        · rfl
      rw [this] at hm
      norm_num at hm
    have hz : ∀ k, k ≠ j → t.rot i k = 0 := fun k hk => (hax i j k hk.symm).resolve_left hj.2
    have one : ∀ x : V3, t.rot.mulVec x i = t.rot i j * x j := by
      intro x
      rw [Matrix.mulVec, dotProduct, Finset.sum_eq_single j]
      · intro k _ hk; rw [hz k hk, zero_mul]
      · simp
    rw [one, one, huv j hj.1]
  have hu : q1.upd = q2.upd := by
    funext i
    by_cases hi : 6 ≤ i.val ∧ i.val < 12
    · by_cases h9 : i.val < 9
      · have ei : axis 6 (by omega) ⟨i.val - 6, by omega⟩ = i := Fin.ext (by simp [axis]; omega)
        have := (a5 ⟨i.val - 6, by omega⟩).trans (b5 ⟨i.val - 6, by omega⟩).symm
        rwa [ei] at this
      · have ei : axis 9 (by omega) ⟨i.val - 9, by omega⟩ = i := Fin.ext (by simp [axis]; omega)
        have := (a6 ⟨i.val - 9, by omega⟩).trans (b6 ⟨i.val - 9, by omega⟩).symm
        rwa [ei] at this
    · rw [(a7 i hi).1, (b7 i hi).1]
  refine ⟨q1, q2, a1, b1, hu, fun i hi => ?_⟩
  by_cases h : 6 ≤ i.val ∧ i.val < 12
  · by_cases h9 : i.val < 9
    · have ei : axis 6 (by omega) ⟨i.val - 6, by omega⟩ = i := Fin.ext (by simp [axis]; omega)
      have x1 := a2 ⟨i.val - 6, by omega⟩
      have x2 := b2 ⟨i.val - 6, by omega⟩
      have x3 := a5 ⟨i.val - 6, by omega⟩
      rw [ei] at x1 x2 x3
      rw [x1, x2, key _ _ _ (fun i => (hfin i).1) (fun i => (hfin i).2.1) hlin _ (x3.symm.trans hi)]
    · have ei : axis 9 (by omega) ⟨i.val - 9, by omega⟩ = i := Fin.ext (by simp [axis]; omega)
      have x1 := a3 ⟨i.val - 9, by omega⟩
      have x2 := b3 ⟨i.val - 9, by omega⟩
      have x3 := a6 ⟨i.val - 9, by omega⟩
      rw [ei] at x1 x2 x3
      rw [x1, x2, key _ _ _ (fun i => (hfin i).2.2.1) (fun i => (hfin i).2.2.2) hang _ (x3.symm.trans hi)]
  · rw [(a7 i h).2, (b7 i h).2]

/-- A quarter turn has axes parallel to those of the robot. -/
example : ∀ i j k, j ≠ k → (setRPY 0 0 (π / 2)) i j = 0 ∨ (setRPY 0 0 (π / 2)) i k = 0 := by
  intro i j k h
  fin_cases i <;> fin_cases j <;> fin_cases k <;> simp_all [setRPY]

/-- A sensor mounted at an angle of 45 degrees. -/
noncomputable def slantCtx : PrepCtx :=
  { demoCtx 0 with buf := fun _ _ _ => some { rot := setRPY 0 0 (π / 4), org := 0 } }

def onlyVx : Fin 15 → Bool := fun i => i == 6

/-- C63 fails for a sensor mounted at 45 degrees of which only the forward velocity is used: what it says about its
sideways velocity changes the measured forward velocity, and the sideways velocity of the robot is measured as well. -/
theorem C63_unused_leaks (v : ℝ) :
    ∃ q, prepareTwist slantCtx (twistOf "odom" 5 (![1, v, 0], 0) 0) "base_link" (blank onlyVx .unlimited) = some q ∧
      q.upd iVx = true ∧ q.upd iVy = true ∧ q.z iVx = .fin (√2 / 2 * (1 - v)) := by
  obtain ⟨q, h1, h2, -, -, h5, -⟩ := prepareTwist_val slantCtx rfl (twistOf "odom" 5 (![1, v, 0], 0) 0) "base_link"
    (blank onlyVx .unlimited) { rot := setRPY 0 0 (π / 4), org := 0 } rfl
  have hm : ∀ i : Fin 3, i ≠ 2 → maskAxes (setRPY 0 0 (π / 4)) (fun k => onlyVx (axis 6 (by omega) k)) i = true := by
    intro i hi
    rw [maskAxes_eq, Fin.sum_univ_three]
    have h2 : (√2 / 2) ^ 2 = (1 / 2 : ℝ) := by rw [div_pow, sq_sqrt (by norm_num)]; norm_num
    have h3 : (1e-6 : ℝ) ≤ √(1 / 2) := Real.le_sqrt_of_sq_le (by norm_num)
    fin_cases i
    · refine h3.trans_eq ?_
      congr 1
      simp [onlyVx, axis, setRPY, h2]
    · refine h3.trans_eq ?_
      congr 1
      simp [onlyVx, axis, setRPY, h2]
    · exact absurd rfl hi
  refine ⟨q, h1, ?_, ?_, ?_⟩
  · exact (h5 0).trans (hm 0 (by decide))
  · exact (h5 1).trans (hm 1 (by decide))
  · have := h2 0
    simp only [twistOf] at this
    rw [mulDbl_fin] at this
    refine this.trans ?_
    simp only [Dbl.add, mulVec3]
    congr 1
    simp [setRPY, cross]
    ring

/-- C63: a value that is not a number in a component that is not used makes the whole vector unusable, even for a sensor
at the origin that is not turned: the rotation multiplies it by zero, which is not a number either. -/
theorem C63_unused_nan_blocks (c : PrepCtx) (hd : c.twoD = false) (msg : TwistMsg) (target : String) (p : Payload) (t : Tf)
    (hl : lookupTransformSafe c.buf target (if msg.frame = "" then target else msg.frame) msg.stamp = some t)
    (k : Fin 3) (hn : (msg.lin k).isFin = false) :
    ∃ q, prepareTwist c msg target p = some q ∧ ∀ i ∈ q.indices, ¬ (6 ≤ i.val ∧ i.val < 9) := by
  obtain ⟨q, h1, h2, -⟩ := prepareTwist_val c hd msg target p t hl
  refine ⟨q, h1, fun i hi hr => ?_⟩
  have ei : axis 6 (by omega) ⟨i.val - 6, by omega⟩ = i := Fin.ext (by simp [axis]; omega)
  have x := h2 ⟨i.val - 6, by omega⟩
  rw [ei] at x
  have hf : (q.z i).isFin = true := by
    have := (List.mem_filter.mp hi).2
    clear x
    cases hz : q.z i <;> simp [hz, Dbl.isNan, Dbl.isInf, Dbl.isFin] at this ⊢
  rw [x] at hf
  have f1 := (dbl_add_fin hf).1
  unfold mulDbl at f1
  obtain ⟨f2, f3⟩ := dbl_add_fin f1
  obtain ⟨f4, f5⟩ := dbl_add_fin f2
  have : (msg.lin k).isFin = true := by
    fin_cases k
    · exact dbl_smul_fin f4
    · exact dbl_smul_fin f5
    · exact dbl_smul_fin f3
  rw [this] at hn
  exact absurd hn (by decide)

example : ∃ (c : PrepCtx) (msg : TwistMsg), c.twoD = false ∧
    lookupTransformSafe c.buf "base_link" (if msg.frame = "" then "base_link" else msg.frame) msg.stamp = some Tf.id ∧
    (msg.lin 2).isFin = false ∧ (msg.lin 0).isFin = true :=
  ⟨demoCtx 0, { twistOf "base_link" 5 (0, 0) 0 with lin := fun i => if i = 2 then .nan else .fin 1 }, rfl, rfl, rfl, rfl⟩

end RL
