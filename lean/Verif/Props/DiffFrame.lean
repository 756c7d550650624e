import Verif.Props.PoseFrames
/-!
# C115: the frame a differential input is given in does not matter
-/

namespace RL
open Matrix Real

/-- Two messages report the same pose with the same errors, the second one in a frame in which the frame of the first has
the pose `T`.  The names of the frames are free. -/
structure PoseMsg.SameFrom (T : Tf) (a b : PoseMsg) : Prop where
  stamp : b.stamp = a.stamp
  pose : msgPose b = T.mul (msgPose a)
  cov : copyCov6 b.cov = rot6d T.rot * copyCov6 a.cov * (rot6d T.rot)ᵀ

/-- Two measurements are of the same variables, with the same values and the same threshold. -/
structure Payload.Agrees (p q : Payload) : Prop where
  upd : p.upd = q.upd
  z : p.z = q.z
  thresh : p.thresh = q.thresh

/-- What a differential input makes of a sequence of poses: `mem` is the memory of `preparePose`, `last` the stamp of the
message before. -/
noncomputable def diffStream (c : PrepCtx) (topic target source : String) (relative : Bool) (p : Payload) :
    PoseMem → Int → List PoseMsg → List (Option Payload)
  | _, _, [] => []
  | mem, last, m :: ms =>
    (preparePose c mem last m topic target source true relative false p).2 ::
      diffStream c topic target source relative p (preparePose c mem last m topic target source true relative false p).1
        m.stamp ms

theorem inverseTimes_shift {T : Tf} (hT : IsRot T.rot) (A B : Tf) : (T.mul A).inverseTimes (T.mul B) = A.inverseTimes B := by
  have h1 : T.rotᵀ * T.rot = 1 := hT.transpose_mul
  apply Tf.ext
  · show (T.rot * A.rot)ᵀ * (T.rot * B.rot) = A.rotᵀ * B.rot
    rw [transpose_mul, Matrix.mul_assoc, ← Matrix.mul_assoc T.rotᵀ, h1, Matrix.one_mul]
  · show (T.rot * A.rot)ᵀ.mulVec ((T.rot.mulVec B.org + T.org) - (T.rot.mulVec A.org + T.org)) = A.rotᵀ.mulVec (B.org - A.org)
    rw [add_sub_add_right_eq_sub, ← mulVec_sub, mulVec_mulVec, transpose_mul, Matrix.mul_assoc, h1, Matrix.mul_one]

/-- `preparePose` in differential mode: the frame in the message is not looked at. -/
theorem preparePose_differential (c : PrepCtx) (hb : SaneBuf c.buf) (mem : PoseMem) (last : Int) (msg : PoseMsg)
    (topic target source : String) (ht : target ≠ "") (relative : Bool) (p : Payload) :
    (preparePose c mem last msg topic target source true relative false p).1.prev topic =
        some (msgPose msg, poseCov (sourceTf c source (poseLookupTime msg.stamp)) msg) ∧
      (preparePose c mem last msg topic target source true relative false p).2 =
        (mem.prev topic).bind (fun old => prepareTwist c
          (diffTwist Tf.id 1 (poseCov (sourceTf c source (poseLookupTime msg.stamp)) msg) old.1 old.2 (msgPose msg) last msg.stamp source)
          c.base { p with upd := diffUpd (poseUpd 1 p.upd) }) := by
  unfold preparePose
  have e1 : poseFrames c msg.frame target true false = (target, target) := by simp [poseFrames, ht]
  have q1 : (quatOf (1 : M3)).mat = 1 := (C43_matrix_to_quaternion IsRot.one).2
  have q3 : Tf.id.rot = 1 := rfl
  simp only [e1, hb.lookup_self]
  unfold poseWith
  simp only [q3, q1, rot6d_one, Bool.false_eq_true, if_false, if_true, Matrix.one_mul, transpose_one, Matrix.mul_one]
  exact ⟨trivial, trivial⟩

theorem twistPayload_agrees (c : PrepCtx) (t : Tf) {a b : TwistMsg} (hl : a.lin = b.lin) (ha : a.ang = b.ang) (p : Payload) :
    (twistPayload c t a p).Agrees (twistPayload c t b p) := by
  unfold twistPayload finish
  dsimp only
  rw [hl, ha]
  cases c.twoD <;> exact ⟨rfl, rfl, rfl⟩

/-- What two outputs have in common: nothing, or measurements that agree. -/
def OutAgrees : Option Payload → Option Payload → Prop
  | none, none => True
  | some p, some q => p.Agrees q
  | _, _ => False

theorem prepareTwist_agrees (c : PrepCtx) (target : String) {a b : TwistMsg} (hf : a.frame = b.frame) (hs : a.stamp = b.stamp)
    (hl : a.lin = b.lin) (ha : a.ang = b.ang) (p : Payload) :
    OutAgrees (prepareTwist c a target p) (prepareTwist c b target p) := by
  unfold prepareTwist
  rw [hf, hs]
  cases lookupTransformSafe c.buf target (if b.frame = "" then target else b.frame) b.stamp with
  | none => trivial
  | some t => exact twistPayload_agrees c t hl ha p

theorem diffTwist_shift {T : Tf} (hT : IsRot T.rot) (r6 c1 c1' c0 c0' : M6) (A B : Tf) (last stamp : Int) (source : String) :
    (diffTwist Tf.id r6 c1 A c0 B last stamp source).lin =
        (diffTwist Tf.id r6 c1' (T.mul A) c0' (T.mul B) last stamp source).lin ∧
      (diffTwist Tf.id r6 c1 A c0 B last stamp source).ang =
        (diffTwist Tf.id r6 c1' (T.mul A) c0' (T.mul B) last stamp source).ang := by
  unfold diffTwist
  dsimp only
  rw [inverseTimes_shift hT]
  exact ⟨rfl, rfl⟩

theorem diffTwist_frame (t : Tf) (r6 c1 c0 : M6) (A B : Tf) (last stamp : Int) (source : String) :
    (diffTwist t r6 c1 A c0 B last stamp source).frame = source := rfl

theorem diffTwist_stamp (t : Tf) (r6 c1 c0 : M6) (A B : Tf) (last stamp : Int) (source : String) :
    (diffTwist t r6 c1 A c0 B last stamp source).stamp = stamp := rfl

theorem differential_agrees (c : PrepCtx) {T : Tf} (hT : IsRot T.rot) (c1 c1' c0 c0' : M6) (A B : Tf) (last stamp : Int)
    (source target : String) (p : Payload) :
    OutAgrees (prepareTwist c (diffTwist Tf.id 1 c1 A c0 B last stamp source) target p)
      (prepareTwist c (diffTwist Tf.id 1 c1' (T.mul A) c0' (T.mul B) last stamp source) target p) :=
  prepareTwist_agrees c target ((diffTwist_frame ..).trans (diffTwist_frame ..).symm)
    ((diffTwist_stamp ..).trans (diffTwist_stamp ..).symm) (diffTwist_shift hT 1 c1 c1' c0 c0' A B last stamp source).1
    (diffTwist_shift hT 1 c1 c1' c0 c0' A B last stamp source).2 p

/-- C115: the velocities a differential input measures, and which variables it measures, do not depend on the frame its
poses are given in, for whole sequences of poses, any mounting, and in two-dimensional mode too. -/
theorem C115_velocities (c : PrepCtx) (hb : SaneBuf c.buf) (topic target source : String) (ht : target ≠ "") (relative : Bool)
    (p : Payload) {T : Tf} (hT : IsRot T.rot) (as bs : List PoseMsg) (h : List.Forall₂ (PoseMsg.SameFrom T) as bs)
    (mem mem' : PoseMem) (h0 : mem.prev topic = none) (h0' : mem'.prev topic = none) (last : Int) :
    List.Forall₂ OutAgrees (diffStream c topic target source relative p mem last as)
      (diffStream c topic target source relative p mem' last bs) := by
  have key : ∀ (as bs : List PoseMsg), List.Forall₂ (PoseMsg.SameFrom T) as bs → ∀ (mem mem' : PoseMem) (last : Int),
      ((mem.prev topic = none ∧ mem'.prev topic = none) ∨ ∃ A C C', mem.prev topic = some (A, C) ∧ mem'.prev topic = some (T.mul A, C')) →
      List.Forall₂ OutAgrees (diffStream c topic target source relative p mem last as)
        (diffStream c topic target source relative p mem' last bs) := by
    intro as bs h
    induction h with
    | nil => intro mem mem' last _; exact List.Forall₂.nil
    | @cons x y _ _ hab _ ih =>
      intro mem mem' last hm
      unfold diffStream
      obtain ⟨e1, e2⟩ := preparePose_differential c hb mem last x topic target source ht relative p
      obtain ⟨f1, f2⟩ := preparePose_differential c hb mem' last y topic target source ht relative p
      refine List.Forall₂.cons ?_ ?_
      · rw [e2, f2]
        rcases hm with ⟨h1, h2⟩ | ⟨A, C, C', h1, h2⟩
        · rw [h1, h2]; trivial
        · rw [h1, h2]
          simp only [Option.bind_some]
          rw [hab.stamp, hab.pose]
          exact differential_agrees c hT _ _ _ _ _ _ _ _ _ _ _
      · rw [hab.stamp]
        rw [hab.pose] at f1
        exact ih _ _ _ (Or.inr ⟨_, _, _, e1, f1⟩)
  exact key as bs h mem mem' last (Or.inl ⟨h0, h0'⟩)

theorem poseCov_congr (src : Option Tf) {a b : PoseMsg} (h : copyCov6 b.cov = copyCov6 a.cov) : poseCov src b = poseCov src a := by
  unfold poseCov
  rw [h]

theorem diffTwist_shift_eq {T : Tf} (hT : IsRot T.rot) (r6 c1 c0 : M6) (A B : Tf) (last stamp : Int) (source : String) :
    diffTwist Tf.id r6 c1 (T.mul A) c0 (T.mul B) last stamp source = diffTwist Tf.id r6 c1 A c0 B last stamp source := by
  unfold diffTwist
  dsimp only
  rw [inverseTimes_shift hT]

/-- C115, covariances: nothing at all depends on the frame if turning from one frame to the other leaves the covariances
of the poses as they are.  Missing: other covariances, for which the claim is false (`C115_turned`). -/
theorem C115_same_partial (c : PrepCtx) (hb : SaneBuf c.buf) (topic target source : String) (ht : target ≠ "") (relative : Bool)
    (p : Payload) {T : Tf} (hT : IsRot T.rot) (as bs : List PoseMsg) (h : List.Forall₂ (PoseMsg.SameFrom T) as bs)
    (hc : ∀ a ∈ as, rot6d T.rot * copyCov6 a.cov * (rot6d T.rot)ᵀ = copyCov6 a.cov)
    (mem mem' : PoseMem) (h0 : mem.prev topic = none) (h0' : mem'.prev topic = none) (last : Int) :
    diffStream c topic target source relative p mem last as = diffStream c topic target source relative p mem' last bs := by
  have key : ∀ (as bs : List PoseMsg), List.Forall₂ (PoseMsg.SameFrom T) as bs →
      (∀ a ∈ as, rot6d T.rot * copyCov6 a.cov * (rot6d T.rot)ᵀ = copyCov6 a.cov) → ∀ (mem mem' : PoseMem) (last : Int),
      ((mem.prev topic = none ∧ mem'.prev topic = none) ∨ ∃ A C, mem.prev topic = some (A, C) ∧ mem'.prev topic = some (T.mul A, C)) →
      diffStream c topic target source relative p mem last as = diffStream c topic target source relative p mem' last bs := by
    intro as bs h
    induction h with
    | nil => intro _ mem mem' last _; rfl
    | @cons x y _ _ hab _ ih =>
      intro hc mem mem' last hm
      have hxy : copyCov6 y.cov = copyCov6 x.cov := by rw [hab.cov, hc x (List.mem_cons_self ..)]
      unfold diffStream
      obtain ⟨e1, e2⟩ := preparePose_differential c hb mem last x topic target source ht relative p
      obtain ⟨f1, f2⟩ := preparePose_differential c hb mem' last y topic target source ht relative p
      rw [hab.stamp, hab.pose, poseCov_congr _ hxy] at f1 f2
      refine congrArg₂ List.cons ?_ ?_
      · rw [e2, f2]
        rcases hm with ⟨h1, h2⟩ | ⟨A, C, h1, h2⟩
        · simp only [h1, h2, Option.bind_none]
        · rw [h1, h2]
          simp only [Option.bind_some]
          rw [diffTwist_shift_eq hT]
      · rw [hab.stamp]
        exact ih (fun a ha => hc a (List.mem_cons_of_mem _ ha)) _ _ _ (Or.inr ⟨_, _, e1, f1⟩)
  exact key as bs h hc mem mem' last (Or.inl ⟨h0, h0'⟩)

/-- C115 for frames that differ by a shift only: the origin of the frame of a differential input does not matter. -/
theorem C115_shift (c : PrepCtx) (hb : SaneBuf c.buf) (topic target source : String) (ht : target ≠ "") (relative : Bool)
    (p : Payload) (o : V3) (as bs : List PoseMsg) (h : List.Forall₂ (PoseMsg.SameFrom ⟨1, o⟩) as bs)
    (mem mem' : PoseMem) (h0 : mem.prev topic = none) (h0' : mem'.prev topic = none) (last : Int) :
    diffStream c topic target source relative p mem last as = diffStream c topic target source relative p mem' last bs := by
  refine C115_same_partial c hb topic target source ht relative p IsRot.one as bs h (fun a _ => ?_) mem mem' h0 h0' last
  show rot6d 1 * copyCov6 a.cov * (rot6d 1)ᵀ = copyCov6 a.cov
  rw [rot6d_one, Matrix.one_mul, transpose_one, Matrix.mul_one]

/-- A covariance that is the same in all directions: `a` for each coordinate of the position, `b` for each angle. -/
def Isotropic (C : M6) : Prop := ∃ a b : ℝ, C = diagonal fun i => if i.val < 3 then a else b

theorem Isotropic.turned {C : M6} (h : Isotropic C) {r : M3} (hr : IsRot r) : rot6d r * C * (rot6d r)ᵀ = C := by
  obtain ⟨a, b, rfl⟩ := h
  have e : rot6d r * diagonal (fun i : Fin 6 => if i.val < 3 then a else b) =
      diagonal (fun i : Fin 6 => if i.val < 3 then a else b) * rot6d r := by
    ext i j
    rw [mul_diagonal, diagonal_mul]
    unfold rot6d
    simp only [of_apply]
    by_cases h1 : i.val < 3 <;> by_cases h2 : j.val < 3 <;> simp [h1, h2, mul_comm]
  rw [e, Matrix.mul_assoc, rot6d_mul_transpose hr, Matrix.mul_one]

/-- C115 for poses whose errors are the same in all directions: the frame does not matter. -/
theorem C115_isotropic (c : PrepCtx) (hb : SaneBuf c.buf) (topic target source : String) (ht : target ≠ "") (relative : Bool)
    (p : Payload) {T : Tf} (hT : IsRot T.rot) (as bs : List PoseMsg) (h : List.Forall₂ (PoseMsg.SameFrom T) as bs)
    (hc : ∀ a ∈ as, Isotropic (copyCov6 a.cov))
    (mem mem' : PoseMem) (h0 : mem.prev topic = none) (h0' : mem'.prev topic = none) (last : Int) :
    diffStream c topic target source relative p mem last as = diffStream c topic target source relative p mem' last bs :=
  C115_same_partial c hb topic target source ht relative p hT as bs h (fun a ha => (hc a ha).turned hT) mem mem' h0 h0' last

/-- Why the covariances should be turned: errors `e0`, `e1` of two positions, in the axes of the frame of the poses, make
an error of the measured displacement along the axes of the robot, turned by its heading. -/
theorem C115_position_error (A B : Tf) (e0 e1 : V3) :
    (Tf.inverseTimes ⟨A.rot, A.org + e0⟩ ⟨B.rot, B.org + e1⟩).org - (A.inverseTimes B).org = A.rotᵀ.mulVec (e1 - e0) := by
  show A.rotᵀ.mulVec (B.org + e1 - (A.org + e0)) - A.rotᵀ.mulVec (B.org - A.org) = _
  rw [← mulVec_sub]
  congr 1
  abel

/-! A robot that drives one metre forward in a second, reported in two frames, the second turned about the vertical. -/

/-- The angle with sine 24/25 and cosine 7/25. -/
noncomputable def turn345 : Tf := ⟨!![7/25, -24/25, 0; 24/25, 7/25, 0; 0, 0, 1], 0⟩

/-- Along `x` the position is known better than along `y`. -/
def covAlong : M6 := diagonal ![625, 1250, 1, 1, 1, 1]

noncomputable def along (x : ℝ) (t : Int) : PoseMsg := ⟨"odom", t, ![x, 0, 0], ⟨0, 0, 0, 1⟩, copyOut6 covAlong⟩

noncomputable def across (x : ℝ) (t : Int) : PoseMsg :=
  ⟨"map", t, ![7/25 * x, 24/25 * x, 0], ⟨0, 0, 3/5, 4/5⟩, copyOut6 (rot6d turn345.rot * covAlong * (rot6d turn345.rot)ᵀ)⟩

theorem turn345_isRot : IsRot turn345.rot := by
  have : turn345.rot = (Quat.mat ⟨0, 0, 3/5, 4/5⟩) := by
    ext i j
    fin_cases i <;> fin_cases j <;> simp [turn345, Quat.mat, Quat.len2] <;> norm_num
  rw [this]
  apply isRot_quat
  simp [Quat.len2]
  norm_num

theorem across_same (x : ℝ) (t : Int) : PoseMsg.SameFrom turn345 (along x t) (across x t) where
  stamp := rfl
  pose := by
    apply Tf.ext
    · ext i j
      fin_cases i <;> fin_cases j <;>
        simp [msgPose, across, along, turn345, Tf.mul, Quat.mat, Quat.len2] <;> norm_num
    · ext i
      fin_cases i <;> simp [msgPose, across, along, turn345, Tf.mul, mul_comm]
  cov := by
    unfold across along
    dsimp only
    rw [copyCov6_copyOut6, copyCov6_copyOut6]

/-- One step of a differential input one second after the step before, for poses of the base. -/
theorem diffStream_two (c : PrepCtx) (hb : SaneBuf c.buf) (hd : c.twoD = false) (topic target : String) (ht : target ≠ "")
    (relative : Bool) (p : Payload) (mem : PoseMem) (h0 : mem.prev topic = none) (last : Int) (m0 m1 : PoseMsg)
    (hs : m1.stamp = m0.stamp + 1000000000) :
    ∃ q, diffStream c topic target c.base relative p mem last [m0, m1] = [none, some q] ∧
      ∀ i j : Fin 6, q.R ⟨6 + i.val, by omega⟩ ⟨6 + j.val, by omega⟩ = copyCov6 m0.cov i j + copyCov6 m1.cov i j := by
  obtain ⟨e1, e2⟩ := preparePose_differential c hb mem last m0 topic target c.base ht relative p
  have e3 : sourceTf c c.base (poseLookupTime m0.stamp) = none := by simp [sourceTf]
  rw [e3] at e1
  obtain ⟨q, hq, hR⟩ := C64_one_second_partial c hb hd _ m0.stamp m1 topic target ht relative p _ _ e1 hs
  refine ⟨q, ?_, fun i j => ?_⟩
  · unfold diffStream diffStream diffStream
    rw [e2, h0, hq]
    rfl
  · rw [hR]
    simp [Body.velocityCov, poseCov]

/-- C115 fails for covariances that depend on the direction: the same drive gives the forward speed a variance of 1250 or
of 2402, depending on the frame it is reported in.  By `C115_position_error` 1250 is right, for both: the robot heads along
the axis that has the variance 625. -/
theorem C115_turned (c : PrepCtx) (hb : SaneBuf c.buf) (hd : c.twoD = false) (topic target : String) (ht : target ≠ "")
    (relative : Bool) (p : Payload) (mem : PoseMem) (h0 : mem.prev topic = none) (last : Int) :
    List.Forall₂ (PoseMsg.SameFrom turn345) [along 0 0, along 1 1000000000] [across 0 0, across 1 1000000000] ∧
    ∃ q q', diffStream c topic target c.base relative p mem last [along 0 0, along 1 1000000000] = [none, some q] ∧
      diffStream c topic target c.base relative p mem last [across 0 0, across 1 1000000000] = [none, some q'] ∧
      q.R 6 6 = 1250 ∧ q'.R 6 6 = 2402 := by
  refine ⟨.cons (across_same _ _) (.cons (across_same _ _) .nil), ?_⟩
  obtain ⟨q, hq, hR⟩ := diffStream_two c hb hd topic target ht relative p mem h0 last (along 0 0) (along 1 1000000000) rfl
  obtain ⟨q', hq', hR'⟩ := diffStream_two c hb hd topic target ht relative p mem h0 last (across 0 0) (across 1 1000000000) rfl
  have e : copyCov6 (along 0 0).cov = covAlong ∧ copyCov6 (along 1 1000000000).cov = covAlong :=
    ⟨copyCov6_copyOut6 covAlong, copyCov6_copyOut6 covAlong⟩
  have e' : (rot6d turn345.rot * covAlong * (rot6d turn345.rot)ᵀ) 0 0 = 1201 := by
    unfold covAlong
    rw [Matrix.mul_apply]
    simp only [mul_diagonal, transpose_apply, Fin.sum_univ_six]
    simp [rot6d, turn345]
    norm_num
  refine ⟨q, q', hq, hq', ?_, ?_⟩
  · have := hR 0 0
    rw [e.1, e.2] at this
    rw [show covAlong 0 0 = 625 by simp [covAlong]] at this
    exact this.trans (by norm_num)
  · have := hR' 0 0
    rw [(across_same _ _).cov, (across_same _ _).cov, e.1, e.2, e'] at this
    exact this.trans (by norm_num)

/-- The hypotheses of `C115_velocities` and `C115_same_partial` can be met. -/
example (c : PrepCtx) (hb : SaneBuf c.buf) (p : Payload) :
    List.Forall₂ OutAgrees
      (diffStream c "odom0" "odom" "base_link" false p ⟨fun _ => none, fun _ => none⟩ 0 [along 0 0, along 1 1000000000])
      (diffStream c "odom0" "odom" "base_link" false p ⟨fun _ => none, fun _ => none⟩ 0 [across 0 0, across 1 1000000000]) :=
  C115_velocities c hb "odom0" "odom" "base_link" (by decide) false p turn345_isRot _ _
    (.cons (across_same _ _) (.cons (across_same _ _) .nil)) _ _ rfl rfl 0

example : Isotropic (diagonal ![2, 2, 2, 1, 1, 1]) := ⟨2, 1, by
  congr 1
  ext i
  fin_cases i <;> simp⟩

/-- Two drives that differ by a shift of the frame. -/
theorem along_shifted (x : ℝ) (t : Int) :
    PoseMsg.SameFrom ⟨1, ![5, 0, 0]⟩ (along x t) ⟨"map", t, ![x + 5, 0, 0], ⟨0, 0, 0, 1⟩, copyOut6 covAlong⟩ where
  stamp := rfl
  pose := by
    apply Tf.ext
    · simp [msgPose, along, Tf.mul]
    · ext i
      fin_cases i <;> simp [msgPose, along, Tf.mul]
  cov := by
    show _ = rot6d 1 * _ * (rot6d 1)ᵀ
    rw [rot6d_one, Matrix.one_mul, transpose_one, Matrix.mul_one]
    rfl

example (c : PrepCtx) (hb : SaneBuf c.buf) (p : Payload) :
    diffStream c "odom0" "odom" "base_link" false p ⟨fun _ => none, fun _ => none⟩ 0 [along 0 0, along 1 1000000000] =
      diffStream c "odom0" "odom" "base_link" false p ⟨fun _ => none, fun _ => none⟩ 0
        [⟨"map", 0, ![0 + 5, 0, 0], ⟨0, 0, 0, 1⟩, copyOut6 covAlong⟩,
          ⟨"map", 1000000000, ![1 + 5, 0, 0], ⟨0, 0, 0, 1⟩, copyOut6 covAlong⟩] :=
  C115_shift c hb "odom0" "odom" "base_link" (by decide) false p _ _ _
    (.cons (along_shifted _ _) (.cons (along_shifted _ _) .nil)) _ _ rfl rfl 0

end RL
